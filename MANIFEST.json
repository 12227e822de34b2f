{
 "claims": [
  {
   "property": "C01",
   "status": "partial",
   "theorems": [
    "Bdld.getValidData_correct",
    "Bdld.getValidData_stale"
   ],
   "note": "Proved whenever the window does not cross the block boundary; the boundary case returns stale rows and is proved as such."
  },
  {
   "property": "C02",
   "status": "proved",
   "theorems": [
    "Bdld.trajectory_files",
    "Bdld.trajectory_files_complete",
    "Bdld.trajCfg_new_pos"
   ],
   "note": "All schedules of steps and additional writes."
  },
  {
   "property": "C03",
   "status": "proved",
   "theorems": [
    "Bdld.trajectory_no_filename"
   ],
   "note": ""
  },
  {
   "property": "C04",
   "status": "partial",
   "theorems": [
    "Bdld.seriesCfg_new",
    "Bdld.series_file_partial",
    "Bdld.series_file_boundary",
    "Bdld.series_file_false",
    "Bdld.series_no_file"
   ],
   "note": "Proved except for 0 < n % write_stride < stride, where it is false: the last block is written twice (exact result and witness proved)."
  },
  {
   "property": "C05",
   "status": "proved",
   "theorems": [
    "Bdld.series_no_stride"
   ],
   "note": ""
  },
  {
   "property": "C06",
   "status": "partial",
   "theorems": [
    "Bdld.histCfg_new",
    "Bdld.histogram_during_partial",
    "Bdld.histogram_final_partial",
    "Bdld.histogram_final_file",
    "Bdld.histogram_final_nofile",
    "Bdld.histogram_final_false",
    "Bdld.histogram_final_false_file_lost",
    "Bdld.histogram_final_false_file_double",
    "Bdld.histogram_final_false_nofile",
    "Bdld.histogram_final_false_stride"
   ],
   "note": "Exact content proved for all cases; it differs from the claim: last block counted twice or remainder lost (negation proved)."
  },
  {
   "property": "C07",
   "status": "partial",
   "theorems": [
    "Bdld.histogram_file_independent_partial",
    "Bdld.histogram_file_independent_during_partial",
    "Bdld.histogram_file_independent_false"
   ],
   "note": "Holds if the stride divides the write stride and n is a multiple of it; otherwise false (witness proved)."
  },
  {
   "property": "C08",
   "status": "partial",
   "theorems": [
    "Bdld.histogram_new_data",
    "Bdld.histogram_new_partial",
    "Bdld.histogram_new_ranges_partial",
    "Bdld.histogram_clear",
    "Bdld.histogram_new_false"
   ],
   "note": "False when the ranges contain the origin: one count too many (witness proved)."
  },
  {
   "property": "C09",
   "status": "proved",
   "theorems": [
    "Bdld.histogram_add",
    "Bdld.histogram_add_total",
    "Bdld.histogram_bin_unique",
    "Bdld.histogram_add_perm",
    "Bdld.histogram_add_append",
    "Bdld.linEdges_good",
    "Bdld.npEdges_good"
   ],
   "note": ""
  },
  {
   "property": "C10",
   "status": "partial",
   "theorems": [
    "Bdld.histogram_reset_partial",
    "Bdld.histogram_reset_final_partial",
    "Bdld.histogram_reset_file",
    "Bdld.histogram_reset_false",
    "Bdld.histogram_reset_last_false"
   ],
   "note": "Holds for resets at multiples of the trajectory write stride before the last step; otherwise false (witnesses proved)."
  },
  {
   "property": "C100",
   "status": "partial",
   "theorems": [
    "Bdld.densityGrid_partial",
    "Bdld.densityGrid_dimension_false",
    "Bdld.densityGrid_single_false"
   ],
   "note": "false: the shape uses walker_pos[1].ndim, which is 1 in all dimensions, so that reshape raises ValueError in more than one dimension and IndexError is raised for a single walker; the claim holds in one dimension with at least two walkers (the density of the point contains the kernel of the point itself)"
  },
  {
   "property": "C101",
   "status": "proved",
   "theorems": [
    "Bdld.selection_distribution",
    "Bdld.selection_law",
    "Bdld.selection_marginal",
    "Bdld.partner_distribution"
   ],
   "note": "that numpy's generator produces independent uniform numbers is a hypothesis; selection is shown for one call of rng.random, the partner for one call of rng.integers, their joint distribution is not treated; selected means accepted, an accepted walker that was killed before triggers nothing (C15)"
  },
  {
   "property": "C102",
   "status": "proved",
   "theorems": [
    "Bdld.rates_zero_iff",
    "Bdld.bd_equilibrium",
    "Bdld.bd_not_equilibrium"
   ],
   "note": "original variant; random number exactly 0 is excluded (it is accepted for rate 0, see C24)"
  },
  {
   "property": "C103",
   "status": "partial",
   "theorems": [
    "Bdld.bulk_copy_partial",
    "Bdld.bulk_copy_false",
    "Bdld.bulk_twice_false"
   ],
   "note": "false: the partner of a walker with positive rate may have been replaced earlier in the same step, so that a walker selected to be killed can survive unchanged; a walker can be replaced twice; holds for all events without these coincidences"
  },
  {
   "property": "C104",
   "status": "proved",
   "theorems": [
    "Bdld.event_rate",
    "Bdld.event_drift"
   ],
   "note": "mode without recalculation; numbers of the generator independent and uniform by hypothesis (structure IdealNumbers, which has an instance)"
  },
  {
   "property": "C105",
   "status": "proved",
   "theorems": [
    "Bdld.correction_line",
    "Bdld.main_simulation_line",
    "Bdld.Spec.Line.smooth_pos",
    "Bdld.Spec.Line.fromCoarse_point",
    "Bdld.Spec.Line.fromCoarse_outside",
    "Bdld.line_run"
   ],
   "note": "exact real arithmetic; griddata in one dimension by its contract; the kernel is evaluated off centre by Spec.Line.offset (C75)"
  },
  {
   "property": "C106",
   "status": "proved",
   "theorems": [
    "Bdld.fes_accuracy",
    "Bdld.fes_ideal",
    "Bdld.deltaF_accuracy",
    "Bdld.main_fes_accuracy"
   ],
   "note": "exact real arithmetic"
  },
  {
   "property": "C107",
   "status": "proved",
   "theorems": [
    "Bdld.bussi_deviation",
    "Bdld.verlet_energy",
    "Bdld.bussi_stationary",
    "Bdld.harmonic_bias",
    "Bdld.harmonic_not_canonical",
    "Bdld.overdamped_stationary"
   ],
   "note": "exact real arithmetic; independent standard normal numbers; no boundary condition"
  },
  {
   "property": "C108",
   "status": "partial",
   "theorems": [
    "Bdld.reflective_atom",
    "Bdld.reflective_no_density",
    "Bdld.reflective_not_reversible",
    "Bdld.periodic_escape",
    "Bdld.periodic_path",
    "Bdld.periodic_reversible_partial",
    "Bdld.periodic_edge_not_reversible",
    "Bdld.stepMap_step"
   ],
   "note": "false for reflective: positions beyond an edge are set to the edge, so after every step the edges have positive probability, no distribution with a density is stationary, and different states are mapped to the same one; false for periodic: steps longer than a period end outside, and a walker exactly at an edge comes back at the other edge; the motion on the circle and reversibility from positions inside the ranges are proved"
  },
  {
   "property": "C109",
   "status": "proved",
   "theorems": [
    "Bdld.ld_rounding",
    "Bdld.walker_rounding",
    "Bdld.euler_closed",
    "Bdld.euler_bound",
    "Bdld.inside_reflective",
    "Bdld.spring_rounding"
   ],
   "note": "Langevin dynamics without birth-death; error of the computed force and of the constants enter as bounds; periodic boundary, and reflective boundary with momenta, are not continuous and not covered"
  },
  {
   "property": "C11",
   "status": "proved",
   "theorems": [
    "Bdld.bd_length",
    "Bdld.bd_run_length",
    "Bdld.bd_moves"
   ],
   "note": ""
  },
  {
   "property": "C110",
   "status": "proved",
   "theorems": [
    "Bdld.birthDeath_same",
    "Bdld.birthDeath_rounding",
    "Bdld.run_rounding",
    "Bdld.float_run_rounding",
    "Bdld.dynSteps_walkers",
    "Bdld.spring_birthDeath"
   ],
   "note": "margins are conditions on the exact run; in the mode with recalculation they are required for all intermediate states of a step; the generators return numbers that are the same floats in both runs"
  },
  {
   "property": "C111",
   "status": "proved",
   "theorems": [
    "Bdld.near_rates",
    "Bdld.near_prob",
    "Bdld.rateBound_float",
    "Bdld.float_run_rounding",
    "Bdld.rates_exact",
    "Bdld.demo_errors",
    "Bdld.spring_birthDeath"
   ],
   "note": "finite rates only (bounded distances); constants such as the heights and the interpolated correction enter with given error bounds; exp and log of numpy enter by a contract on their errors"
  },
  {
   "property": "C112",
   "status": "partial",
   "theorems": [
    "Bdld.seriesCfg_rejects",
    "Bdld.histCfg_rejects",
    "Bdld.checkOutput_rejects",
    "Bdld.setupDistribution_rejects",
    "Bdld.setupDeltaF_rejects",
    "Bdld.setupHistogram_rejects",
    "Bdld.setupFes_rejects",
    "Bdld.main_rejects_partial",
    "Bdld.seriesCfg_documented_false",
    "Bdld.demo_main_clash"
   ],
   "note": "false as documented: delta F and particle distribution accept a write stride without filename if no stride is given (the write stride is then ignored); the rejection ends in an uncaught ValueError"
  },
  {
   "property": "C113",
   "status": "proved",
   "theorems": [
    "Bdld.printedValue_error",
    "Bdld.printedValue_exact",
    "Bdld.printedValue_int",
    "Bdld.roundEven_mono",
    "Bdld.row_words",
    "Bdld.readTable_lines",
    "Bdld.readTable_file",
    "Bdld.readTable_grid",
    "Bdld.printed_table",
    "Bdld.fmtFixed_length",
    "Bdld.grid_text_one",
    "Bdld.grid_text_two",
    "Bdld.ints_words",
    "Bdld.readNats_file"
   ],
   "note": "formats of the form %w.pf (the default is %14.9f) and %d; exact numbers, therefore neither negative zero nor nan; constants of headers are given texts without line breaks"
  },
  {
   "property": "C114",
   "status": "partial",
   "theorems": [
    "Bdld.trajectory_text",
    "Bdld.trajectories_fields",
    "Bdld.histogram_text_one",
    "Bdld.histogram_text_two",
    "Bdld.fes_text_one",
    "Bdld.fes_text_two",
    "Bdld.stats_text",
    "Bdld.trajectory_header",
    "Bdld.stats_header",
    "Bdld.distribution_text_partial",
    "Bdld.deltaF_text_partial"
   ],
   "note": "distribution and delta F only if the last write is not empty (C83, C84 are false otherwise); no file exists for three dimensions (C87)"
  },
  {
   "property": "C115",
   "status": "partial",
   "theorems": [
    "Bdld.trajectory_times_partial",
    "Bdld.printedTime_strict_partial",
    "Bdld.printedTime_mono",
    "Bdld.printedTime_false"
   ],
   "note": "false for time steps below the last printed digit"
  },
  {
   "property": "C116",
   "status": "proved",
   "theorems": [
    "Bdld.fes_rounding",
    "Bdld.deltaF_rounding",
    "Bdld.double_errors",
    "Bdld.double_fits",
    "Bdld.calculateFesF_exact",
    "Bdld.calculateDeltaFF_exact",
    "Bdld.demo_deltaF_rounding"
   ],
   "note": "exp and log by their contract; free energy differences for populated states"
  },
  {
   "property": "C117",
   "status": "proved",
   "theorems": [
    "Bdld.input_accepted",
    "Bdld.finished_described",
    "Bdld.ld_iff",
    "Bdld.potential_iff",
    "Bdld.particles_iff",
    "Bdld.birthDeath_iff",
    "Bdld.histogram_iff",
    "Bdld.fes_iff",
    "Bdld.states_iff",
    "Bdld.exInput_described",
    "Bdld.exInput_deltaF"
   ],
   "note": "the number of dimensions may be any positive number (see C55); conversion of texts to numbers is abstract; the file is given as sections and options (for its text see C118)"
  },
  {
   "property": "C118",
   "status": "proved",
   "theorems": [
    "Bdld.layout_config",
    "Bdld.layout_section",
    "Bdld.layout_twice",
    "Bdld.same_meaning",
    "Bdld.same_values",
    "Bdld.comment_ignored",
    "Bdld.comment_main",
    "Bdld.twice_main",
    "Bdld.text_described",
    "Bdld.indented_line",
    "Bdld.headerless_rejected",
    "Bdld.undelimited_rejected",
    "Bdld.list_spaces",
    "Bdld.exText_layout",
    "Bdld.exText'_layout"
   ],
   "note": "configparser of the standard library with default settings; names of options in ASCII; spaces in lists under the contract that int() and float() ignore them"
  },
  {
   "property": "C119",
   "status": "proved",
   "theorems": [
    "Bdld.default_shared",
    "Bdld.default_overridden",
    "Bdld.default_hidden",
    "Bdld.withDefaults_get"
   ],
   "note": "values without percent signs (otherwise C78)"
  },
  {
   "property": "C12",
   "status": "proved",
   "theorems": [
    "Bdld.bd_events_wellFormed"
   ],
   "note": ""
  },
  {
   "property": "C120",
   "status": "partial",
   "theorems": [
    "Bdld.bandwidth_partial",
    "Bdld.bandwidth_length",
    "Bdld.bandwidth_scalar",
    "Bdld.bandwidth_finished",
    "Bdld.bandwidth_false"
   ],
   "note": "false for the Müller-Brown potential with n_dim: 1: uncaught TypeError"
  },
  {
   "property": "C121",
   "status": "proved",
   "theorems": [
    "Bdld.pyInt_iff",
    "Bdld.pyFloat_iff",
    "Bdld.pyFloat_inf",
    "Bdld.pyFloat_nan",
    "Bdld.pyFloat_none",
    "Bdld.textConv_float",
    "Bdld.textConv_int",
    "Bdld.textConv_ignores",
    "Bdld.int_float",
    "Bdld.readNumber_float",
    "Bdld.fmtFixed_float",
    "Bdld.toDigits_int",
    "Bdld.neg_int"
   ],
   "note": "ASCII digits; exact values (before rounding to a double); inf and nan are recognised but are no numbers of the model"
  },
  {
   "property": "C122",
   "status": "proved",
   "theorems": [
    "Bdld.line_progress",
    "Bdld.example_runs",
    "Bdld.example_system",
    "Bdld.example_trajectories",
    "Bdld.example_histogram",
    "Bdld.example_read",
    "Bdld.example_parse",
    "Bdld.example_consistent"
   ],
   "note": "griddata by its contract in one dimension; with recalculated probabilities the random numbers must be positive (C86); exact numbers"
  },
  {
   "property": "C123",
   "status": "proved",
   "theorems": [
    "Bdld.poly_energy_rounding",
    "Bdld.poly_force_rounding",
    "Bdld.poly_energy_near",
    "Bdld.poly_force_near",
    "Bdld.poly_nearCfg_force",
    "Bdld.polyF_new",
    "Bdld.poly_exact",
    "Bdld.well_rounding",
    "Bdld.polyF_dims"
   ],
   "note": "bounds of the positions at least 1; coefficients are the given floats; no overflow is a hypothesis"
  },
  {
   "property": "C124",
   "status": "proved",
   "theorems": [
    "Bdld.linEdgesF_near",
    "Bdld.histogramF_new",
    "Bdld.binIndexF_same",
    "Bdld.binIndexF_neighbour",
    "Bdld.binOfF_same",
    "Bdld.histogramF_add",
    "Bdld.histogramF_add_same",
    "Bdld.histogramF_series_same",
    "Bdld.fes_of_positions",
    "Bdld.well_histogram",
    "Bdld.histogramF_exact"
   ],
   "note": "ranges with minimum below maximum; no overflow is a hypothesis; counts are natural numbers"
  },
  {
   "property": "C125",
   "status": "proved",
   "theorems": [
    "Bdld.pyWords_iff",
    "Bdld.coeffWords_iff",
    "Bdld.genfromtxt_lines",
    "Bdld.genfromtxt_ragged",
    "Bdld.coeff_text_potential",
    "Bdld.wolfeQuapp_lines",
    "Bdld.wolfeQuapp_energy",
    "Bdld.wolfeQuapp_potential",
    "Bdld.looseFloat_iff",
    "Bdld.looseFloat_other"
   ],
   "note": "at least two rows (a single row is the defect of C35); no exponents listed twice; exact numbers"
  },
  {
   "property": "C126",
   "status": "proved",
   "theorems": [
    "Bdld.space_progress",
    "Bdld.quapp_runs",
    "Bdld.brown_runs",
    "Bdld.quapp_consistent",
    "Bdld.brown_consistent",
    "Bdld.approxGrid_space"
   ],
   "note": "griddata by the contract that it returns one value per position; with recalculated probabilities the random numbers must be positive (C86); exact numbers; memory is not modelled"
  },
  {
   "property": "C127",
   "status": "proved",
   "theorems": [
    "Bdld.mb_energy_near",
    "Bdld.mb_force_near",
    "Bdld.mbF_evaluate",
    "Bdld.mb_energy_lip",
    "Bdld.mb_force_lip",
    "Bdld.mb_nearCfg_force",
    "Bdld.mb_energy_53",
    "Bdld.mb_force_53",
    "Bdld.mb_force_demo",
    "Bdld.mbF_exact"
   ],
   "note": "exponential and square by a contract on their relative errors; no overflow is a hypothesis, met in the ranges of the potential"
  },
  {
   "property": "C128",
   "status": "partial",
   "theorems": [
    "Bdld.default_written_partial",
    "Bdld.default_written_fails",
    "Bdld.default_written_false",
    "Bdld.misspelled_ignored"
   ],
   "note": "false for write-stride of delta-f and particle-distribution without filename: the default then raises an uncaught ValueError; the default of fmt is C78; the option aproximation-variant of the documentation is ignored"
  },
  {
   "property": "C129",
   "status": "proved",
   "theorems": [
    "Bdld.interpolate_iff",
    "Bdld.interpolate_error",
    "Bdld.reference_loop",
    "Bdld.reference_chain",
    "Bdld.string_option_iff",
    "Bdld.Spec.Resolves.unique"
   ],
   "note": "configparser is part of the Python library, its default interpolation is modelled after its source; names in ASCII"
  },
  {
   "property": "C13",
   "status": "proved",
   "theorems": [
    "Bdld.random_other_bijective",
    "Bdld.randomOther_eq"
   ],
   "note": ""
  },
  {
   "property": "C130",
   "status": "proved",
   "theorems": [
    "Bdld.frictionless_newton",
    "Bdld.frictionless_energy",
    "Bdld.newton_global",
    "Bdld.newton_second_order",
    "Bdld.newton_exists",
    "Bdld.newton_energy",
    "Bdld.poly_newton",
    "Bdld.mb_newton"
   ],
   "note": "real arithmetic; newton_global has the explicit constants"
  },
  {
   "property": "C131",
   "status": "proved",
   "theorems": [
    "Bdld.overdamped_generator",
    "Bdld.bussi_generator",
    "Bdld.smoluchowski_wave",
    "Bdld.kramers_wave"
   ],
   "note": "real arithmetic, standard normal random numbers; plane waves determine the distribution"
  },
  {
   "property": "C132",
   "status": "proved",
   "theorems": [
    "Bdld.bussi_limit",
    "Bdld.bussi_diverges",
    "Bdld.bussi_bounded",
    "Bdld.overdamped_limit"
   ],
   "note": "real arithmetic; harmonic potentials with the coordinates as axes, no boundary condition"
  },
  {
   "property": "C133",
   "status": "proved",
   "theorems": [
    "Bdld.runs_meet",
    "Bdld.bussi_converges",
    "Bdld.overdamped_converges",
    "Bdld.contracts_converges",
    "Bdld.contracts_tendsto",
    "Bdld.convex_contracts",
    "Bdld.convex_contracts_one",
    "Bdld.overdamped_runs_meet",
    "Bdld.overdamped_distributions_meet"
   ],
   "note": "real arithmetic; dynamics with momenta only for harmonic potentials; independent standard normal random numbers; without birth-death"
  },
  {
   "property": "C134",
   "status": "proved",
   "theorems": [
    "Bdld.exit_iff_error",
    "Bdld.faults_reported",
    "Bdld.text_faults_reported",
    "Bdld.missing_file_reported",
    "Bdld.parse_cause",
    "Bdld.setup_cause",
    "Bdld.error_shown",
    "Bdld.shown_levels"
   ],
   "note": "exceptions that are not caught are no part of it (see C59, C120); the explanation at the end of a message about an option is a parameter"
  },
  {
   "property": "C135",
   "status": "proved",
   "theorems": [
    "Bdld.warning_iff",
    "Bdld.no_warning",
    "Bdld.warning_meaning",
    "Bdld.log_resets",
    "Bdld.log_empty",
    "Bdld.run_log",
    "Bdld.example_log",
    "Bdld.demo_log_run"
   ],
   "note": "the meaning of the warning for histograms without resets whose stride divides the write stride or with trajectory files, and runs that are at least as long as the FES stride"
  },
  {
   "property": "C136",
   "status": "proved",
   "theorems": [
    "Bdld.finished_output",
    "Bdld.mainP_finished",
    "Bdld.finished_message_iff",
    "Bdld.steps_message_iff",
    "Bdld.setup_message_iff",
    "Bdld.printed_potential",
    "Bdld.example_output"
   ],
   "note": "texts of floats are a parameter; a seed 0 is not printed, and the number of particles is that of the input file (see C61 for the fractions)"
  },
  {
   "property": "C137",
   "status": "proved",
   "theorems": [
    "Bdld.deltaF_warning_iff",
    "Bdld.write_warning_iff",
    "Bdld.plot_warning_iff",
    "Bdld.deltaF_without_warning",
    "Bdld.demo_warning"
   ],
   "note": ""
  },
  {
   "property": "C138",
   "status": "proved",
   "theorems": [
    "Bdld.deltaFX_spec",
    "Bdld.deltaFX_finite",
    "Bdld.main_deltaFX",
    "Bdld.main_stateCounts_mono",
    "Bdld.deltaFX_stays_finite",
    "Bdld.example_deltaF"
   ],
   "note": ""
  },
  {
   "property": "C139",
   "status": "proved",
   "theorems": [
    "Bdld.kde_uniform",
    "Bdld.rates_many",
    "Bdld.rates_many_orig",
    "Bdld.rates_many_mult",
    "Bdld.rates_many_add",
    "Bdld.accept_many_mult",
    "Bdld.limitRate_zero_iff",
    "Bdld.sample_exists"
   ],
   "note": "the corrections are taken to be exact; the tabulated ones of the code are the subject of C75-C77 and C105"
  },
  {
   "property": "C14",
   "status": "partial",
   "theorems": [
    "Bdld.bd_bulk_events_partial",
    "Bdld.bd_roles_recalc_false",
    "Bdld.bd_roles_recalc_false'"
   ],
   "note": "Proved in bulk mode; in the recalculating mode the roles are exchanged (witnesses proved)."
  },
  {
   "property": "C140",
   "status": "proved",
   "theorems": [
    "Bdld.particle_no_momentum",
    "Bdld.particle_momentum",
    "Bdld.particle_lengths",
    "Bdld.particle_scalar",
    "Bdld.init_momentum_ok",
    "Bdld.init_momentum_wrong",
    "Bdld.create_particle",
    "Bdld.create_particle_wrong",
    "Bdld.create_particle_number"
   ],
   "note": ""
  },
  {
   "property": "C141",
   "status": "partial",
   "theorems": [
    "Bdld.event_rate_recalc",
    "Bdld.event_drift_recalc",
    "Bdld.event_drift_signs",
    "Bdld.event_rate_recalc_false",
    "Bdld.event_rate_recalc_witness",
    "Bdld.idealLoop_exists"
   ],
   "note": "false: the loop with recalculated rates exchanges killing and duplication; the derivative is that of the negated rates"
  },
  {
   "property": "C142",
   "status": "proved",
   "theorems": [
    "Bdld.deltaFX_text",
    "Bdld.readTableX_series",
    "Bdld.seriesTextX_finite",
    "Bdld.seriesX_program",
    "Bdld.example_deltaF_text"
   ],
   "note": ""
  },
  {
   "property": "C143",
   "status": "partial",
   "theorems": [
    "Bdld.prompt_partial",
    "Bdld.prompt_first",
    "Bdld.prompt_skip",
    "Bdld.prompt_eof",
    "Bdld.prompt_saved",
    "Bdld.savePlot_spec",
    "Bdld.prompt_false",
    "Bdld.savePlot_false",
    "Bdld.fesPlot_prompt"
   ],
   "note": "false: a second name with an unknown format ends the program with ValueError, and a name in the input file that cannot be written with OSError; true if all names given by the user have known formats"
  },
  {
   "property": "C144",
   "status": "proved",
   "theorems": [
    "Bdld.commandLine_iff",
    "Bdld.command_main",
    "Bdld.code_two",
    "Bdld.code_zero",
    "Bdld.help_asked",
    "Bdld.command_documented",
    "Bdld.command_level"
   ],
   "note": ""
  },
  {
   "property": "C145",
   "status": "partial",
   "theorems": [
    "Bdld.parseFmt_text",
    "Bdld.readFloats_file",
    "Bdld.sciParts_normal",
    "Bdld.sciParts_error",
    "Bdld.print_length",
    "Bdld.sign_flags",
    "Bdld.print_default",
    "Bdld.formatOf_given",
    "Bdld.formatOf_default",
    "Bdld.trajectory_format",
    "Bdld.deltaF_format_partial",
    "Bdld.fes_format_one_partial",
    "Bdld.fes_format_two_partial",
    "Bdld.zero_flag_inf"
   ],
   "note": "false for infinite values with the flag 0, which are filled with zeros; in the input the percent sign must be doubled (C78); formats other than f and e are not modelled"
  },
  {
   "property": "C146",
   "status": "proved",
   "theorems": [
    "Bdld.kde_mean",
    "Bdld.kde_variance",
    "Bdld.kde_deviation",
    "Bdld.walker_mean",
    "Bdld.walker_bias"
   ],
   "note": "independent walkers (as drawn at the start); exact numbers"
  },
  {
   "property": "C147",
   "status": "partial",
   "theorems": [
    "Bdld.read_general",
    "Bdld.generalValue_error",
    "Bdld.generalValue_mono",
    "Bdld.digits4_shows",
    "Bdld.percentage_fixed",
    "Bdld.report_printed",
    "Bdld.hundred_percent_partial",
    "Bdld.hundred_percent_false",
    "Bdld.demo_report"
   ],
   "note": "exact quotients; false for 100.0%: 99996 of 100000 are shown as 100.0%, proved for less than 20000 attempts"
  },
  {
   "property": "C148",
   "status": "partial",
   "theorems": [
    "Bdld.main_units",
    "Bdld.main_units_bussi",
    "Bdld.potential_units",
    "Bdld.initial_units",
    "Bdld.bussi_units",
    "Bdld.newParticle_units",
    "Bdld.boundary_units",
    "Bdld.overdamped_units_partial",
    "Bdld.overdamped_units_false",
    "Bdld.rates_units",
    "Bdld.decisions_units",
    "Bdld.dynSteps_units",
    "Bdld.bin_units",
    "Bdld.fes_units",
    "Bdld.deltaF_units",
    "Bdld.inState_units",
    "Bdld.histogram_units_false",
    "Bdld.correction_units_line",
    "Bdld.main_units_line",
    "Bdld.multiplicative_units_false",
    "Bdld.multiplicative_demo",
    "Bdld.hist_units",
    "Bdld.fesAt_units",
    "Bdld.units_demo"
   ],
   "note": "false for overdamped dynamics (kT and friction fixed by the program) unless the units of energy and of diffusion stay the same, and for the count at the origin of a new histogram; false for the multiplicative correction if walkers leave the range of the potential; in one dimension the corrections are converted correctly otherwise (main_units_line), in more dimensions this is a hypothesis about the interpolated tables"
  },
  {
   "property": "C149",
   "status": "partial",
   "theorems": [
    "Bdld.longer_setup",
    "Bdld.longer_trajectories",
    "Bdld.longer_records",
    "Bdld.longer_distribution",
    "Bdld.longer_deltaF",
    "Bdld.longer_grids",
    "Bdld.longer_counters",
    "Bdld.longer_histAt",
    "Bdld.longer_distribution_false",
    "Bdld.short_demo"
   ],
   "note": "false for the time series if the shorter run ends between a write and the next multiple of the stride, where rows are written once more; free energy differences proved for states with counts"
  },
  {
   "property": "C15",
   "status": "proved",
   "theorems": [
    "Bdld.bd_bulk_events_partial"
   ],
   "note": "The C15 part of the theorem is complete; it is called partial because of C14."
  },
  {
   "property": "C150",
   "status": "proved",
   "theorems": [
    "Bdld.setupHistogram_requested",
    "Bdld.main_bins",
    "Bdld.requested_cell",
    "Bdld.main_cells",
    "Bdld.requested_centers",
    "Bdld.example_bins"
   ],
   "note": "counts for ranges that are not empty and histograms that are not reset, with the sample at the origin of C08; in exact arithmetic"
  },
  {
   "property": "C151",
   "status": "partial",
   "theorems": [
    "Bdld.main_disk_partial",
    "Bdld.clear_names",
    "Bdld.disk_only",
    "Bdld.disk_shared",
    "Bdld.main_disk_false",
    "Bdld.simulateD_fst",
    "Bdld.runAction_files",
    "Bdld.finalAction_files",
    "Bdld.example_disk"
   ],
   "note": "false if two actions get the same file name (accepted by the program, main_disk_false) and for existing files that have the name of a plot; proved for all runs whose files have different names. Grids in one or two dimensions; figures that are saved without asking for a name"
  },
  {
   "property": "C152",
   "status": "proved",
   "theorems": [
    "Bdld.stopped_disk",
    "Bdld.stopped_later",
    "Bdld.stopped_prefix",
    "Bdld.stopped_run",
    "Bdld.stopped_trajectories",
    "Bdld.stopped_distribution",
    "Bdld.stopped_deltaF_count",
    "Bdld.stopped_records",
    "Bdld.stopped_histogram",
    "Bdld.stopped_fes",
    "Bdld.stopped_finished",
    "Bdld.halt_simulate",
    "Bdld.example_stopped",
    "Bdld.demo_exception"
   ],
   "note": "for runs whose files have different names (C151); what a call that raises has written before the exception is not modelled"
  },
  {
   "property": "C153",
   "status": "proved",
   "theorems": [
    "Bdld.histogram_frequency",
    "Bdld.histogram_never",
    "Bdld.histogram_deviation",
    "Bdld.fes_limit",
    "Bdld.deltaF_limit",
    "Bdld.canonical_near",
    "Bdld.canonical_fes",
    "Bdld.binRegion_volume",
    "Bdld.canonicalIn_near"
   ],
   "note": "real arithmetic, independent samples"
  },
  {
   "property": "C154",
   "status": "proved",
   "theorems": [
    "Bdld.main_walker_law",
    "Bdld.main_walkers_indep",
    "Bdld.main_walkers_indep_at",
    "Bdld.main_region_spread",
    "Bdld.main_histogram_spread",
    "Bdld.noisePath_law",
    "Bdld.noisePath_indep",
    "Bdld.average_spread",
    "Bdld.vectors_different",
    "Bdld.vectors_disjoint"
   ],
   "note": "real arithmetic, ideal random numbers, given starts"
  },
  {
   "property": "C155",
   "status": "proved",
   "theorems": [
    "Bdld.main_long_histogram",
    "Bdld.main_long_fes",
    "Bdld.main_bussi_histogram",
    "Bdld.main_overdamped_histogram",
    "Bdld.main_bussi_fes",
    "Bdld.settles_bussi",
    "Bdld.settles_euler",
    "Bdld.countedSteps_many",
    "Bdld.countedSteps_none",
    "Bdld.countedSteps_twice"
   ],
   "note": "real arithmetic, ideal random numbers, starts from a finite set"
  },
  {
   "property": "C156",
   "status": "proved",
   "theorems": [
    "Bdld.main_long_deltaF",
    "Bdld.main_bussi_deltaF",
    "Bdld.main_overdamped_deltaF",
    "Bdld.main_overdamped_fes",
    "Bdld.stateShare_pos"
   ],
   "note": "real arithmetic, ideal random numbers, starts from a finite set, delta-f without stride"
  },
  {
   "property": "C157",
   "status": "proved",
   "theorems": [
    "Bdld.box_converges",
    "Bdld.box_positive",
    "Bdld.box_walls",
    "Bdld.box_not_canonical",
    "Bdld.box_no_density",
    "Bdld.setupPotential_continuous",
    "Bdld.main_box_histogram",
    "Bdld.main_box_fes",
    "Bdld.main_box_deltaF"
   ],
   "note": "real arithmetic, ideal random numbers; runs: starts from a finite set"
  },
  {
   "property": "C158",
   "status": "proved",
   "theorems": [
    "Bdld.escape_probability",
    "Bdld.escape_no_stationary",
    "Bdld.escape_not_settles",
    "Bdld.run_steep",
    "Bdld.main_escape"
   ],
   "note": "real arithmetic, ideal random numbers, one dimension"
  },
  {
   "property": "C159",
   "status": "proved",
   "theorems": [
    "Bdld.bussi_escape_probability",
    "Bdld.bussi_no_stationary",
    "Bdld.bussi_free_no_stationary",
    "Bdld.bussi_not_settles",
    "Bdld.main_bussi_escape"
   ],
   "note": "real arithmetic, ideal random numbers, one dimension"
  },
  {
   "property": "C16",
   "status": "proved",
   "theorems": [
    "Bdld.wf_independent",
    "Bdld.heap_refines"
   ],
   "note": ""
  },
  {
   "property": "C160",
   "status": "proved",
   "theorems": [
    "Bdld.doubling_probability",
    "Bdld.overdamped_doubling",
    "Bdld.bussi_doubling",
    "Bdld.mueller_steep",
    "Bdld.mueller_no_stationary",
    "Bdld.mueller_not_settles",
    "Bdld.main_mueller_overdamped",
    "Bdld.main_mueller_bussi"
   ],
   "note": "real arithmetic, ideal random numbers"
  },
  {
   "property": "C161",
   "status": "proved",
   "theorems": [
    "Bdld.periodic_overdamped_doubling",
    "Bdld.periodic_bussi_doubling",
    "Bdld.periodic_mueller_no_stationary",
    "Bdld.periodic_mueller_not_settles",
    "Bdld.main_periodic_overdamped",
    "Bdld.main_periodic_bussi",
    "Bdld.ring_no_stationary",
    "Bdld.ring_not_settles",
    "Bdld.main_ring_overdamped",
    "Bdld.main_ring_bussi"
   ],
   "note": "real arithmetic, ideal random numbers"
  },
  {
   "property": "C162",
   "status": "proved",
   "theorems": [
    "Bdld.sum_doubling",
    "Bdld.sum_no_stationary",
    "Bdld.sum_not_settles",
    "Bdld.main_sum_overdamped",
    "Bdld.main_sum_bussi",
    "Bdld.run_quapp"
   ],
   "note": "real arithmetic, ideal random numbers"
  },
  {
   "property": "C17",
   "status": "proved",
   "theorems": [
    "Bdld.bd_copies",
    "Bdld.bd_moves"
   ],
   "note": ""
  },
  {
   "property": "C18",
   "status": "proved",
   "theorems": [
    "Bdld.bd_stats_bulk",
    "Bdld.bd_stats_recalc",
    "Bdld.bd_stats_history",
    "Bdld.bd_recalc_repeated_event"
   ],
   "note": ""
  },
  {
   "property": "C19",
   "status": "proved",
   "theorems": [
    "Bdld.acceptProb_spec",
    "Bdld.acceptProb_mono",
    "Bdld.acceptProb_infinite",
    "Bdld.bd_real_bulk"
   ],
   "note": ""
  },
  {
   "property": "C20",
   "status": "proved",
   "theorems": [
    "Bdld.rates_eq",
    "Bdld.rates_sum",
    "Bdld.rates_energy_shift",
    "Bdld.rates_translate",
    "Bdld.rates_permute",
    "Bdld.rates_single"
   ],
   "note": ""
  },
  {
   "property": "C21",
   "status": "proved",
   "theorems": [
    "Bdld.density_manual",
    "Bdld.density_pdist",
    "Bdld.density_agree"
   ],
   "note": ""
  },
  {
   "property": "C22",
   "status": "proved",
   "theorems": [
    "Bdld.kernel_eq_normal",
    "Bdld.kernel_shape",
    "Bdld.kernel_integral"
   ],
   "note": ""
  },
  {
   "property": "C23",
   "status": "proved",
   "theorems": [
    "Bdld.density_lower_bound",
    "Bdld.rates_finite"
   ],
   "note": ""
  },
  {
   "property": "C24",
   "status": "partial",
   "theorems": [
    "Bdld.bd_real_total_partial",
    "Bdld.bd_total_bulk_partial",
    "Bdld.bd_total_recalc_partial",
    "Bdld.bd_total_single_false",
    "Bdld.bd_total_recalc_false"
   ],
   "note": "Proved for at least two walkers (recalculating mode: if rate 0 is never accepted); false otherwise (witnesses proved)."
  },
  {
   "property": "C25",
   "status": "proved",
   "theorems": [
    "Bdld.bd_schedule",
    "Bdld.bd_attempts"
   ],
   "note": ""
  },
  {
   "property": "C26",
   "status": "partial",
   "theorems": [
    "Bdld.reproducible_partial",
    "Bdld.reproducible_false"
   ],
   "note": "true unless the birth-death seed is 0, which is treated like a missing seed (witness: two finished runs with different walkers)"
  },
  {
   "property": "C27",
   "status": "partial",
   "theorems": [
    "Bdld.variant_partial",
    "Bdld.variant_unknown",
    "Bdld.variant_known_main",
    "Bdld.variant_unknown_main",
    "Bdld.variant_false",
    "Bdld.approxFromStr_spec",
    "Bdld.getApproxVariant_spec"
   ],
   "note": "the variant chosen is right; an unknown name raises an uncaught TypeError instead of exiting with code 1"
  },
  {
   "property": "C28",
   "status": "proved",
   "theorems": [
    "Bdld.reflective_spec",
    "Bdld.reflective_idempotent",
    "Bdld.boundary_index_error"
   ],
   "note": ""
  },
  {
   "property": "C29",
   "status": "partial",
   "theorems": [
    "Bdld.periodic_spec_partial",
    "Bdld.periodic_false"
   ],
   "note": "only one period is added or subtracted (applied once per coordinate), so a coordinate more than one range length outside stays outside; what holds: a coordinate less than one range length outside is wrapped correctly, the momentum is untouched, and the shift is always -1, 0 or 1 range length"
  },
  {
   "property": "C30",
   "status": "proved",
   "theorems": [
    "Bdld.bc_option",
    "Bdld.bc_applied"
   ],
   "note": ""
  },
  {
   "property": "C31",
   "status": "proved",
   "theorems": [
    "Bdld.poly_energy",
    "Bdld.poly_force",
    "Bdld.poly_new"
   ],
   "note": ""
  },
  {
   "property": "C32",
   "status": "proved",
   "theorems": [
    "Bdld.mb_evaluate",
    "Bdld.mb_force"
   ],
   "note": ""
  },
  {
   "property": "C33",
   "status": "partial",
   "theorems": [
    "Bdld.mb_doc_partial",
    "Bdld.mb_shift_partial",
    "Bdld.mb_shift_evaluate_partial",
    "Bdld.mb_doc_false"
   ],
   "note": "the third prefactor in the code is -175 instead of the documented -170, so the documented formula is false; with -175 it holds"
  },
  {
   "property": "C34",
   "status": "partial",
   "theorems": [
    "Bdld.mb_scaling_exact_partial",
    "Bdld.mb_scaling_partial",
    "Bdld.mb_scaling_false"
   ],
   "note": "the scaling multiplies the class attribute in place, so factors of consecutively created potentials compound, and a factor of 0 is ignored; what holds: the exact factor as product over the creation history, and the claim for the first potential with non-zero factor"
  },
  {
   "property": "C35",
   "status": "partial",
   "theorems": [
    "Bdld.coeff_file_partial",
    "Bdld.coeff_file_energy_partial",
    "Bdld.coeff_file_false",
    "Bdld.npIndex_iff",
    "Bdld.npIndex_error"
   ],
   "note": "a file with a single row is read by np.loadtxt as 1-D array and raises IndexError; for two or more rows the claim is proved"
  },
  {
   "property": "C36",
   "status": "partial",
   "theorems": [
    "Bdld.prob_density_partial",
    "Bdld.prob_density_value_partial",
    "Bdld.prob_density_error",
    "Bdld.prob_density_3d_wrong"
   ],
   "note": "proved in 1 and 2 dimensions; in 3 dimensions the values are stored at the wrong points because points() lists them in another order (witness proved); positivity and normalisation hold in every dimension"
  },
  {
   "property": "C37",
   "status": "proved",
   "theorems": [
    "Bdld.foldl_min_spec",
    "Bdld.npMin_spec",
    "Bdld.reference_spec",
    "Bdld.reference_plain"
   ],
   "note": ""
  },
  {
   "property": "C38",
   "status": "proved",
   "theorems": [
    "Bdld.ld_consistent",
    "Bdld.ld_c2"
   ],
   "note": ""
  },
  {
   "property": "C39",
   "status": "proved",
   "theorems": [
    "Bdld.thermostat_constants",
    "Bdld.thermostat_off",
    "Bdld.thermostat_invariant",
    "Bdld.ld_c2"
   ],
   "note": ""
  },
  {
   "property": "C40",
   "status": "proved",
   "theorems": [
    "Bdld.bussi_frictionless",
    "Bdld.ld_frictionless",
    "Bdld.ld_time_reversible"
   ],
   "note": ""
  },
  {
   "property": "C41",
   "status": "proved",
   "theorems": [
    "Bdld.overdamped_rule",
    "Bdld.overdamped_rule_free",
    "Bdld.overdamped_euler_maruyama",
    "Bdld.overdamped_displacement",
    "Bdld.overdamped_distribution"
   ],
   "note": ""
  },
  {
   "property": "C42",
   "status": "proved",
   "theorems": [
    "Bdld.ld_walker_path",
    "Bdld.ld_walker_independent"
   ],
   "note": ""
  },
  {
   "property": "C43",
   "status": "proved",
   "theorems": [
    "Bdld.ld_reflective_inside",
    "Bdld.ld_no_error",
    "Bdld.ld_index_error"
   ],
   "note": ""
  },
  {
   "property": "C44",
   "status": "proved",
   "theorems": [
    "Bdld.add_particle_dim",
    "Bdld.add_particle_new",
    "Bdld.add_particle_append",
    "Bdld.add_particle_insert",
    "Bdld.add_particle_overwrite",
    "Bdld.remove_particle_spec",
    "Bdld.add_particle_insert_all",
    "Bdld.add_particle_overwrite_all",
    "Bdld.remove_particle_all",
    "Bdld.remove_added",
    "Bdld.remove_appended"
   ],
   "note": "all integers as index; index -1 means the end for insertion"
  },
  {
   "property": "C45",
   "status": "partial",
   "theorems": [
    "Bdld.points_rowMajor_partial",
    "Bdld.points_3d_partial",
    "Bdld.points_3d_wrong",
    "Bdld.points_perm_partial",
    "Bdld.set_from_func_partial",
    "Bdld.set_from_func_3d_wrong",
    "Bdld.axes_uniform",
    "Bdld.from_npoints_axes"
   ],
   "note": "true in 1 and 2 dimensions; in 3 dimensions the order is wrong (witness and the exact order proved); in every dimension each point is listed exactly once"
  },
  {
   "property": "C46",
   "status": "partial",
   "theorems": [
    "Bdld.from_npoints_spaced",
    "Bdld.from_npoints_total",
    "Bdld.from_npoints_one",
    "Bdld.from_stepsizes_covers",
    "Bdld.from_stepsizes_shrink_partial",
    "Bdld.from_stepsizes_shrink_exact",
    "Bdld.from_stepsizes_total"
   ],
   "note": "with shrink a range that is a whole number of steps falls short by exactly one step (proved); otherwise by less than one step"
  },
  {
   "property": "C47",
   "status": "partial",
   "theorems": [
    "Bdld.math_on_self_partial",
    "Bdld.arith_num_partial",
    "Bdld.arith_array_partial",
    "Bdld.arith_grid_partial",
    "Bdld.arith_error_partial",
    "Bdld.arith_broadcast_partial",
    "Bdld.arith_single_point",
    "Bdld.grid_eq_iff"
   ],
   "note": "holds for grids without a dimension of a single point; with one, every operation raises ZeroDivisionError in copy_empty (witness proved)"
  },
  {
   "property": "C48",
   "status": "partial",
   "theorems": [
    "Bdld.convFull_eq",
    "Bdld.convolve_stepsizes",
    "Bdld.convolve_full",
    "Bdld.convolve_same",
    "Bdld.convolve_valid_partial",
    "Bdld.convolve_valid_equal",
    "Bdld.spConvolve_axes",
    "Bdld.spConvolve_full"
   ],
   "note": "mode valid with equal numbers of points in a dimension raises ZeroDivisionError (proved); otherwise the claim is proved"
  },
  {
   "property": "C49",
   "status": "proved",
   "theorems": [
    "Bdld.sparsify_spec",
    "Bdld.sparsify_points",
    "Bdld.sparsify_small"
   ],
   "note": ""
  },
  {
   "property": "C50",
   "status": "proved",
   "theorems": [
    "Bdld.nd_trapz_eq",
    "Bdld.nd_trapz_linear",
    "Bdld.nd_trapz_const",
    "Bdld.nd_trapz_reverse",
    "Bdld.nd_trapz_swap",
    "Bdld.nd_trapz_mono"
   ],
   "note": ""
  },
  {
   "property": "C51",
   "status": "proved",
   "theorems": [
    "Bdld.bd_grid_points",
    "Bdld.kernel_points_inside",
    "Bdld.kernel_resolution",
    "Bdld.bd_prob_density_points"
   ],
   "note": ""
  },
  {
   "property": "C52",
   "status": "proved",
   "theorems": [
    "Bdld.option_missing",
    "Bdld.option_default",
    "Bdld.section_complete",
    "Bdld.section_missing",
    "Bdld.section_reports_missing",
    "Bdld.section_value",
    "Bdld.section_accepts",
    "Bdld.toBool_iff"
   ],
   "note": ""
  },
  {
   "property": "C53",
   "status": "proved",
   "theorems": [
    "Bdld.option_condition",
    "Bdld.option_condition_violated",
    "Bdld.positive_spec",
    "Bdld.positiveOrZero_spec",
    "Bdld.allPositive_spec",
    "Bdld.input_valid"
   ],
   "note": "input_valid lists type and range of every option of an input that passes the parser"
  },
  {
   "property": "C54",
   "status": "partial",
   "theorems": [
    "Bdld.option_unparsable_partial",
    "Bdld.list_unparsable_valueError",
    "Bdld.list_unparsable_false"
   ],
   "note": "holds for scalar options; false for list options, which raise ValueError (witness proved)"
  },
  {
   "property": "C55",
   "status": "partial",
   "theorems": [
    "Bdld.at_most_3dim_partial",
    "Bdld.at_most_3dim_false"
   ],
   "note": "false: `x > 0 & x < 4` accepts every positive number because & binds stronger than the comparisons (witness n_dim = 4)"
  },
  {
   "property": "C56",
   "status": "proved",
   "theorems": [
    "Bdld.numbered_section",
    "Bdld.numbered_section_error",
    "Bdld.numbered_dict"
   ],
   "note": ""
  },
  {
   "property": "C57",
   "status": "proved",
   "theorems": [
    "Bdld.state_options",
    "Bdld.state_options_differ",
    "Bdld.state_options_none",
    "Bdld.state_options_inv"
   ],
   "note": ""
  },
  {
   "property": "C58",
   "status": "partial",
   "theorems": [
    "Bdld.ranges_numbers",
    "Bdld.ranges_exact",
    "Bdld.ranges_partial",
    "Bdld.ranges_flat",
    "Bdld.ranges_mismatch_false"
   ],
   "note": "false: the chained comparison `a != b != n_dim` misses mismatches of later states (witness proved); exact behaviour is given by ranges_exact"
  },
  {
   "property": "C59",
   "status": "partial",
   "theorems": [
    "Bdld.missing_file",
    "Bdld.missing_section",
    "Bdld.dependencies",
    "Bdld.missing_trajectories",
    "Bdld.missing_histogram_uncaught",
    "Bdld.dependencies_false"
   ],
   "note": "no simulation is run if a dependency is missing; but [fes] without [histogram] ends with an uncaught NoSectionError"
  },
  {
   "property": "C60",
   "status": "proved",
   "theorems": [
    "Bdld.section_congr",
    "Bdld.unknown_ignored"
   ],
   "note": "values are those after interpolation, so an unknown key used as %(key)s in a known value counts as part of that value"
  },
  {
   "property": "C61",
   "status": "partial",
   "theorems": [
    "Bdld.fractionCounts_sum",
    "Bdld.fractions_total_partial",
    "Bdld.fractionCounts_exact",
    "Bdld.fractions_partial",
    "Bdld.fractions_mismatch",
    "Bdld.init_fractions_partial",
    "Bdld.init_fractions_mismatch",
    "Bdld.fractions_negative_false"
   ],
   "note": "holds for non-negative fractions with positive sum; with negative fractions the number of particles can be wrong (witness proved)"
  },
  {
   "property": "C62",
   "status": "proved",
   "theorems": [
    "Bdld.random_global",
    "Bdld.random_global_dims",
    "Bdld.random_pos",
    "Bdld.random_pos_error",
    "Bdld.init_random_global",
    "Bdld.init_random_pos"
   ],
   "note": "from the contracts of Generator.uniform and Generator.choice"
  },
  {
   "property": "C63",
   "status": "proved",
   "theorems": [
    "Bdld.fes_spec",
    "Bdld.fes_properties",
    "Bdld.fes_empty",
    "Bdld.fes_scale",
    "Bdld.fes_no_bins",
    "Bdld.freeEnergy_top",
    "Bdld.freeEnergy_min",
    "Bdld.freeEnergy_diff"
   ],
   "note": ""
  },
  {
   "property": "C64",
   "status": "proved",
   "theorems": [
    "Bdld.deltaF_spec",
    "Bdld.deltaF_shift",
    "Bdld.histoDeltaF",
    "Bdld.deltaF_chain",
    "Bdld.deltaF_wrong_size"
   ],
   "note": ""
  },
  {
   "property": "C65",
   "status": "partial",
   "theorems": [
    "Bdld.setupDeltaF_1d_partial",
    "Bdld.setupDeltaF_nd_fails",
    "Bdld.setupDeltaF_nd_error"
   ],
   "note": "true in 1 dimension; in 2 and more dimensions the masks have the wrong shape and the set-up raises ValueError (witness proved)"
  },
  {
   "property": "C66",
   "status": "proved",
   "theorems": [
    "Bdld.posInside_spec",
    "Bdld.posInside_error",
    "Bdld.countParticles_spec",
    "Bdld.countParticles_le",
    "Bdld.countParticles_none"
   ],
   "note": ""
  },
  {
   "property": "C67",
   "status": "partial",
   "theorems": [
    "Bdld.main_fes",
    "Bdld.main_fes_kt_partial",
    "Bdld.main_fes_kt_false"
   ],
   "note": "false: the value in [fes] is required but ignored, kT of the dynamics is used (1 for overdamped dynamics); witness: a finished run with kt = 2; what holds: the final FES is kT ln(max/count) of the final histogram with kT of the dynamics"
  },
  {
   "property": "C68",
   "status": "proved",
   "theorems": [
    "Bdld.backup_spec",
    "Bdld.exec_spec",
    "Bdld.files_kept",
    "Bdld.files_untouched",
    "Bdld.opsOk_program",
    "Bdld.files_series",
    "Bdld.files_grid",
    "Bdld.files_grid_false",
    "Bdld.backupNumber_total",
    "Bdld.files_plot",
    "Bdld.files_plot_false",
    "Bdld.files_only"
   ],
   "note": "file system as map from path strings to contents (no directories, links, or aliases of the same file); existing files with the name of a plot are excluded, savefig overwrites them (files_plot_false)"
  },
  {
   "property": "C69",
   "status": "partial",
   "theorems": [
    "Bdld.header_trajectory_partial",
    "Bdld.header_stats_partial",
    "Bdld.header_grid_partial",
    "Bdld.series_columns",
    "Bdld.header_distribution_extra",
    "Bdld.header_deltaF_false",
    "Bdld.header_distribution_false"
   ],
   "note": "true for trajectories, birth-death statistics, histogram and FES files; false for delta-f and particle-distribution files, whose header lacks the time column"
  },
  {
   "property": "C70",
   "status": "proved",
   "theorems": [
    "Bdld.main_schedule",
    "Bdld.main_actions",
    "Bdld.main_inv"
   ],
   "note": ""
  },
  {
   "property": "C71",
   "status": "proved",
   "theorems": [
    "Bdld.bd_recalc_events"
   ],
   "note": ""
  },
  {
   "property": "C72",
   "status": "proved",
   "theorems": [
    "Bdld.bd_rng"
   ],
   "note": ""
  },
  {
   "property": "C73",
   "status": "proved",
   "theorems": [
    "Bdld.verlet_volume",
    "Bdld.ld_volume"
   ],
   "note": ""
  },
  {
   "property": "C74",
   "status": "proved",
   "theorems": [
    "Bdld.bussi_rule",
    "Bdld.bussi_rule_bc"
   ],
   "note": ""
  },
  {
   "property": "C75",
   "status": "partial",
   "theorems": [
    "Bdld.kernel_shift",
    "Bdld.kernel_values_partial",
    "Bdld.dens_conv_partial",
    "Bdld.dens_conv_asymmetric"
   ],
   "note": "false: the kernel is evaluated off centre by up to half a step unless ten bandwidths are an even number of steps (witness proved); what holds: the exact formula with the shift in one dimension, the values of the kernel grid in one and two dimensions, and |shift| <= half a step"
  },
  {
   "property": "C76",
   "status": "proved",
   "theorems": [
    "Bdld.dens_conv_pos",
    "Bdld.multiplicative_grid_pos",
    "Bdld.additive_correction"
   ],
   "note": "the interpolation used by sparsify is assumed to give positive values for positive data"
  },
  {
   "property": "C77",
   "status": "partial",
   "theorems": [
    "Bdld.additive_correction",
    "Bdld.additive_average_partial",
    "Bdld.density_trapz",
    "Bdld.additive_average_false"
   ],
   "note": "the form of the correction is proved; its average is the integral term times (trapezoidal integral of the density minus one), which is not zero because the density is normalised with the plain sum (witness proved)"
  },
  {
   "property": "C78",
   "status": "partial",
   "theorems": [
    "Bdld.interpolate_escape",
    "Bdld.interpolate_plain",
    "Bdld.string_option_partial",
    "Bdld.format_option_error",
    "Bdld.fmt_documented_false"
   ],
   "note": "false: configparser's interpolation rejects single percent signs, so formats have to be written with %%; the interpolation is modelled after the Python library"
  },
  {
   "property": "C79",
   "status": "proved",
   "theorems": [
    "Bdld.fes_points",
    "Bdld.fes_points_new",
    "Bdld.linspace_binCenters",
    "Bdld.binCenters_linEdges"
   ],
   "note": ""
  },
  {
   "property": "C80",
   "status": "proved",
   "theorems": [
    "Bdld.noninterference",
    "Bdld.main_dynamics",
    "Bdld.parse_dynamics"
   ],
   "note": ""
  },
  {
   "property": "C81",
   "status": "proved",
   "theorems": [
    "Bdld.main_trajectories",
    "Bdld.main_run"
   ],
   "note": ""
  },
  {
   "property": "C82",
   "status": "partial",
   "theorems": [
    "Bdld.main_histogram",
    "Bdld.main_histogram_partial",
    "Bdld.main_histogram_false",
    "Bdld.main_histAt"
   ],
   "note": "false: the origin is counted once, the last block is counted twice if the number of steps is a multiple of the write stride, and a last incomplete block is lost if trajectories are written to files (exact content: main_histogram; witness: a concrete input file with counts 1 and 4 instead of 0 and 2); true without trajectory files, with a stride that divides the write stride, a number of steps that is no multiple of it, and the origin outside of the histogram"
  },
  {
   "property": "C83",
   "status": "partial",
   "theorems": [
    "Bdld.main_deltaF",
    "Bdld.main_deltaF_partial",
    "Bdld.main_deltaF_false",
    "Bdld.main_deltaF_oneDim"
   ],
   "note": "true unless the run ends after a write before the stride is reached again; then the array is written once more (exact content: main_deltaF; witness: 100 rows of uninitialised memory for stride 2 and one step); the set-up accepts only one-dimensional systems"
  },
  {
   "property": "C84",
   "status": "partial",
   "theorems": [
    "Bdld.main_distribution",
    "Bdld.main_distribution_partial",
    "Bdld.main_distribution_false"
   ],
   "note": "true unless the run ends after a write before the stride is reached again; then the array is written once more (exact content: main_distribution; witness: 100 rows of uninitialised memory for stride 2 and one step)"
  },
  {
   "property": "C85",
   "status": "proved",
   "theorems": [
    "Bdld.main_walkers",
    "Bdld.main_run",
    "Bdld.walkersAt_length"
   ],
   "note": ""
  },
  {
   "property": "C86",
   "status": "partial",
   "theorems": [
    "Bdld.main_progress_partial",
    "Bdld.main_progress_false",
    "Bdld.simulate_total"
   ],
   "note": "true for two or more walkers with birth-death (and positive random numbers if probabilities are recalculated), at least one walker for histogram and particle distribution, states of the particle distribution with enough dimensions, a range per dimension if there is a boundary condition, and plot options with two limits and a file name that matplotlib can save (Spec.Plottable); false in general: one walker with birth-death raises an uncaught ValueError in the first step (witness: a concrete input file)"
  },
  {
   "property": "C87",
   "status": "proved",
   "theorems": [
    "Bdld.gridFile_one",
    "Bdld.gridFile_two",
    "Bdld.histogram_file_one",
    "Bdld.histogram_file_two",
    "Bdld.gridFile_three_false"
   ],
   "note": "three-dimensional histograms are accepted by the parser but no file is ever written"
  },
  {
   "property": "C88",
   "status": "proved",
   "theorems": [
    "Bdld.main_histogram_files",
    "Bdld.main_histogram_files_noReset",
    "Bdld.main_fes_files"
   ],
   "note": ""
  },
  {
   "property": "C89",
   "status": "proved",
   "theorems": [
    "Bdld.main_potential",
    "Bdld.main_bc",
    "Bdld.setupPotential_facts"
   ],
   "note": "contents of the coefficient file as in C35; Mueller-Brown with its shift constants as in C33/C34"
  },
  {
   "property": "C90",
   "status": "proved",
   "theorems": [
    "Bdld.main_constants",
    "Bdld.main_generator",
    "Bdld.main_initial"
   ],
   "note": "fractions-pos for non-negative fractions with positive sum (C61)"
  },
  {
   "property": "C91",
   "status": "proved",
   "theorems": [
    "Bdld.main_consistent",
    "Bdld.main_step",
    "Bdld.main_path"
   ],
   "note": ""
  },
  {
   "property": "C92",
   "status": "proved",
   "theorems": [
    "Bdld.bd_bulk_exact",
    "Bdld.bd_recalc_exact",
    "Bdld.main_birthDeath",
    "Bdld.birthDeath_step"
   ],
   "note": "roles in the recalculating mode are the exchanged ones of the code (finding C14); rate and random number both exactly zero in the recalculating mode excluded (finding C24)"
  },
  {
   "property": "C93",
   "status": "proved",
   "theorems": [
    "Bdld.main_simulation",
    "Bdld.main_report",
    "Bdld.main_correction"
   ],
   "note": "exact real arithmetic; correction of the variants as computed by the model of the approximation grid, in one dimension explicitly (C105)"
  },
  {
   "property": "C94",
   "status": "partial",
   "theorems": [
    "Bdld.header_parse_exact",
    "Bdld.header_roundtrip_partial",
    "Bdld.header_roundtrip_false",
    "Bdld.header_parse_keeps_false",
    "Bdld.headerText_repr",
    "Bdld.text_parse",
    "Bdld.parse_no_header",
    "Bdld.grid_header_one",
    "Bdld.grid_header_two"
   ],
   "note": "true for names and values without white space and a reading object without constants; false for values with blanks, e.g. the bandwidths of a two-dimensional system in the statistics file, and constants that the reading object had before are kept (witnesses proved)"
  },
  {
   "property": "C95",
   "status": "proved",
   "theorems": [
    "Bdld.make_ordinal_spec"
   ],
   "note": ""
  },
  {
   "property": "C96",
   "status": "proved",
   "theorems": [
    "Bdld.main_plots",
    "Bdld.plotFes_spec"
   ],
   "note": ""
  },
  {
   "property": "C97",
   "status": "partial",
   "theorems": [
    "Bdld.image_correct_partial",
    "Bdld.image_correct_iff",
    "Bdld.image_correct_false",
    "Bdld.image_shows"
   ],
   "note": "false: imshow gets the array with the first dimension as rows, but draws rows along the vertical axis, so the value of bin (j, i) is shown at the centre of bin (i, j) (witness: 2 x 2 bins, an empty one); right exactly for FES that are symmetric under exchange of the dimensions; different numbers of bins are not treated"
  },
  {
   "property": "C98",
   "status": "partial",
   "theorems": [
    "Bdld.main_plot_names",
    "Bdld.main_plots_end_false",
    "Bdld.main_progress_partial",
    "Bdld.saveable_step"
   ],
   "note": "false: the number of the step is appended to the whole name, so p.png becomes p.png_1 with the unknown format png_1; savefig raises ValueError, the handler calls input(), and without a terminal EOFError ends the program (witness: a concrete input file); true for names without extension (part of the hypothesis of main_progress_partial, Spec.Plottable), and only for those (main_plot_names)"
  },
  {
   "property": "C99",
   "status": "proved",
   "theorems": [
    "Bdld.main_counters",
    "Bdld.main_records",
    "Bdld.main_statsOutput",
    "Bdld.print_screen",
    "Bdld.print_file",
    "Bdld.print_reset",
    "Bdld.bd_step_counters"
   ],
   "note": "counters, times and contents of the reports of a finished run in terms of the options; digits of the printed numbers are not modelled, quotients are exact rationals"
  }
 ]
}