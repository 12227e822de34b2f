# Formal model of bpampel/bdld in Lean 4

The model lives in `lean/Verif/`. Model files (`Model/*.lean`) contain only definitions, each citing the
Python lines it follows. `Spec/*.lean` contains the small independent specifications used in the statements.
`Lemmas/*.lean` holds helper lemmas, and `Props/*.lean` holds the property theorems listed in
`MANIFEST.json`, each next to an `example` showing that its hypotheses are met by a concrete case.

## Conventions

* **Exceptions are values**: functions that can raise return `Except PyErr α`.
* **Numbers.** Three levels, named in the comment of each definition:
  *law-free* (polymorphic in the number type, no algebraic law used: the theorems hold for IEEE doubles
  as well), *order-only* (any linear order: doubles without NaN), and *real* (exact arithmetic over ℝ or a
  linearly ordered field, where rounding is not modelled).
* **Randomness** is an arbitrary generator state with the operations used by the code
  (`random`, `shuffle`, `integers`, `standard_normal`); theorems quantify over every generator that meets the
  documented numpy contract.
* **np.empty** contents are arbitrary values that appear as parameters of the initial state.

## Plan per property

| id | property | how it is modelled and proved |
|---|---|---|
| C01 | Valid rows of a continuously refilled data array | `getValidData` (Py slices with Python's floor division on Int) over a ring buffer spec `ringRow`; proved by re-indexing rows to time steps. Exact boundary of validity also characterised (the block-boundary case returns stale rows). |
| C02 | Trajectory files contain every sampled step exactly once | state machine `Traj` (buffers, last_write, files) with ops tick/write; invariant over arbitrary op lists. |
| C03 | Trajectories without filename write nothing | same state machine, filenames = none. |
| C04 | Delta-F and particle-distribution files contain every sampled step exactly once | state machine `Series` shared by both actions; false for n % write_stride in 1..stride-1: counterexample + partial theorem with the exact condition. |
| C05 | Delta-F / particle-distribution without stride write one final row | same state machine, stride = 0. |
| C06 | Histogram counts every sampled step exactly once | composition Traj+HistogramAction; the property is false: exact closed form of what is counted, counterexamples, partial theorem during the run. |
| C07 | Writing the trajectories to file does not influence the histogram | two-run theorem on the same composition; false in general, partial. |
| C08 | A new histogram is empty | `Histogram.new` models the np.zeros sample; false when the origin is in range, partial otherwise. |
| C09 | Histogram.add counts each in-range point in exactly one bin | numpy histogramdd modelled by searchsorted counting; proved for any linear order. |
| C10 | Histogram reset forgets the past | composition with reset; false if write_stride does not divide r; partial. |
| C11 | Birth-death conserves the number of walkers | `doBirthDeath` (both branches) over an abstract RNG contract; induction over events. |
| C12 | Birth-death events are well formed | same model. |
| C13 | random_other is a bijection onto the other walkers | `randomOther` bijection. |
| C14 | Walkers in over-populated regions die, in under-populated regions are duplicated | bulk proved; recalculate mode swaps the roles: proved negation. |
| C15 | A killed walker's own event is discarded | same model, invariant of the loop. |
| C16 | Walkers never share state after duplication | heap model with addresses, refinement to value model. |
| C17 | Birth-death only copies existing walkers | same value model. |
| C18 | Birth-death statistics are consistent | same model, counters. |
| C19 | Acceptance probability of an event | real analysis on `prob`. |
| C20 | Birth-death rates are centred and invariant | `calcBetas` over ℝ. |
| C21 | Both walker density implementations agree | `walkerDensityPdist` with scipy's condensed index order vs `walkerDensityManual` over ℝ. |
| C22 | The smoothing kernel is a normalized symmetric probability density | Gaussian integral from Mathlib. |
| C23 | Walker density is strictly positive | over ℝ. |
| C24 | A birth-death step never raises | exceptions as values; false for a single walker / zero rates; partial with exact condition. |
| C25 | Birth-death is executed exactly on its stride | run loop counting. |
| C26 | Specified seeds make the simulation reproducible | seed resolution with explicit entropy parameter; false for birth-death seed 0; partial. |
| C27 | Approximation variant option | option resolution; false part: unknown name raises TypeError uncaught. |
| C28 | Reflective boundary keeps particles inside | order-only model. |
| C29 | Periodic boundary brings particles back into the range | false beyond one period; partial. |
| C30 | Without or with an unknown boundary condition nothing happens | decision logic. |
| C31 | Polynomial potential: energy and force | Horner model of numpy polyval/polyder, HasDerivAt. |
| C32 | Müller-Brown: force is minus the gradient and evaluate is consistent | HasDerivAt. |
| C33 | Müller-Brown: documented formula | false (code has -175): proved negation. |
| C34 | Müller-Brown: scaling factor | module global modelled as state; false: compounding. |
| C35 | Coefficient files | list fold into array. |
| C36 | Probability density of the potential | over ℝ; the 3d point order (C45) matters for the correspondence. |
| C37 | Reference free energy | over ℝ. |
| C38 | Stored energy and forces always belong to the stored position | invariant over op lists. |
| C39 | Thermostat satisfies fluctuation-dissipation | over ℝ. |
| C40 | Frictionless dynamics is time reversible | induction over steps. |
| C41 | Overdamped update rule | by definition of the step vs update rule spec. |
| C42 | Walkers are independent in Langevin dynamics | stream model of the RNG. |
| C43 | Particles stay inside a reflective box | invariant. |
| C44 | add_particle checks dimensions and inserts at the requested place | Python list insert semantics. |
| C45 | Grid points are listed in the order of the data | meshgrid/transpose/reshape index model; false in 3d. |
| C46 | Grid constructors agree | ordered field with floor; shrink false for exact fits. |
| C47 | Grid arithmetic is pointwise and type safe | model of operators with operand kinds. |
| C48 | Convolution grid geometry and values | 1d and nd geometry. |
| C49 | sparsify never adds points and keeps the range | geometry. |
| C50 | nd_trapz integrates | nested arrays. |
| C51 | Resolution of the equilibrium density grid | ordered field with ceil. |
| C52 | Compulsory options | parser model with arbitrary conversion functions. |
| C53 | Option conditions are enforced | same. |
| C54 | Unparsable values are reported as OptionError | false for list options; partial for scalars. |
| C55 | Dimension limit of polynomial potentials | Python operator precedence modelled; false; partial. |
| C56 | Numbered options | loop with termination measure. |
| C57 | State options | same. |
| C58 | State ranges | chained comparison; false; partial. |
| C59 | Required sections and dependencies between actions | decision logic of parse_all/main; false for fes/delta-f (uncaught NoSectionError); partial. |
| C60 | Unknown options are ignored | same parser model. |
| C61 | Initial distribution with fractions | over ordered field with floor; false for negative fractions; partial. |
| C62 | Random initial distributions | RNG contract. |
| C63 | FES from histogram | over ℝ with infinity. |
| C64 | Delta F from FES | over ℝ. |
| C65 | Delta F works in every dimension | shape model; false for 2d and 3d. |
| C66 | Membership in states | order-only model. |
| C67 | Thermal energy used for the FES | false: [fes] kt is read but never used. |
| C68 | Existing files are never lost | file system as finite map. |
| C69 | File headers describe the columns | false for delta-f and particle-distribution; partial. |
| C70 | Order and number of action executions | trace model of main. |
| C71 | Recalculated rates are those of the current configuration | relational specification `Sequential`; the loop is shown to follow it. |
| C72 | Birth-death never reuses random numbers | iterated generator state. |
| C73 | Frictionless dynamics preserves phase space volume | composition of three measure preserving shears (Mathlib skew products). |
| C74 | Structure of the Bussi-Parrinello step | independent specification `Spec.bussiParrinello` composed of `Spec.verlet` and the Ornstein-Uhlenbeck half steps. |
| C75 | Kernel density of the equilibrium distribution is centred | exact formula with the shift of the kernel grid; false unless ten bandwidths are an even number of steps. |
| C76 | Logarithms of the approximations are defined | positivity of the discrete convolution in every dimension; interpolation assumed to keep positivity. |
| C77 | Additive correction averages to zero | exact formula of the average; false because the density is normalised with the rectangle rule and averaged with the trapezoidal rule. |
| C78 | Number formats in the input | model of configparser's BasicInterpolation; false for single percent signs; partial. |
| C79 | FES values are located at the bin centres | linspace between the outer bin centres over an ordered field. |
| C80 | Analysis does not influence the dynamics | pure dynamics `Spec.dynSteps`; every analysis action leaves it unchanged. |
| C81 | Trajectory files of a whole run | components of the whole simulation (`Props/EndToEnd.lean`) and the theorem about the trajectory action. |
| C82 | Histogram of a whole run | as C81 with the histogram action; false as C06; exact content proved. |
| C83 | Delta F file of a whole run | as C81 with the series model; partial as C04. |
| C84 | Particle distribution file of a whole run | as C81 with the series model; partial as C04. |
| C85 | Walkers of a whole run | `Spec.dynSteps`. |
| C86 | Progress of a whole run | totality of every action under an invariant of the loop, lifted to the program; false for one walker with birth-death; partial. |
| C87 | Lines of histogram and FES files | model of `write_2d_sliced_to_file` and `savetxt` as list of lines; specification by double loop over bins. |
| C88 | Histogram and FES files of a whole run | components of the whole simulation and the write steps of the two actions; specification `Spec.gridFiles`. |
| C89 | Potential of a whole run | inversion of the set-up functions for all option dictionaries the parser lets through; specification by `Spec.polyOfRows`, `Spec.Conservative`. |
| C90 | Constants and initial walkers of a whole run | inversion of the set-up; consecutive random numbers specified by iteration of the generator. |
| C91 | Path of every walker in a whole run | specification `Spec.langevinStep`, `Spec.langevinPath` in terms of the options; invariant of the dynamics lifted to the program. |
| C92 | Birth-death step as a function of rates and random numbers | functional specification `Spec.bulkEvents`, `Spec.recalcTurns` (Spec/Selection.lean); loops of the model unrolled against it; constants of the action from the options (`BdFacts`). |
| C93 | A whole simulation is the one described by the options | reference simulation `Spec.runPath` (Spec/Run.lean) from the options; induction over the steps of the program. |
| C94 | File headers can be read back | `PlHeader.repr`, `PlHeader.parse` on lists of characters with Python's strip/split; round trip proved line by line for single-word names and values; false for values with blanks (2-D bandwidths, state ranges) and for objects that already have constants. |
| C95 | Ordinal numbers in messages | case distinction on the last two digits (`Spec.ordinalSuffix`). |
| C96 | Plots of a whole run | model of the data handed to matplotlib (`Plot.lean`); induction over the steps as for C88; specification `Spec.IsPlot`. |
| C97 | Place of a bin in a two-dimensional plot | an image as a grid of pixels between its limits (`Spec.ShowsAt`); false: rows are the first dimension, but rows are drawn along the vertical axis; exactly right for symmetric FES; partial. |
| C98 | Plots during the simulation do not stop it | false: the number of the step is appended after the extension; exact condition for the names; partial. |
| C99 | Statistics of a whole run and the report about them | induction over the steps of the whole program; report as a function of the record; quotients over ℚ. |
| C100 | Walker density on a grid | false in more than one dimension and for a single walker; holds otherwise; partial. |
| C101 | Distribution of the events of a birth-death step | product of uniform measures, `PMF` for the partner. |
| C102 | Birth-death does nothing at equilibrium | rates as centred logarithms; zero iff the density is proportional to the Boltzmann factor. |
| C103 | A killed walker becomes a copy of the walker named in its event | false for chains of events in one step; partial for events whose source was not replaced before and whose target is not replaced again. |
| C104 | Birth-death is a jump process with the calculated rates | one-sided derivative at dt = 0 of the probability of the event list; squeeze between single acceptances and the probability of several acceptances. |
| C105 | Explicit corrections in one dimension | Spec.Line gives the numbers with finite sums; griddata in one dimension enters by a contract (LinearGriddata: linear between neighbours, fill value outside), which has an instance; density, convolution, correction, sparsify, interpolation are followed one after the other. |
| C106 | Accuracy of FES and free energy differences | NearBoltzmann is the hypothesis on the counts; C37, C63 and C64 give FES, reference and differences in closed form, the bound is an estimate of logarithms; masked sums keep bounds of ratios. |
| C107 | Stationary distributions of the integrators | Distributions are measures on phase space, a step is their image under the map of C74 (C41) with independent normal numbers. The thermostat keeps every product with normal momenta; velocity Verlet preserves the volume (C73) and is reversible (C40), so the density is transported; energy identity by algebra; a modified energy is conserved exactly for harmonic forces. |
| C108 | Boundary conditions keep densities and reversibility | Normal noise exceeds every bound with positive probability (Fubini), so clamping puts mass on a hyperplane of volume zero; one period is not enough for large steps. Paths with and without periodic boundary are compared by induction over the noise; one step back is a case distinction per coordinate. |
| C109 | Rounding errors of the dynamics | Spec.Rounding is the contract of the arithmetic (an instance with 53 digits exists); bounds are propagated operation by operation through the law-free model of the integrators, the same definitions that are used over the real numbers; induction over the steps of LdState.iter. |
| C110 | Rounding errors do not change birth-death events | The birth-death step is related between two kinds of numbers: equal comparisons give equal events (birthDeath_same); errors of the rates smaller than the margins give equal comparisons (rateBound_decisions); induction over the steps with the bounds of C109. dynSteps_walkers links Spec.walkersRun to the dynamics of main. Example: spring_birthDeath. |
| C111 | Rounding errors of rates and acceptance probabilities | Model/FloatRates.lean repeats calc_betas for any kind of numbers with the operations of the code; bounds in Spec/RoundingRates.lean are propagated operation by operation; rates_exact shows that with real numbers it is Model/Rates.lean. float_run_rounding combines both with C110. Example with numbers: demo_errors. |
| C112 | Contradicting output settings are rejected before the run | Spec/OutputSettings.lean says when settings contradict each other; the constructors are decided by cases, setupDistribution_rejects and setupDeltaF_rejects are equivalences, and main_rejects_partial goes through setupOptional_parts (C72) with the options of validated input. False as documented: without a stride, delta F and particle distribution accept a write stride without filename (seriesCfg_documented_false). Example: demo_main_clash. |
| C113 | Numbers survive the text of the output files | Spec/Text.lean reads text without knowing how it was made (lines, words, digits); Model/Text.lean prints with ties to even. Lines and words of concatenated text, digits of Nat.toDigits; rounding by estimates of the floor; order by roundEven_mono. |
| C114 | The text of the files of a run gives back its results | The rows are those of C81, C82, C84, C88, C99; readTable_file, readTable_grid and readNats_file turn them into text and back. Partial for the two time series because their rows are (C83, C84: empty last write). Example: TextDemo.lean with the text of two files of concrete runs. |
| C115 | Printed times increase | False: with the format %14.9f and time step 1e-10 the first steps have the time 0 (printedTime_false). Partial: true if stride * dt is more than one unit of the last digit (trajectory_times_partial); never decreasing in any case (printedTime_mono). |
| C116 | Rounding errors of free energies and free energy differences | fes and delta F written for any kind of numbers (Model/FloatFes.lean), the errors of exp, log, sum and the arithmetic from a contract. fes_rounding, deltaF_rounding; double_errors gives the numbers for 53 digits; with exact numbers the functions are those of the real model (calculateFesF_exact, calculateDeltaFF_exact). Populated states only: an empty state has no probability to divide. |
| C117 | Exactly the described input files are accepted | Spec/InputText.lean describes the files by the texts of their options, section by section, without using the parser. input_accepted is an equivalence: each section by unfolding its options (ld_iff, potential_iff, particles_iff, birthDeath_iff, ...), numbered options through C57; finished_described for the whole program. |
| C118 | The text of the input file | Model/ConfigText.lean follows RawConfigParser._read line by line; Spec/ConfigText.lean describes texts by what is written in them (Layout, Distinct, Written) without the reader. Invariants of the reader's state by induction over the lines (options_read, layout_read), then layout_config, layout_section, layout_twice; same_meaning and same_values for the whole program with unknown_ignored (C56). list_spaces needs that int() and float() ignore spaces (contract with an instance). A section or option given twice ends in an uncaught exception. Examples: ConfigDemo.lean. |
| C119 | Options of the section DEFAULT are shared | From layout_config: withDefaults_get looks up the own values first. |
| C120 | Number of kernel bandwidths | False: for the Müller-Brown potential with the (undocumented) option n_dim: 1 the parser reads one number, the set-up expects a list, and the TypeError is not caught (bandwidth_false). Partial: true for polynomials (bandwidth_partial); no simulation is run with a wrong number in any case (bandwidth_finished). |
| C121 | Numbers in the input file | Model/PyNumber.lean: the two conversions by splitting at underscore, exponent and point; Spec/PyNumber.lean: the grammar of the Python documentation as inductive predicates with values. pyInt_iff and pyFloat_iff: a text is read with a value iff the grammar gives this value (so texts outside are rejected). readNumber_float, fmtFixed_float connect with the printed numbers of C113. textConv is then an instance of the abstract conversions used in C52-C60, C117 and fulfils the contract of C118 (textConv_ignores). Examples in PyNumberRead.lean. Exact numbers: rounding to doubles is not part of it. |
| C122 | Input without contradictions is simulated to the end | Spec/Consistent.lean lists the conditions on the options. Every set-up function succeeds under them (…_line theorems in LineProgress.lean), then main_progress_partial (C86). ExampleInput.lean has the text of example_input line by line; it is read with readConfig (C118) and float()/int() of C121, and example_runs is an instance of line_progress. example_histogram shows that the defect of C82 concerns this file: the last 100 steps are counted twice, and the origin is counted. |
| C123 | Rounding errors of polynomial potentials | Model/FloatPolynomial.lean repeats polyval and polyder for any kind of numbers with the operations of numpy (poly_exact: with real numbers it is Model/Polynomial.lean). Horner's scheme is followed operation by operation with a relative and an absolute error (hNear_horner), axis by axis (hNear_polyval); the change of a polynomial with the position by a telescoping product (polySum_lip). poly_nearCfg_force gives the hypothesis of C109; well_rounding applies it to the double well of the example input. |
| C124 | Histograms of computed positions | Model/FloatHistogram.lean repeats numpy's linspace, searchsorted and histogramdd for any kind of numbers (histogramF_exact: with real numbers it is Model/Histogram.lean). linEdgesF_near follows the three operations of an edge; binIndexF_same and binIndexF_neighbour are order arguments; countF_diff is an induction over the points. fes_of_positions joins it with C116, well_histogram with C109 and C123. |
| C125 | Text of coefficient files | Model/CoeffText.lean follows numpy's genfromtxt (comment, split, float or nan, same number of columns); Spec/CoeffText.lean describes texts by words between white space. pyWords_iff and coeffWords_iff are equivalences; numbers by C121; then C35. coeff_text_potential has one potential for all texts with the same monomials. Files with a single row: see C35. |
| C126 | Input in two and three dimensions is simulated to the end | Spec/ConsistentSpace.lean lists the conditions on the options and on the table in the coefficient file. The set-up functions succeed under them (…_space theorems in SpaceProgress.lean; the grids of the corrections by C75-C77 in any number of dimensions), then main_progress_partial (C86). SpaceExample.lean has two complete input files, with the coefficient file of the documentation (C125) and with the Müller-Brown potential. Free energy differences are excluded because they never work in more than one dimension (C65, main_deltaF_oneDim). |
| C127 | Rounding errors of the Müller-Brown potential | Model/FloatMuellerBrown.lean has the loops of the code for any kind of numbers; Spec/RoundingMB.lean follows the error through differences, squares, products, exponential and sums. The exponential is treated with its relative error, because the fourth one is large. Change with the position by |exp p - exp q| ≤ max * |p - q| and the bounds of the distances from the centres. RoundingMBDemo.lean and RoundingMBForce.lean evaluate the bounds with 53 digits. |
| C128 | Writing a documented default changes nothing | Spec/Defaults.lean lists the documented defaults and the change of the file. Props/Defaults.lean: the parsed dictionaries differ in one value (Dict.swap), for each option the constructor does the same for both values, hence the whole program. False for the series without filename (delta_f_action.py:57-59, particle_distribution.py:52-54): theorem for all runs and a witness in DefaultsDemo.lean, with example_input as positive example. |
| C129 | References between options | Spec/References.lean has a rule for each way a text stands for another one (Resolves), without the counter of characters of the loop; interpolate_iff is an equivalence with the function of configparser (Model/Interpolation.lean). Loops and chains by induction on the depth; string_option_iff for text options. The limit of ten levels is that of configparser. |
| C130 | Without friction particles follow Newton's equations | Spec/Newton.lean: path of a particle that obeys Newton's equations. newton_local bounds the error of one velocity Verlet step along the path by integrating bounds of derivatives, newton_growth the growth of errors with frequency sqrt(L/m), newton_global sums them up with explicit constants. newton_second_order: for twice continuously differentiable forces such constants exist on every path. Existence by Picard-Lindelöf from Mathlib. |
| C131 | Short steps follow the Fokker-Planck equations | Spec/Generator.lean: plane waves, partial derivatives, the operators of the Smoluchowski and the Klein-Kramers equation. Means over normal random numbers by the characteristic function of the normal distribution. With momenta the second force depends on the first random numbers; it is replaced by the force at the beginning of the step (bussi_wave_frozen, exact), the difference is o(dt) because the force is continuous (bussi_wave_defect). |
| C132 | Largest time step in harmonic potentials | Props/ForgetHarmonic.lean: the difference of two walkers moves by a linear map per coordinate (harmonic_diff). Below the limit the energy of velocity Verlet (p^2/m + k(1 - k dt^2/4m) x^2) is a norm that shrinks in every pair of steps, beyond it one of the eigenvalues is larger than 1 in size. overdamped_limit directly from the factor 1 - k dt. |
| C133 | Walkers forget where they started | Spec/Forget.lean: Contracts (a step brings two states closer when both use the same random numbers), moved, meanAfter. Props/Forget.lean: means of bounded Lipschitz observables forget the start, hence weak convergence of the distributions (Mathlib's ProbabilityMeasure). Harmonic potentials: the norm of C132 in at most a fixed number of steps. Convex potentials with overdamped dynamics: reflection at the edges never increases distances (boundary1_closer), so the Euler step decides. runs_meet carries it to the particles of the simulation. |
| C134 | Errors that are reported are errors of the input file | Model/Log.lean: levels, messages, mainLog (records of a run, following mainProgram). Spec/Faults.lean: conditions of every option of every section in terms of the texts of the file (as in C108), Cause (what kind of fault belongs to which exception), Mentions. Props/FaultParse, FaultSections, FaultInput: every exception of the parser that is caught has a cause; FaultSetup, Faults: the same for the set-up of the actions, and the messages. The end of the messages of OptionError is a parameter. |
| C135 | Log of a finished run | Props/LogRun.lean: levels that are shown; the log of a finished run from the constants of the actions, the warning in terms of the options, its meaning from the contents of the histogram (C82), the records of the resets. Props/LogDemo.lean: concrete files, the shipped example. |
| C136 | Printed output of a run | Model/Console.lean: the calls of print as a monad (list of texts and value or exception), following the code in the order of printing and raising; the texts of floats are a parameter. Props/ConsoleErase.lean: without the texts it is the model of main. Spec/Console.lean: the lines in terms of the options and of the constants of the simulation. Props/ConsoleSetup, ConsoleRun: output of a finished run (finished_output). Props/ConsoleMessages.lean: no other text begins like a message about the progress, hence the equivalences. Props/ConsoleDemo.lean: the potential, the whole output of the shipped example. |
| C137 | Meaning of the printed warnings | Props/ConsoleWarnings.lean: the lines of the specification that begin with Warning, compared with the step of the FES at every multiple of the stride (fesStep of C83, C96). |
| C138 | Free energy differences of states without counts | Model/DeltaFExt.lean repeats calculate_delta_f with the numbers of numpy (finite, infinities, nan) and is shown to agree with Model/Fes.lean wherever that one gives a finite number; Props/DeltaFExt.lean compares with the counts of the states, monotone counts of the run give the last part; Props/DeltaFDemo.lean is the shipped example. |
| C139 | With many walkers the rates are those of the birth-death equation | Spec/ManyWalkers.lean: independent walkers, smoothed density, limit of the rates. Props/ManyWalkers.lean: law of large numbers in the space of continuous functions on the region, logarithm, average over the walkers; the corrections cancel. The correction is the exact function here, the code tabulates it (C75-C77, C105). Props/ManyWalkersDemo.lean: independent walkers exist for every distribution; uniform walkers in a square. |
| C140 | Particles have as many momentum as position components | Model/Particle.lean: constructor with numpy's conversion of the arguments, the check of the lengths, init_momentum. A tuple or nested list gives a matrix and is also modelled; it is outside of the property. After a failed init_momentum the object keeps the wrong momentum, shown by `init_momentum_wrong`. |
| C141 | Rates of the birth-death events with recalculated rates | As C104, for the loop with recalculated rates. There the roles are exchanged (C14), so the statement is false: `event_rate_recalc_false` with two walkers. `event_rate_recalc` gives the true derivative, that of the equation with all rates negated; `event_drift_signs` says that the drift has the opposite sign, so the walkers are driven away from equilibrium. |
| C142 | Free energy difference file with empty states | Model/DeltaFText.lean fills the storage of Model/Series.lean with the values of Model/DeltaFExt.lean and prints them; Spec/TextExt.lean reads tables with inf, -inf and nan. The case of an empty last write is C04. |
| C143 | Asking for the name of a plot | Model/Prompt.lean: end of plot_fes and save_fig_interactive over a list of answers, savefig with the contract that formats are checked before the file is opened. False: after the first question only OSError is caught, so a second unknown format ends the program with ValueError (`prompt_false`), and for the name of the input file only ValueError is caught, so a missing directory ends it with OSError (`savePlot_false`). `prompt_first` says which answer decides; `fesPlot_prompt` is the connection with Model/Plot.lean. |
| C144 | Command line | Model/CommandLine.lean follows argparse of Python 3.11 for this parser: classes of the arguments, abbreviations, explicit values, groups of single-letter options, the separator. Spec/CommandLine.lean is a grammar of command lines. Props/CommandLine.lean proves that exactly the lines of the grammar are accepted. |
| C145 | Files in the format of the user | Model/Printf.lean: parser of the format, sign, digits and padding of the operator % for one number; Spec/Printf.lean: a reader for numbers with sign and exponent, and the text of a format. The mantissa is normalised also if rounding carries over (`sciParts_normal`, `sciParts_carry`). False for the flag 0 with infinite values (`zero_flag_inf`: 0000000inf), which occur in the files of the FES and of delta F; partial. Whole runs: `trajectory_format`, `deltaF_format_partial`; FES: `fes_format_one_partial`, `fes_format_two_partial`. |
| C146 | Accuracy of the estimated density of the walkers | Props/WalkerBias.lean, with the samples and the smoothed density of Spec/ManyWalkers.lean (pairwise independence is enough) and walkerDensity of the model; example: walkers distributed uniformly in a square. |
| C147 | Numbers of the report about birth-death | Model/ReportText.lean: format(x, ".4") after format_float_short of CPython, on the scientific digits of Model/Printf.lean, of exact quotients. Props/ReportText.lean: the text is read back (Spec/Printf.lean) as the nearest number with four significant digits; the report of every run (C136) consists of such texts. False: 99996 of 100000 successful attempts are shown as 100.0% (hundred_percent_false); true below 20000 attempts (hundred_percent_partial). Example: Props/ReportTextDemo.lean. |
| C148 | Change of units | Spec/Units.lean: the conversion of positions, momenta, energies and forces by factors for length, time and mass. Props/Units.lean: one step of the integrators, Props/UnitsRun.lean: rates, events (Lemmas/BdMap.lean: the events of a step depend on the walkers only through the decisions) and runs of the dynamics, Props/UnitsMain.lean: finished runs of main, their initial walkers, bins and free energies. The potential of the second run needs only the converted energies; its forces follow (potential_units, by C12). In main_units the functions of a correction must agree at converted positions, up to a constant in the multiplicative variant; Props/UnitsLine.lean proves this in one dimension from the explicit form of C105 (correction_units_line, main_units_line). The multiplicative correction is the logarithm of an inverse density, so the unit of length adds a constant inside of the range, which the subtraction of the mean removes, but not outside, where the correction is zero: with a walker outside of the range the rates depend on the unit of length (multiplicative_units_false). False also for overdamped dynamics, where kT and the friction are constants of the program (overdamped_units_false, true if the units of energy and of length²/time stay the same), and for the count at the origin of a new histogram (C08, histogram_units_false). Props/UnitsHist.lean: with the same origin the histograms of both runs have the same counts at all times (hist_units), and the free energies are converted (fesAt_units). Example: Props/UnitsDemo.lean. |
| C149 | Longer runs continue shorter ones | Props/LongerRun.lean: the set-up does not read n_steps (longer_setup), so both runs have the same configuration and start; states of the loop agree at common steps, files only grow (Grows), and the final writes of the shorter run are compared by the contents known from C81-C84, C88, C96, C99. False for time series that are written once more at the end (C83, C84): longer_distribution_false. Example: the shipped example with 500 and with 10000 steps (Props/LongerRunDemo.lean). |
| C150 | Bins of the histogram are those requested | Spec/BinsRequested.lean: intervals of equal length between the options min and max. Props/MainBins.lean: the edges set up (setupHistogram_requested), unchanged during the run (main_bins), being in a bin is being in the intervals (requested_cell), counts of a run by intervals (main_cells, from C93), middles (requested_centers). Example: Props/MainBinsDemo.lean with the shipped example. |
| C151 | Files on disk after a run | Model/Disk.lean: the operations on files (Model/Files.lean) of set-up and actions in the order of the program; simulateD_fst: the run itself is the one without files. Props/Disk.lean: every action appends exactly the new rows to its files (runAction_files, finalAction_files), invariant of the run (DiskInv), content of the disk if no two files have the same name (main_disk_partial), nothing else created (disk_only). Props/DiskNames.lean: a condition on the names in the input file under which no two files have the same name (clear_names). False otherwise: nothing checks the names; files of rows with the same name have the header of the last action and the rows of all (disk_shared), with an input that is accepted (main_disk_false). Plots replace existing files without backup (files_plot_false). Example: Props/DiskDemo.lean with the shipped example (example_clear, example_disk). |
| C152 | Files of a run that stops before its end | Model/Halt.lean: the calls of the actions one after the other (schedule, performD, haltD); halt_simulate: all calls together are the run of Model/Disk.lean, with the exception of the first call that raises. Props/Halt.lean: the operations on files agree with the state at every point (stopped_inv), content of the disk (stopped_disk), what is written stays (stopped_later, stopped_prefix, stopped_run), content after k complete steps (stopped_trajectories, stopped_distribution, stopped_deltaF_count, stopped_records, stopped_histogram, stopped_fes). Simplified: an action that raises writes nothing in that call. Examples: Props/HaltDemo.lean, the shipped example stopped after 1234 steps (example_stopped) and a run that ends with an exception (demo_exception). |
| C153 | Free energies of many independent samples | Spec/Sampling.lean: region of a bin, canonical distribution in a region (canonicalIn), largest probability, probability of a state. Props/Sampling.lean: strong law of large numbers for the counts (histogram_frequency, histogram_never), Chebyshev's inequality (histogram_deviation), limits of calculate_fes and calculate_delta_f (fes_limit, deltaF_limit). Props/SamplingCanonical.lean: evenly spaced bins have equal volumes; probabilities of bins of the canonical distribution (canonicalIn_near); with C106 the final error (canonical_near, canonical_fes). Real arithmetic; samples are pairwise independent (Spec.Sample, as in C139), the samples of a simulation are not, so this is about the analysis and not about the dynamics. Examples: Props/SamplingDemo.lean. |
| C154 | Walkers of a run without birth-death are independent | Spec/Ensemble.lean: stream of independent normal vectors (NormalStream), walker that takes numbered vectors of a stream (noisePath). Props/Ensemble.lean: its distribution if no vector is taken twice (noisePath_law), independence of walkers that take different vectors (noisePath_indep), Chebyshev's inequality for pairwise independent averages (average_spread). Props/MainEnsemble.lean: RandomRuns (a finished run for every outcome, same input, same potential, same starts, draws of the generator are a NormalStream); by C91 walker k of N takes the vectors (i N + k) v + j, which are different for different walkers and steps (vectors_different, vectors_disjoint); hence main_walker_law, main_walkers_indep, main_region_spread, and with C82 and C150 main_histogram_spread. Not covered: runs with birth-death (walkers interact), the convergence of the distribution (C107, C133), numpy's generator itself. Example with ten walkers: Props/MainEnsembleDemo.lean. |
| C155 | Histogram and free energies of long runs in a parabola | Spec/LongRun.lean: probability of a region that settles (Settles), steps counted by the histogram (countedSteps, from C82). Props/LongRun.lean: no step is counted more than twice (countedSteps_twice), long runs count many steps (countedSteps_many) or none at all (countedSteps_none, stride longer than the write stride without files); with the spread of C154 main_long_histogram and main_long_fes for every dynamics whose probabilities settle. Props/MainLongRun.lean: in harmonic potentials they settle (settles_bussi, settles_euler: weak convergence of C133 and bins with boundaries of measure zero); the options of the input give a harmonic force (run_parabola_force); hence main_bussi_histogram, main_overdamped_histogram, main_bussi_fes. The number of steps and walkers is not bounded explicitly in the number of steps; the starts are from a finite set. Not covered: other potentials (the general theorems need only Settles), boundary conditions, birth-death. Example with any number of walkers and steps: Props/MainLongRunDemo.lean. |
| C156 | Free energy differences written at the end of long runs in a parabola | Props/LongRunDeltaF.lean: probability of the bins of a state (Spec.stateShare), a file with one row near to the differences (Spec.LastRowNear). main_long_deltaF for every dynamics whose probabilities settle, from main_long_histogram (C155) and main_deltaF (C83); main_bussi_deltaF, main_overdamped_deltaF and main_overdamped_fes for parabolas. The states are compared by the centres of the bins as in the program, so p_i is the probability of whole bins, not of the state. Not covered: rows of earlier steps (with a stride). Example with any number of walkers and steps: Props/LongRunDeltaFDemo.lean. |
| C157 | Overdamped walkers between reflecting walls settle, whatever the potential | Props/Doeblin.lean: a chain that reaches the same distribution with some probability from every position of the box forgets its start (doeblin, doeblin_limit); the common part is a multiple of the uniform distribution in the box (box_common), because the force is bounded there and the random numbers have a density; existence and uniqueness of the stationary distribution (box_stationary). Props/MainBox.lean: the forces of all potentials of the program are continuous (setupPotential_continuous), box_converges, box_positive, box_walls, box_not_canonical, and the runs main_box_histogram, main_box_fes, main_box_deltaF from C155 and C156. The walls are occupied because the reflective boundary condition of the program puts walkers that would leave onto the wall. Not covered: Bussi-Parinello dynamics (unbounded momenta) and the periodic boundary condition (C108). Example with a double well and any number of walkers and steps, and the Mueller-Brown potential: Props/MainBoxDemo.lean. |
| C158 | Overdamped walkers without walls run away in steep potentials | Props/Escape.lean: no boundary condition and a force that moves a walker far outside by more than four times its distance (Spec.SteepOutside); then a step doubles the distance unless the random number is large (steep_doubles), with Chebyshev's inequality for the random numbers (escape_far). escape_probability, escape_no_stationary, escape_not_settles; run_steep and main_escape for runs of the program (C154). The complement of C155 (parabolas) and C157 (reflecting walls). Over the real numbers; in the program the positions overflow after some steps. For Bussi-Parinello dynamics see C159. Not covered: several dimensions. Example: Props/EscapeDemo.lean. |
| C159 | Bussi-Parinello walkers without walls run away in steep potentials | Props/EscapeBussi.lean: as C158 for the thermostat. A walker is outgoing (Spec.outgoing) if it is far outside and its momentum is the one that the force there gives in half a step, up to a multiple of the distance; a step doubles the distance of an outgoing walker and leaves it outgoing, unless one of the two random numbers is large (bussi_doubles), so half of what is outgoing doubles its distance in every step (bussi_escapes), and every walker is outgoing after one step with positive probability (bussi_enters). bussi_escape_probability, bussi_no_stationary, bussi_free_no_stationary, bussi_not_settles; main_bussi_escape for runs of the program (C154). Over the real numbers; in the program the positions overflow after some steps. Not covered: friction 0 or temperature 0, several dimensions. Example: Props/EscapeBussiDemo.lean. |
| C160 | Walkers without walls run away in the Mueller-Brown potential | Props/RunAway.lean: as C158 and C159 in any number of dimensions with the largest coordinate as distance. Spec.Doubling collects what is needed of a dynamics (outgoing walkers double their distance unless a random number is large, every walker can be outgoing after one step); from it follow doubling_probability, doubling_no_stationary and doubling_not_settles. overdamped_doubling and bussi_doubling: both dynamics without boundary condition in a potential with a steep force (Spec.SteepFar). Props/RunAwayMueller.lean: the first three terms of the force of Mueller and Brown are bounded, the fourth grows like the exponential of the square of the distance (mueller_force_large, mueller_steep); mueller_no_stationary, mueller_not_settles; run_mueller, main_mueller_overdamped and main_mueller_bussi for runs of the program (C154). Over the real numbers; in the program the positions overflow after some steps. Not covered: polynomials in several dimensions, friction 0 or temperature 0. Example: Props/RunAwayDemo.lean. |
| C161 | The periodic boundary condition does not keep walkers from running away | The program moves a walker outside the range by one period only and not back into the range (C29), and the force is the one of the unrepeated potential. Props/RunAwayPeriodic.lean: up to a displacement of one period a step is the one without boundary condition (periodic_near, periodic_overdamped_move, periodic_bussi_move), so that a walker far enough outside doubles its distance (Spec.SteepPeriodic, periodic_overdamped_doubling, periodic_bussi_doubling); the rest is that of C160 (Spec.Doubling). periodic_mueller_no_stationary, periodic_mueller_not_settles, main_periodic_overdamped and main_periodic_bussi for the Mueller-Brown potential; Props/RunAwayRing.lean: ring_no_stationary, ring_not_settles, main_ring_overdamped and main_ring_bussi for one-dimensional polynomials. Over the real numbers; in the program the positions overflow after some steps. Coupled polynomials in several dimensions: C162. Not covered: powers up to 2, friction 0 or temperature 0. Examples: Props/RunAwayPeriodicDemo.lean, Props/RunAwayRingDemo.lean. |
| C162 | Walkers run away in coupled polynomials of several coordinates such as the Wolfe-Quapp potential | Props/RunAwaySum.lean: Spec.sumEnergy is the form of the energy; the coordinate with the largest absolute value has a force that grows faster than the distance, since the coupling is linear in the force (sum_force, sum_steep), so that the steps double the distance (sum_doubling); the rest is that of C160 and C161. sum_no_stationary, sum_not_settles, main_sum_overdamped, main_sum_bussi. Props/RunAwaySumDemo.lean: run_quapp for the potential of Wolfe and Quapp as read from the coefficient file, and an input with each dynamics (valley_demo). Over the real numbers; in the program the positions overflow after some steps. Not covered: other mixed powers, powers up to 2, friction 0 or temperature 0. |

## Trusted base

**Kernel and axioms.** Everything is checked by the kernel of Lean 4.33.0. No axioms are declared in the project,
and `sorry`, `admit`, `native_decide` and `bv_decide` are not used. Every theorem of `MANIFEST.json` depends on a
subset of the three standard axioms `propext`, `Classical.choice` and `Quot.sound`; the subset of each is listed in
the last section (output of `#print axioms`).

**The reading of the source.** What has to be believed is that the definitions of `Model/*.lean` describe the Python
code. Each cites the lines it follows. The table lists every function of the package.

| Python | Lean (`Verif/Model/`) | modelled |
|---|---|---|
| `actions/action.py` `get_valid_data` | `Action.lean` `getValidData` | all |
| `actions/birth_death.py` `run`, `final_run`, `do_birth_death`, `calc_betas`, `random_other`, `perform_moves` | `BirthDeath.lean`, `Rates.lean`; object identity of the copies in `Heap.lean` | all, both modes |
| … `calc_kernel`, `walker_density`, `_walker_density_manual`, `_walker_density_pdist` | `Rates.lean` | all, over ℝ; `pdist`, `squareform` as definitions |
| … `dens_kernel_convolution`, `calc_additive_correction`, `nd_trapz` | `Density.lean`, `Grid.lean` | all, over ℝ |
| … `__init__`, `ApproxVariant` | `Main.lean` `setupBirthDeath`, `Density.lean`, messages in `Console.lean` | all |
| … `Stats` | counters in `BirthDeath.lean`, file in `Files.lean`, `Headers.lean`, printed report in `Report.lean`, its digits in `ReportText.lean` | all, quotients before rounding to doubles |
| … `walker_density_grid` (unused, marked as relict) | `Report.lean` | shape of the arrays and values |
| `actions/bussi_parinello_ld.py`, `actions/overdamped_ld.py`, `particle.py` | `Langevin.lean`, `Particle.lean`, `LangevinReal.lean`, `Heap.lean`, messages in `Console.lean` | all |
| `actions/trajectory_action.py` | `Trajectory.lean`, `Headers.lean`, `Files.lean`, `Text.lean` | all; number formats `%w.pf`, others with `f` and `e` in `Printf.lean` |
| `actions/histogram_action.py`, `histogram.py` | `HistogramAction.lean`, `Histogram.lean`, `Fes.lean` | all; `np.histogramdd` as definition on sorted edges |
| `actions/fes_action.py` | `Fes.lean`, `Main.lean`, `Plot.lean` | `calculate_fes`, strides, names and content of files, data handed to matplotlib, the interactive prompt (`Prompt.lean`); drawing not |
| `actions/delta_f_action.py`, `actions/particle_distribution.py`, `tools.py` | `Series.lean`, `Fes.lean` (the differences of `Fes.lean` are those of numpy only for states with counts; infinities and nan: `DeltaFExt.lean`, `DeltaFText.lean`), `Headers.lean`, `Text.lean` | all; number formats `%w.pf`, others with `f` and `e` in `Printf.lean` |
| `grid.py` | `Grid.lean`, `Headers.lean` | all; `griddata` (in `interpolate`) is a parameter, `fftconvolve` is the exact convolution sum |
| `inputparser.py` | `InputParser.lean`, `Interpolation.lean`, `ConfigText.lean` | all, with the reader of configparser (default settings, ASCII names of options); conversion of strings to numbers is a parameter, with int() and float() of ASCII texts (`PyNumber.lean`, before rounding to doubles) as instance |
| `potential/*.py` | `Potential.lean`, `Polynomial.lean`, `MuellerBrown.lean`, `Density.lean` | all, with `__str__` in `Console.lean`; `polyval`, `polyder` as definitions |
| `main.py` `main`, `setup_*`, `init_particles`, `bd_prob_density` | `Main.lean`, `Init.lean`, `Density.lean` | all including the exception handling and exit codes; `init_logger` and the log in `Log.lean`; the command line in `CommandLine.lean` |
| `helpers/misc.py`, `helpers/plumed_header.py` (submodule, empty in the checkout; read from `dist/bdld-0.3.2.tar.gz`) | `Files.lean`, `Headers.lean`, `Header.lean`; all files of a run in `Disk.lean`, runs that stop before their end in `Halt.lean` | `backup_if_exists`, `initialize_file`, `write_2d_sliced_to_file`, `make_ordinal`, `PlumedHeader`; the unused rest not |

**Validation.** Unit tests of the repository (`test/*.py`) are repeated as examples about the model in
`Props/UnitTests.lean`, with the same inputs and expected values: those of the actions, grids and potentials, and
those of birth-death about the kernels, the walker density, the names of the variants and the statistics. Tests that
depend on the numbers of numpy's random generator are not.

**Contracts of libraries**, written down as definitions: slicing and integer division of Python, iteration order of
dictionaries, `np.histogramdd`, `np.meshgrid`, `np.linspace`, `np.digitize`-like bin search, `polyval`, `polyder`,
`pdist`/`squareform`, `trapz`, `savetxt` (one line per row), `str.split`, `argparse` of Python 3.11 (`CommandLine.lean`), `configparser.BasicInterpolation`.

**Parameters of the theorems** (arbitrary unless a hypothesis says otherwise): the random generator and its seeding
(`RngOps`, `NormalOps`, `InitRng`; where a range is needed the documented contract is a hypothesis, e.g. `random()` in
[0, 1)), the contents of `np.empty`, the conversion of strings to numbers, `int()` of floats, `griddata` (in
C105 with the contract `LinearGriddata`: in one dimension linear between neighbouring points, fill value outside), and
the number type where a definition is law-free.

**Not modelled:** rounding, overflow and NaN of doubles in definitions over ℝ (a theorem over ℝ says nothing about
rounding errors; C109–C111, C116, C123, C124 and C127 bound those of the integrators, rates and probabilities, free energies, polynomial potentials, histograms, the Müller-Brown potential, and of whole runs under the contracts `Spec.Rounding` and `Spec.FnContract`); memory and time; directories, links and permissions in the file system; digits of the floats printed during the set-up, what argparse and the interpreter print (the messages of the log and the calls of `print` are modelled, `Log.lean`, `Console.lean`);
drawing by matplotlib (with colour limits in decreasing order `savefig` raises as well), concurrent changes of the files.

## Where the code violates a property

The manifest has status `partial` for these; each has a theorem with a concrete witness and a theorem with what holds.
Disagreements not covered by a property of their own:

* a time step of 0 is accepted by the parser (the rates of birth-death and the dynamics are then constant);
* the shift of the Müller-Brown energy is right only for the scaling factor 0.2;
* `mueller-brown` with `n_dim = 1` is accepted and fails later with uncaught `TypeError`s;
* the option `aproximation-variant` of the documentation is ignored, the program reads `approximation-variant`
  (`misspelled_ignored`);
* negative exponents in a coefficient file silently index from the end of the array;
* birth-death with seed 0 takes entropy from the system; seeds from -1000 to -1 of the particles are accepted by
  birth-death (1000 is added), smaller ones end in an uncaught `ValueError`;
* `plot-stride` may be zero or negative; a `plot-domain` with another number of values than two ends in an uncaught
  `ValueError` at the first plot;
* a `filename` in `[trajectories]`, `[histogram]` or `[fes]` ends in an uncaught `ValueError` of the set-up for more
  than three dimensions (`get_fields`);
* an invalid `fmt` is noticed only at the first write (formats for one number with `f` or `e`, and `%d`, are modelled);
* birth-death statistics are printed at the end only if no `stats-stride` is given;
* the message about the files of the histogram names `filename`, the files are `filename_{step}` (C88);
* a seed 0 is used but not printed; the boundary condition is not printed at all; with fractions the printed number of
  particles may differ from the one of the simulation (C61).

## Axioms of the theorems

Output of `#print axioms` for the theorems of the manifest (namespace `Bdld`), grouped.

* **no axioms** (5): `add_particle_dim`, `add_particle_new`, `create_particle_number`, `histogram_clear`, `particle_scalar`

* **`propext`** (23): `approxFromStr_spec`, `bc_applied`, `bussi_rule_bc`, `checkOutput_rejects`, `countParticles_none`, `fractions_negative_false`, `gridFile_three_false`, `grid_eq_iff`, `header_deltaF_false`, `header_distribution_false`, `mbF_evaluate`, `overdamped_rule`, `overdamped_rule_free`, `points_3d_wrong`, `positiveOrZero_spec`, `positive_spec`, `random_global_dims`, `random_pos_error`, `ranges_mismatch_false`, `ranges_numbers`, `reference_plain`, `seriesCfg_documented_false`, `series_file_false`

* **`Quot.sound`** (1): `particle_lengths`

* **`Quot.sound`, `propext`** (62): `add_particle_append`, `allPositive_spec`, `at_most_3dim_partial`, `bd_bulk_exact`, `bd_recalc_exact`, `bd_recalc_repeated_event`, `bd_rng`, `bd_roles_recalc_false`, `bd_roles_recalc_false'`, `bd_schedule`, `bd_total_recalc_false`, `bd_total_single_false`, `boundary_index_error`, `bulk_copy_false`, `bulk_twice_false`, `coeffWords_iff`, `convolve_full`, `convolve_stepsizes`, `countParticles_le`, `countParticles_spec`, `create_particle`, `create_particle_wrong`, `fmtFixed_length`, `foldl_min_spec`, `fractionCounts_sum`, `fractions_mismatch`, `gridFile_one`, `header_stats_partial`, `histCfg_rejects`, `histogram_add_perm`, `histogram_file_independent_false`, `histogram_final_false_file_double`, `histogram_final_false_file_lost`, `histogram_final_false_nofile`, `histogram_final_false_stride`, `histogram_reset_false`, `histogram_reset_last_false`, `init_momentum_ok`, `init_momentum_wrong`, `ld_c2`, `ld_consistent`, `ld_index_error`, `ld_walker_independent`, `ld_walker_path`, `npMin_spec`, `particle_momentum`, `particle_no_momentum`, `polyF_new`, `posInside_spec`, `pyInt_iff`, `pyWords_iff`, `randomOther_eq`, `random_global`, `random_pos`, `ranges_exact`, `ranges_partial`, `reference_spec`, `series_columns`, `series_no_stride`, `setupDeltaF_nd_fails`, `spConvolve_axes`, `wf_independent`

* **`Classical.choice`, `Quot.sound`, `propext`** (786): `Spec.Line.fromCoarse_outside`, `Spec.Line.fromCoarse_point`, `Spec.Line.smooth_pos`, `Spec.Resolves.unique`, `acceptProb_infinite`, `acceptProb_mono`, `acceptProb_spec`, `accept_many_mult`, `add_particle_insert`, `add_particle_insert_all`, `add_particle_overwrite`, `add_particle_overwrite_all`, `additive_average_false`, `additive_average_partial`, `additive_correction`, `approxGrid_space`, `arith_array_partial`, `arith_broadcast_partial`, `arith_error_partial`, `arith_grid_partial`, `arith_num_partial`, `arith_single_point`, `at_most_3dim_false`, `average_spread`, `axes_uniform`, `backupNumber_total`, `backup_spec`, `bandwidth_false`, `bandwidth_finished`, `bandwidth_length`, `bandwidth_partial`, `bandwidth_scalar`, `bc_option`, `bd_attempts`, `bd_bulk_events_partial`, `bd_copies`, `bd_equilibrium`, `bd_events_wellFormed`, `bd_grid_points`, `bd_length`, `bd_moves`, `bd_not_equilibrium`, `bd_prob_density_points`, `bd_real_bulk`, `bd_real_total_partial`, `bd_recalc_events`, `bd_run_length`, `bd_stats_bulk`, `bd_stats_history`, `bd_stats_recalc`, `bd_step_counters`, `bd_total_bulk_partial`, `bd_total_recalc_partial`, `binCenters_linEdges`, `binIndexF_neighbour`, `binIndexF_same`, `binOfF_same`, `binRegion_volume`, `bin_units`, `birthDeath_iff`, `birthDeath_rounding`, `birthDeath_same`, `birthDeath_step`, `boundary_units`, `box_converges`, `box_no_density`, `box_not_canonical`, `box_positive`, `box_walls`, `brown_consistent`, `brown_runs`, `bulk_copy_partial`, `bussi_bounded`, `bussi_converges`, `bussi_deviation`, `bussi_diverges`, `bussi_doubling`, `bussi_escape_probability`, `bussi_free_no_stationary`, `bussi_frictionless`, `bussi_generator`, `bussi_limit`, `bussi_no_stationary`, `bussi_not_settles`, `bussi_rule`, `bussi_stationary`, `bussi_units`, `calculateDeltaFF_exact`, `calculateFesF_exact`, `canonicalIn_near`, `canonical_fes`, `canonical_near`, `clear_names`, `code_two`, `code_zero`, `coeff_file_energy_partial`, `coeff_file_false`, `coeff_file_partial`, `coeff_text_potential`, `commandLine_iff`, `command_documented`, `command_level`, `command_main`, `comment_ignored`, `comment_main`, `contracts_converges`, `contracts_tendsto`, `convFull_eq`, `convex_contracts`, `convex_contracts_one`, `convolve_same`, `convolve_valid_equal`, `convolve_valid_partial`, `correction_line`, `correction_units_line`, `countedSteps_many`, `countedSteps_none`, `countedSteps_twice`, `decisions_units`, `default_hidden`, `default_overridden`, `default_shared`, `default_written_fails`, `default_written_false`, `default_written_partial`, `deltaFX_finite`, `deltaFX_spec`, `deltaFX_stays_finite`, `deltaFX_text`, `deltaF_accuracy`, `deltaF_chain`, `deltaF_format_partial`, `deltaF_limit`, `deltaF_rounding`, `deltaF_shift`, `deltaF_spec`, `deltaF_text_partial`, `deltaF_units`, `deltaF_warning_iff`, `deltaF_without_warning`, `deltaF_wrong_size`, `demo_deltaF_rounding`, `demo_errors`, `demo_exception`, `demo_log_run`, `demo_main_clash`, `demo_report`, `demo_warning`, `dens_conv_asymmetric`, `dens_conv_partial`, `dens_conv_pos`, `densityGrid_dimension_false`, `densityGrid_partial`, `densityGrid_single_false`, `density_agree`, `density_lower_bound`, `density_manual`, `density_pdist`, `density_trapz`, `dependencies`, `dependencies_false`, `digits4_shows`, `disk_only`, `disk_shared`, `distribution_text_partial`, `double_errors`, `double_fits`, `doubling_probability`, `dynSteps_units`, `dynSteps_walkers`, `error_shown`, `escape_no_stationary`, `escape_not_settles`, `escape_probability`, `euler_bound`, `euler_closed`, `event_drift`, `event_drift_recalc`, `event_drift_signs`, `event_rate`, `event_rate_recalc`, `event_rate_recalc_false`, `event_rate_recalc_witness`, `exInput_deltaF`, `exInput_described`, `exText'_layout`, `exText_layout`, `example_bins`, `example_consistent`, `example_deltaF`, `example_deltaF_text`, `example_disk`, `example_histogram`, `example_log`, `example_output`, `example_parse`, `example_read`, `example_runs`, `example_stopped`, `example_system`, `example_trajectories`, `exec_spec`, `exit_iff_error`, `faults_reported`, `fesAt_units`, `fesPlot_prompt`, `fes_accuracy`, `fes_empty`, `fes_format_one_partial`, `fes_format_two_partial`, `fes_ideal`, `fes_iff`, `fes_limit`, `fes_no_bins`, `fes_of_positions`, `fes_points`, `fes_points_new`, `fes_properties`, `fes_rounding`, `fes_scale`, `fes_spec`, `fes_text_one`, `fes_text_two`, `fes_units`, `files_grid`, `files_grid_false`, `files_kept`, `files_only`, `files_plot`, `files_plot_false`, `files_series`, `files_untouched`, `finalAction_files`, `finished_described`, `finished_message_iff`, `finished_output`, `float_run_rounding`, `fmtFixed_float`, `fmt_documented_false`, `formatOf_default`, `formatOf_given`, `format_option_error`, `fractionCounts_exact`, `fractions_partial`, `fractions_total_partial`, `freeEnergy_diff`, `freeEnergy_min`, `freeEnergy_top`, `frictionless_energy`, `frictionless_newton`, `from_npoints_axes`, `from_npoints_one`, `from_npoints_spaced`, `from_npoints_total`, `from_stepsizes_covers`, `from_stepsizes_shrink_exact`, `from_stepsizes_shrink_partial`, `from_stepsizes_total`, `generalValue_error`, `generalValue_mono`, `genfromtxt_lines`, `genfromtxt_ragged`, `getApproxVariant_spec`, `getValidData_correct`, `getValidData_stale`, `gridFile_two`, `grid_header_one`, `grid_header_two`, `grid_text_one`, `grid_text_two`, `halt_simulate`, `harmonic_bias`, `harmonic_not_canonical`, `headerText_repr`, `header_distribution_extra`, `header_grid_partial`, `header_parse_exact`, `header_parse_keeps_false`, `header_roundtrip_false`, `header_roundtrip_partial`, `header_trajectory_partial`, `headerless_rejected`, `heap_refines`, `help_asked`, `histCfg_new`, `hist_units`, `histoDeltaF`, `histogramF_add`, `histogramF_add_same`, `histogramF_exact`, `histogramF_new`, `histogramF_series_same`, `histogram_add`, `histogram_add_append`, `histogram_add_total`, `histogram_bin_unique`, `histogram_deviation`, `histogram_during_partial`, `histogram_file_independent_during_partial`, `histogram_file_independent_partial`, `histogram_file_one`, `histogram_file_two`, `histogram_final_false`, `histogram_final_file`, `histogram_final_nofile`, `histogram_final_partial`, `histogram_frequency`, `histogram_iff`, `histogram_never`, `histogram_new_data`, `histogram_new_false`, `histogram_new_partial`, `histogram_new_ranges_partial`, `histogram_reset_file`, `histogram_reset_final_partial`, `histogram_reset_partial`, `histogram_text_one`, `histogram_text_two`, `histogram_units_false`, `hundred_percent_false`, `hundred_percent_partial`, `idealLoop_exists`, `image_correct_false`, `image_correct_iff`, `image_correct_partial`, `image_shows`, `inState_units`, `indented_line`, `init_fractions_mismatch`, `init_fractions_partial`, `init_random_global`, `init_random_pos`, `initial_units`, `input_accepted`, `input_valid`, `inside_reflective`, `int_float`, `interpolate_error`, `interpolate_escape`, `interpolate_iff`, `interpolate_plain`, `ints_words`, `kde_deviation`, `kde_mean`, `kde_uniform`, `kde_variance`, `kernel_eq_normal`, `kernel_integral`, `kernel_points_inside`, `kernel_resolution`, `kernel_shape`, `kernel_shift`, `kernel_values_partial`, `kramers_wave`, `layout_config`, `layout_section`, `layout_twice`, `ld_frictionless`, `ld_iff`, `ld_no_error`, `ld_reflective_inside`, `ld_rounding`, `ld_time_reversible`, `ld_volume`, `limitRate_zero_iff`, `linEdgesF_near`, `linEdges_good`, `line_progress`, `line_run`, `linspace_binCenters`, `list_spaces`, `list_unparsable_false`, `list_unparsable_valueError`, `log_empty`, `log_resets`, `longer_counters`, `longer_deltaF`, `longer_distribution`, `longer_distribution_false`, `longer_grids`, `longer_histAt`, `longer_records`, `longer_setup`, `longer_trajectories`, `looseFloat_iff`, `looseFloat_other`, `mainP_finished`, `main_actions`, `main_bc`, `main_bins`, `main_birthDeath`, `main_box_deltaF`, `main_box_fes`, `main_box_histogram`, `main_bussi_deltaF`, `main_bussi_escape`, `main_bussi_fes`, `main_bussi_histogram`, `main_cells`, `main_consistent`, `main_constants`, `main_correction`, `main_counters`, `main_deltaF`, `main_deltaFX`, `main_deltaF_false`, `main_deltaF_oneDim`, `main_deltaF_partial`, `main_disk_false`, `main_disk_partial`, `main_distribution`, `main_distribution_false`, `main_distribution_partial`, `main_dynamics`, `main_escape`, `main_fes`, `main_fes_accuracy`, `main_fes_files`, `main_fes_kt_false`, `main_fes_kt_partial`, `main_generator`, `main_histAt`, `main_histogram`, `main_histogram_false`, `main_histogram_files`, `main_histogram_files_noReset`, `main_histogram_partial`, `main_histogram_spread`, `main_initial`, `main_inv`, `main_long_deltaF`, `main_long_fes`, `main_long_histogram`, `main_mueller_bussi`, `main_mueller_overdamped`, `main_overdamped_deltaF`, `main_overdamped_fes`, `main_overdamped_histogram`, `main_path`, `main_periodic_bussi`, `main_periodic_overdamped`, `main_plot_names`, `main_plots`, `main_plots_end_false`, `main_potential`, `main_progress_false`, `main_progress_partial`, `main_records`, `main_region_spread`, `main_rejects_partial`, `main_report`, `main_ring_bussi`, `main_ring_overdamped`, `main_run`, `main_schedule`, `main_simulation`, `main_simulation_line`, `main_stateCounts_mono`, `main_statsOutput`, `main_step`, `main_sum_bussi`, `main_sum_overdamped`, `main_trajectories`, `main_units`, `main_units_bussi`, `main_units_line`, `main_walker_law`, `main_walkers`, `main_walkers_indep`, `main_walkers_indep_at`, `make_ordinal_spec`, `math_on_self_partial`, `mbF_exact`, `mb_doc_false`, `mb_doc_partial`, `mb_energy_53`, `mb_energy_lip`, `mb_energy_near`, `mb_evaluate`, `mb_force`, `mb_force_53`, `mb_force_demo`, `mb_force_lip`, `mb_force_near`, `mb_nearCfg_force`, `mb_newton`, `mb_scaling_exact_partial`, `mb_scaling_false`, `mb_scaling_partial`, `mb_shift_evaluate_partial`, `mb_shift_partial`, `missing_file`, `missing_file_reported`, `missing_histogram_uncaught`, `missing_section`, `missing_trajectories`, `misspelled_ignored`, `mueller_no_stationary`, `mueller_not_settles`, `mueller_steep`, `multiplicative_demo`, `multiplicative_grid_pos`, `multiplicative_units_false`, `nd_trapz_const`, `nd_trapz_eq`, `nd_trapz_linear`, `nd_trapz_mono`, `nd_trapz_reverse`, `nd_trapz_swap`, `near_prob`, `near_rates`, `neg_int`, `newParticle_units`, `newton_energy`, `newton_exists`, `newton_global`, `newton_second_order`, `no_warning`, `noisePath_indep`, `noisePath_law`, `noninterference`, `npEdges_good`, `npIndex_error`, `npIndex_iff`, `numbered_dict`, `numbered_section`, `numbered_section_error`, `opsOk_program`, `option_condition`, `option_condition_violated`, `option_default`, `option_missing`, `option_unparsable_partial`, `overdamped_converges`, `overdamped_displacement`, `overdamped_distribution`, `overdamped_distributions_meet`, `overdamped_doubling`, `overdamped_euler_maruyama`, `overdamped_generator`, `overdamped_limit`, `overdamped_runs_meet`, `overdamped_stationary`, `overdamped_units_false`, `overdamped_units_partial`, `parseFmt_text`, `parse_cause`, `parse_dynamics`, `parse_no_header`, `particles_iff`, `partner_distribution`, `percentage_fixed`, `periodic_bussi_doubling`, `periodic_edge_not_reversible`, `periodic_escape`, `periodic_false`, `periodic_mueller_no_stationary`, `periodic_mueller_not_settles`, `periodic_overdamped_doubling`, `periodic_path`, `periodic_reversible_partial`, `periodic_spec_partial`, `plotFes_spec`, `plot_warning_iff`, `points_3d_partial`, `points_perm_partial`, `points_rowMajor_partial`, `polyF_dims`, `poly_energy`, `poly_energy_near`, `poly_energy_rounding`, `poly_exact`, `poly_force`, `poly_force_near`, `poly_force_rounding`, `poly_nearCfg_force`, `poly_new`, `poly_newton`, `posInside_error`, `potential_iff`, `potential_units`, `print_default`, `print_file`, `print_length`, `print_reset`, `print_screen`, `printedTime_false`, `printedTime_mono`, `printedTime_strict_partial`, `printedValue_error`, `printedValue_exact`, `printedValue_int`, `printed_potential`, `printed_table`, `prob_density_3d_wrong`, `prob_density_error`, `prob_density_partial`, `prob_density_value_partial`, `prompt_eof`, `prompt_false`, `prompt_first`, `prompt_partial`, `prompt_saved`, `prompt_skip`, `pyFloat_iff`, `pyFloat_inf`, `pyFloat_nan`, `pyFloat_none`, `quapp_consistent`, `quapp_runs`, `random_other_bijective`, `ranges_flat`, `rateBound_float`, `rates_energy_shift`, `rates_eq`, `rates_exact`, `rates_finite`, `rates_many`, `rates_many_add`, `rates_many_mult`, `rates_many_orig`, `rates_permute`, `rates_single`, `rates_sum`, `rates_translate`, `rates_units`, `rates_zero_iff`, `readFloats_file`, `readNats_file`, `readNumber_float`, `readTableX_series`, `readTable_file`, `readTable_grid`, `readTable_lines`, `read_general`, `reference_chain`, `reference_loop`, `reflective_atom`, `reflective_idempotent`, `reflective_no_density`, `reflective_not_reversible`, `reflective_spec`, `remove_added`, `remove_appended`, `remove_particle_all`, `remove_particle_spec`, `report_printed`, `reproducible_false`, `reproducible_partial`, `requested_cell`, `requested_centers`, `ring_no_stationary`, `ring_not_settles`, `roundEven_mono`, `row_words`, `runAction_files`, `run_log`, `run_quapp`, `run_rounding`, `run_steep`, `runs_meet`, `same_meaning`, `same_values`, `sample_exists`, `savePlot_false`, `savePlot_spec`, `saveable_step`, `sciParts_error`, `sciParts_normal`, `section_accepts`, `section_complete`, `section_congr`, `section_missing`, `section_reports_missing`, `section_value`, `selection_distribution`, `selection_law`, `selection_marginal`, `seriesCfg_new`, `seriesCfg_rejects`, `seriesTextX_finite`, `seriesX_program`, `series_file_boundary`, `series_file_partial`, `series_no_file`, `set_from_func_3d_wrong`, `set_from_func_partial`, `settles_bussi`, `settles_euler`, `setupDeltaF_1d_partial`, `setupDeltaF_nd_error`, `setupDeltaF_rejects`, `setupDistribution_rejects`, `setupFes_rejects`, `setupHistogram_rejects`, `setupHistogram_requested`, `setupPotential_continuous`, `setupPotential_facts`, `setup_cause`, `setup_message_iff`, `short_demo`, `shown_levels`, `sign_flags`, `simulateD_fst`, `simulate_total`, `smoluchowski_wave`, `spConvolve_full`, `space_progress`, `sparsify_points`, `sparsify_small`, `sparsify_spec`, `spring_birthDeath`, `spring_rounding`, `stateShare_pos`, `state_options`, `state_options_differ`, `state_options_inv`, `state_options_none`, `states_iff`, `stats_header`, `stats_text`, `stepMap_step`, `steps_message_iff`, `stopped_deltaF_count`, `stopped_disk`, `stopped_distribution`, `stopped_fes`, `stopped_finished`, `stopped_histogram`, `stopped_later`, `stopped_prefix`, `stopped_records`, `stopped_run`, `stopped_trajectories`, `string_option_iff`, `string_option_partial`, `sum_doubling`, `sum_no_stationary`, `sum_not_settles`, `textConv_float`, `textConv_ignores`, `textConv_int`, `text_described`, `text_faults_reported`, `text_parse`, `thermostat_constants`, `thermostat_invariant`, `thermostat_off`, `toBool_iff`, `toDigits_int`, `trajCfg_new_pos`, `trajectories_fields`, `trajectory_files`, `trajectory_files_complete`, `trajectory_format`, `trajectory_header`, `trajectory_no_filename`, `trajectory_text`, `trajectory_times_partial`, `twice_main`, `undelimited_rejected`, `units_demo`, `unknown_ignored`, `variant_false`, `variant_known_main`, `variant_partial`, `variant_unknown`, `variant_unknown_main`, `vectors_different`, `vectors_disjoint`, `verlet_energy`, `verlet_volume`, `walker_bias`, `walker_mean`, `walker_rounding`, `walkersAt_length`, `warning_iff`, `warning_meaning`, `well_histogram`, `well_rounding`, `withDefaults_get`, `wolfeQuapp_energy`, `wolfeQuapp_lines`, `wolfeQuapp_potential`, `write_warning_iff`, `zero_flag_inf`
