{"id": "C01", "title": "Valid rows of a continuously refilled data array", "statement": "get_valid_data(data, step, stride, update_stride, last_write), called on an array that has been filled row by row every update_stride steps since step 1 and wraps around, returns exactly the rows recorded at the time steps t with last_write < t <= step that are multiples of stride, in chronological order and each once, whenever last_write is not before the last rewrite from the beginning.", "quantifier": "every array length, every update_stride, every stride that is a multiple of it, every step and last_write inside the current block, every recorded data", "why_tests_cant": "the modular row arithmetic has corner cases at every combination of block boundary, offset of the last write and stride; the single unit test fixes one combination", "anchors": ["bdld/actions/action.py:get_valid_data"]}
{"id": "C02", "title": "Trajectory files contain every sampled step exactly once", "statement": "For every run, and for every additional call of TrajectoryAction.write() between regular saves, the file of particle i contains exactly one row (time, position[, momentum]) for every time step that is a multiple of stride up to the last write, in chronological order, with the values the particle had at that time step: nothing missing, nothing duplicated, nothing left over from earlier buffer contents.", "quantifier": "every stride, write_stride, number of particles and steps, momentum on or off, every initial buffer content, and every interleaving of run() with extra write() calls", "why_tests_cant": "there are unboundedly many schedules of extra writes relative to block boundaries; a test samples a few", "anchors": ["bdld/actions/trajectory_action.py:TrajectoryAction.run", "bdld/actions/trajectory_action.py:TrajectoryAction.write", "bdld/actions/trajectory_action.py:TrajectoryAction.final_run", "bdld/actions/action.py:get_valid_data"]}
{"id": "C03", "title": "Trajectories without filename write nothing", "statement": "If no filename was given, TrajectoryAction.run/write/final_run never create or change any file and never raise, for any schedule, and the stored positions are still available to other actions: after step t the row of t holds the positions of step t.", "quantifier": "every schedule of run and write calls", "why_tests_cant": "quantifies over all schedules", "anchors": ["bdld/actions/trajectory_action.py:TrajectoryAction.write", "bdld/actions/trajectory_action.py:TrajectoryAction.run"]}
{"id": "C04", "title": "Delta-F and particle-distribution files contain every sampled step exactly once", "statement": "A run of n steps of DeltaFAction or ParticleDistributionAction with a stride and a filename leaves a file with exactly one row per multiple of stride in 1..n, in chronological order, holding the value of that step.", "quantifier": "every stride, every write_stride that is a multiple of it, every number of steps", "why_tests_cant": "the failing combinations (simulation ends shortly after a block boundary) are a thin set of step counts that examples miss", "anchors": ["bdld/actions/delta_f_action.py:DeltaFAction.run", "bdld/actions/delta_f_action.py:DeltaFAction.write", "bdld/actions/delta_f_action.py:DeltaFAction.final_run", "bdld/actions/particle_distribution.py:ParticleDistributionAction.run", "bdld/actions/particle_distribution.py:ParticleDistributionAction.write", "bdld/actions/action.py:get_valid_data"]}
{"id": "C05", "title": "Delta-F / particle-distribution without stride write one final row", "statement": "Without a stride, DeltaFAction and ParticleDistributionAction do nothing during the run and final_run(n) appends exactly one row: time of step n and the values at the end.", "quantifier": "every number of steps and every state", "why_tests_cant": "quantifies over all runs", "anchors": ["bdld/actions/delta_f_action.py:DeltaFAction.final_run", "bdld/actions/particle_distribution.py:ParticleDistributionAction.final_run"]}
{"id": "C06", "title": "Histogram counts every sampled step exactly once", "statement": "At the end of a simulation of n steps (no resets) the histogram holds, per bin, exactly the number of (time step, particle) pairs with time step a multiple of the histogram stride in 1..n and position in that bin.", "quantifier": "every n, trajectory write_stride, histogram stride, trajectory, and trajectories with or without filename", "why_tests_cant": "depends on the joint state of two actions at every possible relation of n to the buffer length", "anchors": ["bdld/actions/histogram_action.py:HistogramAction.run", "bdld/actions/histogram_action.py:HistogramAction.final_run", "bdld/actions/histogram_action.py:HistogramAction.get_traj_data", "bdld/actions/trajectory_action.py:TrajectoryAction.write", "bdld/actions/action.py:get_valid_data"]}
{"id": "C07", "title": "Writing the trajectories to file does not influence the histogram", "statement": "The histogram produced by a simulation does not depend on whether the [trajectories] section specifies a filename.", "quantifier": "every pair of runs that differ only in the trajectory filename", "why_tests_cant": "a relational (two-run) property over all parameters", "anchors": ["bdld/actions/histogram_action.py:HistogramAction.get_traj_data", "bdld/actions/trajectory_action.py:TrajectoryAction.write"]}
{"id": "C08", "title": "A new histogram is empty", "statement": "A freshly created Histogram has zero counts in every bin; Histogram.clear() restores that state.", "quantifier": "every number of bins and every ranges, any dimension", "why_tests_cant": "depends on where the ranges lie relative to the origin", "anchors": ["bdld/histogram.py:Histogram.__init__", "bdld/histogram.py:Histogram.clear"]}
{"id": "C09", "title": "Histogram.add counts each in-range point in exactly one bin", "statement": "Histogram.add(points) increases every bin by the number of points in it (lower edge inclusive, upper edge exclusive except for the last bin), ignores points outside the ranges, so the total increases by the number of in-range points; the result is independent of the order of the points and of how they are split over several add calls.", "quantifier": "every set of bin edges, every list of points, any dimension, every previous content", "why_tests_cant": "boundary behaviour at every edge and order independence quantify over all inputs", "anchors": ["bdld/histogram.py:Histogram.add"]}
{"id": "C10", "title": "Histogram reset forgets the past", "statement": "After a reset at time step r the histogram contains only data of time steps after r.", "quantifier": "every reset list, every write_stride and every later step", "why_tests_cant": "depends on the relation of the reset step to the buffer blocks", "anchors": ["bdld/actions/histogram_action.py:HistogramAction.run"]}
{"id": "C11", "title": "Birth-death conserves the number of walkers", "statement": "BirthDeath.do_birth_death and BirthDeath.run never change the number of particles, for any random numbers, in both the bulk and the recalculate-probabilities mode.", "quantifier": "every particle list, every rate, every random number stream, every number of calls", "why_tests_cant": "quantifies over all random outcomes and histories", "anchors": ["bdld/actions/birth_death.py:BirthDeath.do_birth_death", "bdld/actions/birth_death.py:BirthDeath.perform_moves"]}
{"id": "C12", "title": "Birth-death events are well formed", "statement": "Every event (dup, kill) returned by do_birth_death refers to two different existing particles.", "quantifier": "every particle list with at least two walkers, every random stream", "why_tests_cant": "the exclusion trick in random_other must work for every index and random value", "anchors": ["bdld/actions/birth_death.py:BirthDeath.do_birth_death", "bdld/actions/birth_death.py:BirthDeath.random_other"]}
{"id": "C13", "title": "random_other is a bijection onto the other walkers", "statement": "For n walkers and an excluded walker i, mapping the n-1 possible values of the random integer through random_other hits every walker except i exactly once, so every other walker is equally likely.", "quantifier": "every n and i", "why_tests_cant": "all n and i", "anchors": ["bdld/actions/birth_death.py:BirthDeath.random_other"]}
{"id": "C14", "title": "Walkers in over-populated regions die, in under-populated regions are duplicated", "statement": "If the event of walker i is accepted, then for a positive rate beta walker i is replaced by a copy of another walker, and for a negative rate another walker is replaced by a copy of walker i; in both the bulk and the recalculate-probabilities mode.", "quantifier": "every rate vector and random stream in both modes", "why_tests_cant": "the direction is only visible in the joint behaviour of event list and moves; existing tests compare a single seed in bulk mode only", "anchors": ["bdld/actions/birth_death.py:BirthDeath.do_birth_death", "bdld/actions/birth_death.py:BirthDeath.perform_moves"]}
{"id": "C15", "title": "A killed walker's own event is discarded", "statement": "In the bulk mode, once a walker has been selected to be killed, no later event of the same batch is triggered by it; every walker triggers at most one event, and only walkers whose random number accepted trigger one.", "quantifier": "every rate vector, acceptance pattern, order and choice of partners", "why_tests_cant": "all random orders", "anchors": ["bdld/actions/birth_death.py:BirthDeath.do_birth_death"]}
{"id": "C16", "title": "Walkers never share state after duplication", "statement": "After any sequence of Langevin steps, birth-death moves, particle additions and removals, two different entries of the particle list never share position or momentum storage: moving one walker never moves another, and the particle list behaves like a list of independent values.", "quantifier": "every sequence of operations", "why_tests_cant": "aliasing bugs only appear after particular histories of duplication followed by in-place updates", "anchors": ["bdld/actions/birth_death.py:BirthDeath.perform_moves", "bdld/actions/bussi_parinello_ld.py:BussiParinelloLD.run", "bdld/actions/bussi_parinello_ld.py:BussiParinelloLD.add_particle", "bdld/actions/overdamped_ld.py:OverdampedLD.run", "bdld/potential/potential.py:Potential.apply_boundary_condition_reflective", "bdld/particle.py:Particle.__init__"]}
{"id": "C17", "title": "Birth-death only copies existing walkers", "statement": "After a birth-death step every walker is an exact copy (position, momentum, mass, energy, forces, thermostat constant) of a walker that existed before the step; walkers not named as killed are unchanged.", "quantifier": "every particle list and random stream, both modes", "why_tests_cant": "all outcomes", "anchors": ["bdld/actions/birth_death.py:BirthDeath.perform_moves", "bdld/actions/birth_death.py:BirthDeath.do_birth_death"]}
{"id": "C18", "title": "Birth-death statistics are consistent", "statement": "In bulk mode every do_birth_death call adds exactly the number of walkers to the attempts (kill: positive rate, duplication: the rest), the successes added equal the number of executed events, and successes never exceed attempts; in recalculating mode successes never exceed attempts either. Counters never decrease unless reset.", "quantifier": "every history of calls", "why_tests_cant": "all histories and random streams", "anchors": ["bdld/actions/birth_death.py:BirthDeath.do_birth_death", "bdld/actions/birth_death.py:BirthDeath.Stats"]}
{"id": "C19", "title": "Acceptance probability of an event", "statement": "An event of walker i is proposed exactly if its uniform random number is at most 1 - exp(-|beta_i| * dt * rate_factor); this number lies in [0,1), is 0 exactly for beta = 0, depends only on |beta| and grows with it, with dt and with the rate factor.", "quantifier": "every rate, stride, time step and rate factor (exact real arithmetic)", "why_tests_cant": "all real inputs", "anchors": ["bdld/actions/birth_death.py:BirthDeath.do_birth_death", "bdld/actions/birth_death.py:BirthDeath.__init__"]}
{"id": "C20", "title": "Birth-death rates are centred and invariant", "statement": "The rates of the original and the multiplicative variant sum to zero over all walkers; the rates do not change when a constant is added to all energies, when all walkers are translated (original variant), and renumbering walkers renumbers the rates.", "quantifier": "every set of walkers, bandwidths and energies (exact real arithmetic)", "why_tests_cant": "all real inputs", "anchors": ["bdld/actions/birth_death.py:BirthDeath.calc_betas", "bdld/actions/birth_death.py:walker_density"]}
{"id": "C21", "title": "Both walker density implementations agree", "statement": "The density from the pairwise-distance implementation used up to 10000 walkers equals the density of the per-walker implementation used above, and both equal the average of the product Gaussian kernel over all walkers including the walker itself.", "quantifier": "every number of walkers, dimension, positions and positive bandwidths (exact real arithmetic)", "why_tests_cant": "switches implementation at a size tests do not reach; equality for all inputs", "anchors": ["bdld/actions/birth_death.py:walker_density", "bdld/actions/birth_death.py:_walker_density_manual", "bdld/actions/birth_death.py:_walker_density_pdist", "bdld/actions/birth_death.py:calc_kernel"]}
{"id": "C22", "title": "The smoothing kernel is a normalized symmetric probability density", "statement": "calc_kernel is positive, symmetric, maximal at distance zero, and integrates to one over the whole space.", "quantifier": "every dimension and positive bandwidths (exact real arithmetic)", "why_tests_cant": "an integral over all distances", "anchors": ["bdld/actions/birth_death.py:calc_kernel"]}
{"id": "C23", "title": "Walker density is strictly positive", "statement": "The density at every walker is at least kernel height / number of walkers, so its logarithm is finite and every rate is finite.", "quantifier": "every number of walkers and positions (exact real arithmetic)", "why_tests_cant": "all inputs", "anchors": ["bdld/actions/birth_death.py:walker_density", "bdld/actions/birth_death.py:BirthDeath.calc_betas"]}
{"id": "C24", "title": "A birth-death step never raises", "statement": "do_birth_death completes without exception for every non-empty particle list and every random stream.", "quantifier": "every number of walkers >= 1, every rate vector and every random stream, both modes", "why_tests_cant": "the failing random outcomes have tiny probability", "anchors": ["bdld/actions/birth_death.py:BirthDeath.do_birth_death", "bdld/actions/birth_death.py:BirthDeath.random_other"]}
{"id": "C25", "title": "Birth-death is executed exactly on its stride", "statement": "In a simulation of n steps birth-death is performed exactly at the multiples of stride, i.e. floor(n/stride) times, and a statistics record is emitted exactly at the multiples of stats_stride after the events of that step, or once at the end if no stats_stride was given.", "quantifier": "every n, stride and stats_stride", "why_tests_cant": "all n", "anchors": ["bdld/actions/birth_death.py:BirthDeath.run", "bdld/actions/birth_death.py:BirthDeath.final_run"]}
{"id": "C26", "title": "Specified seeds make the simulation reproducible", "statement": "If seeds are given for [ld], [particles] and [birth-death], all results of two runs with the same input are identical, whatever entropy the operating system provides.", "quantifier": "every input and every pair of entropy sources", "why_tests_cant": "a two-run property over all inputs", "anchors": ["bdld/main.py:setup_birth_death", "bdld/main.py:setup_ld", "bdld/main.py:init_particles", "bdld/actions/birth_death.py:BirthDeath.__init__"]}
{"id": "C27", "title": "Approximation variant option", "statement": "The variant used is the one named by approximation-variant if given, else by correction-variant, else the original one; an unknown name is reported as an input error and ends the program with exit code 1.", "quantifier": "every pair of option values", "why_tests_cant": "all strings", "anchors": ["bdld/main.py:setup_birth_death", "bdld/actions/birth_death.py:ApproxVariant.from_str", "bdld/main.py:main"]}
{"id": "C28", "title": "Reflective boundary keeps particles inside", "statement": "After applying the reflective boundary condition every coordinate lies in the potential range; coordinates inside are unchanged together with their momentum, coordinates outside are moved to the nearer boundary and exactly their momentum component is reversed.", "quantifier": "every position, momentum, dimension and ranges with min <= max", "why_tests_cant": "all positions, including the corners", "anchors": ["bdld/potential/potential.py:Potential.apply_boundary_condition_reflective"]}
{"id": "C29", "title": "Periodic boundary brings particles back into the range", "statement": "After applying the periodic boundary condition every coordinate lies in the potential range, differs from the old one by a multiple of the range length, and the momentum is unchanged.", "quantifier": "every position and range", "why_tests_cant": "all positions, including particles that moved further than one range length", "anchors": ["bdld/potential/potential.py:Potential.apply_boundary_condition_periodic"]}
{"id": "C30", "title": "Without or with an unknown boundary condition nothing happens", "statement": "If no boundary condition is set in the input, positions and momenta are never altered by boundary handling; the recognised option values are exactly reflective and periodic.", "quantifier": "every option value, position and momentum", "why_tests_cant": "all strings", "anchors": ["bdld/main.py:setup_potential", "bdld/potential/potential.py:Potential._set_boundary_condition_function"]}
{"id": "C31", "title": "Polynomial potential: energy and force", "statement": "The energy of PolynomialPotential at a position is the sum of coefficient * product of powers, and the force is minus its gradient, in 1, 2 and 3 dimensions.", "quantifier": "every coefficient array and position (exact real arithmetic)", "why_tests_cant": "all polynomials of all degrees", "anchors": ["bdld/potential/polynomial.py:PolynomialPotential.energy", "bdld/potential/polynomial.py:PolynomialPotential.force", "bdld/potential/polynomial.py:PolynomialPotential.__init__"]}
{"id": "C32", "title": "Müller-Brown: force is minus the gradient and evaluate is consistent", "statement": "MuellerBrownPotential.evaluate(pos) equals (energy(pos), force(pos)) and the force is minus the gradient of the energy, for every scaling.", "quantifier": "every position and scaling factor (exact real arithmetic)", "why_tests_cant": "all positions", "anchors": ["bdld/potential/mueller_brown.py:MuellerBrownPotential.evaluate", "bdld/potential/mueller_brown.py:MuellerBrownPotential.energy", "bdld/potential/mueller_brown.py:MuellerBrownPotential.force"]}
{"id": "C33", "title": "Müller-Brown: documented formula", "statement": "The energy of the unscaled MuellerBrownPotential is, up to a constant, the documented sum of four exponentials with prefactors -200, -100, -170, 15.", "quantifier": "every position", "why_tests_cant": "all positions", "anchors": ["bdld/potential/mueller_brown.py:MuellerBrownPotential", "bdld/potential/mueller_brown.py:A"]}
{"id": "C34", "title": "Müller-Brown: scaling factor", "statement": "A MuellerBrownPotential created with scaling factor s has s times the exponential part of the unscaled potential, independent of which other potentials were or will be created.", "quantifier": "every sequence of created potentials", "why_tests_cant": "history dependent", "anchors": ["bdld/potential/mueller_brown.py:MuellerBrownPotential.__init__"]}
{"id": "C35", "title": "Coefficient files", "statement": "coefficients_from_file returns an array whose entry at a listed exponent tuple is the listed value (the last one if listed several times) and 0 elsewhere, with extent highest exponent + 1 per dimension; so the energy is the sum of the listed monomials.", "quantifier": "every list of rows in 1 to 3 dimensions", "why_tests_cant": "all files", "anchors": ["bdld/potential/polynomial.py:coefficients_from_file"]}
{"id": "C36", "title": "Probability density of the potential", "statement": "calculate_probability_density returns a grid with strictly positive values proportional to exp(-E/kT) at the corresponding grid points whose sum times the volume element is exactly one; wrong dimensions raise ValueError.", "quantifier": "every potential, kT, ranges with min < max, and numbers of points >= 2", "why_tests_cant": "all potentials and grids (exact real arithmetic)", "anchors": ["bdld/potential/potential.py:Potential.calculate_probability_density", "bdld/grid.py:Grid.set_from_func"]}
{"id": "C37", "title": "Reference free energy", "statement": "calculate_reference returns energies shifted so that the minimum is exactly zero, preserving all differences.", "quantifier": "every non-empty list of positions", "why_tests_cant": "all inputs", "anchors": ["bdld/potential/potential.py:Potential.calculate_reference"]}
{"id": "C38", "title": "Stored energy and forces always belong to the stored position", "statement": "After any sequence of Langevin steps, birth-death steps, particle additions and removals, every particle's stored energy and forces are those of the potential at its stored position.", "quantifier": "every sequence of operations, both integrators", "why_tests_cant": "an invariant over all histories", "anchors": ["bdld/actions/bussi_parinello_ld.py:BussiParinelloLD.run", "bdld/actions/bussi_parinello_ld.py:BussiParinelloLD.add_particle", "bdld/actions/overdamped_ld.py:OverdampedLD.run", "bdld/actions/overdamped_ld.py:OverdampedLD.add_particle", "bdld/actions/birth_death.py:BirthDeath.perform_moves"]}
{"id": "C39", "title": "Thermostat satisfies fluctuation-dissipation", "statement": "For non-negative friction and time step the thermostat constants satisfy 0 < c1 <= 1, c2 >= 0 and c1^2 * m kT + c2^2 = m kT, so the momentum variance m kT is preserved by each thermostat half step; friction 0 switches the noise off completely.", "quantifier": "every friction, time step, mass and kT", "why_tests_cant": "all real inputs", "anchors": ["bdld/actions/bussi_parinello_ld.py:BussiParinelloLD.__init__", "bdld/actions/bussi_parinello_ld.py:BussiParinelloLD.add_particle", "bdld/actions/bussi_parinello_ld.py:BussiParinelloLD.run"]}
{"id": "C40", "title": "Frictionless dynamics is time reversible", "statement": "With friction 0 and no boundary condition a step of the Bussi-Parrinello integrator is deterministic and time reversible: reversing all momenta and performing the same number of steps returns to the initial positions with reversed momenta.", "quantifier": "every potential, position, momentum, mass, time step and number of steps", "why_tests_cant": "all step counts", "anchors": ["bdld/actions/bussi_parinello_ld.py:BussiParinelloLD.run"]}
{"id": "C41", "title": "Overdamped update rule", "statement": "A step of the overdamped integrator moves every particle by dt * force + sqrt(2 dt) * noise and leaves its momentum unchanged (apart from the boundary condition).", "quantifier": "every particle and noise", "why_tests_cant": "all inputs", "anchors": ["bdld/actions/overdamped_ld.py:OverdampedLD.run"]}
{"id": "C42", "title": "Walkers are independent in Langevin dynamics", "statement": "The motion of a walker in LD depends only on its own state and its own random numbers: particle k uses the k-th block of the random stream, and changing other walkers does not change it.", "quantifier": "every number of walkers, steps, and random streams", "why_tests_cant": "all populations", "anchors": ["bdld/actions/bussi_parinello_ld.py:BussiParinelloLD.run", "bdld/actions/overdamped_ld.py:OverdampedLD.run"]}
{"id": "C43", "title": "Particles stay inside a reflective box", "statement": "With reflective boundary condition (min <= max), after every Langevin step and every birth-death step following it, all particles are inside the potential range.", "quantifier": "every run", "why_tests_cant": "an invariant over all histories", "anchors": ["bdld/actions/bussi_parinello_ld.py:BussiParinelloLD.run", "bdld/actions/overdamped_ld.py:OverdampedLD.run", "bdld/potential/potential.py:Potential.apply_boundary_condition_reflective"]}
{"id": "C44", "title": "add_particle checks dimensions and inserts at the requested place", "statement": "add_particle raises ValueError and changes nothing if the position has the wrong dimension; otherwise it appends (default), inserts before the given index, or replaces the given index, leaving all other particles and their order unchanged. The new particle has zero momentum.", "quantifier": "every particle list, position and index", "why_tests_cant": "all indices", "anchors": ["bdld/actions/bussi_parinello_ld.py:BussiParinelloLD.add_particle", "bdld/actions/overdamped_ld.py:OverdampedLD.add_particle", "bdld/actions/bussi_parinello_ld.py:BussiParinelloLD.remove_particle"]}
{"id": "C45", "title": "Grid points are listed in the order of the data", "statement": "Grid.points() lists the grid points in row-major order, so that the k-th point belongs to the k-th entry of the flattened data, in 1, 2 and 3 dimensions; set_from_func therefore stores f(x_i, y_j, ...) at index (i, j, ...).", "quantifier": "every grid", "why_tests_cant": "all shapes; tests cover equal point numbers in 2d only", "anchors": ["bdld/grid.py:Grid.points", "bdld/grid.py:Grid.set_from_func"]}
{"id": "C46", "title": "Grid constructors agree", "statement": "from_npoints and from_stepsizes produce consistent grids: (max-min) = stepsize * (n_points-1) in every dimension; from_stepsizes covers the requested range and exceeds it by less than one step; with shrink it stays inside the requested range and falls short by less than one step.", "quantifier": "every ranges and positive stepsizes (exact real arithmetic)", "why_tests_cant": "all real inputs", "anchors": ["bdld/grid.py:from_npoints", "bdld/grid.py:from_stepsizes", "bdld/grid.py:stepsizes_from_npoints"]}
{"id": "C47", "title": "Grid arithmetic is pointwise and type safe", "statement": "Arithmetic on grids acts on each data point separately and returns a new grid with the same points, leaves the operands unchanged, and raises ValueError for two grids with different points or for unsupported operand types.", "quantifier": "every pair of operands", "why_tests_cant": "all operands", "anchors": ["bdld/grid.py:Grid._perform_arithmetic_operation", "bdld/grid.py:Grid._perform_math_on_self", "bdld/grid.py:Grid.copy_empty"]}
{"id": "C48", "title": "Convolution grid geometry and values", "statement": "convolve rejects grids with different step sizes and mode 'full'; in mode 'valid' the result has n_large - n_small + 1 points per dimension with the same step size centred in the larger grid, in mode 'same' the points of the first grid; values are the discrete convolution times the volume element.", "quantifier": "every pair of grids", "why_tests_cant": "all sizes", "anchors": ["bdld/grid.py:convolve"]}
{"id": "C49", "title": "sparsify never adds points and keeps the range", "statement": "sparsify keeps the ranges and reduces the number of points per dimension to at most the given maximum; grids that are already small enough keep their points.", "quantifier": "every grid and maximum", "why_tests_cant": "all sizes", "anchors": ["bdld/grid.py:sparsify"]}
{"id": "C50", "title": "nd_trapz integrates", "statement": "nd_trapz equals the product trapezoidal sum: it is linear in the data, gives volume * c for constant data c, and does not depend on the order in which dimensions are integrated.", "quantifier": "every shape, data and stepsizes", "why_tests_cant": "all dimensions", "anchors": ["bdld/actions/birth_death.py:nd_trapz"]}
{"id": "C51", "title": "Resolution of the equilibrium density grid", "statement": "The grid built for the approximations has an odd number of points >= 501 per dimension and resolves the kernel with at least 20 points within 5 sigma.", "quantifier": "every range and bandwidth (exact real arithmetic)", "why_tests_cant": "all real inputs", "anchors": ["bdld/main.py:bd_prob_density", "bdld/actions/birth_death.py:dens_kernel_convolution"]}
{"id": "C52", "title": "Compulsory options", "statement": "Parsing a section in which a compulsory option is missing raises OptionError naming the option and the section; a missing optional option yields its default.", "quantifier": "every section content and option list", "why_tests_cant": "all inputs", "anchors": ["bdld/inputparser.py:InputOption.parse", "bdld/inputparser.py:Input.parse_section"]}
{"id": "C53", "title": "Option conditions are enforced", "statement": "Every value that is present in the input and returned by the parser satisfies the condition of its option; a violated condition raises OptionError.", "quantifier": "every section content, option type and condition", "why_tests_cant": "all inputs", "anchors": ["bdld/inputparser.py:InputOption.parse"]}
{"id": "C54", "title": "Unparsable values are reported as OptionError", "statement": "If the value of an option cannot be converted to the expected type, OptionError is raised.", "quantifier": "every option type and string", "why_tests_cant": "all strings", "anchors": ["bdld/inputparser.py:InputOption.parse"]}
{"id": "C55", "title": "Dimension limit of polynomial potentials", "statement": "The input parser accepts n_dim for polynomial potentials only in 1..3.", "quantifier": "every integer", "why_tests_cant": "all integers", "anchors": ["bdld/inputparser.py:Input.at_most_3dim"]}
{"id": "C56", "title": "Numbered options", "statement": "get_all_numbered_values returns the values of prefix1suffix, prefix2suffix, ... in order up to (excluding) the first missing number.", "quantifier": "every section, prefix and suffix", "why_tests_cant": "all sections", "anchors": ["bdld/inputparser.py:get_all_numbered_values"]}
{"id": "C57", "title": "State options", "statement": "numbered_state_options yields compulsory min and max list options for exactly the states 1..k found, and raises OptionError if the numbers of min and max options differ or none is found.", "quantifier": "every section", "why_tests_cant": "all sections", "anchors": ["bdld/inputparser.py:numbered_state_options"]}
{"id": "C58", "title": "State ranges", "statement": "min_max_to_ranges turns k minima and k maxima into k lists of (min, max) per dimension, and raises ValueError if the numbers differ or if the dimensions of any min-max pair do not match.", "quantifier": "every pair of lists", "why_tests_cant": "all nestings and lengths", "anchors": ["bdld/inputparser.py:min_max_to_ranges"]}
{"id": "C59", "title": "Required sections and dependencies between actions", "statement": "If one of [ld], [potential], [particles] is missing, or an action is requested without the action it depends on (histogram-trajectories, fes-histogram, delta-f-fes), the program reports the problem and exits with code 1 before running a step.", "quantifier": "every combination of sections", "why_tests_cant": "all combinations", "anchors": ["bdld/inputparser.py:Input.parse_all", "bdld/inputparser.py:Input.parse_fes", "bdld/inputparser.py:Input.parse_delta_f", "bdld/main.py:main"]}
{"id": "C60", "title": "Unknown options are ignored", "statement": "The result of parsing a section depends only on the values of its known options (and numbered options); adding unknown keys changes nothing.", "quantifier": "every section and every additional key", "why_tests_cant": "all keys", "anchors": ["bdld/inputparser.py:Input.parse_section", "bdld/inputparser.py:InputOption.parse"]}
{"id": "C61", "title": "Initial distribution with fractions", "statement": "fractions-pos creates exactly the requested number of particles, position i > 1 receiving floor(number * fraction_i / sum of fractions) and the first position the remainder, in order; a different number of positions and fractions raises ValueError.", "quantifier": "every number of particles, list of fractions and positions", "why_tests_cant": "all rounding situations", "anchors": ["bdld/main.py:init_particles"]}
{"id": "C62", "title": "Random initial distributions", "statement": "random-global creates exactly the requested number of particles, all inside the potential range; random-pos creates exactly the requested number, each at one of the given positions.", "quantifier": "every number, ranges and random stream", "why_tests_cant": "all random streams", "anchors": ["bdld/main.py:init_particles"]}
{"id": "C63", "title": "FES from histogram", "statement": "calculate_fes returns infinity exactly for empty bins; if any bin is non-empty the minimum is exactly zero, attained at the fullest bins, and F_a - F_b = -kT ln(n_a/n_b) for non-empty bins; an entirely empty histogram gives infinity everywhere. The result does not change if all counts are multiplied by the same factor.", "quantifier": "every histogram and kT > 0 (exact real arithmetic)", "why_tests_cant": "all histograms", "anchors": ["bdld/actions/fes_action.py:calculate_fes"]}
{"id": "C64", "title": "Delta F from FES", "statement": "For states with at least one count, calculate_delta_f(calculate_fes(h), kT, masks)[i-2] = -kT ln(N_i/N_1) with N_i the number of histogram counts in state i; it is independent of a constant shift of the FES, additive over a chain of states and antisymmetric.", "quantifier": "every histogram, kT > 0 and masks", "why_tests_cant": "all histograms and masks", "anchors": ["bdld/actions/delta_f_action.py:calculate_delta_f", "bdld/actions/fes_action.py:calculate_fes"]}
{"id": "C65", "title": "Delta F works in every dimension", "statement": "For a histogram of any dimension the [delta-f] action can be set up with states given as rectangular areas of the coordinates.", "quantifier": "every dimension and number of bins", "why_tests_cant": "all shapes", "anchors": ["bdld/main.py:setup_delta_f", "bdld/actions/delta_f_action.py:check_mask_shapes", "bdld/tools.py:pos_inside_ranges"]}
{"id": "C66", "title": "Membership in states", "statement": "pos_inside_ranges marks exactly the positions whose every coordinate lies in the closed interval of the state; count_particles returns for every state the number of particles in it, so for pairwise disjoint states the counts sum to at most the number of particles.", "quantifier": "every set of positions and states", "why_tests_cant": "all positions incl. boundaries", "anchors": ["bdld/tools.py:pos_inside_ranges", "bdld/actions/particle_distribution.py:ParticleDistributionAction.count_particles"]}
{"id": "C67", "title": "Thermal energy used for the FES", "statement": "The FES is calculated with the kT given in the [fes] section.", "quantifier": "every input", "why_tests_cant": "all inputs", "anchors": ["bdld/actions/fes_action.py:FesAction.__init__", "bdld/main.py:setup_fes", "bdld/inputparser.py:Input.parse_fes"]}
{"id": "C68", "title": "Existing files are never lost", "statement": "Whatever files exist before, initialising an output file or writing histogram / FES files never destroys the content of an existing file: it is kept under its own name or under a new bck.N name, and other files are untouched.", "quantifier": "every state of the file system, every sequence of writes", "why_tests_cant": "all file system states", "anchors": ["dist/bdld-0.3.2.tar.gz: bdld/helpers/misc.py (the bdld/helpers git submodule is only present there):backup_if_exists", "dist/bdld-0.3.2.tar.gz: bdld/helpers/misc.py (the bdld/helpers git submodule is only present there):initialize_file", "bdld/actions/histogram_action.py:HistogramAction.write", "bdld/actions/fes_action.py:FesAction.write"]}
{"id": "C69", "title": "File headers describe the columns", "statement": "The FIELDS line of every output file has exactly one entry per data column.", "quantifier": "every number of particles, dimensions and states", "why_tests_cant": "all shapes", "anchors": ["bdld/actions/trajectory_action.py:TrajectoryAction.__init__", "bdld/actions/delta_f_action.py:DeltaFAction.__init__", "bdld/actions/particle_distribution.py:ParticleDistributionAction.__init__", "bdld/actions/birth_death.py:BirthDeath.Stats.__init__", "bdld/actions/histogram_action.py:HistogramAction.__init__", "bdld/actions/fes_action.py:FesAction.__init__"]}
{"id": "C70", "title": "Order and number of action executions", "statement": "A simulation executes, for every step 1..n in order, all set up actions once in the fixed order ld, birth-death, trajectories, histogram, fes, delta-f, particle-distribution, and afterwards the final actions once in the same order; actions for absent sections are never executed.", "quantifier": "every n and combination of sections", "why_tests_cant": "all n and combinations", "anchors": ["bdld/main.py:main"]}
{"id": "C71", "title": "Recalculated rates are those of the current configuration", "statement": "With recalculated probabilities every walker is considered exactly once per birth-death step, in an order chosen by the random generator, and whether it triggers an event is decided with its rate in the configuration left by the events executed before it; events are executed immediately and the returned list contains exactly the executed events in that order.", "quantifier": "every particle list, rate function, and random stream without a random number of exactly zero", "why_tests_cant": "the order of walkers and the intermediate configurations are unbounded", "anchors": ["bdld/actions/birth_death.py:BirthDeath.do_birth_death"]}
{"id": "C72", "title": "Birth-death never reuses random numbers", "statement": "A birth-death step draws one uniform number per walker, shuffles once, draws one integer per executed event, and leaves the generator in the state after these draws, so later steps continue the stream.", "quantifier": "every generator, particle list and mode", "why_tests_cant": "all streams", "anchors": ["bdld/actions/birth_death.py:BirthDeath.do_birth_death", "bdld/actions/birth_death.py:BirthDeath.random_other"]}
{"id": "C73", "title": "Frictionless dynamics preserves phase space volume", "statement": "With friction 0 and without boundary condition, one step of the Bussi-Parrinello integrator maps (position, momentum) to (position, momentum) preserving the Lebesgue measure of phase space, whatever random numbers are drawn.", "quantifier": "every potential with measurable force, mass, time step and noise (exact real arithmetic)", "why_tests_cant": "Volume preservation is a statement about all measurable sets of phase space; tests only follow single trajectories.", "anchors": ["bdld/actions/bussi_parinello_ld.py:BussiParinelloLD.run"]}
{"id": "C74", "title": "Structure of the Bussi-Parrinello step", "statement": "Without boundary condition a step of BussiParinelloLD is exactly: thermostat half step with the first random vector, velocity Verlet step, thermostat half step with a second random vector, with decay exp(-friction dt/2) and noise amplitude sqrt(m kT (1 - exp(-friction dt))); a boundary condition acts after the drift and before the new forces are calculated.", "quantifier": "every potential, particle, noise and parameters (exact real arithmetic; law-free for the order of operations)", "why_tests_cant": "Tests compare single trajectories with stored ones and cannot tell a wrong noise vector or order of operations from a changed seed.", "anchors": ["bdld/actions/bussi_parinello_ld.py:BussiParinelloLD.run", "bdld/actions/bussi_parinello_ld.py:BussiParinelloLD.__init__"]}
{"id": "C75", "title": "Kernel density of the equilibrium distribution is centred", "statement": "The convolution of the equilibrium density with the kernel used by the approximations gives at every grid point x the sum over the grid points y of density(y) * kernel(x - y) * volume element; in particular a symmetric density gives a symmetric result.", "quantifier": "every density grid, bandwidth and stepsize (exact real arithmetic)", "why_tests_cant": "The shift depends on the rounded ratio of bandwidth and stepsize; a test fixes one ratio.", "anchors": ["bdld/actions/birth_death.py:dens_kernel_convolution", "bdld/grid.py:convolve", "bdld/grid.py:from_stepsizes"]}
{"id": "C76", "title": "Logarithms of the approximations are defined", "statement": "For every positive equilibrium density the additive and multiplicative approximation grids only take logarithms of strictly positive numbers, so all values are finite.", "quantifier": "every number of dimensions, positive density, bandwidths (exact real arithmetic)", "why_tests_cant": "Holds or fails far out in the tails, where tests do not look.", "anchors": ["bdld/actions/birth_death.py:calc_additive_correction", "bdld/actions/birth_death.py:dens_kernel_convolution", "bdld/actions/birth_death.py:BirthDeath.__init__"]}
{"id": "C77", "title": "Additive correction averages to zero", "statement": "The additive correction is -log((K*pi)/pi) plus a constant, and its average over the equilibrium density is zero.", "quantifier": "every density grid and bandwidth (exact real arithmetic)", "why_tests_cant": "Needs the exact integral for all densities; numerical tests only see small numbers.", "anchors": ["bdld/actions/birth_death.py:calc_additive_correction", "bdld/actions/birth_death.py:nd_trapz", "bdld/potential/potential.py:Potential.calculate_probability_density"]}
{"id": "C78", "title": "Number formats in the input", "statement": "The fmt options accept a number format written as in the documentation (e.g. %14.9f) and use it as written.", "quantifier": "every format string", "why_tests_cant": "The value passes through configparser's interpolation, in which a percent sign has a meaning; tests set fmt through the Python interface.", "anchors": ["bdld/inputparser.py:Input.parse_all", "bdld/inputparser.py:InputOption.parse"]}
{"id": "C79", "title": "FES values are located at the bin centres", "statement": "The points of the grid holding the FES are the centres of the histogram bins, lo + (i + 1/2) (hi - lo) / n in every dimension.", "quantifier": "every histogram that can be set up (exact real arithmetic)", "why_tests_cant": "The grid is built from the first and last bin centre through another code path than the histogram axes; tests use one number of bins and do not compare the axes.", "anchors": ["bdld/histogram.py:Histogram.__init__", "bdld/grid.py:Grid.copy_empty", "bdld/grid.py:Grid.axes", "bdld/actions/fes_action.py:calculate_fes"]}
{"id": "C80", "title": "Analysis does not influence the dynamics", "statement": "Two runs whose input files agree in [ld], [potential], [particles] and [birth-death] end with the same walkers, the same states of the random generators and the same birth-death statistics, whatever trajectory, histogram, FES, delta F or particle distribution output is requested and whatever uninitialised memory contains.", "quantifier": "every pair of input files, every world", "why_tests_cant": "Needs pairs of runs over all combinations of analysis actions; the actions share mutable particle lists, so accidental aliasing would only show for special combinations.", "anchors": ["bdld/main.py:main", "bdld/actions/trajectory_action.py", "bdld/actions/histogram_action.py", "bdld/actions/fes_action.py", "bdld/actions/delta_f_action.py", "bdld/actions/particle_distribution.py"]}
{"id": "C81", "title": "Trajectory files of a whole run", "statement": "After a finished run with [trajectories] and a file name, the file of every walker contains exactly one line for every multiple of the stride in 1 ... n_steps, in order, with the time, the position of that walker after that step of the dynamics and, if requested, its momentum; without a file name there are no files.", "quantifier": "every input file, every world, every number of steps, strides and walkers", "why_tests_cant": "Needs all combinations of strides, write strides, number of steps and the other actions.", "anchors": ["bdld/main.py:main", "bdld/main.py:setup_trajectories", "bdld/actions/trajectory_action.py:TrajectoryAction.run", "bdld/actions/trajectory_action.py:TrajectoryAction.final_run"]}
{"id": "C82", "title": "Histogram of a whole run", "statement": "After a finished run with [histogram] without resets, every bin holds exactly the number of walker positions in this bin at the multiples of the histogram stride in 1 ... n_steps.", "quantifier": "every input file, every world", "why_tests_cant": "All combinations of strides and numbers of steps of trajectories and histogram.", "anchors": ["bdld/main.py:main", "bdld/main.py:setup_histogram", "bdld/actions/histogram_action.py:HistogramAction.run", "bdld/actions/histogram_action.py:HistogramAction.final_run"]}
{"id": "C83", "title": "Delta F file of a whole run", "statement": "After a finished run with [delta-f] and a file name, the file contains one line for every multiple of the stride in 1 ... n_steps (a single line for the end of the run if there is no stride) with the time and -kT ln(N_i/N_1) of the counts in the states of the histogram from which the FES was calculated.", "quantifier": "every input file, every world, as long as no state is empty", "why_tests_cant": "All combinations of strides of FES, delta F and numbers of steps.", "anchors": ["bdld/main.py:main", "bdld/main.py:setup_delta_f", "bdld/actions/delta_f_action.py:DeltaFAction.run", "bdld/actions/delta_f_action.py:DeltaFAction.final_run"]}
{"id": "C84", "title": "Particle distribution file of a whole run", "statement": "After a finished run with [particle-distribution] and a file name, the file contains one line for every multiple of the stride in 1 ... n_steps (a single line for the end of the run if there is no stride) with the step and the numbers of walkers in the states at that step.", "quantifier": "every input file, every world", "why_tests_cant": "All combinations of strides and numbers of steps.", "anchors": ["bdld/main.py:main", "bdld/main.py:setup_particle_distribution", "bdld/actions/particle_distribution.py:ParticleDistributionAction.run", "bdld/actions/particle_distribution.py:ParticleDistributionAction.final_run"]}
{"id": "C85", "title": "Walkers of a whole run", "statement": "The walkers at the end of a finished run are those of the dynamics (Langevin steps, and birth-death at multiples of its stride) started from the initial walkers, and their number is the initial number.", "quantifier": "every input file, every world", "why_tests_cant": "All lengths of runs and all random numbers.", "anchors": ["bdld/main.py:main", "bdld/actions/birth_death.py:BirthDeath.run", "bdld/actions/bussi_parinello_ld.py:BussiParinelloLD.run", "bdld/actions/overdamped_ld.py:OverdampedLD.run"]}
{"id": "C86", "title": "Progress of a whole run", "statement": "Once the parser and the set-up of all actions have accepted an input file, the program runs through all its steps and ends without an exception.", "quantifier": "every input file, every world, every number of steps", "why_tests_cant": "A single exception in any of the steps of any combination of actions would be a counterexample; tests run a few combinations for a few steps.", "anchors": ["bdld/main.py:main", "bdld/actions/birth_death.py:BirthDeath.do_birth_death", "bdld/actions/histogram_action.py:HistogramAction.run", "bdld/actions/delta_f_action.py:DeltaFAction.run", "bdld/actions/particle_distribution.py:ParticleDistributionAction.run"]}
{"id": "C87", "title": "Lines of histogram and FES files", "statement": "Whatever the bins and values of a one- or two-dimensional histogram or FES are, the file has the header lines and then exactly one line per bin with the bin centres and the value of this bin, in two dimensions with an empty line after each block of constant first coordinate; nothing is written for three dimensions.", "quantifier": "every number of bins, all bin edges, all counts and FES values", "why_tests_cant": "Writing by slices of a flattened array can be wrong for unequal or degenerate numbers of bins; tests check one square grid.", "anchors": ["bdld/grid.py:Grid.write_to_file", "dist/bdld-0.3.2.tar.gz: bdld/helpers/misc.py (the bdld/helpers git submodule is only present there):write_2d_sliced_to_file", "bdld/actions/histogram_action.py:HistogramAction.write", "bdld/actions/fes_action.py:FesAction.write"]}
{"id": "C88", "title": "Histogram and FES files of a whole run", "statement": "In every finished run the histogram (FES) files are exactly: filename_t for every positive multiple t of the write stride up to the number of steps with the histogram (FES) of this step (before a reset in the same step), and then filename with the final one; none without a filename.", "quantifier": "every input file, every world, every number of steps", "why_tests_cant": "The content depends on the order of updates, resets and writes in every step and on strides that do not divide each other.", "anchors": ["bdld/actions/histogram_action.py:HistogramAction.run", "bdld/actions/histogram_action.py:HistogramAction.write", "bdld/actions/histogram_action.py:HistogramAction.final_run", "bdld/actions/fes_action.py:FesAction.run", "bdld/actions/fes_action.py:FesAction.write", "bdld/actions/fes_action.py:FesAction.final_run", "bdld/main.py:main"]}
{"id": "C89", "title": "Potential of a whole run", "statement": "In every finished run the potential on which the walkers move is the one described by the section [potential]: dimension, energy function (polynomial of the coefficients or of the coefficient file, Müller-Brown), ranges and boundary condition, and the force is minus the gradient of the energy.", "quantifier": "every input file, every world, every position", "why_tests_cant": "The options reach the potential through several branches of the set-up and conversions; tests use one potential per branch.", "anchors": ["bdld/main.py:setup_potential", "bdld/potential/polynomial.py:PolynomialPotential.__init__", "bdld/potential/polynomial.py:coefficients_from_file", "bdld/potential/mueller_brown.py:MuellerBrownPotential.__init__", "bdld/potential/potential.py:Potential.force"]}
{"id": "C90", "title": "Constants and initial walkers of a whole run", "statement": "In every finished run the integrator, time step, friction, thermal energy and seed are those of [ld], and the walkers start at rest with the mass of [particles], with positions distributed as asked for (random-global: consecutive random numbers in the ranges; random-pos: chosen among the given positions; fractions-pos: the given shares), with the energies and forces of these positions.", "quantifier": "every input file, every world", "why_tests_cant": "Exchanged options, wrong defaults or random numbers used twice show up only in some combinations of options.", "anchors": ["bdld/main.py:setup_ld", "bdld/main.py:init_particles", "bdld/actions/bussi_parinello_ld.py:BussiParinelloLD.add_particle"]}
{"id": "C91", "title": "Path of every walker in a whole run", "statement": "In every step of a finished run every walker does exactly one step of the dynamics described by the options (Euler-Maruyama or Bussi-Parrinello, with the boundary condition), with the next random vectors of the generator, each vector being used by exactly one walker in one step; energies and forces stored in the walkers always belong to their positions; birth-death only replaces walkers by copies and only at multiples of its stride.", "quantifier": "every input file, every world, every step, every walker", "why_tests_cant": "A statement about all steps and all random numbers of a run; tests compare a few steps for a fixed seed with stored results.", "anchors": ["bdld/main.py:main", "bdld/actions/bussi_parinello_ld.py:BussiParinelloLD.run", "bdld/actions/overdamped_ld.py:OverdampedLD.run", "bdld/actions/birth_death.py:BirthDeath.run"]}
{"id": "C92", "title": "Birth-death step as a function of rates and random numbers", "statement": "A birth-death step is exactly the following function of walkers, rates and random numbers. Fixed rates: the selected walkers act in shuffled order, walkers killed before do nothing, every acting walker draws one integer choosing another walker, is killed (positive rate) or duplicated (otherwise), and all copies are executed in this order. Recalculated rates: all walkers in shuffled order, selection and roles with the present rates, immediate execution. Walkers, generator and counters afterwards are those of this function; in a finished run bandwidth, temperature, variant, time step, stride, factor, mode and seed are those of the options.", "quantifier": "every state, every rate function, every generator (recalculated rates: no event accepted for a rate of exactly zero)", "why_tests_cant": "The outcome depends on the order of draws, exclusions and copies over all patterns of accepted events; tests check a few patterns.", "anchors": ["bdld/actions/birth_death.py:BirthDeath.do_birth_death", "bdld/actions/birth_death.py:BirthDeath.random_other", "bdld/actions/birth_death.py:BirthDeath.__init__", "bdld/main.py:setup_birth_death"]}
{"id": "C93", "title": "A whole simulation is the one described by the options", "statement": "After every step of a finished run the positions and momenta of all walkers are those of the reference simulation defined from the options alone: initial walkers, Langevin steps with consecutive random vectors and, at multiples of the birth-death stride, birth-death steps with rates log(kernel density) + U/kT minus average (with the correction of the variant) and probabilities 1 - exp(-|rate| dt stride factor); the reported statistics are the counters of this simulation at the multiples of stats-stride, or at the end without it.", "quantifier": "every input file, every world, every number of steps (recalculated probabilities: random numbers of birth-death not exactly 0)", "why_tests_cant": "End-to-end statement about all options, all random numbers and all steps; tests compare stored results for a fixed seed.", "anchors": ["bdld/main.py:main", "bdld/actions/birth_death.py:BirthDeath.run", "bdld/actions/birth_death.py:BirthDeath.final_run", "bdld/actions/bussi_parinello_ld.py:BussiParinelloLD.run", "bdld/actions/overdamped_ld.py:OverdampedLD.run"]}
{"id": "C94", "title": "File headers can be read back", "statement": "A header written by PlumedHeader and followed by arbitrary data lines is read back by PlumedHeader.parse_file: the fields and the constants of the reading object are then exactly those of the writing object.", "quantifier": "all headers, all data that follow, all comment delimiters", "why_tests_cant": "Depends on the text of every name and value; tests use a few fixed names without blanks.", "anchors": ["bdld/helpers/plumed_header.py:PlumedHeader.__repr__", "bdld/helpers/plumed_header.py:PlumedHeader.parse_file", "bdld/actions/birth_death.py:BirthDeath.Stats.__init__", "bdld/actions/particle_distribution.py:ParticleDistributionAction.__init__"]}
{"id": "C95", "title": "Ordinal numbers in messages", "statement": "make_ordinal appends the English suffix to every non-negative number: th if the tens digit is 1, otherwise st, nd, rd for the last digit 1, 2, 3 and th else.", "quantifier": "all non-negative integers", "why_tests_cant": "Infinitely many numbers; the docstring lists four.", "anchors": ["bdld/helpers/misc.py:make_ordinal"]}
{"id": "C96", "title": "Plots of a whole run", "statement": "A finished run with [fes] and a plot-filename has made one plot for every multiple t of plot-stride (file plot-filename_t, title plot-title_t) and one at the end (plot-filename, plot-title), and no others; without plot-filename there are none. Each shows the FES of the histogram at the last multiple of the FES stride: in one dimension the FES and the potential with minimum zero over the bin centres, within the given limits, or with limits that contain every finite FES value; in two dimensions an image of all bin values between the first and last bin centres; in more dimensions nothing.", "quantifier": "every finished run, every input file, every world", "why_tests_cant": "Needs the plots of arbitrarily many steps and all bins; plots are looked at by eye.", "anchors": ["bdld/actions/fes_action.py:FesAction.plot", "bdld/actions/fes_action.py:FesAction.run", "bdld/actions/fes_action.py:FesAction.final_run", "bdld/actions/fes_action.py:plot_fes", "bdld/main.py:setup_fes"]}
{"id": "C97", "title": "Place of a bin in a two-dimensional plot", "statement": "The image of a two-dimensional FES shows at the centre of every bin the FES value of that bin.", "quantifier": "every histogram with two dimensions and at least two bins in each, every FES", "why_tests_cant": "An image looks plausible also if it is transposed; all potentials of the examples are nearly symmetric or one-dimensional.", "anchors": ["bdld/actions/fes_action.py:plot_fes"]}
{"id": "C98", "title": "Plots during the simulation do not stop it", "statement": "If the plot file name is one that matplotlib can save, and input and set-up are accepted, the plots do not stop the run.", "quantifier": "every input file, every world", "why_tests_cant": "Needs the combination of plot-filename with extension, plot-stride and a run without terminal.", "anchors": ["bdld/actions/fes_action.py:FesAction.plot", "bdld/actions/fes_action.py:plot_fes", "bdld/actions/fes_action.py:save_fig_interactive"]}
{"id": "C99", "title": "Statistics of a whole run and the report about them", "statement": "In a run with birth-death the four counters start at zero, never decrease, there are never more successes than attempts, every walker attempts exactly one event per birth-death step (at most one in the recalculating mode). They are reported at the multiples of stats-stride, or once at the end; a line of the file contains step and counters; a printed percentage is 100*successes/attempts, lies between 0 and 100, and is missing exactly if there was no attempt; the ratios are those of duplications to kills.", "quantifier": "every input file, every world, every finished run", "why_tests_cant": "Percentages outside the range need special orders of events; a division by zero occurs only if no walker has a rate of the respective sign.", "anchors": ["bdld/actions/birth_death.py:BirthDeath.Stats.print", "bdld/actions/birth_death.py:BirthDeath.Stats.reset", "bdld/actions/birth_death.py:BirthDeath.run", "bdld/actions/birth_death.py:BirthDeath.final_run"]}
{"id": "C100", "title": "Walker density on a grid", "statement": "walker_density_grid returns for every grid point the density and the rate of an additional walker at this point, in every dimension and for every number of walkers.", "quantifier": "every list of walkers, grid and energies, every dimension", "why_tests_cant": "The function is not called by the program; errors depend on dimension and number of walkers.", "anchors": ["bdld/actions/birth_death.py:BirthDeath.walker_density_grid"]}
{"id": "C101", "title": "Distribution of the events of a birth-death step", "statement": "If the random numbers of a step are independent and uniform on [0, 1), the walkers are selected independently of each other, walker i with probability 1 - exp(-|beta_i| dt rate_factor), and the partner of an event is uniformly distributed among the other walkers.", "quantifier": "every number of walkers, rate configuration, time step and rate factor, every set of selected walkers", "why_tests_cant": "A statement about a probability measure; tests can only compare frequencies of samples.", "anchors": ["bdld/actions/birth_death.py:BirthDeath.do_birth_death", "bdld/actions/birth_death.py:BirthDeath.random_other"]}
{"id": "C102", "title": "Birth-death does nothing at equilibrium", "statement": "The rates of the original variant vanish for all walkers if and only if the estimated walker density is proportional to the Boltzmann factor at the walkers; then a step with positive random numbers changes nothing, and otherwise some walker has a positive probability to be selected.", "quantifier": "every list of walkers, bandwidth, temperature, both modes", "why_tests_cant": "Exact equilibrium of a density estimate is a special configuration that sampled walkers never meet.", "anchors": ["bdld/actions/birth_death.py:BirthDeath.calc_betas", "bdld/actions/birth_death.py:BirthDeath.do_birth_death"]}
{"id": "C103", "title": "A killed walker becomes a copy of the walker named in its event", "statement": "After a step with all rates calculated beforehand, the killed walker of every event is a copy of the walker named in the event, as that was before the step.", "quantifier": "every list of walkers, rates and random numbers", "why_tests_cant": "Needs several interacting events in one step in a particular order.", "anchors": ["bdld/actions/birth_death.py:BirthDeath.perform_moves", "bdld/actions/birth_death.py:BirthDeath.do_birth_death"]}
{"id": "C104", "title": "Birth-death is a jump process with the calculated rates", "statement": "For short time steps, the probability that a step consists of the replacement of walker i by a copy of walker j is dt * rate_factor * (max(beta_i, 0) + max(-beta_j, 0)) / (n - 1) up to higher orders in dt; the average over the walkers then follows the birth-death equation.", "quantifier": "every number of walkers from two on, every rate configuration, every pair of walkers, ideal random numbers", "why_tests_cant": "A limit of probabilities for vanishing time step.", "anchors": ["bdld/actions/birth_death.py:BirthDeath.do_birth_death", "bdld/actions/birth_death.py:BirthDeath.random_other"]}
{"id": "C105", "title": "Explicit corrections in one dimension", "statement": "In a one-dimensional run the correction of the birth-death rates is an explicit function of the options: Boltzmann density on the smallest odd grid with at least 501 points and two points per bandwidth, normalised by the plain sum; convolution with the Gaussian kernel cut at five bandwidths; -log(K*pi/pi) plus its average by the trapezoidal rule (additive) or -log(K*pi) (multiplicative); 101 points, linear interpolation, zero outside of the range. The walkers after every step are those of the simulation with this correction.", "quantifier": "every finished one-dimensional run with birth-death, every potential and range, every bandwidth, all three variants, every linear interpolation", "why_tests_cant": "The values depend on the potential and the bandwidth, tests compare a few of them with another grid calculation.", "anchors": ["bdld/actions/birth_death.py:BirthDeath.__init__", "bdld/actions/birth_death.py:calc_additive_correction", "bdld/actions/birth_death.py:dens_kernel_convolution", "bdld/main.py:bd_prob_density", "bdld/grid.py:sparsify"]}
{"id": "C106", "title": "Accuracy of FES and free energy differences", "statement": "If the counts of a histogram follow the Boltzmann distribution of the potential at the bin centres up to a factor between exp(-e) and exp(e), then every value of the FES differs from the reference (energy minus minimum) by at most 2 kT e, and every free energy difference differs from -kT ln of the ratio of the Boltzmann sums of the states by at most 2 kT e. An ideal histogram gives exactly the reference. The same holds for the final FES of a run of the program.", "quantifier": "every potential, all points, every shape of the histogram, all counts, every e and thermal energy, all states with at least one bin; every finished run", "why_tests_cant": "Errors of the estimate are statistical in tests, the bound for every histogram cannot be sampled.", "anchors": ["bdld/actions/fes_action.py:calculate_fes", "bdld/actions/delta_f_action.py:calculate_delta_f", "bdld/potential/potential.py:Potential.calculate_reference", "bdld/main.py:setup_fes"]}
{"id": "C107", "title": "Stationary distributions of the integrators", "statement": "Without boundary condition: (1) walkers with the canonical distribution exp(-H/kT) keep it over n steps of the Bussi-Parrinello integrator up to n times the mean of |1-exp(-dH/kT)|, where dH is the energy error of the deterministic part, which is the error of the trapezoidal rule for the work plus dt^2/8m times the change of the squared force. (2) In a harmonic potential independent normal positions with variance kT/(k(1-k dt^2/4m)) and momenta with variance m kT are exactly stationary if k dt^2 < 4m, the canonical distribution itself is not: the variance of the positions grows by the factor 1+k^2 dt^4/4m^2 in the first step. (3) For overdamped dynamics normal positions with variance 1/(k(1-k dt/2)) are exactly stationary if k dt < 2.", "quantifier": "every measurable potential and force, every dimension, mass, friction, thermal energy and time step, every number of steps; all harmonic potentials below the stability limit", "why_tests_cant": "Distributions can only be estimated in tests; errors of the time step are smaller than statistical errors.", "anchors": ["bdld/actions/bussi_parinello_ld.py:BussiParinelloLD.run", "bdld/actions/overdamped_ld.py:OverdampedLD.run"]}
{"id": "C108", "title": "Boundary conditions keep densities and reversibility", "statement": "With a boundary condition the distribution of a walker keeps having a density, positions stay inside of the ranges, and the frictionless dynamics stays time reversible; with forces that have the periods of the ranges the periodic boundary yields the motion without boundary up to whole periods.", "quantifier": "every potential with measurable force, dimension, range, time step, friction, mass, thermal energy; every initial distribution; every number of steps and all random numbers", "why_tests_cant": "Probabilities of single points and reversibility of rare crossings cannot be observed by runs.", "anchors": ["bdld/potential/potential.py:Potential.apply_boundary_condition_reflective", "bdld/potential/potential.py:Potential.apply_boundary_condition_periodic", "bdld/actions/bussi_parinello_ld.py:BussiParinelloLD.run", "bdld/actions/overdamped_ld.py:OverdampedLD.run"]}
{"id": "C109", "title": "Rounding errors of the dynamics", "statement": "The integrators computed with floating point numbers follow the exact dynamics with the same random numbers: with operations rounded to relative error u (plus underflow) and without overflow, all positions and momenta after n steps differ from the exact ones at most by the n-th iterate of an explicit error recursion; for overdamped dynamics (also with reflective boundary) this is the geometric sum of the error of one step with ratio (1+u)(1+(1+u)^2 dt L), L the Lipschitz constant of the computed force.", "quantifier": "every arithmetic with the rounding contract of IEEE doubles, every number of walkers, steps and dimensions, all random numbers and initial states, every potential with bounded error of the computed force; exact path inside given bounds", "why_tests_cant": "Tests compare computed numbers with computed numbers; the exact path is not available to them.", "anchors": ["bdld/actions/bussi_parinello_ld.py:BussiParinelloLD.run", "bdld/actions/overdamped_ld.py:OverdampedLD.run", "bdld/potential/potential.py:Potential.apply_boundary_condition_reflective"]}
{"id": "C110", "title": "Rounding errors do not change birth-death events", "statement": "If no decision of the exact run is close - every exact rate is farther from zero than the error of the computed rate, and every random number farther from the exact acceptance probability than the error of the computed one - then the run computed with rounding errors makes exactly the same birth-death events in the same order in every step, has the same counters and the same states of the generators, and its walkers stay as close to the exact ones as without birth-death.", "quantifier": "every arithmetic with the rounding contract of IEEE doubles, every generator, number of walkers, steps and dimensions, stride, both modes (with and without recalculation), all variants of the rates, both integrators", "why_tests_cant": "A changed comparison is only visible against the exact run, which tests cannot compute; the number of possible runs is unbounded.", "anchors": ["bdld/actions/birth_death.py:BirthDeath.do_birth_death", "bdld/actions/birth_death.py:BirthDeath.run", "bdld/actions/birth_death.py:BirthDeath.random_other", "bdld/main.py:main"]}
{"id": "C111", "title": "Rounding errors of rates and acceptance probabilities", "statement": "The rates of calc_betas and the acceptance probabilities computed with floating point numbers differ from the exact ones at most by explicit bounds, propagated through kernel, density, logarithm, energy term, average and exponential; this holds for every order of additions in np.sum and np.mean, and without rounding errors the computation gives exactly the rates of the exact model.", "quantifier": "every arithmetic with the rounding contract of IEEE doubles, exp and log with bounded error, every number of walkers and dimensions, all positions and energies within given bounds, all variants, both implementations of the density", "why_tests_cant": "Error bounds for all inputs cannot be measured; sums in numpy change their order with the size of the array.", "anchors": ["bdld/actions/birth_death.py:BirthDeath.calc_betas", "bdld/actions/birth_death.py:calc_kernel", "bdld/actions/birth_death.py:walker_density", "bdld/actions/birth_death.py:BirthDeath.do_birth_death"]}
{"id": "C112", "title": "Contradicting output settings are rejected before the run", "statement": "An input file in which output is asked for that could never be produced - a write stride of histogram or FES without filename, a write or plot stride of the FES without stride or without filename, a write stride of delta F or particle distribution without filename or not a multiple of the stride - is rejected while the actions are set up, before any step is executed; the constructors raise ValueError exactly in these cases, and in no other case that passed the input parser.", "quantifier": "all input files that pass the parser, all dimensions, all conversions of numbers, all generators", "why_tests_cant": "The combinations of options over all sections with arbitrary numbers as strides are unbounded, and 'exactly in these cases' needs all of them.", "anchors": ["bdld/actions/histogram_action.py:HistogramAction.__init__", "bdld/actions/fes_action.py:FesAction.__init__", "bdld/actions/delta_f_action.py:DeltaFAction.__init__", "bdld/actions/particle_distribution.py:ParticleDistributionAction.__init__", "bdld/main.py:main"]}
{"id": "C113", "title": "Numbers survive the text of the output files", "statement": "A number printed with a fixed number p of decimal digits and read again differs from the original at most by half of the last digit; integers and numbers with at most p decimal digits are read exactly, infinity is read as infinity, and the order of numbers is kept. Columns never run into each other, however large the numbers are, and header lines, empty lines and writing in several blocks do not change the table that is read.", "quantifier": "all numbers, widths, numbers of digits, rows, columns, headers whose fields and constants have no line break, grids in one and two dimensions", "why_tests_cant": "The numbers, tables and formats are unbounded; ties and carries (0.9999999995) are single points that sampling does not meet.", "anchors": ["bdld/grid.py:Grid.write_to_file", "bdld/actions/trajectory_action.py:TrajectoryAction.write", "bdld/actions/delta_f_action.py:DeltaFAction.write", "bdld/actions/particle_distribution.py:ParticleDistributionAction.write"]}
{"id": "C114", "title": "The text of the files of a run gives back its results", "statement": "After a finished run, reading the text of the trajectory file of a walker gives one row per multiple of the stride with time, position and momentum up to half of the last printed digit; the histogram file gives the bin centres with the exact counts, the FES file the free energies with inf for empty bins, the statistics file the exact counters of birth-death in the reported steps, the particle distribution file the exact numbers of walkers in the states, and the delta F file times and free energy differences.", "quantifier": "all input files of finished runs, all generators, numbers of steps and walkers, strides, widths and numbers of digits; grids in one and two dimensions", "why_tests_cant": "Composition of run, buffers, blocks, header and number format for all inputs.", "anchors": ["bdld/main.py:main", "bdld/actions/trajectory_action.py:TrajectoryAction.write", "bdld/actions/histogram_action.py:HistogramAction.write", "bdld/actions/fes_action.py:FesAction.write", "bdld/actions/birth_death.py:BirthDeath.Stats.print", "bdld/actions/delta_f_action.py:DeltaFAction.write", "bdld/actions/particle_distribution.py:ParticleDistributionAction.write"]}
{"id": "C115", "title": "Printed times increase", "statement": "The times read from a trajectory file strictly increase from row to row.", "quantifier": "all input files of finished runs, all time steps, strides and numbers of digits", "why_tests_cant": "For small time steps the printed times of neighbouring rows coincide; whether this happens depends on all three numbers.", "anchors": ["bdld/actions/trajectory_action.py:TrajectoryAction.run", "bdld/actions/trajectory_action.py:TrajectoryAction.write"]}
{"id": "C116", "title": "Rounding errors of free energies and free energy differences", "statement": "The computed free energy surface and the computed free energy differences between populated states differ from the exact values by no more than explicit bounds (in double precision 2e-13 kT and 1e-9 kT for up to a million bins). Empty bins are infinite, no other bin is, and the computed minimum is exactly zero.", "quantifier": "all histograms, all kinds of numbers that keep the rounding contract, all temperatures in the allowed range", "why_tests_cant": "Rounding errors depend on the order of summation and on every count; tests see single histograms and have no exact value to compare with.", "anchors": ["bdld/actions/fes_action.py:calculate_fes", "bdld/actions/delta_f_action.py:calculate_delta_f"]}
{"id": "C117", "title": "Exactly the described input files are accepted", "statement": "An input file passes the parser if and only if the required sections are there, every compulsory option is given, the text of every given option is of the right kind and in the allowed range, the options that depend on type, dimension or initial distribution are those of the values in the file, numbered options are complete, and the sections another one depends on are there. A simulation is only run for such files.", "quantifier": "all input files: any sections, options and texts, all conversions from text to numbers", "why_tests_cant": "Tests have a handful of input files; the set of all accepted files (and that nothing else is rejected or accepted) follows only from all options together.", "anchors": ["bdld/inputparser.py:Input.parse_all", "bdld/inputparser.py:Input.parse_section", "bdld/inputparser.py:InputOption.parse"]}
{"id": "C118", "title": "The text of the input file", "statement": "A text of the documented form (sections in square brackets, lines `option: value` or `option = value`, comment lines, empty lines) is read as exactly the sections and values written in it. The run of the program depends only on these: order of sections and options, spaces, comments, empty lines, the delimiter, capital letters in option names, unknown sections and (without references to other values) unknown options have no effect, and spaces around the values of a list have none. A section or option given twice is never read silently, comment lines can be added anywhere in any file, and an indented line belongs to the value before it.", "quantifier": "all texts of the documented form with any number of sections, options and lines; comment lines in all texts", "why_tests_cant": "Layouts are unbounded; tests use a few well formatted files.", "anchors": ["bdld/inputparser.py:Input.__init__", "bdld/main.py:main"]}
{"id": "C119", "title": "Options of the section DEFAULT are shared", "statement": "An option of the section DEFAULT has its value in every section that does not give the option itself; the own value of a section has precedence; DEFAULT is no section for the program and creates none.", "quantifier": "all texts of the documented form, all options and sections", "why_tests_cant": "Sections, options and their positions in the file are unbounded.", "anchors": ["bdld/inputparser.py:Input.__init__"]}
{"id": "C120", "title": "Number of kernel bandwidths", "statement": "The birth-death section needs one kernel bandwidth per dimension of the potential. A simulation is only run if this holds, and otherwise the program reports the error and ends with exit code 1.", "quantifier": "all input files, potentials and numbers of bandwidths", "why_tests_cant": "The option is checked in two places with different knowledge of the dimension; the combination that escapes is rare.", "anchors": ["bdld/main.py:setup_birth_death", "bdld/inputparser.py:Input.parse_birth_death"]}
{"id": "C121", "title": "Numbers in the input file", "statement": "int() and float() as used by the parser read exactly the texts of integers and decimal numbers of the documented grammar (sign, digits with single underscores, point, exponent), with white space around them, and give their exact value; an integer is the same number for both; every number the program prints into its output files, with the padding of its column, is read back by float() with the printed value.", "quantifier": "all texts; all numbers, widths and numbers of printed digits", "why_tests_cant": "Texts are unbounded, and 'exactly these' concerns all texts that are rejected.", "anchors": ["bdld/inputparser.py:InputOption.parse", "bdld/inputparser.py:Input.parse_section"]}
{"id": "C122", "title": "Input without contradictions is simulated to the end", "statement": "A one-dimensional input file that passes the parser and has no contradictions (minimum below maximum, seeds not negative, initial positions with one coordinate and fitting fractions, at least two walkers for birth-death, known names of variants, trajectories for the histogram, output settings that fit together, states given by single numbers, at least two of them for free energy differences, plots that can be saved) is simulated to the end without exception. The file example_input of the repository is such a file: for every generator of random numbers it is simulated to the end, with ten walkers in the potential x^4 - 4 x^2 + x/5, and every trajectory file has 2000 rows.", "quantifier": "all one-dimensional input files with any number of steps, walkers, states and bins, all combinations of sections, all generators of random numbers", "why_tests_cant": "Absence of exceptions for all inputs and all random numbers; tests run single inputs with single seeds.", "anchors": ["bdld/main.py:main", "bdld/main.py:setup_potential", "bdld/main.py:setup_birth_death", "bdld/main.py:setup_histogram", "bdld/main.py:setup_fes", "bdld/main.py:setup_delta_f"]}
{"id": "C123", "title": "Rounding errors of polynomial potentials", "statement": "With floating point arithmetic the energy of a polynomial potential differs from the exact polynomial at the same position at most by ((1+u)^(2n) - 1) times the polynomial with the absolute values of the coefficients, plus a bound for underflow, where n is the sum of the numbers of coefficients along the axes and u the unit roundoff; for the forces there is one more factor 1+u, and the polynomial is the derivative. If the position itself has an error, the change of the polynomial is added, which is at most proportional to this error. So polynomial potentials meet what C109 and C110 ask of energies and forces.", "quantifier": "all polynomials in one, two or three dimensions of any degree, all positions, all arithmetics that meet the contract of rounding", "why_tests_cant": "All coefficients, degrees and positions; tests compare single values with a tolerance.", "anchors": ["bdld/potential/polynomial.py:PolynomialPotential.energy", "bdld/potential/polynomial.py:PolynomialPotential.force", "bdld/potential/polynomial.py:PolynomialPotential.__init__"]}
{"id": "C124", "title": "Histograms of computed positions", "statement": "With floating point arithmetic the edges of a histogram differ from the exact ones at most by a bound of a few roundings. Positions with an error are counted in the exact bin unless the exact position is closer to an edge than the sum of both errors, and then at most in a neighbouring bin; the counts of a bin differ from the exact ones at most by the number of such positions. If there are none, histogram and shape of the free energy are those of the exact positions, and the computed free energy has only the errors of C116.", "quantifier": "all ranges, numbers of bins and dimensions, all numbers of updates, all positions, all arithmetics that meet the contract of rounding", "why_tests_cant": "All positions close to an edge; tests do not hit edges.", "anchors": ["bdld/histogram.py:Histogram.__init__", "bdld/histogram.py:Histogram.add", "bdld/actions/fes_action.py:calculate_fes"]}
{"id": "C125", "title": "Text of coefficient files", "statement": "A coefficient file in the documented form (one row per monomial with its exponents, its coefficient, and any further columns, the same number in all rows; comments after # and empty lines anywhere) is read as exactly these monomials: the potential is set up without error and its energy is their sum. Spaces, comments, the notation of the numbers and the further columns do not matter. Rows with different numbers of columns are an error. The file in the documentation gives the potential of Wolfe and Quapp.", "quantifier": "all texts of the documented form with at least two rows, in two and three dimensions", "why_tests_cant": "All texts, spellings of numbers and comments.", "anchors": ["bdld/potential/polynomial.py:coefficients_from_file", "bdld/main.py:setup_potential"]}
{"id": "C126", "title": "Input in two and three dimensions is simulated to the end", "statement": "An input file for a polynomial in two or three variables or for the Müller-Brown potential that passes the parser and has no contradictions (a coefficient file with at least two monomials, minimum below maximum and one value per dimension everywhere, seeds not negative, initial positions with one coordinate per dimension and fitting fractions, at least two walkers and one bandwidth per dimension for birth-death, known names of variants, trajectories for the histogram, output settings that fit together, no free energy differences) is simulated to the end without exception. Both two-dimensional potentials of the documentation can be used in this way.", "quantifier": "all such input files with any number of steps, walkers, states and bins, all combinations of sections except delta-f, all generators of random numbers, all coefficient files", "why_tests_cant": "Absence of exceptions for all inputs and all random numbers; tests run single inputs with single seeds.", "anchors": ["bdld/main.py:main", "bdld/main.py:setup_potential", "bdld/main.py:setup_birth_death", "bdld/main.py:bd_prob_density", "bdld/main.py:setup_histogram", "bdld/main.py:setup_fes"]}
{"id": "C127", "title": "Rounding errors of the Müller-Brown potential", "statement": "With floating point arithmetic the energy and the forces of the Müller-Brown potential differ from the exact ones at most by explicit bounds, which include the rounding of the constants in the program; with double precision they are at most 4e-9 for the energy and 3e-8 for the forces in the ranges of the potential. The energy and the forces returned by evaluate are those of the separate functions to the last digit. If the position itself has an error, the changes are at most proportional to it. So the potential meets what C109 and C110 ask of energies and forces.", "quantifier": "all positions within given bounds, all arithmetics that round with relative error u and underflow eta, all exponential functions and squares with given accuracy, all scalings", "why_tests_cant": "Bounds of rounding errors for all positions; tests compare single values with a tolerance.", "anchors": ["bdld/potential/mueller_brown.py:MuellerBrownPotential.evaluate", "bdld/potential/mueller_brown.py:MuellerBrownPotential.energy", "bdld/potential/mueller_brown.py:MuellerBrownPotential.force"]}
{"id": "C128", "title": "Writing a documented default changes nothing", "statement": "If an option is missing in a section of the input file, the program does exactly the same when the option is written with its documented default: mass 1, scaling factor 1, original approximation, factor 1, probabilities not recalculated, stride 1 and write-stride 100 of the trajectories, no momenta, stride 1 of the histogram, write-stride of 100 strides for free energy differences and particle distributions.", "quantifier": "all input files, all worlds (random numbers, files, conversions), all texts that denote the default", "why_tests_cant": "Two whole programs agree for all input files and all random numbers; a test compares single runs.", "anchors": ["bdld/inputparser.py:Input.parse_all", "bdld/main.py:setup_birth_death", "bdld/main.py:setup_trajectories", "bdld/main.py:setup_histogram", "bdld/main.py:setup_delta_f", "bdld/main.py:setup_particle_distribution", "bdld/actions/delta_f_action.py:DeltaFAction.__init__"]}
{"id": "C129", "title": "References between options", "statement": "In the value of an option, %% stands for a percent sign and %(name)s for the value of the option name (any case) of the same section or of DEFAULT, which may contain references itself; everything else stands for itself. A value is read as the text it stands for if at most nine values with percent signs are passed through on the way, in particular chains of at most ten references; otherwise, for unknown names, for single percent signs and for all loops, reading the option raises an interpolation error.", "quantifier": "all texts of values, all dictionaries of options, all lengths of chains, all loops", "why_tests_cant": "All nestings of references; tests use input files without references.", "anchors": ["bdld/inputparser.py:InputOption.parse", "bdld/inputparser.py:Input.parse_all"]}
{"id": "C130", "title": "Without friction particles follow Newton's equations", "statement": "With friction 0 and no boundary condition the positions and momenta of all particles after n steps differ from the solution of Newton's equations at time n dt by at most a multiple of dt squared that depends only on the solution, and the energy of a particle changes by at most such a multiple. This holds for all polynomial potentials and for the Müller-Brown potential; solutions exist for every initial position and momentum.", "quantifier": "all potentials with twice continuously differentiable forces, all solutions on any time interval, all small time steps, all numbers of steps, particles and random numbers", "why_tests_cant": "A limit for all small time steps and all solutions; tests compare single trajectories.", "anchors": ["bdld/actions/bussi_parinello_ld.py:BussiParinelloLD.run", "bdld/potential/polynomial.py:PolynomialPotential.force", "bdld/potential/mueller_brown.py:MuellerBrownPotential.force"]}
{"id": "C131", "title": "Short steps follow the Fokker-Planck equations", "statement": "For short time steps the mean of a plane wave of position and momentum after a step changes by dt times the operator of the Fokker-Planck equation: for overdamped dynamics the Smoluchowski operator at unit temperature with an error of at most an explicit multiple of dt squared, for dynamics with momenta the Klein-Kramers operator with the friction, mass and temperature of the simulation.", "quantifier": "all potentials without boundary condition (with continuous forces for the dynamics with momenta), all positions, momenta, wave vectors, frictions, temperatures and masses", "why_tests_cant": "Mean over all random numbers in the limit of small time steps; tests see single random numbers.", "anchors": ["bdld/actions/overdamped_ld.py:OverdampedLD.run", "bdld/actions/bussi_parinello_ld.py:BussiParinelloLD.run"]}
{"id": "C132", "title": "Largest time step in harmonic potentials", "statement": "In a harmonic potential with force constants k and without boundary condition, two walkers that are moved with the same random numbers come together from all starting points if and only if k dt squared is smaller than 4 m for every coordinate (dynamics with momenta and positive friction, whatever the friction is), or k dt is smaller than 2 (overdamped dynamics). Beyond the limit there are walkers that get away from each other exponentially for all random numbers; below it distances stay bounded also without friction.", "quantifier": "all dimensions, force constants, centres, frictions, masses, temperatures and time steps, all sequences of random numbers, all starting points", "why_tests_cant": "An equivalence for infinitely many steps; a test runs finitely many steps with a few time steps.", "anchors": ["bdld/actions/bussi_parinello_ld.py:BussiParinelloLD.run", "bdld/actions/overdamped_ld.py:OverdampedLD.run"]}
{"id": "C133", "title": "Walkers forget where they started", "statement": "Below the largest time step, in harmonic potentials the distribution of position and momentum of a walker converges to the stationary distribution of the integrator whatever it was at the beginning, and two simulations with the same random numbers come together. The same holds for the positions of overdamped walkers in convex potentials without or with reflective boundary condition, if the time step is small compared with the largest curvature.", "quantifier": "all initial distributions, all frictions, temperatures, masses, all convex potentials with bounded curvature, all numbers of walkers", "why_tests_cant": "Convergence of distributions for all initial distributions; tests see finitely many walkers and steps.", "anchors": ["bdld/actions/bussi_parinello_ld.py:BussiParinelloLD.run", "bdld/actions/overdamped_ld.py:OverdampedLD.run", "bdld/potential/potential.py:Potential.apply_boundary_condition_reflective"]}
{"id": "C134", "title": "Errors that are reported are errors of the input file", "statement": "The program exits with code 1 exactly if it logs an error. It is then the only record of the log, the input file does not exist or has a fault of the reported kind (a required section is missing, the named option in the named section is missing or violates its condition, the number of kernel bandwidths is not the dimension, there is a histogram without trajectories), and the message contains the names of the section and the option and, except for missing trajectories, of the file. It is shown unless the log level is critical; unknown names of levels behave like warning.", "quantifier": "all input files (also as text), all file names, all log levels", "why_tests_cant": "A wrong message appears only for certain combinations of options; all files and all messages have to be considered.", "anchors": ["bdld/main.py:main", "bdld/main.py:init_logger", "bdld/inputparser.py:InputOption.parse", "bdld/inputparser.py:OptionError.__init__", "bdld/inputparser.py:SectionError.__init__", "bdld/main.py:setup_birth_death"]}
{"id": "C135", "title": "Log of a finished run", "statement": "The log of a run that comes to its end contains at most one warning, exactly if the FES has a stride that is no multiple of the write stride of the trajectories, and one record for every reset of the histogram in the order of the steps. Without the warning, and only then, every FES that is calculated during the run (histogram without resets) contains all sampled steps up to its own step.", "quantifier": "all input files, all worlds, all numbers of steps", "why_tests_cant": "The equivalence concerns all strides and the contents of the histogram in all steps.", "anchors": ["bdld/actions/fes_action.py:FesAction.__init__", "bdld/actions/histogram_action.py:HistogramAction.run", "bdld/main.py:init_logger", "bdld/main.py:main"]}
{"id": "C136", "title": "Printed output of a run", "statement": "A run that comes to its end prints, in this order, the start message, the parameters of the actions that are set up, the number of steps, the statistics of birth-death and the end messages. The printed potential, time steps, friction, thermal energies, bandwidths, factors, variants, ranges, numbers of bins and strides are those that the simulation uses. 'Finished without errors' is printed exactly if the program finishes without exception, 'Simulation finished' exactly if all steps are done, and 'Setup finished, now running for n steps' exactly if everything is set up and n is the number of steps of the input file.", "quantifier": "all input files, all worlds, all ways to print numbers, also runs that are stopped by an exception", "why_tests_cant": "The messages depend on all options of all sections; the equivalences concern all places where an exception may occur.", "anchors": ["bdld/main.py:main", "bdld/main.py:init_particles", "bdld/main.py:setup_birth_death", "bdld/actions/bussi_parinello_ld.py:BussiParinelloLD.__init__", "bdld/actions/overdamped_ld.py:OverdampedLD.__init__", "bdld/actions/birth_death.py:BirthDeath.__init__", "bdld/actions/trajectory_action.py:TrajectoryAction.__init__", "bdld/actions/histogram_action.py:HistogramAction.__init__", "bdld/actions/fes_action.py:FesAction.__init__", "bdld/actions/delta_f_action.py:DeltaFAction.__init__", "bdld/actions/particle_distribution.py:ParticleDistributionAction.__init__", "bdld/potential/polynomial.py:PolynomialPotential.__str__", "bdld/potential/mueller_brown.py:MuellerBrownPotential.__str__"]}
{"id": "C137", "title": "Meaning of the printed warnings", "statement": "In a run that is at least as long as the stride concerned, the warning about the stride of delta-f (write stride, plot stride of the FES) is printed exactly if at some multiple of that stride the FES is not the one of that step. Without the warning every row of the file of the free energy differences belongs to the histogram of its own step.", "quantifier": "all input files, all worlds, all strides", "why_tests_cant": "An equivalence for all strides and all steps.", "anchors": ["bdld/actions/delta_f_action.py:DeltaFAction.__init__", "bdld/actions/fes_action.py:FesAction.__init__"]}
{"id": "C138", "title": "Free energy differences of states without counts", "statement": "calculate_delta_f never fails for masks of the right size: a state without counts has the free energy difference +inf if the first state has counts; if the first state has none the difference is -inf for a state with counts and nan for one without. If both states have counts the difference is finite and equal to -kT log of the ratio of the counts. In a run whose histogram is never reset, a difference that is finite once stays finite at all later steps.", "quantifier": "all histograms, masks and thermal energies kT > 0; all input files and runs", "why_tests_cant": "Which states are still empty depends on the run; tests only look at filled ones.", "anchors": ["bdld/actions/delta_f_action.py:calculate_delta_f"]}
{"id": "C139", "title": "With many walkers the rates are those of the birth-death equation", "statement": "For walkers drawn independently from one distribution in a bounded region, almost surely the walker density at all walkers tends uniformly to the distribution smoothed by the kernel, and the rates of all walkers tend uniformly to the deviation of log((K*nu)/pi) from its average (plus the correction in the additive variant). If the walkers have the equilibrium distribution and the correction is exact, the rates and acceptance probabilities of all walkers tend to zero in the additive and the multiplicative variant; in the original variant the limit vanishes exactly if the smoothed density is proportional to the Boltzmann factor.", "quantifier": "all distributions with bounded support, all numbers of dimensions, bandwidths, integrable energies and variants; almost all samples", "why_tests_cant": "A limit of infinitely many walkers and a statement about almost all random samples.", "anchors": ["bdld/actions/birth_death.py:BirthDeath.calc_betas", "bdld/actions/birth_death.py:walker_density"]}
{"id": "C140", "title": "Particles have as many momentum as position components", "statement": "A particle made from a position (number, list or 1-d array) without momentum has the same number of momentum components, all zero; with a momentum of the same length it keeps it, with one of another length the constructor raises ValueError. init_momentum checks the length in the same way, and the particles of create_particles have the number of components of the potential or the creation fails.", "quantifier": "all numbers, lists and arrays as position and momentum", "why_tests_cant": "Tests build a handful of particles.", "anchors": ["bdld/particle.py:Particle.__init__", "bdld/particle.py:Particle.init_momentum"]}
{"id": "C141", "title": "Rates of the birth-death events with recalculated rates", "statement": "With recalculation of the rates after each event, the probability that walker i is replaced by a copy of walker j in one step of length dt has the derivative at dt=0 given by the birth-death equation for the rates of the code: a walker with a positive rate is killed with this rate and replaced by a random other one, a walker with a negative rate is duplicated. The expected change of an average over the walkers then drives the walkers towards equilibrium.", "quantifier": "all states of the walkers, all rates, all pairs of different walkers", "why_tests_cant": "A statement on probabilities in the limit of small time steps.", "anchors": ["bdld/actions/birth_death.py:BirthDeath.do_birth_death"]}
{"id": "C142", "title": "Free energy difference file with empty states", "statement": "If the last write contains at least one new row, the file of the free energy differences of a finished run has one row for each multiple of the stride (one at the end without stride) with the time and the differences of the states, also if states are empty. The text of the file contains inf, -inf and nan for the differences with an empty state, and reading it gives back these and the numbers up to half of the last printed digit.", "quantifier": "all input files and runs, all numbers of digits and widths", "why_tests_cant": "Depends on which states are empty in which step of a random run.", "anchors": ["bdld/actions/delta_f_action.py:DeltaFAction.run", "bdld/actions/delta_f_action.py:DeltaFAction.write"]}
{"id": "C143", "title": "Asking for the name of a plot", "statement": "If the name of a plot cannot be used, the user is asked for another one, again and again until the figure was saved or the answer is empty; then the simulation goes on. The figure is saved to the first name that can be used.", "quantifier": "all lists of answers, all known formats and all sets of files that can be written", "why_tests_cant": "The dialogue depends on the user and on the file system.", "anchors": ["bdld/actions/fes_action.py:plot_fes", "bdld/actions/fes_action.py:save_fig_interactive"]}
{"id": "C144", "title": "Command line", "statement": "The program runs exactly for command lines with one input file and any number of options --log-level (or an abbreviation, with the value as the next argument or after =), in any order, also with -- before or after the file; it then uses this file and the last level, or the level warning. For -h or --help it ends with code 0, for all other command lines with code 2 and without a simulation. The exit code is 0 otherwise exactly if the simulation comes to its end.", "quantifier": "all lists of arguments, all input files", "why_tests_cant": "Infinitely many command lines; the tests do not call main.", "anchors": ["bdld/main.py:main"]}
{"id": "C145", "title": "Files in the format of the user", "statement": "Format strings with the flags -, +, space and 0, a width, a precision and f or e are understood as in C, and without one the default has 14 characters and 9 decimals. Whatever the format is, the files can be read again: every number is the one of the program up to half of the last printed digit (relative to the number in scientific notation), infinities and nan are read as such, and no entry is cut off.", "quantifier": "all formats, all tables of numbers, infinities and nan, all finished runs", "why_tests_cant": "Infinitely many formats; the tests use none.", "anchors": ["bdld/actions/trajectory_action.py:TrajectoryAction.write", "bdld/actions/delta_f_action.py:DeltaFAction.write"]}
{"id": "C146", "title": "Accuracy of the estimated density of the walkers", "statement": "For n walkers drawn independently from a distribution, the kernel density estimate at a given point has no bias, its variance is that of one kernel divided by n, and large deviations are accordingly rare. The density that the program calculates at a walker also counts the walker itself: given its position x its expectation is (K(0) + (n - 1) (K * distribution)(x)) / n, so it is on average too large by (K(0) - average of K * distribution) / n, which is positive unless all walkers are at the same point.", "quantifier": "all dimensions, bandwidths, distributions and numbers of walkers", "why_tests_cant": "Expectations over all configurations of the walkers.", "anchors": ["bdld/actions/birth_death.py:walker_density", "bdld/actions/birth_death.py:_walker_density_pdist"]}
{"id": "C147", "title": "Numbers of the report about birth-death", "statement": "The percentages and ratios of the report about birth-death (format {:.4}) are those of the counters beside them: each text is nan exactly if the divisor is zero, 0.0 exactly if there was no event, and otherwise can be read back with a relative error of at most 1/2000; larger values are never shown as smaller ones, and percentages of at least 0.0001 are shown without exponent. 100.0% is shown exactly if all attempts were successful.", "quantifier": "all runs and counters", "why_tests_cant": "All counters; the last part fails only for at least 20000 attempts.", "anchors": ["bdld/actions/birth_death.py:BirthDeath.Stats.print", "bdld/actions/birth_death.py:BirthDeath.final_run"]}
{"id": "C148", "title": "Change of units", "statement": "The results do not depend on the units of the input: if length, time, mass, the origin and the zero of energy are converted consistently in the options and the potential (rates of birth-death and friction like inverse times, bandwidths like lengths, kT like energies), then with the same seeds every state of the second run is the converted state of the first (positions, momenta, energies, forces), with the same birth-death events, walkers in the same bins, and free energies converted like energies.", "quantifier": "all pairs of finished runs, potentials, units and steps", "why_tests_cant": "Relates two complete runs with different options for all units; no finite set of runs shows it.", "anchors": ["bdld/actions/bussi_parinello_ld.py:BussiParinelloLD.run", "bdld/actions/overdamped_ld.py:OverdampedLD.run", "bdld/actions/birth_death.py:BirthDeath.calc_betas", "bdld/actions/birth_death.py:BirthDeath.do_birth_death", "bdld/actions/birth_death.py:calc_kernel"]}
{"id": "C149", "title": "Longer runs continue shorter ones", "statement": "If two inputs differ only in the number of steps and the same generators are used, both runs have the same walkers at all common steps, and the output of the shorter run is the beginning of that of the longer one: every trajectory file, the birth-death statistics and the time series with a stride are prefixes, and all histogram, FES and plot files except the last ones (without step in the name) are made by both with the same content.", "quantifier": "all pairs of finished runs with the same options otherwise", "why_tests_cant": "Relates complete runs of all lengths.", "anchors": ["bdld/main.py:main", "bdld/actions/trajectory_action.py:TrajectoryAction.final_run", "bdld/actions/particle_distribution.py:ParticleDistributionAction.final_run", "bdld/actions/histogram_action.py:HistogramAction.write"]}
{"id": "C150", "title": "Bins of the histogram are those requested", "statement": "The histogram of a run has, in every dimension, the requested number of bins, which divide the range between the options min and max evenly, at the beginning, after every step and at the end. A position counts for a bin if each coordinate is in the corresponding interval (its lower end included, its upper end only for the last one), so that the counts during a run are numbers of sampled positions in these intervals, and the points listed in the output are their middles. If min and max are equal the range is widened to length 1.", "quantifier": "all finished runs, all numbers of bins and ranges", "why_tests_cant": "Bins are computed from options by a chain of functions; a shifted edge changes few counts.", "anchors": ["bdld/main.py:setup_histogram", "bdld/histogram.py:Histogram.__init__", "bdld/histogram.py:Histogram.bin_centers", "bdld/actions/histogram_action.py:HistogramAction.__init__"]}
{"id": "C151", "title": "Files on disk after a run", "statement": "After a run every output file with rows (statistics, trajectories, free energy differences, distribution) has its header followed by all rows of the action in the order of writing, every histogram and FES file has the last content written to it and every saved plot the figure, whatever was on disk before. Files with other names are unchanged, the content of files that had one of these names is in a backup, and nothing else is created.", "quantifier": "all finished runs, all initial contents of the disk", "why_tests_cant": "Several actions write to files at different steps and move existing files; a clash of two names in the input file shows only for these names.", "anchors": ["bdld/main.py:main", "bdld/actions/trajectory_action.py:TrajectoryAction.__init__", "bdld/actions/fes_action.py:plot_fes", "bdld/actions/birth_death.py:BirthDeath.__init__", "bdld/actions/particle_distribution.py:ParticleDistributionAction.__init__", "bdld/actions/delta_f_action.py:DeltaFAction.__init__"]}
{"id": "C152", "title": "Files of a run that stops before its end", "statement": "Whenever the program is stopped between two calls of actions, or by an exception in one of them, the files on disk hold everything that was due before: trajectories and distribution all sampled steps up to the last multiple of their write stride, free energy differences as many rows, statistics all records, histogram and FES one file per multiple of their write stride. The rows are the first ones of those of the whole run, other files are unchanged and previous content of the files is in backups.", "quantifier": "all accepted inputs, all points at which the run stops, all initial contents of the disk", "why_tests_cant": "Tests look at files after complete runs; what is on disk in between depends on the step and the action at which the run stops.", "anchors": ["bdld/main.py:main", "bdld/actions/trajectory_action.py:TrajectoryAction.run", "bdld/actions/particle_distribution.py:ParticleDistributionAction.run", "bdld/actions/delta_f_action.py:DeltaFAction.run", "bdld/actions/histogram_action.py:HistogramAction.run", "bdld/actions/fes_action.py:FesAction.run", "bdld/actions/birth_death.py:BirthDeath.run"]}
{"id": "C153", "title": "Free energies of many independent samples", "statement": "If independent samples of a distribution are added to a histogram, almost surely the fraction in every bin tends to the probability of the bin whatever the histogram contained before, the free energy surface tends to kT ln(p_max/p) in every bin with probability and stays infinite in the others, and the free energy differences tend to -kT ln of the ratio of the probabilities of the states. For n samples the probability that the fraction in a bin is wrong by e or more is at most p(1-p)/(n e^2). For samples of the canonical distribution of the potential, surface and differences are finally wrong by at most twice the change of the energy within a bin.", "quantifier": "all distributions, dimensions, bins, thermal energies, states with positive probability; almost all samples", "why_tests_cant": "Convergence with the number of samples is a statement about infinitely many random samples; tests look at a few.", "anchors": ["bdld/histogram.py:Histogram.add", "bdld/actions/fes_action.py:calculate_fes", "bdld/potential/potential.py:Potential.calculate_reference", "bdld/actions/delta_f_action.py:calculate_delta_f"]}
{"id": "C154", "title": "Walkers of a run without birth-death are independent", "statement": "If the generator of the dynamics gives independent vectors of standard normal numbers, then in a run of the program without birth-death every walker after t steps has the distribution that t applications of the step of the dynamics give from its start, the paths of different walkers are independent, and the fraction of walkers and steps in a region differs from the mean of these probabilities by e or more with a probability of at most 1/(4 N e^2) for N walkers. The same holds for every bin of the final histogram in the runs in which it is exact (C82).", "quantifier": "all input files without birth-death, worlds, numbers of walkers and steps, potentials, boundary conditions, regions, e; starts as given", "why_tests_cant": "A statement about the distribution of the results over all random numbers; a test sees one sequence of them.", "anchors": ["bdld/main.py:main", "bdld/actions/bussi_parinello_ld.py:BussiParinelloLD.run", "bdld/actions/overdamped_ld.py:OverdampedLD.run", "bdld/actions/histogram_action.py:HistogramAction.run"]}
{"id": "C155", "title": "Histogram and free energies of long runs in a parabola", "statement": "For runs of the program without birth-death in the potential c0 + c1 x + c2 x^2 without boundary condition, with ideal random numbers and time steps below the stability limit: with enough steps and enough walkers, all bins of the final histogram divided by the number of samples are as near as wanted to the probabilities of a normal distribution around the minimum, and differences of the final free energies of two bins as near as wanted to the free energy differences of that distribution, except for a probability as small as wanted. The distribution is the canonical one of a parabola with the force constant 2 c2 (1 - c2 dt^2/(2 m)) for Bussi-Parinello dynamics and 2 c2 (1 - c2 dt) with kT = 1 for overdamped dynamics, not that of the potential itself. It holds although the histogram counts the origin once and a last block twice; it needs that the trajectories have a filename or that the write stride of the trajectories is at least the stride of the histogram, otherwise no step is counted.", "quantifier": "all coefficients with c2 > 0, temperatures, masses, frictions, time steps below the limit, bins, strides, finite sets of starts, tolerances; all inputs, worlds and numbers of steps and walkers above bounds that depend on these only", "why_tests_cant": "A limit of infinitely many steps and walkers, over all random numbers; a test sees one finite run.", "anchors": ["bdld/main.py:main", "bdld/actions/bussi_parinello_ld.py:BussiParinelloLD.run", "bdld/actions/overdamped_ld.py:OverdampedLD.run", "bdld/actions/histogram_action.py:HistogramAction.run", "bdld/actions/fes_action.py:FesAction.run"]}
{"id": "C156", "title": "Free energy differences written at the end of long runs in a parabola", "statement": "In the situation of C155, for runs with a section delta-f with a filename and without stride whose states each contain the centre of a bin: with enough steps and enough walkers the file has, except for a probability as small as wanted, exactly one row, with the time of the last step and for every state after the first a number as near as wanted to -kT ln(p_i/p_1), where p_i is the probability of the bins whose centres lie in state i. The distribution is the canonical one of a parabola with the force constant 2 c2 (1 - c2 dt^2/(2 m)) for Bussi-Parinello dynamics and 2 c2 (1 - c2 dt) with kT = 1 for overdamped dynamics. The free energies of two bins of overdamped runs are near to those of the same distribution.", "quantifier": "all coefficients with c2 > 0, temperatures, masses, frictions, time steps below the limit, bins, states, strides, finite sets of starts, tolerances; all inputs, worlds and numbers of steps and walkers above bounds that depend on these only", "why_tests_cant": "A limit of infinitely many steps and walkers, over all random numbers; a test sees one finite run.", "anchors": ["bdld/main.py:main", "bdld/actions/bussi_parinello_ld.py:BussiParinelloLD.run", "bdld/actions/overdamped_ld.py:OverdampedLD.run", "bdld/actions/delta_f_action.py:DeltaFAction.final_run", "bdld/actions/fes_action.py:FesAction.final_run"]}
{"id": "C157", "title": "Overdamped walkers between reflecting walls settle, whatever the potential", "statement": "For overdamped dynamics with boundary-condition reflective and a range of positive length in every dimension, in every potential the program can create: there is exactly one distribution of the positions that a step leaves unchanged, and from every start the distribution of the positions approaches it geometrically, with a rate that does not depend on the start. It lies inside the range, gives positive probability to every region that covers a part of the range, and also to each wall as such, so that it has no density and is for no time step the canonical distribution. With enough steps and enough walkers the histogram, the free energies and the free energy differences at the end of runs of the program are, except for a probability as small as wanted, as near as wanted to those of this distribution.", "quantifier": "all potentials in one to three dimensions, time steps > 0, starts, regions; all bins, states, strides, tolerances; all inputs, worlds and numbers of steps and walkers above bounds that depend on these only", "why_tests_cant": "A statement about the limit of infinitely many steps, over all random numbers and all potentials; a test sees one finite run in one potential.", "anchors": ["bdld/main.py:main", "bdld/actions/overdamped_ld.py:OverdampedLD.run", "bdld/potential/potential.py:Potential.apply_boundary_condition_reflective", "bdld/actions/histogram_action.py:HistogramAction.final_run", "bdld/actions/fes_action.py:FesAction.final_run", "bdld/actions/delta_f_action.py:DeltaFAction.final_run"]}
{"id": "C158", "title": "Overdamped walkers without walls run away in steep potentials", "statement": "For overdamped dynamics in a one-dimensional polynomial with a power above the second (for instance every double well) and without boundary condition, with every time step: from every start there are a distance r and a probability c > 0 such that for every t the walker is after t+1 steps with a probability of at least c at a distance of at least 2^t r; no distribution of the positions is left unchanged by a step, and from no start do the probabilities of all regions approach those of a distribution. The same holds for every walker of a run of the program without birth-death.", "quantifier": "all coefficients with a nonzero coefficient of the third or a higher power, time steps > 0, starts, numbers of steps, inputs, worlds and walkers", "why_tests_cant": "The probability may be tiny for short runs from the wells, so tests do not see it; it is a statement about all numbers of steps.", "anchors": ["bdld/main.py:main", "bdld/actions/overdamped_ld.py:OverdampedLD.run", "bdld/potential/polynomial.py:PolynomialPotential.force"]}
{"id": "C159", "title": "Bussi-Parinello walkers without walls run away in steep potentials", "statement": "For the Bussi-Parinello thermostat with a friction, temperature and mass above 0 in a one-dimensional polynomial with a power above the second (for instance every double well) and without boundary condition, with every time step: from every start there are a distance r and a probability c > 0 such that for every t the walker is after t+1 steps with a probability of at least c at a distance of at least 2^t r; no distribution of positions and momenta is left unchanged by a step, and from no start do the probabilities of all regions approach those of a distribution. The same holds for every walker of a run of the program without birth-death.", "quantifier": "all coefficients with a nonzero coefficient of the third or a higher power, time steps, frictions, temperatures and masses > 0, starts, numbers of steps, inputs, worlds and walkers", "why_tests_cant": "The probability may be tiny for short runs from the wells, so tests do not see it; it is a statement about all numbers of steps.", "anchors": ["bdld/main.py:main", "bdld/actions/bussi_parinello_ld.py:BussiParinelloLD.run", "bdld/potential/polynomial.py:PolynomialPotential.force"]}
{"id": "C160", "title": "Walkers without walls run away in the Mueller-Brown potential", "statement": "In the Mueller-Brown potential with any scaling factor and without boundary condition, with overdamped dynamics and every time step, or with the Bussi-Parinello thermostat with a time step, friction, temperature and mass above 0: from every start there are a distance r and a probability c > 0 such that for every t the walker is after t+1 steps with a probability of at least c at a distance (largest coordinate) of at least 2^t r; no distribution of positions and momenta is left unchanged by a step, and from no start do the probabilities of all regions approach those of a distribution. The same holds for every walker of a run of the program without birth-death, and for every potential in any number of dimensions whose force grows faster than the distance.", "quantifier": "all scaling factors, time steps, frictions, temperatures and masses > 0, starts, numbers of steps, inputs, worlds and walkers", "why_tests_cant": "The probability is tiny for short runs from the wells, so tests do not see it; it is a statement about all numbers of steps.", "anchors": ["bdld/main.py:main", "bdld/actions/bussi_parinello_ld.py:BussiParinelloLD.run", "bdld/actions/overdamped_ld.py:OverdampedLD.run", "bdld/potential/mueller_brown.py:MuellerBrownPotential.force"]}
{"id": "C161", "title": "The periodic boundary condition does not keep walkers from running away", "statement": "With the periodic boundary condition, in the Mueller-Brown potential with any scaling factor or in a one-dimensional polynomial with a power above 2 and any range, with overdamped dynamics and every time step, or with the Bussi-Parinello thermostat with a time step, friction, temperature and mass above 0: from every start there are a distance r and a probability c > 0 such that for every t the walker is after t+1 steps with a probability of at least c at a distance (largest coordinate) of at least 2^t r, although the range is bounded; no distribution of positions and momenta is left unchanged by a step, and from no start do the probabilities of all regions approach those of a distribution. The same holds for every walker of a run of the program without birth-death, and for every potential in any number of dimensions whose force grows faster than the distance.", "quantifier": "all scaling factors, polynomials, ranges, time steps, frictions, temperatures and masses > 0, starts, numbers of steps, inputs, worlds and walkers", "why_tests_cant": "A walker leaves by more than one period with a tiny probability per step, so tests do not see it; it is a statement about all numbers of steps.", "anchors": ["bdld/main.py:main", "bdld/potential/potential.py:Potential.apply_boundary_condition_periodic", "bdld/actions/bussi_parinello_ld.py:BussiParinelloLD.run", "bdld/actions/overdamped_ld.py:OverdampedLD.run"]}
{"id": "C162", "title": "Walkers run away in coupled polynomials of several coordinates such as the Wolfe-Quapp potential", "statement": "In a potential whose energy is a sum of polynomials of the single coordinates, each with a power above 2, plus any quadratic coupling of the coordinates - the Wolfe-Quapp potential of the documentation is one -, without boundary condition or with the periodic one, with overdamped dynamics and every time step, or with the Bussi-Parinello thermostat with a time step, friction, temperature and mass above 0: no distribution of positions and momenta is left unchanged by a step, and from no start do the probabilities of all regions approach those of a distribution. In runs of the program without birth-death there are for every start a distance r and a probability c > 0 such that for every t the walker is after t+1 steps with a probability of at least c at a distance (largest coordinate) of at least 2^t r. A run with the coefficient file of the documentation has the Wolfe-Quapp energy.", "quantifier": "all numbers of dimensions, polynomials, couplings, ranges, time steps, frictions, temperatures and masses > 0, starts, numbers of steps, inputs, worlds and walkers", "why_tests_cant": "The probability per run is tiny for usual time steps, so tests do not see it; it is a statement about all numbers of steps.", "anchors": ["bdld/main.py:main", "bdld/potential/polynomial.py:PolynomialPotential.force", "bdld/potential/potential.py:Potential.apply_boundary_condition_periodic", "bdld/actions/bussi_parinello_ld.py:BussiParinelloLD.run", "bdld/actions/overdamped_ld.py:OverdampedLD.run"]}
