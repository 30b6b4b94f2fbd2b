{"id": "C01", "title": "Every step leaves cells in [0,1]", "statement": "Calling any automaton (CA, CCA, Lenia, NCA, MetaCA, RandomStepCA, CODE, RxnDfn) on a universe returns a universe in which no cell is below 0 and no cell is above 1 (a cell may be NaN), whatever the input values, kernels, growth functions, weights, step size or floating-point rounding.", "quantifier": "every grid (any size, channel count, batch size, any cell values), every kernel, growth function, weight and dt, every rounding of + and *", "why_tests_cant": "Tests step a handful of random grids with default parameters; out-of-range cells would need unusual parameters or rounding.", "anchors": ["yuca/ca/common.py:CA.forward", "yuca/ca/continuous.py:CCA.forward", "yuca/lenia.py:Lenia", "yuca/ca/neural.py:NCA.forward", "yuca/metaca.py:MetaCA.forward", "yuca/random_step_ca.py:RandomStepCA.forward", "yuca/code.py:CODE.get_new_grid", "yuca/ca/reaction_diffusion.py:RxnDfn.forward"]}
{"id": "C02", "title": "Torus translation equivariance", "statement": "With circular convolution, shifting the input universe by (dy,dx) around the torus and then stepping n times gives bit-for-bit the same universe as stepping n times and then shifting, for CCA, Lenia, RxnDfn, NCA (evaluation mode), the base CA, RandomStepCA (same draws), MetaCA (its momentum shifted along) and CODE (bit-for-bit for one adaptive step, whole runs in exact arithmetic, with the same step sizes). With conv_mode='zeros' this fails.", "quantifier": "every grid size, every shift, every number of steps, every kernel and growth function, every rounding of the arithmetic", "why_tests_cant": "A unit test can only compare a few shifts on a few grids; the claim is a symmetry of the whole state space and all trajectories.", "anchors": ["yuca/ca/common.py:CA.forward", "yuca/ca/common.py:CA.initialize_neighborhood_layer", "yuca/ca/continuous.py:CCA.forward"]}
{"id": "C03", "title": "Locality and speed limit", "statement": "For CCA, Lenia, NCA, RxnDfn, the base CA, RandomStepCA (any draws) and MetaCA (its momentum included) on the torus, the value of a cell after n steps depends only on the input cells within (torus) Chebyshev distance n*R of it, where R is the larger of the identity- and neighborhood-kernel radii; changing any other cell cannot affect it. For CODE this fails: the adaptive step size depends on the whole grid.", "quantifier": "every pair of universes agreeing on the ball, every n, every cell, every kernel and growth function", "why_tests_cant": "Information leakage through padding or reshaping only shows for particular grid sizes and far-away perturbations.", "anchors": ["yuca/ca/common.py:CA.neighborhood_conv", "yuca/ca/continuous.py:CCA.forward"]}
{"id": "C04", "title": "get_frame(mode=0) predicts forward", "statement": "For universes with fewer than four channels get_frame(universe) of CCA, Lenia, NCA and RxnDfn returns exactly the universe forward(universe) returns (every display mode 0 to 4 for CCA). For four or more channels forward applies the alive mask and get_frame does not, so they can differ; for MetaCA get_frame ignores the momentum and differs already with one channel.", "quantifier": "every universe, channel count, kernel, growth function and dt", "why_tests_cant": "The difference only shows with an alpha channel below threshold; equality must hold for every state.", "anchors": ["yuca/ca/continuous.py:CCA.get_frame", "yuca/ca/continuous.py:CCA.forward", "yuca/ca/common.py:CA.get_frame"]}
{"id": "C05", "title": "Simulated time bookkeeping", "statement": "For CCA, Lenia, NCA, RxnDfn, RandomStepCA and CODE: after reset() and any history of calls, t_count equals the sum of the step sizes that were actually used by the calls of forward since the last reset; get_frame never advances it; with constant dt it is n*dt. MetaCA never updates a clock.", "quantifier": "every history of reset / set_dt / forward / get_frame calls", "why_tests_cant": "Tests look at one or two steps; the claim is an invariant of arbitrary call histories.", "anchors": ["yuca/ca/common.py:CA.reset", "yuca/ca/continuous.py:CCA.forward", "yuca/random_step_ca.py:RandomStepCA.forward", "yuca/code.py:CODE.adaptive_euler"]}
{"id": "C06", "title": "Alive mask semantics", "statement": "alive_mask zeroes every channel of exactly those cells whose alpha channel (index 3) is not above alive_threshold, leaves all other cells unchanged, and applying it twice is the same as applying it once (cells are finite numbers: an infinite cell times 0 is not 0).", "quantifier": "every universe with at least four channels, every threshold", "why_tests_cant": "Threshold boundaries and repeated application need all values, not samples.", "anchors": ["yuca/ca/common.py:CA.alive_mask"]}
{"id": "C07", "title": "Batch members evolve independently", "statement": "For CCA, Lenia, NCA (eval mode), RxnDfn, the base CA, RandomStepCA (same draws) and MetaCA (each member with its share of the momentum), stepping a batch gives for every member the same result as stepping that member alone. For CODE this fails: the adaptive step size is shared by the batch, and the cells of a member come out different.", "quantifier": "every batch, every member, every automaton state", "why_tests_cant": "Cross-batch leakage depends on the other members' values.", "anchors": ["yuca/ca/continuous.py:CCA.forward", "yuca/code.py:CODE.adaptive_euler"]}
{"id": "C08", "title": "Identity layer copies the state", "statement": "With the default identity kernel and circular padding, id_conv returns each external channel unchanged when internal_channels is a multiple of external_channels (channel o of the result is input channel o/(internal/external)); otherwise every output channel is the sum of all input channels.", "quantifier": "every channel count, every grid size at least 1x1, every universe", "why_tests_cant": "Group convolution indexing is only visible for particular channel combinations.", "anchors": ["yuca/ca/common.py:CA.initialize_id_layer", "yuca/ca/common.py:CA.id_conv", "yuca/ca/common.py:CA.add_identity_kernel"]}
{"id": "C09", "title": "Lenia is the genesis = persistence special case", "statement": "A CCA whose persistence functions equal its genesis functions produces the same trajectory as a Lenia automaton with those genesis functions, for every number of steps (exact arithmetic).", "quantifier": "every universe, kernel, growth function, dt, number of steps", "why_tests_cant": "An algebraic identity over all states; sampling cannot settle it.", "anchors": ["yuca/lenia.py:Lenia.update_universe", "yuca/ca/continuous.py:CCA.update_universe"]}
{"id": "C10", "title": "A dead universe stays dead", "statement": "With non-negative weights and step size (the defaults), if every genesis function is <= 0 at zero neighborhood, the all-zero universe is a fixed point of CCA and Lenia for every number of steps; for a positive step size one step keeps it dead exactly when no channel has a positive weighted sum of genesis values at 0; otherwise that channel comes alive everywhere.", "quantifier": "every such automaton, every grid size, every number of steps", "why_tests_cant": "Trajectory claim over all time and all parameters.", "anchors": ["yuca/ca/continuous.py:CCA.forward", "yuca/wrappers/halting_wrapper.py:SimpleHaltingWrapper"]}
{"id": "C11", "title": "Early stopping of the halting rollout is lossless", "statement": "SimpleHaltingWrapper stops its rollout when the mean of the grid is <= 0. Whenever the automaton keeps cells non-negative and the zero universe is absorbing (every CCA with non-negative weights and step size and no genesis function positive at 0) the final grid, the proportion of active samples and the reward equal those of the full ca_steps rollout. For an automaton that revives an empty grid stopping early can change the proportion from 1 to 0.", "quantifier": "every initial grid, every number of steps, every automaton with the absorbing property", "why_tests_cant": "Depends on when and whether the pattern vanishes.", "anchors": ["yuca/wrappers/halting_wrapper.py:SimpleHaltingWrapper.step", "yuca/ca/reaction_diffusion.py:RxnDfn.forward"]}
{"id": "C12", "title": "A step changes a cell by at most dt", "statement": "One CCA step with the default identity layer (external divides internal), growth functions with values in [-1,1] and weight rows of absolute sum at most 1 (the default weights) moves no cell of a universe in [0,1] by more than |dt|, compared with the cell after the alive mask (which only acts with four or more channels); for NCA (tanh output) the same bound holds for every parameter vector.", "quantifier": "every universe, growth function and weight, every dt", "why_tests_cant": "Bounded-change is a universal inequality over the reals.", "anchors": ["yuca/ca/continuous.py:CCA.update_universe", "yuca/ca/continuous.py:CCA.initialize_weight_layer", "yuca/ca/neural.py:NCA"]}
{"id": "C13", "title": "Homogeneous states stay homogeneous", "statement": "On the torus, a universe that is constant in space stays constant in space after any number of steps of CCA, Lenia, RxnDfn, NCA (evaluation mode), RandomStepCA, CODE and, after reset, MetaCA; for a one-channel CCA its value follows the scalar recurrence c -> clamp(c + dt*update(c, c*sum(kernel))).", "quantifier": "every constant, kernel, growth function, number of steps and grid size", "why_tests_cant": "Boundary artefacts appear only for some kernel/grid size combinations.", "anchors": ["yuca/ca/common.py:CA.neighborhood_conv", "yuca/ca/continuous.py:CCA.forward"]}
{"id": "C14", "title": "Isotropy: rotation and reflection equivariance", "statement": "With kernels produced by get_kernel (radially symmetric) on the torus, CCA, Lenia, RxnDfn, NCA (evaluation mode), the base CA, RandomStepCA (same draws), CODE (which also picks the same step sizes) and, after reset, MetaCA commute with transposition, with mirroring rows or columns and, on square universes, with quarter turns, for any number of steps (exact arithmetic).", "quantifier": "every universe, every radial kernel function and radius, every step count", "why_tests_cant": "A symmetry statement over all states.", "anchors": ["yuca/kernels.py:get_kernel", "yuca/ca/continuous.py:CCA.forward", "yuca/lenia.py:Lenia.forward", "yuca/ca/reaction_diffusion.py:RxnDfn.forward", "yuca/ca/neural.py:NCA.update_universe", "yuca/code.py:CODE.forward"]}
{"id": "C15", "title": "Shape preservation and the odd-kernel requirement", "statement": "The same-size padding (k-1)//2 preserves grid height and width exactly when the kernel side k is odd; kernels from get_kernel always have side 2*radius+1 (or 3 for InnerMoore).", "quantifier": "every grid size and kernel size", "why_tests_cant": "Only some sizes are exercised by tests.", "anchors": ["yuca/ca/common.py:CA.initialize_neighborhood_layer", "yuca/kernels.py:get_kernel"]}
{"id": "C16", "title": "Normalised kernels", "statement": "Every kernel made by get_kernel from a radial function (all names except the Laplacians, InnerMoore and MooreLike) is non-negative, attains 0, and sums to S/(S+1e-9) < 1; hence the neighborhood value of a [0,1] universe stays in [0,1).", "quantifier": "every radius >= 1, every kernel function and parameter vector, every universe in [0,1]", "why_tests_cant": "Universal inequality over parameters and states.", "anchors": ["yuca/kernels.py:get_kernel", "yuca/ca/common.py:CA.neighborhood_conv"]}
{"id": "C17", "title": "Moore-like kernels", "statement": "MooreLike kernels of radius r >= 1 have zero centre, equal weights elsewhere and sum exactly 1; InnerMoore is the unit impulse whatever radius is asked for; radius 0 MooreLike divides by zero.", "quantifier": "every radius", "why_tests_cant": "Tests use radius 1 only.", "anchors": ["yuca/kernels.py:get_kernel", "yuca/kernels.py:get_moore_kernel"]}
{"id": "C18", "title": "Laplacian kernels annihilate constants", "statement": "The 9-point Laplacian and the Laplacian-of-Gaussian kernels sum to 0 for every radius and sigma, so their neighborhood response to a constant universe is 0; the absolute weights of the Laplacian of Gaussian sum to 1 for every radius >= 1 and sigma != 0.", "quantifier": "every radius, sigma and constant universe", "why_tests_cant": "Exact cancellation for all parameters.", "anchors": ["yuca/activations.py:LaplacianOfGaussian", "yuca/kernels.py:get_laplacian_of_gaussian_kernel", "yuca/kernels.py:get_laplacian_kernel"]}
{"id": "C19", "title": "Activation ranges", "statement": "For every real input and parameters with eps+sigma != 0 (alpha != 0): Gaussian takes values in (0,1] ((-1,1] in growth mode); GaussianMixture and DoubleGaussian in [0,1] ([-1,1]) for any amplitudes; a SmoothIntervals growth function with n intervals lies strictly between -1 and 2n-1 (equal to -1 for n=0).", "quantifier": "every real input and every parameter vector", "why_tests_cant": "Analytic inequality over reals.", "anchors": ["yuca/activations.py:Gaussian", "yuca/activations.py:GaussianMixture", "yuca/activations.py:DoubleGaussian", "yuca/activations.py:SmoothIntervals"]}
{"id": "C20", "title": "Growth-mode functions are affine images of bump functions", "statement": "A user relies on mode=1 of an activation being 2*f-1 of its mode=0 value. True for Gaussian, SmoothIntervals, Polynomial, GaussianMixture and DoubleGaussian. For DoGaussian operator precedence makes it g1-2*g2-1, which is always negative, so a CCA with fewer than four channels, non-negative weights and dt and the default identity layer, whose genesis and persistence are all DoGaussian(mode=1), never increases any cell of a universe in [0,1].", "quantifier": "every input, every parameter vector, every universe in [0,1]", "why_tests_cant": "Shows only as absent growth for all inputs.", "anchors": ["yuca/activations.py:DoGaussian", "yuca/ca/continuous.py:CCA.default_init"]}
{"id": "C21", "title": "Mixture parameter vectors are read unambiguously", "statement": "A GaussianMixture built from n (mu,sigma) pairs has n components of amplitude 1 provided 2n is not a multiple of 3; vectors whose length is a multiple of 3 are read as (amplitude,mu,sigma) triples, so three pairs are silently read as two triples; odd lengths not divisible by 3 raise IndexError.", "quantifier": "every parameter vector", "why_tests_cant": "Only a length-arithmetic argument covers all vectors.", "anchors": ["yuca/activations.py:GaussianMixture", "yuca/kernels.py:get_gaussian_mixture_kernel"]}
{"id": "C22", "title": "Conway's Life (and B subset of S rules) are simulated forever", "statement": "Started from a 0/1 grid, the CCA loaded from a radius-1 life-like config (Conway's Life among them) whose birth set is contained in its survival set stays, after every number of steps and on every torus, within 1e-6 of the true life-like automaton's 0/1 state, so thresholding at 1/2 gives the true state. For any other rule the error grows by at most 4e-7 per step (for at least 2500 steps), and it does grow: B08/S started from the empty grid is eventually more than 1e-3 off.", "quantifier": "every rule, every torus size, every initial pattern, every number of steps", "why_tests_cant": "Infinite-time refinement between two dynamical systems.", "anchors": ["yuca/configs.py:get_conway_config", "yuca/configs.py:get_life_like_config", "yuca/activations.py:SmoothIntervals", "yuca/kernels.py:get_moore_kernel"]}
{"id": "C23", "title": "Gray-Scott initial state is an equilibrium", "statement": "When A = sqrt(f)/(f+k) satisfies A^2 >= 4, the universe initialize_grid returns has 0<=u<=1/2, 0<=v<=1 and is a fixed point of RxnDfn stepping for every number of steps, every dt and diffusion rates; u=1,v=0 is a fixed point as well.", "quantifier": "every f>0,k>=0 with A^2>=4, every dt, diffusion rate, grid size and step count", "why_tests_cant": "Algebraic identity and clamp argument over all parameters.", "anchors": ["yuca/ca/reaction_diffusion.py:RxnDfn.initialize_grid", "yuca/ca/reaction_diffusion.py:RxnDfn.forward"]}
{"id": "C24", "title": "Adaptive step size contract (CODE)", "statement": "If 0 < min_dt <= max_dt and min_dt <= 2*prev_dt, every CODE step terminates, uses a step in [min_dt, max_dt] no larger than twice the previous one (or min_dt), which either met the error threshold or is min_dt, advances t_count by exactly it and keeps the precondition; if the precondition fails the call raises, and for min_dt<=0 it may never return.", "quantifier": "every grid, every error behaviour, every history of steps", "why_tests_cant": "Termination and an invariant over unbounded histories.", "anchors": ["yuca/code.py:CODE.adaptive_euler"]}
{"id": "C25", "title": "Random step size contract (RandomStepCA)", "statement": "If min_dt < max_dt, every step uses min_dt <= dt < max_dt, and after n steps t_count has advanced by between n*min_dt and n*max_dt.", "quantifier": "every random draw, every history", "why_tests_cant": "Random draws cannot be enumerated.", "anchors": ["yuca/random_step_ca.py:RandomStepCA.forward"]}
{"id": "C26", "title": "MetaCA momentum is history up to reset", "statement": "After reset() (or on a grid of a new shape) the trajectory of a MetaCA depends only on the grid and parameters, not on anything simulated before; without reset, a run on a same-shaped grid can be influenced by the previous run.", "quantifier": "every earlier history, every grid", "why_tests_cant": "Requires quantifying over all earlier histories.", "anchors": ["yuca/metaca.py:MetaCA.reset", "yuca/metaca.py:MetaCA.forward"]}
{"id": "C27", "title": "get_dt works at any time", "statement": "A user relies on get_dt() returning the current step size. It does for CCA, Lenia, NCA. For CODE and RandomStepCA it raises after the first step because dt has become a Python float.", "quantifier": "every history of set_dt / forward / get_dt calls", "why_tests_cant": "Type state depends on call history.", "anchors": ["yuca/ca/common.py:CA.get_dt", "yuca/code.py:CODE.adaptive_euler", "yuca/random_step_ca.py:RandomStepCA.forward"]}
{"id": "C28", "title": "Parameter vector round trip", "statement": "For CCA, Lenia, NCA, RxnDfn, CPPN and CPPNPlus: set_params(v) followed by get_params() returns v whenever v has the length of get_params(); get_params lists parameters in the order set_params consumes them. For ParamsAgent this holds exactly when its filter leaves v unchanged. (For a CCA whose kernel config has one plain number as its only argument it fails: get_params lists it, set_params raises IndexError.)", "quantifier": "every parameter vector and every layer/parameter shape list", "why_tests_cant": "All shapes and vectors.", "anchors": ["yuca/ca/continuous.py:CCA.set_params", "yuca/ca/continuous.py:CCA.get_params", "yuca/cppn.py:CPPN.set_params", "yuca/cppn.py:CPPNPlus.set_params", "yuca/ca/neural.py:NCA.set_params", "yuca/ca/reaction_diffusion.py:RxnDfn.set_params", "yuca/params_agent.py:ParamsAgent.set_params"]}
{"id": "C29", "title": "Wrong-length parameter vectors", "statement": "For CCA, Lenia, NCA, RxnDfn and CPPN a vector longer than needed is accepted and its tail ignored; one too short to fill a layer raises an error, but only after the earlier layers have already been overwritten (no atomicity); for CCA and NCA a vector short only in the kernel part is silently accepted whenever what is left still describes a Gaussian mixture. With a single plain number as kernel argument every long enough vector raises IndexError after the growth functions have been overwritten. Exception: CPPNPlus stores the tail of a longer vector in its parameter agent, which takes vectors of any length.", "quantifier": "every parameter vector and every layout", "why_tests_cant": "All lengths.", "anchors": ["yuca/ca/continuous.py:CCA.set_params", "yuca/cppn.py:CPPN.set_params"]}
{"id": "C30", "title": "set_params(get_params()) does not change behaviour", "statement": "A user relies on re-setting a CCA's own parameters being a no-op. It is exactly when the neighborhood kernel in use is the Gaussian mixture of the stored kernel parameters (so also for a Gaussian kernel whose config lists mu before sigma); it replaces the kernel of Moore-like / Life automata by a Gaussian-mixture kernel, and a Gaussian kernel whose config lists sigma first by another one.", "quantifier": "every CCA state", "why_tests_cant": "Depends on the kernel family in use.", "anchors": ["yuca/ca/continuous.py:CCA.set_params", "yuca/ca/common.py:CA.update_kernel_params"]}
{"id": "C31", "title": "CCA config round trip", "statement": "A user relies on load_config(make_config()) reproducing the automaton. It does for single-channel automata with the default identity kernel and growth functions that survive a config: Gaussian, DoGaussian, DoubleGaussian, Polynomial, ReLU, Tanh, Identity, and mixtures with unit amplitudes whose component count is not a multiple of 3. It loses: a custom identity kernel, SmoothIntervals intervals, mixture amplitudes, neurofunctional weights, the true growth functions of a default-initialised CCA, and all but one growth function of multichannel automata.", "quantifier": "every automaton configuration", "why_tests_cant": "Round trip over all configurations; the existing tests only check that no exception is raised.", "anchors": ["yuca/ca/continuous.py:CCA.make_config", "yuca/ca/continuous.py:CCA.load_config"]}
{"id": "C32", "title": "Saved configs reflect the current parameters", "statement": "A user relies on make_config() describing the automaton after set_params. The 'parameters' entries of the growth functions do, but only mixtures read them back on loading, and the neighborhood kernel config is cached: it keeps the kernel parameters of the first make_config, so an evolved kernel is lost and all configs of a CMAES elite share one kernel.", "quantifier": "every history of set_params / make_config calls", "why_tests_cant": "Staleness depends on call history.", "anchors": ["yuca/ca/continuous.py:CCA.make_config", "yuca/ca/continuous.py:CCA.set_params", "yuca/cmaes.py:CMAES.get_elite_configs"]}
{"id": "C33", "title": "Restoring a config terminates", "statement": "A user relies on restore_config returning. With finitely many config files it returns (an automaton or an exception) whenever the ca_config references among them are acyclic; when the automata they describe can be initialised it returns if and only if no infinite chain of references starts at the file. If a CCA created with ca_config=X (X lacking instant_kwargs) is saved over X, restoring X recurses without bound.", "quantifier": "every file system of config files", "why_tests_cant": "Non-termination and reference cycles are graph properties.", "anchors": ["yuca/ca/continuous.py:CCA.restore_config", "yuca/ca/continuous.py:CCA.load_config", "yuca/ca/continuous.py:CCA.save_config"]}
{"id": "C34", "title": "Gray-Scott config round trip", "statement": "load_config(make_config()) on a RxnDfn reproduces diffusion rates, feed and kill rates, dt, dx and neighborhood kernel, and hence the trajectory, after any history of public calls; the 'params' entry overrides the individual rate entries and a config without it cannot be loaded. A non-default identity kernel is lost.", "quantifier": "every parameter setting", "why_tests_cant": "All parameter values.", "anchors": ["yuca/ca/reaction_diffusion.py:RxnDfn.make_config", "yuca/ca/reaction_diffusion.py:RxnDfn.load_config"]}
{"id": "C35", "title": "Changing the kernel changes the dynamics", "statement": "A user relies on set_kernel_radius, set_kernel_config and add_neighborhood_kernel taking effect on the next step. CCA.set_kernel_radius and CCA.set_kernel_config do (the new kernel has side 2r+1, except InnerMoore which stays 3); NCA.set_kernel_config and add_neighborhood_kernel alone do not touch the convolution in use, so clone() trains with the default kernel; set_kernel_radius raises on an automaton with no kernel config, and after set_params it brings back the kernel of the cached config.", "quantifier": "every automaton state, radius and kernel", "why_tests_cant": "State dependence over all histories.", "anchors": ["yuca/ca/common.py:CA.set_kernel_radius", "yuca/ca/neural.py:NCA.set_kernel_config", "yuca/ca/common.py:CA.add_neighborhood_kernel", "yuca/clone.py"]}
{"id": "C36", "title": "Storing a pattern never destroys one", "statement": "Librarian.store never overwrites an existing .npy pattern, terminates, and makes exactly one new pattern name available; repeated stores of one name get distinct names.", "quantifier": "every directory content, every pattern name, every sequence of stores", "why_tests_cant": "Depends on arbitrary existing directory contents.", "anchors": ["yuca/zoo/librarian.py:Librarian.store"]}
{"id": "C37", "title": "Store is crash-safe", "statement": "If the process dies at any point during a store, every .npy present has its metadata file, all earlier patterns still load as before, and a later store succeeds. The pattern being stored is not safe: dying inside np.save leaves a file that the index lists and load cannot read.", "quantifier": "every crash point, every directory state, every sequence of stores", "why_tests_cant": "Crash points cannot be enumerated by unit tests.", "anchors": ["yuca/zoo/librarian.py:Librarian.store"]}
{"id": "C38", "title": "Pattern metadata round trip", "statement": "load after store returns the stored array and, for metadata without line breaks, every field up to its first comma, so entry point, config name, commit hash and notes come back when they contain no comma (config name and commit hash with a trailing newline, notes also with a leading space). Text after a comma is lost; notes of two lines lose the entry point; no field ever comes back with a carriage return; a non-verbose Librarian ignores the ca_config argument of store.", "quantifier": "every metadata string", "why_tests_cant": "All strings.", "anchors": ["yuca/zoo/librarian.py:Librarian.store", "yuca/zoo/librarian.py:Librarian.load"]}
{"id": "C39", "title": "Index lists exactly the loadable patterns", "statement": "update_index yields a sorted list of the stems of exactly those files whose name contains none of '.py', '.ipynb', 'csv', '__pycache__', one entry per file; in a directory whose visible files are all pattern files these are exactly the visible patterns, each once. Patterns whose own name contains 'csv' are never listed, another file with the stem of a pattern gives a duplicate entry, and refreshing the index after a store adds exactly the new pattern.", "quantifier": "every directory listing", "why_tests_cant": "All file names.", "anchors": ["yuca/zoo/librarian.py:Librarian.update_index"]}
{"id": "C40", "title": "Elite selection is correct", "statement": "With truncation selection the elite are the elite_keep fittest agents in descending order: every selected agent is at least as fit as every unselected one; elite_keep never exceeds the population for population_size >= 1; tournament champions are maximal in their bracket; lottery selection draws distinct agents from a probability vector. A NaN fitness counts as larger than every number, so an agent with NaN fitness is ranked first.", "quantifier": "every fitness list", "why_tests_cant": "All orders and ties.", "anchors": ["yuca/cmaes.py:CMAES.rank_population", "yuca/cmaes.py:CMAES.__init__"]}
{"id": "C41", "title": "Elitism preserves the best agents", "statement": "A user relies on the best elite_keep//2 agents surviving unchanged into the next generation. The best one does (population >= 8); the others may be overwritten by aliasing while they are copied; with fewer than 8 agents nobody survives.", "quantifier": "every population, fitness list and random sample", "why_tests_cant": "Aliasing depends on the ranking permutation.", "anchors": ["yuca/cmaes.py:CMAES.update_population"]}
{"id": "C42", "title": "Covariance stays a covariance", "statement": "After every update the search covariance is symmetric and positive semi-definite and the mean is the average of the elite parameters, so sampling is always well defined.", "quantifier": "every population history and elite selection", "why_tests_cant": "Matrix inequality over all vectors.", "anchors": ["yuca/cmaes.py:CMAES.update_population"]}
{"id": "C43", "title": "Early stopping saves evaluated individuals", "statement": "A user relies on the saved automaton having been evaluated. A run that is not stopped early saves the fittest agent of its last generation, and each logged elite was evaluated in its generation. On the early-stop path the population has already been resampled when it is ranked with the old fitness, so the saved vector can be one that was never evaluated. The loop is left early after the first generation beyond the seventh whose fitness values are numbers with a standard deviation below 0.02, and only there.", "quantifier": "every run history", "why_tests_cant": "Depends on fitness spread and generation.", "anchors": ["yuca/cmaes.py:CMAES.mantle", "yuca/cmaes.py:CMAES.rank_population"]}
{"id": "C44", "title": "Parallel evaluation equals serial evaluation", "statement": "With w >= 2 processes, agents are split into contiguous disjoint ranges that cover the population and differ in size by at most one, and, if the fitness of an agent depends only on the agent and the generation (see C82 for when it does), the fitness lists gathered, generation by generation, equal those of the serial loop (given the same update of the population), in agent order, for every interleaving of workers; with -w 1 the split divides by zero.", "quantifier": "every population size, worker count and schedule", "why_tests_cant": "Schedules and sizes are unbounded.", "anchors": ["yuca/cmaes.py:CMAES.mantle", "yuca/cmaes.py:CMAES.arm"]}
{"id": "C45", "title": "Population bookkeeping", "statement": "Each generation evaluates exactly population_size agents and logs one entry; after mantle's double initialisation the population list is twice as long, but the extra agents are never evaluated, selected or updated; the number of entries per seed is between 1 and the number of generations, fewer than all only after an early stop; the log of a later seed begins with the entries of the earlier seeds.", "quantifier": "every run", "why_tests_cant": "Run histories are unbounded.", "anchors": ["yuca/cmaes.py:CMAES.mantle", "yuca/cmaes.py:CMAES.initialize_population", "yuca/cmaes.py:CMAES.reset"]}
{"id": "C46", "title": "Frame order", "statement": "The frame files written by save_fig_sequence sort lexicographically in step order for every num_steps up to 10^10, so, if the frames directory holds no other pictures, the gif shows the trajectory in order up to the step where the grid vanishes, the first frame twice; a frame left over by an interrupted run ends up in the gif; num_steps = 0 raises and num_steps = 1 makes no gif.", "quantifier": "every number of steps", "why_tests_cant": "All step counts; lexicographic vs numeric order.", "anchors": ["yuca/utils.py:save_fig_sequence", "yuca/utils.py:make_gif"]}
{"id": "C47", "title": "Image masks", "statement": "get_mask returns a 0/1 mask that is 0 exactly where the grid is below radius. get_bite_mask works exactly for square images whose side equals the number of points of its np.arange grid; that number is 2*(side//2) or, because of rounding in double precision, one more: every power of two works, 58 fails and 59 works. prep_input without external_channels fails for every batch with more than one image or channel; its values are the masked image plus noise, in [0, 1+noise_level].", "quantifier": "every image size and radius", "why_tests_cant": "All sizes.", "anchors": ["yuca/utils.py:get_mask", "yuca/utils.py:get_bite_mask", "yuca/utils.py:prep_input"]}
{"id": "C48", "title": "Halting task initial grid and reward", "statement": "For dim >= 4 the random start pattern is confined to rows and columns [dim//4, dim - dim//4); for dim < 4 the border-zeroing slice -0: wipes the whole grid. The reward -|0.5001 - active| always lies in [-0.5001, 0].", "quantifier": "every dim, every random grid, every batch outcome", "why_tests_cant": "All sizes and outcomes.", "anchors": ["yuca/wrappers/halting_wrapper.py:SimpleHaltingWrapper"]}
{"id": "C49", "title": "Glider reward telescopes", "statement": "The total reward of a GliderWrapper episode equals the centre-of-mass column at the end minus that after the first step, plus one span per wrap-around, minus the accumulated (non-negative) growth penalty, as long as the centre of mass is never exactly 0 before the last step; the rollout has at most ca_steps steps; with ca_steps = 0 the call raises.", "quantifier": "every trajectory and length", "why_tests_cant": "Sum over arbitrary trajectories.", "anchors": ["yuca/wrappers/glider_wrapper.py:GliderWrapper.meta_step"]}
{"id": "C50", "title": "Vanishing step record", "statement": "In analyze_universe the recorded last step of each grid is the first step at which it was inactive, or -1 if it never was, and is never overwritten; the loop ends early only when the whole batch is empty, and for non-negative cells every grid then has a recorded step.", "quantifier": "every activity history, every grid size", "why_tests_cant": "All histories.", "anchors": ["yuca/analyze.py:analyze_universe"]}
{"id": "C51", "title": "Entropy of a grid", "statement": "The grid entropy uses the byte histogram of the grid as probability vector (non-negative, sums to 1 for a non-empty grid), is at most 256e-9/ln 2 below its Shannon entropy, lies in [-log2(1+1e-9), 8] and does not depend on where the cells are. A uniform grid has a negative value, not 0. The conditional entropies are wrong: the joint table counts every cell 65026 times, so the result is between 7.98 and 8 bits for every grid, also where the true value is 0.", "quantifier": "every grid", "why_tests_cant": "Information inequality for all grids.", "anchors": ["yuca/analyze.py:get_grid_entropy", "yuca/analyze.py:get_conditional_entropy"]}
{"id": "C52", "title": "CPPN patterns are valid start states", "statement": "A CPPN action is a dim x dim pattern per channel with values in [0,1], below 2e-7 outside radius 0.75; in double precision the coordinate grid has exactly dim points per side for 2 <= dim <= 10^7, and dim < 2 raises; get_action works exactly for external_channels 1 or 2.", "quantifier": "every parameter vector, dim and channel count", "why_tests_cant": "All sizes and weights.", "anchors": ["yuca/cppn.py:CPPN.get_action", "yuca/cppn.py:CPPN.get_cppn_input"]}
{"id": "C53", "title": "Filtered parameters stay in the safe box", "statement": "With filtering on, ParamsAgent.set_params stores values in [1e-4, 1] and is idempotent, and get_action returns them; the constructor does not filter, so a new agent may hold values outside.", "quantifier": "every parameter vector", "why_tests_cant": "All vectors.", "anchors": ["yuca/params_agent.py:ParamsAgent.set_params", "yuca/params_agent.py:ParamsAgent.get_action"]}
{"id": "C54", "title": "Experiment dispatch", "statement": "evolve runs the pattern search iff the tag contains 'pattern', otherwise coevolution iff it contains 'coevo', otherwise universe search, and CMAES takes the matching branch; automaton and environment names resolve to the known class whose name they contain, first match first, otherwise raise; the env argument is ignored for pattern search and coevolution, and GliderWrapper cannot be chosen for a universe search.", "quantifier": "every tag and class name string", "why_tests_cant": "All strings.", "anchors": ["yuca/evolve.py"]}
{"id": "C55", "title": "Logged command line keeps every token", "statement": "The entry_point string recorded by evolve contains every command-line token exactly once, grouped by option in sorted order; a command line whose first token has no '-' raises IndexError. A value containing '-' becomes a group of its own, so two different command lines can give the same record.", "quantifier": "every argument list", "why_tests_cant": "All argument lists.", "anchors": ["yuca/evolve.py"]}
{"id": "C56", "title": "Cloning saves the best network", "statement": "A user relies on clone saving the weights with the lowest recorded error. The state dict is a live reference, so what is saved are the last weights of the network in which the lowest error of the whole run was measured, and these are not the weights that error was measured with (every training step changes the weights); with no step or iteration None is saved. The first config's name replaces every placeholder 'ca_config' in the path. With several configs the later ones overwrite the first file as soon as the path no longer contains the 'ca_config' placeholder.", "quantifier": "every training history", "why_tests_cant": "Aliasing over unbounded histories.", "anchors": ["yuca/clone.py"]}
{"id": "C57", "title": "Hidden-width schedule", "statement": "From an initial width not above the maximum, the hidden width in clone never decreases and never exceeds the maximum; from above it drops to the maximum at once; it stalls forever for widths below 4 and reaches the maximum within max - initial rounds from 4 on.", "quantifier": "every initial and maximal width", "why_tests_cant": "Unbounded iteration.", "anchors": ["yuca/clone.py"]}
{"id": "C58", "title": "Step predictor uses all its layers", "statement": "A user relies on every convolution block taking part in the prediction. forward never raises, but only uses the first 2*ceil(L/2) of the 2L layers for L = layer_repeats: all of these, and none of the rest; an even L computes exactly the same function as L - 1.", "quantifier": "every layer_repeats", "why_tests_cant": "All depths.", "anchors": ["yuca/step_predictor.py"]}
{"id": "C59", "title": "HaltingWrapper rewards wrong predictions", "statement": "The reward of a HaltingWrapper episode is minus the proportion of right halting predictions: it lies in [-1, 0], is -1 (the worst) exactly for a flawless predictor and 0 (the best) exactly for one that is always wrong.", "quantifier": "every number of samples, every prediction, every labelling", "why_tests_cant": "A test sees one reward value for one random predictor; the direction of the incentive is a statement about all predictors.", "anchors": ["yuca/wrappers/halting_wrapper.py:HaltingWrapper"]}
{"id": "C60", "title": "Training and evaluation labels", "statement": "Every pattern HaltingWrapper labels active while training (mean > 1e-4) it also labels active when computing the reward (max > 1e-5), but not conversely: on the default 128x128 grid a single full cell is labelled vanished in training and active in evaluation.", "quantifier": "every final grid", "why_tests_cant": "Random patterns rarely end in the gap between the two thresholds.", "anchors": ["yuca/wrappers/halting_wrapper.py:HaltingWrapper"]}
{"id": "C61", "title": "Glider rollout stops on shrinking patterns", "statement": "A user expects the GliderWrapper rollout to stop early only when the pattern is dead or static. It stops exactly when the mean is zero or no cell grew by more than 1e-5, so also on any step in which the pattern only shrinks, however fast.", "quantifier": "every automaton, grid and step", "why_tests_cant": "Needs a pattern that only shrinks for one step.", "anchors": ["yuca/wrappers/glider_wrapper.py:GliderWrapper.meta_step"]}
{"id": "C62", "title": "Glider displacement is diluted by the batch size", "statement": "GliderWrapper measures the centre of mass with sample 0 in the numerator and the whole batch in the denominator, so a batch of B identical patterns reports B times smaller positions (up to the 1e-6 guard), strictly smaller for B > 1 whenever the position of a single copy is positive.", "quantifier": "every pattern with non-negative cells, every batch size, every kernel radius", "why_tests_cant": "Tests use a batch of one.", "anchors": ["yuca/wrappers/glider_wrapper.py:GliderWrapper.meta_step"]}
{"id": "C63", "title": "Restoring a missing config is silent", "statement": "restore_config on a path that exists neither as given nor below ca_configs raises nothing and leaves the automaton unchanged; creating a CCA with a misspelt ca_config gives the randomly initialised default automaton.", "quantifier": "every file system, path and automaton", "why_tests_cant": "Holds for every path and state; a test sees only one missing file.", "anchors": ["yuca/ca/continuous.py:CCA.restore_config", "yuca/ca/continuous.py:CCA.__init__"]}
{"id": "C64", "title": "Default growth functions", "statement": "A user relies on a default-initialised CCA drawing separate random genesis and persistence parameters. It does not: for up to eight internal channels the persistence parameters always equal the genesis parameters, and with equal coin flips birth and survival are the same function.", "quantifier": "every outcome of the random draws", "why_tests_cant": "The draws are random; a test sees one outcome.", "anchors": ["yuca/ca/continuous.py:CCA.default_init"]}
{"id": "C65", "title": "NCA config round trip", "statement": "load_config(make_config()) reproduces weights, neighborhood kernel and step size of an NCA with a Gaussian-mixture kernel, also when the kernel was evolved after the config was made. On loading, any kernel with a vector of parameters is replaced by the Gaussian mixture of the tail of params; a kernel without parameters is used as it is; a single number as kernel parameter raises IndexError; after set_kernel_config the reloaded NCA differs from the one saved.", "quantifier": "every NCA state and config", "why_tests_cant": "All shapes, parameters and call orders.", "anchors": ["yuca/ca/neural.py:NCA.make_config", "yuca/ca/neural.py:NCA.load_config", "yuca/ca/neural.py:NCA.set_params"]}
{"id": "C66", "title": "Saving does not change the automaton and is repeatable", "statement": "make_config never changes what the automaton computes, and from the second call on it returns the same config. The first call on a CCA that was never loaded returns the assumed growth parameters, the second its own.", "quantifier": "every CCA state", "why_tests_cant": "State dependence over all histories.", "anchors": ["yuca/ca/continuous.py:CCA.make_config"]}
{"id": "C67", "title": "Cropping a pattern", "statement": "Librarian.crop with bounds inside the pattern returns exactly the cells of that rectangle; bounds beyond the pattern are silently clamped, negative ones count from the end, reversed rows give no rows and reversed columns empty rows, never an error.", "quantifier": "every pattern and every pair of bounds", "why_tests_cant": "Infinitely many sizes and bounds.", "anchors": ["yuca/zoo/librarian.py:Librarian.crop"]}
{"id": "C68", "title": "The search stays in a small subspace", "statement": "From the second generation on, every agent a CMAES run evaluates lies in one affine subspace through the starting mean whose dimension is at most elite_keep = population//8 + 1 (3 for 16 agents), however many parameters the automaton has: the covariance is rebuilt from the elite alone and sampled without being factorised or regularised.", "quantifier": "every run, every population size, number of parameters, selection mode and random draw", "why_tests_cant": "A test can only check a finite number of sampled directions in sampled runs; that no generation ever leaves the subspace is an invariant of all runs.", "anchors": ["yuca/cmaes.py:CMAES.update_population", "yuca/cmaes.py:CMAES.initialize_population"]}
{"id": "C69", "title": "Seeds of one experiment are not independent", "statement": "A user relies on the runs of one CMAES object with several seeds being independent repetitions. They are not: every run leaves an elite behind, reset() does not clear it, and the first agents of the next seed are exactly that elite.", "quantifier": "every final elite and every random draw", "why_tests_cant": "Whether the next run is contaminated depends on state carried over a whole evolution run.", "anchors": ["yuca/cmaes.py:CMAES.reset", "yuca/cmaes.py:CMAES.initialize_population", "yuca/cmaes.py:CMAES.mantle"]}
{"id": "C70", "title": "Initial population", "statement": "With ParamsAgent and no resumed elite every initial agent is a sample of the starting distribution. With CPPN agents the constructor ignores the parameters it is given: the first population depends neither on the starting mean and covariance nor on the elite the run is told to resume from. With CPPNPlus agents and no elite the pattern half of each agent is the network's own random weights and the rule half is a sample of the starting distribution.", "quantifier": "every starting distribution, elite and random draw", "why_tests_cant": "Independence from an input is a statement about all pairs of inputs.", "anchors": ["yuca/cmaes.py:CMAES.initialize_population", "yuca/cppn.py:CPPN.__init__", "yuca/params_agent.py:ParamsAgent.__init__"]}
{"id": "C71", "title": "Parallel evaluation neither deadlocks nor leaves workers running", "statement": "With w >= 2 processes no schedule of mantle and the arms deadlocks, whether or not MPI buffers messages; if the serial program ends, every schedule ends within a bounded number of steps, with the root returned and every arm stopped.", "quantifier": "every population size, worker count, schedule, and buffering behaviour", "why_tests_cant": "Tests run a handful of schedules of one MPI implementation.", "anchors": ["yuca/cmaes.py:CMAES.mantle", "yuca/cmaes.py:CMAES.arm"]}
{"id": "C72", "title": "Shifts, windows and start box in the analysis code", "statement": "np_shift by a direction is a translation on the torus (every cell read exactly once); the analysis window of the object-oriented code is exactly the odd-sized neighbourhood with wrap-around while the module-level one has 2r instead of 2r+1 cells per side; the random start patch fits exactly for even grid sizes and sides 1 and 3, and is centred and clear of the border from side 4 on.", "quantifier": "every grid size, shift, radius", "why_tests_cant": "All sizes, offsets and grids.", "anchors": ["yuca/analyze.py:np_shift", "yuca/analyze.py:analyze_universe"]}
{"id": "C73", "title": "CPPN patterns are mirror symmetric", "statement": "Over exact reals the pattern a CPPN makes is invariant under exchanging top and bottom, whatever the weights, because the row coordinate enters the network only through absolute value, cosine and radius. The left-right mirror is not forced: the network sees the column coordinate itself.", "quantifier": "every parameter vector and size", "why_tests_cant": "All weights.", "anchors": ["yuca/cppn.py:CPPN.get_cppn_input", "yuca/cppn.py:CPPN.get_action"]}
{"id": "C74", "title": "The step predictor only ever predicts growth", "statement": "For every weights, dropout and input, each predicted cell lies strictly above the input cell, by less than ceil(layer_repeats/2); so a target with a cell that does not grow is never met exactly and an empty picture never stays empty.", "quantifier": "every weight assignment, input picture and layer_repeats >= 1", "why_tests_cant": "All weights and inputs.", "anchors": ["yuca/step_predictor.py:StepPredictor.forward"]}
{"id": "C75", "title": "The step predictor cannot save", "statement": "model_save_path is built below the .npy file just written, so on every file system fit with at least one epoch raises at the end of epoch 0.", "quantifier": "every file system state, tag and epoch count", "why_tests_cant": "All file systems.", "anchors": ["yuca/step_predictor.py:StepPredictor.fit"]}
{"id": "C76", "title": "One step is the published rule", "statement": "On the torus, with the default identity kernel, one step of CCA, Lenia, the base class CA and (in evaluation mode) NCA returns exactly the documented formula: every cell becomes clip(x + dt * growth), where the neighbourhood entry (a, b) of a radius-r kernel weighs the cell a-r rows below and b-r columns to the right (cross-correlation, wrapping), internal channel o reads external channel o // (int // ext), genesis is weighted by 1-x and persistence by x, functional mode averages with 1/(ext*int), sequential mode applies one hidden ReLU layer, NCA applies its three-layer perceptron to cells followed by neighbourhoods, and the simulated time grows by dt. The call does not raise when the kernel radius fits the grid.", "quantifier": "for all kernels of odd side, growth functions, weights, time steps, channel counts with ext dividing int, batch sizes, grids at least as large as the radius, universes", "why_tests_cant": "the formula is a claim about all kernels and universes; orientation and channel-order mistakes are invisible on the symmetric kernels and equal channels that the tests use", "anchors": ["yuca/ca/common.py:96-141", "yuca/ca/common.py:196-234", "yuca/ca/common.py:304-336", "yuca/ca/continuous.py:396-424", "yuca/ca/continuous.py:486-564", "yuca/lenia.py:55-60", "yuca/ca/neural.py:265-309"]}
{"id": "C77", "title": "RxnDfn steps the Gray-Scott equations", "statement": "On the torus one step of RxnDfn is one explicit Euler step, cut off to [0, 1], of du/dt = Du L(u)/dx^2 - u v^2 + f (1-u), dv/dt = Dv L(v)/dx^2 + u v^2 - (f+k) v with L the neighbourhood kernel; for the default object Du = 2e-5, Dv = 1e-5, dx = 1/330, f = 0.062, f + k = 0.1229, dt = 0.5 and the kernel sums to zero.", "quantifier": "for all parameters, kernels of odd side, grids at least as large as the radius, universes", "why_tests_cant": "a sign or parameter swap gives a program that still runs, stays in range and keeps the rest state", "anchors": ["yuca/ca/reaction_diffusion.py:202-238", "yuca/ca/reaction_diffusion.py:324-375"]}
{"id": "C78", "title": "Functional weights move all channels together", "statement": "In functional mode all external channels of a cell are moved by the same amount in a step (the weights are one constant), so channels that agree in a cell keep agreeing and no channel has a rule of its own.", "quantifier": "for all functional-mode CCA dynamics on the torus with ext dividing int, all universes", "why_tests_cant": "the equality must hold for every universe; the tests use one channel", "anchors": ["yuca/ca/continuous.py:396-410", "yuca/ca/continuous.py:523-564"]}
{"id": "C79", "title": "Network-made patterns never move vertically", "statement": "Over exact reals every pattern a CPPN makes is top-bottom symmetric, and under every CCA, Lenia, base CA, Gray-Scott automaton, neural automaton (evaluation mode), RandomStepCA (whatever it draws), CODE (whichever step sizes it settles on) and MetaCA (after a reset) with kernels from get_kernel on the torus it stays so for every number of steps; the rows therefore always balance around the middle of the grid, i.e. the pattern can glide sideways but never up or down. If such a pattern is a moved copy of itself after n steps of a CCA, Lenia, Gray-Scott or neural automaton, then after 2n steps it has moved along its rows only.", "quantifier": "for all network weights, grid sizes, isotropic automata and numbers of steps", "why_tests_cant": "a statement about all weights and unboundedly many steps", "anchors": ["yuca/cppn.py:51-163", "yuca/ca/continuous.py:541-564", "yuca/kernels.py", "yuca/lenia.py:Lenia.forward", "yuca/ca/reaction_diffusion.py:RxnDfn.forward", "yuca/ca/neural.py:NCA.forward", "yuca/random_step_ca.py:RandomStepCA.forward", "yuca/code.py:CODE.forward", "yuca/metaca.py:MetaCA.forward"]}
{"id": "C80", "title": "Step rules of RandomStepCA, CODE and MetaCA", "statement": "One RandomStepCA step is clip(x + dt*growth) with dt = min_dt + r*(max_dt - min_dt) for the drawn r, and t_count and prev_dt follow dt; CODE computes clip(x + dt*growth) for each candidate step; MetaCA adds ddt*growth to its momentum (zero after reset or for a new shape) and then dt*momentum to the universe, so its first step after reset is a CCA step of size dt*ddt, a cell without growth keeps moving, and t_count never advances.", "quantifier": "every functional automaton with default identity kernel, every universe, momentum, draw and step size", "why_tests_cant": "All automata and universes.", "anchors": ["yuca/random_step_ca.py:RandomStepCA.get_new_grid", "yuca/metaca.py:MetaCA.forward", "yuca/code.py:CODE.get_new_grid"]}
{"id": "C81", "title": "What get_frame returns", "statement": "CCA.get_frame returns the next universe computed without the alive mask; mode 1 adds the neighborhoods, mode 2 the growth, mode 3 both, mode 4 also the old universe, and any other mode returns None. Lenia and NCA give the corresponding unmasked next universe in mode 0.", "quantifier": "every automaton in functional mode on a torus whose kernels fit, with the default identity kernel, every universe and mode", "why_tests_cant": "All modes and universes.", "anchors": ["yuca/ca/continuous.py:CCA.get_frame", "yuca/ca/common.py:CA.get_frame", "yuca/lenia.py:Lenia"]}
{"id": "C82", "title": "Agents of a population do not influence each other's fitness (CCA and RandomStepCA)", "statement": "With SimpleHaltingWrapper and a CCA or RandomStepCA automaton, evaluating a population one agent after the other in one environment object gives every agent the fitness and active proportion it would get if it were evaluated alone (same seed, same exception if any), although set_params overwrites the previous agent in place; dividing the population among processes with their own environments gives the same list. A RandomStepCA object keeps the step size the last agent drew, but no later call reads it. This does not hold for MetaCA and CODE: SimpleHaltingWrapper never resets the automaton, so MetaCA's momentum and CODE's last step size pass from one agent to the next, an agent that dies when evaluated alone can survive after another one, and serial and parallel evaluation can disagree.", "quantifier": "every automaton object with a parameter vector, population, seed, number of replicates and of steps, every behaviour of the random generators", "why_tests_cant": "The claim is about all pairs of agents in all orders; a test evaluates a handful, and the default automaton is the one for which it holds.", "anchors": ["yuca/cmaes.py:CMAES.get_fitness", "yuca/cmaes.py:CMAES.mantle", "yuca/wrappers/halting_wrapper.py:SimpleHaltingWrapper.step", "yuca/ca/continuous.py:CCA.set_params", "yuca/metaca.py:MetaCA.forward", "yuca/code.py:CODE.forward"]}
{"id": "C83", "title": "What the random seed of a search controls", "statement": "In a universe search without workers, with SimpleHaltingWrapper and a CCA, the state of the search after every generation is a function of the population it started with and of the numbers generation * my_seed: the environment and the random generators left behind by earlier generations, by saving gifs or by get_elite_configs do not matter, and the noise that update_population adds in a generation is what numpy produces right after being seeded with generation * my_seed. Consequences: generation 0 adds the same noise for every my_seed; generations with the same product do the same to the same population, so with my_seed = 0 all generations (but the last) apply one fixed map; with my_seed = 0, truncation selection and at least 8 agents the best fitness never falls from one generation to the next; with fewer than 8 agents it can. With truncation selection a search whose environment never raises completes.", "quantifier": "every environment that forgets (C82), population, seed, number of generations and replicates, every behaviour of the generators and every way of reading random choices off them", "why_tests_cant": "Reproducibility over all seeds and histories; a test compares a few runs, and two runs with the same seed agree whatever the generators do.", "anchors": ["yuca/cmaes.py:CMAES.mantle", "yuca/cmaes.py:CMAES.get_fitness", "yuca/cmaes.py:CMAES.update_population", "yuca/cmaes.py:CMAES.get_elite_configs", "yuca/utils.py:seed_all"]}
{"id": "C84", "title": "Growth functions and kernels have the shape their parameters describe", "statement": "Gaussian growth is a bell at mu of width sigma + 1e-9 (stretched to -1..1 in mode 1): a cell grows exactly while its neighborhood is within (sigma + 1e-9) * sqrt(2 ln 2) of mu and shrinks exactly beyond; double Gaussians and mixtures are clamped sums of such bells, polynomials have the coefficients in increasing order, and mode 1 is 2x - 1 of mode 0 for all of them. (Not for DoGaussian, whose mode 1 doubles the second bell only and is no linear rescaling of mode 0.) Kernel weights of a Gaussian kernel are ordered by how close the distance from the centre, in units of the radius, is to mu; a SmoothLife kernel weighs all cells of its ring equally and no others; kernel arguments left out are mu 0, sigma 0.1, omega 25.12, parameters [0.5, 0.15], r_a 1, r_i 1/3. Edge kernels are antisymmetric across the axis given by mode before they are normalised, but the shift to lowest weight 0 makes them answer a constant universe with a positive value.", "quantifier": "every real parameter, radius and argument", "why_tests_cant": "Statements about real functions of several parameters; a test samples points.", "anchors": ["yuca/activations.py:Gaussian.forward", "yuca/activations.py:DoGaussian.forward", "yuca/activations.py:DoubleGaussian.forward", "yuca/activations.py:GaussianMixture.forward", "yuca/activations.py:Polynomial.forward", "yuca/activations.py:SmoothLifeKernel.forward", "yuca/activations.py:CosOverX2.forward", "yuca/kernels.py:get_kernel", "yuca/kernels.py:get_gaussian_edge_kernel", "yuca/kernels.py:get_dogaussian_edge_kernel"]}
{"id": "C85", "title": "The built-in rules are the rules they are named after", "statement": "A default CCA that loads get_orbium_config(r) steps as Lenia with the ring kernel exp(-(x - 0.5)^2 / (2 (0.15 + 1e-9)^2)) of the distance x in units of r, growth 2 exp(-(n - 0.15)^2 / (2 (0.015 + 1e-9)^2)) - 1 and step size 0.1, whether used as CCA or as Lenia; get_geminium_config(r) likewise with three rings of heights 1/2, 1, 2/3 and growth centred at 0.26; get_smooth_life_config(r) takes means over a disc of a third of the radius and over the ring from there to 1.05 radii, all cells of each counting equally, and adds the growth of the ring mean, mixed by the disc mean, with step size 1. Setting its own parameters changes nothing for the first two and always replaces the kernel of SmoothLife.", "quantifier": "every radius at least 1, grid at least as large as the radius, universe and previous state of the object", "why_tests_cant": "Holds for every radius and universe; tests only compare a few recorded frames.", "anchors": ["yuca/configs.py:get_orbium_config", "yuca/configs.py:get_geminium_config", "yuca/configs.py:get_smooth_life_config", "yuca/ca/continuous.py:CCA.load_config", "yuca/ca/continuous.py:CCA.forward"]}
{"id": "C86", "title": "The library's glider glides and its puffer puffs", "statement": "Under the automaton loaded from the Conway config, get_glider() placed anywhere on an otherwise empty torus of at least 8 by 8 cells goes through the four phases of the Life glider and moves one cell up and to the left every four steps, for ever: after 4k + m steps the universe is within 1e-6 of phase m moved by k cells. On a square torus of side H it is back at its start after 4 H steps. Under the automaton of B368/S245 (Move/Morley), get_puffer() moves 13 columns to the right every 170 steps and leaves one lump of eight cells behind each time, as long as the torus has room (at least 14 rows and 13 k + 14 columns for k periods), to within 4e-7 per step for k up to 14; the true 0/1 automaton does so for every k.", "quantifier": "every torus with room, position, batch size and number of steps (puffer: of periods)", "why_tests_cant": "A property of unbounded runs on tori of every size; the tests only check the shape and the number of live cells of the arrays.", "anchors": ["yuca/patterns.py:get_glider", "yuca/patterns.py:get_puffer", "yuca/configs.py:get_life_like_config", "yuca/ca/continuous.py:CCA.forward"]}
{"id": "C87", "title": "What analyze_universe measures", "statement": "For a universe with one channel and at least two cells in the batch, row t of the analysis compares the universe after t + 1 steps with the one before. The autocorrelation is the correlation coefficient of the two, over the whole batch at zero shift, dampened by 1e-7: it lies in (-1, 1], is symmetric, does not change if both are moved around the torus, and is 1 exactly if both are flat. Its four columns hold that value, 0, that value, that value, so the printed average is 3/4 of the true one; with more channels they are the average, the standard deviation, the least and the greatest over all pairs of channels. The mortality is the fraction of dead samples and the fertility the fraction that has reached the outermost rows or columns; they add up to at most 1. The analysis ends after the given number of steps or after the first step that leaves everything dead; in that case the last row has mortality 1 and fertility 0. Without growth at 0 the mortality of a CCA never falls. With no steps the printed message fails with an IndexError.", "quantifier": "every grid (non-negative where deaths are counted), batch size, number of steps and automaton", "why_tests_cant": "Statistics of arbitrary runs; the tests only check that the analysis runs.", "anchors": ["yuca/analyze.py:Phanes.autocorrelate", "yuca/analyze.py:Phanes.analyze_universe", "yuca/analyze.py:Phanes.analyze_multiverse"]}
{"id": "C88", "title": "Where analyze_multiverse saves its results", "statement": "Exactly the directory entries with npy in their names are analysed, in the order of the listing. The results go to a directory ca_analysis which nothing creates: with a trailing slash on the input directory (command line default ca_configs/) it is beside the configs, without (default configs of Phanes) it is in the parent of the current directory. If it exists, every result up to the first failing config is saved and the later configs are not analysed; if it does not, one config is analysed and the run fails with nothing saved. Configs x.npy and y.npy have different result files; a backup such as x.npy~ is analysed too and overwrites the result of x.npy.", "quantifier": "every listing, current directory, one-component input directory, analysis outcome", "why_tests_cant": "Depends on the file system and on failures part way; the tests never call analyze_multiverse.", "anchors": ["yuca/analyze.py:Phanes.analyze_multiverse"]}
{"id": "C89", "title": "Fitness is the mean reward", "statement": "get_fitness returns the mean of the rewards of all steps of all replicates, and the mean of their active proportions; the replicates run one after the other, each after a reset of the environment, with the generators seeded once at the start. With no steps or no replicates it fails with a ZeroDivisionError. With SimpleHaltingWrapper the fitness lies in [-0.5001, 0], the active proportion p in [0, 1], and the fitness is at most -|0.5001 - p|. With RandomWrapper every reward is the first number of a generator seeded with the milliseconds of the clock, one of at most 1000 values, so that the fitness depends neither on the agent nor on the seed given to get_fitness.", "quantifier": "every environment, action, seed, number of steps and of replicates", "why_tests_cant": "A statement about all environments and random generators; the tests run the search and look at the shapes of its results.", "anchors": ["yuca/cmaes.py:CMAES.get_fitness", "yuca/wrappers/halting_wrapper.py:SimpleHaltingWrapper.step", "yuca/wrappers/random_wrapper.py:RandomWrapper.step"]}
{"id": "C90", "title": "Life survives rounding", "statement": "In any arithmetic in which 0, 1 and comparisons are exact, sums, differences and products of numbers up to 2 are off by at most 1/1000 and inner products by at most 1/500, and in which the growth functions are computed to within 1/200 near multiples of 1/8, the automaton of a life-like rule whose birth set is contained in its survival set (Conway's Life among them) runs for any number of steps on any torus; every cell stays a number in [0, 1] and within 1/50 of the true generation, so that cutting at one half gives the true generation exactly. It need not start at exact zeros and ones, 1/50 off will do. A glider flies for ever. Rounding to double precision after every operation is such an arithmetic.", "quantifier": "every arithmetic of the stated accuracy, life-like rule with birth within survival, torus, pattern, number of steps and samples", "why_tests_cant": "Rounding errors could add up over any number of steps; a test runs a few steps of a few patterns on one machine.", "anchors": ["yuca/ca/continuous.py:CCA.forward", "yuca/ca/continuous.py:CCA.update_universe", "yuca/configs.py:get_life_like_config", "yuca/activations.py:SmoothIntervals.forward"]}
{"id": "C91", "title": "What the pictures of a gif show", "statement": "A picture of save_fig_sequence shows sample 0 only. With two or more channels a colour value is a channel in steps of 1/255, cut off, the first three colours inverted: equal pictures mean cells less than 1/255 apart in the first four channels, fuller cells are darker, channels from the fifth on are not shown, two channels are shown as green and blue, with four or more channels a cell is transparent exactly if its fourth channel is below 1/255; with one channel the colour is the entry of the colour map the value falls into. With fewer than four channels, an automaton whose kernels fit and mode 0 nothing raises and the gif shows the states forward reaches every speedup steps. The gif of a life-like rule with birth within survival is the textbook film in two colours. Two exceptions: the vanishing test looks at all samples, so that a batch with an empty first sample is filmed as empty pictures to the end; and in the modes other than 0 the call raises after the first frame and leaves its file behind.", "quantifier": "every universe, colour map, automaton, number of steps and speedup", "why_tests_cant": "All universes and automata; the test checks that a gif file exists.", "anchors": ["yuca/utils.py:save_fig_sequence", "yuca/utils.py:make_gif", "yuca/ca/continuous.py:CCA.get_frame"]}
{"id": "C92", "title": "Coevolution scores one rule and saves another", "statement": "An agent of a coevolution is a vector of network weights followed by the parameters of a rule. It is scored by running its rule on the pattern of its network, and the configs in the log hold the growth parameters of the rules of the elite. A user expects the config saved at the end to be the rule of the best agent as well. It is not: rank_population sets the parameters of the automaton to the whole vector, so that the saved growth parameters are the first weights of the network, and the saved config does not depend on the rule at all when the network has at least as many weights as the rule has parameters. Saved and logged growth parameters agree exactly if the first weights happen to equal the parameters of the rule; for every automaton with growth parameters and every network there is an agent for which they do not.", "quantifier": "every automaton object with growth configs, network weights and rule parameters", "why_tests_cant": "No test runs a coevolution; a run completes and writes a config that loads without complaint.", "anchors": ["yuca/cmaes.py:CMAES.rank_population", "yuca/cmaes.py:CMACES.get_fitness", "yuca/cmaes.py:CMACES.get_elite_configs", "yuca/cppn.py:CPPNPlus.get_params"]}
{"id": "C93", "title": "Patterns and coevolved agents are scored independently", "statement": "GliderWrapper resets the automaton before each rollout. With a CCA, a RandomStepCA or a MetaCA every agent of a pattern search or of a coevolution gets the fitness and active proportion (or the exception) it would get alone, whatever was evaluated before it. With a CCA or a MetaCA (coevolution: a CCA) fitness and active proportion are those of a single rollout, whatever the seed and the numbers of replicates and of steps: replicates only repeat the same computation. The independence fails for CODE, whose reset keeps the last step size: the same pattern evaluated twice can get two values, and an agent of a coevolution that dies when evaluated alone can survive after another one.", "quantifier": "every automaton object, pattern generator, population, seed, number of replicates and of steps", "why_tests_cant": "About all populations and histories; a test evaluates a few agents once.", "anchors": ["yuca/wrappers/glider_wrapper.py:GliderWrapper.meta_step", "yuca/cmaes.py:CMAES.get_fitness", "yuca/cmaes.py:CMACES.get_fitness", "yuca/metaca.py:MetaCA.reset", "yuca/code.py:CODE.reset"]}
{"id": "C94", "title": "What the gifs of a search show", "statement": "The gifs made before the first generation show the first min(elite_keep, 4) agents; in a search for rules or patterns making them changes nothing. At the end a pattern search shows exactly the logged elite, in the order of the log, in files that never collide. A rule search that ran all its generations shows the agents at the first elite_keep positions of its last population, which is not the elite: for every population of at least two agents there is a run in which every final gif shows a rule strictly less fit than the saved one. A coevolution films the elite elite_keep times over; if it already has an elite (a second seed, an input file) the gifs before the first generation overwrite the first agents with that elite, so filming changes the search. Rules are filmed from noise in the central square, after one step, for 256 frames; with dim below 4 the start is empty. Files are named by tag and millisecond: gifs of different seeds never share a file, gifs with one tag share one exactly if their milliseconds agree, of more than 1000 with one tag some are overwritten (a coevolution with at least 248 agents makes that many), and after a single generation the gifs of the start and the end have the same names.", "quantifier": "every search, population, elite, number of generations, seed and clock", "why_tests_cant": "No test runs a search with its gifs; which agents are shown and which files survive depends on population, fitness and the clock.", "anchors": ["yuca/cmaes.py:CMAES.mantle", "yuca/cmaes.py:CMAES.save_gif", "yuca/cmaes.py:CMACES.save_gif", "yuca/utils.py:make_gif", "yuca/utils.py:save_fig_sequence"]}
{"id": "C95", "title": "Searching for unpredictable rules", "statement": "An evaluation by HaltingWrapper sets the rule, trains the fresh network exactly eight times on fresh random grids and then judges it; the fitness of an agent does not depend on the agents evaluated before it nor on their networks, with a CCA, a RandomStepCA and (unlike with SimpleHaltingWrapper) a MetaCA. The reward is minus the share of events the network foresaw and lies in [-1, 0], active_grid is the share of events that took place; predictions lie strictly between 0 and 1. Events reported in training would also be reported in evaluation, in every mode, and a dead sample that stays dead is vanished and static in both. Stopping a run early does not change its last grid when the dead grid stays dead. Every evaluation raises if dim is below 2^num_blocks or the mode is above 2; otherwise it succeeds whenever the automaton does. The automaton is not reset before the judging run: for CCA and RandomStepCA that makes no difference, but the momentum a MetaCA keeps from the last training run can make every sample vanish that survives from rest.", "quantifier": "every automaton, network, learning rule, random source, population, mode and grid size", "why_tests_cant": "Rewards are averages over random grids and a network in training; a dependence on earlier agents or on left-over momentum looks like noise.", "anchors": ["yuca/wrappers/halting_wrapper.py:HaltingWrapper", "yuca/cmaes.py:CMAES.get_fitness", "yuca/metaca.py:MetaCA"]}
{"id": "C96", "title": "Starting and continuing a search", "statement": "A search for rules starts uncorrelated with variance 0.15 in the first parameter and 0.000075 in every other one, a search for patterns with variance 1. A log can be continued exactly if its last entry holds an elite; an elite of another width is ignored. A completed search for rules with ParamsAgents, continued with any population size, first evaluates the best agents of its last generation, best first (as many as both runs keep), so nothing found is lost, and with at least as many agents it starts at the mean the old run ended with. The spread is not continued: the covariance is reset, and if there are more than elite_keep parameters it never equals the one the old run ended with. A search for patterns cannot be continued (CPPN ignores the parameters it is built with: the same networks are evaluated with and without the file); a coevolution is continued only because its gifs write the elite back into the population, and raises IndexError before the first generation if the new population keeps more elite agents than were logged. The log of an interrupted tournament search, continued with a smaller population, may drop the better of the logged agents.", "quantifier": "every run, log, population size, selection mode and random draw", "why_tests_cant": "Continuing is a statement about two runs and a file between them; which agents survive depends on population sizes and agent classes on both sides.", "anchors": ["yuca/cmaes.py:CMAES.__init__", "yuca/cmaes.py:CMAES.initialize_population", "yuca/cmaes.py:CMAES.mantle", "yuca/cmaes.py:CMACES.save_gif", "yuca/cppn.py:CPPN.__init__"]}
{"id": "C97", "title": "Browsing the pattern library in the app", "statement": "In the bokeh app (with any automaton in place of yuca.multiverse.CA, a module this version does not contain), if all patterns can be shown, Next shows the patterns of the index in order and round and round, Previous undoes Next and conversely, Reset shows the current one, each from its start under the rule restored for it; the texts tell the entry point and commit of the pattern shown, its notes only after Reset; no session of clicks loses or doubles a pattern. At every moment there is one timer with the current period while running and none while paused, and the period is a power of two from 128 to 8192 ms. Patterns whose loaded commit hash is 'none' are passed over; if all are, RecursionError is raised. A pattern fits exactly if its shape is (1, 1, h, w) with h and w at most 90; cells keep any property that stored patterns have and the automaton keeps. Exceptions: a pattern that cannot be shown raises and is gone from the index for the session, while the old picture stays over an empty grid; after a failed Previous, Reset shows yet another pattern; 12 of the 49 shipped patterns are lost this way in one round. The step counter is never set back, though each pattern button assigns it 0. The app opens with the last pattern, not with the orbium it loads first. A pattern stored with commit hash 'none' is not passed over.", "quantifier": "every library, index, automaton and sequence of clicks and timer events", "why_tests_cant": "A session is an unbounded sequence of events over a shared list; the app has no tests.", "anchors": ["gecco_bokeh_app/main.py:reset_next_pattern", "gecco_bokeh_app/main.py:reset_prev_pattern", "gecco_bokeh_app/main.py:reset_this_pattern", "gecco_bokeh_app/main.py:go", "gecco_bokeh_app/main.py:faster", "gecco_bokeh_app/main.py:update", "yuca/zoo/librarian.py:Librarian.load"]}
{"id": "C98", "title": "Training and testing the step predictor", "statement": "A tenth of the rows of the data file, from its start and rounded down, are for validation and all others for training, each row with its own target and in exactly one of the two; the loaders give every row once, in batches of 1 to 512 rows. An epoch makes one optimizer step per batch, and the recorded training curve is the exponential moving average (0.99, 0.01) of the batch losses, which stays between their bounds but gives the first loss more than half of the weight up to entry 69. Evaluation gives the squared error per row, whatever the batches and the order. Runs of different seeds or layer repeats have different names. Exceptions: the validation, test and final losses are per row while the training loss is per cell, so on the same predictions they differ by the number of cells; evaluation uses a global named model and raises NameError where there is none; with at least one epoch the script always ends with an exception after at most one epoch of its first model, and no test is made; with fewer than 10 rows it divides by zero. If 'train' is not in the path, as in the default paths, the test data are the training and validation data, and the test loss is their weighted average; files with different numbers of rows, or none, raise before training.", "quantifier": "every network, optimizer, data file, shuffling, file system, seed list and number of epochs", "why_tests_cant": "Training takes hours and ends in the exception; no test covers the module, and a leaking test set gives plausible numbers.", "anchors": ["yuca/step_predictor.py:StepPredictor.fit", "yuca/step_predictor.py:StepPredictor.evaluate", "yuca/step_predictor.py:StepPredictor.end_evaluate", "yuca/step_predictor.py:__main__"]}
{"id": "C99", "title": "The Life of the notebooks", "statement": "The kernels of the notebook helpers are positive, symmetric, sum to 1 and weigh a cell the more the nearer its distance is to mu; the two that the first notebook makes from them are exactly the mean over the eight neighbours and the identity. One step of its 'Life in the Lenia framework' on a 0/1 grid is within 1/40 of one generation of Conway's Life, on a torus of any size. With use_lenia = False the same rule lists give Life forever, from every grid whose live cells are at least 15/16 and whose dead cells are at most 1/1000. make_gif shows the first frame twice, then the others in order, and removes exactly the visible files that end in png; it raises for fewer than two frames. Exceptions: the intervals of the helpers are those of a mean over nine cells, so over eight neighbours the count 4 is on an edge and the counts 5 to 8 are read one too high (yuca/configs.py has the right ones); a kernel function that is passed is ignored; over many steps it is not Life: every pattern with a dead cell that has exactly two live neighbours, such as a block, is lost, because that cell grows in every step.", "quantifier": "every rule list, torus size, 0/1 grid, kernel parameters and directory", "why_tests_cant": "The notebook shows one glider for 64 frames; the drift takes longer, and no shown rule uses a count above 3.", "anchors": ["notebooks/my_helpers.py:get_smooth_interval", "notebooks/my_helpers.py:get_kernel", "notebooks/my_helpers.py:get_smooth_steps_fn", "notebooks/my_helpers.py:get_conv_fn", "notebooks/my_helpers.py:make_gif", "notebooks/glaberish_animations.ipynb:update"]}
{"id": "C100", "title": "All step sizes follow one trajectory in continuous time", "statement": "For a CCA on a torus with fewer than four channels, kernel weights that sum to at most 1, and growth functions bounded by M with slope at most L (every growth function of the library has such bounds, every radial kernel such weights): there is exactly one trajectory, the limit of ever more steps, and n steps of any positive size dt end within a constant times dt of it; the same for Lenia, for random step sizes whatever is drawn, and for the steps CODE chooses, where the error is a constant times the largest step. The trajectory stays in [0,1], can be interrupted and taken up again, and a cell strictly between 0 and 1 changes at the rate given by genesis and persistence. A difference between two universes grows by at most 1 + dt (2M + L) / channels per step, and so do rounding errors. On a universe with no cell near 0 CODE accepts every step below a size that does not depend on the universe. Exception: with four or more channels the alive mask makes a step discontinuous, so universes that differ by as little as you like can be 1 apart after one step.", "quantifier": "every such automaton, universe in [0,1], step size, list of draws, number of steps and simulated time", "why_tests_cant": "A statement about limits and about all step sizes at once: any finite run shows one step size, and the constants cannot be seen from runs.", "anchors": ["yuca/ca/continuous.py:CCA.forward", "yuca/lenia.py:Lenia.update_universe", "yuca/random_step_ca.py:RandomStepCA.forward", "yuca/code.py:CODE.forward", "yuca/code.py:CODE.get_new_grid"]}
{"id": "C101", "title": "The size of the torus does not matter", "statement": "With circular padding a cell after n steps of CCA, Lenia, RxnDfn, NCA (without dropout), MetaCA after reset or RandomStepCA (with given draws) depends only on what is seen from it within n times the kernel radius R: not on the size of the torus, nor on its place there or its number in the batch. So a universe tiled from a smaller one evolves as the tiled small one does. A figure on a plain background evolves in the same way on every torus that leaves at least 2nR cells around it in both directions, wherever it is put, and cells out of its reach evolve as if it were not there. CODE, which picks its step for the whole universe, does the same on tiled universes, and for figures when there is room for one step more and for some background, since then it chooses the same steps. Exceptions: with one row and column less a figure can behave differently, and with zero padding the place matters.", "quantifier": "every automaton, pair of torus sizes, batch sizes, universe, figure, position, list of draws and number of steps; any arithmetic", "why_tests_cant": "Tests run on one or two grid sizes; the claim relates runs on all pairs of sizes.", "anchors": ["yuca/ca/continuous.py:CCA.forward", "yuca/lenia.py:Lenia.update_universe", "yuca/ca/reaction_diffusion.py:RxnDfn.forward", "yuca/ca/neural.py:NCA.forward", "yuca/metaca.py:MetaCA.forward", "yuca/random_step_ca.py:RandomStepCA.forward", "yuca/code.py:CODE.forward"]}
{"id": "C102", "title": "Which kernels an automaton takes", "statement": "add_neighborhood_kernel and add_identity_kernel take a kernel exactly when it is a square matrix or has four axes of which the last two are alike. The layer can then be built exactly when the first axis is 1 or internal_channels and the second is 1 or the number of channels each internal channel reads (1 if internal is a multiple of external, else all), and it holds, for each pair of channels, the entry meant for it; without an argument the identity layer is the default one. Kernels with three axes are never taken, although the code reshapes them. A refused neighborhood kernel leaves everything as it was; a refused identity kernel stays in id_kernel, and one of shape (k, k, 1) is used by the next initialize_id_layer. A kernel that does not fit leaves a layer with torch's random weights behind. RxnDfn takes four axes only and can use only kernels of shape (1, 1, k, k), the same for both species.", "quantifier": "every tensor shape and content, every pair of channel counts with external > 0, every earlier state", "why_tests_cant": "A handful of shapes are tried in tests; the claim covers all shapes, including what is left behind after an exception.", "anchors": ["yuca/ca/common.py:CA.add_identity_kernel", "yuca/ca/common.py:CA.add_neighborhood_kernel", "yuca/ca/common.py:CA.initialize_id_layer", "yuca/ca/common.py:CA.initialize_neighborhood_layer", "yuca/ca/continuous.py:CCA.add_identity_kernel", "yuca/ca/reaction_diffusion.py:RxnDfn.add_neighborhood_kernel", "yuca/ca/reaction_diffusion.py:RxnDfn.initialize_neighborhood_layer"]}
{"id": "C103", "title": "Gray-Scott: balance of the species, and the level below which a pattern dies out", "statement": "On the torus, with a kernel of sum zero, diffusion makes none of the two species: in a step that clamps no cell the sum of u changes by dt(f(cells - sum u) - sum u v^2) and that of v by dt(sum u v^2 - (f+k) sum v). If moreover the kernel only exchanges (entries off the centre not negative) and dt is small enough for the explicit scheme, a universe in [0,1] whose v nowhere exceeds some d < f+k dies out: after n steps v nowhere exceeds d(1 - dt(f+k-d))^n and u is nowhere below 1 - A q^n with q < 1, where A and q depend on the automaton and d only, not on the universe or its size. The level cannot be raised: next to u = 1 every v between f+k and 1 grows in the first step. The default automaton meets all of this: its kernel gives away exactly one half, and with f+k = 0.1229 every universe with v at most 0.12 ends at u = 1, v = 0.", "quantifier": "every kernel of the stated kind and radius, all parameters meeting the step bounds, every universe, batch and torus size the kernel fits, every number of steps", "why_tests_cant": "A run from some universes shows decay for those; the bound holds for all universes and for all times, and names the exact threshold.", "anchors": ["yuca/ca/reaction_diffusion.py:RxnDfn.update_universe", "yuca/ca/reaction_diffusion.py:RxnDfn.forward", "yuca/activations.py:LaplacianOfGaussian.forward"]}
{"id": "C104", "title": "Faint universes die out within a known number of steps", "statement": "On the torus, in functional mode, with a kernel of non-negative weights that sum to at most 1 (every normalised kernel): if wherever the surroundings lie between 0 and m <= 1 every growth function is at most -c, then a universe with no cell above m has after time T no cell above m - T c / channels, and is empty for ever once this is not positive. This holds for CCA (genesis and persistence), Lenia (genesis only), RandomStepCA whatever is drawn and CODE whatever steps it chooses, with any number of channels, with or without the alive mask. Lenia's growth is positive exactly where the surroundings are less than sigma sqrt(2 ln 2) from mu. With the built-in Orbium rule every universe with no cell above 0.13 is empty after 8 steps, with Geminium every universe with no cell above 0.21 after 10 steps, at every radius; and 0.13 is nearly the best: an Orbium universe that is 0.14 everywhere grows in the first step.", "quantifier": "every automaton, radius, universe, batch and torus size of the stated kind, every sequence of drawn or chosen step sizes, every number of steps", "why_tests_cant": "Runs show that some faint universes vanish; the theorem gives the number of steps for all of them and so a level every surviving pattern must exceed somewhere at all times.", "anchors": ["yuca/ca/continuous.py:CCA.forward", "yuca/lenia.py:Lenia.update_universe", "yuca/random_step_ca.py:RandomStepCA.forward", "yuca/code.py:CODE.forward", "yuca/configs.py:get_orbium_config", "yuca/configs.py:get_geminium_config"]}
{"id": "C105", "title": "Starting a search starts one mantle and its arms", "statement": "A search with -w w, w >= 2, started from a shell: the first process only launches; its command starts w processes of one communicator with the same command line, marked (IN_MPI) so that they start no others; one of them is the mantle and the others are the arms 1 to w-1; all know the number w, and the mantle sends the agents to exactly these arms, as C44 assumes. With -w 0 the one process is the mantle and evaluates alone. Exceptions, all proved: -w 1 stops in the first generation (division by zero); a negative -w evaluates nobody and fails in the selection; a left-over IN_MPI in the shell makes the process the root of a team that does not exist, and it stops (division by zero); in a communicator smaller than -w the mantle sends to a process that does not exist, in a larger one it waits for a process that was sent nothing; under mpirun -np n by hand every one of the n processes launches a whole search (w >= 2) or runs the whole search (w <= 1); and the threads of OpenMP are not limited, because the variable is misspelt.", "quantifier": "every number of workers, environment, command line, communicator size and population size", "why_tests_cant": "Needs MPI, many processes and unusual environments; a duplicate search or a stuck receive looks like a slow run.", "anchors": ["yuca/cmaes.py:CMAES.mpi_fork", "yuca/cmaes.py:CMAES.search", "yuca/cmaes.py:CMAES.mantle"]}
{"id": "C106", "title": "Gray-Scott and neural automata follow one trajectory in continuous time", "statement": "On the torus: for every Gray-Scott automaton (any kernel, parameters and dx) and every neural automaton in evaluation mode with fewer than four channels (any weights, any activation of bounded slope) there is exactly one trajectory in continuous time, the limit of ever more steps, and n steps of any positive size dt end within a stated constant times dt of it. It stays in [0,1], can be interrupted and taken up again, depends continuously on the start, and a cell strictly between 0 and 1 changes at the rate of the Gray-Scott equations, or at the rate the network gives. In continuous time a Gray-Scott pattern whose second species is nowhere above delta < f + k falls below delta exp(-(f + k - delta) T), and a CCA universe as faint as in C104 is empty from time m channels / c on.", "quantifier": "every such automaton, universe in [0,1], torus size, step size, number of steps and simulated time", "why_tests_cant": "A statement about limits and about all step sizes at once; a run shows one step size and never the equations it approximates.", "anchors": ["yuca/ca/reaction_diffusion.py:RxnDfn.update_universe", "yuca/ca/reaction_diffusion.py:RxnDfn.forward", "yuca/ca/neural.py:NCA.update_universe", "yuca/ca/common.py:CA.forward", "yuca/ca/continuous.py:CCA.forward"]}
{"id": "C107", "title": "A symmetric pattern cannot glide across its symmetry", "statement": "With kernels from get_kernel on the torus, run a CCA, Lenia, Gray-Scott or neural automaton (evaluation mode) for n steps and suppose the universe is then a moved copy of itself. If the universe looks the same after a half turn about some point, moving it twice as far leaves it unchanged and after 2n steps it is exactly where it was: it cannot be a glider. If it looks the same in a mirror along some row, over 2n steps it moves along that row only; if in a mirror along a diagonal, along that diagonal only. Both the doubling (alternating stripes can jump by one row) and the symmetry of the kernel (a lopsided kernel moves a single cell for ever) are needed.", "quantifier": "every such automaton, torus size, symmetric universe, number of steps and displacement", "why_tests_cant": "Which patterns can glide is asked of all patterns and all numbers of steps; searching for gliders only ever finds some.", "anchors": ["yuca/kernels.py:get_kernel", "yuca/ca/continuous.py:CCA.forward", "yuca/lenia.py:Lenia.forward", "yuca/ca/reaction_diffusion.py:RxnDfn.forward", "yuca/ca/neural.py:NCA.update_universe"]}
{"id": "C108", "title": "A search sees only the ranking of the fitness, and no coordinates", "statement": "Two searches of CMAES with the same random draws, whose fitness functions rank all parameter vectors alike, evaluate the same agents and keep the same elite in every generation as long as both go on, in every selection mode (truncation, tournament, lottery), given that np.argsort works by comparison. In at most seven generations they are the same search altogether: same final distribution, same vector saved, same exception; so any strictly increasing rescaling of the rewards changes nothing but the logged fitness. Adding a constant to all rewards changes nothing in a search of any length. Multiplying them by a constant can: from the eighth generation on the search stops when the standard deviation of the fitness falls below 0.02, so dividing all rewards by 100 may end it. A search is also independent of the coordinates: if starting distribution, deviates, agents and fitness function are expressed in other coordinates (an invertible affine map), so is everything the search computes, and it logs the same fitness and stops in the same generation. A pattern search starts isotropically (rotating the parameter space about the first agent leaves its starting object as it is), a universe search does not.", "quantifier": "every population size, selection mode, number of generations, draw, pair of equivalent fitness functions and invertible affine map", "why_tests_cant": "Invariance is a statement about all fitness functions and all coordinate changes; a test compares two runs.", "anchors": ["yuca/cmaes.py:CMAES.update_population", "yuca/cmaes.py:CMAES.rank_population", "yuca/cmaes.py:CMAES.mantle", "yuca/cmaes.py:CMAES.sample_distribution", "yuca/cmaes.py:CMAES.__init__"]}
{"id": "C109", "title": "In machine arithmetic every run ends in a cycle", "statement": "If the numbers of the machine are finitely many, q of them (every floating point format, whatever its rounding, infinities and NaN), every run of CCA, Lenia, NCA (evaluation mode), the base CA and RxnDfn ends in a cycle, and the cycle is closed within q^(N*C*H*W)+1 universes; for MetaCA the exponent doubles (momentum), for CODE it grows by one (step size), as long as its steps end. So whether a universe ever dies, comes back or raises an exception is settled by the first universes of the run, and whether something happens again and again by as many more. The while loop of adaptive_euler either ends within q rounds or never. A CCA that takes two different universes with cells in [0,1] to the same one has a universe with cells in [0,1] it never produces from such universes. With exact arithmetic runs need not repeat: a universe that loses half its mass in every step never does.", "quantifier": "every finite carrier with arbitrary operations, every automaton of these classes, universe size and start", "why_tests_cant": "The bound is astronomically larger than any run; the cycle itself is never seen in a test.", "anchors": ["yuca/ca/continuous.py:CCA.forward", "yuca/lenia.py:Lenia.update_universe", "yuca/ca/neural.py:NCA.update_universe", "yuca/ca/common.py:CA.forward", "yuca/ca/reaction_diffusion.py:RxnDfn.forward", "yuca/metaca.py:MetaCA.forward", "yuca/code.py:CODE.adaptive_euler"]}
{"id": "C110", "title": "Runs depend continuously on every number of the rule", "statement": "Over exact reals, on the torus and with fewer than four channels, the universe after n steps is a continuous function of the parameter vector given to set_params and of the start: for every accepted vector v, start u and tolerance there is a distance such that every vector and start within it is accepted too and ends within the tolerance. This covers growth functions of every kind, mixture kernels with their normalisation, and for CCA and Lenia also the kernel entries and the step size themselves; for RxnDfn the rates, feed, kill, grid and time steps and the kernel; for NCA (evaluation mode, continuous activation) all weights, the kernel and the step size. Vectors where a width cancels the 1e-9 added to it are left out (division by zero). Exception: with four or more channels the alive mask jumps, and a growth parameter changed by as little as you like sets two runs more than 0.8 apart after two steps.", "quantifier": "every parameter vector, rule of these classes, universe size, start and number of steps", "why_tests_cant": "Continuity is a statement about all vectors in a neighbourhood and all tolerances; a test compares two.", "anchors": ["yuca/ca/continuous.py:CCA.set_params", "yuca/ca/continuous.py:CCA.forward", "yuca/lenia.py:Lenia.set_params", "yuca/lenia.py:Lenia.update_universe", "yuca/kernels.py:get_gaussian_mixture_kernel", "yuca/activations.py:GaussianMixture", "yuca/ca/reaction_diffusion.py:RxnDfn.forward", "yuca/ca/neural.py:NCA.update_universe", "yuca/ca/common.py:CA.alive_mask"]}
{"id": "C111", "title": "Neural automata: every number has its place, and fresh networks only grow", "statement": "NCA.set_params puts the numbers of a long enough vector where the network uses them: first matrix row by row, mean and width of the first Gaussian (for that activation only), second matrix, second Gaussian, third matrix, kernel; get_params returns exactly that many numbers. The activation name stored by make_config selects the same activation again, so a reloaded automaton has the same step function; any value that is not one of the seven names becomes the Gaussian. As initialize_weight_layer leaves it (everything squared), a network never lets a cell of a universe within [0, 1] fall below its value after the alive mask, whatever was drawn, for every activation, with or without dropout and for every mixture kernel. With the default Gaussian or the sigmoid, up to three channels and one non-zero output weight per channel, every universe is all ones after a number of steps independent of the universe, its size and the dropout masks, and every cell is alive one step after the empty universe; with the other five activations the empty universe stays empty for all weights. NCA() can be constructed for exactly the radii and numbers of peaks other than 0.", "quantifier": "every vector, drawn weights, activation, channel and hidden size, padding, kernel, dropout mask sequence, universe and number of steps", "why_tests_cant": "The statement is about all weight draws and mask sequences and all later steps; a test draws a few networks and runs them for a while.", "anchors": ["yuca/ca/neural.py:NCA.__init__", "yuca/ca/neural.py:NCA.default_init", "yuca/ca/neural.py:NCA.initialize_weight_layer", "yuca/ca/neural.py:NCA.set_params", "yuca/ca/neural.py:NCA.get_params", "yuca/ca/neural.py:NCA.make_config", "yuca/ca/neural.py:NCA.load_config", "yuca/ca/neural.py:NCA.update_universe"]}
{"id": "C112", "title": "Gradient switches and registered parameters do what the calls say", "statement": "No sequence of no_grad, to_device, set_params, Lenia.set_params, set_kernel_radius and load_config on a CCA object, in whatever state, ever writes in place to a parameter that requires gradients (which would raise RuntimeError); from the first of these calls on nothing the object holds requires gradients, and CCA has no call that brings them back. CCA(use_grad=True) without a config gives an object whose growth-function parameters and weights require gradients and whose two convolutions do not; without use_grad nothing does. The names gen_fn_i_j and per_fn_i_j of the module always refer to the parameters of the functions in use. Exceptions, proved as such: with a config, use_grad=True has no effect; loading a config leaves the names of discarded functions registered, referring to parameters no function uses. NCA(use_grad=True) makes a network none of whose weights requires gradients until yes_grad; yes_grad switches on all of them, no_grad, to_device and set_params all of them off, and a clone's weights all require gradients when training starts. The rates a RxnDfn computes with never require gradients; its registered parameters are copies that keep the old values after set_params (exception) until the next load_config.", "quantifier": "every object state, assignment of flags and identities, number of functions and of parameters per function, config and sequence of calls", "why_tests_cant": "Which parameters require gradients depends on the whole history of the object; a test looks at one history and would not notice stale names or copies, since the forward pass does not use them.", "anchors": ["yuca/ca/continuous.py:CCA.__init__", "yuca/ca/continuous.py:CCA.load_config", "yuca/ca/continuous.py:CCA.include_parameters", "yuca/ca/continuous.py:CCA.to_device", "yuca/ca/continuous.py:CCA.set_params", "yuca/ca/continuous.py:CCA.no_grad", "yuca/ca/continuous.py:CCA.initialize_weight_layer", "yuca/ca/common.py:CA.set_kernel_radius", "yuca/lenia.py:Lenia.set_params", "yuca/ca/neural.py:NCA.no_grad", "yuca/ca/neural.py:NCA.yes_grad", "yuca/ca/neural.py:NCA.set_params", "yuca/ca/reaction_diffusion.py:RxnDfn.include_parameters", "yuca/ca/reaction_diffusion.py:RxnDfn.set_params"]}
{"id": "C113", "title": "Different parameters, same automaton", "statement": "Over exact reals and with any padding: in functional mode internal channels beyond one per external channel only average growth functions - the automaton with the averaged functions and as many internal as external channels steps every universe alike as CCA, RandomStepCA, CODE and MetaCA (or raises the same error), so the order of the functions within a block is irrelevant. The (amplitude, mean, width) triples of a mixture kernel or growth function have no order; a width and its mirror image at -1e-9 give the same bell. Only the product of dt and the last weights counts; the two matrices of the non-functional weight layer trade positive factors; in a MetaCA without momentum only dt * ddt counts. Life and death are treated alike: with linear weights, up to three channels and padding other than zeros, the universe 1 - u is stepped for ever by the automaton with genesis -persistence(s - x) and persistence -genesis(s - x) (s the sum of the kernel) as u is by the original.", "quantifier": "every number of channels, kernel, padding, growth function, permutation, scale, universe and number of steps", "why_tests_cant": "Equality of two step functions on all universes cannot be tested; a test compares a few universes and floating point hides exact equality.", "anchors": ["yuca/ca/continuous.py:CCA.update_universe", "yuca/ca/continuous.py:CCA.initialize_weight_layer", "yuca/ca/continuous.py:CCA.genesis", "yuca/ca/continuous.py:CCA.persistence", "yuca/ca/continuous.py:CCA.forward", "yuca/metaca.py:MetaCA.forward", "yuca/random_step_ca.py:RandomStepCA.get_new_grid", "yuca/code.py:CODE.get_new_grid", "yuca/activations.py:GaussianMixture.forward", "yuca/kernels.py:get_gaussian_mixture_kernel"]}
{"id": "C114", "title": "Walls: padding modes other than the torus", "statement": "conv_mode can be zeros, reflect or replicate. Over exact reals a step is the rule of the torus with neighbourhoods reaching into the extended board: zeros beyond the edges, the board mirrored at its border cells again and again, or the border cells continued; each extension is fixed by its defining equations and the padding is accepted exactly when it is no larger than the side (circular) or smaller than it (reflect). With a kernel that has the symmetries of the square, transposing and flipping commute with runs for every mode. A run between reflecting walls is the run on a torus of sides 2(H-1) and 2(W-1) of the board with its mirror images, for every number of steps, for CCA, Lenia, Gray-Scott and neural automata. In any arithmetic, after n steps cells at least n kernel radii from the edges do not depend on the mode, and a universe constant in space runs between reflecting or replicating walls exactly as on the torus. It does not with zeros, and with none of the three does a run commute with shifts (refuted by witnesses).", "quantifier": "every mode, kernel, number of channels, board size that fits, universe and number of steps", "why_tests_cant": "The modes differ only near the edges and after enough steps everywhere; a test on sample boards cannot show that mirrored runs agree for ever or how far a wall is felt.", "anchors": ["yuca/ca/common.py:CA.__init__", "yuca/ca/continuous.py:CCA.initialize_neighborhood_layer", "yuca/ca/continuous.py:CCA.initialize_id_layer", "yuca/ca/continuous.py:CCA.forward", "yuca/lenia.py:Lenia.forward", "yuca/ca/reaction_diffusion.py:RxnDfn.forward", "yuca/ca/neural.py:NCA.forward"]}
{"id": "C115", "title": "What the entries of a config mean", "statement": "For every config dictionary of a growth function: which real function the built activation computes, in closed form, with all defaults (Gaussian at 0 of width 0.1; DoGaussian with dx 0.01, where mode doubles only the second bell; GaussianMixture one bell at 0.5 of width 0.15; Polynomial (1 + x + x^2)/10; SmoothIntervals from 0.185 to 0.375 with slope 0.0125); how mixture parameters are grouped (triples if their number is divisible by three, else pairs, else IndexError); DoubleGaussian needs tensors, a one-element one counting twice, and refuses its own defaults; unknown names raise KeyError. For kernels: entries may come in any order and unknown entries are ignored, a one-element tensor stands for its number, InnerMoore and MooreLike read no arguments, the others need them. The order does matter for kernel_params (refuted by a witness).", "quantifier": "every config dictionary of the modelled shape and every input value", "why_tests_cant": "The defaults of nine growth functions and seven kernels are only met when an entry is missing; tests give all entries.", "anchors": ["yuca/activations.py:Gaussian", "yuca/activations.py:DoGaussian", "yuca/activations.py:DoubleGaussian", "yuca/activations.py:GaussianMixture", "yuca/activations.py:Polynomial", "yuca/activations.py:SmoothIntervals", "yuca/kernels.py:get_kernel", "yuca/ca/continuous.py:CCA.add_genesis_fn", "yuca/ca/common.py:CA.update_kernel_params"]}
{"id": "C116", "title": "What the demonstrations do", "statement": "The loops `while ca.t_count <= 10` of the scripts end over exact reals, whatever step sizes are drawn or chosen: RandomStepCA after 41 to 201 calls at a simulated time in (10, 10.25] (both bounds are reached), CODE after 21 to 1001 calls at a time in (10, 10.5]; each of its steps is between 0.01 and 0.5, and unless it is 0.01 the full step and two half steps agree to one part in a thousand wherever the half steps leave something alive. In general such a loop makes the first number of calls after which the clock is past the limit. The Lenia demonstration starts from cells in [0,1] with the Orbium upper left, the random cells upper right and nothing else; the stored pattern tables are rectangular with values in [0,1], and the Orbium has 400 numbers. Exception: the MetaCA demonstration never makes a step, as forward has no parameter dgrid (TypeError); every keyword but mode is a TypeError, and with at most that one the step is made but unpacking the result raises ValueError for every batch that is not of size two (refuted).", "quantifier": "every automaton whose kernels fit the grid, every grid, every sequence of draws in [0,1)", "why_tests_cant": "A run of a script shows one sequence of random draws; the demonstrations are excluded from coverage.", "anchors": ["yuca/random_step_ca.py:RandomStepCA.forward", "yuca/code.py:CODE.forward", "yuca/metaca.py:MetaCA.forward", "yuca/lenia.py:Lenia", "yuca/patterns.py:get_orbium", "yuca/patterns.py:get_geminium", "yuca/patterns.py:get_pacman", "yuca/patterns.py:get_smooth_puffer"]}
{"id": "C117", "title": "Which universes stand still", "statement": "With a positive step size one step of CCA, Lenia, NCA or RxnDfn leaves a universe with values in [0,1] unchanged exactly when every cell is at rest: its rate of change is 0, or it is 0 with a rate of at most 0, or 1 with a rate of at least 0. Hence which universes stand still does not depend on the step size, and a universe that stands still under one step size stands still forever under every other, including the random ones of RandomStepCA, the chosen ones of CODE (whose step then doubles up to its maximum) and MetaCA. They are exactly the constant exact trajectories. Every plain automaton has a homogeneous universe that stands still, and under small steps every homogeneous universe moves monotonically towards one. Exception: with four channels the alive mask makes standing still depend on the step size (refuted).", "quantifier": "every automaton, every universe whose kernels fit and whose alive mask hides nothing (automatic below four channels), every positive step size, every number of steps", "why_tests_cant": "Standing still forever and for every step size is about infinitely many runs; over floats a test cannot tell standing still from moving slowly.", "anchors": ["yuca/ca/continuous.py:CCA.forward", "yuca/lenia.py:Lenia.update_universe", "yuca/ca/neural.py:NCA.update_universe", "yuca/ca/reaction_diffusion.py:RxnDfn.forward", "yuca/random_step_ca.py:RandomStepCA.forward", "yuca/code.py:CODE.adaptive_euler", "yuca/metaca.py:MetaCA.forward", "yuca/ca/common.py:CA.alive_mask"]}
{"id": "C118", "title": "What the shell commands do to the files", "statement": "With a frames folder named by letters, digits, dots, underscores, dashes and slashes (not beginning with a dash), save_fig_sequence, whatever it raises, changes nothing outside that folder but the gif, its folder and missing directories on the way; if the frames folder did not exist, the gif shows the trajectory and no frame stays behind, so consecutive gifs do not mix. make_gif removes exactly the files of the folder whose names end in png and do not begin with a dot. The commit command of test_commit has the intended words whenever summary and message contain no apostrophe, and commits the last line of the report with TOTAL; without such a line it raises after appending to the report. The gif is called gif_, the tag, and the millisecond in four digits; a folder or a file that is no picture with png in its name makes make_gif raise before it writes or removes anything. Exceptions (refuted): an existing frames folder is deleted with everything in it; with a blank in its name a missing frames folder is not made and the run raises, and an existing one stays, with its frames, while the two paths on both sides of the blank are deleted; gifs of one tag have only a thousand names and overwrite each other; with an odd number of apostrophes in the message nothing is committed, and an even number turns its words into options.", "quantifier": "every automaton, every file system, every path and message of the stated kinds", "why_tests_cant": "What is deleted depends on the files around and on the name of the folder; tests run in one clean folder with the default name.", "anchors": ["yuca/utils.py:save_fig_sequence", "yuca/utils.py:make_gif", "test_commit.py:test_commit"]}
{"id": "C119", "title": "What the options of a search reach", "statement": "The automaton of a search started with evolve.py is determined as follows. Its step size is that of the config file it reads, else 0.1 (0.5 for RxnDfn): the option --dt is read by nothing, and with the default --dt 0.3 the step is 0.1 (refuted). The step settings of MetaCA, CODE and RandomStepCA are fixed by the class. A config with instant_kwargs replaces --kernel_radius, --kernel_peaks, --conv_mode and both channel options; one without them, or no config, keeps the channels, padding and peaks of the options. If a config is found, GliderWrapper and HaltingWrapper ignore what --input_filepath did to the automaton, while SimpleHaltingWrapper and RandomWrapper use exactly the parameters of the log over the config. Without a config a long enough elite of the log becomes the rule of the universe, in a search for patterns too, where it is the weights of a network. A saved automaton that was built with a log can be restored only where the log exists, though it changes nothing. RxnDfn reads no kernel, channel, padding or network option, non-neural classes no network option, and --prediction_mode reaches only HaltingWrapper and file names. A search for patterns in an automaton whose config has another number of channels than the options raises ValueError in the first generation, and no other combination that can be set up does, so none with RxnDfn; the networks of such a search have four linear layers with bias of widths 16 per channel, hidden, hidden, hidden, channels, each with a Gaussian. An NCA whose config is not found has no layers: the search stops with AttributeError unless it is for patterns. A config is looked for under its name without newlines and then in ca_configs/; the parameters of a log are the first of the last elite. A search for universes of Lenia is over the numbers of genesis only, not of the kernel; an NCA without a config has the radius, peaks, padding, channels, hidden channels and activation of the options.", "quantifier": "every set of options, every content of the config and log files, every random draw, every number of nested configs", "why_tests_cant": "25 options, 7 classes, 4 wrappers and the contents of two files interact; a test runs one combination, and an option that is ignored fails no test.", "anchors": ["yuca/evolve.py:main", "yuca/ca/continuous.py:CCA.__init__", "yuca/ca/continuous.py:restore_config", "yuca/ca/neural.py:NCA.__init__", "yuca/wrappers/glider_wrapper.py:GliderWrapper.__init__", "yuca/wrappers/halting_wrapper.py:HaltingWrapper.__init__", "yuca/cmaes.py:CMAES.__init__"]}
{"id": "C120", "title": "The spaceships of the pattern library fly", "statement": "The five 0/1 patterns stored in yuca/zoo for ca_configs/conway_life.npy are spaceships of the continuous automaton that file describes. On every torus with three rows and one column to spare, wherever they are put, for every batch and for ever: 25P3H1V0 moves one row up every 3 steps; the small, medium and large spaceships two columns to the right every 4; the reflex glider one row up and one column right every 4. At all times the universe is within 1e-6 of the generation of Conway's Life, and the number of cells above one half is 25 for 25P3H1V0, 5 for the reflex glider, and 12/9, 15/11 and 18/13 in turn for the others. After whole turns around the universe they are back where they started. conway_life.npy and morley.npy load into every CCA with default arguments and give exactly B3/S23 and B368/S245. The browser page shows four of them and flies them; 25P3H1V0, stored without the leading axes, raises IndexError there.", "quantifier": "every side with room, every position, every batch size, every number of steps, every CCA object with default arguments", "why_tests_cant": "A test runs a few steps at one place in one universe; that the error never accumulates and that no position or size breaks the flight needs a proof.", "anchors": ["yuca/ca/continuous.py:CCA.forward", "yuca/ca/continuous.py:load_config", "yuca/zoo/librarian.py:load", "gecco_bokeh_app/main.py:update"]}
{"id": "C121", "title": "What the stored configs are and which automata load them", "statement": "Of the 57 files in ca_configs/, 45 are rules for CCA, 11 are networks for NCA and one is for RxnDfn. (a) The rules load into every CCA and raise KeyError in every NCA and RxnDfn. The 42 of the Lenia family step by the Glaberish formula with the rings, growth bells and step size of the file; 23 of them step alike as Lenia, the other 19 lose their persistence function there without an error; each empties within four steps, for ever, every universe with no cell above the level two widths below the smaller of its means. orbium, geminium, geminium2, smoothlife, conway_life and morley load exactly like the configs the code builds. (b) The networks raise KeyError in every CCA; a file with instant_kwargs makes a new object and leaves nothing of the old one. Those with instant_kwargs load into every NCA, make one with the radius, channels and activation of the file, and give back every number of the file, the kernel and the step size. The five nca_clone_tanh_* files have none: they load into an NCA with n numbers of its own exactly if n is at most 66317 and the rest can be a kernel, and only n of 66308 or more gives back the file; the NCA of the command line defaults loads them silently with 4301 of their 66317 numbers (refutes that the file is restored). Every RxnDfn accepts every network silently and takes its first four weights for diffusion, feed and kill rates (refutes that a wrong config is rejected). (c) The uskate file loads into every RxnDfn, equals a new one up to 2e-9, and raises in every CCA and NCA. (d) Every pattern of the zoo names one of the files; 36 need CCA, 7 NCA, 6 RxnDfn, and no one class loads all; the networks it names all have instant_kwargs.", "quantifier": "every stored file, every automaton object of each class, all weights, all draws, every universe size and number of steps", "why_tests_cant": "The set of objects a file may be loaded into, and the weights, are unbounded; the silent acceptances raise nothing for a test to see.", "anchors": ["yuca/ca/continuous.py:load_config", "yuca/ca/neural.py:load_config", "yuca/ca/reaction_diffusion.py:load_config", "yuca/zoo/librarian.py:load"]}
{"id": "C122", "title": "What the project's own tests establish", "statement": "With every random draw of the sizes torch makes, the tests of the automata, kernels, activations and stored configs pass in exact arithmetic; some of them pass for wrong programs too. (a) CCA: test_configs compares nothing, since the dictionaries have no params: it passes with every restore_config that raises nothing, even one that does nothing, and it passes although a restored growth function is always a GaussianMixture and so differs from a DoGaussian that was drawn (refutes that the test shows saving and restoring to be inverse). test_forward passes for every step that is right with 1 and 4 internal channels; the automata with 8 and 16 are built and never stepped. test_alive_mask passes for every step that raises nothing. test_get_frame, test_id_conv, test_set_params, test_set_kernel_radius and test_kernel_configs pass; test_kernel_params passes for two stored rules exactly if they have different numbers of kernel parameters; for an automaton without kernel parameters it and test_kernel_params_config raise TypeError. (b) NCA: test_configs passes with every restore_config that restores the parameters, whatever else it drops, exactly if the two networks drawn differ in the square of some weight; it fails with a restore_config that does nothing. (c) RxnDfn: test_configs passes exactly if the parameters drawn are not the default ones; the equilibrium test passes; test_update_universe passes for every update function, since it compares the step with the formula of the step. (d) Stored configs: test_configs loads 34 of the 57 files and passes; it passes with any further files for CCA, whatever their numbers. The 17 rules it leaves out would pass; the five nca_clone_tanh_* files and the one for RxnDfn would fail. (e) test_get_kernel, test_laplacian, test_gaussian, test_dogaussian, test_mixtures and test_log pass; TestGenericKernel passes for kernels of any positive side, its expected side being given as the message.", "quantifier": "all random draws of the right sizes, all functions put in place of the ones tested, all sets of stored files", "why_tests_cant": "A test runs on one set of draws and one program; which wrong programs it lets through is a statement about all programs.", "anchors": ["testing/yuca/ca/test_continuous.py:TestCCA", "testing/yuca/ca/test_neural.py:TestNCA", "testing/yuca/ca/test_reaction_diffusion.py:TestRxnDfn", "testing/yuca/test_configs.py:TestConfigs", "testing/yuca/test_kernels.py:TestGetKernel", "testing/yuca/test_activations.py:TestGaussian"]}
{"id": "C123", "title": "What the entropy maps measure", "statement": "In exact arithmetic: (a) the map of Phanes.get_spatial_entropy for a float grid has the size of the grid; every entry is, up to 256e-9/ln 2 bits from below, the Shannon entropy of the cells of the torus within r rows and columns, quantised to levels between their least and greatest value; window sizes 2r+1 and 2r+2 give the same map. (b) Every entry is at least -log2(1+1e-9), less than log2((2r+1)^2) and less than log2(255), since the top level is never reached; it has the least value exactly where the window's values differ by less than 1e-9/254. (c) Translated, mirrored and transposed grids have translated, mirrored and transposed maps; a constant added to the grid changes nothing; an entry depends on its window only. (d) With four axes each channel of each sample has its own map; with any number of axes other than two and four the method raises UnboundLocalError. (e) The entropy columns of analyze_universe are the mean and standard deviation of all entries of these maps with windows of the size of the kernel, one row per step, for the universe after that step; they do not change when the universe is moved around the torus; the mean obeys the bounds of (b); flat universes, such as the empty one, have mean -log2(1+1e-9), a negative number, and deviation 0; the deviation is 0 only if all entries are equal. (f) Exceptions: the map of an integer grid holds whole numbers of bits, rounded down, so the map of an integer grid with two values is 0 everywhere; multiplying a grid by a small number can make the map of Phanes flat. (g) The function get_spatial_entropy of the module uses windows cut off at the borders, from x-r to x+r-1, so its map does not move with the grid; for windows of size 1 and 2 it raises ValueError on every non-empty grid; its entries are least exactly where the window is flat and do not change when the grid is multiplied by a positive number.", "quantifier": "every grid and every window size of at least 1, every universe, every run of the analysis", "why_tests_cant": "Bounds, symmetries and the exact set of flat windows hold for all grids.", "anchors": ["yuca/analyze.py:get_spatial_entropy", "yuca/analyze.py:Phanes.get_spatial_entropy", "yuca/analyze.py:Phanes.analyze_universe"]}
{"id": "C124", "title": "What the log of a search and its plots show", "statement": "A user reads the curves of a log file as the fitness in the generations of the seed in its name. (a) The four numbers logged for a generation are the mean, greatest, least and standard deviation of the fitness of its agents, all NaN if one of them is; the mean lies between the other two lines and the square of the deviation is at most the product of its distances to them, so that the band leaves the space between the lines on at most one side; it does leave it for some generations; the band has no width exactly if all agents are equally fit. (b) After a search with one seed the file holds exactly the generations of that seed, in order; a generation that raises leaves the file of the generations before it; without a directory ./logs no search with a seed completes. (c) Exception: with several seeds the log is not started anew. The file of a seed holds the generations of all seeds up to it, so its curves begin with those of the earlier files and generation g of the seed is drawn at g plus the number of generations of all earlier seeds; a seed given twice has one file. (d) plot_exp makes one figure for each pair of growth functions of each config of the last logged elite, in order, and then the figure of the fitness, whose three lines all have the label mean fitness; a config that cannot be loaded ends it without a figure of the fitness; without a path it raises TypeError, without the file AssertionError, without the argument show KeyError after the figures. (e) After a search with one seed that was not stopped early the first config plotted is that of a fittest agent of the last generation and the line of the greatest fitness ends at its fitness. (f) A config whose growth functions survive saving is plotted as these functions; with Gaussian growth the plot shows the function the config was first written with instead of that of the agent.", "quantifier": "every search (population, parameters, fitness including NaN, selection, seeds, early stop), every log, every config", "why_tests_cant": "Several seeds in one run, failing generations and all populations are quantified over; the project has no test of the logs or of plot_exp.", "anchors": ["yuca/cmaes.py:CMAES.mantle", "yuca/plot.py:plot_exp"]}
{"id": "C125", "title": "What the tests of masks, seeds, patterns, networks and tasks establish", "statement": "The tests of utilities, patterns, CPPN networks, tasks and cloning are true of more programs than the one they test, and three of them depend on the numbers drawn. (a) Masks: test_mask_sum passes exactly if each image has a pixel between 0 and 1/2, test_mask_center exactly if the middle pixel of each image is darker than 1/2, so random images can make it fail; a mask that is 0 everywhere passes all tests of get_mask. The tests of get_bite_mask pass for all images darker than 3/4 on average, exactly if the pixels add up to less than the number of points outside the bite, and for a mask that bites nothing off with every drawn image. test_aperture_full, _shape and _center pass for all draws, test_aperture_sum exactly if some pixel outside the aperture is not black; an aperture of one pixel passes all four. The tests of the shapes of masks, bites and apertures pass exactly for functions that return an array of the image's shape; one of another size (no side of length 1) makes the tests of the sums raise ValueError. The loops over images try the seeds 1234, 2345 and 3456. The tests of prep_input pass. (b) query_kwargs returns the value of the key or the default; its test passes exactly if no drawn number equals its default, so it fails if a 0 is drawn with the default 0. The tests of seed_all pass for every generator and every way of making a state from a seed, also one that ignores it; the tests of a hundred numbers compare sums only; a seed_all that leaves numpy or torch alone is noticed with a generator that never repeats, and one that does nothing for a single seed exactly if that seed is 13, 1337, 42, 12345 or 100000. (c) The tests of glider and puffer pass, and for every 8 by 8 array with the same sum: a row of five cells passes as the glider. (d) test_get_action passes exactly if the pattern of the random input has another sum than that of the network, so it fails for a network with constant output. The test of GliderWrapper passes for every automaton that raises nothing, exactly if there is at least one step. (e) test_clone_from_ca passes whatever the training errors are, since all its networks have the largest width; with narrower ones it passes exactly if the best network has the largest width, with one iteration never. (f) test_save_fig_sequence, in a directory without a folder temp, passes exactly if at least one frame is made; the pictures are not looked at.", "quantifier": "all images, draws, generators, patterns, networks, automata and file systems; all functions put in place of the ones tested", "why_tests_cant": "Whether a test passes for all draws, and which wrong programs pass it, are statements about all draws and programs.", "anchors": ["testing/yuca/test_utils.py", "testing/yuca/test_patterns.py", "testing/yuca/test_cppn.py", "testing/yuca/test_clone.py", "testing/yuca/wrappers/test_glider_wrapper.py", "yuca/utils.py:query_kwargs"]}
{"id": "C126", "title": "Which homogeneous Gray-Scott universes stand still, and which of them attract", "statement": "On the torus, with a kernel of sum zero, a homogeneous universe stays homogeneous. With f > 0 and k >= 0 it stands still at exactly one level, u = 1 and v = 0, if 4(f+k)^2 > f, and otherwise at two more, which are the same exactly if 4(f+k)^2 = f; clamping adds none. Both are given by formulas; what initialize_grid fills in is the one with more v. One has v^2 <= f and the other v^2 >= f. For every step size dt up to 2: the level with v^2 < f is unstable (homogeneous universes as near as you like leave it); the level with v^2 > f attracts the homogeneous universes nearby, geometrically, if dt(f+k)(v^2-f) < v^2-k, and expels all of them if dt(f+k)(v^2-f) > v^2-k. With the default parameters there are three levels, the initial universe attracts the homogeneous universes nearby and the third level is unstable. Exception: being a rest point does not make the initial universe a stable one; with f = 0.005 and k = 0.03 it expels all homogeneous universes nearby.", "quantifier": "all parameters, step sizes up to 2, grid sizes, kernels of sum zero, homogeneous universes, numbers of steps", "why_tests_cant": "Rest points are solutions of equations over the reals and attraction is a statement about infinitely many steps from infinitely many starts.", "anchors": ["yuca/ca/reaction_diffusion.py:RxnDfn.initialize_grid", "yuca/ca/reaction_diffusion.py:RxnDfn.update_universe", "yuca/ca/reaction_diffusion.py:RxnDfn.forward"]}
{"id": "C127", "title": "Which homogeneous levels of CCA and Lenia are stable against every pattern", "statement": "On the torus and with one channel, let x between 0 and 1 be a level at which the automaton stands still, and let the kernel be balanced (the same after a half turn, as all kernels made from a distance are). A kernel multiplies the wave with p crests down and q crests across by its gain, a sum of cosines, and these gains are all the factors by which it multiplies any grid. If the rate has slope a in the cell and b in its surroundings at the level, then: if |1 + dt(a + b gain)| < 1 for all waves with p < H and q < W, every universe near the level comes back to it geometrically, whatever its pattern; if it is above 1 for some wave, there are universes as near as you like that leave a fixed neighbourhood. For CCA a is persistence minus genesis and b is (1-x) times the slope of genesis plus x times that of persistence; for Lenia a is 0 and b the slope of genesis. If a Lenia's kernel weighs any cell more than its own centre, every such level with a slope is unstable, whatever the step size. Orbium, at every radius from 2 on and every grid that holds the kernel, stands still at exactly three levels, 0 and the two edges of its window of growth, and the two edges are unstable under forward and under leniaForward. Not every level is: a Lenia whose kernel weighs its centre most has a level that attracts all patterns nearby on grids of every size.", "quantifier": "all one-channel automata in functional mode on the torus, grid sizes, step sizes, batch sizes, universes near a level, numbers of steps", "why_tests_cant": "The claim is about all patterns in a neighbourhood and infinitely many steps; a test follows one pattern for a while, and a wave that grows slowly looks stable.", "anchors": ["yuca/ca/continuous.py:CCA.forward", "yuca/ca/continuous.py:CCA.update_universe", "yuca/lenia.py:Lenia.update_universe", "yuca/kernels.py:get_kernel"]}
{"id": "C128", "title": "Which rest points of Gray-Scott automata are stable against every pattern", "statement": "On the torus with a balanced kernel whose entries sum to zero, let (a, b) with b > 0 be a rest point of the reaction. A step acts to first order on the wave with p crests down and q crests across by a two by two matrix, with trace T = 2 + dt((Du + Dv)g/dx^2 + k - b^2) and determinant D = T - 1 + dt^2((Du g/dx^2 - b^2 - f)(Dv g/dx^2 + f + k) + 2(f + k)b^2), where g is the gain of the wave. If |T| < 1 + D and D < 1 for all waves with p < H and q < W, every universe near the homogeneous universe (a, b) comes back to it geometrically, whatever its pattern. If 1 + D < |T| or 1 < D for some wave, there are universes as near as you like that leave a fixed neighbourhood. With the default parameters the universe initialize_grid makes attracts all patterns nearby, on grids of every size. Attracting the homogeneous universes nearby is not enough: with kill rate 0.0622 instead of 0.0609 the background attracts them all, but on every grid whose width is a multiple of 16 it is unstable, since stripes of 16 cells grow. It is the difference of the diffusion rates that does it: if both species diffuse equally fast, at rate D, the kernel takes from a cell the share m that it gives to others, and dt(2 D m/dx^2 + b^2 - k) <= 2, then a rest point with b^2 > f and dt(f+k)(b^2-f) < b^2-k attracts every pattern nearby; in particular the background just named does with any common rate up to 3e-5, on grids of every size.", "quantifier": "all Gray-Scott automata on the torus with balanced kernels, grid sizes, step sizes, batch sizes, universes near a rest point, numbers of steps", "why_tests_cant": "The claim is about all patterns in a neighbourhood and infinitely many steps; which waves grow depends on the size of the grid, and they grow slowly.", "anchors": ["yuca/ca/reaction_diffusion.py:RxnDfn.forward", "yuca/ca/reaction_diffusion.py:RxnDfn.update_universe", "yuca/ca/reaction_diffusion.py:RxnDfn.initialize_grid", "yuca/activations.py:LaplacianOfGaussian.forward"]}
{"id": "C129", "title": "What a whole run of clone_from_ca trains on and leaves behind", "statement": "The configs are gone through in order; the run ends without an exception if and only if every config can be restored, and otherwise with the exception of the first that cannot, after saving those before it; a config that is found but whose kernel cannot be made is such a one. For every config all max_iterations iterations are made, whether or not the threshold is met, with hidden channels that start at hidden_channels and grow by a quarter up to max_hidden_channels; an iteration ends after the first error below the threshold or after max_steps steps. The network of the first iteration with the least error is saved, as it is after the last step of that iteration. If no error is a number (nan or inf throughout, or no steps), the file gets the network of the config before, or None for the first. A file holds what the last config saved to it left; without the placeholder ca_config in the name that is the last config, whatever came before. The command line passes its options on, and without options differs from the function without arguments in device, threshold, iterations, steps and config. Called without arguments the function finds no config named orbium, raises nothing and imitates the random automaton CCA() makes.", "quantifier": "all options, numbers of configs, outcomes of restoring, sequences of errors including nan, weights", "why_tests_cant": "Runs with nan errors, failing configs and several configs at once are not tested, and each takes minutes of training.", "anchors": ["yuca/clone.py:clone_from_ca", "yuca/ca/continuous.py:CCA.restore_config"]}
{"id": "C130", "title": "A computed run stays near the exact run, with a bound", "statement": "On the torus with fewer than four channels, growth functions with values in [-1, 1] and slope at most L, a kernel whose weights sum to at most 1 in absolute value, and a step size in [0, 1]: in an arithmetic that is off by at most eta per operation (sums, differences, products and inner products of numbers up to 4), with a kernel, weights, step size and growth functions that are off by at most theta, a computed run of a CCA or a Lenia never raises, never leaves the numbers in [0, 1], and after n steps is within q^n e + s (1 + q + ... + q^(n-1)) of the exact run from a start that is e away. For a CCA q = 1 + dt (2 + L) / ext and s = 2 (eta + theta) + dt ((10 + L) eta + (3 + L) theta); for a Lenia q = 1 + dt L / ext and s = 2 (eta + theta) + dt ((1 + L) eta + (3 + L) theta). A RandomStepCA that draws its step sizes between mn and mx, 0 <= mn <= mx <= 1, stays as near to the exact run with the same draws (numbers in [0, 1]) as a CCA with dt = mx, if both ends are correct to tau and 3 (eta + tau) <= theta. Hence a run of any fixed length can be computed to any accuracy by computing more precisely. Double precision is such an arithmetic, with eta = (l + 1) 2^-49 for inner products of up to l terms, and every such automaton has a double precision version correct to theta = 2^-50. The bound grows exponentially in n and says nothing about long runs of steep automata.", "quantifier": "all such automata, arithmetics, universes, torus sizes and numbers of steps", "why_tests_cant": "The exact run cannot be computed, so a test can only compare two inexact runs.", "anchors": ["yuca/ca/continuous.py:CCA.forward", "yuca/ca/continuous.py:CCA.update_universe", "yuca/lenia.py:Lenia.update_universe", "yuca/random_step_ca.py:RandomStepCA.forward"]}
{"id": "C131", "title": "What the conditional entropies of a grid measure", "statement": "In exact arithmetic, for a grid of H x W cells: get_conditional_grid_entropy in direction 0, 1, 2, 3 looks at the neighbour above, to the right, below, to the left on the torus, and returns -sum over levels s, u of t(s,u)/(65026 HW) log2(1e-9 + t(s,u)/(255 HW - 254 n(u))), where t(s,u) = HW - n(s) - n(u) + 2 c(s,u), n counts the cells of a level (out of 256 between the least and the greatest value of the grid) and c the cells of level s whose neighbour has level u. The value is between 7.98 and 8 bits; opposite directions differ by at most 256e-9/ln 2; moving the grid on the torus or replacing every value v by a v + b with a > 0 changes nothing; mirroring and transposing exchange the directions accordingly. get_multiconditional_grid_entropy is the mean of the four, lies in the same range, does not change when the grid is moved, mirrored or transposed, and is within 128e-9/ln 2 of the mean of top and right alone. All flat grids have one and the same value. An empty grid raises ValueError, a direction outside 0 to 3 UnboundLocalError. Exception: the values do not order grids by disorder: a staircase of four levels, where each cell is determined by its neighbour (0 bits), gets a greater value than a row of two levels where it takes 1 bit.", "quantifier": "every rectangular grid of numbers and every direction", "why_tests_cant": "The value is the same to two digits for all grids, so tests on examples cannot tell which of its properties hold.", "anchors": ["yuca/analyze.py:get_conditional_grid_entropy", "yuca/analyze.py:get_multiconditional_grid_entropy", "yuca/analyze.py:np_shift"]}
{"id": "C132", "title": "What the step-size notebook shows", "statement": "For consequential_step_size.ipynb, in exact arithmetic. get_center_of_mass of a grid of non-negative cells is the mass-weighted average column and row whenever the live cells keep out of the left or the right margin and out of the top or the bottom margin; it then moves exactly as the pattern moves; in general it is the centre of what is left after the strip opposite to the heaviest strip is taken away, it lies in the grid, and with margins that do not overlap it is missing exactly for the dead grid. A pattern is placed in the middle of a grid of at least 128 rows and columns and twice its size, cell for cell, exactly when its axes before the last two have length 1. The three-step-size animation leaves each grid where its own run at dt, dt/3 and min(3dt, 1) leads and restores dt; its one clock counts all three. A loop up to a time makes the least number of steps that reach it and overshoots by less than a step; several automata run to the time of the first stay within one step of each other in every frame; the recorded track has one entry per step up to the first dead grid. A frame of the adaptive animation always ends and moves the clock on by at least 0.1 and less than 0.1 + max_dt, if the answers fulfil min_dt <= max_dt and min_dt <= 2 step_size, and raises otherwise. Exceptions: across the border part of the pattern is left out, so the recorded centre is wrong there, and at a corner it is averaged over both ends of one axis; a pattern number of at least the number of patterns raises IndexError instead of being cut to the last; the six two-channel patterns raise; the title of the fast grid is wrong for dt > 1/3; min_dt = 0.5 with the other answers left empty raises; a step size of zero or less never ends.", "quantifier": "every grid, margin, pattern, answer to the prompts, automaton, number of frames", "why_tests_cant": "The notebook is run by hand for a few patterns; the clocks, the tracks and the prompts are never tested.", "anchors": ["notebooks/consequential_step_size.ipynb:get_center_of_mass", "notebooks/consequential_step_size.ipynb:update_fig", "notebooks/consequential_step_size.ipynb:update_single", "notebooks/consequential_step_size.ipynb:update", "yuca/code.py:CODE"]}
{"id": "C133", "title": "Which Life-like rules Lenia can run", "statement": "In exact arithmetic. In a Lenia with one external channel and a kernel without weight on the cell itself (any radius, number of internal channels, growth functions, weight layer and step size), a cell that is turned up is never lower in the next state. Hence no such Lenia runs a Life-like rule with a count in B that is not in S, such as Morley (B368/S245): some 0/1 grid has a cell whose next value is at least 1/2 off. With the Moore kernel and dt = 1, some growth function makes Lenia run a rule exactly if and only if B is contained in S, and then it does for ever. With a weight of 9/8 on the cell itself one SmoothIntervals growth function runs any Life-like rule for ever within 1e-6. In glaberish_animations.ipynb, for any rule lists: the cell that tries Lenia with the sum of the two growth functions runs the rule born on the counts of B and S and surviving on the counts of B or S (within 4e-7 per frame, for 2500 frames), so the rule itself exactly if B is contained in S; for Morley nothing is ever born, and the pattern it starts from stands still in all frames, although Morley changes it. The Glaberish cell runs every Life-like rule for ever: dead cells are exactly 0 and live cells within 1e-7 of 1.", "quantifier": "every rule, torus size, 0/1 grid, number of steps; every growth function, weight layer and step size", "why_tests_cant": "That no growth function at all works is not a statement about any run; the notebook shows one pattern.", "anchors": ["notebooks/glaberish_animations.ipynb:update", "yuca/lenia.py:Lenia.update_universe", "yuca/activations.py:SmoothIntervals", "yuca/kernels.py:get_kernel", "yuca/ca/continuous.py:CCA.forward"]}
{"id": "C134", "title": "A pattern stored with its rule can be replayed", "statement": "In exact arithmetic. save_config(path) followed by restore_config(path), on any object and whatever was drawn meanwhile, brings back the rule of an automaton that make_config records faithfully (C31), if the path ends in .npy; with or without the line break that stays at the end of the path read from a metadata file. Other config files are untouched. If the librarian stores a figure under that path (metadata fields without commas and line breaks), loading it by name returns the same figure, and restoring the config its metadata names returns the rule it was stored with; then n steps of the restored automaton, as a Lenia or as a CCA, give around the figure and far from it the same values as n steps of the original, on tori of any sizes that leave 2nR cells around it, at any place and in any batch element; the clock, which is not stored, changes nothing. Exceptions: a path without .npy is written with .npy appended and restore_config of it reads an older file of the bare name or, if there is none, silently changes nothing; a rule saved in ca_configs/ is not the one restored by its bare name if the working directory has a file of that name.", "quantifier": "every rule C31 covers, file system, path, object restored into, random draw, figure, torus size, number of steps", "why_tests_cant": "A test round-trips one rule in one directory and compares a few steps on one grid.", "anchors": ["yuca/ca/continuous.py:CCA.save_config", "yuca/ca/continuous.py:CCA.restore_config", "yuca/zoo/librarian.py:Librarian.store", "yuca/zoo/librarian.py:Librarian.load"]}
{"id": "C135", "title": "What the figures of two notebooks show", "statement": "Timelapse of glaberish_static_figures: for every automaton and grid size, the panel in row j and column i shows, away from the lines, the grid after 19(3j+i) steps times (4+ij)/8; the first row and column of every panel and the last of the picture are overwritten with 0.1; the number written into each panel is its number of steps; for the stored puffer each panel is within 1e-4 of the Morley run. In exact arithmetic Lenia with the growth drawn for a Life-like rule runs the rule born on the counts of both lists and surviving on those of either, and the puffer stands still in it for 2500 steps, as its title says. Statistics: with at least ten steps (fewer raise ZeroDivisionError) a measurement is made before the step at every multiple of steps//10 and at the last step, the mean after every step; normalised means average exactly 1 unless they sum to 0; the baseline curve cycles through the baselines. Exceptions: the last measurement is drawn at steps although made after steps-1; the list of steps grows from run to run; the printed value is that after steps-1 steps although the message says 2 steps; every run's gamma is relative to the first run's baseline, its own only if they are equal. halting_evo: the still picture shows the first three of each row of four automata, and raises IndexError exactly if there are fewer than fifteen grids; frame n of the animation has only the automata 0,1,2,4,5,6,8,10,11, each after n+1 steps from the same grid (exception: rule 9 and row d, named in its labels, are never shown), and its other branch always raises. In the game the score counts the right guesses and is full exactly if all are right; the grid judged is 256 steps older than those the player trained on, under the same label: if death is final one dead by then is judged dead, but one alive may be judged dead. Started in the root of the repository every named config is found; started elsewhere exactly one is not.", "quantifier": "every automaton, grid, size, number of steps and runs, population, guess, file system", "why_tests_cant": "A notebook is looked at once, with one rule and one random grid; nobody counts the steps behind a label.", "anchors": ["notebooks/glaberish_static_figures.ipynb", "notebooks/halting_evo.ipynb", "yuca/ca/continuous.py:CCA.restore_config"]}
{"id": "C136", "title": "What the glider and entropy animations show", "statement": "In exact arithmetic, for every automaton and pattern. Glider animation: after n frames the grid has made n steps; with the centres displayed the list holds the centres of mass after each of the last min(n, 101) steps, in order, and each is drawn with a progress between 0 and less than 1, larger for newer ones; with display_center = False, as the notebook sets it, nothing is drawn. If a pattern moves by (a, b) cells in every p steps and stays clear of one of two opposite edges, its centres p steps apart lie on a line with that slope. Entropy animation: after n frames the map is the spatial entropy of the grid after 32*floor((n-1)/32)+1 steps. The starting square fills the middle of the grid; the strip of the first figure can be placed exactly for widths 6, 7 and those not 3, 6 or 7 modulo 8. All four patterns are in the zoo and are run with the rule they were stored with. Exceptions: points once drawn are never removed, so trimming the list to the last centres hides none; in the still picture the first panel makes two steps per round, so after n rounds it shows 2n steps and 2n centres and the other three n; the entropy map belongs to the grid beside it only in every 32nd frame.", "quantifier": "every automaton, pattern, measure, number of frames and rounds, grid size", "why_tests_cant": "An animation is watched with one pattern; a track with twice as many points or a map 31 steps old looks plausible.", "anchors": ["notebooks/glaberish_animations.ipynb:update_gliders", "notebooks/glaberish_animations.ipynb:update_spatial_entropy", "notebooks/glaberish_static_figures.ipynb"]}
{"id": "C137", "title": "Config files of neural and Gray-Scott automata", "statement": "In exact arithmetic. save_config(path) then restore_config(path), path ending in .npy, with or without a line break after it, into any object of the class and whatever is drawn meanwhile: a RxnDfn whose kernel is the one its config names gets the same config and, with the usual identity kernel, the same universes after any number of steps, whatever the clock; an NCA whose config describes its kernel (a Gaussian mixture, also one evolved later, or a kernel without parameters) gets the same arguments, width and activation, the same parameters and the same step function. Saving the restored automaton again writes the same file; no other file changes. A CCA never takes the file of an NCA or RxnDfn, neither takes that of a CCA, and an NCA takes none of a RxnDfn if it has more than four weights or the kernel has one number for parameter (as the default). Exceptions: a path without .npy is not seen by restore_config, which silently changes nothing if there is no file of the bare name; an NCA built with ca_config=X and saved over X can never be restored, as its file names itself and the constructor recurses without end; a RxnDfn silently takes the file of every NCA with four or more weights, and makes the first four its rates.", "quantifier": "every file system, path, automaton of each class, object restored into, random draw, universe and number of steps", "why_tests_cant": "A test round-trips one object in one directory; wrong files that load raise nothing, and a file that names itself is only met after saving over it.", "anchors": ["yuca/ca/neural.py:NCA.save_config", "yuca/ca/neural.py:NCA.restore_config", "yuca/ca/neural.py:NCA.make_config", "yuca/ca/reaction_diffusion.py:RxnDfn.save_config", "yuca/ca/reaction_diffusion.py:RxnDfn.restore_config"]}
{"id": "C138", "title": "With small steps a run loses nothing but what it clips", "statement": "In exact arithmetic, on a torus, with fewer than four channels, kernel weights that sum to at most 1, and growth functions bounded by M with slope at most L. A CCA with dt (2M + L) < channels, or a Lenia with dt L < channels: if no cell of two runs is at 0 or 1 after any step, each step leaves at least the share 1 - dt (2M + L) / channels (Lenia: 1 - dt L / channels) of the largest difference between them, so different universes never become the same. And every universe whose cells keep the distance n dt M / channels from 0 and 1 has exactly one past of n steps among the universes in [0,1]; the same for random step sizes, whatever is drawn, if the largest meets the bound, for Gray-Scott automata and for neural automata of bounded slopes, with their own bounds. In a Gray-Scott automaton whose step is small enough for diffusion a cell that holds some of the second species keeps at least a fixed share of it in each step, so a species that dies out never quite vanishes. Exceptions: beyond the bound there is an automaton that turns every universe into the same one in a single step without touching 0 or 1 (for Lenia exactly at the bound); and clipping loses something at every step size: there is an automaton that makes two universes the same and that reaches some universe from none.", "quantifier": "every such automaton, pair of universes in [0,1], universe to be reached, list of draws and number of steps", "why_tests_cant": "Whether two universes can lead to one, or one to none, is a question about all universes; a run shows only where one of them goes.", "anchors": ["yuca/ca/continuous.py:CCA.forward", "yuca/lenia.py:Lenia.update_universe", "yuca/random_step_ca.py:RandomStepCA.forward", "yuca/ca/reaction_diffusion.py:RxnDfn.forward", "yuca/ca/neural.py:NCA.forward"]}
{"id": "C139", "title": "What the activations do that no automaton uses", "statement": "In exact arithmetic: get_smooth_steps_fn makes the function that SmoothIntervals computes in mode 0 and that the notebooks make. GaussianMetaMixture takes universes of three or more channels and raises IndexError for fewer; each cell of its one channel is the Gaussian of the cell in channel 0, centred at the cell in channel 1 and with the cell in channel 2 as its width (1e-7 wider); further channels, other cells and other members of the batch are not read. Where the width is not negative, the result is above 0 (in mode 1 above -1), at most 1, equal to 1 exactly where channels 0 and 1 agree, and higher the nearer they are and the greater the width. As a growth function it never works: genesis and persistence hand over one channel at a time, so every step raises IndexError; and no config can name it, get_smooth_steps_fn or CosOverX2 as a growth function (KeyError).", "quantifier": "every universe, cell, list of intervals, number and list of growth functions", "why_tests_cant": "No test and no automaton calls these functions; the claims are about all universes and all lists of growth functions.", "anchors": ["yuca/activations.py:9-27", "yuca/activations.py:269-290", "yuca/ca/continuous.py:427-520"]}
{"id": "C140", "title": "The points of the plotted growth functions", "statement": "In double precision, without overflow or underflow, the values of the plotted functions not rounded. plot_kernel_growth, of yuca/utils.py and of the notebooks, raises (ZeroDivisionError) exactly when the two ends of its range are equal; otherwise its curve has 1000 or 1001 points of the graph of the function it is given, and point i is at a + i (b - a) / 1000 up to an error of M 2^-35, where M bounds |a| and |b|. Over a range with a < b every x in it is within (b - a) / 1000 + M 2^-35 of a point of the curve, so that a function of slope at most L is missed by at most L times that; over the default range of yuca/utils.py every value from 0 to 1 is within 0.00121 of a point. plot_kernel_genper raises exactly when one of its two ranges is empty; otherwise it draws genesis and persistence, each over its own range with 10000 or 10001 points spaced in the same way. With show_combined these two are lowered by 1 and halved, and the mean of genesis and persistence is drawn at the points of genesis, so over one range the combined curve is the sum of the two others and 1. Exception: whether there is an extra point depends on the range: the default ranges give 1000 points, but [0, 1.3] gives 1001.", "quantifier": "every range, function, slope and point", "why_tests_cant": "The number of points depends on the last bit of two divisions and changes from range to range; plots are looked at, not tested.", "anchors": ["yuca/utils.py:128-145", "notebooks/my_helpers.py:35-93", "notebooks/my_helpers.py:94-152"]}
