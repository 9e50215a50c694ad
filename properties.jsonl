{"id": "C01", "title": "Grid index round trip", "statement": "For every grid with lower limit < upper limit in each dimension and every index k in [0, nindex), state_to_index(index_to_state(k)) = k.", "quantifier": "every dimension, every number of points per axis (>=2), every limits, every index", "why_tests_cant": "Tests convert the indices of two small grids; the claim ranges over all grid shapes, dimensions and limits.", "anchors": ["safe_learning/functions.py:GridWorld.index_to_state", "safe_learning/functions.py:GridWorld.state_to_index"]}
{"id": "C02", "title": "state_to_index returns the closest grid point", "statement": "For every state of the right dimension, inside or outside the limits, state_to_index succeeds, returns an index below nindex, and the grid point with that index is, in every coordinate, at least as close to the state as every other grid point; for a state inside the limits the distance per coordinate is at most half a cell.", "quantifier": "every grid, every real-valued state (unbounded)", "why_tests_cant": "The state space is a continuum, including unbounded states outside the limits.", "anchors": ["safe_learning/functions.py:GridWorld.state_to_index"]}
{"id": "C03", "title": "all_points enumerates the grid in index order", "statement": "all_points has exactly nindex rows, row k equals index_to_state(k), and no two rows are equal.", "quantifier": "every grid of every dimension, every row", "why_tests_cant": "Row-major order of an n-dimensional mesh has to agree with unravel_index for every shape.", "anchors": ["safe_learning/functions.py:GridWorld.all_points", "safe_learning/functions.py:GridWorld.index_to_state", "safe_learning/functions.py:GridWorld.nindex"]}
{"id": "C04", "title": "state_to_rectangle returns the containing cell", "statement": "For every state inside the limits, the state lies in the closed hyper-rectangle whose bottom-left corner is rectangle_to_state(state_to_rectangle(state)); for a state outside the limits the cell is the one containing the state clipped to the limits. The returned index is below nrectangles.", "quantifier": "every grid, every state", "why_tests_cant": "Continuum of states, and boundary cases (states on cell faces, on the upper limits, outside) in every dimension.", "anchors": ["safe_learning/functions.py:GridWorld.state_to_rectangle", "safe_learning/functions.py:GridWorld.rectangle_to_state"]}
{"id": "C05", "title": "Rectangle conversions are mutually consistent", "statement": "For every rectangle index r in [0, nrectangles): state_to_rectangle(rectangle_to_state(r)) = r, and rectangle_corner_index(r) = state_to_index(rectangle_to_state(r)).", "quantifier": "every grid, every rectangle index", "why_tests_cant": "Index arithmetic over two different mixed-radix systems, for all shapes.", "anchors": ["safe_learning/functions.py:GridWorld.rectangle_to_state", "safe_learning/functions.py:GridWorld.rectangle_corner_index", "safe_learning/functions.py:GridWorld.state_to_rectangle"]}
{"id": "C06", "title": "Invalid grid arguments are rejected", "statement": "Constructing a grid with fewer than two points in any dimension raises DimensionError and succeeds otherwise; state_to_index raises DimensionError exactly when the state has the wrong number of coordinates; index_to_state raises exactly when the index is outside [0, nindex).", "quantifier": "every list of limits and point counts, every state length, every integer index", "why_tests_cant": "Rejection must hold for every malformed input, acceptance for every well-formed one.", "anchors": ["safe_learning/functions.py:GridWorld.__init__", "safe_learning/functions.py:GridWorld._check_dimensions", "safe_learning/functions.py:GridWorld.index_to_state"]}
{"id": "C07", "title": "Random samples stay in the domain", "statement": "For every outcome of the random generator, sample_continuous returns points inside the limits and sample_discrete returns grid points.", "quantifier": "every random outcome, every grid, every sample count", "why_tests_cant": "The outcome of the generator is unbounded nondeterminism.", "anchors": ["safe_learning/functions.py:GridWorld.sample_continuous", "safe_learning/functions.py:GridWorld.sample_discrete"]}
{"id": "C08", "title": "PiecewiseConstant is nearest-vertex lookup and its parameter derivative is exact", "statement": "For every point, the value is the parameter of the grid point closest to it; at grid point k it is parameter k; and parameter_derivative(points).dot(parameters) equals the evaluation at points, for every parameter vector.", "quantifier": "every grid, every parameter array, every batch of points", "why_tests_cant": "Continuum of points and parameters.", "anchors": ["safe_learning/functions.py:PiecewiseConstant.build_evaluation", "safe_learning/functions.py:PiecewiseConstant.parameter_derivative"]}
{"id": "C09", "title": "Triangulation weights are barycentric", "statement": "For every point the weights used by the triangulation add up to one and the weighted sum of the simplex vertices is the point itself (the point clipped to the limits when project=True).", "quantifier": "every grid, dimension and point", "why_tests_cant": "Continuum of points; requires the simplex indices, origins and hyperplanes to fit together for every rectangle.", "anchors": ["safe_learning/functions.py:_Triangulation._get_weights", "safe_learning/functions.py:_Triangulation.simplices", "safe_learning/functions.py:_Triangulation._update_hyperplanes"]}
{"id": "C10", "title": "Triangulation reproduces affine functions exactly", "statement": "If the vertex values are the values of an affine function at the grid points, evaluation returns that affine function at every point of the whole space (project=False), or at the clipped point (project=True).", "quantifier": "every grid, every affine function, every point", "why_tests_cant": "Quantifies over all affine functions and all points.", "anchors": ["safe_learning/functions.py:_Triangulation.build_evaluation"]}
{"id": "C11", "title": "Triangulation interpolates the vertex values", "statement": "At every grid point, including those on the boundary of the domain, the triangulation returns exactly the parameter stored for that grid point.", "quantifier": "every grid, every parameter array, every grid index", "why_tests_cant": "Depends on the simplex found by an external point location on a slightly clipped point, for every grid point.", "anchors": ["safe_learning/functions.py:_Triangulation.build_evaluation", "safe_learning/functions.py:_Triangulation.find_simplex"]}
{"id": "C12", "title": "Triangulation obeys the maximum principle", "statement": "For every point in the domain (at least 2 machine epsilons away from its boundary) the weights are non-negative, so the value lies between the smallest and largest parameter of the simplex found.", "quantifier": "every grid, parameter array and point", "why_tests_cant": "Continuum of points.", "anchors": ["safe_learning/functions.py:_Triangulation._get_weights", "safe_learning/functions.py:_Triangulation.find_simplex"]}
{"id": "C13", "title": "Triangulation parameter_derivative is exact", "statement": "parameter_derivative(points).dot(parameters) equals the evaluation at points, for every parameter vector.", "quantifier": "every grid, every batch of points, every parameter array", "why_tests_cant": "Quantifies over all parameters and points; needs the duplicate-summing semantics of sparse matrices.", "anchors": ["safe_learning/functions.py:_Triangulation.parameter_derivative"]}
{"id": "C14", "title": "Triangulation gradient is the slope of the interpolant", "statement": "For two points located in the same simplex the difference of the values equals the gradient times the difference of the points (clipped to the limits with project=True); gradient_parameter_derivative times the parameters gives the same numbers, and the gradient of an affine function is its slope everywhere.", "quantifier": "every grid, parameters, pairs of points", "why_tests_cant": "Continuum of points; test only compares one 2x2 grid.", "anchors": ["safe_learning/functions.py:_Triangulation.gradient", "safe_learning/functions.py:_Triangulation.gradient_parameter_derivative", "safe_learning/functions.py:_Triangulation._get_weights_gradient"]}
{"id": "C15", "title": "Simplex indices are valid", "statement": "find_simplex returns an index in [0, nsimplex) for every point, in or out of the domain, and simplices() returns, for each such index, vertex indices below nindex that are corners of the rectangle the simplex belongs to.", "quantifier": "every grid, every point, every simplex index", "why_tests_cant": "Index arithmetic over all shapes.", "anchors": ["safe_learning/functions.py:_Triangulation.find_simplex", "safe_learning/functions.py:_Triangulation.simplices", "safe_learning/functions.py:_Triangulation._triangulation_simplex_indices"]}
{"id": "C16", "title": "Projection is evaluation at the clipped point", "statement": "With project=True the value at any point equals the value at that point clipped to the limits.", "quantifier": "every grid, parameters, point", "why_tests_cant": "Unbounded space of points.", "anchors": ["safe_learning/functions.py:_Triangulation._get_weights", "safe_learning/functions.py:Triangulation.build_evaluation"]}
{"id": "C17", "title": "TensorFlow and numpy triangulations agree", "statement": "Triangulation evaluates to the same value as the numpy _Triangulation with the same discretization, parameters and project flag at every point.", "quantifier": "every grid, parameters, flag, point", "why_tests_cant": "Two separate implementations must agree at every point.", "anchors": ["safe_learning/functions.py:Triangulation.build_evaluation", "safe_learning/functions.py:Triangulation._get_hyperplanes", "safe_learning/functions.py:_Triangulation.build_evaluation"]}
{"id": "C18", "title": "The interpolant is continuous", "statement": "The triangulated function has no jumps: whichever of the simplices containing a point is used, the value is the same, also across rectangle faces.", "quantifier": "every 1-D and 2-D grid and point (any dimension under matching faces)", "why_tests_cant": "Continuum of points on faces.", "anchors": ["safe_learning/functions.py:_Triangulation.build_evaluation", "safe_learning/functions.py:_Triangulation.find_simplex"]}
{"id": "C19", "title": "Only verified or initially safe states are declared safe", "statement": "After update_safe_set() (not adaptive), every state in the safe set is either in the initial safe set, or satisfies the decrease condition v_decrease_bound < threshold, or (can_shrink=False only) was safe before the call.", "quantifier": "every Lyapunov function, policy, dynamics, initial set, batch size, history", "why_tests_cant": "Every combination of functions, sizes and batch boundaries.", "anchors": ["safe_learning/lyapunov.py:Lyapunov.update_safe_set", "safe_learning/lyapunov.py:Lyapunov.v_decrease_bound", "safe_learning/lyapunov.py:Lyapunov.threshold"]}
{"id": "C20", "title": "The safe set is the largest certified level set, independent of batching", "statement": "With can_shrink=True and no adaptivity, the safe set is exactly the initial set plus the longest prefix, in order of Lyapunov value, of states that are initially safe or satisfy the decrease condition. It does not depend on the batch size.", "quantifier": "every value array (with ties), decrease outcome, initial set, positive batch size", "why_tests_cant": "Batch boundaries, ties and sizes are unbounded.", "anchors": ["safe_learning/lyapunov.py:Lyapunov.update_safe_set", "safe_learning/utilities.py:batchify"]}
{"id": "C21", "title": "The initial safe set is never lost", "statement": "After construction and after any sequence of update_safe_set / update_values calls, with any arguments that do not raise, every state of the initial safe set is in safe_set.", "quantifier": "every history of operations", "why_tests_cant": "Histories are unbounded.", "anchors": ["safe_learning/lyapunov.py:Lyapunov.__init__", "safe_learning/lyapunov.py:Lyapunov.update_safe_set"]}
{"id": "C22", "title": "can_shrink=False never removes states", "statement": "update_safe_set(can_shrink=False) keeps every state that was safe before the call.", "quantifier": "every previous safe set, values, policy, batch size", "why_tests_cant": "The violation needs a change of the Lyapunov function or policy between calls and depends on batch position.", "anchors": ["safe_learning/lyapunov.py:Lyapunov.update_safe_set"]}
{"id": "C23", "title": "c_max is the largest certified level", "statement": "After update_safe_set, the level stored for c_max is the largest Lyapunov value in the certified prefix of states, so states with a smaller value than c_max are safe.", "quantifier": "every value array, decrease outcome, batch size", "why_tests_cant": "The index arithmetic i + bound + refine_bound - 1 is wrong only for particular batch alignments.", "anchors": ["safe_learning/lyapunov.py:Lyapunov.update_safe_set", "safe_learning/lyapunov.py:Lyapunov.c_max"]}
{"id": "C24", "title": "update_safe_set(can_shrink=True) is history independent and idempotent", "statement": "The safe set after update_safe_set(can_shrink=True) (not adaptive) is a function of the current values, decrease condition and initial set only; calling it twice gives the same result as once.", "quantifier": "every history before the call", "why_tests_cant": "Quantifies over all previous states.", "anchors": ["safe_learning/lyapunov.py:Lyapunov.update_safe_set"]}
{"id": "C25", "title": "Certified states decrease in continuous space", "statement": "If a grid state x satisfies v_decrease_bound < threshold, the Lyapunov function is L_v-Lipschitz and the closed loop L_f-Lipschitz, then V strictly decreases along the true dynamics for every (continuous) state within distance tau of x.", "quantifier": "every dynamics, Lyapunov function, tau, continuous state", "why_tests_cant": "Continuum of states; this is the safety claim of the library.", "anchors": ["safe_learning/lyapunov.py:Lyapunov.threshold", "safe_learning/lyapunov.py:Lyapunov.v_decrease_bound", "safe_learning/lyapunov.py:Lyapunov.update_safe_set"]}
{"id": "C26", "title": "v_decrease_bound is an upper confidence bound", "statement": "For every true next state within the error bounds of the predicted one, V(next) - V(state) <= v_decrease_bound(state, (mean, error)); for deterministic dynamics it is equal.", "quantifier": "every true dynamics inside the confidence interval, every Lipschitz V", "why_tests_cant": "All functions within a confidence band.", "anchors": ["safe_learning/lyapunov.py:Lyapunov.v_decrease_confidence", "safe_learning/lyapunov.py:Lyapunov.v_decrease_bound"]}
{"id": "C27", "title": "The certified region is forward invariant and reaches the initial set", "statement": "Under Lipschitz assumptions, a trajectory that starts in a level set covered by certified cells stays in that level set, V decreases along it by a uniform amount, and after finitely many steps it is within tau of an initially safe grid state.", "quantifier": "every trajectory of every length", "why_tests_cant": "Unbounded trajectories in continuous space.", "anchors": ["safe_learning/lyapunov.py:Lyapunov.update_safe_set", "safe_learning/lyapunov.py:Lyapunov.safe_set", "safe_learning/lyapunov.py:Lyapunov.c_max"]}
{"id": "C28", "title": "Adaptive refinement verifies the refined grid", "statement": "A state declared safe by the adaptive check with refinement N satisfies the decrease condition with threshold tau/N at all N^d points of the refined cell.", "quantifier": "every system, refinement limit", "why_tests_cant": "The check must hold at all refined points for every system; the code evaluates it only at the cell centres.", "anchors": ["safe_learning/lyapunov.py:Lyapunov.update_safe_set", "safe_learning/lyapunov.py:refined_safety_check"]}
{"id": "C29", "title": "Arguments of every update_safe_set call take effect", "statement": "safety_factor, policy, tau and adaptive as seen at the time of a call determine the outcome of this call, whatever calls happened before.", "quantifier": "every history of calls", "why_tests_cant": "Graph caching makes the result depend on the arguments of the first call.", "anchors": ["safe_learning/lyapunov.py:Lyapunov.update_safe_set", "safe_learning/utilities.py:get_storage", "safe_learning/utilities.py:set_storage"]}
{"id": "C30", "title": "is_safe answers for the closest grid state", "statement": "is_safe(x) is true exactly when the grid state closest to x is in the safe set.", "quantifier": "every state", "why_tests_cant": "Continuum of states.", "anchors": ["safe_learning/lyapunov.py:Lyapunov.is_safe", "safe_learning/functions.py:GridWorld.state_to_index"]}
{"id": "C31", "title": "smallest_boundary_value is the minimum over the grid boundary", "statement": "The result is the minimum of the function over exactly the grid points with at least one coordinate at its lower or upper limit.", "quantifier": "every grid dimension and function", "why_tests_cant": "All shapes and all functions.", "anchors": ["safe_learning/lyapunov.py:smallest_boundary_value"]}
{"id": "C32", "title": "get_lyapunov_region terminates with a connected interior region", "statement": "The search terminates after visiting each grid node at most once; the returned region contains no boundary node of the grid, contains the (interior) start node, and every node of it is reachable from the start through neighbouring nodes of the region. Start nodes with an index that numpy does not accept raise IndexError.", "quantifier": "every grid, value function, interior start node", "why_tests_cant": "All graphs and value assignments.", "anchors": ["safe_learning/lyapunov.py:get_lyapunov_region"]}
{"id": "C33", "title": "get_lyapunov_region returns a region where values only increase outwards", "statement": "Nodes are added in non-decreasing order of value: every node in the region has a value at least the start value, and leaving the region over any edge leads to a value at least as high as every value in the region.", "quantifier": "every grid, value function, start node", "why_tests_cant": "All value landscapes; the unit tests do not cover the function at all.", "anchors": ["safe_learning/lyapunov.py:get_lyapunov_region"]}
{"id": "C34", "title": "get_safe_sample returns a certified state-action pair", "statement": "Unless the backup policy is used, the returned state is a grid state of the safe set, the action is the policy plus one of the perturbations clipped to the limits, the upper bound on the next Lyapunov value is below c_max, and (positive=False) the expected next state is in the safe set.", "quantifier": "every Lyapunov object, perturbations, limits, random subsample", "why_tests_cant": "All systems, random choices and ties.", "anchors": ["safe_learning/lyapunov.py:get_safe_sample", "safe_learning/lyapunov.py:perturb_actions"]}
{"id": "C35", "title": "get_safe_sample returns the most uncertain safe pair", "statement": "The returned uncertainty is the maximum of the summed error bounds over all candidate pairs that pass the safety test.", "quantifier": "every candidate set", "why_tests_cant": "All candidate sets.", "anchors": ["safe_learning/lyapunov.py:get_safe_sample"]}
{"id": "C36", "title": "get_safe_sample falls back to the policy when nothing is safe", "statement": "If no candidate is certified, a warning is issued and the returned pair is a safe state with the (clipped) unperturbed policy action of the largest uncertainty.", "quantifier": "every situation where no candidate is safe", "why_tests_cant": "Requires all candidates to fail.", "anchors": ["safe_learning/lyapunov.py:get_safe_sample"]}
{"id": "C37", "title": "perturb_actions covers all combinations within limits", "statement": "Without limits the result has N*X rows, one for each state and perturbation in order; with limits every action is inside the limits, rows are unique and the set of rows is exactly the clipped combinations.", "quantifier": "every batch of states, actions, perturbations, limits", "why_tests_cant": "Unbounded sizes.", "anchors": ["safe_learning/lyapunov.py:perturb_actions", "safe_learning/utilities.py:unique_rows"]}
{"id": "C38", "title": "batchify partitions in order", "statement": "For a positive batch size the yielded batches concatenate to the array, the yielded offset is the number of preceding rows, every batch is non-empty, all but the last have exactly batch_size rows; several arrays are split at the same places.", "quantifier": "every array length and batch size", "why_tests_cant": "All lengths and sizes.", "anchors": ["safe_learning/utilities.py:batchify"]}
{"id": "C39", "title": "combinations lists every combination exactly once", "statement": "combinations(arrays) has prod(len) rows and contains each tuple of the Cartesian product exactly once (for arrays of distinct values); linearly_spaced_combinations rows are within the bounds and include all corner points.", "quantifier": "every number of arrays and lengths", "why_tests_cant": "Reshape order in arbitrary dimension.", "anchors": ["safe_learning/utilities.py:combinations", "safe_learning/utilities.py:linearly_spaced_combinations"]}
{"id": "C40", "title": "Storage behaves like a map", "statement": "After set_storage(d, v, index) in a method, get_storage(d, index) in the same method returns v until it is overwritten; other methods and other indices are unaffected.", "quantifier": "every sequence of set/get calls", "why_tests_cant": "Histories are unbounded.", "anchors": ["safe_learning/utilities.py:get_storage", "safe_learning/utilities.py:set_storage"]}
{"id": "C41", "title": "One feed dict per graph", "statement": "get_feed_dict(graph) returns the same dictionary for the same graph over any history, and writes through it are visible to all holders; different graphs have separate dictionaries.", "quantifier": "every history of calls and writes", "why_tests_cant": "Unbounded histories and aliasing.", "anchors": ["safe_learning/utilities.py:get_feed_dict"]}
{"id": "C42", "title": "unique_rows keeps exactly the distinct rows", "statement": "The result contains each distinct row of the input exactly once and nothing else, and is sorted by byte representation.", "quantifier": "every array", "why_tests_cant": "All arrays.", "anchors": ["safe_learning/utilities.py:unique_rows"]}
{"id": "C43", "title": "compute_trajectory follows the closed loop", "statement": "states[0] is the initial state, actions[i] = policy(states[i]) and states[i+1] = dynamics(states[i], actions[i]) for every i < num_steps-1, for any number of steps, whatever was simulated before.", "quantifier": "every number of steps, dynamics, policy, history of cached graphs", "why_tests_cant": "Unbounded number of steps and history.", "anchors": ["safe_learning/utilities.py:compute_trajectory"]}
{"id": "C44", "title": "dlqr yields a stabilising gain with P as Lyapunov function", "statement": "If P solves the discrete Riccati equation, then with the returned k the closed loop satisfies (A-BK)'P(A-BK) - P = -(Q + K'RK), and K minimises the one step cost for every state.", "quantifier": "all systems of all dimensions", "why_tests_cant": "Matrix identity over all systems.", "anchors": ["safe_learning/utilities.py:dlqr"]}
{"id": "C45", "title": "lqr yields P as a continuous-time Lyapunov function", "statement": "If P solves the continuous Riccati equation, then with the returned k, (A-BK)'P + P(A-BK) = -(Q + K'RK).", "quantifier": "all systems of all dimensions", "why_tests_cant": "Matrix identity over all systems.", "anchors": ["safe_learning/utilities.py:lqr"]}
{"id": "C46", "title": "Weight constraints hold after every optimisation step", "statement": "After each run of the returned operations every listed variable is within its bounds, for every optimiser step and every number of steps; gradient_clipping applies only gradients within the limits.", "quantifier": "every history of optimisation steps", "why_tests_cant": "Unbounded histories.", "anchors": ["safe_learning/utilities.py:add_weight_constraint", "safe_learning/utilities.py:gradient_clipping"]}
{"id": "C47", "title": "concatenate_inputs is transparent", "statement": "A decorated function called with several arrays gives the result of calling it with their horizontal concatenation; with one array it is called with this array.", "quantifier": "every number and width of inputs", "why_tests_cant": "All splits of the input.", "anchors": ["safe_learning/utilities.py:concatenate_inputs"]}
{"id": "C48", "title": "ellipse_bounds returns points on the ellipse", "statement": "Every returned point satisfies x'Px = level.", "quantifier": "every positive definite P, level, n", "why_tests_cant": "Continuum of matrices.", "anchors": ["safe_learning/utilities.py:ellipse_bounds"]}
{"id": "C49", "title": "Function arithmetic is pointwise", "statement": "(f+g)(x) = f(x)+g(x), (f*g)(x) = f(x)*g(x), (-f)(x) = -f(x), scalars act as constants, and the parameters are those of both operands, for arbitrarily nested expressions. Operands with different numbers of columns, neither of them one, raise ValueError.", "quantifier": "every expression tree, every point", "why_tests_cant": "Unbounded nesting.", "anchors": ["safe_learning/functions.py:Function.__add__", "safe_learning/functions.py:AddedFunction", "safe_learning/functions.py:MultipliedFunction", "safe_learning/functions.py:ConstantFunction"]}
{"id": "C50", "title": "copy_parameters makes functions equal", "statement": "After f.copy_parameters(g) for functions of the same structure, every parameter of f equals the corresponding parameter of g, and hence f and g agree everywhere.", "quantifier": "every expression structure and parameter values", "why_tests_cant": "Unbounded nesting; the sum of functions copies the wrong operand.", "anchors": ["safe_learning/functions.py:Function.copy_parameters", "safe_learning/functions.py:AddedFunction.copy_parameters", "safe_learning/functions.py:MultipliedFunction.copy_parameters"]}
{"id": "C51", "title": "Saturation bounds its output", "statement": "For lower <= upper the output is always within [lower, upper], equals the wrapped function where that is within the bounds, and saturating twice changes nothing.", "quantifier": "every function, bounds, point", "why_tests_cant": "Continuum.", "anchors": ["safe_learning/functions.py:Saturation.build_evaluation"]}
{"id": "C52", "title": "FunctionStack evaluates and trains each dimension separately", "statement": "The i-th mean and error block come from the i-th function; add_data_point(x, y) gives the i-th function the i-th measurement component; parameters lists the parameters of all functions.", "quantifier": "every number of functions, every batch of data", "why_tests_cant": "All stacks and data shapes.", "anchors": ["safe_learning/functions.py:FunctionStack.build_evaluation", "safe_learning/functions.py:FunctionStack.add_data_point", "safe_learning/functions.py:FunctionStack.parameters"]}
{"id": "C53", "title": "Cached GP prediction is the exact posterior for every scale", "statement": "For every non-zero scale, GPRCached predicts mean m(x)+k'(K+s2 I)^-1(Y-m) and variance k(x,x)-k'(K+s2 I)^-1 k; the diagonal of the full covariance is the variance.", "quantifier": "every kernel, data set, scale, query point", "why_tests_cant": "All kernels, data and scales.", "anchors": ["safe_learning/functions.py:GPRCached._compute_cache", "safe_learning/functions.py:GPRCached.build_predict"]}
{"id": "C54", "title": "The GP cache is always consistent with the data", "statement": "After any sequence of add_data_point calls that return, the data are the initial data followed by all added rows in order, the cached factorisation belongs to these data, and the prediction is the one of a GP built from all the data at once.", "quantifier": "every history of add_data_point calls", "why_tests_cant": "Unbounded histories.", "anchors": ["safe_learning/functions.py:GaussianProcess.add_data_point", "safe_learning/functions.py:GPRCached.update_cache"]}
{"id": "C55", "title": "GP uncertainty is valid and shrinks with data", "statement": "For a positive semidefinite kernel and positive noise, the predicted variance is between 0 and the prior variance, and adding data points never increases it at any query point.", "quantifier": "every kernel, data set, additional data, query", "why_tests_cant": "All data sets and queries.", "anchors": ["safe_learning/functions.py:GPRCached.build_predict", "safe_learning/functions.py:GaussianProcess.build_evaluation", "safe_learning/functions.py:GaussianProcess.add_data_point"]}
{"id": "C56", "title": "QuadraticFunction value and gradient", "statement": "The value is x'Px and gradient(x) is its derivative for every square matrix (also non-symmetric).", "quantifier": "every matrix and point", "why_tests_cant": "Continuum.", "anchors": ["safe_learning/functions.py:QuadraticFunction.build_evaluation", "safe_learning/functions.py:QuadraticFunction.gradient"]}
{"id": "C57", "title": "LinearSystem applies each matrix to its input", "statement": "LinearSystem((A1,..,An))(x1,..,xn) = A1 x1 + ... + An xn.", "quantifier": "every number of matrices and inputs", "why_tests_cant": "All shapes.", "anchors": ["safe_learning/functions.py:LinearSystem.build_evaluation", "safe_learning/functions.py:LinearSystem.__init__"]}
{"id": "C58", "title": "NeuralNetwork.lipschitz is a Lipschitz constant", "statement": "With contractive nonlinearities, |f(x)-f(y)| <= lipschitz |x-y| for all x, y.", "quantifier": "every network, pair of inputs", "why_tests_cant": "Continuum of inputs and weights.", "anchors": ["safe_learning/functions.py:NeuralNetwork.lipschitz", "safe_learning/functions.py:NeuralNetwork._parameter_iter", "safe_learning/functions.py:NeuralNetwork.build_evaluation"]}
{"id": "C59", "title": "The value update is a monotone gamma-contraction", "statement": "With the projected triangulation as value function, future_values is monotone in the value parameters and contracts sup-norm distances by gamma.", "quantifier": "all parameter vectors", "why_tests_cant": "All pairs of value functions.", "anchors": ["safe_learning/reinforcement_learning.py:PolicyIteration.future_values", "safe_learning/reinforcement_learning.py:PolicyIteration.value_iteration"]}
{"id": "C60", "title": "value_iteration converges to the unique fixed point", "statement": "Repeated value_iteration converges geometrically to the unique solution of the Bellman equation, from every initial value (for a discount factor that is smaller than one by more than the boundary tolerance of the triangulation).", "quantifier": "every initial value, number of iterations, discount factor, grid, policy, dynamics, reward", "why_tests_cant": "Unbounded iterations.", "anchors": ["safe_learning/reinforcement_learning.py:PolicyIteration.value_iteration"]}
{"id": "C61", "title": "optimize_value_function solves the Bellman equation", "statement": "Any optimal solution of the linear program equals the fixed point of value_iteration.", "quantifier": "every policy, dynamics, reward", "why_tests_cant": "All instances.", "anchors": ["safe_learning/reinforcement_learning.py:PolicyIteration._run_cvx_optimization", "safe_learning/reinforcement_learning.py:PolicyIteration.optimize_value_function"]}
{"id": "C62", "title": "bellmann_error vanishes exactly at solutions", "statement": "bellmann_error(states) is non-negative and zero exactly if the value function satisfies the Bellman equation at all the states.", "quantifier": "every value function and states", "why_tests_cant": "All functions.", "anchors": ["safe_learning/reinforcement_learning.py:PolicyIteration.bellmann_error"]}
{"id": "C63", "title": "discrete_policy_optimization picks the best safe action", "statement": "For every state the new policy parameter is an action of the action space with non-negative constraint slack whose future value is maximal among those (first one on ties).", "quantifier": "every action space, constraint, value function", "why_tests_cant": "All ties and infeasible combinations.", "anchors": ["safe_learning/reinforcement_learning.py:PolicyIteration.discrete_policy_optimization"]}
{"id": "C64", "title": "Greedy policy optimisation improves the policy", "statement": "When policy and value function share the grid, the value of the policy returned by discrete_policy_optimization is at least the old value at every state, if the old actions are available.", "quantifier": "every policy, dynamics, reward", "why_tests_cant": "All instances.", "anchors": ["safe_learning/reinforcement_learning.py:PolicyIteration.discrete_policy_optimization", "safe_learning/reinforcement_learning.py:PolicyIteration.optimize_value_function"]}
{"id": "C65", "title": "future_values with a Lyapunov constraint", "statement": "future_values(..., lyapunov, multiplier) subtracts multiplier times (decrease bound - threshold); with multiplier >= 0 it only lowers the value of unsafe actions.", "quantifier": "every dynamics kind", "why_tests_cant": "Must hold for deterministic and uncertain dynamics; the former raises.", "anchors": ["safe_learning/reinforcement_learning.py:PolicyIteration.future_values"]}
{"id": "C66", "title": "LyapunovNetwork is positive definite", "statement": "For activations with trivial null space and eps > 0, the network value is non-negative, zero at the origin and positive everywhere else, for all weights; layer dimensions that shrink are rejected.", "quantifier": "all weights, depths, inputs", "why_tests_cant": "Continuum of weights and inputs.", "anchors": ["examples/utilities.py:LyapunovNetwork.build_evaluation", "examples/utilities.py:LyapunovNetwork.__init__"]}
{"id": "C67", "title": "InvertedPendulum model is consistent", "statement": "normalize and denormalize are inverse, the upright equilibrium with zero action is a fixed point of the discrete dynamics, and linearize uses the Jacobian of ode at the equilibrium.", "quantifier": "all parameters, normalisations", "why_tests_cant": "Continuum.", "anchors": ["examples/utilities.py:InvertedPendulum.ode", "examples/utilities.py:InvertedPendulum.linearize", "examples/utilities.py:InvertedPendulum.normalize"]}
{"id": "C68", "title": "CartPole linearisation is the Jacobian of its dynamics", "statement": "The continuous-time matrices used by linearize are the Jacobian of ode at the upright equilibrium.", "quantifier": "all masses, lengths, frictions", "why_tests_cant": "Continuum of parameters; the two agree only for length 1.", "anchors": ["examples/utilities.py:CartPole.ode", "examples/utilities.py:CartPole.linearize"]}
{"id": "C69", "title": "VanDerPol linearisation is the Jacobian of its dynamics", "statement": "The continuous-time matrix used by linearize is the Jacobian of ode at the origin.", "quantifier": "all damping values", "why_tests_cant": "Agreement only for damping 1.", "anchors": ["examples/utilities.py:VanDerPol.ode", "examples/utilities.py:VanDerPol.linearize"]}
{"id": "C70", "title": "find_nearest returns the closest element", "statement": "The returned value is an element of the array with minimal distance to the reference and the returned index is its index in the given array.", "quantifier": "every array and value", "why_tests_cant": "All arrays and values.", "anchors": ["examples/utilities.py:find_nearest"]}
{"id": "C71", "title": "Class weights are balanced", "statement": "balanced_class_weights gives both classes the same total weight (number of samples) whenever both occur; the confusion variant does the same for four classes.", "quantifier": "every label vector", "why_tests_cant": "All label vectors.", "anchors": ["examples/utilities.py:balanced_class_weights", "examples/utilities.py:balanced_confusion_weights"]}
{"id": "C72", "title": "derivative_monomials is the derivative of monomials", "statement": "For every degree the derivative features are the partial derivatives of the monomial features.", "quantifier": "every degree and point", "why_tests_cant": "All points; fails for degree 4 and above.", "anchors": ["examples/utilities.py:monomials", "examples/utilities.py:derivative_monomials"]}
{"id": "C73", "title": "compute_roa marks states whose trajectory ends near the equilibrium", "statement": "A state is marked exactly if its horizon-1 step trajectory ends within tol of the equilibrium, with the same result with and without stored trajectories.", "quantifier": "every dynamics, horizon", "why_tests_cant": "Unbounded horizons.", "anchors": ["examples/utilities.py:compute_roa"]}
{"id": "C74", "title": "reward_rollout is the truncated discounted return", "statement": "The result is the discounted reward sum along the closed-loop trajectory up to the horizon or the first step whose contribution is below tol everywhere.", "quantifier": "every dynamics, reward, horizon", "why_tests_cant": "Unbounded horizons.", "anchors": ["examples/utilities.py:reward_rollout"]}
{"id": "C75", "title": "constrained_batch_sampler returns only admissible states", "statement": "All returned states map inside the state space and, with action_limit, also use unsaturated actions.", "quantifier": "every random batch", "why_tests_cant": "All batches; with action_limit the first constraint is dropped.", "anchors": ["examples/utilities.py:constrained_batch_sampler"]}
{"id": "C76", "title": "gradient_parameter_derivative keeps the arrays of the caller", "statement": "gradient_parameter_derivative(indices=array) does not change the array that the caller passes, so calling it twice with the same array gives the same matrix.", "quantifier": "every triangulation, every index array", "why_tests_cant": "Aliasing effect for all index arrays beyond the first rectangle.", "anchors": ["safe_learning/functions.py:_Triangulation.gradient_parameter_derivative", "safe_learning/functions.py:_Triangulation._get_weights_gradient"]}
{"id": "C77", "title": "A rejected add_data_point leaves the GP unchanged", "statement": "If GaussianProcess.add_data_point(x, y) raises, the data and the predictions of the process are the same as before, and a following valid call succeeds as if the failed call had not been made.", "quantifier": "every state, every pair of arrays", "why_tests_cant": "Failure atomicity over all histories of calls and failures.", "anchors": ["safe_learning/functions.py:GaussianProcess.add_data_point", "safe_learning/functions.py:GPRCached.update_cache"]}
{"id": "C78", "title": "Functions drawn by sample_gp_function pass through the draw", "statement": "Every function that sample_gp_function returns equals the underlying sample at the grid points of the discretisation, and all functions follow the distribution of the Gaussian process (posterior if data are present) at other points.", "quantifier": "every kernel, mean function, discretisation, draw", "why_tests_cant": "All kernels, means and draws; fails for non-zero means.", "anchors": ["safe_learning/functions.py:sample_gp_function"]}
{"id": "C79", "title": "Changed attributes take effect in discrete_policy_optimization", "statement": "Every call of discrete_policy_optimization maximises the future values of the current dynamics, reward function, value function and discount factor of the object and assigns the parameters of its current policy.", "quantifier": "every history of calls, attribute changes and variable updates", "why_tests_cant": "Must hold for all histories; the operations are built once and kept.", "anchors": ["safe_learning/reinforcement_learning.py:PolicyIteration.discrete_policy_optimization", "safe_learning/utilities.py:get_storage", "safe_learning/utilities.py:set_storage"]}
{"id": "C80", "title": "get_parameter_change measures the distance of two parameter lists", "statement": "For every documented order the change is zero exactly if all parameters are equal, symmetric, and satisfies the triangle inequality; by default it is the largest absolute difference.", "quantifier": "every pair (triple) of lists of arrays with the same shapes, every documented order", "why_tests_cant": "All parameter lists and orders; two documented orders always raise.", "anchors": ["examples/utilities.py:get_parameter_change"]}
{"id": "C81", "title": "compute_closedloop_response is the trajectory of the closed loop", "statement": "The states start in the initial state, each action is the policy in the state of the same step, the next state follows from the action plus the reference signal, times are multiples of dt, and a longer simulation continues a shorter one.", "quantifier": "every dynamics, policy, number of steps, step size, initial state and reference signal", "why_tests_cant": "Induction over an unbounded number of steps.", "anchors": ["examples/utilities.py:compute_closedloop_response"]}
{"id": "C82", "title": "gridify covers the given range symmetrically", "statement": "The grid points times the norms lie between minus and plus the maxima and reach both; the grid is symmetric about the origin and contains it for odd numbers of points; without maxima it covers [-1, 1].", "quantifier": "every norms, maxes, numbers of points, dimension", "why_tests_cant": "All dimensions and sizes.", "anchors": ["examples/utilities.py:gridify"]}
{"id": "C83", "title": "monomials returns every monomial up to the degree once", "statement": "The features of a point are the values of all monomials of degree 1 up to deg, each once.", "quantifier": "every degree and point", "why_tests_cant": "All degrees; fails from degree 5 on.", "anchors": ["examples/utilities.py:monomials"]}
{"id": "C84", "title": "future_values is the one-step backup of the given actions", "statement": "future_values(states, policy, actions) returns r(s,a) + gamma V(f(s,a)) for every state, where a is the given action, the action of the given policy, or the action of the own policy, in this order; with a Lyapunov function it subtracts the penalty of the decrease condition.", "quantifier": "every batch of states, policy, actions, dynamics, reward and value function", "why_tests_cant": "All combinations of optional arguments and all functions.", "anchors": ["safe_learning/reinforcement_learning.py:PolicyIteration.future_values"]}
{"id": "C85", "title": "Changed GP hyperparameters take effect in predictions", "statement": "Predictions of a GaussianProcess are the exact posterior for all its data and the hyperparameters that its model currently has, whatever order hyperparameters are changed, data are added and the feed dictionary is updated in.", "quantifier": "every history of hyperparameter changes, add_data_point and update_feed_dict calls", "why_tests_cant": "Unbounded histories; the factorisation is cached and values are fed, so changes can be missed or mixed.", "anchors": ["safe_learning/functions.py:GaussianProcess.update_feed_dict", "safe_learning/functions.py:GaussianProcess.add_data_point", "safe_learning/functions.py:GPRCached.update_cache", "safe_learning/functions.py:GPRCached.build_predict"]}
{"id": "C86", "title": "to_mean_function returns the mean and follows the data", "statement": "The function returned by to_mean_function() returns the first output (the mean) of the uncertain function; if data are added to the Gaussian process later it returns the mean for all the data.", "quantifier": "every uncertain function, every history of add_data_point calls before and after", "why_tests_cant": "Unbounded histories after the mean function was made.", "anchors": ["safe_learning/functions.py:UncertainFunction.to_mean_function", "safe_learning/functions.py:GaussianProcess.build_evaluation", "safe_learning/functions.py:FunctionStack.build_evaluation"]}
{"id": "C87", "title": "Changed attributes take effect in get_safe_sample", "statement": "Every call of get_safe_sample uses the current policy, dynamics, safe set, level and variables of the Lyapunov object.", "quantifier": "every history of safe set updates, samples and attribute assignments", "why_tests_cant": "Must hold for all histories; the operations are built at the first call and kept.", "anchors": ["safe_learning/lyapunov.py:get_safe_sample", "safe_learning/utilities.py:get_storage", "safe_learning/utilities.py:set_storage"]}
{"id": "C88", "title": "Safe exploration", "statement": "After an update of the safe set, taking a pair returned by get_safe_sample and applying the policy from then on keeps the true state in the level set {V < c_max} until it is close to an initially safe state, for every true system inside the confidence intervals.", "quantifier": "every system, Lipschitz constants, grid, history of updates and samples, random choice, true system inside the confidence intervals", "why_tests_cant": "Infinite trajectories of all systems; the composition of the safe set computation and the sampling.", "anchors": ["safe_learning/lyapunov.py:get_safe_sample", "safe_learning/lyapunov.py:Lyapunov.update_safe_set", "safe_learning/lyapunov.py:Lyapunov.threshold"]}
{"id": "C89", "title": "Function objects have their own parameters", "statement": "Once a function object has been called, its parameters attribute lists exactly the variables that its value depends on; later calls and other functions do not change the list; two different functions never have a common parameter, even if they were given the same name.", "quantifier": "every program that makes functions, sums and saturations, calls them and makes other variables, every name", "why_tests_cant": "Unbounded programs and all names; variables are collected by a name prefix, so other functions can be caught or own variables missed.", "anchors": ["safe_learning/functions.py:Function.parameters", "safe_learning/functions.py:Function.scope_name", "safe_learning/functions.py:Function.__call__", "safe_learning/functions.py:AddedFunction.parameters"]}
{"id": "C90", "title": "Saturation uses the parameters of the wrapped function", "statement": "Saturation(fun, lower, upper) has the clipped value of fun for all values of the variables, and its parameters are those that its value depends on.", "quantifier": "every program, wrapped function, bounds, values of the variables", "why_tests_cant": "All programs and wrapped functions; networks make their variables during the evaluation, in the scope of whoever evaluates.", "anchors": ["safe_learning/functions.py:Saturation.__init__", "safe_learning/functions.py:Saturation.build_evaluation", "safe_learning/functions.py:NeuralNetwork.build_evaluation"]}
{"id": "C91", "title": "gradient is the derivative of the evaluated function", "statement": "gradient(x) of a Triangulation and of a saturated Triangulation is the derivative of the function that the object evaluates, at every point that is not on the boundary of a simplex.", "quantifier": "every grid, dimension, triangulation, parameters, bounds, point", "why_tests_cant": "Continuum of points; clipping of the input (project) and of the output (Saturation) must be taken into account.", "anchors": ["safe_learning/functions.py:Triangulation.gradient", "safe_learning/functions.py:Saturation.__init__", "safe_learning/functions.py:_Triangulation.gradient"]}
{"id": "C92", "title": "Policy iteration terminates with an optimal policy", "statement": "Alternating optimize_value_function and discrete_policy_optimization stops changing the values after finitely many rounds (fewer than the number of policies), and then no policy that takes available actions at the grid points has a larger value in any state; no round raises if the solver finds the optimum.", "quantifier": "every initial policy with available actions, action set, constraint, dynamics, reward, number of rounds", "why_tests_cant": "Unbounded histories of rounds; ties between actions could make the policies cycle.", "anchors": ["safe_learning/reinforcement_learning.py:PolicyIteration.discrete_policy_optimization", "safe_learning/reinforcement_learning.py:PolicyIteration.optimize_value_function"]}
{"id": "C93", "title": "The grid in floating point arithmetic", "statement": "In double precision, state_to_index(index_to_state(k)) == k for every index, state_to_index returns a nearest grid point up to rounding errors, state_to_rectangle and rectangle_to_state bracket every state of the domain without error, and the rows of all_points are the states of the indices.", "quantifier": "every grid whose cells are coarse compared to the rounding unit, every index, every state, every rounding that obeys the standard model", "why_tests_cant": "All floating point inputs; rounding errors accumulate over five operations.", "anchors": ["safe_learning/functions.py:GridWorld.index_to_state", "safe_learning/functions.py:GridWorld.state_to_index", "safe_learning/functions.py:GridWorld.state_to_rectangle", "safe_learning/functions.py:GridWorld.rectangle_to_state", "safe_learning/functions.py:GridWorld.all_points"]}
{"id": "C94", "title": "The number of points of a grid", "statement": "len(grid), nindex and nrectangles are the number of grid points and of hyperrectangles.", "quantifier": "every grid", "why_tests_cant": "Products of machine integers wrap around for large grids, which no test can allocate.", "anchors": ["safe_learning/functions.py:GridWorld.__init__", "safe_learning/functions.py:GridWorld.__len__"]}
{"id": "C95", "title": "Changed project takes effect", "statement": "After f.project = b the triangulation f, and a saturation of f, evaluate with projection if and only if b is True.", "quantifier": "every sequence of assignments and calls, all parameters and points", "why_tests_cant": "The value is read when a graph is built, so the answer depends on the history of assignments and calls.", "anchors": ["safe_learning/functions.py:Triangulation.project", "safe_learning/functions.py:Triangulation.build_evaluation", "safe_learning/functions.py:Saturation.__init__"]}
{"id": "C96", "title": "The polynomial candidate and its derivative", "statement": "lyapunov_sos(x, Q, norm) is m(y)^T Q m(y) for the monomials m of degree one to three at the denormalised state y = norm * x; it is zero at the origin and positive elsewhere for a positive definite Q; lyapunov_sos_derivative returns its derivative.", "quantifier": "all states, symmetric matrices, normalisations and curves", "why_tests_cant": "The claim is about derivatives at a continuum of states and all matrices.", "anchors": ["examples/lyapunov_function_learning.ipynb:lyapunov_sos", "examples/lyapunov_function_learning.ipynb:lyapunov_sos_derivative"]}
{"id": "C97", "title": "The sum-of-squares level is certified and maximal", "statement": "With the level cmax_sos, the polynomial decreases along every solution of the differential equation at every grid state other than the origin whose value is at most the level, and no larger grid value has this property.", "quantifier": "all grids, matrices, differential equations, sorting orders and solutions", "why_tests_cant": "Depends on the order of all values and on every solution through a grid state.", "anchors": ["examples/lyapunov_function_learning.ipynb:cmax_sos", "examples/lyapunov_function_learning.ipynb:dvdt"]}
{"id": "C98", "title": "The training estimate stays in the region of attraction", "statement": "The roa_estimate of the training loop consists of the safe sets and of the simulated gap states that ended in the level set; it never loses states; if all level sets and safe sets are in the region of attraction, so is the estimate. The training targets are the states of the enlarged level set or of the estimate, labelled with the estimate.", "quantifier": "all systems, candidates during the training, numbers of iterations and horizons", "why_tests_cant": "Quantifies over every training history and infinite trajectories.", "anchors": ["examples/lyapunov_function_learning.ipynb:roa_estimate", "examples/lyapunov_function_learning.ipynb:target_set"]}
{"id": "C99", "title": "The training objective is zero exactly at a correct classification", "statement": "The objective with balanced_class_weights is non-negative, and zero if and only if the candidate is at most the level and does not increase at the labelled states of the batch, and is above the level at the others.", "quantifier": "all batches, candidates, levels and positive multipliers", "why_tests_cant": "All real values of the candidate and all batches.", "anchors": ["examples/lyapunov_function_learning.ipynb:objective", "examples/lyapunov_function_learning.ipynb:classifier_loss", "examples/lyapunov_function_learning.ipynb:decrease_loss"]}
{"id": "C100", "title": "The discretization constants of the notebooks cover the state space", "statement": "With the tau a notebook passes to Lyapunov, every state within the limits of the grid is within tau, in the 1-norm, of a grid point.", "quantifier": "all grids with at least two points per dimension and all states within the limits", "why_tests_cant": "A continuum of states and all grids.", "anchors": ["examples/adaptive_safety_verification.ipynb:tau", "examples/lyapunov_function_learning.ipynb:tau", "examples/1d_example.ipynb:tau", "examples/inverted_pendulum.ipynb:tau", "examples/1d_region_of_attraction_estimate.ipynb:tau"]}
{"id": "C101", "title": "The Lipschitz constants of the notebooks are Lipschitz constants", "statement": "The functions the notebooks pass to Lyapunov as lipschitz_dynamics and lipschitz_lyapunov are, in the 1-norm, Lipschitz constants of the closed loop and of the quadratic Lyapunov function in a cell.", "quantifier": "all matrices, gains, saturated or not, and all pairs of states", "why_tests_cant": "A continuum of pairs of states and all matrices.", "anchors": ["examples/adaptive_safety_verification.ipynb:L_dyn", "examples/adaptive_safety_verification.ipynb:L_v", "examples/lyapunov_function_learning.ipynb:L_dyn", "examples/inverted_pendulum.ipynb:L_dyn"]}
{"id": "C102", "title": "Images and surfaces show the value of each state at its place", "statement": "The image of values on a two-dimensional grid shows at the place of a grid state the value of this state; so does the surface plot.", "quantifier": "all two-dimensional grids and all lists of values", "why_tests_cant": "All grid shapes and values; index and axis conventions of five array operations.", "anchors": ["examples/plotting.py:plot_triangulation", "examples/inverted_pendulum.ipynb:imshow", "examples/reinforcement_learning_pendulum.ipynb:plot_surface"]}
{"id": "C103", "title": "The planes and sub-samples that are plotted are the intended states", "statement": "The planes of the cart-pole consist of the grid states with the pivot's remaining coordinates, in the order in which they are reshaped; the sub-sampled trajectories start at the grid states with multi-indices divisible by the step.", "quantifier": "all grids, pivots and numbers of trajectories", "why_tests_cant": "All grid shapes and pivots.", "anchors": ["examples/reinforcement_learning_cartpole.ipynb:planes", "examples/lyapunov_function_learning.ipynb:sub_idx", "examples/reinforcement_learning_pendulum.ipynb:sub_idx"]}
{"id": "C104", "title": "The save hook removes the outputs of code cells and nothing else", "statement": "Saving a notebook in format 4 empties the outputs and the execution count of every code cell and changes nothing else; other files and formats are left as they are; the saved notebook does not depend on the outputs; saving twice is saving once.", "quantifier": "all models of the contents manager, all cells, all outputs", "why_tests_cant": "Ranges over all nested dictionaries.", "anchors": ["scripts/jupyter_output.py:scrub_output_pre_save"]}
{"id": "C105", "title": "Stripping a graph only shortens large constants", "statement": "strip_consts keeps all nodes, in their order, with names, types, inputs and attributes, except that the content of constants larger than max_const_size is replaced by a text with its size; no constant of the result is larger than max_const_size.", "quantifier": "all graphs and limits", "why_tests_cant": "All graphs and sizes.", "anchors": ["examples/plotting.py:strip_consts"]}
{"id": "C106", "title": "Values stay in the range of the discounted rewards", "statement": "If all rewards of the policy are between (1 - gamma) a and (1 - gamma) b, then the values are between a and b: after any number of value iterations started in this range, and after solving the Bellman equation.", "quantifier": "all grids, triangulations, policies, dynamics and rewards", "why_tests_cant": "All numbers of iterations and a continuum of parameters.", "anchors": ["safe_learning/reinforcement_learning.py:PolicyIteration.value_iteration", "safe_learning/reinforcement_learning.py:PolicyIteration.optimize_value_function", "examples/basic_dynamic_programming.ipynb:reward_function"]}
{"id": "C107", "title": "The mountain car loops report what they computed", "statement": "The training loop stops in the first round in which no value and no action changes by more than the tolerance, and reports this round and its changes; the trajectory follows the dynamics up to the first terminal state and stays there.", "quantifier": "all numbers of rounds, tolerances, policies and dynamics", "why_tests_cant": "All schedules of convergence and all horizons.", "anchors": ["examples/basic_dynamic_programming.ipynb:value_change", "examples/basic_dynamic_programming.ipynb:trajectory"]}
{"id": "C108", "title": "Active learning measures at the most uncertain safe state", "statement": "update_gp adds a measurement at a state of the safe set, with the action of the policy, at which the standard deviation of the dynamics is at least that at every safe state; it raises ValueError if the safe set is empty.", "quantifier": "all grids, safe sets, policies and standard deviations", "why_tests_cant": "All safe sets and posteriors.", "anchors": ["examples/1d_region_of_attraction_estimate.ipynb:update_gp"]}
{"id": "C109", "title": "The plotted pairs of states and actions are safe", "statement": "get_safe_sets marks exactly the pairs of safe states and actions for which the upper bound of the next value is below c_max, respectively for which the upper bound of the decrease is below the threshold; for dynamics within the error bounds the next state is in the level set, respectively the Lyapunov function decreases from all states within tau.", "quantifier": "all grids, actions, Lyapunov functions, models with error bounds and true dynamics", "why_tests_cant": "A continuum of true dynamics and states, all masks.", "anchors": ["examples/1d_example.ipynb:get_safe_sets"]}
{"id": "C110", "title": "Infinities and NaN never certify a state", "statement": "A state that is in the safe set and not in the initial one was certified by a call of update_safe_set for which the Lyapunov value of the state, the Lyapunov value of its predicted next state, all error bounds and all Lipschitz constants were meaningful: no NaN, no infinite bound or constant, no infinite next value. After a verification from scratch, every state with a smaller value than a certified one is safe, with NaN ordered last. As long as all values are finite and nothing is rounded, all calls do what they do in exact arithmetic.", "quantifier": "all floating point values (finite, infinite, NaN, with overflow) of the Lyapunov function, dynamics, error bounds and constants, all batch sizes, refinements and histories of calls", "why_tests_cant": "NaN comparisons are false in both directions, so every test on every path has to be written the right way round; the values range over all combinations at all states.", "anchors": ["safe_learning/lyapunov.py:Lyapunov.update_safe_set", "safe_learning/lyapunov.py:Lyapunov.v_decrease_bound", "safe_learning/lyapunov.py:Lyapunov.threshold"]}
{"id": "C111", "title": "Samples have meaningful predictions", "statement": "A pair that get_safe_sample returns is one of the candidates, its prediction is free of NaN and of infinite deviations and constants, and its uncertainty is a number, no smaller than that of any other accepted candidate.", "quantifier": "all floating point predictions, constants and levels c_max, all lists of candidates", "why_tests_cant": "All combinations of NaN and infinite values; np.argmax treats NaN as the maximum.", "anchors": ["safe_learning/lyapunov.py:get_safe_sample"]}
{"id": "C112", "title": "Looking up NaN fails, looking up infinity gives the border", "statement": "state_to_index and is_safe raise ValueError for a state with a NaN entry; infinite entries give the index of the state with these entries replaced by the limits; the value of a triangulation is NaN at a point with a NaN entry; state_to_rectangle rejects NaN.", "quantifier": "all grids, all states with finite, infinite and NaN entries, all simplices and parameters", "why_tests_cant": "All combinations of entries.", "anchors": ["safe_learning/functions.py:GridWorld.state_to_index", "safe_learning/functions.py:GridWorld.state_to_rectangle", "safe_learning/functions.py:_Triangulation.build_evaluation", "safe_learning/lyapunov.py:Lyapunov.is_safe"]}
{"id": "C113", "title": "safety_constraint returns the states that satisfy the decrease condition", "statement": "safety_constraint(policy) returns a boolean array that is true exactly at the states where the upper bound on the change of the Lyapunov function is below the threshold and, if requested, in the initial safe set.", "quantifier": "all policies, dynamics, Lyapunov functions, initial sets and flags", "why_tests_cant": "The function has no test; that it can never return is a statement about all arguments.", "anchors": ["safe_learning/lyapunov.py:Lyapunov.safety_constraint"]}
{"id": "C114", "title": "print_params prints the weights of each layer under its number", "statement": "print_params prints, for each layer of a Lyapunov network, the variables that build_evaluation made for this layer.", "quantifier": "all sequences of layer dimensions", "why_tests_cant": "The assignment of variables to layers depends on the whole history of earlier layers.", "anchors": ["examples/utilities.py:LyapunovNetwork.print_params"]}
{"id": "C115", "title": "RBFNetwork is a sum of radial basis functions at the grid points", "statement": "RBFNetwork(limits, num_states) can be constructed for every valid grid, and its value is the sum over the grid points of weight times exp(-|x - centre|^2 / (2 variance)), bounded by the sum of the absolute weights.", "quantifier": "all grids, variances, weights and states", "why_tests_cant": "All grids and weights; the layout of the three-dimensional array of centres has to match the weights.", "anchors": ["examples/utilities.py:RBFNetwork"]}
{"id": "C116", "title": "Functions made with make_tf_fun have their own gradient", "statement": "Calling functions that were decorated with make_tf_fun and a gradient never raises, and every operation is differentiated with the gradient of the function that made it, whatever the names of functions, scopes and other operations are and however often they are called.", "quantifier": "all programs: sequences of calls of decorated functions in any scopes and graphs, mixed with other operations", "why_tests_cant": "Name collisions depend on the whole history of a graph and of the process.", "anchors": ["safe_learning/utilities.py:make_tf_fun"]}
{"id": "C117", "title": "plot_lyapunov_1d shows the current confidence intervals and the safe set", "statement": "The plot shows the confidence interval of the next state and of the change of the Lyapunov function at each state for the current policy and dynamics, so that the true change is inside the band if the model is calibrated; safe states are drawn in one curve and the others in the other one; the helper lines are at safe states with the largest value.", "quantifier": "all one-dimensional systems, safe sets, values and histories of plots and attribute changes", "why_tests_cant": "A property of all systems; stale tensors only show up after a change of attributes.", "anchors": ["examples/plotting.py:plot_lyapunov_1d"]}
{"id": "C118", "title": "The largest gradient of a triangulation is its Lipschitz constant", "statement": "If no entry of gradient(x) exceeds L in absolute value anywhere in the domain, the values of a Triangulation at two points differ by at most L times the sum of the coordinate distances; the bound on the gradient at a state, as the inverted_pendulum notebook passes to Lyapunov, bounds the changes around this state.", "quantifier": "all grids, unit triangulations that meet in common faces, parameters, pairs of points, with and without project", "why_tests_cant": "All pairs of points: the segment between them crosses arbitrarily many simplices.", "anchors": ["safe_learning/functions.py:Triangulation.gradient", "examples/inverted_pendulum.ipynb:lipschitz_lyapunov"]}
{"id": "C119", "title": "Certificates survive rounding", "statement": "A state that update_safe_set marks as safe in floating point arithmetic satisfies the decrease condition in exact arithmetic, and a sample that get_safe_sample accepts has all its possible next states below c_max.", "quantifier": "all Lyapunov functions, Lipschitz constants, predictions, grids, histories of calls and roundings with a bounded relative error", "why_tests_cant": "The rounding errors depend on every input and every intermediate result; sampled inputs almost never hit a cancellation.", "anchors": ["safe_learning/lyapunov.py:Lyapunov.threshold", "safe_learning/lyapunov.py:Lyapunov.v_decrease_confidence", "safe_learning/lyapunov.py:Lyapunov.update_safe_set", "safe_learning/lyapunov.py:get_safe_sample"]}
{"id": "C120", "title": "Functions on grids approximate Lipschitz functions within L * sum(unit_maxes) / 2", "statement": "If the parameters of a Triangulation or a PiecewiseConstant function are the values of an L-Lipschitz function (1-norm) at the grid points, evaluation differs from that function by at most L * sum(unit_maxes) / 2 in the domain; a triangulation may exceed this by a factor 1 + O(_EPS) within 2 * _EPS of the boundary. No smaller constant is correct.", "quantifier": "all grids, triangulations of the unit cell, Lipschitz functions, points of the domain", "why_tests_cant": "The bound is about every function and every point between the grid points.", "anchors": ["safe_learning/functions.py:_Triangulation.build_evaluation", "safe_learning/functions.py:PiecewiseConstant.build_evaluation", "safe_learning/functions.py:GridWorld"]}
{"id": "C121", "title": "Values on the grid are close to the returns of the real closed loop", "statement": "If reward and closed loop are Lipschitz, the values after n runs of value_iteration differ from the discounted n-step return of the closed loop in the continuous state space by at most gamma * L * tau / (1 - gamma) plus gamma^n times the initial error, with tau = sum(unit_maxes) / 2; and the solution of the Bellman equation on the grid differs from a solution J of the Bellman equation of the closed loop by at most gamma * L * tau / (1 - gamma) at grid points and L * tau / (1 - gamma) between them.", "quantifier": "all systems with Lipschitz reward and closed loop, policies, grids, discount factors, initial values, numbers of iterations", "why_tests_cant": "Compares the computed values with infinitely many trajectories in a continuous state space.", "anchors": ["safe_learning/reinforcement_learning.py:PolicyIteration.value_iteration", "safe_learning/reinforcement_learning.py:PolicyIteration.future_values", "safe_learning/reinforcement_learning.py:PolicyIteration.optimize_value_function", "safe_learning/functions.py:_Triangulation"]}
{"id": "C122", "title": "Policy iteration ends with a nearly optimal policy for the real system", "statement": "When policy iteration on the grid has stopped, the discounted return of its policy on the continuous state space is, from every grid point, at least that of every other policy with available actions minus gamma * (L' + L'') * tau / (1 - gamma), tau = sum(unit_maxes) / 2, up to a term that vanishes with the horizon.", "quantifier": "all systems, action sets, constraints, competing policies, grid points, horizons", "why_tests_cant": "Quantifies over all competing policies and their trajectories.", "anchors": ["safe_learning/reinforcement_learning.py:PolicyIteration.discrete_policy_optimization", "safe_learning/reinforcement_learning.py:PolicyIteration.optimize_value_function", "safe_learning/functions.py:_Triangulation"]}
{"id": "C123", "title": "Triangulations in floating point arithmetic approximate the exact interpolation", "statement": "With rounding in every operation, evaluation of a triangulation away from the grid lines finds the same simplex as in exact arithmetic, and its value differs from the exact one by an explicit multiple of the rounding error. At every point, also where the wrong simplex is found, the value differs from an L-Lipschitz function by at most 3 (1 + 3 d d d!) L tau, tau = sum(unit_maxes) / 2, if only the location rounds. At grid points the value is the parameter.", "quantifier": "all grids, triangulations of the unit cell, rounding functions with a given relative error, points, parameters", "why_tests_cant": "Rounding affects an exponentially large set of inputs differently; the wrong ones lie on grid lines.", "anchors": ["safe_learning/functions.py:_Triangulation.find_simplex", "safe_learning/functions.py:_Triangulation._get_weights", "safe_learning/functions.py:_Triangulation.build_evaluation", "safe_learning/functions.py:GridWorld._center_states"]}
{"id": "C124", "title": "dlqr returns the optimal controller and the cost to go", "statement": "With positive definite weights, the total cost of the closed loop with u = -k x from x0 is x0' p x0, its states converge to the origin with an exponential rate, no input sequence has a lower total cost, and u = -k x is the only one with this cost.", "quantifier": "all linear systems, weights, initial states and infinite input sequences", "why_tests_cant": "Ranges over all infinite input sequences.", "anchors": ["safe_learning/utilities.py:dlqr"]}
{"id": "C125", "title": "lqr returns the optimal controller and the cost to go", "statement": "With positive definite weights, the running cost of the closed loop with u = -k x converges to x0' p x0, its states converge to the origin and the value decays exponentially; no input has a cost that stays below x0' p x0, and u = -k x is the only one whose cost never exceeds it.", "quantifier": "all linear systems in continuous time, weights, initial states and inputs (with jumps)", "why_tests_cant": "Ranges over all input functions on an infinite horizon.", "anchors": ["safe_learning/utilities.py:lqr"]}
{"id": "C126", "title": "A saturated lqr policy makes a level set of its Lyapunov function a region of attraction of the nonlinear system", "statement": "If a nonlinear system has an equilibrium at the origin and x' P x decreases along its linearisation under u = -K x, then the system with the saturated policy, which cuts the entries of -K x off at -1 and 1, has a level set of x' P x of positive level that no state leaves, on which x' P x decays exponentially and all states converge to the origin. This holds for the gain and matrix that dlqr returns for the linearisation, for InvertedPendulum, and for CartPole.", "quantifier": "all nonlinear systems with a derivative at the origin, all gains, all weights, all initial states in the level set and all times", "why_tests_cant": "Ranges over all systems, states and infinite trajectories.", "anchors": ["safe_learning/utilities.py:dlqr", "safe_learning/functions.py:Saturation", "examples/utilities.py:InvertedPendulum,CartPole"]}
{"id": "C127", "title": "Values of a triangulation are accurate in floating point arithmetic", "statement": "If every operation rounds with relative error u and the inverses of the simplices have an error of at most delta, then the computed value of a triangulation whose parameters are within B of an L-Lipschitz function is within L times half the sum of the cell lengths plus B of the function, up to a term of the order of u and delta times the largest parameter. In one dimension this holds at every point of the domain.", "quantifier": "all grids of all sizes and dimensions, all rounding functions, all computed inverses, all functions, parameters and points", "why_tests_cant": "Ranges over all real functions and points; unit tests compare a few values with a tolerance.", "anchors": ["safe_learning/functions.py:_Triangulation._get_weights,_Triangulation.build_evaluation,_Triangulation.find_simplex"]}
{"id": "C128", "title": "Value iteration in floating point arithmetic converges to the returns of the real system", "statement": "Repeated value iteration, computed with rounding, keeps the values of all grid points within a^n B + b / (1 - a) of the discounted returns of the real closed loop, where a is the discount factor and b gamma L times half the sum of the cell lengths, up to terms of the order of the rounding errors and of the errors of the dynamics and rewards.", "quantifier": "all grids, closed loops with Lipschitz dynamics and rewards, rounding functions, initial values and numbers of iterations", "why_tests_cant": "Ranges over all systems and numbers of iterations; a unit test runs a few iterations on one system.", "anchors": ["safe_learning/reinforcement_learning.py:PolicyIteration.value_iteration,PolicyIteration.future_values", "safe_learning/functions.py:_Triangulation.build_evaluation"]}
{"id": "C129", "title": "The confidence intervals of Gaussian process models contain the true dynamics, so that the safe set is safe for the real system", "statement": "If the difference of a true function and the mean function has norm at most B in the space of the kernel, the squared measurement errors add up to at most noise * R^2 and B^2 + R^2 <= beta^2, then the interval returned for any point, after any sequence of add_data_point calls, contains the true function. For a stack of such processes the certified level set is a region of attraction of the true system.", "quantifier": "all kernels, data, histories of add_data_point, true functions of bounded norm, measurement errors, points, numbers of outputs", "why_tests_cant": "Ranges over all functions of bounded norm and all data sets; a unit test can only check samples of a few functions.", "anchors": ["safe_learning/functions.py:GaussianProcess.build_evaluation,GaussianProcess.add_data_point,FunctionStack.build_evaluation", "safe_learning/lyapunov.py:Lyapunov.update_safe_set"]}
{"id": "C130", "title": "With adaptive=True a state is only accepted if the decrease condition holds with the discretization constant tau / N for an allowed refinement N, whatever the type of tau", "statement": "A Lyapunov object with adaptive=True accepts every numeric tau. A state that is safe after update_safe_set is initially safe, or satisfies decrease < threshold(tau / N) for a refinement N between 1 and max_refinement. Then the Lyapunov function does not increase at any point within tau / N of the state.", "quantifier": "all types of tau (Python float, integer, numpy scalar, tensor), all values of tau, all histories of update_safe_set and update_values, all arguments, grids, policies, dynamics and Lyapunov functions", "why_tests_cant": "Ranges over the types of an argument and all histories; no unit test uses the adaptive check.", "anchors": ["safe_learning/lyapunov.py:Lyapunov.update_safe_set,Lyapunov.refined_safety_check"]}
{"id": "C131", "title": "The floating point type of the configuration can be changed", "statement": "After safe_learning.config.dtype was set to a type, functions that are constructed from then on can be evaluated on tensors of this type and return values of this type. Functions that were constructed before keep working on the type they were constructed for.", "quantifier": "all histories of assignments to config.dtype, constructions of grids, triangulations, quadratic functions, linear systems and neural networks, and evaluations", "why_tests_cant": "Ranges over all histories of a global setting; the unit tests only use the default type.", "anchors": ["safe_learning/configuration.py:Configuration", "safe_learning/functions.py:GridWorld,Triangulation,QuadraticFunction,LinearSystem,NeuralNetwork", "safe_learning/utilities.py:make_tf_fun"]}
{"id": "C132", "title": "ScipyDelaunay triangulates the points of the grid", "statement": "ScipyDelaunay(limits, num_points) has exactly the points of GridWorld(limits, num_points), each of them once; their numbers are those of the grid with the first two axes swapped. Arguments that GridWorld rejects are rejected.", "quantifier": "all dimensions, limits and numbers of points", "why_tests_cant": "Ranges over all grids; the unit test compares the number of simplices for one grid.", "anchors": ["safe_learning/functions.py:ScipyDelaunay"]}
{"id": "C133", "title": "The example systems obey the laws of mechanics", "statement": "The time derivative of InvertedPendulum and CartPole is given by Newton's laws for their masses, lengths and friction; along every solution the mechanical energy changes by the work of the action and the loss by friction, so that it does not increase without action. VanDerPol is the oscillator of van der Pol in reverse time, whose distance to the origin does not increase while the position is between -1 and 1.", "quantifier": "all parameters, states, actions and solutions", "why_tests_cant": "Ranges over all states and all differentiable curves; a test evaluates the vector field at a few states.", "anchors": ["examples/utilities.py:InvertedPendulum", "examples/utilities.py:CartPole", "examples/utilities.py:VanDerPol"]}
{"id": "C134", "title": "Better models never certify less", "statement": "If the decrease bounds become smaller, tau becomes smaller, the initial safe set becomes larger or the discretization is refined further, then no state is lost from the safe set; adding exact measurements of the true dynamics to the model does not lose states either.", "quantifier": "all pairs of objects, histories of calls, models and arguments", "why_tests_cant": "Relates two executions of the whole pipeline with arbitrary models and histories; a test compares two particular ones.", "anchors": ["safe_learning/lyapunov.py:Lyapunov.update_safe_set", "safe_learning/functions.py:GaussianProcess.add_data_point"]}
{"id": "C135", "title": "An interrupted call leaves a usable object", "statement": "If update_safe_set or add_data_point is interrupted at any point, by KeyboardInterrupt or by an exception in an evaluation, then no state is declared safe that was not verified, the initial safe set is kept, predictions are those for the old or for the new data, and the next complete call gives the same result as without the interruption.", "quantifier": "all points of a call between two statements, all histories of complete and interrupted calls, all models, arguments and data", "why_tests_cant": "A test can interrupt a call at a few points; the property quantifies over every crash point in every history.", "anchors": ["safe_learning/lyapunov.py:Lyapunov.update_safe_set", "safe_learning/functions.py:GaussianProcess.add_data_point"]}
{"id": "C136", "title": "Crashes during learning never mix measurements", "statement": "If the data of a stack of Gaussian processes is added by calls that may each be interrupted anywhere, then the predictions of each component are those for a part of the measurements that were submitted, never for a point with the measurement of another one, or evaluations raise; components may have different numbers of measurements, but all confidence intervals and the certified region stay correct.", "quantifier": "all histories of complete and interrupted add_data_point calls, all crash points, all numbers of components, kernels and data", "why_tests_cant": "The components are updated one after the other, so there are as many crash points as assignments in all components, in every call of a history.", "anchors": ["safe_learning/functions.py:FunctionStack.add_data_point", "safe_learning/functions.py:GaussianProcess.add_data_point", "safe_learning/lyapunov.py:Lyapunov.update_safe_set"]}
{"id": "C137", "title": "Predictions are the posterior of a random function", "statement": "If the true dynamics and the measurement errors are random with the mean function, the kernel and the noise variance of the Gaussian processes, then the mean that an evaluation returns is unbiased and the best affine prediction from the data, and the error is beta times the root of its mean squared error; for Gaussian distributions the two are the conditional distribution of the true value given all measurements, and the intervals of all components at any points contain the true values except with a probability of at most 2 exp(-beta^2/2) for each.", "quantifier": "all kernels, mean functions, noise variances, probability spaces, data sets, histories of add_data_point, evaluation points, numbers of components and confidence factors", "why_tests_cant": "The claims are about expectations and conditional distributions over all true functions and all measurement errors; a test sees single draws.", "anchors": ["safe_learning/functions.py:GaussianProcess.build_evaluation", "safe_learning/functions.py:GaussianProcess.add_data_point", "safe_learning/functions.py:FunctionStack.build_evaluation"]}
{"id": "C138", "title": "Safe learning succeeds with high probability although the data is chosen adaptively", "statement": "If the true dynamics and the measurement errors are drawn from the priors of the Gaussian processes, and in each round of the learning loop of the examples the state and action to measure, the policy and all arguments of update_safe_set are chosen from the measurements so far, then, except with a probability of at most 2 exp(-beta^2/2) for each grid state, component and round, in no round does the safe set promise convergence or invariance that is false for the true closed loop. If the measurements are taken where get_safe_sample says, then, except with that probability for each component and round, every measurement without the backup policy brings the true system to a state in the level set of c_max.", "quantifier": "all priors, grids, choices of inputs and policies from countably many candidates, numbers of rounds, confidence factors, Lyapunov functions and argument values", "why_tests_cant": "The data depends on the true function through earlier measurements, so it is not a fixed design; the claim ranges over all adaptive strategies and over the random truth.", "anchors": ["examples/inverted_pendulum.ipynb:update_gp", "examples/1d_region_of_attraction_estimate.ipynb:update_gp", "safe_learning/functions.py:FunctionStack.add_data_point", "safe_learning/lyapunov.py:Lyapunov.update_safe_set", "safe_learning/lyapunov.py:get_safe_sample"]}
{"id": "C139", "title": "The example systems follow their differential equations with a bounded error", "statement": "After N calls of an example system with piecewise constant actions, the state, put into physical units, differs from the solution of the differential equation of the system at time N dt by at most B dt / 20 ((1 + L dt / 10)^(10 N) - 1), where B bounds the speed of the solution and L is a Lipschitz constant of the vector field on a tube around the solution whose radius is at least the bound; for the pendulum L is max(1, 9.81 / length + friction / (mass length^2)) and no tube is needed.", "quantifier": "all parameters of the systems with non-negative friction and step, normalisations, initial states, sequences of actions, numbers of calls and solutions of the differential equations", "why_tests_cant": "The solution of the differential equation has no closed form; the bound ranges over all trajectories and numbers of calls.", "anchors": ["examples/utilities.py:InvertedPendulum.build_evaluation", "examples/utilities.py:CartPole.build_evaluation", "examples/utilities.py:VanDerPol.build_evaluation"]}
{"id": "C140", "title": "linearize discretises the linear system exactly and agrees with the simulated system up to second order in the time step", "statement": "The matrices that linearize returns map a state and a constant action to the state dt seconds later, exactly, for the differential equation linearised at the equilibrium (in normalised units). They differ from the Jacobian of the simulated system, which takes ten Euler steps, by at most (dt m)^2 / 20 exp(dt m), where m bounds the sums of the absolute values in the rows of the Jacobian of the differential equation. A controller with a quadratic Lyapunov function for the returned matrices whose decrease dominates this error, such as the one of dlqr with a large enough cost, stabilises the simulated, nonlinear pendulum with saturated actions on a level set.", "quantifier": "all parameters and normalisations of the systems, time steps, states, actions, gains and quadratic forms", "why_tests_cant": "The claim is about derivatives and solutions of differential equations, for all parameters and time steps.", "anchors": ["examples/utilities.py:InvertedPendulum.linearize", "examples/utilities.py:CartPole.linearize", "examples/utilities.py:VanDerPol.linearize", "safe_learning/utilities.py:dlqr"]}
{"id": "C141", "title": "Safe sets computed with the simulated example systems hold for the real systems in continuous time", "statement": "If dynamics is one of the simulated systems together with error bounds that are at least the error of its ten Euler steps at the grid states, and lipschitz_dynamics covers the growth exp(L dt) of the differential equation under the policy, then every state below the certified level of the Lyapunov function is led, by the real system that moves according to the differential equation while the action of the policy is held for dt seconds, with a decrease of the Lyapunov function by a fixed amount per measurement, to within tau of the initially safe states, and every measured state on the way stays below the level. The real closed loop exists and is unique. Without the error bounds the claim is false: the simulated loop can be certified while the real one moves away from the origin.", "quantifier": "all vector fields that are Lipschitz in the state and the action, globally or on a box that the system cannot leave within one step (for the pendulum, the cart-pole and the oscillator all physical parameters, with explicit constants), policies, normalisations, time steps, grids, Lyapunov functions, histories of method calls and initial states", "why_tests_cant": "The claim is about all solutions of a differential equation over unbounded time.", "anchors": ["examples/utilities.py:InvertedPendulum", "examples/utilities.py:CartPole", "safe_learning/lyapunov.py:Lyapunov.update_safe_set", "safe_learning/lyapunov.py:Lyapunov.threshold"]}
{"id": "C142", "title": "What import_from_directory returns and changes", "statement": "A call that returns gives the module that sys.modules has for the library afterwards: the one that was loaded before or, in Python 3, a new one from the first directory of sys.path, followed by the given folder, that has the library. Every later call for the library returns the same object and changes nothing, whatever folder is given. Calls never change which file an import uses for a library that was found before. If the library is neither loaded nor found in sys.path the module of the given folder is used; otherwise it is not. A call that fails to find the library leaves the folder in sys.path, once per call.", "quantifier": "all file systems, states of the interpreter, libraries, folders and sequences of calls", "why_tests_cant": "The claims are about all sequences of calls and all contents of sys.path and sys.modules.", "anchors": ["examples/utilities.py:import_from_directory"]}
{"id": "C143", "title": "Functions decorated with with_scope compute the same and restore the name scope", "statement": "A function decorated with with_scope returns or raises the same, and adds operations that compute the same in the same order, as the undecorated function, however decorated functions call each other and handle exceptions. Whether it returns or raises, the open name scope afterwards is the one from before. All operations have different names, and those of one call have names in one scope that starts with the open scope and the given name and was not in use before.", "quantifier": "all programs that make operations, raise, handle exceptions and call decorated functions, all graphs and names", "why_tests_cant": "The claim is about all ways in which calls can be nested and all points at which they can raise.", "anchors": ["safe_learning/utilities.py:with_scope"]}
{"id": "C144", "title": "Safe sets computed in floating point arithmetic hold for the real system", "statement": "Let update_safe_set(can_shrink=True) run in floating point arithmetic, after any earlier method calls, with error bounds of the dynamics that cover the error of the simulation and of rounding, values that are accurate up to a known error, and a discretisation constant that is larger than the radius of the grid by enough to cover the rounding errors. If it returns and all grid states with a value below c are in the safe set, then every trajectory of the true closed loop, and every solution of the differential equation whose action the policy updates every dt seconds, that starts with a value below c minus the effect of discretisation and rounding stays below this level and decreases the value by a fixed amount in each step until it is close to an initially safe grid state. The call returns and finds all these states if they satisfy the decrease condition with a margin for the effect of rounding.", "quantifier": "all systems with Lipschitz dynamics, policies and Lyapunov functions, all grids, roundings with a bounded relative error, histories of method calls and initial conditions", "why_tests_cant": "The claim is about all trajectories in continuous time and all roundings; tests see finitely many of either.", "anchors": ["safe_learning/lyapunov.py:Lyapunov.update_safe_set", "safe_learning/lyapunov.py:Lyapunov.threshold", "safe_learning/lyapunov.py:Lyapunov.v_decrease_bound", "examples/utilities.py:InvertedPendulum"]}
{"id": "C145", "title": "Linear quadratic regulators from inaccurate solvers are stable and nearly optimal", "statement": "Let the matrix p that dlqr (or lqr) gets from the Riccati solver be symmetric and positive semidefinite and fail the Riccati equation by at most the fraction e of q, and let the computed gain differ from the exact one for p by at most the fraction d of q, with e + d < 1. Then u = -k x makes the system exponentially stable with the Lyapunov function x' p x, the total cost from x0 is at most x0' p x0 / (1 - e - d), every other input costs at least x0' p x0 / (1 + e), and so the controller is optimal up to the factor (1 + e) / (1 - e - d).", "quantifier": "all linear systems in discrete and continuous time, weights, residuals, gains, initial states and inputs", "why_tests_cant": "The claim is about all infinite trajectories, all competing inputs and all errors of the solver below a bound.", "anchors": ["safe_learning/utilities.py:dlqr", "safe_learning/utilities.py:lqr"]}
{"id": "C146", "title": "Policy iteration tolerates inaccurate solvers of the linear program", "statement": "Let the solver used by optimize_value_function violate the constraints by at most e and miss the optimum by at most h, and let n be the number of grid points. The new values exceed the values of the policy by at most e / (1 - gamma), which some solver attains, and differ from them by at most d = h + n e / (1 - gamma). bellmann_error at the grid points bounds the distance of any values from those of the policy: ((1 - gamma) * distance)^2 <= bellmann_error. With values that are off by at most d, discrete_policy_optimization returns a policy that is at most 2 gamma d / (1 - gamma) worse than the old one, and after k rounds no policy with available actions is better than the current one by more than gamma^k G + 2 gamma d / (1 - gamma)^2, where G is the amount by which it was better than the first one.", "quantifier": "all grids, rewards, dynamics whose next states are not in the boundary strip (or one-dimensional domains), discount factors below one, tolerances, action spaces, constraints and numbers of rounds", "why_tests_cant": "Solvers stop at tolerances that depend on the problem; the claim is about every answer within the tolerance and every number of rounds.", "anchors": ["safe_learning/reinforcement_learning.py:PolicyIteration.optimize_value_function", "safe_learning/reinforcement_learning.py:PolicyIteration.bellmann_error", "safe_learning/reinforcement_learning.py:PolicyIteration.discrete_policy_optimization"]}
{"id": "C147", "title": "Regulators that are computed inaccurately for inaccurate models stabilise nonlinear systems", "statement": "Let dlqr be called with matrices a, b that differ from the linearisation of a nonlinear system at its equilibrium by at most e, let the Riccati solver be inaccurate by the fraction r of q and the gain by the fraction d of q (as in C145). If (1 - r - d) q dominates the error of the model, then the policy LinearSystem(-k), saturated to [-1, 1], keeps the nonlinear system in every small enough level set of x' p x and lets it converge to the origin.", "quantifier": "all differentiable systems with an equilibrium at the origin, models, weights, solver errors and gains within the bound, and all initial states in the level set", "why_tests_cant": "Linearisation, discretisation, the Riccati solver and the linear solver each add an error, and the trajectory goes on forever.", "anchors": ["safe_learning/utilities.py:dlqr", "safe_learning/functions.py:LinearSystem", "safe_learning/functions.py:Saturation", "examples/utilities.py:InvertedPendulum.linearize"]}
{"id": "C148", "title": "Every round of policy iteration with an inaccurate solver gives a policy that is nearly optimal for the real closed loop", "statement": "Alternate optimize_value_function, whose solver may violate the constraints by eps and miss the optimum by eta, and discrete_policy_optimization. Let |reward| <= (1 - gamma) B. Then for every N, every horizon n and every start in the domain, the discounted return of the real closed loop (no interpolation of values, policy evaluated at every visited state) under the policy of round N is below that of any policy with available actions by at most 2 gamma^N B + 2 gamma delta / (1 - gamma)^2 + (L' + L'') tau / (1 - gamma) + 2 gamma^n B, where delta = eta + nindex eps / (1 - gamma), tau is half the sum of the cell sizes, and L', L'' are Lipschitz constants of the two returns.", "quantifier": "all systems, rewards, grids, solvers within their tolerances, rounds N, horizons n, starting states and competing policies", "why_tests_cant": "Rounds and horizons are unbounded, and the errors of the solver, the grid, the missing rounds and the horizon add up.", "anchors": ["safe_learning/reinforcement_learning.py:PolicyIteration.optimize_value_function", "safe_learning/reinforcement_learning.py:PolicyIteration.discrete_policy_optimization", "safe_learning/reinforcement_learning.py:PolicyIteration._run_cvx_optimization"]}
{"id": "C149", "title": "Policy optimisation in floating point arithmetic picks nearly best safe actions, and rounds of it with value iteration are nearly optimal for the real system", "statement": "With rounding after every operation, inaccurate inverses of the simplices, and inaccurate rewards and dynamics, discrete_policy_optimization gives every grid point the first safe action with the largest computed future value. If the values are within A of a function J, that action is, for the real system, at most 2 (a A + b) worse than every other safe action, with the constants a and b of C128. If every round optimises the policy and then runs value_iteration one or more times, then for all N and n the real closed loop of the policy of round N has, over n steps, a return below that of any policy with always available actions by at most 4 (E + L tau) / (1 - gamma)^3 + 2 gamma^N V + 2 gamma^n V, where E is the error of the values, tau half the sum of the cell sizes and V a bound on returns.", "quantifier": "all grids, systems, rewards, constraints, roundings, rounds N, numbers of runs of value_iteration, horizons n, starting states and competing policies", "why_tests_cant": "Errors of rounding, interpolation, unfinished evaluation and unfinished rounds accumulate without bound on the number of rounds; a test sees one history.", "anchors": ["safe_learning/reinforcement_learning.py:PolicyIteration.discrete_policy_optimization", "safe_learning/reinforcement_learning.py:PolicyIteration.value_iteration", "safe_learning/reinforcement_learning.py:PolicyIteration.future_values"]}
{"id": "C150", "title": "Gaussian process predictions in floating point arithmetic are close to the exact posterior, for every history of added data", "statement": "Let every arithmetic operation of GPRCached and GaussianProcess be rounded. For every tolerance there is an accuracy such that, if the roundings and the values of the kernel, the mean function, the noise and the scale have at most this error, then constructing the process, every add_data_point call of the history and the evaluation return, the mean is within the tolerance of the exact posterior mean for all the data, and beta times the standard deviation is within the tolerance of the exact one wherever it is a number, which it is wherever the exact posterior variance is positive. With relative rounding errors of at most u and n data points in total, let c = (1 - u)^(-(n + 5)) - 1 and let tr be the trace of the noisy kernel matrix: if c < 1 and 2 c tr / (1 - c) is less than the noise variance, none of these calls raises and the errors of the mean and of the error bars have explicit bounds. For a fixed precision, the error bars can be NaN: in double precision they are for the constant kernel 3, noise variance 2^(-60) and one data point.", "quantifier": "all kernels, mean functions, noise variances, scales, data, histories of add_data_point calls, query points, roundings and tolerances", "why_tests_cant": "Whether the factorisation of a badly conditioned kernel matrix breaks down depends on data, noise and number of points; tests see a few well conditioned data sets and no exact posterior to compare with.", "anchors": ["safe_learning/functions.py:GPRCached", "safe_learning/functions.py:GPRCached.build_predict", "safe_learning/functions.py:GaussianProcess.add_data_point", "safe_learning/functions.py:GaussianProcess.build_evaluation"]}
{"id": "C151", "title": "Safe learning with every computation in floating point arithmetic certifies only true decreases", "statement": "The Gaussian processes are constructed, extended and evaluated in floating point arithmetic, and their predictions, NaN included, are the closed loop of a Lyapunov object and of get_safe_sample, whose own computations also round. Then what an exact confidence interval contains, the computed interval contains after it is enlarged by an explicit number. If a grid state passes the comparison of update_safe_set, its prediction is free of NaN, and the true closed loop decreases the Lyapunov function strictly from every state within a radius that is smaller than the discretisation constant by the explicit effects of rounding in the test, the Lyapunov function and the prediction. After any history of calls every safe state is initial or was certified in this sense. If the true dynamics and the errors are drawn from the priors and all measurements, policies and calls may depend on earlier measurements, the probability of any state that is safe by mistake is at most T n sum_i 2 exp(-beta_i^2 / 2) for T rounds and n states. A sample that get_safe_sample accepts has a true next state whose value is below c_max up to the same effects.", "quantifier": "every dimension, rounding with a relative error, kernel, data, grid, Lipschitz Lyapunov function, discretisation constant, adaptive choice of measurements and policies, and history of calls", "why_tests_cant": "Tests compare a few predictions with a tolerance. They cannot show that the rounding of training, prediction and test together never certifies a false decrease, or bound a probability over all true dynamics.", "anchors": ["safe_learning/functions.py:GaussianProcess", "safe_learning/functions.py:GPRCached", "safe_learning/lyapunov.py:Lyapunov.update_safe_set", "safe_learning/lyapunov.py:Lyapunov.v_decrease_bound", "safe_learning/lyapunov.py:get_safe_sample"]}
{"id": "C152", "title": "Regions of attraction that are learned with every computation in floating point arithmetic hold for the true system", "statement": "The dynamics are Gaussian processes that are trained and evaluated in floating point arithmetic, the Lyapunov function is computed with errors of at most eta, and update_safe_set(can_shrink=True) rounds and meets NaN. If the call returns, all grid states with a computed value below c are safe, and the discretisation constant exceeds the radius r of the grid by the explicit effects of rounding, then every trajectory of the true closed loop that starts with a value below c - Lv r - eta stays below this level, with a value that decreases by a fixed amount in every step, until it is within r of an initially safe grid state. This holds whenever the true next states are in the exact confidence intervals at the grid states. If the true dynamics and the errors are drawn from the priors, and measurements, policies, Lyapunov functions and all arguments of the calls are chosen from earlier measurements, then the probability that any of T rounds promises something false is at most T n sum_i 2 exp(-beta_i^2 / 2) for n grid states, as far as the closed loop is Lipschitz with the constant that is used.", "quantifier": "every dimension, rounding with a relative error, kernel, data, grid, Lipschitz Lyapunov function, level, initial state, length of the trajectory, history of method calls, and adaptive choice of measurements and policies", "why_tests_cant": "A test follows finitely many trajectories of one system. It cannot show that rounding in training, prediction and test leaves all trajectories from a region safe, or bound a probability over all true dynamics.", "anchors": ["safe_learning/functions.py:GaussianProcess", "safe_learning/functions.py:GPRCached", "safe_learning/lyapunov.py:Lyapunov.update_safe_set", "safe_learning/lyapunov.py:Lyapunov.v_decrease_bound", "safe_learning/lyapunov.py:Lyapunov.threshold"]}
{"id": "C153", "title": "Exploration with every computation in floating point arithmetic keeps the true system below the level with high probability", "statement": "The Gaussian processes are trained and evaluated in floating point arithmetic, and get_safe_sample evaluates and compares in floating point arithmetic. If it returns a pair that is not from the backup policy, the pair is one of the candidates, its prediction is free of NaN, and every next state in the exact confidence intervals has a value below c_max plus the explicit effects of rounding in the comparison, the Lyapunov function and the prediction. If the true dynamics and the errors are drawn from the priors and every measurement is taken where get_safe_sample says, then the probability that the true system is above this level after any of T measurements that do not use the backup policy is at most T sum_i 2 exp(-beta_i^2 / 2), although candidates, Lyapunov functions, levels and safe sets are chosen from earlier measurements.", "quantifier": "every dimension, rounding with a relative error, kernel, data, list of candidates, Lipschitz Lyapunov function, level, number of rounds and adaptive choice of the measurements", "why_tests_cant": "Tests run a few rounds of exploration of one system. They cannot show for all data that rounding in prediction and selection does not let the true system leave the level set, or bound a probability over all true dynamics.", "anchors": ["safe_learning/lyapunov.py:get_safe_sample", "safe_learning/functions.py:GaussianProcess", "safe_learning/functions.py:GPRCached"]}
{"id": "C154", "title": "Quadratic functions and linear systems are accurate and keep their sign in floating point arithmetic", "statement": "In floating point arithmetic, and whatever the order in which the products are added, the value of QuadraticFunction differs from x'Px by at most ((1 + u)^(2h + 2) - 1) sum_ij |x_i| |P_ij| |x_j|, its gradient from (P + P')x by at most ((1 + u)^(h + 2) - 1) sum_i |x_i| |P_ij + P_ji|, and the value of LinearSystem from Mx by at most ((1 + u)^(h + 1) - 1) sum_j |M_ij| |x_j|, where h is the largest number of additions in a row. The Lipschitz constant |2Px|_1 that the examples compute for a quadratic Lyapunov function has an error of at most ((1 + u)^(2h + 3) - 1) sum_ij |x_j| |2 P_ij| and is not smaller than the exact one. States with NaN have no finite values. The value of a positive definite quadratic function is positive at all states except the origin.", "quantifier": "every dimension, matrix, point, order of additions and rounding with a relative error", "why_tests_cant": "Tests evaluate a few matrices at a few points, with the order of additions of one machine.", "anchors": ["safe_learning/functions.py:QuadraticFunction.build_evaluation", "safe_learning/functions.py:QuadraticFunction.gradient", "safe_learning/functions.py:LinearSystem.build_evaluation"]}
{"id": "C155", "title": "The safe set of a linear system with a saturated linear policy and a quadratic Lyapunov function, all computed in floating point arithmetic, is a region of attraction of the true system", "statement": "Let the dynamics be a LinearSystem, the policy a Saturation of a LinearSystem and the Lyapunov function a QuadraticFunction, all evaluated in floating point arithmetic in any order of additions, and let update_safe_set(can_shrink=True) run in floating point arithmetic. If the Lipschitz constants are right on a box that contains the grid and the next states, and the discretisation constant exceeds the radius of the grid by the rounding errors, which are explicit in the matrices, then every trajectory of the exact linear system with the saturated policy that starts with x'Px below the level of the safe set, minus the effects of discretisation and rounding, decreases x'Px by a fixed amount in each step until it is close to an initially safe grid state.", "quantifier": "every dimension, matrices, gain, bounds of the actions, grid, order of additions, rounding, history of method calls and start of the trajectory", "why_tests_cant": "The claim is about all trajectories and all roundings; tests see finitely many of either.", "anchors": ["safe_learning/lyapunov.py:Lyapunov.update_safe_set", "safe_learning/functions.py:LinearSystem.build_evaluation", "safe_learning/functions.py:QuadraticFunction.build_evaluation", "safe_learning/functions.py:Saturation.build_evaluation"]}
