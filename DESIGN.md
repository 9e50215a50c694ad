# Formal model of befelix/safe_learning in Lean 4

`AXIOMS.md` lists the axioms of every theorem named in `MANIFEST.json` (generated with `#print axioms`).

## Layout

* `lean/Verif/Spec/*` — small specifications, independent of the model (what the English says).
* `lean/Verif/Model/*` — the model: one definition per Python function, each citing file and lines in /repo.
* `lean/Verif/Lemmas/*` — helper lemmas.
* `lean/Verif/Props/*` — the property theorems (`C01_...`). Beside each theorem an `example` shows that a concrete,
  non-trivial case meets its hypotheses.
* `seeded/LOG.jsonl` — wrong programs tried against the theorems: the edit, the claim it breaks, the theorems that failed.

Suffixes: `_partial` is a part of a property (what is missing is in the note of the manifest and above the theorem);
`_refuted` is the negation of the property for the code as it is, with a concrete witness. When the code violates a property the full
statement stays in `properties.jsonl`, the refutation is a theorem, and the part that holds is a `_partial` theorem.

## Conventions of the model

* Numbers. The code computes in float64. The model is exact: a generic linearly ordered field `K` (with floor where `rint` or
  `digitize` is needed), so that definitions run on `ℚ` and theorems cover `ℝ`; `ℝ` where norms, square roots, exponentials or
  derivatives are needed. Rounding, overflow, NaN and infinities are **not** modelled, except where a branch of the code is about them
  (`-inf` in `discrete_policy_optimization`, the bit patterns in `unique_rows`, the `2 * _EPS` clipping in `_center_states`).
  `C01_index_roundtrip_robust` shows a margin against rounding errors. The index functions of `GridWorld` are modelled a second time in
  floating point and 64 bit integer arithmetic (`Model/FloatGrid`, C93, C94): every operation is followed by a rounding that obeys the
  standard model `|fl x - x| ≤ u |x|` (no overflow, underflow, NaN); rounding to 53 bits is shown to obey it.
  `update_safe_set` and `get_safe_sample` are modelled a second time with infinities, NaN and rounding (`Model/NonFinite`, C110, C118, C119,
  C144); C119 and C144 hold for IEEE 754 double precision with subnormal numbers and overflow as long as the compared numbers are finite.
* Shapes. A batch is a `List` of rows; a row is `Fin d → K` or, where the code can be called with wrong widths, a `List K`. Shape errors
  are values of `Except PyErr`, with the Python exception as constructor.
* TensorFlow. Graph construction followed by `eval` is modelled as calling the denoted function. Graph elements kept by
  `get_storage`/`set_storage` *are* modelled where the stored closure captures arguments (C29, C40, C43, C79).
  Variables are a store that is read at evaluation.
* External code is a parameter with an explicit contract as hypothesis (table below), never an axiom.
* Mutation is returning the new value (C76 models the caller's array explicitly); loops are folds or structural recursion; exceptions are values,
  and the state after an exception is part of the result where it matters (C21, C77).

## Plan per property

| Id | What is modelled | How it is proved |
|----|------------------|------------------|
| C01 | `Model/Grid`: `index_to_state`, `state_to_index` with mixed-radix `ravel`/`unravel`, `rint`, `clip` | induction on the dimension for the radix, floor arithmetic for `rint` |
| C02 | same | `rint` is a nearest integer, per coordinate |
| C03 | `all_points` as a mesh | induction on the dimension |
| C04 | `state_to_rectangle` with `digitize` | `digitize` on a uniform grid is a floor; clipping cases |
| C05 | `rectangle_to_state`, `rectangle_corner_index` | radix lemmas for the two shapes |
| C06 | constructor and argument checks as `Except` | case analysis |
| C07 | `sample_continuous`, `sample_discrete`; the generator is a parameter | interval arithmetic; explicit preimage for surjectivity |
| C08 | `PiecewiseConstant`, COO matrices with duplicate summation | list sums |
| C09 | `_Triangulation` with the unit triangulation as parameter; `_Delaunay1D` modelled | linear algebra over `Matrix` |
| C10 | same | from C09 |
| C11 | same | extreme-point argument for the corners, with the margin `2 * _EPS` |
| C12 | same | from C09 with the clipping analysed; counterexample in the strip of two dimensions |
| C13 | `parameter_derivative` | list sums |
| C14 | `gradient`, `gradient_parameter_derivative` | slope of an affine function on a simplex |
| C15 | `find_simplex`, `simplices` | index arithmetic |
| C16 | `project` | unfolding both sides of a spec-level equation |
| C17 | the TensorFlow class `Triangulation` | refinement to the numpy class |
| C18 | as C09 | common faces of neighbouring cells; counterexample with five simplices in three dimensions |
| C19 | `Model/Lyapunov`: `update_safe_set` as a loop over batches, all histories of calls | invariant over histories, refinement of the loop to "longest prefix" |
| C20 | same | same; independence of the batch size by the refinement |
| C21 | same | invariant over histories, including calls that raise |
| C22 | same | invariant; counterexample with changed values |
| C23 | same | as C20; three counterexamples |
| C24 | same | corollary of the characterisation in C20 |
| C25 | `Model/Decrease`: `threshold`, Lipschitz constants | triangle inequalities |
| C26 | `v_decrease_confidence`, `v_decrease_bound` | order arithmetic over the box of next states |
| C27 | C19, C25 and C26 combined | minimum of finitely many margins gives a uniform decrease |
| C28 | adaptive branch, refined points | partial theorem about what is checked; counterexample |
| C29 | the stored graph | invariant over histories; counterexamples |
| C30 | `is_safe` | C02 for the closest state |
| C31 | `Model/Boundary`: `smallest_boundary_value` | minimum over a mesh |
| C32 | `Model/Region`: best-first search with a heap as priority queue | invariants over search states; termination measure |
| C33 | same | invariants; counterexample |
| C34 | `Model/SafeSample`: `get_safe_sample` | list lemmas, C26 |
| C35 | same | first maximum of a list |
| C36 | same | case analysis; counterexample |
| C37 | `perturb_actions` | list membership |
| C38 | `Model/Batchify` | induction |
| C39 | `combinations`, `linearly_spaced_combinations` | mesh membership, no duplicates |
| C40 | `get_storage`, `set_storage` as nested dictionaries | refinement to a map, induction over histories; counterexample |
| C41 | `get_feed_dict` as a heap | induction over histories |
| C42 | `unique_rows` on bit patterns | list lemmas |
| C43 | `compute_trajectory` with its stored graph | induction over steps and histories |
| C44 | `dlqr`; Riccati solver as parameter | matrix identities |
| C45 | `lqr` | matrix identities |
| C46 | `add_weight_constraint`, `gradient_clipping` | order lemmas, all interleavings of read and step |
| C47 | `concatenate_inputs` | list lemmas |
| C48 | `ellipse_bounds` | trigonometry; the function raises |
| C49 | `Model/Functions`: expression trees over a variable store | induction on trees |
| C50 | `copy_parameters` | induction; counterexamples |
| C51 | `Saturation` | order lemmas with broadcasting |
| C52 | `FunctionStack` | list induction; counterexamples |
| C53 | `Model/GaussianProcess`: cached Cholesky prediction | matrix algebra against the textbook posterior |
| C54 | histories of `add_data_point` | induction over histories |
| C55 | variance as the minimum of a quadratic form | minimisation argument |
| C56 | `QuadraticFunction` | sums; derivative |
| C57 | `LinearSystem` | list sums |
| C58 | `NeuralNetwork`, `lipschitz`; `tf.svd` with contract | operator norms; counterexamples |
| C59 | `Model/ReinforcementLearning`: `future_values`, `value_iteration` | weights of C09/C12; counterexample in the strip |
| C60 | `value_iteration` | Banach fixed point in the maximum norm, unbounded number of iterations |
| C61 | `optimize_value_function`; `cvxpy` as parameter | comparison argument for linear programs; counterexample |
| C62 | `bellmann_error` | sum of squares |
| C63 | `discrete_policy_optimization` | first maximum with minus infinity; counterexample |
| C64 | whole rounds of policy iteration | monotone operator and contraction |
| C65 | `future_values` with `lyapunov` | case analysis; counterexample |
| C66 | `Model/LyapunovNetwork` | induction on layers, positive definite kernels |
| C67 | `Model/Systems`: `InvertedPendulum` | derivatives |
| C68 | `CartPole` | derivatives; counterexample |
| C69 | `VanDerPol` | derivatives; counterexample |
| C70 | `Model/Features`: `find_nearest` with binary search | invariant of the search; counterexample |
| C71 | class weights | sums over classes |
| C72 | `derivative_monomials` | derivatives per degree; counterexamples |
| C73 | `Model/Simulation`: `compute_roa` | induction over the horizon |
| C74 | `reward_rollout` | induction over the horizon, geometric tail; counterexample |
| C75 | `constrained_batch_sampler` | list lemmas; counterexamples |
| C76 | in-place reduction of `indices` | the array of the caller as part of the state; counterexample |
| C77 | `add_data_point` that raises | state after the exception; counterexample |
| C78 | `sample_gp_function` | linear algebra; counterexamples |
| C79 | the graph stored by `discrete_policy_optimization` | induction over histories; counterexample |
| C80 | `get_parameter_change` | norm axioms (Minkowski); counterexamples |
| C81 | `compute_closedloop_response` | induction over steps |
| C82 | `gridify` | C39 |
| C83 | `monomials` | enumeration of exponents per degree; counterexample |
| C84 | `PolicyIteration.future_values` with all optional arguments | characterisation (iff) row by row; mutation testing showed that C59-C65 did not pin the `policy` argument |
| C85 | `GPSession`: hyperparameters of the model, hyperparameters in the feed dictionary, data and cache | invariant over histories: fed hyperparameters, data and cache belong together; counterexamples for the rest |
| C86 | `toMeanFunction` | composition with C52, C53 and C85 |
| C87 | `Explorer`, `Explorer.getSafeSample`, `Explorer.run` | invariant: the stored objects are the current ones or nothing; witness with two policies |
| C88 | `ControlSystem`, `explore` on top of `Lyap` and `SampleSystem` | composition of C23, C26, C27 and C34; witness: a system with an unstable fixed point between the grid points |
| C89 | `TFProgram`, `ScopedFn`, `TFGraph` (names, templates, variables), `matchScope` | invariant of all programs: scopes are fresh and plain, variables are below the scope of their function; witnesses with dots, slashes and an open variable scope |
| C90 | `ScopedFn.saturation`, `ScopedFn.evaluateIn` | induction over the wrapped functions with the invariant of C89; witness: a network with a trained weight |
| C91 | `Tri.tfGradient`, `Tri.saturatedEvaluate`, `Tri.saturatedGradient` | derivatives over the real numbers from the slope property C17; witnesses on a grid with two points |
| C92 | rounds `optimizeValueFunction`, `discretePolicyOptimization` as sequences of variables | pigeonhole on the policies, monotone values (C64), uniqueness of the Bellman solution |
| C93 | Model/FloatGrid: the grid functions with a rounding after each operation | relative error analysis in an ordered field; witnesses in double precision |
| C94 | `int64Prod`, `machineNindex`, `machineNrectangles` | induction over the axes; witness |
| C95 | `Model/ProjectSession`: constructor, property, setter, calls and tensors | induction over the program; witnesses on the line |
| C96 | `Model/Certificate`: `lyapunov_sos`, `lyapunov_sos_derivative` over the modelled monomials | product rule for the quadratic form along arbitrary curves; witness `x^2` |
| C97 | `Model/Certificate`: the certificate cell, `argsort` as an arbitrary sorting permutation | split of the order at the first violation, combined with C96 along solutions |
| C98 | `Model/Certificate`: the outer loop, training as arbitrary candidates | induction over the iterations; backward invariance of the region of attraction |
| C99 | `Model/Certificate`: the objective with the modelled class weights | every summand is non-negative and characterised; witness on the level |
| C100 | `Model/Setup`: the four formulas for `tau` in the notebooks | `C02` for the upper bound, the centre of a cell for the lower bound; witnesses |
| C101 | `Model/Setup`: `L_pol`, `L_dyn`, `L_v` as functions of the matrices | operator norm of a matrix in the 1-norm, clipping is non-expansive, expansion of the quadratic form; witnesses |
| C102 | `Model/Plots`: `reshape`, `.T`, `imshow` with both origins, `meshgrid` and `plot_surface` | coordinates of pixels against `Spec.IsGridPoint`; witness `x[0]` |
| C103 | `Model/Plots`: the masks, `find_nearest`, strided slices | filter of the row-major enumeration, order and multiplicity by induction |
| C104 | `Model/Scripts`: the hook on JSON values, with exceptions and their partial effects | induction over the cells, algebra of setting keys |
| C105 | `Model/Scripts`: nodes with attribute maps, protobuf's default on access | membership in the mapped attributes; number of digits by induction; witness |
| C106 | `Model/ReinforcementLearning`, `Model/ExampleLoops`: the reward of the mountain car | convex combinations, induction over the iterations, maximal and minimal entry of the fixed point; witness in the strip |
| C107 | `Model/ExampleLoops`: the loop with `break`, the array of states | invariant of the remaining rounds |
| C108 | `Model/ExampleLoops`: boolean indexing and `argmax` | specification of `argmax` on the filtered states |
| C109 | `Model/ExampleLoops`: the meshgrid of states and actions, the masks and their assignment to rows | list algebra of `reshape` and masked assignment; triangle inequality for the meaning |
| C110 | `Model/NonFinite`: floating point values with IEEE rules for NaN and infinities, `decrease`, `threshold`, `n_req`, the whole of `update_safe_set` and its histories | case analysis of the arithmetic, the loop over batches for arbitrary verdicts, induction over histories; refinement between the floating point and the exact model |
| C111 | `Model/NonFinite`: `tf_maps_inside`, `np.argmax` with NaN, the selection of `get_safe_sample` | invariant of the scan; arithmetic lemmas of C110; witness |
| C112 | `Model/NonFinite`: `np.clip`, `astype(np.int32)`, `np.digitize` and the weights for floating point entries | propagation of NaN through sums and products; reduction to the exact model; witness |
| C113 | `Model/Unfinished`: comparison of a tensor with a method, assignment to a tensor | case analysis over all arguments |
| C114 | `Model/Unfinished`: order of creation of the variables, the loop with its offset | case analysis of the first two layers |
| C115 | `Model/Unfinished`: constructor with its reshape, `build_evaluation` | row-major layout of the transposed centres; sums of exponentials |
| C116 | `Model/TfFun`: `Graph.unique_name`, the registry of gradients, `gradient_override_map`, wrapped calls | freshness of names by counting, invariant over programs; witness for all functions |
| C117 | `Model/PlotMore`: the stored tensors, bands, masked curves, helper lines | Lipschitz bound, first maximum of a filtered list; witness |
| C118 | `Model/Triangulation`, `valueLipschitzTriangulation` in `Model/Setup` | finitely many affine pieces along a segment, continuity (C18) and the mean value inequality with lower right derivatives; witness at a kink |
| C119 | `Model/NonFinite` with a rounding function | calculus of relative errors over the operations; induction over the history; witness in double precision |
| C120 | `Model/Triangulation`, `Model/PiecewiseConstant` | the vertices found are corners of the cell of the point; an identity for the weighted 1-norm distance to the corners; a cone at a cell centre attains the bound |
| C121 | `Model/ReinforcementLearning` | C120 for the next states; the Bellman operator keeps the Lipschitz constant; induction over the iterations; maximum argument for the fixed point |
| C122 | `Model/ReinforcementLearning` | C64 (optimality on the grid) and C121 for both policies |
| C123 | `Model/FloatTriangulation` | error analysis of remainder, digitize and the weights; the extrapolation from a wrong simplex of the same or a neighbouring cell is bounded by the geometry of corner simplices; concrete double precision computations for the violations |
| C124 | `Model/Utilities` (`dlqr`) | completion of squares in every step; a bounded cost forces the value to become small; a positive definite form bounds every other by compactness of the sphere |
| C125 | `Model/Utilities` (`lqr`) | derivative of the quadratic form along solutions; mean value inequality for right derivatives; exponential comparison |
| C126 | `Model/Setup` (`linearPolicy`), `Model/Utilities` (`dlqr`), `Model/Systems` | derivative of the closed loop by the chain rule, the saturation is inactive near the origin; the remainder is dominated by the decrease; induction over time |
| C127 | `Model/FloatTriangulation` | the location error of C123, then standard rounding analysis of the weights and sums (`Lemmas/FloatWeights`) |
| C128 | `Model/FloatValueIteration` | one run is a perturbed contraction, induction over the runs; divergence by an invariant of the signs and sizes of three values |
| C129 | `Model/GaussianProcess`: evaluation as rows of a stack | the posterior variance is the squared norm of an error functional plus the effect of the noise; Cauchy-Schwarz; then C52, C53, C54 and C27 |
| C130 | `Model/RefinedTau`: the conversion of tau to int32, update_safe_set with it, histories | C28's reasons for acceptance with the required refinement in them; ceil(safety_factor * threshold / decrease) is enough |
| C131 | `Model/Configuration`: types of arrays and tensors, a session with a global setting | types of existing objects are invariant under all steps; induction over histories |
| C132 | `Model/ScipyDelaunay`: the points handed to scipy | the points are all_points of the grid with swapped axes; C03 |
| C133 | `Model/Systems`: ode | the vector fields satisfy the equations of motion; chain rule for the energy along a curve |
| C134 | `Model/Lyapunov`, `Model/GaussianProcess` | the certified prefix of the value order is monotone in the condition; witnesses computed by the kernel, and a Gaussian process with constant kernel whose upper bound increases from 1/2 + sqrt(1/2) to 3/4 + 1/2 |
| C135 | `Model/Interrupts`: the assignments of a call in order, of which a prefix is executed | invariants over histories with stopped calls; the complete list of assignments is the model of the call; case distinction over the crash points |
| C136 | `Model/Interrupts`: the assignments of all components in order, of which a prefix is executed, in histories | invariant that the stored pairs are a part of the submitted ones, through stopped assignments; monotony of coverage in the data; C129 for the region |
| C137 | `Model/GaussianProcess`, with a true function and errors as random variables (`Spec/RandomTruth`) | orthogonality of the residual to the data; independence for Gaussian processes; Chebyshev and sub-Gaussian tails with a union bound; Fubini for the conditional distribution |
| C138 | `Model/LearningLoop`: rounds of choosing, measuring and `add_data_point` on the stack | induction over the rounds; partition of the probability space by the inputs that are chosen; independence of the residual and the data; C27 for the region; union bound |
| C139 | `Model/Systems`: ten Euler steps between denormalisation and normalisation | local error of an Euler step from the mean value inequality; induction over steps that keeps the states in the tube; discrete Gronwall |
| C140 | `Model/Discretise`: scipy's zero-order hold as blocks of the exponential of the augmented matrix; `Model/Systems` | uniqueness of solutions of linear differential equations; remainder of the exponential series; telescoping of tenth powers; perturbation of a quadratic Lyapunov function |
| C141 | `Model/Systems`, `Model/Lyapunov`, `Model/Decrease` | existence and Gronwall bounds for solutions of differential equations; the error of Euler's method (C139); the safe-set argument of C27 for the real sampled system |
| C142 | `Model/Imports` | case analysis of the lookup; induction over sequences of calls |
| C143 | `Model/NameScopes` | induction over programs |
| C144 | `Model/NonFinite`, `Model/Systems` | rounding margins of C119 and the solution operator of C141, combined by a descent along trajectories; the loop is the one of C20 with the rounded test |
| C145 | `Model/Utilities` | an inaccurate solution solves the equation for other weights; completed squares as in C124, C125 |
| C146 | `Model/ReinforcementLearning` | comparison with the solution shifted by a constant (the weights add up to one); induction over the rounds |
| C147 | `Model/Setup`, `Model/Systems` | decrease of the quadratic form along the model from C145, moved to the linearisation by its distance from the model, then to the system by C126 |
| C148 | `Model/ReinforcementLearning`, `Model/Triangulation` | C146 for the values of the rounds, C106 for the bound on values, C121 between values and returns, Lipschitz continuity of the return from the nearest grid point to the start |
| C149 | `Model/FloatPolicyOptimization`, `Model/FloatValueIteration` | argmax over computed columns; C128 for the error of one backup; modified policy iteration with an error in every greedy step (`Lemmas/ModifiedPolicyIteration`), by induction over rounds |
| C150 | `Model/FloatGaussianProcess` | limits of all routines along sequences of roundings (`Lemmas/FloatGaussianProcess`); backward error analysis of substitution and factorisation with factors `(1-u)^(-k)` (`Lemmas/FloatFactor`), perturbation of the factors of a positive definite matrix (`Lemmas/InaccurateFactor`); evaluation of the model in double precision for the refutation |
| C151 | `Model/FloatGaussianProcess`, `Model/NonFinite`, `Spec/RandomTruth` | composition of the error bounds of C150 with the rounding calculus of C119 and the history invariant of C110, union bound of C138 for the probability |
| C152 | `Model/FloatGaussianProcess`, `Model/NonFinite`, `Spec/RandomTruth` | uniform decrease in the cells from C151, descent of the value to the initial set by induction, union bound of C138 for the probability |
| C153 | `Model/FloatGaussianProcess`, `Model/NonFinite`, `Spec/RandomTruth` | selection lemma for `selectSample`, error bounds of C151, union bound of C138 for the probability |
| C154 | `Model/FloatParametric`, orders of additions as trees | error calculus `NearBy` along the tree; witness in double precision by evaluation in the kernel |
| C155 | `Model/FloatParametric`, `Model/NonFinite` | C154 for values and next states, quadratic functions are Lipschitz on boxes, C144 with local constants |

## What is modelled and what is not

| File | Modelled | Not modelled |
|------|----------|--------------|
| `safe_learning/functions.py` | arithmetic of `Function`, `AddedFunction`, `MultipliedFunction`, `ConstantFunction`, `copy_parameters`, `FunctionStack`, `Saturation`, `GPRCached`, `GaussianProcess`, `GridWorld`, `PiecewiseConstant`, `_Delaunay1D`, `_Triangulation`, `Triangulation`, `QuadraticFunction`, `LinearSystem`, `sample_gp_function`, `NeuralNetwork`, the scopes and variables of function objects, the points of `ScipyDelaunay` | `scipy.spatial.Delaunay`, gpflow's own code |
| `safe_learning/lyapunov.py` | `smallest_boundary_value`, `get_lyapunov_region`, `Lyapunov` (constructor, `lipschitz_*`, `threshold`, `is_safe`, `update_values`, `v_decrease_confidence`, `v_decrease_bound`, `update_safe_set`), `safety_constraint`, `perturb_actions`, `get_safe_sample` | the number of parallel iterations of `tf.while_loop` |
| `safe_learning/reinforcement_learning.py` | all of `PolicyIteration` | the solver behind `cvxpy` |
| `safe_learning/utilities.py` | `concatenate_inputs`, `add_weight_constraint`, `gradient_clipping`, `batchify`, `combinations`, `linearly_spaced_combinations`, `lqr`, `dlqr`, `ellipse_bounds`, `get_storage`, `set_storage`, `get_feed_dict`, `unique_rows`, `compute_trajectory`, `make_tf_fun`, `with_scope` | |
| `safe_learning/configuration.py` | `dtype` and the functions that read it, `gp_batch_size` | printing |
| `examples/utilities.py` | `LyapunovNetwork` with `print_params`, `RBFNetwork`, `InvertedPendulum`, `CartPole`, `VanDerPol`, `reward_rollout`, `constrained_batch_sampler`, `get_parameter_change`, `compute_closedloop_response`, `gridify`, `compute_roa`, `find_nearest`, class weights, `monomials`, `derivative_monomials`, `import_from_directory` | `binary_cmap` (display) |
| `lyapunov_function_learning.ipynb` | sum-of-squares candidate and level, training loop, objective, constants, images | optimiser, colours and labels |
| `examples/plotting.py` | `plot_triangulation`, `plot_lyapunov_1d`, `strip_consts` | `show_graph`, colours and labels (display only) |
| other notebooks | `tau` and Lipschitz constants, images, surfaces, planes and sub-samples, mountain car, `update_gp`, `get_safe_sets` | optimiser runs, colours and labels |
| `scripts/jupyter_output.py` | `scrub_output_pre_save` | its registration with Jupyter |

## Trusted base

* Lean 4.33.0's kernel, and the statements of the theorems.
* Axioms: at most `propext`, `Classical.choice` and `Quot.sound`, per theorem in `AXIOMS.md`. No axiom is added; there is no `sorry`,
  `admit`, `native_decide` or `bv_decide`. Concrete cases use `decide +kernel`, which is checked by the kernel.
* The reading of the Python source in the cited definitions, with the simplifications named in their comments.
* The contracts of external code, which are hypotheses of the theorems:

| External code | Contract | Where |
|---------------|----------|-------|
| `scipy.spatial.Delaunay` | simplices are non-degenerate with corners of the unit rectangle as vertices, `find_simplex` returns a simplex containing the point (`_Delaunay1D` is proved to satisfy it) | C09-C18, C59-C64 |
| `np.argsort` | a permutation that sorts; any order of ties | C19-C24, C27 |
| `heapq` | a priority queue ordered by value, then by the counter | C32, C33 |
| `np.random` | values in the documented range | C07, C35, C78 |
| `scipy.linalg.solve_*_are` | the result is symmetric and solves the Riccati equation; the inverted matrix is invertible | C44, C45 |
| `tf.cholesky` | the lower triangular factor with positive diagonal (existence is proved for positive definite matrices) | C53-C55, C78 |
| `tf.svd` | orthogonal factors and a diagonal middle factor | C58 |
| `cvxpy` | a reported optimum is one | C61 |
| `scipy.signal` discretisation | none: any function of the matrices and the step | C67-C69 |
| TensorFlow unique names | a new name is the given one with a plain suffix and is not in use | C89, C90 |
| TensorFlow | evaluation of a graph element is the denoted function of the current variables and the feed dict; concurrent reads and writes in any order where the graph has no control dependency (C46) | everywhere |

## The tests of the project on the model

`Verif/Conformance` states the project's own unit tests as theorems about the model, with the inputs and the expected results of the
tests. They are checks of the model, not properties, and are not in the manifest.

| module | tests |
|---|---|
| `Conformance/Grid.lean` | `TestGridworld`, `TestPiecewiseConstant`, `test_smallest_boundary_value` |
| `Conformance/Triangulation.lean` | `test_scipy_delaunay` (counts), `TestTriangulationNumpy`, `test_evaluate` and `test_projected_evaluate` of `TestTriangulation` |
| `Conformance/Utilities.lean` | `TestFunction`, `TestQuadraticFunction`, `TestConcatenateDecorator`, `test_dlqr`, `TestStorage`, `test_get_feed_dict`, `test_unique_rows`, `TestLyapunov`, `test_optimization` |

Not restated: tests whose assertions are instances of a general theorem (`TestGPRCached`: C53, C54; `test_gradient_x` and
`test_gradient_param`: C13, C14, C17; `test_compute_trajectory`: C43; `test_neural_network`: C58), tests of mocks
(`test_future_values`), and `test_integration`, which runs gradient descent. The numbers of `Testgpflow.test_new_data` (means
0.16371139 and 0.22048311, errors 1.37678679 and 1.98183191) were compared with the formula of the model evaluated in Python, outside Lean:
they agree in all digits.

## Where the code disagrees with its documentation

Each entry with a number is a `_refuted` theorem (or is part of one).

* `update_safe_set`: states can be lost with `can_shrink=False` (C22); `c_max` wraps around or is too small (C23); the refined points of the
  adaptive discretisation are not used (C28); `policy`, `dynamics`, `tau`, `adaptive` and `safety_factor` of later calls are ignored (C29);
  local Lipschitz constants are not enough for the threshold (C25).
* `get_lyapunov_region`: `tiebreaker.next()` fails on Python 3 and the start node on the lower border is not recognised (C32); a popped node with a lower
  value stays in the region (C33).
* `get_safe_sample`: an explicit list of actions works only for one-dimensional states (C36) and ignores the limits.
* Triangulation: points in the strip of width `2 * _EPS` at the boundary have negative weights in two and more dimensions (C12), so that the value update is no exact
  contraction (C59) and the linear program can be unbounded (C61), the optimised policy can be worse (C64) and policy iteration can stop early (C92); the interpolant is discontinuous in that strip, and in three and more dimensions it can be discontinuous inside (C18);
  `gradient_parameter_derivative` writes into the array of the caller (C76), and its rows are ordered differently from the docstring (C14).
* Storage with and without index for one method loses entries (C40). `ellipse_bounds` always raises `TypeError` (C48).
* `AddedFunction.copy_parameters` copies the first summand twice and `Saturation.copy_parameters` raises (C50). `FunctionStack.parameters` always raises; `add_data_point` fails
  for one function and for several rows (C52). A rejected `GaussianProcess.add_data_point` leaves `X` longer than `Y` (C77).
* `sample_gp_function` adds a mean function twice and mixes the prior kernel with the posterior covariance (C78).
* `NeuralNetwork.lipschitz` ignores `output_scale` and skips every second matrix without biases (C58).
* `discrete_policy_optimization` takes the first action if none is safe (C63) and keeps the attributes of the first call (C79); `future_values` with `lyapunov` raises for
  deterministic dynamics (C65).
* Changed hyperparameters of a Gaussian process are not used before the next `add_data_point`, and `update_feed_dict` alone combines them with the old factorisation (C85).
* `Function.parameters` uses the scope as a regular expression, so names with dots or slashes list variables of other functions; a network made in an open variable scope lists none (C89).
* `Saturation` evaluates the wrapped function in its own scope. A saturated `NeuralNetwork` has separate weights, while `parameters` are the weights of the network (C90).
* `gradient` of a triangulation with `project=True` is not zero outside the limits where the function is constant, and `Saturation.gradient` is the unsaturated gradient (C91).
* In double precision the round trip of indices fails for grids finer than the spacing of numbers, and `all_points` differs from `index_to_state` at the upper limit (C93); `len(grid)` wraps around for more than `2 ** 63` points (C94).
* `s.project = True` on a saturation `s` of a triangulation is accepted and changes nothing; `f.project = True` does not change tensors made before (C95).
* Notebook `lyapunov_function_learning`: `lyapunov_sos_derivative` is half of the derivative and ignores the values of `norm` (C96); the level `cmax_sos` may include unchecked states, with ties and without the origin (C97); a zero objective allows unlabelled states on the level (C99).
* Notebooks: `tau = np.min(unit_maxes)` (inverted_pendulum), `tau = np.max(unit_maxes)` in three or more dimensions and `tau = 1 / nindex` (1d_region_of_attraction_estimate) do not cover the state space (C100); `np.max(np.abs(a)) + np.max(np.abs(b)) * L_pol` is no Lipschitz constant with two states, and the gradient at the grid point is no local Lipschitz constant of a quadratic Lyapunov function (C101); the surface plots are transposed (C102).
* `strip_consts` with a `max_const_size` below 18 enlarges constants (C105).
* `c_max` becomes NaN if no state is certified and the Lyapunov function is NaN somewhere (`C23_c_max_refuted_nan`); the backup policy of `get_safe_sample` prefers a pair whose uncertainty is NaN (C111); `state_to_rectangle` accepts NaN (C112).
* `safety_constraint` raises for every argument (C113); `LyapunovNetwork.print_params` always raises, and its loop would print the variables of other layers for every network with two or more layers (C114); `RBFNetwork` cannot be constructed, it reads an attribute that does not exist (C115).
* Functions decorated with `make_tf_fun(gradient=...)` raise `KeyError` in the second graph they are used in (C116). `plot_lyapunov_1d` keeps the policy and the dynamics of its first call and draws its second helper line at a state that need not be safe (C117).
* Notebook `inverted_pendulum`: `lipschitz_lyapunov` is the gradient of the value function at the state, which does not bound the value function in the neighbouring simplices (C118).
* `update_safe_set` compares rounded numbers without a margin; in double precision it certifies a state at which the value increases (C119). Giving the code a slightly larger `tau` repairs this.
* In floating point arithmetic a triangulation does not interpolate: `_EPS` is an absolute constant (functions.py:34, 607-609), so that in double precision
  `offset_limits` has no effect for domains of width 8 or more (C123_upper_limit) and the value at the upper corner is extrapolated from the wrong
  simplex (C123_grid_point_refuted). Inside the domain, `state_to_rectangle` and the remainder in `find_simplex` (functions.py:1120-1123) round
  differently at grid lines: on an 11x11 grid on [0, 1]^2 the value at the grid point (0.5, 0.5) is about -1 although the parameter is 0
  (C123_inside_refuted).
* `value_iteration` can diverge in double precision although `gamma < 1`: at grid points the
  wrong simplex can be found (C123), and the value there is extrapolated with weights `-1`, `1`, `1`, an amplification that
  `gamma` does not compensate (`C128_divergence_refuted`).
* For the same reason `discrete_policy_optimization` can prefer an action that leads to a grid point where the value function is zero to one that leads to its highest point (`C149_grid_lines_refuted`), and values of a triangulation can be off by twice the error of an interpolation (`C127_grid_lines_refuted`).
* `update_safe_set` with `adaptive=True` divides `self.tau` by an int32 tensor. With the TensorFlow versions of requirements.txt a Python float raises `TypeError` in every call and a numpy scalar is truncated, to zero if it is less than one (C130).
* `config.dtype` is read by two decorators when the package is imported: a `Triangulation` constructed after setting it to `tf.float32` can never be evaluated (C131).
* `ScipyDelaunay` ignores limits without a number of points (C132).
* The acceleration of the cart in `CartPole.ode` is wrong for every pendulum length other than one; energy appears from nothing (C133, compare C68).
* With adaptive refinement the safe set is not monotone: a better bound at one state or a larger `max_refinement` can remove another state, since all states fed together are compared with each threshold (C134). More data can remove states as well.
* `update_safe_set` sets all states unsafe before it sets the safe ones and then the initial ones: if it is interrupted in between, the initial safe set is lost (C135). `add_data_point` assigns inputs and targets in two statements: if it is interrupted in between, every later call raises.
* An interrupted `FunctionStack.add_data_point` must not be repeated: components that had finished then store the measurement twice (C136).
* If the predicted decrease overflows to minus infinity before the error bound is added, `update_safe_set` accepts a state whose exact numbers fail the test (C119).
* `build_evaluation` takes the square root of the computed variance without a lower bound: in double precision it can be negative although the exact posterior variance is positive, and the error bound is then NaN (`C150_nan_refuted`). The comparison with a NaN is false, hence such a state is not certified (C110).
* `QuadraticFunction` can be negative in double precision at a state where the exact value of the positive definite function is positive (`C154_positive_refuted`).
* The Lipschitz constant that the examples compute for a quadratic Lyapunov function can be smaller than the exact one in double precision (`C154_lipschitz_refuted`).
* `import_from_directory` ignores the given folder if `sys.path` has a module of the same name, and leaves the folder in `sys.path` if it fails (C142).
* The learning loops of the notebooks are modelled with an arbitrary choice of the next input from the measurements so far. The optimisation of the policy, the plots and the random numbers of `get_safe_sample` are part of this choice. Inputs come from countably many candidates, as all floating point inputs do (C138).
* `get_safe_sample` keeps the graph of its first call, hence a new `policy` or `dynamics` attribute is ignored while `update_safe_set` uses it (C87).
* `get_safe_sample` compares with `c_max`, but the safe set only certifies the level set below `c_max - L_v tau`. A returned sample can bring the true system to a state from which the policy diverges, although all assumptions hold and also with `positive=False` (C88).
* Examples: `InvertedPendulum.linearize` with negative friction (C67), `CartPole.linearize` for lengths other than one (C68), `VanDerPol.linearize` for dampings other than one (C69),
  the index of `find_nearest` for unsorted arrays (C70), `derivative_monomials` beyond two coordinates or degree three (C72), the convergence message of `reward_rollout` (C74),
  `constrained_batch_sampler` with `action_limit` or one admissible state (C75), `get_parameter_change` with `-inf`, negative integers, `fro`, `nuc` (C80), `monomials` from degree five on (C83).
