{"id": "C01", "title": "Variable lookup is exact and ordered", "statement": "find_variables_indices_in_vector(var, vector) returns exactly the pairs-of-equal-symbols positions: an index i is returned iff vector[i] is one of the symbols in var, indices are grouped in the order of var and increasing inside a group, and when the symbols of both vectors are pairwise distinct no index is repeated and vector[result] reproduces the found part of var in var's order.", "quantifier": "every symbol vector var and every symbol vector, of any length, with or without repeated symbols", "why_tests_cant": "Tests use two or three hand-picked vectors; the ordering and duplicate behaviour must hold for all lengths and permutations because bounds and equations are re-indexed with the result.", "anchors": ["yaocptool/util/util.py:find_variables_indices_in_vector"]}
{"id": "C02", "title": "Removing variables from a vector removes exactly those variables", "statement": "remove_variables_from_vector(var, vector) raises ValueError iff no symbol of var occurs in vector; otherwise the result is vector with every occurrence of every symbol of var deleted and all other symbols kept in their original order; removing a block that was just appended to a vector not containing it gives the vector back.", "quantifier": "every symbol vector var and vector of any length", "why_tests_cant": "Tests delete one or two variables; order preservation and the exact error condition have to hold for all vectors.", "anchors": ["yaocptool/util/util.py:remove_variables_from_vector"]}
{"id": "C03", "title": "Removing by indices validates the indices", "statement": "remove_variables_from_vector_by_indices(indices, vector) either raises ValueError, which happens for every index list containing an index that does not address an element, or returns the vector without exactly the addressed elements, other elements in order.", "quantifier": "every index list (including negative, repeated and unsorted indices) and every vector", "why_tests_cant": "The boundary index (index == length) and negative indices are not exercised by tests; the claim ranges over all lists.", "anchors": ["yaocptool/util/util.py:remove_variables_from_vector_by_indices"]}
{"id": "C04", "title": "Joining per-element parameters concatenates them key by key", "statement": "join_thetas(t1,...,tk) of tables defined on the same finite elements returns a table defined on exactly these elements whose value at each element is the concatenation of the arguments' values in argument order; empty arguments are neutral; tables with different (non-zero) numbers of elements raise ValueError; create_constant_theta(c, dim, n) is defined exactly on 0..n-1 with dim copies of c.", "quantifier": "every finite sequence of tables and every element index", "why_tests_cant": "Tests join two fixed tables; the layout must be right for any number of tables and elements since the solvers read it positionally.", "anchors": ["yaocptool/util/util.py:join_thetas", "yaocptool/util/util.py:create_constant_theta"]}
{"id": "C05", "title": "Element-time and absolute-time conversions are mutually inverse", "statement": "Rewriting an expression in element time (not mentioning absolute time) to absolute time over [t_k, t_k+1] and back over the same element (length h = t_k+1 - t_k, nonzero) gives an expression with the same value for every assignment, and element time 0 / 1 corresponds to t_k / t_k+1.", "quantifier": "every expression, every assignment of its symbols, every element with nonzero length", "why_tests_cant": "Numerical tests sample points; the identity is an equality of expressions over all assignments.", "anchors": ["yaocptool/util/util.py:convert_expr_from_tau_to_time", "yaocptool/modelling/system_model.py:SystemModel.convert_expr_from_time_to_tau", "yaocptool/modelling/system_model.py:SystemModel.convert_expr_from_tau_to_time"]}
{"id": "C06", "title": "Polynomial approximation interpolates its parameters", "statement": "The approximation of a vector of size n and degree d built on pairwise distinct collocation points takes, at the j-th collocation point, exactly the j-th column of parameters; it is the unique polynomial of degree < number of points doing so; the basis sums to one everywhere; for degree 1 it is constant and equal to its parameter.", "quantifier": "every size, degree, set of pairwise distinct collocation points, parameter values and evaluation points", "why_tests_cant": "Interpolation must hold for each degree and point set; tests evaluate a few numeric cases in floating point.", "anchors": ["yaocptool/util/util.py:create_polynomial_approximation", "yaocptool/util/util.py:_create_lagrangian_polynomial_basis", "yaocptool/methods/base/solutionmethodsbase.py:SolutionMethodsBase.create_variable_polynomial_approximation"]}
{"id": "C07", "title": "Constraint classification recognises inequalities and equalities", "statement": "is_equality(e) holds iff e is built with ==, and is_inequality(e) holds iff e is built with <= or < (>= and > are normalised by CasADi to these).", "quantifier": "every constraint expression", "why_tests_cant": "A single missing operator case is silent: the unit tests only use <= and ==.", "anchors": ["yaocptool/util/util.py:is_inequality", "yaocptool/util/util.py:is_equality"]}
{"id": "C08", "title": "Timeout context reports and propagates exceptions correctly", "statement": "A timeout block whose body finishes normally never raises; a body exception whose cause chain does not end in a TimeoutError is always propagated and reported as not timed out; one whose cause chain (up to 20 links) ends in a TimeoutError is reported as timed out and is suppressed iff raise_exc is false; the alarm is always cancelled on exit, whatever the body did.", "quantifier": "every body outcome: normal, unrelated exception, timeout wrapped at any depth of the cause chain, both values of raise_exception", "why_tests_cant": "The outcome depends on an unbounded cause chain and on where the signal lands; tests can only time a few bodies.", "anchors": ["yaocptool/util/timeout.py:timeout"]}
{"id": "C09", "title": "Timer only reports a duration after the block has finished", "statement": "Timer.elapsed raises until a block has finished, and from then on equals end minus start of the most recently finished block, which is non-negative for a monotone clock; elapsed_milisecs is always 1000 times that and raises in the same situations.", "quantifier": "every monotone clock and every enter/exit/read sequence", "why_tests_cant": "Depends on arbitrary clock readings and reuse histories.", "anchors": ["yaocptool/util/util.py:Timer"]}
{"id": "C10", "title": "State vector and equation table stay aligned", "statement": "In every model built by any sequence of state/algebraic/control/parameter inclusion, removal, equation inclusion and variable replacement calls that did not raise, each state has exactly one slot in the equation table, in the order of the state vector, and no state appears twice.", "quantifier": "every finite history of model building calls", "why_tests_cant": "An invariant over unbounded call histories with arbitrary interleavings.", "anchors": ["yaocptool/modelling/mixins/continuous_states_mixin.py:ContinuousStateMixin.include_state", "yaocptool/modelling/mixins/continuous_states_mixin.py:ContinuousStateMixin.remove_state", "yaocptool/modelling/mixins/continuous_states_mixin.py:ContinuousStateMixin.include_equations"]}
{"id": "C11", "title": "A model always has one initial-condition symbol per state", "statement": "After every successful model building call the initial-condition vector x_0 has as many symbols as the state vector x, position by position.", "quantifier": "every finite history of state inclusions and removals", "why_tests_cant": "Requires an invariant over histories; no test removes a state and then looks at x_0.", "anchors": ["yaocptool/modelling/mixins/continuous_states_mixin.py:ContinuousStateMixin.remove_state", "yaocptool/modelling/mixins/continuous_states_mixin.py:ContinuousStateMixin.include_state"]}
{"id": "C12", "title": "A rejected state inclusion leaves the model unchanged", "statement": "If include_state raises because a state is already present, the model is exactly as before the call.", "quantifier": "every model and every rejected include_state call", "why_tests_cant": "Crash points inside the call are not observed by tests that only assert the exception.", "anchors": ["yaocptool/modelling/mixins/continuous_states_mixin.py:ContinuousStateMixin.include_state"]}
{"id": "C13", "title": "ODE without explicit states fills the first equations-less states", "statement": "include_equations(ode=e) without x either raises ValueError or assigns the k-th expression to the k-th state among the trailing states that had no equation, leaving all other equations untouched; it raises when all states already have equations or when an equation-less state is followed by a state with one.", "quantifier": "every model state and every ode vector", "why_tests_cant": "The order-dependent guess has a case for every fill pattern of the table.", "anchors": ["yaocptool/modelling/mixins/continuous_states_mixin.py:ContinuousStateMixin.include_equations"]}
{"id": "C14", "title": "ODE vector matches the state vector", "statement": "When every state has an equation, the model's ode vector has the same length as x and its i-th entry is the equation last given for the i-th state, whatever the order in which equations were supplied; the ode vector is shorter than x iff some state has no equation.", "quantifier": "every permutation and interleaving of equation inclusions", "why_tests_cant": "Alignment must hold for every ordering of calls.", "anchors": ["yaocptool/modelling/mixins/continuous_states_mixin.py:ContinuousStateMixin.ode", "yaocptool/modelling/mixins/continuous_states_mixin.py:ContinuousStateMixin._include_equation_from_kwargs"]}
{"id": "C15", "title": "Control vectors stay aligned and controls are parametrised at most once", "statement": "In every history of control inclusion, removal and parametrisation the control vector and the control expression vector have the same length; a control that is not parametrised has itself as expression; parametrising a control a second time raises and changes nothing in the control vector, expression vector or parameters.", "quantifier": "every finite history of control calls", "why_tests_cant": "Invariant over unbounded histories.", "anchors": ["yaocptool/modelling/mixins/control_mixin.py:ControlMixin.include_control", "yaocptool/modelling/mixins/control_mixin.py:ControlMixin.remove_control", "yaocptool/modelling/mixins/control_mixin.py:ControlMixin.parametrize_control"]}
{"id": "C16", "title": "Replacing variables means evaluating at the replacement", "statement": "After replace_variable(v, w) every equation of the model (differential, algebraic, control expression), evaluated at any point, equals the old equation evaluated with every v[i] simultaneously given the value of w[i]; sizes must agree or ValueError is raised and nothing changes.", "quantifier": "every model, every pair of vectors, every evaluation point", "why_tests_cant": "Simultaneous substitution (for example swapping two variables) must hold for every expression tree.", "anchors": ["yaocptool/modelling/system_model.py:SystemModel.replace_variable", "yaocptool/modelling/mixins/continuous_states_mixin.py:ContinuousStateMixin.replace_variable", "yaocptool/modelling/mixins/algebraic_mixin.py:AlgebraicMixin.replace_variable", "yaocptool/modelling/mixins/control_mixin.py:ControlMixin.replace_variable"]}
{"id": "C17", "title": "A replaced variable no longer occurs", "statement": "After replace_variable(v, w), no symbol of v that does not occur in w occurs in any equation of the model, and equations not mentioning v are unchanged.", "quantifier": "every model and every pair of vectors of the same size", "why_tests_cant": "Quantifies over all expression trees.", "anchors": ["yaocptool/modelling/system_model.py:SystemModel.replace_variable"]}
{"id": "C18", "title": "Merging models concatenates them and preserves their dynamics", "statement": "After include_models/merge of models with disjoint variables, states, algebraics, controls, parameters and their equations are the concatenation in argument order, each merged state keeps its own equation, and no equation refers to the time symbol of a merged-in model.", "quantifier": "every finite list of models with pairwise disjoint variables", "why_tests_cant": "Must hold for any number and size of models.", "anchors": ["yaocptool/modelling/system_model.py:SystemModel.include_models", "yaocptool/modelling/system_model.py:SystemModel.merge"]}
{"id": "C19", "title": "Connecting an input to an output keeps the system square", "statement": "connect(u, y) of sizes that agree adds as many algebraic equations as algebraic variables, removes exactly the connected inputs from the control vector, and the added equations hold at a point iff u equals y there; with replace=True the equations are the old ones evaluated with u set to y and no algebraic variable is added; sizes that differ raise and change nothing.", "quantifier": "every model, every pair of input and output vectors, every evaluation point", "why_tests_cant": "Structural counting over arbitrary models plus an equivalence for every point.", "anchors": ["yaocptool/modelling/system_model.py:SystemModel.connect"]}
{"id": "C20", "title": "A copy of a model evolves independently", "statement": "After get_copy, any sequence of building calls on the copy leaves the original unchanged and vice versa, and the copy initially has the same equations and variables.", "quantifier": "every model and every later history of calls on either object", "why_tests_cant": "Aliasing bugs show up only for particular later call sequences.", "anchors": ["yaocptool/modelling/system_model.py:SystemModel.get_copy"]}
{"id": "C21", "title": "A deep copy uses only its own variables", "statement": "After get_deepcopy, every symbol occurring in the copy's equations is one of the copy's own variables (time, states, algebraics, controls, parameters), its i-th state has the equation of the original's i-th state, and deep-copying never raises on a valid model.", "quantifier": "every model", "why_tests_cant": "Depends on which variables the equations mention and on which states have equations.", "anchors": ["yaocptool/modelling/system_model.py:SystemModel.get_deepcopy"]}
{"id": "C22", "title": "The DAE handed to the integrator is complete and in a fixed order", "statement": "The parameter vector of the DAE system is [p; theta; u parameters], and the list of all symbols is time, states, algebraics, p, theta, u parameters; every model equation whose symbols are model variables (with controls expressed through their parameters) depends only on listed symbols.", "quantifier": "every model", "why_tests_cant": "Holds for all models, tests only build a few.", "anchors": ["yaocptool/modelling/system_model.py:SystemModel.all_sym", "yaocptool/modelling/system_model.py:SystemModel.get_dae_system"]}
{"id": "C23", "title": "Lookup by name returns the named variable or raises", "statement": "get_variable_by_name(name) returns the single matching variable, raises when nothing matches and when several match; get_variables_by_names returns matches in the order of the names given.", "quantifier": "every model and every query", "why_tests_cant": "Error branches depend on every combination of matching variables.", "anchors": ["yaocptool/modelling/system_model.py:SystemModel.get_variable_by_name", "yaocptool/modelling/system_model.py:SystemModel.get_variables_by_names", "yaocptool/util/util.py:find_variables_in_vector_by_name"]}
{"id": "C24", "title": "Simulation visits every requested time once and chains the state", "statement": "simulate with a list of times returns one sample per requested time plus the initial sample, the k-th integration starts at the (k-1)-th time from the (k-1)-th final state, so simulating to t1 then t2 gives the same states as simulating to t1 and restarting from there.", "quantifier": "every integrator, every non-empty list of times, every input sequence", "why_tests_cant": "The claim ranges over all integrators and grids.", "anchors": ["yaocptool/modelling/system_model.py:SystemModel.simulate", "yaocptool/modelling/dae_system.py:DAESystem.simulate"]}
{"id": "C25", "title": "Data sets keep one value column per time stamp", "statement": "In every entry of a data set built by any sequence of create/insert/extend/sort calls the time row and the value matrix have the same number of columns; a mismatched insertion raises and changes nothing.", "quantifier": "every finite history of data set calls, including rejected ones", "why_tests_cant": "Invariant over histories.", "anchors": ["yaocptool/modelling/dataset.py:DataSet.insert_data", "yaocptool/modelling/dataset.py:DataSet.extend", "yaocptool/modelling/dataset.py:DataSet.sort"]}
{"id": "C26", "title": "Sorting is chronological, stable and keeps samples together", "statement": "After sort, times of each non-empty sorted entry are non-decreasing, the multiset of (time, value) samples is unchanged, samples with equal time keep their relative order, and other entries are untouched; sorting twice equals sorting once.", "quantifier": "every data set", "why_tests_cant": "Permutation and stability over all data.", "anchors": ["yaocptool/modelling/dataset.py:DataSet.sort"]}
{"id": "C27", "title": "Sorting works on every data set", "statement": "sort (and therefore extend) succeeds on every data set, including ones with entries that hold no samples yet.", "quantifier": "every data set", "why_tests_cant": "The empty entry is an edge case that a grid of tests misses.", "anchors": ["yaocptool/modelling/dataset.py:DataSet.sort"]}
{"id": "C28", "title": "Extending a data set adds the other's samples", "statement": "After a.extend(b) every entry holds the samples of both in chronological order, entries only present in b are created, entries only present in a are only sorted; a size mismatch raises ValueError.", "quantifier": "every pair of data sets", "why_tests_cant": "Needs all combinations of entry sets.", "anchors": ["yaocptool/modelling/dataset.py:DataSet.extend"]}
{"id": "C29", "title": "Extending a simulation result covers both horizons", "statement": "After extending, t_0 is the minimum and t_f the maximum of both results, the number of finite elements is the sum, and results with different numbers of variables are rejected without change.", "quantifier": "every pair of simulation results", "why_tests_cant": "Arithmetic over all pairs and histories.", "anchors": ["yaocptool/modelling/simulation_result.py:SimulationResult.extend", "yaocptool/modelling/simulation_result.py:SimulationResult.__init__"]}
{"id": "C30", "title": "Problem bounds stay the size of the model", "statement": "In a problem built from a model by any history of successful state/algebraic/control inclusion and removal calls, all bound vectors (x, y, u, delta_u) have the size of the corresponding model vector, so the pre-solve size check accepts it.", "quantifier": "every finite history of problem building calls", "why_tests_cant": "Invariant over histories.", "anchors": ["yaocptool/modelling/ocp.py:OptimalControlProblem.include_state", "yaocptool/modelling/ocp.py:OptimalControlProblem.include_algebraic", "yaocptool/modelling/ocp.py:OptimalControlProblem.include_control", "yaocptool/modelling/ocp.py:OptimalControlProblem.remove_algebraic", "yaocptool/modelling/ocp.py:OptimalControlProblem.remove_control", "yaocptool/modelling/ocp.py:OptimalControlProblem.pre_solve_check"]}
{"id": "C31", "title": "Bounds stay attached to their variable", "statement": "After removing or connecting variables, every remaining variable of the problem has the same lower and upper bound it had before.", "quantifier": "every problem with distinct variables, every removed subset", "why_tests_cant": "Positional re-indexing has to be right for every subset.", "anchors": ["yaocptool/modelling/ocp.py:OptimalControlProblem.remove_algebraic", "yaocptool/modelling/ocp.py:OptimalControlProblem.remove_control", "yaocptool/modelling/ocp.py:OptimalControlProblem.connect"]}
{"id": "C32", "title": "Initial guesses stay the size of their variables", "statement": "Whenever an initial guess for the algebraic variables or controls is present, it has one entry per variable, after any history of problem building calls; a guess passed when a variable is included is never lost.", "quantifier": "every finite history of problem building calls", "why_tests_cant": "Interaction of several calls; tests check guesses for one inclusion.", "anchors": ["yaocptool/modelling/ocp.py:OptimalControlProblem.include_algebraic", "yaocptool/modelling/ocp.py:OptimalControlProblem.include_control", "yaocptool/modelling/ocp.py:OptimalControlProblem.connect", "yaocptool/modelling/ocp.py:OptimalControlProblem.merge"]}
{"id": "C33", "title": "An explicit initial constraint is kept", "statement": "When a state is included with an initial value the initial condition 'state = value' is enforced, and when an explicit initial constraint is given it is part of the problem's initial constraints.", "quantifier": "every inclusion call with any combination of the optional arguments", "why_tests_cant": "Depends on the combination of optional arguments.", "anchors": ["yaocptool/modelling/ocp.py:OptimalControlProblem.include_state"]}
{"id": "C34", "title": "Every path constraint has exactly one time tag", "statement": "After any history of constraint inclusion and merging, the lists of time tags have the same length as the path equality and inequality vectors, and the i-th tag is the one given for the i-th constraint.", "quantifier": "every finite history", "why_tests_cant": "Invariant over histories.", "anchors": ["yaocptool/modelling/ocp.py:OptimalControlProblem.include_time_inequality", "yaocptool/modelling/ocp.py:OptimalControlProblem.include_time_equality", "yaocptool/modelling/ocp.py:OptimalControlProblem.merge"]}
{"id": "C35", "title": "Merging problems concatenates them and adds their costs", "statement": "Merging problems with the same horizon yields bounds, constraints and optimisation parameters concatenated in order, costs summed, positive_objective iff all are, and every state/algebraic/control keeps its own bounds; a different horizon raises ValueError.", "quantifier": "every finite list of problems", "why_tests_cant": "Any number of problems of any size.", "anchors": ["yaocptool/modelling/ocp.py:OptimalControlProblem.merge"]}
{"id": "C36", "title": "Failed merge leaves the problem unchanged", "statement": "If merge raises because a problem in the list has a different horizon, the receiving problem is unchanged.", "quantifier": "every list of problems", "why_tests_cant": "Partial effects of a failing loop are not observed by tests.", "anchors": ["yaocptool/modelling/ocp.py:OptimalControlProblem.merge"]}
{"id": "C37", "title": "Connecting in a problem moves the input's bounds to the algebraic variable", "statement": "After connect(u, y) the new algebraic variables u have the bounds the inputs had, delta_u bounds of u disappear, sizes agree with the model, and remaining inputs keep their bounds.", "quantifier": "every problem, every list of distinct inputs in any order", "why_tests_cant": "Index bookkeeping for every ordering.", "anchors": ["yaocptool/modelling/ocp.py:OptimalControlProblem.connect"]}
{"id": "C38", "title": "Problem simulation covers the horizon", "statement": "simulate(finite_elements=n) of a problem samples the n+1 equally spaced times from t_0 to t_f inclusive.", "quantifier": "every horizon [t_0, t_f] and every n >= 1", "why_tests_cant": "Arithmetic for all horizons; the test would have to check the time grid at a nonzero t_0.", "anchors": ["yaocptool/modelling/ocp.py:OptimalControlProblem.simulate"]}
{"id": "C39", "title": "Optimised parameters are put back at their own position", "statement": "For every problem whose optimisation parameters are distinct model parameters, the i-th optimisation parameter's index addresses that same symbol in the model's parameter vector, so writing decision values through the indices assigns each optimised parameter its own value and leaves the others.", "quantifier": "every parameter vector and every subset/order of optimised parameters", "why_tests_cant": "All permutations.", "anchors": ["yaocptool/modelling/ocp.py:OptimalControlProblem.get_p_opt_indices", "yaocptool/modelling/ocp.py:OptimalControlProblem.get_theta_opt_indices", "yaocptool/modelling/ocp.py:OptimalControlProblem.set_parameter_as_optimization_parameter"]}
{"id": "C40", "title": "Quadratic cost is the weighted squared distance to the reference", "statement": "create_quadratic_cost sets the running cost to (x-x_ref)'Q(x-x_ref) + (u-u_ref)'R(u-u_ref) and the final cost to (x-x_ref)'Qv(x-x_ref) + x'Rv x, with absent weights contributing zero and absent references equal to zero; for positive semidefinite weights the cost is non-negative and zero at the reference.", "quantifier": "all weights, references, states and controls of any dimension", "why_tests_cant": "Real-valued identity for all vectors.", "anchors": ["yaocptool/modelling/ocp.py:OptimalControlProblem.create_quadratic_cost"]}
{"id": "C41", "title": "The cost state integrates the running cost", "statement": "create_cost_state adds one state whose derivative is the running cost, with initial value zero and lower bound zero iff the objective was declared positive; after it the final value of that state equals the accumulated running cost for every exact integrator.", "quantifier": "every problem and every trajectory", "why_tests_cant": "Statement about all trajectories.", "anchors": ["yaocptool/modelling/ocp.py:OptimalControlProblem.create_cost_state"]}
{"id": "C42", "title": "NLP vectors and bounds have matching sizes", "statement": "In every NLP built by any history of calls, including rejected ones, variables/lower/upper bounds have equal length and constraints/lower/upper bounds have equal length.", "quantifier": "every finite history of NLP building calls", "why_tests_cant": "Invariant over histories with failures.", "anchors": ["yaocptool/optimization/abstract_optimization_problem.py:AbstractOptimizationProblem.include_variable", "yaocptool/optimization/abstract_optimization_problem.py:AbstractOptimizationProblem.include_inequality", "yaocptool/optimization/abstract_optimization_problem.py:AbstractOptimizationProblem.include_equality"]}
{"id": "C43", "title": "NLP bounds are never crossed and rejected calls have no effect", "statement": "Every accepted NLP has lower bound <= upper bound for every variable and constraint, and a call that raises leaves the NLP exactly as it was.", "quantifier": "every finite history of NLP building calls", "why_tests_cant": "Crash atomicity plus invariant.", "anchors": ["yaocptool/optimization/abstract_optimization_problem.py:AbstractOptimizationProblem.include_variable", "yaocptool/optimization/abstract_optimization_problem.py:AbstractOptimizationProblem.include_inequality"]}
{"id": "C44", "title": "Including a constraint intersects the feasible set with it", "statement": "After include_constraint / include_inequality / include_equality, a point is feasible iff it was feasible before and satisfies the constraint as written (element by element, scalars broadcast), whichever side carries the variables.", "quantifier": "every NLP, every constraint, every point", "why_tests_cant": "Feasible-set equality quantifies over all points.", "anchors": ["yaocptool/optimization/abstract_optimization_problem.py:AbstractOptimizationProblem.include_constraint"]}
{"id": "C45", "title": "Solving uses the current problem", "statement": "The solver used by solve() corresponds to the NLP's current variables, constraints and objective, after any interleaving of building and solving calls.", "quantifier": "every history of building and solving calls", "why_tests_cant": "Stale-cache behaviour appears only for solve-then-modify histories.", "anchors": ["yaocptool/optimization/abstract_optimization_problem.py:AbstractOptimizationProblem.get_solver"]}
{"id": "C46", "title": "Solver call arguments are complete and checked", "statement": "The arguments passed to the solver always contain the bounds (default or given), the parameter vector of exactly the problem's parameter size (otherwise ValueError), and an initial point / multipliers exactly when given; the caller's dictionary is not modified.", "quantifier": "every NLP and all combinations of optional arguments", "why_tests_cant": "All combinations of optional arguments.", "anchors": ["yaocptool/optimization/abstract_optimization_problem.py:AbstractOptimizationProblem._get_solver_call_args"]}
{"id": "C47", "title": "Collocation packing and unpacking are inverse", "statement": "For every vector of decision values of the right length, unpacking it into states, algebraics, controls, eta, optimised parameters and repacking gives the vector back; packing any well-shaped data and unpacking returns the data; a vector of any other length is rejected.", "quantifier": "every dimension, degree, number of elements and every vector", "why_tests_cant": "All sizes; an off-by-one in one stride is invisible at sizes 0/1.", "anchors": ["yaocptool/methods/classic/collocationscheme.py:CollocationScheme.unpack_decision_variables", "yaocptool/methods/classic/collocationscheme.py:CollocationScheme.repack_decision_variables", "yaocptool/methods/classic/collocationscheme.py:CollocationScheme._create_nlp_symbolic_variables"]}
{"id": "C48", "title": "Multiple-shooting unpacking follows the creation order", "statement": "Unpacking the multiple-shooting decision vector returns, for every node and element, the values of the variable that was created for it, and rejects vectors of the wrong length.", "quantifier": "every dimension, control degree and number of elements", "why_tests_cant": "All sizes.", "anchors": ["yaocptool/methods/classic/multipleshooting.py:MultipleShootingScheme.unpack_decision_variables", "yaocptool/methods/classic/multipleshooting.py:MultipleShootingScheme._create_nlp_symbolic_variables"]}
{"id": "C49", "title": "Problem-information initial guesses have the layout of the decision vector", "statement": "The initial guess built from problem information has as many entries as decision variables and its unpacking gives each block the guess of its own kind (initial state, algebraic guess, control guess, zeros).", "quantifier": "every dimension, degree and number of elements, both discretisation schemes", "why_tests_cant": "All sizes.", "anchors": ["yaocptool/methods/classic/collocationscheme.py:CollocationScheme.create_initial_guess", "yaocptool/methods/classic/multipleshooting.py:MultipleShootingScheme.create_initial_guess"]}
{"id": "C50", "title": "Collocation generates the right number of equations", "statement": "The collocation NLP has exactly N*(d*(n_x+n_y)) + (N-1)*n_x dynamics equations plus the initial/final/time-independent constraints, so for a problem without path constraints the number of unknowns minus equations equals the number of control, parameter and free initial values.", "quantifier": "every dimension, degree and number of elements", "why_tests_cant": "Counting argument for all sizes.", "anchors": ["yaocptool/methods/classic/collocationscheme.py:CollocationScheme.discretize"]}
{"id": "C51", "title": "The discretisation grid covers the horizon", "statement": "Time breakpoints are equally spaced, start at the problem's t_0 and end at t_f.", "quantifier": "every horizon and number of elements", "why_tests_cant": "Only horizons with nonzero start reveal a shift.", "anchors": ["yaocptool/methods/base/solutionmethodsbase.py:SolutionMethodsBase.time_breakpoints", "yaocptool/methods/base/solutionmethodsbase.py:SolutionMethodsBase.delta_t"]}
{"id": "C52", "title": "NLP parameter values are placed where the NLP reads them", "statement": "The parameter vector passed to the solver has the layout [p; theta per element; initial state; last control] the NLP was built with and the same size, for every combination of options and arguments.", "quantifier": "every combination of options and arguments and every dimension", "why_tests_cant": "All option combinations.", "anchors": ["yaocptool/methods/base/solutionmethodsbase.py:SolutionMethodsBase.create_optimization_problem", "yaocptool/methods/base/solutionmethodsbase.py:SolutionMethodsBase._get_solver_call_args"]}
{"id": "C53", "title": "Path constraints are enforced at the documented points", "statement": "A path constraint tagged start/end/default is evaluated at the start / end / every collocation point of every element (for multiple shooting, default means end), and an unknown tag is reported.", "quantifier": "every tag, degree, number of elements, both schemes", "why_tests_cant": "All tags and sizes.", "anchors": ["yaocptool/methods/classic/collocationscheme.py:CollocationScheme._create_time_dict_for_collocation", "yaocptool/methods/classic/multipleshooting.py:MultipleShootingScheme._create_time_dict_for_multiple_shooting"]}
{"id": "C54", "title": "Control rate limits are imposed between consecutive elements", "statement": "With finite delta_u bounds the NLP constrains the difference of the first control values of consecutive elements, and of the first element and the last applied control when one is given; when no last control is given the first element is unconstrained.", "quantifier": "every number of elements, controls, bound patterns, and presence of the last control", "why_tests_cant": "All bound patterns.", "anchors": ["yaocptool/methods/classic/collocationscheme.py:CollocationScheme.discretize", "yaocptool/modelling/ocp.py:OptimalControlProblem.has_delta_u"]}
{"id": "C55", "title": "Warm start shifts the previous solution by one element", "statement": "The next initial guess of the controller contains, in element k, the previous solution's values of element k+1, and repeats the last element; sizes are unchanged.", "quantifier": "every dimension, degree, number of elements and solution", "why_tests_cant": "All sizes and values.", "anchors": ["yaocptool/mpc/mpc.py:MPC.step"]}
{"id": "C56", "title": "The controller performs the requested number of iterations", "statement": "run(iterations=n) performs exactly n measure/estimate/solve/actuate cycles for n >= 1 and runs indefinitely for n = 0.", "quantifier": "every n", "why_tests_cant": "Termination claim for every n.", "anchors": ["yaocptool/mpc/mpc.py:MPC.run", "yaocptool/mpc/mpc.py:MPC.run_fixed_control"]}
{"id": "C57", "title": "The plant clock advances one sampling time per control", "statement": "Each accepted control advances the plant's time by exactly the sampling time and records one sample per sampling point at the intermediate times in increasing order; a control of the wrong size raises and changes neither time, state nor data.", "quantifier": "every plant, every history of controls including rejected ones", "why_tests_cant": "Invariant over histories.", "anchors": ["yaocptool/mpc/plant.py:PlantSimulation.set_control", "yaocptool/mpc/plant.py:PlantSimulation._advance"]}
{"id": "C58", "title": "Controller parameters do not leak between iterations", "statement": "The parameter vector given to the solver contains the current estimates at the configured positions and the user's values elsewhere, and the user's default parameter vector is not modified.", "quantifier": "every index configuration and every history of iterations", "why_tests_cant": "History dependent aliasing.", "anchors": ["yaocptool/mpc/mpc.py:MPC._get_parameter"]}
{"id": "C59", "title": "Network nodes have unique identifiers", "statement": "After any history of node insertion and creation, every node of the network has an identifier, identifiers are pairwise distinct, and lookup by identifier returns the node that carries it.", "quantifier": "every history of node insertions with given or automatic identifiers", "why_tests_cant": "Invariant over histories.", "anchors": ["yaocptool/modelling/network/network.py:Network.include_nodes", "yaocptool/modelling/network/network.py:Network._set_node_an_id", "yaocptool/modelling/network/network.py:Network.get_node_by_id"]}
{"id": "C60", "title": "Colour groups partition the network's nodes", "statement": "get_map_coloring_groups returns groups whose concatenation contains every node exactly once, and two nodes in the same group are never connected, for every proper colouring.", "quantifier": "every network and every proper colouring produced by the colouring routine", "why_tests_cant": "All graphs and colourings.", "anchors": ["yaocptool/modelling/network/network.py:Network.get_map_coloring_groups"]}
{"id": "C61", "title": "Every node is optimised in some block", "statement": "The blocks of the distributed augmented Lagrangian contain every node of the network exactly once.", "quantifier": "every network and every colouring", "why_tests_cant": "Depends on the order in which the colouring lists nodes.", "anchors": ["yaocptool/methods/network/distributedaugmetedlagrangian.py:DistributedAugmentedLagrangian"]}
{"id": "C62", "title": "Intermediary nodes subdivide every connection", "statement": "After insert_intermediary_nodes every original connection from a to b is replaced by a path a -> m -> b with a fresh intermediary node, no original pair stays directly connected, and all original nodes are kept.", "quantifier": "every network", "why_tests_cant": "All graphs, including isolated nodes.", "anchors": ["yaocptool/modelling/network/network.py:Network.insert_intermediary_nodes", "yaocptool/modelling/network/network.py:Network.insert_intermediary_node"]}
{"id": "C63", "title": "The network model is the connected union of the node models", "statement": "get_model returns a model whose states are the node states in identifier order, whose free controls are the node controls minus the connected inputs, and which has one extra algebraic variable and equation per connected input.", "quantifier": "every network with distinct variables", "why_tests_cant": "All graphs.", "anchors": ["yaocptool/modelling/network/network.py:Network.get_model", "yaocptool/modelling/network/network.py:Network.connect"]}
{"id": "C64", "title": "Penalty growth follows the configured law and respects the cap", "statement": "With the bounded-increase rule the penalty after k updates is min(mu_max, mu_0*beta^k) when 0 < mu_0 <= mu_max and beta >= 1; it is non-decreasing and never exceeds the cap; an unknown rule raises.", "quantifier": "every k, mu_0, beta, mu_max", "why_tests_cant": "Closed form for all k.", "anchors": ["yaocptool/methods/augmented_lagrangian.py:AugmentedLagrangian._update_mu"]}
{"id": "C65", "title": "Multiplier update is the first-order augmented Lagrangian step", "statement": "The multiplier after an update equals the old multiplier plus mu times the violation at every collocation point, so it is unchanged iff the relaxed constraint is satisfied, and the gradient of the augmented Lagrangian before the update equals the gradient of the Lagrangian with the new multiplier.", "quantifier": "every multiplier, penalty, violation and constraint gradient", "why_tests_cant": "Real-valued identity.", "anchors": ["yaocptool/methods/augmented_lagrangian.py:AugmentedLagrangian._create_nu_update_func", "yaocptool/methods/augmented_lagrangian.py:AugmentedLagrangian._include_relax_in_objective"]}
{"id": "C66", "title": "The augmented Lagrangian loop stops at the tolerance or the iteration limit", "statement": "Solving performs at most max_iter subproblem solves, stops at the first iteration whose error is below the tolerance when updates are enabled, and raises a clear error when no solve is allowed.", "quantifier": "every error sequence, tolerance and limit", "why_tests_cant": "All error sequences.", "anchors": ["yaocptool/methods/augmented_lagrangian.py:AugmentedLagrangian.call_solver"]}
{"id": "C67", "title": "Relaxing algebraic equations trades equations for controls", "statement": "Relaxing k algebraic variables and equations leaves the system square, adds exactly k controls with the bounds of the relaxed variables, removes exactly the chosen equations and adds a penalty whose value is zero iff the removed equations hold and positive multiplier-free penalty otherwise.", "quantifier": "every problem and every choice of indices", "why_tests_cant": "All index choices.", "anchors": ["yaocptool/methods/augmented_lagrangian.py:AugmentedLagrangian._relax_algebraic_equations", "yaocptool/methods/augmented_lagrangian.py:AugmentedLagrangian._include_relax_in_objective"]}
{"id": "C68", "title": "Removing relaxed path equalities keeps the remaining ones with their tags", "statement": "After relaxing path equalities with the given indices the remaining equalities are the others in order and each keeps its own time tag.", "quantifier": "every list of constraints and every set of indices", "why_tests_cant": "All index sets and orders.", "anchors": ["yaocptool/methods/augmented_lagrangian.py:AugmentedLagrangian._relax_time_equalities"]}
{"id": "C69", "title": "The intermediary node solves its subproblem exactly", "statement": "The intermediary value computed in closed form is the unique minimiser of its augmented Lagrangian subproblem for every pair of neighbour values and multipliers and every positive penalty.", "quantifier": "every real input and penalty > 0", "why_tests_cant": "Optimality over all reals.", "anchors": ["yaocptool/methods/network/intermediary_node_solution_method.py:IntermediaryNodeSolutionMethod"]}
{"id": "C70", "title": "Intermediary multipliers are updated between iterations", "statement": "After a multiplier update the next solve of an intermediary node uses the updated multipliers.", "quantifier": "every history of solves and updates", "why_tests_cant": "History dependent.", "anchors": ["yaocptool/methods/network/intermediary_node_solution_method.py:IntermediaryNodeSolutionMethod.solve"]}
{"id": "C71", "title": "Exchanged trajectories are read with the layout they were written with", "statement": "The neighbour trajectories passed to a node as per-element parameters evaluate, at each collocation point, to the neighbour's value of the same variable at the same point.", "quantifier": "every number of connected variables, every degree", "why_tests_cant": "A transposed layout is invisible when there is a single variable or degree one.", "anchors": ["yaocptool/methods/network/distributedaugmetedlagrangian.py:DistributedAugmentedLagrangian._get_node_theta", "yaocptool/methods/network/bipartite_jacobi_admm.py:BipartiteJacobiADMM._get_node_theta"]}
{"id": "C72", "title": "Inner iterations stop when the objective stops improving and never exceed the limit", "statement": "The number of inner block iterations lies between one and the configured maximum and the loop stops at the first iteration whose objective is not improved by the relative tolerance.", "quantifier": "every objective sequence and limit", "why_tests_cant": "All sequences.", "anchors": ["yaocptool/methods/network/distributedaugmetedlagrangian.py:DistributedAugmentedLagrangian.solve"]}
{"id": "C73", "title": "Primal-dual penalty balancing moves the penalty in the right direction", "statement": "The penalty is multiplied by the increase factor iff the primal residual dominates, divided by the decrease factor iff the dual residual dominates, unchanged otherwise, and stays positive and below the cap.", "quantifier": "every pair of residuals and factors", "why_tests_cant": "All reals.", "anchors": ["yaocptool/methods/network/distributedaugmetedlagrangian.py:DistributedAugmentedLagrangian._compute_primal_dual_mu", "yaocptool/methods/augmented_lagrangian.py:AugmentedLagrangian._update_mu_primal"]}
{"id": "C74", "title": "The chaos basis has binomial size and no repetition", "statement": "For n uncertain parameters and polynomial order d the expansion has exactly C(n+d, d) basis polynomials, pairwise distinct, all of total degree at most d, starting with the constant, and this equals the declared number of parameters of the expansion.", "quantifier": "every n and d", "why_tests_cant": "Counting for all n, d.", "anchors": ["yaocptool/stochastic/pce.py:PCEConverter.n_pol_parameters", "yaocptool/stochastic/pce.py:get_ls_factor"]}
{"id": "C75", "title": "The basis polynomials are the Hermite polynomials", "statement": "Each tabulated one-dimensional polynomial satisfies the probabilists' Hermite recurrence He_{k+1}(x) = x He_k(x) - k He_{k-1}(x).", "quantifier": "every tabulated index and every x", "why_tests_cant": "A coefficient typo changes values slightly; equality has to hold as polynomials.", "anchors": ["yaocptool/stochastic/pce.py:get_ls_factor"]}
{"id": "C76", "title": "Least squares expansion reproduces polynomials", "statement": "With zero regularisation and a full-column-rank sample matrix the least-squares factor applied to samples of an expansion returns exactly its coefficients, and in general returns the unique minimiser of the regularised squared error.", "quantifier": "every sample matrix, coefficients and regularisation", "why_tests_cant": "Linear algebra over all matrices.", "anchors": ["yaocptool/stochastic/pce.py:get_ls_factor"]}
{"id": "C77", "title": "Chance constraints are conservative", "statement": "If mean + sqrt(p/(1-p)) * standard deviation <= 0 then, for every distribution with that mean and variance, the constraint g <= 0 holds with probability at least p.", "quantifier": "every distribution with finite variance and every p in (0,1)", "why_tests_cant": "Quantifies over all distributions.", "anchors": ["yaocptool/stochastic/pce.py:PCEConverter"]}
{"id": "C78", "title": "Expansion mean and variance are those of the polynomial", "statement": "For a basis orthogonal with respect to the parameters' distribution with constant first element, the mean and variance computed from the coefficients are those of the expanded quantity; adding a constant changes only the mean and scaling by c scales the variance by c squared.", "quantifier": "every coefficient vector and orthogonal basis", "why_tests_cant": "All coefficient vectors.", "anchors": ["yaocptool/stochastic/pce.py:PCEConverter"]}
{"id": "C79", "title": "Unscented weights are normalised", "statement": "For every dimension and tuning the mean weights sum to one, the covariance weights sum to 2 - alpha^2 + beta, and there are 2*ell+1 of each.", "quantifier": "every dimension and tuning with ell + lambda nonzero", "why_tests_cant": "Identity for all dimensions.", "anchors": ["yaocptool/estimation/unscented_kalman_filter.py:UnscentedKalmanFilter"]}
{"id": "C80", "title": "Sigma points reproduce mean and covariance", "statement": "The weighted mean of the sigma points is the given mean and their weighted covariance is the given covariance, for every factor of the scaled covariance.", "quantifier": "every dimension, mean and covariance factor", "why_tests_cant": "Matrix identity for all dimensions.", "anchors": ["yaocptool/estimation/unscented_kalman_filter.py:UnscentedKalmanFilter"]}
{"id": "C81", "title": "Extended Kalman update keeps the covariance symmetric and optimal", "statement": "From symmetric covariances the predicted and updated covariances are symmetric, the updated covariance equals the Joseph form with the used gain, the gain minimises the trace of the updated covariance, and updating with an exact prediction leaves the state estimate unchanged.", "quantifier": "every dimension and matrices with invertible innovation covariance", "why_tests_cant": "Matrix identities.", "anchors": ["yaocptool/estimation/extended_kalman_filter.py:ExtendedKalmanFilter.estimate"]}
{"id": "C82", "title": "The ideal estimator returns the state part of the measurement", "statement": "The ideal estimator returns the first n_x entries of the measurement and zero covariance of the right size; for a plant whose measurement is [x; y] it returns the true state.", "quantifier": "every measurement", "why_tests_cant": "All sizes.", "anchors": ["yaocptool/estimation/ideal_estimator.py:IdealEstimator"]}
{"id": "C83", "title": "PCE Kalman covariance is the variance of the expansion", "statement": "The covariances computed by the PCE Kalman filter from the expansion coefficients equal the covariances of the expanded quantities.", "quantifier": "every coefficient table", "why_tests_cant": "All tables.", "anchors": ["yaocptool/estimation/pce_kalman_filter.py:PCEKalmanFilter"]}
{"id": "C84", "title": "Optimisation results are looked up by variable name", "statement": "get_variable-style access to an optimisation result returns the trajectory row of the named variable and raises for unknown names; the exported data set has one column per stored time point with that point's value.", "quantifier": "every result and every name", "why_tests_cant": "All names and sizes.", "anchors": ["yaocptool/methods/base/optimizationresult.py:OptimizationResult"]}
{"id": "C85", "title": "Indirect method control clamping respects the bounds", "statement": "The control law used by the indirect method is the unconstrained optimum clipped to the bounds: it always lies within the bounds when they are consistent, equals the unconstrained value when that is within them, and clipping twice changes nothing.", "quantifier": "every value and bounds", "why_tests_cant": "All reals including infinite bounds.", "anchors": ["yaocptool/methods/classic/indirectmethod.py:IndirectMethod"]}
{"id": "C86", "title": "Direct method minimises the original cost", "statement": "Preparing a direct method moves the running cost into one extra state and adds it to the final cost, so the transcribed objective equals final cost plus accumulated running cost; preparing twice does not add it twice.", "quantifier": "every problem and every trajectory", "why_tests_cant": "All trajectories and repeated calls.", "anchors": ["yaocptool/methods/classic/directmethod.py:DirectMethod.prepare"]}
{"id": "C87", "title": "Merged models stay complete", "statement": "After merging complete models (every symbol in an equation is the time or a registered variable of the model) the merged model is complete: each of its equations mentions only its own symbols.", "quantifier": "every list of models", "why_tests_cant": "Symbol containment for all models, including ones with parametrised controls.", "anchors": ["yaocptool/modelling/system_model.py:SystemModel.include_models"]}
{"id": "C88", "title": "Joining DAE systems and converting element time keep values", "statement": "A joined DAE system holds the variables and equations of both systems in order, and converting an element-time system to absolute time over an element gives equations whose value at time t equals the original's value at the corresponding element time.", "quantifier": "every pair of systems, every element and every assignment of values", "why_tests_cant": "All systems and all assignments.", "anchors": ["yaocptool/modelling/dae_system.py:DAESystem.join", "yaocptool/modelling/dae_system.py:DAESystem.convert_from_tau_to_time"]}
{"id": "C89", "title": "Values of a dataset entry have the declared number of rows", "statement": "An entry created with a declared size only holds values with that number of rows: an insertion with another number of rows is rejected.", "quantifier": "every history of creations and insertions", "why_tests_cant": "All histories and sizes.", "anchors": ["yaocptool/modelling/dataset.py:DataSet.insert_data"]}
{"id": "C90", "title": "Discretised variables carry the bounds of their own kind", "statement": "In the optimisation problem made by either discretisation scheme, the variable created for a state, algebraic, control, optimised parameter or theta at any element and point has exactly the bounds the problem gives that variable, and eta is unbounded.", "quantifier": "every dimension, degree, number of elements and every bounds", "why_tests_cant": "All sizes and all bound values; a swapped bound is invisible for symmetric or infinite bounds.", "anchors": ["yaocptool/methods/classic/collocationscheme.py:CollocationScheme._create_nlp_symbolic_variables", "yaocptool/methods/classic/multipleshooting.py:MultipleShootingScheme._create_nlp_symbolic_variables"]}
{"id": "C91", "title": "Removing algebraic variables and parameters removes exactly those", "statement": "Removing algebraic variables (with equations), parameters or thetas takes exactly the named ones out, keeps the order of the rest and changes nothing else; including and removing again gives the model back; a rejected removal leaves the model unchanged.", "quantifier": "every model and every list of symbols and equations", "why_tests_cant": "All models and lists, including overlapping and unknown symbols.", "anchors": ["yaocptool/modelling/mixins/algebraic_mixin.py:AlgebraicMixin.remove_algebraic", "yaocptool/modelling/mixins/parameter_mixin.py:ParameterMixin.remove_parameter", "yaocptool/modelling/mixins/parameter_mixin.py:ParameterMixin.remove_theta"]}
{"id": "C92", "title": "Collocation solves exactly the discretised optimal control problem", "statement": "The constraints of the collocation NLP hold at a decision vector if and only if, with the states and algebraics read as the polynomials through the values at the collocation points, the initial, dynamic, algebraic, continuity, path, rate, final and time-independent conditions hold; and the objective is the final cost plus the cost at the end of each element.", "quantifier": "every problem, degree above one, increasing collocation points ending at 1, number of elements and decision vector", "why_tests_cant": "Equality of sets of points for all sizes, with polynomials of every degree.", "anchors": ["yaocptool/methods/classic/collocationscheme.py:CollocationScheme.discretize", "yaocptool/methods/classic/collocationscheme.py:CollocationScheme.get_system_at_given_times"]}
{"id": "C93", "title": "Collocation works for every degree", "statement": "Discretising by collocation succeeds for every degree at least one.", "quantifier": "every problem, degree and number of elements", "why_tests_cant": "The degree is a free option; tests use the default.", "anchors": ["yaocptool/methods/classic/collocationscheme.py:CollocationScheme.discretize", "yaocptool/util/util.py:create_polynomial_approximation"]}
{"id": "C94", "title": "Multiple shooting solves exactly the discretised optimal control problem", "statement": "The constraints of the multiple-shooting NLP hold at a decision vector if and only if each element's state is the simulated end of the element before, the algebraics are the simulated ones, and the initial, path, rate, final and time-independent conditions hold; the objective is the final cost (or, with the cost as a sum, the accumulated cost state, whose restarts do not change the total) plus the cost at the end of each element.", "quantifier": "every problem, integrator, number of elements and decision vector", "why_tests_cant": "Equality of sets of points for all sizes; the restart of the cost state is invisible with one element.", "anchors": ["yaocptool/methods/classic/multipleshooting.py:MultipleShootingScheme.discretize", "yaocptool/methods/classic/multipleshooting.py:MultipleShootingScheme.get_system_at_given_times"]}
{"id": "C95", "title": "The recorded states are a trajectory of the model", "statement": "The states the plant records are obtained one from the other by simulating the model over the sampling points with the control in force, and the plant's current state is the last recorded one.", "quantifier": "every plant, every history of controls including rejected ones", "why_tests_cant": "Invariant over histories.", "anchors": ["yaocptool/mpc/plant.py:PlantSimulation._advance", "yaocptool/mpc/plant.py:PlantSimulation._save_data"]}
{"id": "C96", "title": "Setting a control applies that control", "statement": "After set_control(u) is accepted, the plant is simulated over the whole sampling interval with the control u.", "quantifier": "every plant, every history of set_control and set_control_function calls", "why_tests_cant": "Depends on the history of calls.", "anchors": ["yaocptool/mpc/plant.py:PlantSimulation.set_control", "yaocptool/mpc/plant.py:PlantSimulation.set_control_function"]}
{"id": "C97", "title": "A measurement is the measurement matrix times the current state", "statement": "get_measurement returns C [x; y] (plus the configured noise and displacement) evaluated at the current time, state and algebraic variables, whenever it is called.", "quantifier": "every plant, matrix and history", "why_tests_cant": "Every history of calls.", "anchors": ["yaocptool/mpc/plant.py:PlantSimulation.get_measurement"]}
{"id": "C98", "title": "The controller runs without interaction", "statement": "run(iterations=n) finishes without asking for input on the terminal.", "quantifier": "every controller, every n", "why_tests_cant": "Tests patch or never reach the interactive call.", "anchors": ["yaocptool/mpc/mpc.py:MPC.get_new_control"]}
{"id": "C99", "title": "A fixed-control run applies the given control", "statement": "run_fixed_control(u, n) and run_fixed_control_with_estimator(u, n) apply the control u to the plant in each of the n iterations.", "quantifier": "every controller, u and n", "why_tests_cant": "All histories before the run.", "anchors": ["yaocptool/mpc/mpc.py:MPC.run_fixed_control", "yaocptool/mpc/mpc.py:MPC.send_control"]}
{"id": "C100", "title": "The control sent to the plant is the optimised control polynomial", "statement": "The function of time the controller gives to the plant is, over the sampling interval, the control polynomial of the first element of the solution.", "quantifier": "every number of controls, degree, degree of the control, parameter values, time and sampling time", "why_tests_cant": "All degrees and values.", "anchors": ["yaocptool/mpc/mpc.py:MPC._make_control_function", "yaocptool/mpc/mpc.py:MPC.send_control"]}
{"id": "C101", "title": "A failing solve leaves plant and controller as they were", "statement": "If the solver raises during an iteration, no control is sent to the plant, and the plant, the last solution and the initial guess are those from before the iteration.", "quantifier": "every controller, state and failure", "why_tests_cant": "Every crash point before the control is sent.", "anchors": ["yaocptool/mpc/mpc.py:MPC.run", "yaocptool/mpc/mpc.py:MPC.get_new_control"]}
{"id": "C102", "title": "Iterating over a network visits every node", "statement": "`for node in network` visits every node of the network exactly once, in the order of the identifiers.", "quantifier": "every network and every history of calls that built it", "why_tests_cant": "The class has only __getitem__, so the loop depends on which identifiers exist after the whole history.", "anchors": ["yaocptool/modelling/network/network.py:Network.__getitem__", "yaocptool/modelling/network/network.py:Network.insert_intermediary_nodes"]}
{"id": "C103", "title": "A failing insertion of intermediary nodes leaves the network unchanged", "statement": "If insert_intermediary_nodes raises, the network has the nodes and connections it had before.", "quantifier": "every network and every point of failure", "why_tests_cant": "Concerns the state after an exception.", "anchors": ["yaocptool/modelling/network/network.py:Network.insert_intermediary_nodes"]}
{"id": "C104", "title": "Connecting nodes is all or nothing", "statement": "connect raises and leaves the network unchanged when an output or input is not a variable of its node, and otherwise appends exactly the given variables to the connection of the pair, so that the network still has a model.", "quantifier": "every network, pair of nodes and vectors of variables", "why_tests_cant": "All networks, vectors and sizes.", "anchors": ["yaocptool/modelling/network/network.py:Network.connect", "yaocptool/modelling/network/network.py:Network._connect"]}
{"id": "C105", "title": "Removing a connection removes exactly that connection", "statement": "remove_connection removes the connection of the pair and nothing else, and raises without any change when the pair is not connected.", "quantifier": "every network and pair of nodes", "why_tests_cant": "All graphs.", "anchors": ["yaocptool/modelling/network/network.py:Network.remove_connection"]}
{"id": "C106", "title": "The network problem is the union of the node problems", "statement": "get_problem returns a problem with the common horizon, the sum of the costs, all constraints, states and bounds of the node problems in identifier order, in which connected inputs are algebraic variables that keep their bounds.", "quantifier": "every network whose nodes have problems with distinct variables", "why_tests_cant": "All graphs and problems.", "anchors": ["yaocptool/modelling/network/network.py:Network.get_problem", "yaocptool/modelling/ocp.py:OptimalControlProblem.merge", "yaocptool/modelling/ocp.py:OptimalControlProblem.connect"]}
{"id": "C107", "title": "Nodes optimised in the same block are not connected", "statement": "No block of the distributed augmented Lagrangian contains two connected nodes, so the nodes of a block can be optimised at the same time.", "quantifier": "every network", "why_tests_cant": "All graphs.", "anchors": ["yaocptool/methods/network/distributedaugmetedlagrangian.py:DistributedAugmentedLagrangian"]}
{"id": "C108", "title": "Relaxing state bounds moves each bound to a copy of the state tied by a penalty", "statement": "With relax_state_bounds, every bounded state gets one new control that carries the bounds of the state, the state itself becomes unbounded, and the cost gains the multiplier and penalty terms of (copy - state) for exactly these states.", "quantifier": "every problem", "why_tests_cant": "All numbers of states and all bound patterns.", "anchors": ["yaocptool/methods/augmented_lagrangian.py:AugmentedLagrangian._relax_states_constraints"]}
{"id": "C109", "title": "Each multiplier is updated with the violation of its own constraint", "statement": "The multiplier at a position of the vector of multipliers multiplies, in the relaxed cost, the constraint whose violation is used to update it.", "quantifier": "every combination of relaxations of every problem", "why_tests_cant": "All combinations of relaxations.", "anchors": ["yaocptool/methods/augmented_lagrangian.py:AugmentedLagrangian._relax_states_constraints", "yaocptool/methods/augmented_lagrangian.py:AugmentedLagrangian._relax_time_equalities", "yaocptool/methods/augmented_lagrangian.py:AugmentedLagrangian._create_nu_update_func"]}
{"id": "C110", "title": "Relaxed variables keep their guesses", "statement": "When algebraic variables become controls by relaxing equations, the new controls get the guesses that these algebraic variables had.", "quantifier": "every problem with guesses and every choice of equations and variables", "why_tests_cant": "All index choices.", "anchors": ["yaocptool/methods/augmented_lagrangian.py:AugmentedLagrangian._relax_algebraic_equations"]}
{"id": "C111", "title": "Multipliers are updated only for constraints that improved, when asked", "statement": "With only_update_if_improve, an update gives new values to the multipliers of exactly those constraints whose violation decreased, and leaves the others unchanged.", "quantifier": "every solution, state of the method and degree", "why_tests_cant": "With degree one, or a single update, a wrong index is invisible.", "anchors": ["yaocptool/methods/augmented_lagrangian.py:AugmentedLagrangian._compute_new_nu_and_error"]}
{"id": "C112", "title": "The primal rule increases a penalty exactly when its constraint improved too little", "statement": "With the primal rule, a penalty is multiplied by beta (up to the cap) iff the violation of its constraint is larger than the configured fraction of the previous violation.", "quantifier": "every pair of consecutive solutions, penalties and options", "why_tests_cant": "Depends on two consecutive iterations and on the combination of options.", "anchors": ["yaocptool/methods/augmented_lagrangian.py:AugmentedLagrangian._update_mu_primal", "yaocptool/methods/augmented_lagrangian.py:AugmentedLagrangian.update_parameters"]}
{"id": "C113", "title": "The multipliers, the augmented Lagrangian and its solver use one discretisation", "statement": "After construction, the multipliers, the options of the augmented Lagrangian and its solver have the same degree and number of elements, the one the user asked for.", "quantifier": "every combination of options, solver_options and keyword arguments", "why_tests_cant": "Combinations of three sources of options.", "anchors": ["yaocptool/methods/augmented_lagrangian.py:AugmentedLagrangian"]}
{"id": "C114", "title": "Solving nodes in separate processes gives the same results as solving them serially", "statement": "Running the distributed method with distributed=True gives, in every inner iteration, the same node results as running it serially.", "quantifier": "every network, every partition of the nodes into blocks, every local solver", "why_tests_cant": "The schedules differ; equality must hold for every network and solver.", "anchors": ["yaocptool/methods/network/distributedaugmetedlagrangian.py:DistributedAugmentedLagrangian._solve_node_problems_distributed", "yaocptool/methods/network/distributedaugmetedlagrangian.py:DistributedAugmentedLagrangian._solve_node_problems_serial"]}
{"id": "C115", "title": "The order of the nodes inside a block does not matter", "statement": "If no two nodes of a block are connected, the results of an iteration are the same for every order of the nodes inside the blocks.", "quantifier": "every network, every order of the nodes of each block, every local solver", "why_tests_cant": "All permutations of all blocks.", "anchors": ["yaocptool/methods/network/distributedaugmetedlagrangian.py:DistributedAugmentedLagrangian._solve_node_problems_serial"]}
{"id": "C116", "title": "Every inner iteration solves every node", "statement": "Whatever the order in which the blocks are visited, one inner iteration solves every node of the network exactly once.", "quantifier": "every partition into blocks, every block-selection method and random outcome", "why_tests_cant": "Random order: all outcomes.", "anchors": ["yaocptool/methods/network/distributedaugmetedlagrangian.py:DistributedAugmentedLagrangian._block_iterator"]}
{"id": "C117", "title": "The chaos basis is orthogonal for standard normal variables", "statement": "For independent standard normal parameters the expectation of the product of two different basis polynomials is zero, and that of the square of a basis polynomial is the product of the factorials of its degrees.", "quantifier": "every number of uncertain parameters, order and pair of basis polynomials", "why_tests_cant": "The expectations are integrals over all parameter values; one wrong table coefficient breaks them slightly.", "anchors": ["yaocptool/stochastic/pce.py:get_ls_factor"]}
{"id": "C118", "title": "Parameter samples have the requested mean and covariance", "statement": "Samples built from design points with zero mean and identity covariance have the requested mean and covariance; a problem without uncertainties and distributions other than the normal one are rejected.", "quantifier": "every mean, covariance with a Cholesky factor, weighted set of design points, list of distribution names", "why_tests_cant": "A transposed factor gives the right covariance for diagonal matrices only.", "anchors": ["yaocptool/stochastic/util.py:sample_parameter_normal_distribution_with_sobol", "yaocptool/stochastic/pce.py:PCEConverter._sample_parameters"]}
{"id": "C119", "title": "Log-normal samples have the requested mean", "statement": "Samples of the log-normal sampler are positive and have the mean that was given.", "quantifier": "every positive mean and covariance", "why_tests_cant": "The bias depends on the variance and vanishes for small ones.", "anchors": ["yaocptool/stochastic/util.py:sample_parameter_log_normal_distribution_with_sobol"]}
{"id": "C120", "title": "A Kalman filter can be constructed", "statement": "Constructing an extended, unscented or polynomial chaos Kalman filter with consistent arguments returns a filter; it raises ValueError only when a guess for the algebraic variables is missing or the number of samples is below the number of polynomials.", "quantifier": "every model size and every combination of options", "why_tests_cant": "All option combinations and sizes.", "anchors": ["yaocptool/estimation/extended_kalman_filter.py:ExtendedKalmanFilter.__init__", "yaocptool/estimation/unscented_kalman_filter.py:UnscentedKalmanFilter.__init__", "yaocptool/estimation/pce_kalman_filter.py:PCEKalmanFilter.__init__"]}
{"id": "C121", "title": "Sample based filters keep covariances", "statement": "After every history of measurements the covariances held by the unscented filter are symmetric and positive semidefinite, and so is every covariance computed by the polynomial chaos filter, whatever the model does.", "quantifier": "every model, every size, every history of measurements", "why_tests_cant": "Unbounded histories and arbitrary nonlinear models.", "anchors": ["yaocptool/estimation/unscented_kalman_filter.py:UnscentedKalmanFilter.estimate", "yaocptool/estimation/pce_kalman_filter.py:PCEKalmanFilter.estimate"]}
{"id": "C122", "title": "The unscented filter is the Kalman filter on linear systems", "statement": "For a linear system the mean and covariance after an estimate are those of the Kalman filter with the given process and measurement noise.", "quantifier": "every linear system, state, measurement and noise covariance", "why_tests_cant": "Matrix identity for all sizes.", "anchors": ["yaocptool/estimation/unscented_kalman_filter.py:UnscentedKalmanFilter.estimate"]}
{"id": "C123", "title": "The clock of an estimator follows the measurements", "statement": "After n estimates the filter predicts from n sampling times after its initial time.", "quantifier": "every history of measurements", "why_tests_cant": "Unbounded histories, time dependent models.", "anchors": ["yaocptool/estimation/extended_kalman_filter.py:ExtendedKalmanFilter.estimate", "yaocptool/estimation/unscented_kalman_filter.py:UnscentedKalmanFilter.estimate"]}
{"id": "C124", "title": "The extended filter linearises at the applied control", "statement": "The covariance is propagated with the Jacobians of the model at the predicted state and at the control that was applied.", "quantifier": "every model and control", "why_tests_cant": "All models and controls.", "anchors": ["yaocptool/estimation/extended_kalman_filter.py:ExtendedKalmanFilter.estimate"]}
{"id": "C125", "title": "Estimates have the size of the state", "statement": "An estimate returns one entry per state of the model and a square covariance of that size, for models with any number of algebraic variables.", "quantifier": "every model size", "why_tests_cant": "All sizes.", "anchors": ["yaocptool/estimation/extended_kalman_filter.py:ExtendedKalmanFilter.estimate", "yaocptool/estimation/unscented_kalman_filter.py:UnscentedKalmanFilter.estimate"]}
{"id": "C126", "title": "The extended filter treats algebraic equations exactly on linear systems", "statement": "On a linear differential-algebraic system the extended filter gives the estimates of the Kalman filter of the system with the algebraic variables eliminated, and the estimated algebraic variables satisfy the algebraic equations.", "quantifier": "every linear differential-algebraic system of every size", "why_tests_cant": "Matrix identities for all sizes.", "anchors": ["yaocptool/estimation/extended_kalman_filter.py:ExtendedKalmanFilter.estimate"]}
{"id": "C127", "title": "The control law of the indirect method minimises the Hamiltonian", "statement": "When the Hamiltonian is a strictly convex quadratic function of the controls, the control law computed by the indirect method attains, at every state and adjoint value, the minimum of the Hamiltonian over all controls within the bounds.", "quantifier": "every problem with a strictly convex quadratic Hamiltonian, every bounds, every point", "why_tests_cant": "The minimum is over all controls at all points; clipping each component of an unconstrained minimiser is right only for some Hessians.", "anchors": ["yaocptool/methods/classic/indirectmethod.py:IndirectMethod.calculate_optimal_control"]}
{"id": "C128", "title": "The adjoint equations are Pontryagin's conditions", "statement": "Creating the adjoint states of a problem adds, for every state, one adjoint with the equation that its derivative is minus the derivative of the Hamiltonian with respect to the state; for every algebraic variable, one multiplier with the equation that the derivative of the Hamiltonian with respect to the algebraic variable vanishes; and, for every state, the final condition that the adjoint is the derivative of the final cost plus the weighted final constraints. The problem's own equations, constraints and bounds stay, and there are again as many equations as variables.", "quantifier": "every problem and every point where the user's expressions are differentiable", "why_tests_cant": "An identity of derivatives for all expressions and all points.", "anchors": ["yaocptool/modelling/ocp.py:OptimalControlProblem.create_adjoint_states"]}
{"id": "C129", "title": "Creating a solution method leaves the problem as the user defined it", "statement": "Creating an indirect method for a problem does not change the problem: its bounds on states and algebraic variables are still there for the user and for other methods.", "quantifier": "every problem", "why_tests_cant": "All bound vectors, and an effect on an object the call should only read.", "anchors": ["yaocptool/methods/classic/indirectmethod.py:IndirectMethod._check_bounds"]}
{"id": "C130", "title": "Preparing a method before solving changes nothing", "statement": "A solution method may be prepared explicitly before it is asked to solve: the problem it then solves is the one it would have solved without the explicit preparation.", "quantifier": "every problem, direct and indirect methods", "why_tests_cant": "A statement about repeated calls for all problems.", "anchors": ["yaocptool/methods/classic/directmethod.py:DirectMethod.prepare", "yaocptool/methods/classic/indirectmethod.py:IndirectMethod.prepare", "yaocptool/methods/base/solutionmethodsbase.py:SolutionMethodsBase.create_optimization_problem"]}
{"id": "C131", "title": "A problem can be given to several methods", "statement": "The same problem can be solved by two direct methods one after the other: each minimises the problem's final cost plus its accumulated running cost once.", "quantifier": "every problem and trajectory", "why_tests_cant": "The objective is compared as a function on all trajectories.", "anchors": ["yaocptool/methods/classic/directmethod.py:DirectMethod.prepare"]}
{"id": "C132", "title": "A direct method keeps the user's control parametrisation", "statement": "If the user has replaced a control by an expression in parameters of their own, a direct method optimises those parameters: they are among the decision variables of the transcription.", "quantifier": "every problem with parametrised controls", "why_tests_cant": "All expressions and parameter sets.", "anchors": ["yaocptool/methods/base/solutionmethodsbase.py:SolutionMethodsBase.create_control_approximation"]}
{"id": "C133", "title": "Solving leaves the caller's parameter vectors unchanged", "statement": "The vectors a caller passes as p and theta have the same entries after solve as before, whether it returns or raises.", "quantifier": "every problem, every solution, every p and theta", "why_tests_cant": "Depends on aliasing between the call's arguments and the stored result for all parameter choices.", "anchors": ["yaocptool/methods/base/solutionmethodsbase.py:SolutionMethodsBase.call_solver", "yaocptool/methods/base/solutionmethodsbase.py:SolutionMethodsBase.create_optimization_result", "yaocptool/methods/classic/collocationscheme.py:CollocationScheme.set_data_to_optimization_result_from_raw_data", "yaocptool/methods/classic/multipleshooting.py:MultipleShootingScheme.set_data_to_optimization_result_from_raw_data"]}
{"id": "C134", "title": "A result reports the parameters it was solved for", "statement": "The p and theta of an optimisation result have the optimised value at every optimised position and the given value elsewhere, for each finite element separately.", "quantifier": "every index set, solution and argument", "why_tests_cant": "Aliasing between elements of theta only matters for some histories of construction.", "anchors": ["yaocptool/methods/classic/collocationscheme.py:CollocationScheme.set_data_to_optimization_result_from_raw_data", "yaocptool/methods/classic/multipleshooting.py:MultipleShootingScheme.set_data_to_optimization_result_from_raw_data", "yaocptool/util/util.py:create_constant_theta"]}
{"id": "C135", "title": "Registered uncertainties are exactly the valid ones, with a block diagonal covariance", "statement": "After any sequence of set_parameter_as_uncertain_parameter, include_uncertain_parameter / create_uncertain_parameter, set_initial_condition_as_uncertain and include_time_chance_inequality calls on a StochasticOCP (rejected calls caught), the uncertain parameters and uncertain initial conditions are the concatenation of the accepted registrations with their means and distributions; the covariance has their size, equals the given covariance within a registration and is zero between different ones. A registration is accepted exactly when there is one mean per symbol and the covariance is square of that size. A rejected call leaves the problem as it was.", "quantifier": "all problems, all finite histories of calls with symbols, means and covariances of any size (empty ones included), all distributions", "why_tests_cant": "The block structure depends on the number, sizes and order of all earlier registrations, including empty ones that go through special branches of the code.", "anchors": ["yaocptool/modelling/stochastic_ocp.py: StochasticOCP.set_parameter_as_uncertain_parameter, include_uncertain_parameter, create_uncertain_parameter, set_initial_condition_as_uncertain"]}
{"id": "C136", "title": "Chance inequalities have a right-hand side and a probability each and honour `when`", "statement": "After any history of calls every chance inequality has one right-hand side (zero by default) and one probability, calls with wrong sizes are rejected with ValueError and change nothing, and `when` decides where the inequality is imposed.", "quantifier": "all problems, all finite histories of calls, all inequalities, right-hand sides, probabilities and values of when", "why_tests_cant": "A test tries well-formed sizes; the property is about every combination of sizes and about an argument that has no effect at all.", "anchors": ["yaocptool/modelling/stochastic_ocp.py: StochasticOCP.include_time_chance_inequality"]}
{"id": "C137", "title": "A stochastic problem can be listed and converted by polynomial chaos", "statement": "For a StochasticOCP with normal uncertainties the certain and uncertain parameters can be listed and PCEConverter.convert_socp_to_ocp_with_pce returns a deterministic problem; without uncertainties it raises ValueError and for other distributions NotImplementedError. The default number of samples is the number of polynomials of the expansion.", "quantifier": "all stochastic problems reached by any history of calls, all orders and numbers of samples", "why_tests_cant": "Which exception (or result) a conversion gives depends on the whole history of registrations; that it never succeeds for any problem is a universal statement.", "anchors": ["yaocptool/modelling/stochastic_ocp.py: get_p_without_p_unc, get_p_unc_indices, get_uncertain_initial_cond_indices", "yaocptool/stochastic/pce.py: PCEConverter.convert_socp_to_ocp_with_pce, _create_model, _sample_parameters, n_samples", "yaocptool/modelling/system_model.py: SystemModel"]}
{"id": "C138", "title": "A result reports the trajectories of the solution", "statement": "For a solution vector, the result reports the states at the start and at the collocation points of every element (multiple shooting: at the element boundaries), the algebraic variables at the collocation points (multiple shooting: at element ends) and the controls at the control points, each value being the value of the solution's trajectory at the time reported beside it, with times starting at the problem's t_0; objective, constraint values, raw vector and success flag are passed on, and the optimised parameters replace the given ones at their positions only.", "quantifier": "every discretisation, control law (parametrised or determined by the other variables), solution vector and parameters", "why_tests_cant": "the claim relates polynomial evaluation, layouts and time grids for every number of elements, degree and size", "anchors": ["yaocptool/methods/classic/collocationscheme.py:set_data_to_optimization_result_from_raw_data", "yaocptool/methods/classic/multipleshooting.py:set_data_to_optimization_result_from_raw_data"]}
{"id": "C139", "title": "The reported final cost is the cost state at the end", "statement": "x_c_final of a result is the value of the cost state at the end of the last element, and None for a problem without a cost state.", "quantifier": "every discretisation, solution vector and state vector containing the cost state", "why_tests_cant": "must hold for every position of the cost state and every grid", "anchors": ["yaocptool/methods/base/solutionmethodsbase.py:create_optimization_result"]}
{"id": "C140", "title": "A simulated initial guess is the simulated trajectory", "statement": "create_initial_guess_with_simulation returns a vector of the decision vector's size that unpacks into: states and algebraic variables of the simulation from the problem's initial condition, point by point (collocation) or element by element (multiple shooting), each element starting where the previous one ended; the constant control used (the one given, the problem's guess, its last control, or zeros, whichever comes first) in every control block; zeros for the multipliers; and the given values of the optimised parameters. Parameters that are not given count as zeros.", "quantifier": "every discretisation, integrator, guess, control, parameters", "why_tests_cant": "the position of each value depends on all sizes, and the claim is about every number of elements and points", "anchors": ["yaocptool/methods/classic/collocationscheme.py:create_initial_guess_with_simulation", "yaocptool/methods/classic/multipleshooting.py:create_initial_guess_with_simulation"]}
{"id": "C141", "title": "A simulated initial guess satisfies the dynamics", "statement": "With multiple shooting, the guess by simulation satisfies the solver's equations that fix the initial state and join the elements.", "quantifier": "every discretisation, integrator, parameters and initial condition", "why_tests_cant": "needs the simulation, the layout and the solver's constraints to agree for all sizes", "anchors": ["yaocptool/methods/classic/multipleshooting.py:create_initial_guess_with_simulation", "yaocptool/methods/base/solutionmethodsbase.py:_get_solver_call_args"]}
{"id": "C142", "title": "Updating the nodes in separate processes gives the same parameters as updating them serially", "statement": "With distributed=True an update gives every node the same errors, multipliers and penalties as the serial update.", "quantifier": "every network, penalty rule, set of options and history", "why_tests_cant": "Differs only for nodes whose penalties drift apart; every network and history has to be considered.", "anchors": ["yaocptool/methods/network/distributedaugmetedlagrangian.py:DistributedAugmentedLagrangian._update_parameters_distributed", "yaocptool/methods/network/distributedaugmetedlagrangian.py:DistributedAugmentedLagrangian._update_parameters_serial"]}
{"id": "C143", "title": "The result of the augmented Lagrangian describes the returned solution", "statement": "The result holds, for every element and collocation point, the multipliers with which the returned solution was found and the violations of the relaxed constraints in that solution, at the time of the point, and the largest violation of each constraint.", "quantifier": "every number of elements, degree, number of relaxed constraints, iteration count and solver", "why_tests_cant": "A transposed layout is invisible with one constraint or degree one; which iteration is reported depends on the history.", "anchors": ["yaocptool/methods/augmented_lagrangian.py:AugmentedLagrangian.create_optimization_result", "yaocptool/methods/base/solutionmethodsbase.py:SolutionMethodsBase.unvec"]}
{"id": "C144", "title": "A node of a distributed solution is its own problem plus its couplings", "statement": "Before a network is solved by the distributed augmented Lagrangian, every node gets its couplings: each connected input becomes an algebraic variable with one equation against an approximation of the neighbour's output, each output gets one path equality against an approximation of the neighbour's input, and each coupling has its own block of parameters, in the order predecessors then successors. After the local method has relaxed them, the node has its own dynamics, equations, path equalities and bounds again, its inputs are controls with the bounds they had, and its cost has exactly the terms of the couplings.", "quantifier": "all problems, all lists of incoming and outgoing connections that fit the problem, all degrees and approximations", "why_tests_cant": "The recorded positions are computed while the problem grows; tests use nodes with one input and one output.", "anchors": ["yaocptool/methods/network/distributedaugmetedlagrangian.py: DistributedAugmentedLagrangian._include_exogenous_variables, _create_variable_approx, _create_solution_methods", "yaocptool/methods/augmented_lagrangian.py: AugmentedLagrangian.__init__"]}
{"id": "C145", "title": "The distributed solution of a network stops when every coupling error is below the tolerance, or at the limit of outer iterations, and reports the last iteration", "statement": "A solution returned by DistributedAugmentedLagrangian.solve() comes from at least one and at most max_iter_outer outer iterations; all but the last had a largest coupling error of at least abs_tol, and if fewer than max_iter_outer were made every reported violation is below abs_tol. The reported results, violations and objective (the sum over the nodes with a result) are those of the last iteration, each result was given by the solver of that node, and with cyclic blocks every node that can always be solved has a result. The number of block iterations is the number of blocks times the number of inner iterations, within the limits. Reported iteration numbers should be counts and a returned solution should cover all nodes.", "quantifier": "all networks, partitions into blocks, node solvers (failing or not, serial or in processes), multiplier updates, tolerances and limits of iterations", "why_tests_cant": "Depends on the whole history of solver failures, errors and objectives over nested loops", "anchors": ["yaocptool/methods/network/distributedaugmetedlagrangian.py:DistributedAugmentedLagrangian.solve", "yaocptool/methods/base/distributed_optimization_result.py:DistibutedOptimizationResult.__post_init__"]}
{"id": "C146", "title": "The violation errors and multipliers of the augmented Lagrangian are computed from the solution at the collocation points", "statement": "After each solution of the relaxed problem, the error of a relaxed constraint is its largest absolute value over the collocation points of all elements, evaluated with the states, algebraic variables, controls and parameters of that solution; each multiplier at a collocation point grows by the penalty times the value of its constraint at that point. For collocation the states and algebraic variables at the points are decision values; for multiple shooting they come from simulating each element.", "quantifier": "all problems, relaxed constraints, discretisations, decision vectors, parameters, multipliers and penalties", "why_tests_cant": "Links the layout of the decision vector, the interpolation in each element, the sorting of evaluation times and the update formula, for every grid and every solution", "anchors": ["yaocptool/methods/augmented_lagrangian.py:AugmentedLagrangian._create_nu_update_func", "yaocptool/methods/classic/collocationscheme.py:CollocationScheme.get_system_at_given_times", "yaocptool/methods/classic/multipleshooting.py:MultipleShootingScheme.get_system_at_given_times"]}
{"id": "C147", "title": "A node of the distributed method is told its neighbours' latest values, in the places of its parameters", "statement": "Before every solution and update of a node, the approximation of each coupled variable is, at every collocation point of every element, the value in the neighbour's last successful result; before there is one, the neighbour's guess, else zero. The dual residual of a node is the largest change of the values it was told about its predecessors in the same or later blocks since the last update. A node in no block raises ValueError.", "quantifier": "all networks, connections, discretisations, histories of results and guesses, variable names", "why_tests_cant": "The values come from results, guesses or zeros with sizes chosen in different places (degree, degree of the control, scheme), and are keyed by names chosen by the user", "anchors": ["yaocptool/methods/network/distributedaugmetedlagrangian.py:DistributedAugmentedLagrangian._get_variable_last_result", "yaocptool/methods/network/distributedaugmetedlagrangian.py:DistributedAugmentedLagrangian._get_node_theta", "yaocptool/methods/network/distributedaugmetedlagrangian.py:DistributedAugmentedLagrangian._get_node_exogenous", "yaocptool/methods/network/distributedaugmetedlagrangian.py:DistributedAugmentedLagrangian._get_block_number", "yaocptool/methods/augmented_lagrangian.py:AugmentedLagrangian.compute_primal_dual"]}
{"id": "C148", "title": "The initial condition of a network distributes the last point of one simulation of the whole network", "statement": "get_initial_condition(t_f) gives, under the name of every node, the values that the node's states, algebraic variables and controls have at the last point of a simulation of the problem of the whole network, in the order of the node's model; an input that is connected to another node gets the value of the output it is connected to.", "quantifier": "every network reached by calls, every order of identifiers, every problem and model of the nodes, every integrator and final time", "why_tests_cant": "A test uses one network; the value of each variable is found through positions in the vectors of the merged problem, where connected inputs have moved from the controls to the algebraic variables.", "anchors": ["yaocptool/modelling/network/network.py:Network.get_initial_condition", "yaocptool/modelling/simulation_result.py:SimulationResult.final_condition", "yaocptool/modelling/ocp.py:OptimalControlProblem.simulate"]}
{"id": "C149", "title": "The options of the solver are those given to the method", "statement": "Each solution method calls its solver with the options given by the user and, for those not given, with the configured ones at the time the method was made. No other method, problem or later change of the configuration has any influence on them, and the user's dictionary is not changed. This holds as long as the method was given a dictionary of its own that nothing else writes to. It fails otherwise: methods made without options share one dictionary, so setting an option of one sets it for all; the configured options are written into the dictionary given, so that it ignores later changes of the configuration when used again; an optimisation problem made without options has the configuration itself; and options set after the first solution are ignored.", "quantifier": "all configurations, all dictionaries and all programs that make methods, optimisation problems and dictionaries, set options and solve in any order", "why_tests_cant": "Whether two objects share options depends on the whole history of the process; a test that makes one method sees nothing.", "anchors": ["yaocptool/methods/base/solutionmethodsbase.py: SolutionMethodsBase.__init__, create_optimization_problem", "yaocptool/optimization/nonlinear_problem.py: NonlinearOptimizationProblem.__init__, _create_solver", "yaocptool/optimization/abstract_optimization_problem.py: get_solver", "yaocptool/config.py: SOLVER_OPTIONS"]}
{"id": "C150", "title": "A solution method has the options it was given", "statement": "Every documented option of a new direct or indirect method has the value given by the user, or its documented default. A method is made exactly if no keyword names a computed attribute, the discretisation scheme is known, and the degree of the controls is a number, at most 1 if the problem limits the rate of a control (for the indirect method this is the degree of the states). A rejected call leaves the problem unchanged. The claim fails for two options the method decides on: the indirect method always takes its initial guess from the problem, and a problem with a last control always makes it a parameter. It also fails for misspelt options: an unknown keyword is accepted and the default is used.", "quantifier": "both methods, all problems and all dictionaries of keywords", "why_tests_cant": "There are as many calls as subsets of keywords and values; a wrong order of assignments or a missed option shows for particular combinations only.", "anchors": ["yaocptool/methods/base/solutionmethodsbase.py: SolutionMethodsBase.__init__", "yaocptool/methods/base/discretizationschemebase.py: DiscretizationSchemeBase.__init__", "yaocptool/methods/classic/directmethod.py: DirectMethod.__init__", "yaocptool/methods/classic/indirectmethod.py: IndirectMethod.__init__, degree_control"]}
{"id": "C151", "title": "The update of a Cholesky factor is exact", "statement": "`cholupdate(R, x, '+')` turns every upper triangular matrix without zero on the diagonal into the upper triangular factor with positive diagonal of RᵀR + x xᵀ; with '-' into that of RᵀR - x xᵀ whenever this is positive definite. Nothing else of the matrix is written. Another sign is rejected before anything is written. The vector given is not changed: this last part is false.", "quantifier": "all sizes, matrices and vectors over any ordered field with square roots (exact arithmetic)", "why_tests_cant": "The identity holds for each size by an invariant over the steps; a test compares some matrices up to rounding.", "anchors": ["yaocptool/estimation/unscented_kalman_filter.py: UnscentedKalmanFilter.cholupdate"]}
{"id": "C152", "title": "find_equilibrium returns an equilibrium", "statement": "`find_equilibrium(additional_eqs)` of a model with one equation per state, one per algebraic variable and one additional equation per control returns states, algebraic variables and controls at which all equations vanish at the time given. If the call returns, its first two results belong to an equilibrium, and a model without controls and parameters is solved whenever the root finder is. It fails for controls: the unknowns are the parameters in place of the controls, so a model with controls and no parameters is always rejected, an equation with a control is always rejected, and the third result are values of the parameters.", "quantifier": "all models, additional equations, guesses and times, and any root finder that returns roots", "why_tests_cant": "Which symbols are unknowns is decided by a slice of a list of vectors; it must be right for every combination of variables.", "anchors": ["yaocptool/modelling/system_model.py: SystemModel.find_equilibrium, all_sym"]}
{"id": "C153", "title": "linearize returns the linear model", "statement": "`linearize(x_bar, u_bar)` returns the model x' = A x + B u with the Jacobians at the point given. This is false for every model and point: the constructor of the new model is called with keywords it does not have, so the call is a TypeError.", "quantifier": "all models and points", "why_tests_cant": "A test that fails shows one input; that no input works is a statement about all.", "anchors": ["yaocptool/modelling/system_model.py: SystemModel.linearize, SystemModel.__init__"]}
{"id": "C154", "title": "expm is the matrix exponential", "statement": "With an exact integrator, `expm(A)` returns the exponential of every square matrix, so `expm(A*h)` maps the value at time zero of every solution of x' = A x to its value at time h; a matrix that is not square is rejected.", "quantifier": "every size and every real matrix", "why_tests_cant": "All matrices of all sizes; needs uniqueness of solutions of differential equations.", "anchors": ["yaocptool/util/util.py:expm"]}
{"id": "C155", "title": "The integrator gets the requested interval and the user's options", "statement": "Each simulation makes one integrator per interval with the user's options, the requested initial and final time and the configured options, the user's taking precedence; the dictionary of the user and the configuration are not changed, however many simulations use them and however they end.", "quantifier": "every system, option dictionary, configuration and list of times", "why_tests_cant": "Unbounded sequences of simulations that share dictionaries.", "anchors": ["yaocptool/modelling/dae_system.py:DAESystem.simulate", "yaocptool/modelling/dae_system.py:DAESystem._create_integrator", "yaocptool/modelling/system_model.py:SystemModel.simulate"]}
{"id": "C156", "title": "A converged augmented Lagrangian solution solves the original problem", "statement": "For every problem, every choice of algebraic equations, path equalities and bounds of states to relax and all values of multipliers and penalties: a solution of the relaxed problem at which the relaxed equations hold satisfies every constraint of the original problem and has the least cost among the trajectories that do. If they hold up to the tolerance only, the cost exceeds the optimal one by at most tolerance times the size of the multipliers times the number of relaxed equations times the length of the horizon. The optimal cost of the relaxed problem never exceeds that of the original one.", "quantifier": "all problems, all index arguments of the constructor, all multipliers and penalties, all discretisations and all trajectories", "why_tests_cant": "Optimality is a statement about all trajectories; a test compares with a few.", "anchors": ["yaocptool/methods/augmented_lagrangian.py: AugmentedLagrangian.__init__, _relax_algebraic_equations, _relax_time_equalities, _include_relax_in_objective"]}
{"id": "C157", "title": "find_algebraic_variable returns a solution of the algebraic equations", "statement": "The vector returned by find_algebraic_variable(x, u, guess, t, p, theta_value) has one entry per algebraic variable and solves all algebraic equations of the model at the given time, states, controls and parameters; arguments of wrong sizes, missing parameters and equations with other symbols are rejected.", "quantifier": "all models with distinct variables, all arguments, all root finders that return roots only", "why_tests_cant": "A test evaluates the equations of one model at one point.", "anchors": ["yaocptool/modelling/mixins/algebraic_mixin.py: AlgebraicMixin.find_algebraic_variable"]}
{"id": "C158", "title": "Collocation adds no error to solutions it can represent", "statement": "If the optimal control problem has an exact solution whose states are polynomials of degree at most d and whose algebraic variables are polynomials of degree below d in every element, then its values at the collocation points satisfy every constraint of the collocation NLP of degree d, at the same cost, and the trajectory reconstructed from them is the exact one between the points too. A state, such as the integral of the running cost, whose right-hand side along a solution of the NLP is a polynomial in time of degree below d is integrated exactly everywhere, and with Radau points up to degree 2d-2 from element end to element end and over the horizon.", "quantifier": "every problem, degree above one, increasing collocation points ending at 1, number of elements, exact polynomial solution and feasible decision vector", "why_tests_cant": "An order-of-accuracy statement over all polynomials, degrees and numbers of elements; a test compares one trajectory up to a tolerance.", "anchors": ["yaocptool/methods/classic/collocationscheme.py:CollocationScheme.discretize", "yaocptool/util/util.py:create_polynomial_approximation", "yaocptool/methods/base/solutionmethodsbase.py:SolutionMethodsBase.collocation_points"]}
{"id": "C159", "title": "A direct method with collocation solves the discretisation of the problem the user declared", "statement": "For a problem without a cost state, DirectMethod with the collocation scheme prepares the problem and builds a nonlinear program. A decision vector satisfies the constraints of that program exactly when, on the polynomials it describes, the expressions the user gave hold: the initial conditions at the start, every ode at every collocation point, the algebraic equations there, the path constraints at the points their time tag names, the limits on the change of the controls, the final conditions at the end and the time-independent constraints, with the states continuous; and one additional state integrates the running cost from zero. Its objective is the user's final cost plus that integral plus the cost at the ends of the elements. The controls in the expressions are the control polynomials, the time is the time from the start of the horizon, and optimised parameters are their decision values. If an expression uses a symbol that is not an input of its function, evaluation raises an error.", "quantifier": "Every ordered field, every interpretation of functions, every problem with different symbols, every mesh, every decision vector and data of the right sizes, with or without rate limits.", "why_tests_cant": "It joins the substitution of the controls, the cost state, the conversion of times, the construction of the functions and the discretisation; tests compare optimal values of a few problems.", "anchors": ["yaocptool/methods/classic/collocationscheme.py: CollocationScheme.discretize", "yaocptool/methods/base/discretizationschemebase.py: _create_function_from_expression", "yaocptool/methods/classic/directmethod.py: DirectMethod.prepare"]}
{"id": "C160", "title": "Multiple shooting with an exact integrator solves the user's continuous problem with the chosen control profile", "statement": "Let a direct method prepare a problem and hand it to multiple shooting, with an integrator that is exact for the equations it is given. Then the constraints of the resulting program hold for a decision vector exactly when the trajectories of the user's differential equations (with the control polynomials of the decision vector) start at the decision vector's states, fit together from element to element, and satisfy the user's initial, final, path (at ends of elements), rate and time-independent conditions; the objective is then the user's final cost plus the integral of the running cost plus the costs at the ends of elements. Setting up the program fails only if an expression uses a symbol that is not available to its function.", "quantifier": "Every problem with known tags at ends of elements, every mesh, every control degree, every decision vector, all data, every exact integrator, with and without cost_as_a_sum.", "why_tests_cant": "It compares a program built by several layers with a continuous-time problem; a test only sees one numerical solution of one problem, within tolerances.", "anchors": ["yaocptool/methods/classic/multipleshooting.py: MultipleShootingScheme.discretize, get_system_at_given_times", "yaocptool/methods/classic/directmethod.py: DirectMethod", "yaocptool/modelling/dae_system.py: DAESystem.simulate", "yaocptool/modelling/ocp.py: OptimalControlProblem.create_cost_state"]}
{"id": "C161", "title": "Solving with a direct method returns the optimum of the user's discretised problem", "statement": "DirectMethod(problem, discretization_scheme='collocation').solve(...) with a solver of nonlinear programs that returns minimisers: the result shows, at the start and the collocation points of each element, the polynomials of one decision vector, and if the solver reports success these polynomials satisfy the dynamics, constraints, bounds and rate limits the user declared, the objective of the result is the cost the user declared, x_c_final is the integral cost, and no other trajectories of the discretisation within the bounds cost less. A later call of solve gives what a first call with its arguments would give. What raises: x_0 of the size of the user's own model, last_u given while the problem has a last control, and a limit on the changes of the controls without a last control.", "quantifier": "all problems in the form a direct method accepts (any numbers of states, algebraic variables, controls, parameters, constraints and elements, any degrees), all arguments of solve that fit, all solvers that return minimisers", "why_tests_cant": "Tests compare one example's objective with a reference value; that the reported trajectories are optimal for what the user wrote needs the whole chain from the declared expressions over the preparation, the discretisation, the layout of variables and parameters to the reading of the result, for every problem.", "anchors": ["yaocptool/methods/base/solutionmethodsbase.py:SolutionMethodsBase.solve", "yaocptool/methods/base/solutionmethodsbase.py:SolutionMethodsBase.create_optimization_problem", "yaocptool/methods/base/solutionmethodsbase.py:SolutionMethodsBase.call_solver", "yaocptool/methods/base/solutionmethodsbase.py:SolutionMethodsBase.create_optimization_result", "yaocptool/methods/classic/collocationscheme.py:CollocationScheme.discretize", "yaocptool/methods/classic/directmethod.py:DirectMethod"]}
{"id": "C162", "title": "A model predictive controller with a direct method sends the best control for the estimated state", "statement": "With a direct method (collocation) as solution method, include_cost_in_state_vector=True, a problem without last control and rate limits, and a solver that returns minimisers, every cycle of MPC.run solves the user's discretised problem from the estimated state with the user's parameters (with the estimates at the configured positions), computes the warm start, and sends the plant the control polynomials of the first element of the best decision. With the default include_cost_in_state_vector=False, with a last control in the problem, or with rate limits, a cycle does the same.", "quantifier": "for all problems a direct method can work with, options, estimators, plants, solvers, earlier calls of the method, parameter vectors and numbers of cycles", "why_tests_cant": "a test runs one plant and one problem with a fixed solver; the claim relates every cycle of every run to the best decision of the discretised problem, and the failing configurations raise for every problem", "anchors": ["yaocptool/mpc/mpc.py:MPC.run", "yaocptool/mpc/mpc.py:MPC.get_new_control", "yaocptool/mpc/mpc.py:MPC.get_states", "yaocptool/methods/base/solutionmethodsbase.py:SolutionMethodsBase.solve"]}
{"id": "C163", "title": "A direct method does at least as well as every trajectory its mesh can represent", "statement": "Take any trajectory of the user's continuous-time problem (differential and algebraic equations, bounds, path constraints, initial and final conditions hold at every time, with the actual clock) whose states are polynomials of degree at most the number of collocation points in every element, whose algebraic variables have smaller degree, and whose controls are polynomials through the control points. If solve reports success, the objective it returns is at most the cost of that trajectory. Conversely, if the right-hand sides along the returned solution are polynomials of degree below the number of collocation points, the equations hold everywhere, not only at the collocation points.", "quantifier": "all problems a direct method accepts, all meshes, all arguments of solve, all solvers that return a minimiser when they report success, all trajectories of the continuous problem that the mesh can represent", "why_tests_cant": "the comparison is with all trajectories of the continuous problem; a test knows the continuous optimum only for a few analytical examples", "anchors": ["yaocptool/methods/base/solutionmethodsbase.py:solve", "yaocptool/methods/classic/collocationscheme.py:discretize", "yaocptool/methods/classic/directmethod.py"]}
{"id": "C164", "title": "The costs and constraints of a problem mention only its own variables and the time", "statement": "After OptimalControlProblem(model) and any sequence of successful calls with expressions over the problem's variables, every term of the problem (L, V, S, h, g_eq, g_ineq, time constraints, initial and final conditions) mentions only the time, the variables and the parameters of the problem, so that the functions built from them have no free symbols. In particular merging problems, connecting inputs and removing controls keep this.", "quantifier": "all problems, all finite sequences of successful calls, all merged problems, all connections", "why_tests_cant": "a test builds one problem; whether a symbol stays behind depends on the combination of terms, calls and their order, and shows only when the optimisation problem is built", "anchors": ["yaocptool/modelling/ocp.py:OptimalControlProblem.merge", "yaocptool/modelling/ocp.py:OptimalControlProblem.connect", "yaocptool/modelling/ocp.py:OptimalControlProblem.remove_control", "yaocptool/modelling/ocp.py:OptimalControlProblem.replace_variable"]}
{"id": "C165", "title": "The stored last control has one value per control", "statement": "If a problem stores a last applied control (last_u) it has one value per control, and it keeps one value per control through every sequence of successful calls, so that rate limits on the first control and warm starts read the value of the right control.", "quantifier": "all problems with a stored last control, all finite sequences of successful calls, all merged problems", "why_tests_cant": "the sizes diverge only for particular orders of setting last_u and changing the controls; a test sets last_u after the problem is complete", "anchors": ["yaocptool/modelling/ocp.py:OptimalControlProblem.include_control", "yaocptool/modelling/ocp.py:OptimalControlProblem.remove_control", "yaocptool/modelling/ocp.py:OptimalControlProblem.connect", "yaocptool/modelling/ocp.py:OptimalControlProblem.merge"]}
{"id": "C166", "title": "Solving with multiple shooting returns the optimum of the user's continuous problem with the chosen control profile", "statement": "DirectMethod(problem, discretization_scheme='multiple-shooting').solve(...) with an integrator that is exact and a solver of nonlinear programs that returns minimisers: the result shows one decision vector (states at the nodes, algebraics at the ends of the elements, polynomials of the controls), and if the solver reports success then the trajectories of the user's differential equations that start at these states fit together and satisfy the constraints, bounds and rate limits the user declared, the objective of the result is the cost the user declared including the integral of the running cost, x_c_final is that integral, and no other trajectories with controls of this form cost less. A later call of solve gives what a first call with its arguments would give. What raises: x_0 of the size of the user's own model, last_u given while the problem has a last control, and a limit on the changes of the controls without a last control.", "quantifier": "all problems in the form multiple shooting accepts (any numbers of states, algebraic variables, controls, parameters, constraints and elements, any degree of the controls), all arguments of solve that fit, all exact integrators, all solvers that return minimisers", "why_tests_cant": "Tests compare one example's objective with a reference value; that the reported trajectory is optimal for the differential equations the user wrote needs the whole chain from the declared expressions over the preparation, the integrators of the elements, the layout of variables and parameters to the reading of the result, for every problem.", "anchors": ["yaocptool/methods/base/solutionmethodsbase.py:SolutionMethodsBase.solve", "yaocptool/methods/base/solutionmethodsbase.py:SolutionMethodsBase.create_optimization_problem", "yaocptool/methods/base/solutionmethodsbase.py:SolutionMethodsBase.create_optimization_result", "yaocptool/methods/classic/multipleshooting.py:MultipleShootingScheme.discretize", "yaocptool/methods/classic/directmethod.py:DirectMethod"]}
{"id": "C167", "title": "Solving with an augmented Lagrangian around a direct method gives a near-optimal trajectory of the user's problem", "statement": "An AugmentedLagrangian is created for a problem with algebraic equations to relax, with DirectMethod (collocation) as the inner method. For every call of solve, after any number of earlier calls, if the inner solver returns minimisers when it reports success: the call returns; the objective of a successful result is at most the cost of every trajectory that satisfies all constraints of the user's problem (whose freed variables are as smooth as controls); the trajectories of the result satisfy all constraints of the user's problem except the relaxed equations exactly, and the relaxed equations at all collocation points up to the violation error the result shows; if this error is below the tolerance, their cost is at most the optimal cost plus the tolerance times a bound of the multipliers, the number of relaxed equations and the horizon; and the loop makes max_iter solves unless the error is below the tolerance.", "quantifier": "all problems, meshes, options, data, histories of calls and solvers; all decisions of the discretised problem", "why_tests_cant": "It composes the constructor's rewriting of the problem, the inner transcription and the outer loop, and compares the result with all feasible trajectories of another problem; a test can only look at one.", "anchors": ["yaocptool/methods/augmented_lagrangian.py:AugmentedLagrangian.__init__", "yaocptool/methods/augmented_lagrangian.py:AugmentedLagrangian.solve", "yaocptool/methods/augmented_lagrangian.py:AugmentedLagrangian.call_solver", "yaocptool/methods/augmented_lagrangian.py:AugmentedLagrangian.update_parameters", "yaocptool/methods/augmented_lagrangian.py:AugmentedLagrangian._parametrize_nu", "yaocptool/methods/base/solutionmethodsbase.py:SolutionMethodsBase.solve"]}
{"id": "C168", "title": "A dataset as a table has every sample, with missing values where an entry has none", "statement": "as_dataframe() of a dataset returns a table with a column per name of each named entry. At each time at which some entry has a sample, and at no other, there is a row; the cells of an entry in a row are one of its samples at this time, or missing values if it has none, and every such combination is there. If no entry has two samples at the same time each time has exactly one row; the rows are in the order of the times as soon as two entries are merged. The table of a distributed result has the tables of all nodes side by side in the same way.", "quantifier": "all datasets whose values have a row per name, all numbers of entries, samples and nodes, with any common or different times", "why_tests_cant": "Tests look at one result; the number of rows depends on how the times of all entries interleave and repeat, which is a statement about a fold of outer joins.", "anchors": ["yaocptool/modelling/dataset.py: DataSet.as_dataframe", "yaocptool/methods/base/distributed_optimization_result.py: DistributedOptimizationResult.as_dataframe"]}
{"id": "C169", "title": "A problem declared with the creating calls is solved as declared", "statement": "Start from an empty OptimalControlProblem and declare it by any program of create_state, create_algebraic, create_control, create_parameter/theta, create_optimization_parameter/theta, set_parameter_as_optimization_parameter, set_theta_as_optimization_theta, include_*_equality/inequality, include_system_equations and assignments of L, V, S and last_u. If the program is accepted, the problem states exactly what was declared (constraints with their time tags, costs, initial values and conditions, algebraic equations, control and algebraic bounds, and the differential equations given with the states). If moreover the expressions mention only declared variables, every state has an equation, there is a control and no bounds are crossed, then a direct method (collocation, or multiple shooting with an exact integrator) accepts the problem, and with a solver that returns minimisers its result shows trajectories that satisfy the declared problem at the least cost. Limits of the claim: state bounds given as python lists of two or more numbers, an h_initial given together with x_0, and equations included after other states already have one, are not taken as declared.", "quantifier": "all programs of declaring statements of any length and order, all expressions, bounds, meshes, arguments and solvers that return minimisers", "why_tests_cant": "A test declares one problem; the claim is about every sequence of declarations, and it needs that no sequence leaves sizes, symbols, equations or constraints out of step, and then that the transcription of the result is the declared problem.", "anchors": ["yaocptool/modelling/ocp.py:OptimalControlProblem.create_state", "yaocptool/modelling/ocp.py:OptimalControlProblem.create_control", "yaocptool/modelling/ocp.py:OptimalControlProblem.include_time_inequality", "yaocptool/modelling/ocp.py:OptimalControlProblem.include_system_equations", "yaocptool/modelling/mixins/continuous_states_mixin.py:ContinuousStateMixin.include_equations", "yaocptool/methods/base/solutionmethodsbase.py:SolutionMethodsBase.solve"]}
{"id": "C170", "title": "A copy of a dataset is independent of it", "statement": "get_copy of a DataSet gives a data set that reads the same and is not connected to it: whatever is done afterwards with one of the two (create_entry, insert_data, sort, extend also with the other one, calls that raise, and in-place changes of the names, times and values that get_entry_names and get_entry return) does not change what is read through the other, and calls of methods in any order make of both what they would make of two unrelated data sets.", "quantifier": "every history of creating, changing and copying two data sets, and every program run after the copy, in any interleaving", "why_tests_cant": "Aliasing shows only for particular combinations of shared objects and later in-place changes; a test tries a few of them.", "anchors": ["yaocptool/modelling/dataset.py:DataSet.get_copy", "yaocptool/modelling/dataset.py:DataSet.get_entry", "yaocptool/modelling/dataset.py:DataSet.get_entry_names", "yaocptool/modelling/dataset.py:DataSet.get_entry_size", "yaocptool/modelling/dataset.py:DataSet.extend", "yaocptool/modelling/dataset.py:Entry"]}
{"id": "C171", "title": "is_valid tells whether a result is valid", "statement": "is_valid of the result of a solve is true exactly if the result has nonnegative numbers of elements, degrees and times, at least one time point and an objective value, and otherwise raises.", "quantifier": "every result object, in particular every result created by a solution method with any options, times and objective", "why_tests_cant": "The check reads attributes by name; a test calls it on one result, if at all.", "anchors": ["yaocptool/methods/base/optimizationresult.py:OptimizationResult.is_valid", "yaocptool/methods/base/optimizationresult.py:OptimizationResult.__init__", "yaocptool/methods/base/solutionmethodsbase.py:SolutionMethodsBase.create_optimization_result"]}
{"id": "C172", "title": "Inner iterations of the distributed method never increase the augmented Lagrangian of the network, and stop only when it no longer decreases", "statement": "While the multipliers and penalties are fixed, solving the nodes one after the other, in any choice of blocks and even when some solves fail, never increases the augmented Lagrangian of the whole network (costs of the nodes plus the terms of the connections); solving them in processes does not increase it either; and the inner iterations end only where it stopped decreasing.", "quantifier": "every network of nodes and connections, all costs of nodes and connections, all node solvers that return minimisers or fail, every block choice, every number of inner iterations", "why_tests_cant": "It is a statement about every network and all costs; a test sees the values of a few runs. The failures need a network with three mutually connected nodes, or a cost where the sum of node objectives rises while the Lagrangian falls.", "anchors": ["yaocptool/methods/network/distributedaugmetedlagrangian.py:DistributedAugmentedLagrangian.solve", "yaocptool/methods/network/distributedaugmetedlagrangian.py:DistributedAugmentedLagrangian._solve_node_problems_serial", "yaocptool/methods/network/distributedaugmetedlagrangian.py:DistributedAugmentedLagrangian._solve_node_problems_distributed"]}
{"id": "C173", "title": "A distributed solution that no longer changes and whose coupling errors vanish is an optimal solution of the network problem", "statement": "When an inner iteration over all nodes changes no result, the results minimise the augmented Lagrangian of the network; their total cost exceeds that of any consistent solution of the network by at most the sum of multiplier times coupling error; with zero coupling errors they are optimal for the network. A solution that solve() returns with coupling errors below the tolerance is optimal in the same sense.", "quantifier": "every network with convex costs and convex admissible sets of the nodes, linear coupling conditions, nonnegative penalties and arbitrary multipliers, exact node solvers, with and without processes", "why_tests_cant": "Optimality compares with all admissible solutions of the whole network, for all convex networks; no test can enumerate them.", "anchors": ["yaocptool/methods/network/distributedaugmetedlagrangian.py:DistributedAugmentedLagrangian.solve", "yaocptool/methods/network/distributedaugmetedlagrangian.py:DistributedAugmentedLagrangian._solve_node_problems"]}
{"id": "C174", "title": "The two ends of a connection of a distributed solution use the same multipliers and the same penalty", "statement": "In the distributed augmented Lagrangian each end of a connection keeps its own multipliers and penalty for the coupling. Whenever nodes are solved, both ends of every connection use the same multiplier at every collocation point and the same penalty.", "quantifier": "every pair of nodes with the same options and any numbers of relaxed constraints, every penalty rule, serial and in processes, every history of outer iterations with any number of solves and arbitrary (common) coupling errors", "why_tests_cant": "It is an invariant of two independent objects over all histories of solves and updates; a test that solves a network sees a few iterations in which every node was solved.", "anchors": ["yaocptool/methods/network/distributedaugmetedlagrangian.py:DistributedAugmentedLagrangian.solve", "yaocptool/methods/network/distributedaugmetedlagrangian.py:DistributedAugmentedLagrangian._update_parameters_serial", "yaocptool/methods/augmented_lagrangian.py:AugmentedLagrangian.update_parameters", "yaocptool/methods/augmented_lagrangian.py:AugmentedLagrangian._compute_new_nu_and_error"]}
{"id": "C175", "title": "Both ends of a connection compute the same coupling error", "statement": "When the parameters of the nodes of a network are updated after an outer iteration, the node that owns the connecting output and the node that owns the connected input compute the same error for the connection, namely input minus output as reported in their last results, at every collocation point of every element. Hence, started from the same multipliers and penalty, both ends keep the same multipliers and the same penalty for ever.", "quantifier": "every pair of connected nodes, all results of the nodes, all meshes, degrees, positions of the connection among the connections of either node, and all histories of outer iterations", "why_tests_cant": "The two ends assemble their parameter vectors, their approximations and their constraints independently; a test compares one network at one iterate, and a misplaced slice goes unnoticed when the values are constant over the mesh.", "anchors": ["yaocptool/methods/network/distributedaugmetedlagrangian.py:DistributedAugmentedLagrangian._get_node_theta", "yaocptool/methods/network/distributedaugmetedlagrangian.py:DistributedAugmentedLagrangian._update_parameters_serial", "yaocptool/methods/augmented_lagrangian.py:AugmentedLagrangian._compute_new_nu_and_error"]}
{"id": "C176", "title": "An intermediary node agrees with its neighbours", "statement": "An intermediary node is solved with the last output of its predecessor and the last input of its successor, reports the value found as its control and as its algebraic variable at the collocation points, both neighbours are told this value, and at an update the errors that enter its multipliers are the coupling errors its neighbours compute for their ends of the two connections.", "quantifier": "every intermediary node, all results of its neighbours, all meshes, degrees, multipliers and penalties", "why_tests_cant": "The intermediary node has its own closed form, its own layout of values and its own result object; a test with constant trajectories or one element cannot see a misplaced slice.", "anchors": ["yaocptool/methods/network/intermediary_node_solution_method.py:IntermediaryNodeSolutionMethod.solve", "yaocptool/methods/network/intermediary_node_solution_method.py:IntermediaryNodeSolutionMethod.create_optimization_result", "yaocptool/methods/network/distributedaugmetedlagrangian.py:DistributedAugmentedLagrangian._get_node_theta"]}
{"id": "C177", "title": "The nodes of a distributed solution solve the problem of the network", "statement": "The problem that the distributed augmented Lagrangian makes of a node has as its solutions exactly the trajectories of the node's original problem that minimise the augmented Lagrangian of the whole network while the other nodes keep their results. Hence solving the nodes one after the other never increases it, and results that an inner iteration over all nodes leaves unchanged and that agree along the connections are an optimal solution of the network: they satisfy the original problems of all nodes with connected inputs equal to outputs, and no other such solution has a smaller total cost.", "quantifier": "all networks of problems and connections that fit them, all multipliers and penalties, all grids of points, all degrees and approximations, every choice of blocks", "why_tests_cant": "The statement compares with every trajectory of every node of every network; tests run a few networks and look at the final values.", "anchors": ["yaocptool/methods/network/distributedaugmetedlagrangian.py:DistributedAugmentedLagrangian._include_exogenous_variables", "yaocptool/methods/network/distributedaugmetedlagrangian.py:DistributedAugmentedLagrangian._create_solution_methods", "yaocptool/methods/network/distributedaugmetedlagrangian.py:DistributedAugmentedLagrangian.solve", "yaocptool/methods/augmented_lagrangian.py:AugmentedLagrangian.__init__"]}
{"id": "C178", "title": "The problem that a network returns has exactly the optimal solutions of the network", "statement": "The problem that get_problem returns for a network has as solutions exactly the trajectories that are composed of optimal solutions of the network: every node satisfies its own problem, connected inputs have the values of the outputs, and no other such choice has a smaller total cost. Hence what the distributed augmented Lagrangian returns, when it no longer changes and the coupling errors vanish, solves the problem that get_problem returns.", "quantifier": "all networks of problems with mergeable models and connections that can be made, all schemes of discretisation that treat equations one by one, all values of parameters", "why_tests_cant": "It compares the solution sets of two formulations for every network; a test can compare two numerical solutions of one network.", "anchors": ["yaocptool/modelling/network/network.py:Network.get_problem", "yaocptool/modelling/ocp.py:OptimalControlProblem.merge", "yaocptool/modelling/ocp.py:OptimalControlProblem.connect", "yaocptool/methods/network/distributedaugmetedlagrangian.py:DistributedAugmentedLagrangian.solve"]}
{"id": "C179", "title": "An augmented Lagrangian has the options it was given, and so have the nodes of a distributed one", "statement": "Every option of a new augmented Lagrangian has the value given by the user or its default, and the method, its multipliers and its inner method use the same degree and number of elements. The methods of the nodes of a distributed augmented Lagrangian have the degree and the number of elements of the distributed method, one iteration, and the other options of its al_options. Nothing else a program does changes the options of a method. Unknown options and contradicting degrees are rejected. This holds as long as the options are given in a dictionary and the dictionary of solver options does not ask for another degree or number of elements. It fails otherwise: the constructor writes the degree and the number of elements into the user's dictionary of solver options, so that a second method made with it takes them over while its multipliers keep the degree asked for; distributed methods made without al_options share one options object; methods made with one options object share it; and options given as keywords are ignored.", "quantifier": "all programs that make methods, dictionaries and options objects and set options, all options and all inner methods", "why_tests_cant": "Whether a method has its own options depends on everything else the program made before and after with the same dictionaries and objects; a test makes one method.", "anchors": ["yaocptool/methods/augmented_lagrangian.py:AugmentedLagrangian.__init__", "yaocptool/methods/augmented_lagrangian.py:AugmentedLagrangianOptions", "yaocptool/methods/augmented_lagrangian.py:OptionsOverride", "yaocptool/methods/network/distributedaugmetedlagrangian.py:DistributedAugmentedLagrangian.__init__", "yaocptool/methods/network/distributedaugmetedlagrangian.py:DistributedAugmentedLagrangianOptions", "yaocptool/methods/network/distributedaugmetedlagrangian.py:DistributedAugmentedLagrangian._create_solution_methods"]}
{"id": "C180", "title": "A direct method solves the problem at the collocation points", "statement": "The discretised problem that a direct method with collocation solves is the problem at the collocation points: values of states, algebraic variables and controls at the points satisfy the algebraic equations, path constraints, bounds, boundary conditions and collocated differential equations exactly when they are the values of a feasible decision, at the same cost. So the solutions at the points are the best decisions, and the tables of a successful result are such a solution with the objective as its cost. Hence nodes of a distributed augmented Lagrangian that are solved by direct methods solve the problems of C177, and a direct method for the problem that get_problem returns finds exactly the optimal solutions of the network.", "quantifier": "all problems without optimised parameters, rate limits and declared positive objective, all good meshes, all data, all solvers that only report success for solutions of the nonlinear program, all networks of such problems", "why_tests_cant": "The statement relates a nonlinear program with variables for every element and point to trajectories for every problem; tests compare numbers of single solutions, and the composition over networks cannot be tested at all.", "anchors": ["yaocptool/methods/classic/directmethod.py:DirectMethod", "yaocptool/methods/classic/collocationscheme.py:CollocationScheme.discretize", "yaocptool/methods/base/solutionmethodsbase.py:SolutionMethodsBase.solve", "yaocptool/modelling/network/network.py:Network.get_problem", "yaocptool/methods/network/distributedaugmetedlagrangian.py:DistributedAugmentedLagrangian"]}
{"id": "C181", "title": "With a perfect model the plant goes where the controller predicted", "statement": "If the plant of an MPC with a direct method has the same model as the problem, is simulated by the same collocation, samples once per element, has no noise and its states are estimated exactly, then in every cycle of a run in which the problem has a solution the plant reaches the state at the end of the first element of a solution of the problem from the current state; and a run raises no exception. This holds when the controls are constant in the elements. It does not hold for controls of a higher degree, although the controller gives the plant a control function of the time: the plant holds the value that the function has at the start of a sampling interval.", "quantifier": "all problems without time-varying parameters and rate limits, all meshes with piecewise constant control, all plants that simulate the model by collocation, all complete solvers, all numbers of cycles", "why_tests_cant": "The statement composes the transcription, the solver, the tables of the result, the interpolated control and the plant over a run of any length and for every problem; a test compares a few numbers with a tolerance.", "anchors": ["yaocptool/mpc/mpc.py:MPC.run", "yaocptool/mpc/mpc.py:MPC.get_new_control", "yaocptool/mpc/plant.py:PlantSimulation._advance", "yaocptool/mpc/plant.py:PlantSimulation.set_control_function", "yaocptool/methods/classic/directmethod.py:DirectMethod", "yaocptool/estimation/ideal_estimator.py:IdealEstimator.estimate"]}
{"id": "C182", "title": "A controller with a suitable final cost stays feasible and its costs do not grow", "statement": "Let nothing in the problem of an MPC depend on the time, let one be able to go on for one more element from every allowed end of the horizon with the final cost paying for the element, and let problems with allowed trajectories have solutions. If the first problem has an allowed trajectory then the problems of all later cycles have solutions, the optimal cost falls in each cycle by at least the cost of the element that was applied, the costs of all applied elements together with the last optimal cost are at most the first optimal cost, and if the costs are not negative then the cost of the applied element falls below any bound in some cycle. A run of the controller with a perfect model is such a closed loop.", "quantifier": "all problems and meshes as in C181, all final costs and constraints with the stated condition, all numbers of cycles", "why_tests_cant": "Recursive feasibility and decrease are statements about all initial states and all numbers of cycles; a test simulates one run for a few cycles.", "anchors": ["yaocptool/mpc/mpc.py:MPC.run", "yaocptool/mpc/mpc.py:MPC.get_new_control", "yaocptool/modelling/ocp.py:OptimalControlProblem", "yaocptool/methods/classic/directmethod.py:DirectMethod", "yaocptool/mpc/plant.py:PlantSimulation._advance"]}
{"id": "C183", "title": "The nonlinear program of an indirect method is the collocated system of optimality conditions", "statement": "When a problem is solved with an indirect method and collocation, the nonlinear program has the objective zero, and a decision vector satisfies its constraints exactly when, with the controls that minimise the Hamiltonian within their bounds, the polynomials satisfy at the collocation points the state equations, the adjoint equations (minus the derivatives of the Hamiltonian), the algebraic equations and the stationarity of the Hamiltonian in the algebraic variables, the path constraints, the initial and final conditions, and the transversality conditions with the multipliers of the final constraints. All costs of the problem are taken into account, and limits on the changes of the controls are respected.", "quantifier": "all problems with a Hamiltonian that is quadratic and strictly convex in the controls, all meshes, all decision vectors, all parameter values", "why_tests_cant": "The conditions pass through symbolic derivatives, an inverted Hessian, clipping, two substitutions and the discretisation; a test compares a final trajectory for one problem and cannot see an equation that is missing, has the wrong sign, or holds at the wrong points for other problems.", "anchors": ["yaocptool/methods/classic/indirectmethod.py:IndirectMethod.prepare", "yaocptool/methods/classic/indirectmethod.py:IndirectMethod.calculate_optimal_control", "yaocptool/methods/classic/collocationscheme.py:CollocationScheme.discretize", "yaocptool/modelling/ocp.py:OptimalControlProblem.create_adjoint_states"]}
{"id": "C184", "title": "Solving with an indirect method gives an extremal of the user's problem", "statement": "IndirectMethod(problem, discretization_scheme='collocation').solve(x_0, p, theta): with a solver that returns minimisers of the nonlinear program, the call returns a result whose states, adjoints and algebraic variables are the collocation polynomials of the returned decision vector and whose controls minimise the Hamiltonian at the collocation points. If the solver reports success these trajectories satisfy the dynamics, the constraints and the bounds the user declared, the adjoint equations and the transversality conditions, for the given parameters. If the collocated conditions have a solution and the solver finds minimisers that exist, the call succeeds. The objective of the result is the cost the user declared. Calling solve again gives what it would give as a first call, and x_0 is an initial state of the model the user declared.", "quantifier": "every problem in the form the indirect method can prepare, every mesh of collocation points, all values of initial state and parameters, every solver, every history of earlier calls", "why_tests_cant": "the claim is about every problem, mesh and solver, and about what the numbers in the result mean; a test solves one problem and compares with a stored trajectory", "anchors": ["yaocptool/methods/classic/indirectmethod.py:IndirectMethod.prepare", "yaocptool/methods/base/solutionmethodsbase.py:SolutionMethodsBase.solve", "yaocptool/methods/base/solutionmethodsbase.py:SolutionMethodsBase.call_solver", "yaocptool/methods/base/solutionmethodsbase.py:SolutionMethodsBase.create_optimization_problem", "yaocptool/methods/base/solutionmethodsbase.py:SolutionMethodsBase.create_optimization_result", "yaocptool/methods/classic/collocationscheme.py:CollocationScheme.discretize", "yaocptool/methods/classic/collocationscheme.py:CollocationScheme.get_system_at_given_times", "yaocptool/methods/classic/collocationscheme.py:CollocationScheme.set_data_to_optimization_result_from_raw_data"]}
{"id": "C185", "title": "An indirect method with multiple shooting gives an extremal in continuous time", "statement": "When a problem is solved with an indirect method and multiple shooting and the integrator is exact, a decision vector satisfies the constraints of the program exactly when the trajectories that start from it fit together, over the elements, to an extremal of the problem the user wrote: the dynamics, the equations of the adjoints, controls that minimise the Hamiltonian within their bounds at every time, the path constraints at the ends of elements, the final constraints and the transversality conditions. The states and the adjoints are continuous, and the controls of the result are those of the extremal at the reported times. This fails with one collocation point: the result cannot be built (NotImplementedError).", "quantifier": "all problems whose Hamiltonian is a strictly convex quadratic function of the controls, all meshes, decision vectors, parameters, trajectories and exact integrators", "why_tests_cant": "A test can compare one solution of one problem with a known one; the claim ranges over all problems and decision vectors and is about trajectories in continuous time, which no finite set of points settles.", "anchors": ["yaocptool/methods/classic/multipleshooting.py:MultipleShootingScheme.discretize", "yaocptool/methods/classic/multipleshooting.py:MultipleShootingScheme.get_system_at_given_times", "yaocptool/methods/classic/multipleshooting.py:MultipleShootingScheme.set_data_to_optimization_result_from_raw_data", "yaocptool/methods/classic/indirectmethod.py:IndirectMethod"]}
{"id": "C186", "title": "Solving with an indirect method and multiple shooting gives an extremal of the declared problem in continuous time", "statement": "For a problem without a cost state whose Hamiltonian is a strictly convex quadratic function of the controls, an indirect method with multiple shooting, an exact integrator, more than one collocation point and a solver that returns minimisers: solve(...) returns a result that shows the states and adjoints of a decision vector at the nodes, the algebraic variables at the ends of elements, and the controls of the extremals that start at these nodes. If the solver reports success, these extremals fit together continuously from the given initial state to the end and satisfy the constraints and bounds the user declared and the transversality conditions. If such an extremal exists and the solver finds minimisers that exist, the call succeeds. The objective of the result is the cost of the declared problem. It works for every number of collocation points. Calling solve again gives what a first call would give.", "quantifier": "all problems, control laws, data, initial states, integrators, solvers and sequences of two calls", "why_tests_cant": "a test runs one problem with one integrator and one solver; the claim is about every trajectory of the differential equations of the user's problem and every solver", "anchors": ["yaocptool/methods/base/solutionmethodsbase.py:SolutionMethodsBase.solve", "yaocptool/methods/base/solutionmethodsbase.py:SolutionMethodsBase.create_optimization_result", "yaocptool/methods/classic/indirectmethod.py:IndirectMethod.prepare", "yaocptool/methods/classic/multipleshooting.py:MultipleShootingScheme.discretize", "yaocptool/methods/classic/multipleshooting.py:MultipleShootingScheme.unpack_decision_variables"]}
{"id": "C187", "title": "For convex problems the result of an indirect method is optimal among all trajectories of the declared problem", "statement": "For a problem whose Hamiltonian is convex in the states, algebraic variables and controls along the trajectories, and whose final cost with the weighted final constraints is convex: a successful solve(...) with an indirect method and multiple shooting shows the controls of a trajectory of the declared problem (dynamics, algebraic equations, control bounds, initial and final conditions) such that no trajectory of the declared problem, with whatever controls as functions of time, has a smaller cost. This includes the values of the parameters that are to be found.", "quantifier": "all problems, data, initial states, exact integrators and solvers, and all competing trajectories in continuous time", "why_tests_cant": "a test can compare the result with a few other controls; the claim is about all ways to control the system over time, an infinite-dimensional set", "anchors": ["yaocptool/methods/base/solutionmethodsbase.py:SolutionMethodsBase.solve", "yaocptool/methods/classic/indirectmethod.py:IndirectMethod.prepare", "yaocptool/methods/classic/multipleshooting.py:MultipleShootingScheme.discretize", "yaocptool/methods/classic/indirectmethod.py:IndirectMethod.calculate_optimal_control"]}
{"id": "C188", "title": "A model predictive controller works with every solution method", "statement": "A controller (`MPC`) is built from a plant, an estimator and a solution method, and the documentation lets the user pass any of the solution methods of the library. For every choice of method (direct or indirect) and discretiser (collocation or multiple shooting), if the sizes fit and the solver and the estimator answer, `run(n)` returns after `n` iterations and in every iteration the plant has gone on with the best control of the user's problem from the estimated state.", "quantifier": "every plant, estimator, problem, mesh, number of iterations and earlier use of the method; direct and indirect methods; collocation and multiple shooting", "why_tests_cant": "The failing combinations raise only when the controller prepares the initial guess of the next iteration or asks the method for a solution from a state of the original model; the test-suite exercises the controller with direct collocation only.", "anchors": ["yaocptool/mpc/mpc.py:MPC.run", "yaocptool/mpc/mpc.py:MPC.get_new_control", "yaocptool/methods/classic/multipleshooting.py:MultipleShootingScheme.unpack_decision_variables", "yaocptool/methods/base/solutionmethodsbase.py:SolutionMethodsBase.solve"]}
{"id": "C189", "title": "Changes of the problem are honoured by the next call of solve", "statement": "Between two calls of `solve` the user changes the problem of a solution method: the equations of its model, bounds, constraints, costs, the initial state. The next call of `solve` solves the changed problem.", "quantifier": "every problem and solution method (direct or indirect, collocation or multiple shooting), every first call that returned, every change of equations, bounds, rate limits, constraints, costs, guesses or of the initial state, every arguments of the next call and every solver", "why_tests_cant": "Tests build a new method for each problem. What a second call does depends on what the first call left in the method, for every possible change.", "anchors": ["yaocptool/methods/base/solutionmethodsbase.py:SolutionMethodsBase.call_solver", "yaocptool/methods/base/solutionmethodsbase.py:SolutionMethodsBase.create_optimization_problem", "yaocptool/methods/base/solutionmethodsbase.py:SolutionMethodsBase._get_solver_call_args"]}
{"id": "C190", "title": "For convex problems the augmented Lagrangian meets its tolerance", "statement": "If a problem is convex without the relaxed equations, these are affine, the relaxed problems are solved to optimality and the problem has a solution with multipliers, then after a number of iterations that can be computed beforehand the augmented Lagrangian stops because all relaxed equations are violated by less than the tolerance. The cost it returns then differs from the smallest one by at most the tolerance times a number that depends on the multipliers of the solution and the start only.", "quantifier": "all convex problems with affine relaxed equations, options with computed violations and penalties that do not decrease, starting multipliers and penalties, tolerances and optimal solvers of the relaxed problem", "why_tests_cant": "convergence holds for every convex problem and every number of iterations; a test runs one problem", "anchors": ["yaocptool/methods/augmented_lagrangian.py:AugmentedLagrangian.call_solver", "yaocptool/methods/augmented_lagrangian.py:AugmentedLagrangian.update_parameters", "yaocptool/methods/augmented_lagrangian.py:AugmentedLagrangian._compute_new_nu_and_error", "yaocptool/methods/augmented_lagrangian.py:AugmentedLagrangian._update_mu"]}
{"id": "C191", "title": "For convex problems a solver that only finds local solutions is good enough", "statement": "If the dynamics, the algebraic equations and the equality constraints of a problem are affine and its costs and inequalities are convex, then a trajectory of the discretised problem that no trajectory near it beats is beaten by no trajectory at all, although the nonlinear program itself is not convex (the running cost is a state with nonlinear dynamics). So solving with a direct method and a solver that reports success at local solutions gives the global optimum.", "quantifier": "all convex problems without rate limits, optimised parameters and the positive-objective switch, meshes with a positive quadrature, and solvers that return local solutions", "why_tests_cant": "the claim compares a local solution with every other trajectory; a test compares with a few", "anchors": ["yaocptool/methods/classic/directmethod.py:DirectMethod", "yaocptool/methods/base/solutionmethodsbase.py:SolutionMethodsBase.solve", "yaocptool/methods/classic/collocationscheme.py:CollocationScheme", "yaocptool/optimization/abstract_optimization_problem.py:AbstractOptimizationProblem.get_solver"]}
{"id": "C192", "title": "A model predictive controller works with an augmented Lagrangian", "statement": "A controller (`MPC`) is built from a plant, an estimator and an `AugmentedLagrangian` around a direct method with collocation, for a problem with algebraic equations to relax. For every number of iterations and every earlier use of the method, if the sizes of the user's problem fit those of the plant and the solver and the estimator answer, `run(n)` returns, and in every iteration the plant has gone on with the controls of the user's problem that were found.", "quantifier": "all plants, estimators, problems with algebraic equations to relax, meshes, options of the augmented Lagrangian, numbers of iterations and earlier calls", "why_tests_cant": "It depends on how the sizes of the relaxed problem and of the plant relate for every problem, mesh and number of relaxed equations, and on what the result of every solve contains.", "anchors": ["yaocptool/mpc/mpc.py:MPC._make_control_function", "yaocptool/mpc/mpc.py:MPC.send_control", "yaocptool/methods/augmented_lagrangian.py:AugmentedLagrangian.solve", "yaocptool/methods/augmented_lagrangian.py:AugmentedLagrangian._relax_algebraic_equations"]}
{"id": "C193", "title": "A dictionary of weights can be used for several problems", "statement": "create_quadratic_cost leaves the dictionary it is given as it was, so that the same dictionary of weights gives every problem the cost it would have given a problem treated first.", "quantifier": "all dictionaries of weights and references, all pairs of problems of any dimensions", "why_tests_cant": "A test gives each problem a dictionary of its own; the effect of one call on the next shows only for a shared dictionary and problems of different sizes.", "anchors": ["yaocptool/modelling/ocp.py:OptimalControlProblem.create_quadratic_cost"]}
{"id": "C194", "title": "Every optimised parameter is a parameter of the model", "statement": "Whatever calls define a problem, every optimised parameter and every optimised time-dependent parameter is a parameter of the problem's model, so that the value found for it is the value the model uses; declaring any other symbol as optimised is rejected.", "quantifier": "all histories of calls on a problem, all symbols declared as optimised", "why_tests_cant": "Tests declare parameters they have created before; the misplaced values after a foreign symbol show only for other orders and symbols.", "anchors": ["yaocptool/modelling/ocp.py:OptimalControlProblem.set_parameter_as_optimization_parameter", "yaocptool/modelling/ocp.py:OptimalControlProblem.set_theta_as_optimization_theta", "yaocptool/modelling/ocp.py:OptimalControlProblem.get_p_opt_indices", "yaocptool/modelling/ocp.py:OptimalControlProblem.merge"]}
{"id": "C195", "title": "The grid follows the horizon and the number of elements", "statement": "The breakpoints of a solution method, and the times of the points inside its elements, are those of the present horizon of the problem and the present number of elements, whenever they are read.", "quantifier": "every horizon, every number of elements, every set of points inside an element, and every history of assignments to the horizon and the number of elements and of readings of the grid", "why_tests_cant": "The grid is kept after the first reading while the length of an element is computed anew, so whether they agree depends on the order of all assignments and readings; a test builds one method and reads it once.", "anchors": ["yaocptool/methods/base/solutionmethodsbase.py:SolutionMethodsBase.time_breakpoints", "yaocptool/methods/base/solutionmethodsbase.py:SolutionMethodsBase.delta_t", "yaocptool/methods/base/discretizationschemebase.py:DiscretizationSchemeBase.time_interpolation_controls", "yaocptool/methods/classic/collocationscheme.py:CollocationScheme.time_interpolation"]}
{"id": "C196", "title": "Multiple shooting finds the global optimum of convex problems with a local solver", "statement": "If the dynamics and equality constraints of a problem are affine and its costs and inequality constraints convex, then solving it with multiple shooting, an exact integrator and a solver that only guarantees local solutions gives the global optimum: if the solver reports success, the trajectories of the user's differential equations that start at the returned states fit together and meet all declared constraints and bounds, the objective is the cost the user declared with the integral of the running cost, and no other trajectories with controls of the chosen form cost less, near or far. If the solver finds a local solution whenever there is one, the call succeeds with the least cost.", "quantifier": "all convex problems without rate limits and optimised parameters, all meshes, integrators that are exact, local solvers, data, and both ways of accumulating the cost", "why_tests_cant": "The nonlinear program of multiple shooting is not convex (the cost is a state that obeys an equality constraint), so that local solutions are global ones is a statement about all nearby and all distant decision vectors at once; a test runs one solver on one problem.", "anchors": ["yaocptool/methods/classic/multipleshooting.py:MultipleShootingScheme.discretize", "yaocptool/methods/classic/directmethod.py:DirectMethod", "yaocptool/methods/base/solutionmethodsbase.py:SolutionMethodsBase.solve"]}
{"id": "C197", "title": "Expressions sent between processes arrive as they were sent", "statement": "When a process sends a message with expressions to another one, every expression arrives with the same symbols and operations, and two expressions of the message that share a symbol share it after the transfer, whatever messages the two processes have exchanged before.", "quantifier": "all conversations of two processes: any messages in any order and direction, with any sharing inside expressions and between the expressions of a message", "why_tests_cant": "what arrives depends on everything the receiving process has read since it last sent something; a test sends a message or two", "anchors": ["yaocptool/util/serializer.py:CasadiPicklerDepickler", "yaocptool/util/serializer.py:NewForkingPickler"]}
{"id": "C198", "title": "Differential equations in equation form belong to their own states", "statement": "include_equations(der(x) == f, der(z) == g, ...) gives the states on the left-hand side of every equation the entries of the right-hand side of the same equation, in order, the last equation given for a state being the one that counts; other states keep their equations. An equation whose sides have different sizes, or that is for something which is not a state, is rejected and changes no equation.", "quantifier": "all models, and all lists of equations of any sizes", "why_tests_cant": "vector equations of every combination of sizes; a test uses equations that fit", "anchors": ["yaocptool/modelling/mixins/continuous_states_mixin.py:ContinuousStateMixin.include_equations", "yaocptool/modelling/utils.py:der", "yaocptool/modelling/utils.py:Derivative"]}
{"id": "C199", "title": "A call of include_equations takes every equation or none", "statement": "include_equations either puts every equation it is given into the model (differential ones in the equation table, algebraic ones in order at the end of the algebraic equations), or raises and leaves the model as it was, so that the call can be repeated with the mistake repaired.", "quantifier": "all models and all calls: equations in equation form, as ode= with or without x=, and as alg=, in any combination and any size", "why_tests_cant": "every combination of forms and every reason for rejection; a test has one or two of them", "anchors": ["yaocptool/modelling/mixins/continuous_states_mixin.py:ContinuousStateMixin.include_equations", "yaocptool/modelling/mixins/algebraic_mixin.py:AlgebraicMixin.include_equations", "yaocptool/modelling/system_model.py:SystemModel.include_equations"]}
{"id": "C200", "title": "A Kalman filter can be created for a model", "statement": "UnscentedKalmanFilter(model, ...), ExtendedKalmanFilter(model, ...) and PCEKalmanFilter(model, ...) return an estimator for every model when the given mean, covariance and measurement fit it; the extended filter raises ValueError exactly when the model has algebraic variables and no guess for them is given, and the filter with polynomial chaos exactly when fewer samples are asked for than there are polynomials.", "quantifier": "all models (any numbers of states, algebraic variables, controls and parameters), all keyword arguments, all outcomes of the CasADi calls made before", "why_tests_cant": "A test creates a filter for one model; whether a constructor can succeed at all depends on the attributes of every model and on the content of every new dataset.", "anchors": ["yaocptool/estimation/unscented_kalman_filter.py: UnscentedKalmanFilter.__init__, n_meas", "yaocptool/estimation/extended_kalman_filter.py: ExtendedKalmanFilter.__init__, _create_augmented_model_and_p_update", "yaocptool/estimation/pce_kalman_filter.py: PCEKalmanFilter.__init__", "yaocptool/modelling/dataset.py: DataSet.__init__", "yaocptool/modelling/system_model.py: SystemModel"]}
{"id": "C201", "title": "The data set of a result shows the result as it is", "statement": "Whatever was read and assigned before, result.dataset is the data set that result.to_dataset() returns for the result as it is now, or raises when that raises; and what a user does with a data set they have read does not change what later readings give.", "quantifier": "all results, all histories of readings of the property, assignments to attributes of the result and changes of the data set read", "why_tests_cant": "Tests read the data set once, after the result is complete; the claim is about every order of readings, failed readings and later assignments.", "anchors": ["yaocptool/methods/base/optimizationresult.py: OptimizationResult.dataset, OptimizationResult.to_dataset"]}
{"id": "C202", "title": "Created variables have different names", "statement": "When models have different names and put them in front (model_name_as_prefix), and in each model variables are created with different names by create_state, create_algebraic_variable, create_control, create_parameter or create_theta, then all entries of all these variables have different names, also when the models are put into one.", "quantifier": "all numbers of models, all model names, all names and sizes of created variables", "why_tests_cant": "Tests create a few variables with simple names; collisions come from combinations of names, underscores and sizes.", "anchors": ["yaocptool/modelling/system_model.py: SystemModel.name_variable", "yaocptool/modelling/mixins/continuous_states_mixin.py: create_state", "yaocptool/modelling/mixins/algebraic_mixin.py: create_algebraic_variable", "yaocptool/modelling/mixins/control_mixin.py: create_control", "yaocptool/modelling/mixins/parameter_mixin.py: create_parameter, create_theta"]}
{"id": "C203", "title": "Saving a data set never loses the one saved before", "statement": "Whenever a process is stopped during dataset.save(path), the file at path holds the data set saved there before or the complete new one, and no other file is changed; a call that is not stopped saves the data set; and processes that save to different files at the same time both succeed.", "quantifier": "all contents of the disk, all data sets and all ways their pickle is cut into writes, all points at which the process is stopped, all interleavings of two processes", "why_tests_cant": "Tests save once without interruption; crash points and schedules cannot be enumerated by tests.", "anchors": ["yaocptool/modelling/dataset.py: DataSet.save"]}
{"id": "C204", "title": "A timeout block ends in time", "statement": "Code in a block with timeout(seconds) leaves the block at most that many seconds after entering it, is interrupted only when that time is up, and then passes TimeoutError on exactly when raise_exc is set; also when there are timeout blocks inside it.", "quantifier": "all limits and values of raise_exc, all nestings and sequences of work and timeout blocks, all durations, all alarms pending before", "why_tests_cant": "Tests run one block; blocks share the single alarm of the process, so the claim depends on every nesting and every order of endings.", "anchors": ["yaocptool/util/timeout.py: timeout.__enter__, timeout.__exit__, timeout.handle_timeout"]}
