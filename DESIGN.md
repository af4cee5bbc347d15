# Formal model of yaocptool: design

The subject is `/repo` (yaocptool, Python). The model is in Lean 4 under
`lean/Verif/`. Properties are listed in `properties.jsonl`; which theorem
settles which property is in `MANIFEST.json`; attempts to break the theorems
with wrong programs are in `seeded/LOG.jsonl`. There, `failed` names the
declarations at which the build of the edited model stopped: a lemma in that
list also takes down every theorem that uses it, and those are not listed
separately. Some edits were rebuilt only up to the file of the claim they break,
so for these further files may fail as well.

## 1. Layout

* `Verif/Model/*.lean` - the model. One definition per Python function, branch
  by branch, each with a comment citing file and lines.
* `Verif/Spec/*.lean` - small specifications (what a reader of the English
  property would write down). They import the model for its data types (a
  problem, a result, a decision vector).
* `Verif/Lemmas/*.lean` - helper lemmas. Not part of any claim.
* `Verif/Props/*.lean` - the property theorems, named `Cnn_...`, each followed
  by an `example` that shows a concrete non-trivial case meeting its
  hypotheses. Theorems that prove only part of a property end in `_partial`;
  theorems that refute the full statement for the code end in `_fails`.

## 2. Modelling conventions

* **Symbols** (CasADi `SX.sym`/`MX.sym` elements) are natural numbers
  (`Sym := Nat`): CasADi compares symbols by node identity and two `sym` calls
  give different nodes. Names are a separate attribute where a function looks
  at names. "Fresh symbol" is a counter in the state or a parameter with a
  freshness hypothesis.
* **Column vectors of symbols** are `List Sym`; column vectors of expressions
  are `List Expr`; `vertcat` is `++`; `v[i:j]` is `(v.drop i).take (j-i)`;
  `vec` is column-major flattening.
* **Expressions** are trees over rational constants, symbols, +, -, *, / and
  named unary/binary operators. CasADi's on-the-fly simplification is not
  modelled: every claim about expressions is either structural (which symbols
  may occur, an upper bound under simplification) or about values at every
  assignment (invariant under simplification).
* **Numbers**: Python floats are modelled by an arbitrary (ordered) field or by
  rationals; rounding, NaN and overflow are outside the model. Bounds are
  rationals extended by -inf and +inf.
* **Exceptions** are values. A method on an object is a function
  `state -> result x state`; on an exception the state reached at the `raise`
  is kept, so partial effects of failing calls are visible.
* **Dictionaries** are association lists in insertion order (Python >= 3.7).
* **External code** (CasADi integrators, `nlpsol`, collocation point tables,
  `networkx.greedy_color`, numpy random numbers, Sobol sequences, Cholesky
  factorisation, pandas, pickle, signals, clocks) appears as a parameter; the
  behaviour assumed of it is a visible hypothesis of the theorem.

## 3. Trusted base

* Lean 4.33.0's kernel, and the elaborator for turning the sources into terms.
* Axioms: only `propext`, `Classical.choice`, `Quot.sound` (Lean's standard
  three). No axioms are added, nothing is left `sorry`, no compiled evaluation
  (`native_decide`, `bv_decide`) is used.
* Mathlib's definitions used in statements (fields, lists, matrices,
  polynomials, measures).
* The correspondence between the Python text and the definitions in
  `Verif/Model`, which is by reading; each definition cites its lines and says
  what it leaves out.
* The assumed behaviour of external code listed in section 2.

### Modelled
For each Python file the functions whose lines the definitions in
`Verif/Model` cite, and the Lean modules that model them. "In part" means that
less than half of the lines of the function are cited; the comment of the
definition says which. Trivial accessors (sizes, names, properties returning an
attribute) are counted as not modelled: the model reads the attribute.

<!-- coverage:begin -->
* **estimation/estimator_abstract.py** (no model). Not: `EstimatorAbstract.__init__`, `estimate`.
* **estimation/extended_kalman_filter.py** (`Estimators`, `Kalman`). Modelled: `ExtendedKalmanFilter.__init__`, `n_meas`, `estimate`, `_create_augmented_model_and_p_update`, `_get_measurement_from_prediction`. Not: `ExtendedKalmanFilter._fix_types`, `_check`.
* **estimation/ideal_estimator.py** (`Plant`). Modelled: `IdealEstimator.estimate`. Not: `IdealEstimator.__init__`.
* **estimation/pce_kalman_filter.py** (`Estimators`, `Kalman`). Modelled: `PCEKalmanFilter.__init__`, `estimate`, `_get_measurement_from_prediction`, `_priori_update`. Not: `PCEKalmanFilter.n_pol_parameters`, `_fix_types`, `_check`, `_get_sampled_states`.
* **estimation/unscented_kalman_filter.py** (`CholUpdate`, `Estimators`, `Kalman`). Modelled: `UnscentedKalmanFilter.__init__`, `n_meas`, `_estimate_standard_ukf`, `cholupdate`, `_get_sigma_points_and_weights`, `_get_measurement_from_prediction`. Not: `UnscentedKalmanFilter._fix_types`, `_check`, `estimate`, `_estimate_square_root_ukf`.
* **methods/augmented_lagrangian.py** (`AlOptions`, `AugLag`, `AugLagResult`, `DistAL`, `DistPrepare`, `Intermediary`, `MpcAugLag`, `NodeData`, `NuUpdate`, `Relax`, `SolveAugLag`). Modelled: `AugmentedLagrangianOptions.__post_init__`, `OptionsOverride.__new__`, `AugmentedLagrangian.__init__`, `discretizer`, `time_interpolation_nu`, `_include_relax_in_objective`, `_relax_algebraic_equations`, `_relax_time_equalities`, `_relax_states_constraints`, `_parametrize_nu`, `_create_mu_variable`, `create_nu_initial_guess`, `_create_nu_update_func`, `join_nu_to_theta`, `solve`, `call_solver`, `update_parameters`, `_update_mu`, `_update_mu_primal`, `set_mu`, `compute_primal_dual`, `_compute_new_nu_and_error`, `create_optimization_result`. Not: `AugmentedLagrangian.model`, `_relax_inequalities`, `create_optimization_problem`.
* **methods/base/discretizationschemebase.py** (`Collocation`, `Export`, `GridCache`, `Layout`, `MethodCtor`, `ShootIndirect`, `Transcribe`). Modelled: `DiscretizationSchemeBase.__init__`, `time_interpolation_controls`, `vectorize`, `_create_function_from_expression`. Not: `DiscretizationSchemeBase.model`, `problem`, `degree`, `degree_control`, `finite_elements`, `delta_t`, `time_breakpoints`, `vectorize`, `vectorize`, `discretize`, `_create_nlp_symbolic_variables`, `get_system_at_given_times`, `set_data_to_optimization_result_from_raw_data`, `unpack_decision_variables`, `create_initial_guess`, `create_initial_guess_with_simulation`.
* **methods/base/distributed_optimization_result.py** (`DataFrame`, `DistSolve`). Modelled: `DistibutedOptimizationResult.__post_init__`, `as_dataframe`. Not: `DistibutedOptimizationResult.plot_all_relaxations`.
* **methods/base/optimizationresult.py** (`DataCopy`, `IntermediaryResult`, `Mpc`, `OptResult`, `ResultCache`, `ResultCheck`). Modelled: `OptimizationResult.__init__`, `dataset`, `is_valid`, `first_control`, `get_variable`, `get_variable_by_name`, `to_dataset`. Not: `OptimizationResult.first_control_parameters`, `plot`.
* **methods/base/solutionmethodinterface.py** (no model). Not: `SolutionMethodInterface.__init__`, `solve`, `prepare`.
* **methods/base/solutionmethodsbase.py** (`AugLag`, `AugLagResult`, `Collocation`, `Direct`, `Export`, `GridCache`, `Indirect`, `MethodCtor`, `OptResult`, `Poly`, `ResultCheck`, `SolveDirect`, `SolveIndirect`, `SolveShootIndirect`, `SolveShooting`, `SolverArgs`, `SolverOptions`, `Transcribe`). Modelled: `SolutionMethodsBase.__init__`, `model`, `delta_t`, `time_breakpoints`, `time_interpolation_controls`, `collocation_points`, `_create_lagrangian_polynomial_basis`, `create_variable_polynomial_approximation`, `create_control_approximation`, `unvec`, `prepare`, `create_optimization_problem`, `_get_solver_call_args`, `solve`, `create_optimization_result`. In part: `SolutionMethodsBase.call_solver`.
* **methods/classic/collocationscheme.py** (`Collocation`, `Export`, `GridCache`, `Layout`, `NuUpdate`, `OcpCost`, `OptResult`, `SimGuess`, `SolveDirect`, `SolveIndirect`, `Transcribe`, `TranscribeIndirect`). Modelled: `CollocationScheme.time_interpolation`, `time_interpolation_states`, `time_interpolation_algebraics`, `_create_nlp_symbolic_variables`, `repack_decision_variables`, `unpack_decision_variables`, `discretize`, `get_system_at_given_times`, `_create_time_dict_for_collocation`, `create_initial_guess`, `create_initial_guess_with_simulation`, `set_data_to_optimization_result_from_raw_data`.
* **methods/classic/directmethod.py** (`Direct`, `MethodCtor`, `SolveShooting`). Modelled: `DirectMethod.__init__`, `_parametrize_control`, `_create_cost_state`, `prepare`.
* **methods/classic/indirectmethod.py** (`Indirect`, `MethodCtor`, `ShootIndirect`, `SolveIndirect`, `SolveShootIndirect`, `TranscribeIndirect`). Modelled: `IndirectMethod.__init__`, `degree_control`, `degree_control`, `prepare`, `_check_bounds`, `calculate_optimal_control`. Not: `IndirectMethod.replace_with_optimal_control`.
* **methods/classic/multipleshooting.py** (`Export`, `Layout`, `MpcMethods`, `NuUpdate`, `OcpCost`, `OptResult`, `ShootIndirect`, `Shooting`, `SimGuess`, `SolveShootIndirect`, `SolveShooting`, `TranscribeShooting`). Modelled: `MultipleShootingScheme._create_nlp_symbolic_variables`, `unpack_decision_variables`, `discretize`, `get_system_at_given_times`, `_create_time_dict_for_multiple_shooting`, `create_initial_guess`, `create_initial_guess_with_simulation`, `set_data_to_optimization_result_from_raw_data`.
* **methods/network/bipartite_jacobi_admm.py** (`DistAL`). Modelled: `BipartiteJacobiADMM._include_exogenous_variables`, `_get_node_theta`.
* **methods/network/distributedaugmetedlagrangian.py** (`AlOptions`, `Blocks`, `DistAL`, `DistPrepare`, `DistSolve`, `Intermediary`, `IntermediaryResult`, `NodeData`). Modelled: `DistributedAugmentedLagrangianOptions.__post_init__`, `DistributedAugmentedLagrangian.__init__`, `_include_exogenous_variables`, `_create_variable_approx`, `_get_variable_last_result`, `_get_block_number`, `_get_node_exogenous`, `_get_node_theta`, `_solve_node_problems`, `_solve_node_problems_serial`, `_solve_node_problems_distributed`, `_number_of_inner_iterations`, `_block_iterator`, `solve`, `_compute_primal_dual_mu`, `_update_parameters_distributed`, `_update_parameters_serial`, `_create_solution_methods`. Not: `DistributedAugmentedLagrangian._update_parameters`, `_print_nodes_errors`, `prepare`, `initialize`, `plot_all_relaxations`.
* **methods/network/intermediary_node_solution_method.py** (`Intermediary`, `IntermediaryResult`). Modelled: `IntermediaryNodeSolutionMethod._compute_new_nu_and_error`, `solve`, `create_optimization_result`. In part: `IntermediaryNodeSolutionMethod._create_solve_function`, `_create_nu_update_func`. Not: `IntermediaryNodeSolutionMethod.u_c_function`, `_get_symb_variables`, `_get_nu_func_symb_variables`.
* **modelling/dae_system.py** (`Dae`, `IntegOptions`, `Simulate`, `TranscribeShooting`). Modelled: `DAESystem.__init__`, `is_dae`, `is_ode`, `type`, `dae_system_dict`, `has_variable`, `depends_on`, `convert_from_tau_to_time`, `substitute_variable`, `join`, `simulate`, `_create_integrator`. Not: `DAESystem.has_parameters`.
* **modelling/dataset.py** (`DataCopy`, `DataFrame`, `DataSet`, `Estimators`, `Kalman`, `Saving`). Modelled: `Entry.is_empty`, `DataSet.__init__`, `as_dataframe`, `create_entry`, `get_entry`, `get_entry_names`, `get_entry_size`, `insert_data`, `get_copy`, `extend`, `sort`, `save`. Not: `DataSet._plot_entry`, `plot`.
* **modelling/ocp.py** (`Collocation`, `Indirect`, `Network`, `Ocp`, `OcpCost`, `OcpSimulate`, `Session`). Modelled: `OptimalControlProblem.__init__`, `has_delta_u`, `create_state`, `create_algebraic`, `create_control`, `create_input`, `create_parameter`, `create_theta`, `create_optimization_parameter`, `create_optimization_theta`, `create_adjoint_states`, `include_system_equations`, `include_state`, `include_algebraic`, `include_control`, `include_optimization_parameter`, `include_optimization_theta`, `include_initial_time_equality`, `include_final_time_equality`, `include_time_inequality`, `include_time_equality`, `include_equality`, `remove_algebraic`, `remove_control`, `replace_variable`, `parametrize_control`, `pre_solve_check`, `create_cost_state`, `create_quadratic_cost`, `merge`, `set_parameter_as_optimization_parameter`, `set_theta_as_optimization_theta`, `get_p_opt_indices`, `get_theta_opt_indices`, `connect`, `simulate`. Not: `OptimalControlProblem.n_h_final`, `n_h_initial`, `n_g_ineq`, `n_g_eq`, `n_eta`, `n_p_opt`, `n_theta_opt`, `include_parameter`, `include_theta`, `_fix_types`, `reset_working_model`.
* **modelling/simulation_result.py** (`DataSet`, `NetInitial`). Modelled: `SimulationResult.__init__`, `n_x`, `n_y`, `n_u`, `final_condition`, `extend`. Not: `SimulationResult.x`, `y`, `u`, `t`, `x_names`, `y_names`, `u_names`.
* **modelling/stochastic_ocp.py** (`Stochastic`). Modelled: `StochasticOCP.__init__`, `create_uncertain_parameter`, `include_uncertain_parameter`, `set_parameter_as_uncertain_parameter`, `set_initial_condition_as_uncertain`, `get_p_without_p_unc`, `get_p_unc_indices`, `get_uncertain_initial_cond_indices`, `include_time_chance_inequality`. Not: `StochasticOCP.n_p_unc`, `n_g_stochastic`, `n_uncertain_initial_condition`.
* **modelling/system_model.py** (`Collocation`, `Copy`, `Dae`, `DeepCopy`, `Equilibrium`, `Expr`, `IntegOptions`, `Kalman`, `Names`, `OcpSimulate`, `Simulate`, `Stochastic`, `SystemModel`, `Transcribe`, `VarNames`). Modelled: `SystemModel.__init__`, `system_type`, `x_sys_sym`, `lamb_sym`, `all_sym`, `t_sym`, `t_sym`, `tau_sym`, `tau_sym`, `name_variable`, `include_equations`, `include_variables`, `get_variable_by_name`, `get_variables_by_names`, `has_variable`, `is_parametrized`, `include_models`, `merge`, `connect`, `put_values_in_all_sym_format`, `all_sym_names`, `convert_expr_from_time_to_tau`, `convert_expr_from_tau_to_time`, `get_copy`, `get_deepcopy`, `get_dae_system`, `simulate`, `linearize`, `find_equilibrium`. Not: `SystemModel.__str__`, `print_summary`, `print_variables`, `replace_variable`.
* **modelling/utils.py** (no model). Not: `EqualityEquation.__init__`, `__str__`, `Derivative.__init__`, `__eq__`, `__str__`, `der`.
* **modelling/mixins/algebraic_mixin.py** (`AlgVar`, `SystemModel`, `VarNames`). Modelled: `AlgebraicMixin.create_algebraic_variable`, `find_algebraic_variable`, `include_algebraic`, `remove_algebraic`, `replace_variable`, `include_equations`. Not: `AlgebraicMixin.__init__`, `n_y`, `y_names`.
* **modelling/mixins/base_mixin.py** (no model). Not: `BaseMixin.name_variable`, `include_equations`, `replace_variable`.
* **modelling/mixins/continuous_states_mixin.py** (`Copy`, `Ocp`, `Session`, `SystemModel`, `VarNames`). Modelled: `ContinuousStateMixin.ode`, `create_state`, `include_state`, `remove_state`, `replace_variable`, `include_equations`, `_include_equation_from_kwargs`, `_include_equation_from_diff_equations`. Not: `ContinuousStateMixin.__init__`, `n_x`, `x_names`.
* **modelling/mixins/control_mixin.py** (`SystemModel`, `VarNames`). Modelled: `ControlMixin.create_control`, `include_control`, `remove_control`, `replace_variable`, `parametrize_control`, `control_is_parametrized`. Not: `ControlMixin.__init__`, `n_u`, `n_u_par`, `u_names`, `create_input`.
* **modelling/mixins/parameter_mixin.py** (`Session`, `SystemModel`, `VarNames`). Modelled: `ParameterMixin.create_parameter`, `create_theta`, `include_parameter`, `include_theta`, `remove_parameter`. Not: `ParameterMixin.__init__`, `n_p`, `n_theta`, `p_names`, `theta_names`, `remove_theta`.
* **modelling/network/network.py** (`NetInitial`, `Network`). Modelled: `Network.__init__`, `__getitem__`, `create_node`, `include_nodes`, `remove_connection`, `connect`, `_connect`, `get_model`, `get_problem`, `get_node_by_id`, `get_node_by_name`, `_set_node_an_id`, `get_map_coloring_groups`, `insert_intermediary_nodes`, `insert_intermediary_node`, `get_initial_condition`. Not: `Network.nodes`, `connections`, `models`, `problems`, `plot`.
* **modelling/network/node.py** (`Network`). Modelled: `Node.__init__`, `__repr__`.
* **mpc/mpc.py** (`Mpc`, `MpcAugLag`, `MpcDirect`, `MpcMethods`). Modelled: `MPC.__init__`, `get_measurement`, `get_states`, `get_new_control`, `_make_control_function`, `send_control`, `_get_solution_parameters`, `run`, `run_fixed_control`, `run_fixed_control_with_estimator`, `step`, `_get_parameter`. Not: `MPC.post_process_measurement`, `post_process_states`, `post_process_get_new_control`, `post_process_send_control`.
* **mpc/plant.py** (`Plant`). Modelled: `PlantSimulation.__init__`, `get_measurement`, `set_control_function`, `set_control`, `_advance`, `_process_noise`, `_measure`, `_save_data`, `_initialize_dataset`. Not: `PlantInterface.get_measurement`, `set_control`.
* **optimization/abstract_optimization_problem.py** (`Nlp`, `SolveDirect`, `SolveShooting`, `SolverOptions`). Modelled: `AbstractOptimizationProblem.__init__`, `create_variable`, `include_variable`, `create_parameter`, `include_parameter`, `set_objective`, `include_inequality`, `include_equality`, `include_constraint`, `get_problem_dict`, `get_solver`, `get_default_call_dict`, `solve`, `_get_solver_call_args`. Not: `AbstractOptimizationProblem.print_var`, `_create_solver`.
* **optimization/nonlinear_problem.py** (`Nlp`, `SolverOptions`). Modelled: `NonlinearOptimizationProblem.__init__`, `_create_solver`.
* **optimization/quadratic_problem.py** (`Nlp`). Modelled: `QuadraticOptimizationProblem._create_solver`. Not: `QuadraticOptimizationProblem.__init__`.
* **stochastic/pce.py** (`Pce`, `Stochastic`). Modelled: `PCEConverter.n_pol_parameters`, `_sample_parameters`, `convert_socp_to_ocp_with_pce`, `get_ls_factor`. In part: `PCEConverter.__init__`, `_include_statistics_eqs_of_stochastic_variables`, `_include_statistics_of_expression`, `_construct_stochastic_objective`, `_create_model`. Not: `PCEConverter.n_uncertain`, `_create_cost_ode_of_sample`, `_create_problem`, `_get_ls_factor`, `_get_expression_in_each_scenario`.
* **stochastic/util.py** (`Names`, `Pce`, `Util`). Modelled: `sample_parameter_log_normal_distribution_with_sobol`. In part: `sample_parameter_normal_distribution_with_sobol`.
* **util/serializer.py** (`Pickling`). Modelled: `NewForkingPickler.__init__`, `CasadiPicklerDepickler.__init__`, `dumps`, `loads`.
* **util/timeout.py** (`Timeout`, `TimeoutNest`). Modelled: `timeout.handle_timeout`, `__enter__`, `__exit__`. Not: `timeout.__init__`, `timedout`.
* **util/util.py** (`AugLag`, `Expm`, `Expr`, `Mpc`, `Names`, `OptResult`, `Pce`, `Poly`, `SolveAugLag`, `Util`). Modelled: `find_variables_indices_in_vector`, `find_variables_in_vector_by_name`, `remove_variables_from_vector`, `remove_variables_from_vector_by_indices`, `create_constant_theta`, `join_thetas`, `convert_expr_from_tau_to_time`, `expm`, `is_inequality`, `is_equality`, `_create_lagrangian_polynomial_basis`, `create_polynomial_approximation`, `Timer.__init__`, `elapsed`, `elapsed_milisecs`, `__enter__`, `__exit__`.
<!-- coverage:end -->

### Not modelled
The functions after "Not" above. Apart from trivial accessors, abstract
methods and printing these are:
* Plotting (`DataSet.plot`, `OptimizationResult.plot`, `Network.plot`),
  printing, `save`, `as_dataframe`, the `serializer` module.
* The multiprocessing transport of the distributed method and the remote solver
  processes: a call in a process is a call.
* Numerical accuracy: floats are exact numbers; the integrators and the NLP
  solver are opaque.
* `SystemModel.linearize` (raises at this commit: calls a constructor with
  keywords it does not have), `find_equilibrium` (root finder).
* EKF/UKF/PCE-KF objects cannot be created at this commit: the constructors use
  attributes (`x_sym`, ...) which `SystemModel` does not have and entries which a
  new `DataSet` does not have (C200). The other claims on filters are about their
  algebra.
* The rest of the conversion by `PCEConverter` (`_create_problem`,
  `_get_expression_in_each_scenario`, most of `_create_model`): at this commit
  the conversion stops before it with an `AttributeError`, which is proved.

## 4. Reading of the properties against the code

Several properties a user would rely on are false of this commit. The rule
followed: the English property stays as written, the model follows the code,
the refutation is proved with a concrete witness (`..._fails`) and the largest
part that holds is proved with the suffix `_partial`. They are marked "fails"
in the table.

What was found, per property:

<!-- notes:begin -->
* **C03** - Proved for index lists within range and non-negative. False in general: an index equal to the length is accepted, and negative indices are accepted but remove nothing (C03_boundary_fails, C03_negative_fails).
* **C07** - Equality test and non-strict inequality proved. False for strict inequalities: is_inequality never recognises them (C07_strict_fails).
* **C11** - False of the code: remove_state does not remove the matching entries of x_0, and include_state accepts an x_0 of any size. Proved: the size and position laws for histories without removal in which x_0 is given with matching size or not at all; the failures have witnesses.
* **C12** - False of the code: a rejected include_state leaves the vectors extended. Proved exactly what a rejected call changes.
* **C13** - False of the code: the guess raises when an earlier state has an equation, overwrites a later one, and refuses the last states. Proved when the guess is right.
* **C21** - False of the code in general: the copy keeps the original time symbols, its parametrised controls lose their registration, models without states raise, and the replacement order matters when fresh names collide. Proved for the renaming itself: under fresh names the copy is the renamed model, evaluates equally, and mentions none of the renamed variables.
* **C23** - Single lookup, unknown names, order within one variable type and exact (quoted) matching proved. False: with several variable types the result follows the type order, not the order of the names, and a name that is a prefix of another is ambiguous or finds the wrong variable (C23_order_fails, C23_prefix_fails).
* **C27** - False of the code: sort() on a data set with an empty entry raises and leaves later entries unsorted (C27_empty_entry_fails). Proved: sort of everything succeeds exactly when no entry is empty, and then sorts each.
* **C28** - False when an entry is missing from the target: extend raises KeyError instead of creating it (C28_new_entry_fails). Proved for entries present in both.
* **C29** - Time range and data part proved. False: the constructor stores 0 finite elements whatever is passed, so the sum is always 0 (C29_finite_elements_fails).
* **C32** - Sizes of input guesses proved for all histories; sizes of algebraic guesses proved when new guesses have the right size and connected inputs have a guess. False in general: the first algebraic guess is dropped (C32_algebraic_lost_fails), an input guess is dropped when earlier inputs have none (C32_inputs_lost_fails), wrong sizes are accepted (C32_wrong_size_fails), connecting inputs without a guess makes the algebraic guess too short (C32_connect_fails).
* **C33** - Initial values, required initial data and explicit constraints without an initial value proved. False: an explicit constraint given together with an initial value is dropped (C33_constraint_fails).
* **C36** - Proved when the first problem is the one rejected. False in general: problems merged before the rejected one stay merged (C36_atomic_fails).
* **C38** - Given time lists proved in full. For a number of elements only starting at time zero and without the final time (C38_grid_partial); the final time is never simulated (C38_final_time_fails), one element raises IndexError (C38_one_element_fails), a nonzero initial time shifts the samples (C38_start_fails), the t0 argument is not the start (C38_t0_argument_fails).
* **C40** - A call rejected for the size of a weight on the states has already erased the costs the problem had (C40_rejected_fails).
* **C43** - Rejected calls leave the problem unchanged (all calls). Uncrossed bounds proved for variable bounds without structural zeros; with them the comparison loop pairs the wrong entries: crossed bounds are accepted (C43_sparse_fails) and good ones rejected (C43_sparse_rejected_fails).
* **C44** - Variables, inequalities and equalities proved in full. include_constraint proved when CasADi's is_equal compares constants by value, and for equalities in any case. With is_equal at depth 0 comparing nodes, as in CasADi 3.5.5, an upper bound is included as a lower bound (C44_constraint_fails).
* **C45** - False: the solver is made once (C45_current_fails). Proved: it is the solver of the problem at the first solve, current exactly while nothing changed since.
* **C51** - Number and spacing of the breakpoints proved for every horizon. False when t_0 is not 0: the grid runs from 0 to t_f - t_0 (C51_grid_fails); proved when t_0 = 0.
* **C52** - Proved for methods with the initial condition as a parameter (the default) when the last control is no parameter or comes from the problem. False otherwise: a last control given to the call is not put in the vector, without the initial condition as a parameter its slots stay in the problem, and without any parameter the problem has free symbols.
* **C53** - Proved for collocation (all tags) and for multiple shooting with tags end and default; unknown tags are reported by both. False for multiple shooting with the tag start: the problem cannot be built (C53_shooting_start_fails).
* **C54** - Proved that the limits add exactly the rate conditions to the constraints, when a last control or no last control is passed to the discretisation. False through the solution methods: without a last-control parameter they pass an empty vector instead of none, and with any limit the problem cannot be built (C54_without_last_fails).
* **C55** - Proved for at least two elements up to the factor 11/10 the code multiplies the guess with. False as stated: the guess is scaled (C55_scaled_fails), optimised parameters of the elements stay in place (C55_theta_fails), and with one element the shift raises (C55_single_element_fails).
* **C56** - Exactly n cycles proved for n >= 1. False for n = 0: one cycle is performed (C56_zero_fails).
* **C57** - Proved for the default sampling points and for user points that end with 1. With other user points the clock advances by the last point times the sampling time (C57_user_points_fails).
* **C58** - Values given to the solver proved. False that the user's vector is not modified: the assignments are made in it (C58_users_vector_fails).
* **C59** - Proved for every history in which the network gives the identifiers and connected nodes were included. Fails for identifiers given by the user (duplicates are accepted and the lookup finds only the first) and for nodes connected without having been included (no identifier; get_model raises TypeError).
* **C61** - Proved when nodes of one colour stand next to each other in the colouring. Fails in general: itertools.groupby is applied to unsorted colours and a later run replaces an earlier one; in a chain of three nodes the middle one is in no block.
* **C62** - Proved: every connection is subdivided, no old pair stays connected, nodes with a connection are kept. Fails for isolated nodes: they are dropped.
* **C66** - Proved: limit, first iteration below the tolerance, meaning of the error. Without updates (the default) the same subproblem is solved max_iter times. Fails for max_iter = 0: UnboundLocalError instead of the intended ValueError.
* **C67** - Proved for sized, square problems in which a guess for the controls comes with one for the algebraic variables. Fails for a problem with a control guess and no algebraic guess: ValueError, after the cost has been changed.
* **C68** - Proved when the indices are also positions of the algebraic equations that are left. Fails with the default arguments: all algebraic equations are relaxed, and the test for path equalities, which looks at the algebraic equations, raises RuntimeError.
* **C69** - Proved for one variable per connection and equal penalties. Fails when the two penalties differ (only the first is used) and for connections of several variables (pieces of theta are misread).
* **C70** - The new multipliers are computed and stored by the first-order rule (partial), but solve reads self.nu, which nothing ever updates: the property fails for every history. In one case this is harmless: when each update takes place with the best intermediary value for the values of both neighbours, the multipliers of both ends stay equal and only their difference matters (C70_harmless_partial).
* **C71** - Proved for exchanged algebraic variables and inputs with distinct collocation points, for the bipartite method only with one variable per connection or degree one. Fails for state outputs (left out of theta) and in the bipartite method for several variables (transposed layout). A problem with parameters theta of its own is not modelled.
* **C72** - Limits proved without restriction for a positive limit; the stopping rule for objectives that are not negative and a tolerance of at most one. Fails for negative objectives.
* **C73** - Balance rule, positivity and rejection of unequal penalties proved for at least two nodes. There is no cap mu_max: C73_cap_fails.
* **C74** - The count, distinctness and completeness of the multi-indices hold for all n and orders; the polynomials themselves exist up to order 10 only (beyond that an IndexError, C74_order_fails) and are the right ones up to order 9.
* **C75** - The table is right up to the ninth polynomial; the tenth has 640 x^6 instead of 630 x^6.
* **C76** - The Cholesky factorisation and the triangular solve are external: their defining equations are hypotheses of the theorem.
* **C77** - For every random variable with finite second moment on every probability space; p = 0 and p = 1 (division by zero) are excluded.
* **C78** - Proved with Gaussian integrals for exact expectations of the squared polynomials and orders up to nine. The code estimates those expectations from random samples, which makes the variance wrong in general (C78_samples_fails), and at order ten the first coefficient is not the mean (C78_tenth_fails).
* **C79** - The code has fixed tuning constants (alpha = 1/1000, kappa = 0, beta = 2); proved for every dimension over every ordered field. Construction of the filter itself fails (C120).
* **C80** - The Cholesky factorisation is a parameter assumed correct on covariances.
* **C81** - Inverse, Jacobians, simulation and matrix exponential are parameters; the inverse is assumed correct on positive definite matrices. The update formulas are proved although no filter can be constructed (C120).
* **C82** - State part and zero covariance entries proved, also for plants measuring [x; y]. False for the size of the covariance: it is one column instead of a square matrix unless there is exactly one state (C82_covariance_fails).
* **C83** - Proved for expansions of order at most one with as many samples as polynomials. From order two on the norms of the polynomials are left out (C83_norms_fails), and with more samples than polynomials every estimate raises (C83_samples_fails).
* **C87** - False when a merged-in model has parametrised controls: their parameters are not registered in the merged model (C87_parametrised_fails). Proved for complete models without parametrised controls.
* **C89** - False of the code: the first insertion fixes the number of rows, the declared size is never compared (C89_declared_size_fails). Proved: all later insertions agree with the rows of the first.
* **C91** - Proved when the call returns, and for removals without equations. A removal that names an equation the model does not have raises after the variables were removed (C91_rejected_fails).
* **C93** - Proved for every degree above one. False for degree one: the approximation then has a single column of parameters and the build raises (C93_degree_one_fails).
* **C96** - Proved for plants without a control function. After set_control_function a control given to set_control is replaced by that function's values (C96_control_fails).
* **C97** - Proved after at least one accepted control, without noise. Before that get_measurement returns the initial state whatever the matrix (C97_first_measurement_fails).
* **C98** - False: get_new_control enters the debugger, once per iteration (C98_unattended_fails, for every completed run).
* **C99** - False: the argument u is never used (C99_fixed_control_fails), and before any solution the run raises TypeError (C99_initial_fails).
* **C100** - Proved when the control has the degree of the states, and for one control constant in each element. False for several controls with another degree: sending raises (C100_constant_controls_fails).
* **C102** - Proved for networks built without insert_intermediary_nodes. Fails after it when the node with identifier 0 had no connection: the loop has no iteration.
* **C103** - Fails: the graph is emptied before the loop, so a failing insertion leaves an empty network. No positive part beyond C62 (where the insertion returns).
* **C104** - Proved: a rejected connection changes nothing, unknown variables are rejected, an accepted one appends exactly its variables. Fails: a vector is accepted when one entry is known, and different numbers of inputs and outputs are accepted although the network has no model then.
* **C106** - Proved: when the problem is returned (named network, problems with one horizon and mergeable models, connections of matching sizes, guesses of the right size) and what it then contains; what its solutions are is C178. Fails for networks without a name (TypeError).
* **C107** - Proved for networks whose connections go both ways. Fails for one-way connections: the colouring looks at successors only, and all nodes can end up in one block.
* **C108** - Proved for problems without a guess for the controls. Fails with one: include_control raises ValueError because the copy has no guess.
* **C109** - Proved for every construction that does not relax both path equalities and bounds of states. Fails when both are relaxed: multipliers are stored in the order of the relaxations, violations with the path equalities last.
* **C110** - Proved when equations and variables have the same indices. Fails otherwise: the guess is read with the indices of the equations.
* **C111** - Proved: constraints whose violation did not decrease keep their multiplier; the others get the new value at the first collocation point of each element. Fails at all other collocation points, which keep the old value.
* **C112** - Proved without only_update_if_improve. Fails with it: the last violation has been overwritten with the new one before they are compared, so the penalty grows although the violation decreased.
* **C113** - Proved when solver_options do not give another degree or number of elements. Fails otherwise: the multipliers are made before the options are made equal; degree and finite_elements given as keyword arguments are ignored.
* **C114** - Proved when no two of the solved nodes are connected; fails for connected nodes in different blocks, because separate processes do not see the results of earlier blocks.
* **C116** - Proved for cyclic blocks and for a random order; fails for random choices with replacement.
* **C117** - Proved up to order nine; the tenth tabulated polynomial has a wrong coefficient and is not orthogonal to the constant.
* **C118** - The points of the design are a parameter: they are assumed to have mean zero and identity covariance.
* **C119** - Only the logarithm of the samples is centred at the logarithm of the given mean; the mean of the samples is larger.
* **C120** - False for all arguments: the entries of the empty data set are looked up before they are created, KeyError. The two argument checks are proved.
* **C121** - Proved for the unscented filter over every history and for every estimate of the polynomial chaos filter. Solutions of linear systems are assumed correct for positive definite matrices; the square-root variant raises NotImplementedError and is not modelled.
* **C122** - Proved without process noise. With process noise the covariance is larger than that of the Kalman filter (C122_process_noise_fails).
* **C123** - False: the time of the filters is never changed.
* **C124** - False: no value is passed for the controls when the Jacobians are evaluated.
* **C125** - Proved for the size of what the extended filter returns. The unscented filter returns the algebraic variables too, and without exactly one algebraic variable every estimate raises after the update.
* **C126** - Proved from a covariance that is consistent with the algebraic equations, with the intertwining property of the exponential as hypothesis (proved for the real matrix exponential, C126_exponential). The covariance after construction is never consistent (C126_start_fails), which changes the first prediction (C126_prediction_fails).
* **C127** - Proved when the Hamiltonian is strictly convex quadratic in the controls with a Hessian that does not couple a control that has a bound with another control, and where no bound is active. Fails in general: clipping control by control is not the constrained minimiser when the Hessian couples the controls (C127_fails gives two controls).
* **C129** - Construction of the other parts leaves the problem as it is, but the indirect method's bound check overwrites the user's state and algebraic bounds by infinity (C129_fails); C129_partial says what is kept.
* **C130** - Holds for preparation done by solve itself, and for problems without controls. Fails for the direct method (the first preparation's parameters stay in the expressions but are no variables any more) and for the indirect method (a second preparation always raises).
* **C131** - C131_twice: on every trajectory the second direct method minimises the final cost plus twice the accumulated running cost; C131_fails is a concrete trajectory. C131_partial: problems without running cost.
* **C132** - Fails: the user's parameters are dropped from the control parameters although the constraints contain them. C132_partial: without user parameters every symbol of the prepared problem is one of its variables or the pseudo time.
* **C133** - False in general: a DM passed as p (or inside theta) is written to by `p[indices] = p_opt` (C133_fails, for any heap, index and differing solution). C133_partial: unchanged when nothing is optimised or when p is a list or absent and theta absent.
* **C134** - C134_partial assumes that theta's elements are different vector objects, different from p's, which holds for create_constant_theta and join_thetas. C134_fails: with a shared object both elements report the last element's values.
* **C135** - C135_registered and C135_accepted hold in full. C135_rejected_partial covers set_parameter_as_uncertain_parameter and set_initial_condition_as_uncertain; C135_rejected_fails: include_uncertain_parameter and create_uncertain_parameter put the parameter into the model before the sizes are checked.
* **C136** - C136_inequalities_partial: inequalities and right-hand sides. C136_probabilities_fails: the second check compares the right-hand side again instead of prob (stochastic_ocp.py:170), so any number of probabilities is accepted. C136_when_fails: `when` is never used.
* **C137** - C137_lists_fails and C137_conversion_fails: the code uses model.p_sym, model.u_sym and model.x_0_sym, which SystemModel does not have (it has p, u, x_0), so these calls raise AttributeError for every problem. C137_checks_partial and C137_samples: the checks made before and the number of samples are right.
* **C138** - Collocation is proved in full except for the start of the horizon: times count from 0 (C138_time_fails, C138_shooting_time_fails, see C51). Multiple shooting (C138_shooting_partial) needs, for controls determined by the other variables, an integrator whose simulations can be interrupted and control points other than the start of an element; with an indirect method of control degree 1 storing the result raises NotImplementedError (C138_shooting_fails).
* **C140** - Proved when parameters are given. Without parameters per element both functions raise TypeError (C140_theta_fails), without parameters the collocation one raises NotImplementedError (C140_p_fails), and the one of multiple shooting raises whenever there is an optimised parameter (C140_shooting_p_fails), although the documentation promises zeros. The solution method always passes both.
* **C141** - Proved without cost_as_a_sum. With it the guess breaks the joining equations of every element with a cost (C141_sum_fails), and an initial condition passed to solve is ignored by the guess, which then breaks the initial condition (C141_given_fails).
* **C142** - Errors and multipliers are always the same; penalties are all raised to the largest one (C142_largest). Equal to the serial update for the constant and bounded-increase rules with equal penalties (C142_same_partial). False as soon as the serial update leaves different penalties, as the primal rule does (C142_different_fails), and when a node has nothing relaxed: the update in separate processes raises (C142_isolated_fails).
* **C143** - Proved for solves with updates and one degree everywhere. False with no_update_after_solving (used by the distributed method): the violations and errors are those of the update before (C143_no_update_fails). When the options of the solver ask for another degree the result raises unless the sizes happen to divide (C143_degree_fails).
* **C144** - Proved for problems whose path equalities together with the outputs are not more than the algebraic equations, with guesses for both inputs and algebraic variables or for neither, and with the option debug_skip_replace_by_approximation off. Otherwise false: a node with more outputs to pass on than algebraic equations (one output feeding two nodes) cannot be prepared, because the constructor tests the algebraic equations at the positions of the path equalities (C144_outputs_fails); a problem with own piecewise constant parameters, and a network solved a second time, get fewer values than parameters (C144_parameters_fails, C144_twice_fails); the rate limit of a connected input is lost (C144_rate_fails); C144_decoupled_partial also says that the upper and lower rate limits of the inputs become infinite and that everything else of the problem is unchanged.
* **C145** - The reported iteration numbers are the last loop indices, one less than the counts (C145_counts_fails). With max_iter_outer = 0 a ValueError is raised although the loop has a branch for it (C145_none_fails). A network whose update gives a single error value stops with an exception, even when it is zero (C145_single_fails). A node that was never solved is left out of the errors, so the tolerance can be met without it (C145_missing_fails). The model is of the first call of solve.
* **C146** - The constraints are evaluated with the parameters given to the method, not with the optimised values of the solution (C146_optimised_fails); the two partial theorems are about evaluation with the given values, which are those of the solution when no parameter is optimised. C146_shooting_partial also assumes that a simulation may be interrupted without changing it. With a collocation point at the start of an element, multiple shooting cannot compute the violations at all (C146_start_fails).
* **C147** - The partial theorems assume results with `degree` points in each element. A successor's control is reported with `degree_control` points (1 by default) and multiple shooting reports one point, so after the first iteration the vector of parameters is too short (C147_points_fails); guesses and zeros have the right size. The data for the dual residual are keyed by variable names, so of two coupled variables with the same name only the last one counts (C147_names_fails).
* **C148** - Proved for networks whose nodes have different names and whose models only have variables of their problems, when the call to simulate returns (C148_values_partial). False for nodes with the same name, in particular for nodes created without a name: entries overwrite each other (C148_names_fails). When the call returns, every variable was found (C148_missing). The constructor DM of a list of one by one matrices is assumed to give the column.
* **C149** - The full claim is false. C149_options_partial proves it for a method with a dictionary that nothing else writes to. The counterexamples hold in every world: methods without options share the default argument (C149_shared_fails), the configuration is frozen into the dictionary by the first method (C149_frozen_fails), the user's dictionary is changed (C149_given_fails), a problem without options has the configuration itself (C149_problem_fails), options set after the first solution are ignored (C149_cached_fails).
* **C150** - Proved for all options but two, with an exact condition for acceptance (C150_accepts, C150_problem). C150_decided_fails: the indirect method ignores the given initial guess heuristic, and a last control overrides last_control_as_parameter. C150_unknown_fails: unknown keywords are accepted without effect.
* **C151** - Proved for both signs (C151_update, C151_downdate, C151_sign) in exact arithmetic. C151_vector_fails: the vector given is overwritten, because its transpose is the same array.
* **C152** - Proved for the states and algebraic variables of a returned equilibrium and for models without controls (C152_values_partial, C152_returns). The claim for controls is false: C152_documented_fails, C152_control_fails, C152_third_fails.
* **C153** - The claim is false for every input: C153_fails, C153_error. There is no proved part.
* **C155** - Proved for options, defaults, rejections and unchanged dictionaries. The interval is the requested one only when the options of the user contain neither 'tf' nor 't0' (C155_interval_partial); an option 'tf' makes every interval of a list end at that time although the results are recorded at the requested times (C155_interval_fails).
* **C156** - Proved for relaxed algebraic equations, path equalities imposed at every point and bounds of states (C156_restricted_partial, C156_lower_partial, C156_near_partial: among trajectories in which the freed variables have values that controls can have; C156_optimal_partial: all trajectories, if controls can have any values at the points). Fails for path equalities tagged 'end' or 'initial': the relaxation ignores the tag and penalises the equation along the whole horizon, so a converged solution solves a more constrained problem (C156_tag_fails). Fails for controls that are constant on the elements, the default: the freed variable has to be constant on the elements too (C156_control_fails).
* **C157** - C157_solves, C157_returns, C157_rejected and C157_free hold as stated. The sizes of the arguments are only checked in total: a vector of states that is too long and a vector of controls that is too short are accepted and the values go to other variables (C157_sizes_fails).
* **C158** - Exactness is proved for horizons that start at zero and for problems that do not depend on the time (C158_exact_partial); the integrals (C158_integral, C158_radau, C158_horizon) hold as stated. For time-dependent problems over a horizon starting elsewhere the exact solution violates the discretised constraints, because the grid runs from zero (C158_start_fails; same defect as C51_grid_fails).
* **C159** - Proved in full for problems whose expressions use the symbols their functions take (C159_direct, C159_values). It fails for initial conditions that use the time, algebraic variables or parameters, final conditions and final costs that use the time or algebraic variables (C159_scope_fails), and for algebraic equations in a model without algebraic variables, which are dropped (C159_algebraic_fails). A function with free symbols raises at its creation in the model, at its evaluation in CasADi.
* **C160** - With cost_as_a_sum the user's final cost V is not part of the objective (multipleshooting.py:275-281): C160_final_cost_fails; C160_shooting states the objective for both settings. Path constraints tagged 'start' are rejected by multiple shooting (C53), so the theorem is for 'end' and 'default'. Exactness of the integrator is a hypothesis on the equations of the elements.
* **C161** - C161_solve and C161_succeeds prove the property when the initial condition is a parameter (default), a last control is in the problem if changes are limited, and x_0 has an entry for the cost state. The failing cases are proved as C161_state_size_fails (x_0 of the user's own size: Exception), C161_last_control_fails (last_u given: ValueError) and C161_limits_fails (limits without last control: RuntimeError). The solver is a parameter (GoodSolver); the initial guess does not matter for the result.
* **C162** - C162_cycle and C162_run prove the claim for include_cost_in_state_vector=True without last control and rate limits (controls at the collocation points of the states, or one piecewise constant control). The last sentence is false: C162_default_fails (Exception), C162_last_control_fails (ValueError), C162_limits_fails (RuntimeError in the first cycle); nothing is sent.
* **C163** - C163_bound_partial needs a horizon that starts at 0, or no dependence on the time: otherwise C163_start_fails gives a problem whose discretised solutions all cost more than a representable trajectory (element times are counted from 0).
* **C164** - C164_new and C164_kept_partial: a new problem's costs and constraints mention only the time and its own variables, and every program of successful calls with in-scope arguments keeps that, as long as no call takes a variable away. C164_merge_partial: merging keeps it for problems whose costs and constraints do not mention the time and whose controls are not parametrised. It fails otherwise: C164_merge_time_fails (merge retimes the model but not the merged costs, which keep the time symbol of the other problem), C164_replace_fails (connect with replace=True rewrites the model only, the removed input stays in the costs) and C164_remove_fails (remove_control leaves the control in the costs). In each case the optimisation problem built from it has a free symbol.
* **C165** - C165_kept_partial covers every history of calls that does not include, remove or connect controls; merging keeps the sizes consistent. For the other three the claim is false of the code and is refuted for all problems: C165_include_fails, C165_remove_fails and C165_connect_fails (last_u is not touched by any of them, so its values are read for the wrong controls).
* **C166** - C166_solve and C166_succeeds prove the property for an exact integrator (hypothesis ExactElements on the equations of the elements), with the initial condition as a parameter (default), a last control in the problem if changes are limited, and x_0 with an entry for the cost state. With cost_as_a_sum = True (not the default) the objective has no final cost (shotCost, C160_final_cost_fails) and x_c_final is 0: C166_cost_state_fails. The failing arguments are C166_state_size_fails, C166_last_control_fails and C166_limits_fails. Path constraints are enforced at the ends of the elements only, as in the code.
* **C167** - Proved for relaxed algebraic equations (not relaxed path equalities or state bounds), problems without a last control and without limits on control changes, controls that are polynomials through the collocation points or constant per element, no optimised parameters and positive_objective=False for the statement on the violations. Earlier calls have arguments that fit and good solvers. False as stated: by default (no_update_after_solving=True) the violations are never computed and the multipliers never updated (C167_default_fails); with max_iter=0 an UnboundLocalError is raised instead of the intended ValueError (C167_no_iterations_fails); with a last control of the problem every call raises (C167_last_control_fails).
* **C168** - Proved: the columns, which rows there are, the order, and the number of rows at each time for every dataset; one row per time when no entry repeats a time (C168_one_row_partial). False in general: entries with repeated times (the borders of finite elements in the results of collocation) multiply, so a result of n nodes has 2^n rows at each border (C168_repeated_fails). A dataset without named entries raises AttributeError (C168_empty_fails) and an entry created without data raises ValueError (C168_no_data_fails).
* **C169** - The declared problem is stated and solved as declared for every accepted program (declared, initial, solve, shooting). Differential equations are shown to be those given with the states only for programs without later include_system_equations(ode=...) (equations_partial): later equations may replace given ones (equations_fails), and equations for the remaining states are rejected when the first state has one (remaining_fails). State bounds are as asked unless given as lists of several numbers (state_bounds_partial, state_bounds_fails: the list is passed as the size of a matrix). An h_initial given together with x_0 is dropped (initial_fails). Sizes are numbers (column variables).
* **C171** - `is_valid` reads an attribute `objective` that no result has (the value is stored as `objective_opt_problem`), so on every result of a method it raises `AttributeError` (or `Exception` for a negative initial or final time, which is no defect of the result), and `TypeError` on a fresh result. It does what it says for results that were given an attribute `objective` by hand.
* **C172** - Proved for solves one after the other: one inner iteration and all inner iterations of an outer iteration, for every block choice and with failing solvers (C172_iteration, C172_inner). With processes it is proved when no two visited nodes are connected (C172_processes_partial) and false in general, even with connected nodes in different blocks (C172_processes_fails: all blocks start from the results before the iteration). The second half, that the loop stops only when the Lagrangian stops decreasing, is false (C172_stop_fails). A term of a connection is one function of the two results, as seen by both nodes; that the problems the method makes of the nodes have these costs is C177_node_partial.
* **C173** - Proved for an inner iteration that changes no result, with and without processes, cyclic blocks (C173_lagrangian, C173_bound, C173_optimal). That every solution returned by solve with small coupling errors is optimal is false: the outer test looks at the coupling errors only (C173_solve_fails).
* **C174** - Proved for all histories in which both ends are solved in every outer iteration and see the same coupling errors, for all penalty rules, with a common penalty set by the network or not (C174_same). False when one end is not solved in an outer iteration, possible with randomly chosen blocks (C174_unsolved_fails), and when one end has no successful solve and is therefore not updated (C174_unupdated_fails). Not covered: only_update_if_improve and the debug switches. That both ends see the same coupling error is C175.
* **C175** - Proved for nodes solved by collocation with degree_control equal to degree, without time-varying parameters of their own, connected through algebraic outputs, both solved in each outer iteration (C175_same_partial, C175_multipliers_partial). The restrictions are needed: with the default degree_control of 1 the vector told to the neighbour is too short (C147_points_fails), a connected state output is left out of the told values (C71_state_fails), and a node with parameters of its own is handled wrongly (C144_parameters_fails).
* **C176** - Proved for connections of one variable, equal penalties, and neighbours solved by collocation as in C175 (C176_solved_partial, C176_same_partial); that the reported value is told to the neighbours holds without these conditions (C176_reported). For several variables see C69_two_variables_fails, for the multipliers that are never used C70_never_used_fails.
* **C177** - Proved for nodes whose connected inputs have no limits on their rates (they are lost, C144_rate_fails), with at least as many algebraic equations as path equalities and outputs (C144_outputs_fails), square, and told the values of their neighbours at the points (C175 shows when the code does that); optimality for convex nodes and cyclic blocks (C177_node_partial, C177_descent_partial, C177_optimal_partial). The differential equations, boundary conditions and path inequalities enter through any conditions on trajectories that do not depend on the new symbols. What is not proved: that the iterations reach such results. C180_nodes shows that collocation is such a discretisation and that nodes solved by direct methods solve their problems.
* **C178** - Proved for networks with a name and mergeable problems (C106), nodes with their own symbols, connected inputs without limits on their rates (C144_rate_fails: they are lost), controls that may have any values at the points, and all schemes that treat equations one by one, among them all schemes with a differentiation matrix (C178_solution_partial, C178_distributed_partial, matrixScheme_modular). Time symbols of the nodes must have the value of the time: false for problems with time in a cost, because merging replaces the time symbol in the equations of the models only (C178_time_fails). Collocation with controls of the degree of the states is one of these schemes (C180_scheme, C180_network).
* **C179** - Proved for options given as a dictionary (or not at all) and solver options that do not ask for another degree or number of elements, for every program around the call. The rest is false: a dictionary of solver options used twice (C179_reuse_fails), distributed methods without al_options (C179_default_fails), one options object for two methods (C179_object_fails), options given as keywords (C179_keywords_fails).
* **C180** - PointProblem states the restriction: no optimised parameters, no rate limits, positive_objective off, no path constraints tagged start, an initial condition that fixes the states (the default). Controls are constant in the elements or of the degree of the states (ControlsMatch); a network needs the latter. The node problems are solved by a direct method; the augmented Lagrangian that wraps it in the code for nodes is C174.
* **C181** - C181_cycle, C181_run_partial and C181_runs prove the first part for problems with one control, constant in the elements, without time-varying parameters and last control, with at least two elements; the plant is described by its simulations (collocation with the points of the controller). The claim about controls of higher degree is false: C181_hold (the plant only uses the value of the control function at the start of the interval) and C181_ramp_fails (a linear control: every solution goes to 1/2, the plant stays at 0).
* **C182** - C182_tail, C182_decrease, C182_costs, C182_settles and C182_loop hold for all problems; C182_run_partial composes them with the run of the controller and has the hypotheses of C181 (one control, constant in the elements). Existence of solutions of problems with allowed trajectories is a hypothesis.
* **C183** - Proved for Hamiltonians that are strictly convex quadratic functions of the controls with a Hessian that does not couple a control that has a bound with another control (with cross terms and bounds the law is not the minimiser, C127_fails), without cost state: the constraints of the program are exactly the collocated conditions of optimality and the objective is zero; the reported controls are the minimisers; such values exist for every decision vector. The full statement is false: the stage cost S has no effect on the program (C183_stage_fails), and with limits on the changes of the controls the discretisation raises an exception (C183_limits_fails). The given start has an entry per state and adjoint. The conditions do not include multipliers for path constraints or a stationarity condition for optimised parameters; the theorem states what the program is.
* **C184** - Proved (`C184_solve_partial`, `C184_succeeds_partial`, `C184_again_partial`) for collocation with `create_cost_state=False`, Hamiltonians that are strictly convex quadratic functions of the controls with a Hessian that does not couple a control that has a bound with another control, no limits on the changes of the controls, and the initial condition as a parameter. Not covered: multiple shooting, `create_cost_state=True`. False: the objective of a successful result is 0, not the cost of the user (`C184_objective_fails`), and an `x_0` of the size of the user's model makes `solve` raise (`C184_state_size_fails`): it must have one (ignored) entry per adjoint. The bounds of states and algebraic variables have no effect, because the constructor of the method removes them (`C184_bounds_fails`).
* **C185** - Proved for strictly convex quadratic Hamiltonians without coupling of bounded controls, without stage costs and limits on the changes of controls, path constraints at the ends of elements, integrators that are exact; the controls of the result for at least two collocation points. False with one collocation point: get_system_at_given_times raises NotImplementedError for a control at the start of an element.
* **C186** - C186_solve_partial and C186_succeeds_partial hold for problems without a cost state whose Hamiltonian is strictly convex and quadratic in the controls, with no coupling between a bounded control and another one. C186_objective_fails: the objective of a successful result is 0, whatever the cost. C186_degree_fails: with one collocation point, solve raises NotImplementedError after the solver has run. Missing: coupled Hessians with bounds, the cost state, stage costs, limits on the change of controls.
* **C187** - C187_extremal_partial: an extremal along which the Hamiltonian is convex is optimal among all trajectories of the declared problem in continuous time; C187_solve_partial: the controls a successful solve shows are those of such a trajectory. C187_parameters_fails and C187_choice_fails: parameters that are to be found are not optimised, every value for which there is an extremal is a result. Missing: path constraints and state bounds in the competing trajectories (the indirect method ignores bounds of states, C184_bounds_fails), coupled Hessians with bounds, the cost state, stage costs, limits on the change of controls, collocation.
* **C188** - False. With multiple shooting every run raises in the first iteration, whatever the method, plant and estimator: the discretiser has no `repack_decision_variables`, which the controller calls to prepare the next guess (C188_shooting_fails). With an indirect method every run raises, because `solve` asks for initial values of the adjoints, which it added to the states of the model (C188_indirect_fails, for estimates of the size of the user's model and include_cost_in_state_vector False). Nothing is sent to the plant. Holds for direct collocation from a new plant (C188_direct_partial, include_cost_in_state_vector True; False raises, see C162).
* **C189** - False. The nonlinear program of the first call is kept: once a call of `solve` has returned, changes of equations, bounds, rate limits, constraints, costs and guesses have no effect on further calls, for all four combinations of method and discretiser (C189_direct_fails, C189_shooting_fails, C189_indirect_fails, C189_shoot_indirect_fails; the functions that make initial guesses are parameters of the calls). A problem that the change makes infeasible is still reported as solved (C189_infeasible_fails). A changed initial state is honoured (the _partial theorems). Changes of the horizon or of the variables are not covered.
* **C190** - C190_loop gives the number of iterations and the bounds of the cost for the loop with any optimal solver of the relaxed problem, from any multipliers and positive penalties; C190_enough says for a new object that some number of iterations is enough. C190_direct connects it with the real solves: for a direct method with collocation, relaxed algebraic equations, affine and convex expressions and a solver of the nonlinear programs that finds the solutions that exist, a call of solve succeeds within that number of iterations and returns trajectories with these bounds.
* **C191** - C191_local is about trajectories of the discretised problem, C191_solve and C191_succeeds about solve with a direct method and collocation. Convexity is a condition on the expressions (affine or convex in everything that is not given). Limits on the changes of the controls are allowed.
* **C192** - False. The variables freed by the relaxation are controls of the relaxed problem, and the controller takes all controls of the result for controls of the plant. Unless the number of values per element happens to fit, every run raises and nothing is sent (C192_fails); so it is for polynomial controls, the default (C192_polynomials_fails). With one control that is constant per element and a fitting number of relaxed equations the run goes on, and the plant gets the values of the freed algebraic variables at the later collocation points (C192_mixed_fails). Proved for relaxed algebraic equations and estimates of the size of the plant's state with include_cost_in_state_vector True.
* **C193** - False: absent references are filled in the caller's dictionary with the sizes of the first problem (C193_unchanged_fails); weights given as numbers fit every problem, but after a call for a problem with two or more states they are rejected by a problem with another number of states (C193_fails). C193_reuse_partial: for equal sizes, or when the references are given, nothing changes for later calls.
* **C194** - False: the symbols given are not looked up in the model. A foreign symbol has no index, so a parameter declared after it receives the value of the foreign symbol's decision variable (C194_fails). C194_partial: the invariant holds in every history in which only parameters of the model are declared and no failing merge is ignored.
* **C195** - False as stated: the breakpoints are kept after the first reading, the length of an element is not (`C195_fails` for every other end of the horizon, `C195_elements_fails` for every other number of elements). Proved for histories in which every assignment comes before the first reading (`C195_partial`). Changes of the degree are not modelled: the points inside an element are a parameter.
* **C196** - Convex problems for multiple shooting without optimised parameters and with positive_objective=False; limits on the changes of the controls are allowed. The integrator is exact (ExactElements), the running cost is continuous along mixtures of two trajectories (SteadyCost, met when the cost is a continuous expression of continuous signals), and the solver returns local solutions whenever it reports success.
* **C197** - False: a new pickler replaces the serializer of the sender, but nothing replaces the deserializer of the receiver, which keeps the parts of earlier messages; of two messages in succession the second one arrives without an error and with a symbol of the first one in place of its own repeated symbol (C197_fails). C197_turns_partial: when no process sends twice in succession every message arrives as sent. C197_unshared_partial: so does every message in which no part occurs twice. Assumed of CasADi: a StringSerializer writes a shared part once and then its position in the order of first writing, a StringDeserializer looks positions up among the parts it has read, and encode and decode keep these tables; the same object occurring twice in a message, which pickle itself remembers, is outside the model. That multiprocessing uses the replaced pickler class is assumed too.
* **C198** - False: left-hand sides and right-hand sides are put together first and only the totals are compared. Two equations that do not fit but fit in total are accepted, and a state of one gets an entry of the other (C198_fails, C198_same_fails). Proved for equations whose sides fit (C198_partial, C198_accepts_partial); a single equation that does not fit is rejected (C198_single).
* **C199** - False: an argument that is not an equation is ignored wherever it stands (C199_ignored_fails, C199_alone_fails); every rejected call has already added its algebraic equations (C199_fails), which are in the model twice after the repaired call (C199_twice_fails); equations in equation form stay when those given as ode= are rejected (C199_both_fails). Proved: what a successful call adds (C199_taken), and that rejected calls without algebraic equations and with differential equations in one form only change nothing (C199_partial). Arguments in equation form are scalar equalities, or der(x) == f of any size.
* **C200** - False: no call of any of the three constructors returns. The unscented filter raises KeyError for every model and all arguments (C200_unscented_fails), the extended one AttributeError (C200_extended_fails) and the one with polynomial chaos KeyError (C200_chaos_fails), also in examples/mpc_example.py. Proved: the exact conditions for ValueError (C200_guess_partial, C200_samples_partial). The claims on what filters compute (C124-C126 and others) are about their algebra, from an object as the constructor would leave it.
* **C201** - False: the first data set that could be built is kept, so assignments after a successful reading do not show (C201_fails), and changes of the data set read are in every later reading (C201_shared_fails). C201_first says exactly what a reading gives after any history of readings and assignments. Proved: assignments before the first reading (C201_partial) and after readings that raised (C201_raised_partial). What to_dataset() returns is the subject of C84.
* **C202** - False for names with underscores: a model's variable can have the name of another model's variable (C202_fails), and an entry of a vector that of a single variable of the same model (C202_vector_fails). Without the prefix, models share names (C202_plain_fails). Proved for names without underscores (C202_partial) and for single variables of one model (C202_single). Assumed of CasADi: SX.sym(name, size) names the entries name_0, name_1, ... unless there is exactly one. The symbols of initial conditions (name_0_sym) are not included.
* **C203** - False: open(path, 'wb+') empties the file before anything is written, so the earlier data set is lost when the process is stopped (C203_fails); of two processes that find the directory missing one raises FileExistsError (C203_race_fails); two processes that save to one file can both end without an exception and leave one data set followed by the end of the other (C203_same_fails), or zeros in place of the beginning (C203_gap_fails), or an empty file (C203_lost_fails). Proved: what the file holds at every point, and that other files are untouched (C203_point), that loading never gives another data set if no proper beginning of a pickle can be loaded (C203_partial; pickles end with a stop sign), that an uninterrupted call saves everything (C203_saved), and that processes with different files do not disturb each other when the directory is there (C203_race_partial). Not modelled: removal of the directory, disk errors, and the order in which the operating system brings writes to the disk.
* **C204** - False with timeout blocks inside: the process has one alarm, which an inner block takes and cancels, so afterwards the outer limit is not in force (C204_fails), nor during the inner block (C204_inner_fails); an interrupted inner block ends the outer one before its time (C204_blame_fails). A limit of zero seconds is no limit (C204_zero_fails). Proved for code without inner blocks, with the exact time and outcome (C204_partial), and that no alarm is left after any block (C204_cancelled). Time is in whole seconds; handlers run as soon as the alarm rings.
<!-- notes:end -->

## 5. Properties: what is modelled, how it is proved

| id | model | proof plan |
|----|-------|-----------|
| C01 | `Model/Util` double loop lookup | induction on both lists; membership iff, order, round trip through indexing |
| C02 | `Model/Util` remove by lookup | refinement to `filter (not in var)`; error iff disjoint |
| C03 | `Model/Util` remove by indices | fails: index = length and negative indices accepted; partial: refinement to deletion for in-range lists, error for index > length or < -length |
| C04 | `Model/Theta` association tables | refinement to pointwise concatenation; fails for different key sets with equal size (recorded) |
| C05 | `Model/Expr` substitution | substitution lemma + field arithmetic |
| C06 | `Model/Poly` Lagrange products | over any field; interpolation by evaluation, uniqueness via root counting, partition of unity |
| C07 | `Model/Util` operator tags | fails: `<` is not recognised (`expr.op == OP_LT` compares a bound method); partial for `<=`, `==` |
| C08 | `Model/Timeout` state machine of enter/exit | decision logic for all cause chains |
| C09 | `Model/Timer` | invariant over enter/exit/read histories |
| C10 | `Model/SystemModel` operations | invariant by induction over operation histories |
| C11 | same | fails: `remove_state` keeps `x_0`; partial for histories without removals |
| C12 | same | fails: `x`, `x_0` are extended before the check; partial: equations table unchanged when the first variable is the duplicate |
| C13 | same | case analysis, refinement to a fill spec |
| C14 | same | induction over equation inclusions, permutation independence |
| C15 | same | invariant + error atomicity |
| C16 | `Model/Expr` simultaneous substitution | structural induction |
| C17 | same | structural induction on free symbols |
| C18 | `Model/SystemModel` include_models | induction on the list |
| C19 | `Model/SystemModel` connect | counting + evaluation equivalence |
| C20 | `Model/Heap` two objects sharing cells | non-interference over histories on a heap with aliasing |
| C21 | `Model/SystemModel` get_deepcopy | fails (time symbol, control parameters, equation-less states, zero states); partial |
| C22 | same | free-symbol bound |
| C23 | `Model/Names` | decision logic over match lists; order across types and prefix names fail |
| C24 | `Model/Simulate` with integrator as parameter | induction over the time list |
| C25-C28 | `Model/DataSet` | invariants over histories; sort via merge/insertion sort facts; C27 and the creation of new entries in C28 fail |
| C29 | `Model/DataSet` | min/max part; finite element sum fails (constructor stores 0) |
| C30-C39 | `Model/OCP` | invariants over histories, index re-mapping lemmas; C32, C33, C36, C38 fail in part |
| C40 | `Model/OCP` quadratic cost on matrices | matrix algebra |
| C41 | `Model/OCP` cost state | structure + integral identity for an exact integrator |
| C42-C46 | `Model/NLP` | invariants over histories with failures; feasible set semantics; C43 fails for structural zeros, C44 for `x <= c` (depends on CasADi's `is_equal`, a parameter of the model), C45 fails (cached solver) |
| C47-C49 | `Model/Layout` | list splitting round trips by induction |
| C50 | `Model/Collocation` equation counts | sum over elements |
| C51 | `Model/Grid` | fails for t_0 != 0; partial for t_0 = 0 and spacing |
| C52 | `Model/NlpParams` | fails (explicit last_u dropped, x_0 flag); partial |
| C53 | `Model/TimeDict` | decision logic; fails for unknown tags / start in multiple shooting |
| C54 | `Model/RateLimits` | fails without last_u through `create_optimization_problem`; partial |
| C55 | `Model/MPC` step | fails (values scaled by 1.1); partial: shift up to that factor |
| C56 | `Model/MPC` run | n >= 1 proved, n = 0 fails |
| C57 | `Model/Plant` | invariant over histories |
| C58 | `Model/MPC` parameters | fails (mutates the user's vector); partial on values |
| C59 | `Model/Network` | uniqueness invariant; duplicates given by the user |
| C60 | same | partition for every proper colouring |
| C61 | `Model/DistAL` groupby | fails (unsorted groupby); partial when colours are contiguous |
| C62 | `Model/Network` | subdivision; isolated nodes fail |
| C63 | same | counting by induction over nodes and edges |
| C64-C68 | `Model/AugLag` | closed form by induction, real identities, loop invariants |
| C69-C70 | `Model/Intermediary` | strict convexity; stale multipliers fail |
| C71 | `Model/DistAL` layouts | index arithmetic; bipartite layout fails |
| C72-C73 | `Model/DistAL` loops | induction over sequences |
| C74 | `Model/PCE` exponent enumeration | counting recursion equals binomial |
| C75 | `Model/PCE` polynomial table | ring identities; He10 fails |
| C76 | `Model/PCE` normal equations | matrix algebra |
| C77 | `Model/PCE` factor | Cantelli's inequality for measures |
| C78 | `Model/PCE` mean/variance | bilinear expectation |
| C79-C80 | `Model/UKF` | finite sums, matrix columns |
| C81 | `Model/EKF` | matrix algebra |
| C82 | `Model/Ideal` | list facts; shape of the covariance fails for n_x != 1 |
| C83 | `Model/PCEKF` | fails (norms missing); partial for orthonormal bases |
| C84 | `Model/OptResult` | list facts |
| C85 | `Model/Indirect` clamp | order reasoning on extended numbers |
| C86 | `Model/OCP` + direct method | composition of C41; repeated preparation |
| C87 | `Lemmas/Scope` invariant over calls | fails for merged models with parametrised controls; partial otherwise |
| C88 | `Model/Dae` join / tau conversion | evaluation lemma |
| C89 | `Model/DataSet` | fails: first insertion fixes the rows; partial: rows never change afterwards |
| C90 | `Model/Layout` with `Model/Nlp` | creation appends bounds in the order of the vector; unpacking of the bound vectors |
| C91 | `Model/SystemModel` | case analysis on the call; rejected removal of unknown equations fails |
| C92 | `discretize`, `get_system_at_given_times`, time dictionaries, interpolation and its derivative | Model/Collocation, closed form of every constraint, equivalence with the specification `Collocates` |
| C93 | as C92, degree 1 included | proved for degrees above one, refuted for degree one |
| C94 | `discretize`, `get_system_at_given_times` with the integrator as a parameter | Model/Shooting, closed form of every constraint, equivalence with the specification `Shoots`, induction over elements for the sum |
| C95 | Plant.lean: plant state, data recording, simulation as a parameter | invariant over histories of calls |
| C96 | Plant.lean: both ways of setting controls | unfolding the calls; witness history for the failing case |
| C97 | Plant.lean: measurement, algebraic values | unfolding after a reachable history; witness before the first control |
| C98 | Mpc.lean: entries into the debugger are counted in the state | induction on the number of iterations |
| C99 | Mpc.lean: send_control and the fixed-control loops | independence of u and the failing first iteration |
| C100 | Mpc.lean: makeControlFunction; Poly.lean | congruence of the polynomials, partition of unity |
| C101 | Mpc.lean: solver as a parameter that may raise | invariant over the steps of an iteration |
| C102 | `Model/Network` | density invariant over histories; after the insertion of intermediary nodes it fails |
| C103 | `Model/Network` | fails: the graph is emptied first |
| C104 | `Model/Network` | case analysis of the checks; vectors with one known entry and different sizes are accepted |
| C105 | `Model/Network` | lookup in the graph after removal |
| C106 | `Model/Network` on `Model/Ocp` | C35 for the merge, induction over the connections; a network without name fails |
| C107 | `Model/Blocks` | greedy colouring of the directed graph; fails for one-way connections |
| C108 | Model/Relax.lean | loop invariant over the states |
| C109 | Model/Relax.lean | order of multipliers and of violations compared through the value of the cost |
| C110 | Model/Relax.lean | direct computation on the model |
| C111 | Model/AugLag.lean | entry-wise characterisation of the update loop |
| C112 | Model/AugLag.lean | entry-wise characterisation of the penalties after an update |
| C113 | Model/AugLag.lean | case analysis of the option merging |
| C114 | solveSerial and solveDistributed of Model/DistAL over an arbitrary local solver | induction over the nodes: results of unconnected nodes do not influence each other; counterexample with two connected nodes in different blocks |
| C115 | solveSerial of Model/DistAL | every node of an independent block sees the results from before the block, so the result is independent of the order |
| C116 | blockIterator of Model/DistAL, the random functions as parameters | permutation argument; counterexample for random choices with replacement |
| C117 | Model/Pce (table and basis of get_ls_factor), Gaussian measure of Mathlib | Stein's identity for the Gaussian density and induction on the degree; product measure |
| C118 | Model/Pce: affineSample, usedCovariances | matrix algebra over weighted sums |
| C119 | Model/Pce: logNormalSample | false: the mean is the given mean times exp(variance/2), by the Gaussian moment generating function; the logarithm is as documented |
| C120 | Model/Kalman: newEkf, newUkf, newPceKf | false: the entries of the empty data set are looked up first, so every construction raises; the checks are proved |
| C121 | Model/Kalman: ukfEstimate, pceEstimate | induction over the history; the corrected covariance is a weighted sum of squares plus noise terms |
| C122 | Model/Kalman: ukfEstimate; Spec/Kalman: IsKalmanUpdate | affine images of the sigma points; true without process noise, false with it (the noise is missing from the gain) |
| C123 | Model/Kalman: State.t | false: induction over the history shows that the time never changes |
| C124 | Model/Kalman: ekfPredict | false: the result depends on the Jacobians at zero control only |
| C125 | Model/Kalman: ekfEstimate, ukfEstimate, savePy | case analysis; false for the unscented filter and whenever there is not exactly one algebraic variable |
| C126 | Model/Kalman: ekfEstimate, augMatrix, gammaMatrix | the matrix exponential intertwines with the elimination; proved from a consistent covariance, the initial covariance is never consistent |
| C127 | Model/Diff (symbolic derivatives with the rules of calculus; operator derivatives, matrix inverse and the zero test are parameters) and Model/Indirect.calculateOptimalControl | Over the reals the symbolic gradient and Hessian of a function that evaluates to c + g·w + ½wᵀAw are g + Aw and A (uniqueness of derivatives); -A⁻¹g is the unconstrained minimiser; with a diagonal A the clipped value is the minimiser in the box; a 2×2 Hessian with off-diagonal entries refutes the general claim |
| C128 | Model/Indirect.createAdjointStates with Expr.diff | The symbolic derivative is proved to be the derivative (HasDerivAt) by induction over expressions; the Hamiltonian of the specification is written from the user's cost and equations |
| C129 | Model/Indirect.checkBounds | The bounds become infinite in the problem itself: proved for every problem, so the property holds exactly when there were no bounds; refuted by any finite bound |
| C130 | Model/Direct.prepare and Model/Indirect.prepare run twice, as create_optimization_problem does after an explicit prepare | Direct: the cost is not added twice, but the model's control parameters are replaced by new symbols that occur in no equation while the old ones stay; indirect: the second run is always rejected when there is a control |
| C131 | Model/Direct.prepare of two methods sharing the problem | For every problem and trajectory the second method's objective is the final cost plus twice the accumulated running cost; refuted |
| C132 | Model/Direct.controlApproximation overwrites the control parameters and expressions of the model | Refuted for every problem: after preparing, the parameters are the new symbols only, and the user's expression has been overwritten |
| C133 | Heap of vectors; arguments by object; storing of the optimised values | Fails for a DM p with optimised parameters (C133_fails); frame proof otherwise (C133_partial) |
| C134 | Same heap model | Loop invariant over the elements for distinct vectors (C134_partial); the last element wins when vectors are shared (C134_fails) |
| C135 | Model/Stochastic: registrations as a state machine; Spec/Stochastic: `Collects`, valid registrations of a history | invariant by induction on the history; block diagonal join lemma with index arithmetic; rejected include calls leave the parameter in the model (`_fails`) |
| C136 | Model/Stochastic `includeChance`, with the repeated check of the right-hand side | invariant over histories for inequalities and right-hand sides; `_fails`: the number of probabilities is never checked and `when` leaves no trace |
| C137 | Model/Stochastic `symbols` (getattr on a SystemModel), `certainParameters`, `convert` with the unreachable rest as a parameter | case analysis for every problem: the attributes p_sym, u_sym, x_0_sym do not exist (`_fails`); the earlier checks and the number of samples are proved |
| C138 | Report of both schemes over an ordered field; control law and simulation are parameters | unfolding of the layout, sampling of the collocation polynomials, induction over the chained simulations |
| C139 | finalCostState on the reported values | composition of C138 with the index of the cost state |
| C140 | the two functions over an ordered field with the simulation step as a parameter that may raise | induction over times and elements, then the layout lemmas of C49 |
| C141 | the guess of C140 read by the constraints of C94 | C140 and the values of optimised parameters written back into themselves |
| C142 | Model/DistAL: updates of all nodes, serial and in separate processes with the levelling of the penalties | largest element of nested lists; equality when all penalties are equal; negations in general form |
| C143 | Model/AugLagResult: unvec, stored violations, result after the loop | invariant on sizes through the loop, then entry by entry |
| C144 | Model/DistPrepare: both loops on a node with recorded positions, then `Relax.relax` with them | induction over the connections with a relation between the states before and after, composition with C67/C68/C109; negations: more outputs than equations, own parameters, second call, rate limits |
| C145 | the two loops of `solve` over node solvers, updates and random choices given as parameters | induction over both loops; witnesses for the wrong counts, the single error and the missing node |
| C146 | `_create_nu_update_func` on top of the models of both schemes and of the update | interpolation at the nodes and the sorted times, combined with C65 and C66; a witness with an optimised parameter |
| C147 | the three sources of values, the vectors of parameters and the data by name, the residual from two such data | folds over the coupled variables, combined with the interpolation of C71; sizes for results with fewer points; a witness with equal names |
| C148 | `getInitialCondition` on top of `getProblem` and `Ocp.simulate`; values as a function of the variables | the vectors of the merged problem are concatenations, so a lookup by position gives the value of the variable; entries under the same name overwrite each other |
| C149 | Dictionaries as objects with references (`Model/SolverOptions.lean`): the shared default argument, the configuration, dictionaries of the user; a program is a list of calls | Invariant over all programs that do not write to the dictionary of a method; general counterexamples for the aliasing |
| C150 | The constructors branch by branch on a dictionary of attributes, with class attributes, properties and setters (`Model/MethodCtor.lean`) | Lookup after a list of assignments by induction; an exact condition for acceptance; general counterexamples |
| C151 | The loop with its two arrays written in place (`Model/CholUpdate.lean`); the square root is a parameter | Invariant: the rows done so far plus what is left of the vector give RᵀR ± x xᵀ; for the sign '-' the pivots are positive by back substitution |
| C152 | The equations, the slice of unknowns and the checks of CasADi's `Function` and `rootfinder` (`Model/Equilibrium.lean`) | Substitution lemmas; size and symbol arguments for the counterexamples |
| C153 | The call of the constructor (`Model/Equilibrium.lean`) | Direct |
| C154 | Model/Expm: vec, ode, create, expm | the exponential solves the equation of each column; uniqueness by Gronwall |
| C155 | Model/IntegOptions: simulate, create, simulateAll | heap of dictionaries, induction over the list of times; false for the interval when the options contain tf or t0 |
| C156 | Relaxation model of C67/C68/C109, with trajectories as values of all symbols at finitely many points and an arbitrary discretisation of dynamics, boundary conditions and inequalities | The constraints of the original problem are those of the relaxed one plus the relaxed equations; the costs differ by the augmented terms, which vanish or are bounded below |
| C157 | Substitution of the known variables by their values, the checks of CasADi, the root finder as a parameter | Substitution is evaluation at the values; a root of the substituted equations is a root of the original ones at the point |
| C158 | Transcription model of C50/C92, polynomials as Mathlib polynomials | Lagrange interpolation of a polynomial of small degree is that polynomial; division by the node polynomial and orthogonality of the Radau points for the integrals |
| C159 | `Model/Transcribe` (the CasADi functions of the expressions: inputs, outputs, closedness), with `Model/Direct`, `Model/Collocation` | the substituted controls evaluate to the control polynomials; each function of the prepared problem evaluates to the user's expression; C92 for the rest; scope failures and dropped algebraic equations as `_fails` |
| C160 | Model/TranscribeShooting: the functions and the equations of every element made from the expressions of the prepared problem, over Model/Shooting; the integrator is a parameter | the user's trajectory with the integral of the running cost is the trajectory of the prepared equations (fundamental theorem of calculus), so shots end where the user's trajectory ends; then C94 |
| C161 | Model/SolveDirect: solve, create_optimization_problem (prepare, variables with bounds, functions, constraints), parameters and their values, the call of the solver (a parameter), the result | composition of the preparation (C159), the collocation equations (C92), the layout of variables and bounds (C138), the parameters (C52) and the report (C139); feasible decision vectors are exactly the decisions of the user's discretised problem, with equal cost |
| C162 | Model/MpcDirect: the controller of Model/Mpc with `solve` of Model/SolveDirect as solution method. | Composition of C161 (any number of earlier calls by C161_again), C58, C55 and C100 along a cycle; induction over the cycles of a run. The last sentence fails: the default raises Exception, a last control ValueError, rate limits RuntimeError, and nothing is sent. |
| C163 | Spec/ExactTrajectory: trajectories of the user's problem in terms of the user's expressions, before discretisation; model of solve from C161 | the sampled trajectory is a decision with the same cost (Lagrange interpolation is exact below the number of nodes), then C161; a time-dependent problem whose horizon starts at 1 is the counterexample |
| C164 | Spec/ProblemScope: terms of a problem, what they may mention; model of Ocp | induction over calls using the scope of the equations of the model; counterexamples for merge with time dependent costs, connect with replacement and remove_control |
| C165 | field lastU of the model of Ocp | induction over calls; for include_control, remove_control and connect the sizes always differ afterwards |
| C166 | Model/SolveShooting (create_optimization_problem, call_solver, solve, result) over Model/TranscribeShooting and Model/SolverArgs; solver and integrator are parameters | compose C160 (constraints and objective), Layout (variables and bounds), C54/C138 (result); trajectories over the reals |
| C167 | `Model/SolveAugLag.lean`: constructor on top of `Relax`, loop on top of `SolveDirect` and `AugLag` | translate decisions between the user's problem and the relaxed one (`RelaxTransfer`), then induction over the iterations with C161 as the step |
| C168 | The entry frames, the outer join on the index and the two loops (Model/DataFrame); pandas' join is modelled from its documentation. | Induction over the fold of joins: the rows at a time are the product of the rows of the tables, so membership, order and multiplicity follow. |
| C169 | Session: problem and first unused symbol; statements run with the modelled OCP calls | Invariant `Built` kept by every statement gives the hypotheses of C161 and C166; effects of statements accumulate to the declarations; witnesses for the exceptions |
| C170 | heap of dictionaries, entry objects, name lists and matrices (the default matrices of the class are shared); the methods as programs on the heap; deepcopy as a copy of the heap with shifted references | ownership invariant preserved by every action, frame lemma for the other data set, refinement of the methods to the data set model |
| C171 | attributes as a dictionary, getattr/setattr, the check as a program that may raise | case analysis of the check; the attributes of a created result computed |
| C172 | `Model/DistSolve.lean` and `Model/DistAL.lean` (loops and node solves), `Spec/NetDescent.lean` (the Lagrangian of a network, the cost of a node) | the network and the node see the same change when one result is replaced; induction over the visited nodes and over the iterations; processes: for visited nodes that are not connected, with a counterexample on a triangle; the stopping test: counterexample on two nodes |
| C173 | `Model/DistSolve.lean`, `Spec/NetOptimum.lean` (coupling conditions with multipliers and penalties, the problem of the network, convexity) | a fixed point of an iteration is optimal for every node; the first-order conditions of the nodes add up to that of the network, because the costs of the nodes are separate and the terms of the connections are quadratic; for what `solve` returns: counterexample |
| C174 | `Model/AugLag.lean` (the local methods: solve, update), `Spec/NetEnds.lean` (outer iterations of a node, the two ends) | solving takes over the computed multipliers and changes nothing else; the update is a first-order step that depends on the entries of the constraint only; induction over outer iterations. Counterexamples: an end that is not solved, an end that is not updated |
| C175 | the parameter vector of a node (NodeData), the relaxed coupling equations (DistPrepare), the violations and the multiplier update (AugLag, NuUpdate), joined through the reported values at the collocation points | follow one collocation point of one connection through the layout of the vector on either side, show both relaxed constraints evaluate to input minus output up to the order in which they are written, then use C174 for the multipliers |
| C176 | the result object of an intermediary node (IntermediaryResult), composed with the parameters told by the neighbours (NodeData) and the closed form (Intermediary) | layout of the split rows at one point, then the lemmas of C69, C70 and C175 on either side |
| C177 | the model of the preparation of a node (Model/DistPrepare.lean) and of the loops (Model/DistAL.lean), applied to a network of problems whose trajectories are values at points (Spec/NetProblem.lean) | the cost of the prepared problem is the node's own cost plus the terms of its connections (C144), which is the node's share of the Lagrangian; then C172 and C173 |
| C178 | get_problem as in C106 (Model/Network.lean, Model/Ocp.lean), trajectories as values at points (Spec/RelaxOptimal.lean, Spec/NetJoint.lean) | the constraints of the returned problem are those of all nodes together with the connections (from C106), costs add up; trajectories of nodes with their own symbols can be joined; composed with C177 |
| C179 | `Model/AlOptions.lean`: heaps of options objects and dictionaries, the constructors of both methods as far as options are concerned, programs as lists of calls | effect of the constructor; invariants over programs (references exist, the options object of a method is private) |
| C180 | Spec/DirectScheme: the collocation points as a Scheme of Spec/NetProblem, with weights the integrals of the Lagrange polynomials | from the polynomials of C159/C161 to values at points and back (Lagrange interpolation, exact quadrature through an antiderivative), then C177 and C178 |
| C181 | Spec/ClosedLoop.lean: the model in one element by collocation, a plant that simulates it; the models of MPC, plant and direct method as composed in C162 | the best decision of C162 is a solution at the points (C180), its first element solves the model in an element with the control the plant holds; induction over the cycles |
| C182 | Spec/ClosedLoop.lean: allowed elements, trajectories continued by one element, closed loops | the tail of an allowed trajectory followed by one more element is allowed from the state at the end of the first element; its cost bounds the next optimal cost; induction over the cycles, composed with C181 |
| C183 | Model/TranscribeIndirect.lean (the functions of collocationscheme.py for the solution class indirect), Model/Indirect.lean, Model/Collocation.lean | From the prepared problem every expression is the one of the user with the control law substituted; at values whose controls minimise the Hamiltonian the substitution changes no value (uniqueness of the minimiser). The collocation theorem C92 for the prepared problem, and the derivative lemmas of C128, give the equivalence. |
| C184 | Model/SolveIndirect (with Model/TranscribeIndirect, Model/Indirect and the pieces of Model/SolveDirect that all methods share): preparation, program, arguments, call of the solver (a parameter) and result | Composition of C183 (the program is the collocated system), the layout of the decision vector, the arguments of `solve` and C138 (the report); the control law of the report is the minimiser by C183 |
| C185 | `indirectShooting`, `lawAlong`, `reportedControls` (Model/ShootIndirect) on the prepared problem of C183; the integrator is a parameter | the substituted expressions have the values of the user's expressions along trajectories with minimising controls (C127, C183); the shots are the ends of the trajectories (C94); negation for one collocation point |
| C186 | Model/SolveShootIndirect.lean composes the prepared problem (Indirect), its shooting discretisation (ShootIndirect), the variables, the call of the solver and the result. | The parts proved for C184 and C185 are composed; feasibility of the solver's vector is equivalent to the extremals fitting together. False for the objective (always 0) and for one collocation point (NotImplementedError after the solver has run); proved as _fails. |
| C187 | No new model: the composed solve of C186. Spec/Sufficient.lean states trajectories, their cost and optimality without adjoints. | The sufficiency theorem of Mangasarian: the tangent inequality of the convex Hamiltonian, the minimum principle with bounds and the derivative of the adjoints times the difference of states, integrated over the elements by monotonicity. False for parameters that are to be found: the indirect method gives the program no objective, so every value is a result; proved as _fails. |
| C188 | `Model/MpcMethods.lean`: the controller with a method given as a function, and the step in `get_new_control` that prepares the next initial guess, which depends on the discretiser | `Props/MpcMethods.lean`: direct collocation by induction over iterations with C162 and the invariant of plants (C31 lemmas); multiple shooting and indirect methods: proof that every run raises and nothing is sent |
| C189 | the models of `solve` for the four combinations (C161, C166, C184, C186), whose state keeps the nonlinear program of the first call | `Props/Revise.lean`: the program is kept, so a call after a change is compared with a call without it; a concrete problem made infeasible by the change is still reported as solved |
| C190 | Model/AugLag (multipliers, penalties, loop) | every update brings the multipliers closer to those of the solution by the squared violations (method of multipliers); the distance is finite |
| C191 | Model/SolveDirect with a solver that returns local solutions | between two decisions there is one with less than the mixed cost; it tends to the first one, convex functions being continuous |
| C192 | Model/MpcAugLag on top of Model/Mpc and Model/SolveAugLag | sizes of the result from C167; the cycle up to the control function |
| C193 | create_quadratic_cost with the dictionary after the call as result | False: absent references are written into the dictionary with the sizes of the first problem, so that weights given as numbers are rejected by a second problem of another size (general theorem). Partial: for equal sizes or given references the second call is exactly the call with the original dictionary |
| C194 | the calls on a problem, indices of optimised parameters | False: a foreign symbol is accepted, it has no index, and the parameters declared after it get the values of the wrong decision variables (general theorem). Partial: an invariant of all histories in which the declared symbols are parameters of the model |
| C195 | the horizon, the number of elements and the two caches as a state; reading and assigning as calls (`Model/GridCache`) | invariant over histories in which the assignments come before the first reading; the negation for every unread grid and every other end of the horizon, and for every other number of elements |
| C196 | SolveShooting.solve as for C166, with solvers that satisfy LocalSolver (C191); the running cost along a mixture of two trajectories is assumed to be continuous. | On the way between two decisions there are decisions: states, algebraics and controls are mixed, the cost state is recomputed from the integral of the running cost. The integral is convex along the way, and its change is bounded by the part of the way, so such decisions exist arbitrarily near. Then refine to the solver's call as in C166. |
| C197 | Model/Pickling: the tables of CasADi's serializer and deserializer as class attributes of a process, picklers that replace them, messages as lists of expressions | False: the receiver keeps the parts of earlier messages (general theorem for every first message). Partial: induction over conversations in which the processes take turns; messages without repeated parts in any conversation |
| C198 | Model/SystemModel: the positional arguments of include_equations | False: only the total sizes are compared (general theorems). Partial: for equations whose sides fit, from the last-given theorem of C14; acceptance exactly when the states are known; a single misfit is rejected |
| C199 | Model/SystemModel: include_equations, the algebraic part first | False for both halves (general theorems over all calls). Partial: what a successful call adds, and rejected calls without algebraic equations and with one form only leave the model unchanged; case analysis of the call |
| C200 | `Model/Estimators` constructors statement by statement, CasADi outcomes as arguments | fails for every model: the entries of a new dataset do not exist (KeyError), the model has no x_sym (AttributeError); partial: exact conditions for ValueError |
| C201 | `Model/ResultCache` the property with its stored data set, over `Model/OptResult` | induction over histories: a reading is the data set at the first reading that succeeded; fails after a reading; partial for assignments before it |
| C202 | `Model/VarNames` names as lists of characters, decimal numbers of entries | fails for names with underscores; partial without them: the part before the first underscore determines the model, then the variable; numbers are injective |
| C203 | `Model/Saving` system calls of save as a transition system on a disk | invariant over steps for every crash point, interleaving of two processes; fails: the file is emptied first, and two processes that find the directory missing race; partial: never another data set, no race when the directory is there |
| C204 | `Model/TimeoutNest` code as a tree of work and blocks, one alarm per process | induction over code without inner blocks; fails for any inner block, and for a limit of zero |
