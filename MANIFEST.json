{
 "claims": [
  {
   "property": "C01",
   "status": "proved",
   "theorems": [
    "Verif.C01_lookup_positions",
    "Verif.C01_lookup_mem",
    "Verif.C01_lookup_nodup",
    "Verif.C01_lookup_roundtrip"
   ],
   "note": ""
  },
  {
   "property": "C02",
   "status": "proved",
   "theorems": [
    "Verif.C02_remove_error_iff",
    "Verif.C02_remove_ok_iff",
    "Verif.C02_remove_appended"
   ],
   "note": ""
  },
  {
   "property": "C03",
   "status": "partial",
   "theorems": [
    "Verif.C03_error_iff",
    "Verif.C03_remove_by_indices_partial",
    "Verif.C03_boundary_fails",
    "Verif.C03_negative_fails"
   ],
   "note": "Proved for index lists within range and non-negative. False in general: an index equal to the length is accepted, and negative indices are accepted but remove nothing (C03_boundary_fails, C03_negative_fails)."
  },
  {
   "property": "C04",
   "status": "proved",
   "theorems": [
    "Verif.C04_join_error_iff",
    "Verif.C04_join_value",
    "Verif.C04_join_same_elements",
    "Verif.C04_constant",
    "Verif.C04_different_elements_accepted"
   ],
   "note": ""
  },
  {
   "property": "C05",
   "status": "proved",
   "theorems": [
    "Verif.C05_tau_to_time_value",
    "Verif.C05_time_to_tau_value",
    "Verif.C05_roundtrip_from_tau",
    "Verif.C05_roundtrip_from_time",
    "Verif.C05_roundtrip_consistent",
    "Verif.C05_ends_time_to_tau",
    "Verif.C05_ends_tau_to_time"
   ],
   "note": ""
  },
  {
   "property": "C06",
   "status": "proved",
   "theorems": [
    "Verif.C06_util_interpolates",
    "Verif.C06_util_unique",
    "Verif.C06_util_partition_of_unity",
    "Verif.C06_util_degree_one",
    "Verif.C06_method_interpolates",
    "Verif.C06_method_eq_util",
    "Verif.C06_method_error_iff",
    "Verif.C06_parameter_layout",
    "Verif.C06_number_of_columns"
   ],
   "note": ""
  },
  {
   "property": "C07",
   "status": "partial",
   "theorems": [
    "Verif.C07_equality",
    "Verif.C07_inequality_partial",
    "Verif.C07_strict_fails"
   ],
   "note": "Equality test and non-strict inequality proved. False for strict inequalities: is_inequality never recognises them (C07_strict_fails)."
  },
  {
   "property": "C08",
   "status": "proved",
   "theorems": [
    "Verif.C08_normal_body",
    "Verif.C08_unrelated_propagates",
    "Verif.C08_timeout_reported",
    "Verif.C08_alarm_cancelled",
    "Verif.C08_long_chain",
    "Verif.C08_armed",
    "Verif.C08_normal_report"
   ],
   "note": ""
  },
  {
   "property": "C09",
   "status": "proved",
   "theorems": [
    "Verif.C09_elapsed",
    "Verif.C09_exit",
    "Verif.C09_elapsed_nonneg"
   ],
   "note": ""
  },
  {
   "property": "C10",
   "status": "proved",
   "theorems": [
    "Verif.C10_states_aligned",
    "Verif.C10_rejected_calls"
   ],
   "note": ""
  },
  {
   "property": "C11",
   "status": "partial",
   "theorems": [
    "Verif.C11_x0_size_partial",
    "Verif.C11_positions_partial",
    "Verif.C11_removal_fails",
    "Verif.C11_removal_shifts_fails",
    "Verif.C11_wrong_size_fails"
   ],
   "note": "False of the code: remove_state does not remove the matching entries of x_0, and include_state accepts an x_0 of any size. Proved: the size and position laws for histories without removal in which x_0 is given with matching size or not at all; the failures have witnesses."
  },
  {
   "property": "C12",
   "status": "partial",
   "theorems": [
    "Verif.C12_not_atomic_fails",
    "Verif.C12_rejected_effect_partial"
   ],
   "note": "False of the code: a rejected include_state leaves the vectors extended. Proved exactly what a rejected call changes."
  },
  {
   "property": "C13",
   "status": "partial",
   "theorems": [
    "Verif.C13_guess_partial",
    "Verif.C13_no_error_fails",
    "Verif.C13_overwrites_fails",
    "Verif.C13_trailing_refused_fails",
    "Verif.C13_all_empty_partial"
   ],
   "note": "False of the code: the guess raises when an earlier state has an equation, overwrites a later one, and refuses the last states. Proved when the guess is right."
  },
  {
   "property": "C14",
   "status": "proved",
   "theorems": [
    "Verif.C14_complete",
    "Verif.C14_shorter_iff",
    "Verif.C14_last_given"
   ],
   "note": ""
  },
  {
   "property": "C15",
   "status": "proved",
   "theorems": [
    "Verif.C15_controls_aligned",
    "Verif.C15_second_parametrisation",
    "Verif.C15_first_parametrisation",
    "Verif.C15_rejected_call_blocks_others"
   ],
   "note": ""
  },
  {
   "property": "C16",
   "status": "proved",
   "theorems": [
    "Verif.C16_replace_evaluates",
    "Verif.C16_size_mismatch"
   ],
   "note": ""
  },
  {
   "property": "C17",
   "status": "proved",
   "theorems": [
    "Verif.C17_gone",
    "Verif.C17_others_unchanged",
    "Verif.C17_only_replacement_symbols"
   ],
   "note": ""
  },
  {
   "property": "C18",
   "status": "proved",
   "theorems": [
    "Verif.C18_merge_concatenates",
    "Verif.C18_merge_connecting",
    "Verif.C18_dynamics",
    "Verif.C18_no_foreign_time",
    "Verif.C18_refused"
   ],
   "note": ""
  },
  {
   "property": "C19",
   "status": "proved",
   "theorems": [
    "Verif.C19_connect_square",
    "Verif.C19_connect_replace",
    "Verif.C19_size_mismatch",
    "Verif.C19_unknown_input"
   ],
   "note": ""
  },
  {
   "property": "C20",
   "status": "proved",
   "theorems": [
    "Verif.C20_copy_same",
    "Verif.C20_independent",
    "Verif.C20_needs_own_dictionary"
   ],
   "note": ""
  },
  {
   "property": "C21",
   "status": "partial",
   "theorems": [
    "Verif.C21_renamed_partial",
    "Verif.C21_same_values_partial",
    "Verif.C21_no_old_variable_partial",
    "Verif.C21_time_fails",
    "Verif.C21_own_time_fails",
    "Verif.C21_control_fails",
    "Verif.C21_no_states_fails",
    "Verif.C21_order_fails",
    "Verif.C21_registration_lost_fails"
   ],
   "note": "False of the code in general: the copy keeps the original time symbols, its parametrised controls lose their registration, models without states raise, and the replacement order matters when fresh names collide. Proved for the renaming itself: under fresh names the copy is the renamed model, evaluates equally, and mentions none of the renamed variables."
  },
  {
   "property": "C22",
   "status": "proved",
   "theorems": [
    "Verif.C22_layout",
    "Verif.C22_integrator_symbols",
    "Verif.C22_complete",
    "Verif.C22_dae_complete"
   ],
   "note": ""
  },
  {
   "property": "C23",
   "status": "partial",
   "theorems": [
    "Verif.C23_single",
    "Verif.C23_order_one_type",
    "Verif.C23_found_iff",
    "Verif.C23_exact",
    "Verif.C23_unknown_type",
    "Verif.C23_order_fails",
    "Verif.C23_prefix_fails",
    "Verif.C23_own_name_partial",
    "Verif.C23_has_variable"
   ],
   "note": "Single lookup, unknown names, order within one variable type and exact (quoted) matching proved. False: with several variable types the result follows the type order, not the order of the names, and a name that is a prefix of another is ambiguous or finds the wrong variable (C23_order_fails, C23_prefix_fails)."
  },
  {
   "property": "C24",
   "status": "proved",
   "theorems": [
    "Verif.C24_chained",
    "Verif.C24_restart",
    "Verif.C24_rejected",
    "Verif.C24_missing",
    "Verif.C24_tau",
    "Verif.C24_plugin",
    "Verif.C24_named"
   ],
   "note": ""
  },
  {
   "property": "C25",
   "status": "proved",
   "theorems": [
    "Verif.C25_aligned",
    "Verif.C25_rejected",
    "Verif.C25_insert"
   ],
   "note": ""
  },
  {
   "property": "C26",
   "status": "proved",
   "theorems": [
    "Verif.C26_sort",
    "Verif.C26_sort_twice"
   ],
   "note": ""
  },
  {
   "property": "C27",
   "status": "partial",
   "theorems": [
    "Verif.C27_empty_entry_fails",
    "Verif.C27_sort_succeeds_iff_partial"
   ],
   "note": "False of the code: sort() on a data set with an empty entry raises and leaves later entries unsorted (C27_empty_entry_fails). Proved: sort of everything succeeds exactly when no entry is empty, and then sorts each."
  },
  {
   "property": "C28",
   "status": "partial",
   "theorems": [
    "Verif.C28_extend_partial",
    "Verif.C28_new_entry_fails",
    "Verif.C28_size_mismatch"
   ],
   "note": "False when an entry is missing from the target: extend raises KeyError instead of creating it (C28_new_entry_fails). Proved for entries present in both."
  },
  {
   "property": "C29",
   "status": "partial",
   "theorems": [
    "Verif.C29_extend",
    "Verif.C29_finite_elements_fails",
    "Verif.C29_horizon_partial"
   ],
   "note": "Time range and data part proved. False: the constructor stores 0 finite elements whatever is passed, so the sum is always 0 (C29_finite_elements_fails)."
  },
  {
   "property": "C30",
   "status": "proved",
   "theorems": [
    "Verif.C30_new",
    "Verif.C30_sized",
    "Verif.C30_check",
    "Verif.C30_accepted"
   ],
   "note": ""
  },
  {
   "property": "C31",
   "status": "proved",
   "theorems": [
    "Verif.C31_remove_control",
    "Verif.C31_remove_control_guess",
    "Verif.C31_remove_algebraic",
    "Verif.C31_remove_algebraic_guess",
    "Verif.C31_connect"
   ],
   "note": ""
  },
  {
   "property": "C32",
   "status": "partial",
   "theorems": [
    "Verif.C32_inputs_partial",
    "Verif.C32_algebraic_partial",
    "Verif.C32_kept_partial",
    "Verif.C32_algebraic_lost_fails",
    "Verif.C32_inputs_lost_fails",
    "Verif.C32_wrong_size_fails",
    "Verif.C32_connect_fails"
   ],
   "note": "Sizes of input guesses proved for all histories; sizes of algebraic guesses proved when new guesses have the right size and connected inputs have a guess. False in general: the first algebraic guess is dropped (C32_algebraic_lost_fails), an input guess is dropped when earlier inputs have none (C32_inputs_lost_fails), wrong sizes are accepted (C32_wrong_size_fails), connecting inputs without a guess makes the algebraic guess too short (C32_connect_fails)."
  },
  {
   "property": "C33",
   "status": "partial",
   "theorems": [
    "Verif.C33_initial_value",
    "Verif.C33_constraint_partial",
    "Verif.C33_required",
    "Verif.C33_constraint_fails"
   ],
   "note": "Initial values, required initial data and explicit constraints without an initial value proved. False: an explicit constraint given together with an initial value is dropped (C33_constraint_fails)."
  },
  {
   "property": "C34",
   "status": "proved",
   "theorems": [
    "Verif.C34_tags",
    "Verif.C34_new"
   ],
   "note": ""
  },
  {
   "property": "C35",
   "status": "proved",
   "theorems": [
    "Verif.C35_merged",
    "Verif.C35_returns",
    "Verif.C35_different_horizon"
   ],
   "note": ""
  },
  {
   "property": "C36",
   "status": "partial",
   "theorems": [
    "Verif.C36_first_partial",
    "Verif.C36_atomic_fails"
   ],
   "note": "Proved when the first problem is the one rejected. False in general: problems merged before the rejected one stay merged (C36_atomic_fails)."
  },
  {
   "property": "C37",
   "status": "proved",
   "theorems": [
    "Verif.C37_moved",
    "Verif.C37_replaced",
    "Verif.C37_guess"
   ],
   "note": ""
  },
  {
   "property": "C38",
   "status": "partial",
   "theorems": [
    "Verif.C38_given_times",
    "Verif.C38_grid_partial",
    "Verif.C38_final_time_fails",
    "Verif.C38_one_element_fails",
    "Verif.C38_start_fails",
    "Verif.C38_t0_argument_fails"
   ],
   "note": "Given time lists proved in full. For a number of elements only starting at time zero and without the final time (C38_grid_partial); the final time is never simulated (C38_final_time_fails), one element raises IndexError (C38_one_element_fails), a nonzero initial time shifts the samples (C38_start_fails), the t0 argument is not the start (C38_t0_argument_fails)."
  },
  {
   "property": "C39",
   "status": "proved",
   "theorems": [
    "Verif.C39_addresses",
    "Verif.C39_theta_addresses",
    "Verif.C39_written",
    "Verif.C39_theta_written",
    "Verif.C39_read",
    "Verif.C39_read_rejects"
   ],
   "note": ""
  },
  {
   "property": "C40",
   "status": "partial",
   "theorems": [
    "Verif.C40_cost",
    "Verif.C40_rejected_fails",
    "Verif.C40_nonneg"
   ],
   "note": "A call rejected for the size of a weight on the states has already erased the costs the problem had (C40_rejected_fails)."
  },
  {
   "property": "C41",
   "status": "proved",
   "theorems": [
    "Verif.C41_added",
    "Verif.C41_accumulates"
   ],
   "note": ""
  },
  {
   "property": "C42",
   "status": "proved",
   "theorems": [
    "Verif.C42_new",
    "Verif.C42_sized"
   ],
   "note": ""
  },
  {
   "property": "C43",
   "status": "partial",
   "theorems": [
    "Verif.C43_atomic",
    "Verif.C43_uncrossed_partial",
    "Verif.C43_sparse_fails",
    "Verif.C43_sparse_rejected_fails"
   ],
   "note": "Rejected calls leave the problem unchanged (all calls). Uncrossed bounds proved for variable bounds without structural zeros; with them the comparison loop pairs the wrong entries: crossed bounds are accepted (C43_sparse_fails) and good ones rejected (C43_sparse_rejected_fails)."
  },
  {
   "property": "C44",
   "status": "partial",
   "theorems": [
    "Verif.C44_inequality",
    "Verif.C44_equality",
    "Verif.C44_variable",
    "Verif.C44_constraint_partial",
    "Verif.C44_equality_constraint_partial",
    "Verif.C44_constraint_fails"
   ],
   "note": "Variables, inequalities and equalities proved in full. include_constraint proved when CasADi's is_equal compares constants by value, and for equalities in any case. With is_equal at depth 0 comparing nodes, as in CasADi 3.5.5, an upper bound is included as a lower bound (C44_constraint_fails)."
  },
  {
   "property": "C45",
   "status": "partial",
   "theorems": [
    "Verif.C45_first_partial",
    "Verif.C45_current_partial",
    "Verif.C45_current_fails"
   ],
   "note": "False: the solver is made once (C45_current_fails). Proved: it is the solver of the problem at the first solve, current exactly while nothing changed since."
  },
  {
   "property": "C46",
   "status": "proved",
   "theorems": [
    "Verif.C46_arguments",
    "Verif.C46_default_bounds",
    "Verif.C46_parameter_size",
    "Verif.C46_unmodified",
    "Verif.C46_order"
   ],
   "note": ""
  },
  {
   "property": "C47",
   "status": "proved",
   "theorems": [
    "Verif.C47_unpack_repack",
    "Verif.C47_repack_unpack",
    "Verif.C47_length",
    "Verif.C47_created"
   ],
   "note": ""
  },
  {
   "property": "C48",
   "status": "proved",
   "theorems": [
    "Verif.C48_unpack",
    "Verif.C48_length",
    "Verif.C48_created"
   ],
   "note": ""
  },
  {
   "property": "C49",
   "status": "proved",
   "theorems": [
    "Verif.C49_collocation",
    "Verif.C49_shooting"
   ],
   "note": ""
  },
  {
   "property": "C50",
   "status": "proved",
   "theorems": [
    "Verif.C50_count",
    "Verif.C50_freedom"
   ],
   "note": ""
  },
  {
   "property": "C51",
   "status": "partial",
   "theorems": [
    "Verif.C51_spacing",
    "Verif.C51_ends",
    "Verif.C51_grid_partial",
    "Verif.C51_grid_fails"
   ],
   "note": "Number and spacing of the breakpoints proved for every horizon. False when t_0 is not 0: the grid runs from 0 to t_f - t_0 (C51_grid_fails); proved when t_0 = 0."
  },
  {
   "property": "C52",
   "status": "partial",
   "theorems": [
    "Verif.C52_placed_partial",
    "Verif.C52_given_last_control_fails",
    "Verif.C52_initial_condition_fails",
    "Verif.C52_free_symbols_fails",
    "Verif.C52_missing",
    "Verif.C52_guess"
   ],
   "note": "Proved for methods with the initial condition as a parameter (the default) when the last control is no parameter or comes from the problem. False otherwise: a last control given to the call is not put in the vector, without the initial condition as a parameter its slots stay in the problem, and without any parameter the problem has free symbols."
  },
  {
   "property": "C53",
   "status": "partial",
   "theorems": [
    "Verif.C53_inequality",
    "Verif.C53_equality",
    "Verif.C53_unknown_tag",
    "Verif.C53_shooting_partial",
    "Verif.C53_shooting_start_fails",
    "Verif.C53_shooting_unknown_tag"
   ],
   "note": "Proved for collocation (all tags) and for multiple shooting with tags end and default; unknown tags are reported by both. False for multiple shooting with the tag start: the problem cannot be built (C53_shooting_start_fails)."
  },
  {
   "property": "C54",
   "status": "partial",
   "theorems": [
    "Verif.C54_limits_partial",
    "Verif.C54_first_free",
    "Verif.C54_without_last_fails"
   ],
   "note": "Proved that the limits add exactly the rate conditions to the constraints, when a last control or no last control is passed to the discretisation. False through the solution methods: without a last-control parameter they pass an empty vector instead of none, and with any limit the problem cannot be built (C54_without_last_fails)."
  },
  {
   "property": "C55",
   "status": "partial",
   "theorems": [
    "Verif.C55_shift_partial",
    "Verif.C55_scaled_fails",
    "Verif.C55_theta_fails",
    "Verif.C55_single_element_fails"
   ],
   "note": "Proved for at least two elements up to the factor 11/10 the code multiplies the guess with. False as stated: the guess is scaled (C55_scaled_fails), optimised parameters of the elements stay in place (C55_theta_fails), and with one element the shift raises (C55_single_element_fails)."
  },
  {
   "property": "C56",
   "status": "partial",
   "theorems": [
    "Verif.C56_run",
    "Verif.C56_fixed",
    "Verif.C56_counts",
    "Verif.C56_zero_fails",
    "Verif.C56_fixed_counts"
   ],
   "note": "Exactly n cycles proved for n >= 1. False for n = 0: one cycle is performed (C56_zero_fails)."
  },
  {
   "property": "C57",
   "status": "partial",
   "theorems": [
    "Verif.C57_clock_partial",
    "Verif.C57_rejected",
    "Verif.C57_increasing",
    "Verif.C57_default_points",
    "Verif.C57_user_points_fails",
    "Verif.C57_no_points",
    "Verif.C57_simulation_error"
   ],
   "note": "Proved for the default sampling points and for user points that end with 1. With other user points the clock advances by the last point times the sampling time (C57_user_points_fails)."
  },
  {
   "property": "C58",
   "status": "partial",
   "theorems": [
    "Verif.C58_values_partial",
    "Verif.C58_users_vector_fails",
    "Verif.C58_errors"
   ],
   "note": "Values given to the solver proved. False that the user's vector is not modified: the assignments are made in it (C58_users_vector_fails)."
  },
  {
   "property": "C59",
   "status": "partial",
   "theorems": [
    "Verif.C59_unique_partial",
    "Verif.C59_missing",
    "Verif.C59_given_id_fails",
    "Verif.C59_not_included_fails"
   ],
   "note": "Proved for every history in which the network gives the identifiers and connected nodes were included. Fails for identifiers given by the user (duplicates are accepted and the lookup finds only the first) and for nodes connected without having been included (no identifier; get_model raises TypeError)."
  },
  {
   "property": "C60",
   "status": "proved",
   "theorems": [
    "Verif.C60_proper_colouring",
    "Verif.C60_groups"
   ],
   "note": ""
  },
  {
   "property": "C61",
   "status": "partial",
   "theorems": [
    "Verif.C61_contiguous_partial",
    "Verif.C61_last_run",
    "Verif.C61_chain_fails"
   ],
   "note": "Proved when nodes of one colour stand next to each other in the colouring. Fails in general: itertools.groupby is applied to unsorted colours and a later run replaces an earlier one; in a chain of three nodes the middle one is in no block."
  },
  {
   "property": "C62",
   "status": "partial",
   "theorems": [
    "Verif.C62_subdivided_partial",
    "Verif.C62_isolated_fails"
   ],
   "note": "Proved: every connection is subdivided, no old pair stays connected, nodes with a connection are kept. Fails for isolated nodes: they are dropped."
  },
  {
   "property": "C63",
   "status": "proved",
   "theorems": [
    "Verif.C63_union",
    "Verif.C63_refused"
   ],
   "note": ""
  },
  {
   "property": "C64",
   "status": "proved",
   "theorems": [
    "Verif.C64_closed_form",
    "Verif.C64_monotone",
    "Verif.C64_unknown_rule",
    "Verif.C64_set"
   ],
   "note": ""
  },
  {
   "property": "C65",
   "status": "proved",
   "theorems": [
    "Verif.C65_update",
    "Verif.C65_unchanged_iff",
    "Verif.C65_gradient",
    "Verif.C65_loop"
   ],
   "note": ""
  },
  {
   "property": "C66",
   "status": "partial",
   "theorems": [
    "Verif.C66_limit",
    "Verif.C66_first_below_tolerance",
    "Verif.C66_no_update",
    "Verif.C66_zero_fails",
    "Verif.C66_error"
   ],
   "note": "Proved: limit, first iteration below the tolerance, meaning of the error. Without updates (the default) the same subproblem is solved max_iter times. Fails for max_iter = 0: UnboundLocalError instead of the intended ValueError."
  },
  {
   "property": "C67",
   "status": "partial",
   "theorems": [
    "Verif.C67_relaxed_partial",
    "Verif.C67_penalty",
    "Verif.C67_guess_fails"
   ],
   "note": "Proved for sized, square problems in which a guess for the controls comes with one for the algebraic variables. Fails for a problem with a control guess and no algebraic guess: ValueError, after the cost has been changed."
  },
  {
   "property": "C68",
   "status": "partial",
   "theorems": [
    "Verif.C68_tags_partial",
    "Verif.C68_default_fails"
   ],
   "note": "Proved when the indices are also positions of the algebraic equations that are left. Fails with the default arguments: all algebraic equations are relaxed, and the test for path equalities, which looks at the algebraic equations, raises RuntimeError."
  },
  {
   "property": "C69",
   "status": "partial",
   "theorems": [
    "Verif.C69_minimiser_partial",
    "Verif.C69_penalties_fails",
    "Verif.C69_two_variables_fails",
    "Verif.C69_rejected"
   ],
   "note": "Proved for one variable per connection and equal penalties. Fails when the two penalties differ (only the first is used) and for connections of several variables (pieces of theta are misread)."
  },
  {
   "property": "C70",
   "status": "partial",
   "theorems": [
    "Verif.C70_stored_partial",
    "Verif.C70_errors",
    "Verif.C70_never_used_fails",
    "Verif.C70_example_fails",
    "Verif.C70_harmless_partial"
   ],
   "note": "The new multipliers are computed and stored by the first-order rule (partial), but solve reads self.nu, which nothing ever updates: the property fails for every history. In one case this is harmless: when each update takes place with the best intermediary value for the values of both neighbours, the multipliers of both ends stay equal and only their difference matters (C70_harmless_partial)."
  },
  {
   "property": "C71",
   "status": "partial",
   "theorems": [
    "Verif.C71_layout_partial",
    "Verif.C71_state_fails",
    "Verif.C71_bipartite_partial",
    "Verif.C71_bipartite_fails"
   ],
   "note": "Proved for exchanged algebraic variables and inputs with distinct collocation points, for the bipartite method only with one variable per connection or degree one. Fails for state outputs (left out of theta) and in the bipartite method for several variables (transposed layout). A problem with parameters theta of its own is not modelled."
  },
  {
   "property": "C72",
   "status": "partial",
   "theorems": [
    "Verif.C72_limits",
    "Verif.C72_first_partial",
    "Verif.C72_negative_fails"
   ],
   "note": "Limits proved without restriction for a positive limit; the stopping rule for objectives that are not negative and a tolerance of at most one. Fails for negative objectives."
  },
  {
   "property": "C73",
   "status": "partial",
   "theorems": [
    "Verif.C73_balance_partial",
    "Verif.C73_cap_fails",
    "Verif.C73_unequal",
    "Verif.C73_dual"
   ],
   "note": "Balance rule, positivity and rejection of unequal penalties proved for at least two nodes. There is no cap mu_max: C73_cap_fails."
  },
  {
   "property": "C74",
   "status": "partial",
   "theorems": [
    "Verif.C74_basis",
    "Verif.C74_values_partial",
    "Verif.C74_order_fails"
   ],
   "note": "The count, distinctness and completeness of the multi-indices hold for all n and orders; the polynomials themselves exist up to order 10 only (beyond that an IndexError, C74_order_fails) and are the right ones up to order 9."
  },
  {
   "property": "C75",
   "status": "partial",
   "theorems": [
    "Verif.C75_hermite_partial",
    "Verif.C75_tenth_fails",
    "Verif.C75_beyond"
   ],
   "note": "The table is right up to the ninth polynomial; the tenth has 640 x^6 instead of 630 x^6."
  },
  {
   "property": "C76",
   "status": "proved",
   "theorems": [
    "Verif.C76_exact",
    "Verif.C76_minimiser",
    "Verif.C76_rank"
   ],
   "note": "The Cholesky factorisation and the triangular solve are external: their defining equations are hypotheses of the theorem."
  },
  {
   "property": "C77",
   "status": "proved",
   "theorems": [
    "Verif.C77_chance"
   ],
   "note": "For every random variable with finite second moment on every probability space; p = 0 and p = 1 (division by zero) are excluded."
  },
  {
   "property": "C78",
   "status": "partial",
   "theorems": [
    "Verif.C78_statistics_partial",
    "Verif.C78_samples_fails",
    "Verif.C78_tenth_fails",
    "Verif.C78_affine"
   ],
   "note": "Proved with Gaussian integrals for exact expectations of the squared polynomials and orders up to nine. The code estimates those expectations from random samples, which makes the variance wrong in general (C78_samples_fails), and at order ten the first coefficient is not the mean (C78_tenth_fails)."
  },
  {
   "property": "C79",
   "status": "proved",
   "theorems": [
    "Verif.C79_weights"
   ],
   "note": "The code has fixed tuning constants (alpha = 1/1000, kappa = 0, beta = 2); proved for every dimension over every ordered field. Construction of the filter itself fails (C120)."
  },
  {
   "property": "C80",
   "status": "proved",
   "theorems": [
    "Verif.C80_sigma_points"
   ],
   "note": "The Cholesky factorisation is a parameter assumed correct on covariances."
  },
  {
   "property": "C81",
   "status": "proved",
   "theorems": [
    "Verif.C81_predict",
    "Verif.C81_update",
    "Verif.C81_history"
   ],
   "note": "Inverse, Jacobians, simulation and matrix exponential are parameters; the inverse is assumed correct on positive definite matrices. The update formulas are proved although no filter can be constructed (C120)."
  },
  {
   "property": "C82",
   "status": "partial",
   "theorems": [
    "Verif.C82_state",
    "Verif.C82_plant_state",
    "Verif.C82_covariance_fails"
   ],
   "note": "State part and zero covariance entries proved, also for plants measuring [x; y]. False for the size of the covariance: it is one column instead of a square matrix unless there is exactly one state (C82_covariance_fails)."
  },
  {
   "property": "C83",
   "status": "partial",
   "theorems": [
    "Verif.C83_covariance_partial",
    "Verif.C83_norms_fails",
    "Verif.C83_samples_fails"
   ],
   "note": "Proved for expansions of order at most one with as many samples as polynomials. From order two on the norms of the polynomials are left out (C83_norms_fails), and with more samples than polynomials every estimate raises (C83_samples_fails)."
  },
  {
   "property": "C84",
   "status": "proved",
   "theorems": [
    "Verif.C84_by_name",
    "Verif.C84_by_index",
    "Verif.C84_dataset",
    "Verif.C84_dataset_checked"
   ],
   "note": ""
  },
  {
   "property": "C85",
   "status": "proved",
   "theorems": [
    "Verif.C85_within",
    "Verif.C85_inside",
    "Verif.C85_nearest",
    "Verif.C85_idempotent",
    "Verif.C85_crossed",
    "Verif.C85_law",
    "Verif.C85_rejects"
   ],
   "note": ""
  },
  {
   "property": "C86",
   "status": "proved",
   "theorems": [
    "Verif.C86_objective",
    "Verif.C86_once",
    "Verif.C86_controls"
   ],
   "note": ""
  },
  {
   "property": "C87",
   "status": "partial",
   "theorems": [
    "Verif.C87_merged_scoped_partial",
    "Verif.C87_parametrised_fails"
   ],
   "note": "False when a merged-in model has parametrised controls: their parameters are not registered in the merged model (C87_parametrised_fails). Proved for complete models without parametrised controls."
  },
  {
   "property": "C88",
   "status": "proved",
   "theorems": [
    "Verif.C88_join",
    "Verif.C88_convert",
    "Verif.C88_convert_needs_tau"
   ],
   "note": ""
  },
  {
   "property": "C89",
   "status": "partial",
   "theorems": [
    "Verif.C89_declared_size_fails",
    "Verif.C89_rows_partial"
   ],
   "note": "False of the code: the first insertion fixes the number of rows, the declared size is never compared (C89_declared_size_fails). Proved: all later insertions agree with the rows of the first."
  },
  {
   "property": "C90",
   "status": "proved",
   "theorems": [
    "Verif.C90_collocation",
    "Verif.C90_shooting"
   ],
   "note": ""
  },
  {
   "property": "C91",
   "status": "partial",
   "theorems": [
    "Verif.C91_parameter",
    "Verif.C91_theta",
    "Verif.C91_algebraic",
    "Verif.C91_equations_partial",
    "Verif.C91_round_trip",
    "Verif.C91_rejected_fails"
   ],
   "note": "Proved when the call returns, and for removals without equations. A removal that names an equation the model does not have raises after the variables were removed (C91_rejected_fails)."
  },
  {
   "property": "C92",
   "status": "proved",
   "theorems": [
    "Verif.C92_feasible_iff",
    "Verif.C92_states",
    "Verif.C92_parameters"
   ],
   "note": ""
  },
  {
   "property": "C93",
   "status": "partial",
   "theorems": [
    "Verif.C93_degree_one_fails",
    "Verif.C93_degree_partial"
   ],
   "note": "Proved for every degree above one. False for degree one: the approximation then has a single column of parameters and the build raises (C93_degree_one_fails)."
  },
  {
   "property": "C94",
   "status": "proved",
   "theorems": [
    "Verif.C94_feasible_iff",
    "Verif.C94_cost_sum"
   ],
   "note": ""
  },
  {
   "property": "C95",
   "status": "proved",
   "theorems": [
    "Verif.C95_trajectory"
   ],
   "note": ""
  },
  {
   "property": "C96",
   "status": "partial",
   "theorems": [
    "Verif.C96_control_partial",
    "Verif.C96_control_fails"
   ],
   "note": "Proved for plants without a control function. After set_control_function a control given to set_control is replaced by that function's values (C96_control_fails)."
  },
  {
   "property": "C97",
   "status": "partial",
   "theorems": [
    "Verif.C97_measurement_partial",
    "Verif.C97_first_measurement_fails"
   ],
   "note": "Proved after at least one accepted control, without noise. Before that get_measurement returns the initial state whatever the matrix (C97_first_measurement_fails)."
  },
  {
   "property": "C98",
   "status": "partial",
   "theorems": [
    "Verif.C98_unattended_fails"
   ],
   "note": "False: get_new_control enters the debugger, once per iteration (C98_unattended_fails, for every completed run)."
  },
  {
   "property": "C99",
   "status": "partial",
   "theorems": [
    "Verif.C99_fixed_control_fails",
    "Verif.C99_initial_fails"
   ],
   "note": "False: the argument u is never used (C99_fixed_control_fails), and before any solution the run raises TypeError (C99_initial_fails)."
  },
  {
   "property": "C100",
   "status": "partial",
   "theorems": [
    "Verif.C100_polynomial_partial",
    "Verif.C100_constant_controls_fails",
    "Verif.C100_scalar",
    "Verif.C100_sent",
    "Verif.C100_cycle",
    "Verif.C100_no_controls",
    "Verif.C100_nothing_to_send"
   ],
   "note": "Proved when the control has the degree of the states, and for one control constant in each element. False for several controls with another degree: sending raises (C100_constant_controls_fails)."
  },
  {
   "property": "C101",
   "status": "proved",
   "theorems": [
    "Verif.C101_solver_failure"
   ],
   "note": ""
  },
  {
   "property": "C102",
   "status": "partial",
   "theorems": [
    "Verif.C102_iterate_partial",
    "Verif.C102_empty_fails"
   ],
   "note": "Proved for networks built without insert_intermediary_nodes. Fails after it when the node with identifier 0 had no connection: the loop has no iteration."
  },
  {
   "property": "C103",
   "status": "partial",
   "theorems": [
    "Verif.C103_atomic_fails"
   ],
   "note": "Fails: the graph is emptied before the loop, so a failing insertion leaves an empty network. No positive part beyond C62 (where the insertion returns)."
  },
  {
   "property": "C104",
   "status": "partial",
   "theorems": [
    "Verif.C104_rejected",
    "Verif.C104_unknown",
    "Verif.C104_registered_partial",
    "Verif.C104_vector_fails",
    "Verif.C104_sizes_fails"
   ],
   "note": "Proved: a rejected connection changes nothing, unknown variables are rejected, an accepted one appends exactly its variables. Fails: a vector is accepted when one entry is known, and different numbers of inputs and outputs are accepted although the network has no model then."
  },
  {
   "property": "C105",
   "status": "proved",
   "theorems": [
    "Verif.C105_removed"
   ],
   "note": ""
  },
  {
   "property": "C106",
   "status": "partial",
   "theorems": [
    "Verif.C106_problem_partial",
    "Verif.C106_returned",
    "Verif.C106_unnamed_fails"
   ],
   "note": "Proved: when the problem is returned (named network, problems with one horizon and mergeable models, connections of matching sizes, guesses of the right size) and what it then contains; what its solutions are is C178. Fails for networks without a name (TypeError)."
  },
  {
   "property": "C107",
   "status": "partial",
   "theorems": [
    "Verif.C107_symmetric_partial",
    "Verif.C107_one_way_fails"
   ],
   "note": "Proved for networks whose connections go both ways. Fails for one-way connections: the colouring looks at successors only, and all nodes can end up in one block."
  },
  {
   "property": "C108",
   "status": "partial",
   "theorems": [
    "Verif.C108_copies_partial",
    "Verif.C108_guess_fails"
   ],
   "note": "Proved for problems without a guess for the controls. Fails with one: include_control raises ValueError because the copy has no guess."
  },
  {
   "property": "C109",
   "status": "partial",
   "theorems": [
    "Verif.C109_own_multiplier_partial",
    "Verif.C109_order_fails"
   ],
   "note": "Proved for every construction that does not relax both path equalities and bounds of states. Fails when both are relaxed: multipliers are stored in the order of the relaxations, violations with the path equalities last."
  },
  {
   "property": "C110",
   "status": "partial",
   "theorems": [
    "Verif.C110_guess_partial",
    "Verif.C110_index_fails"
   ],
   "note": "Proved when equations and variables have the same indices. Fails otherwise: the guess is read with the indices of the equations."
  },
  {
   "property": "C111",
   "status": "partial",
   "theorems": [
    "Verif.C111_improved_partial",
    "Verif.C111_other_points_fails"
   ],
   "note": "Proved: constraints whose violation did not decrease keep their multiplier; the others get the new value at the first collocation point of each element. Fails at all other collocation points, which keep the old value."
  },
  {
   "property": "C112",
   "status": "partial",
   "theorems": [
    "Verif.C112_primal_partial",
    "Verif.C112_improved_fails"
   ],
   "note": "Proved without only_update_if_improve. Fails with it: the last violation has been overwritten with the new one before they are compared, so the penalty grows although the violation decreased."
  },
  {
   "property": "C113",
   "status": "partial",
   "theorems": [
    "Verif.C113_same_partial",
    "Verif.C113_solver_agrees",
    "Verif.C113_degree_fails",
    "Verif.C113_elements_fails",
    "Verif.C113_keyword_fails"
   ],
   "note": "Proved when solver_options do not give another degree or number of elements. Fails otherwise: the multipliers are made before the options are made equal; degree and finite_elements given as keyword arguments are ignored."
  },
  {
   "property": "C114",
   "status": "partial",
   "theorems": [
    "Verif.C114_same_partial",
    "Verif.C114_blocks_fails"
   ],
   "note": "Proved when no two of the solved nodes are connected; fails for connected nodes in different blocks, because separate processes do not see the results of earlier blocks."
  },
  {
   "property": "C115",
   "status": "proved",
   "theorems": [
    "Verif.C115_order"
   ],
   "note": ""
  },
  {
   "property": "C116",
   "status": "partial",
   "theorems": [
    "Verif.C116_every_node_partial",
    "Verif.C116_choices_fails",
    "Verif.C116_unknown"
   ],
   "note": "Proved for cyclic blocks and for a random order; fails for random choices with replacement."
  },
  {
   "property": "C117",
   "status": "partial",
   "theorems": [
    "Verif.C117_orthogonal_partial",
    "Verif.C117_tenth_fails"
   ],
   "note": "Proved up to order nine; the tenth tabulated polynomial has a wrong coefficient and is not orthogonal to the constant."
  },
  {
   "property": "C118",
   "status": "proved",
   "theorems": [
    "Verif.C118_samples",
    "Verif.C118_errors"
   ],
   "note": "The points of the design are a parameter: they are assumed to have mean zero and identity covariance."
  },
  {
   "property": "C119",
   "status": "partial",
   "theorems": [
    "Verif.C119_logarithm_partial",
    "Verif.C119_mean_fails"
   ],
   "note": "Only the logarithm of the samples is centred at the logarithm of the given mean; the mean of the samples is larger."
  },
  {
   "property": "C120",
   "status": "partial",
   "theorems": [
    "Verif.C120_construction_fails",
    "Verif.C120_checks_partial"
   ],
   "note": "False for all arguments: the entries of the empty data set are looked up before they are created, KeyError. The two argument checks are proved."
  },
  {
   "property": "C121",
   "status": "proved",
   "theorems": [
    "Verif.C121_unscented",
    "Verif.C121_pce"
   ],
   "note": "Proved for the unscented filter over every history and for every estimate of the polynomial chaos filter. Solutions of linear systems are assumed correct for positive definite matrices; the square-root variant raises NotImplementedError and is not modelled."
  },
  {
   "property": "C122",
   "status": "partial",
   "theorems": [
    "Verif.C122_linear_partial",
    "Verif.C122_process_noise_fails"
   ],
   "note": "Proved without process noise. With process noise the covariance is larger than that of the Kalman filter (C122_process_noise_fails)."
  },
  {
   "property": "C123",
   "status": "partial",
   "theorems": [
    "Verif.C123_clock_fails"
   ],
   "note": "False: the time of the filters is never changed."
  },
  {
   "property": "C124",
   "status": "partial",
   "theorems": [
    "Verif.C124_control_fails",
    "Verif.C124_bilinear_fails"
   ],
   "note": "False: no value is passed for the controls when the Jacobians are evaluated."
  },
  {
   "property": "C125",
   "status": "partial",
   "theorems": [
    "Verif.C125_extended_partial",
    "Verif.C125_unscented_fails",
    "Verif.C125_algebraic_fails",
    "Verif.C125_missing"
   ],
   "note": "Proved for the size of what the extended filter returns. The unscented filter returns the algebraic variables too, and without exactly one algebraic variable every estimate raises after the update."
  },
  {
   "property": "C126",
   "status": "partial",
   "theorems": [
    "Verif.C126_linear_partial",
    "Verif.C126_exponential",
    "Verif.C126_start_fails",
    "Verif.C126_prediction_fails"
   ],
   "note": "Proved from a covariance that is consistent with the algebraic equations, with the intertwining property of the exponential as hypothesis (proved for the real matrix exponential, C126_exponential). The covariance after construction is never consistent (C126_start_fails), which changes the first prediction (C126_prediction_fails)."
  },
  {
   "property": "C127",
   "status": "partial",
   "theorems": [
    "Verif.C127_partial",
    "Verif.C127_interior_partial",
    "Verif.C127_fails"
   ],
   "note": "Proved when the Hamiltonian is strictly convex quadratic in the controls with a Hessian that does not couple a control that has a bound with another control, and where no bound is active. Fails in general: clipping control by control is not the constrained minimiser when the Hessian couples the controls (C127_fails gives two controls)."
  },
  {
   "property": "C128",
   "status": "proved",
   "theorems": [
    "Verif.C128_costate",
    "Verif.C128_stationary",
    "Verif.C128_transversality",
    "Verif.C128_square",
    "Verif.C128_succeeds",
    "Verif.C128_rejects"
   ],
   "note": ""
  },
  {
   "property": "C129",
   "status": "partial",
   "theorems": [
    "Verif.C129_partial",
    "Verif.C129_fails"
   ],
   "note": "Construction of the other parts leaves the problem as it is, but the indirect method's bound check overwrites the user's state and algebraic bounds by infinity (C129_fails); C129_partial says what is kept."
  },
  {
   "property": "C130",
   "status": "partial",
   "theorems": [
    "Verif.C130_partial",
    "Verif.C130_direct_fails",
    "Verif.C130_indirect_fails"
   ],
   "note": "Holds for preparation done by solve itself, and for problems without controls. Fails for the direct method (the first preparation's parameters stay in the expressions but are no variables any more) and for the indirect method (a second preparation always raises)."
  },
  {
   "property": "C131",
   "status": "partial",
   "theorems": [
    "Verif.C131_twice",
    "Verif.C131_partial",
    "Verif.C131_fails"
   ],
   "note": "C131_twice: on every trajectory the second direct method minimises the final cost plus twice the accumulated running cost; C131_fails is a concrete trajectory. C131_partial: problems without running cost."
  },
  {
   "property": "C132",
   "status": "partial",
   "theorems": [
    "Verif.C132_fails",
    "Verif.C132_partial"
   ],
   "note": "Fails: the user's parameters are dropped from the control parameters although the constraints contain them. C132_partial: without user parameters every symbol of the prepared problem is one of its variables or the pseudo time."
  },
  {
   "property": "C133",
   "status": "partial",
   "theorems": [
    "Verif.C133_fails",
    "Verif.C133_partial"
   ],
   "note": "False in general: a DM passed as p (or inside theta) is written to by `p[indices] = p_opt` (C133_fails, for any heap, index and differing solution). C133_partial: unchanged when nothing is optimised or when p is a list or absent and theta absent."
  },
  {
   "property": "C134",
   "status": "partial",
   "theorems": [
    "Verif.C134_partial",
    "Verif.C134_fails"
   ],
   "note": "C134_partial assumes that theta's elements are different vector objects, different from p's, which holds for create_constant_theta and join_thetas. C134_fails: with a shared object both elements report the last element's values."
  },
  {
   "property": "C135",
   "status": "partial",
   "theorems": [
    "Verif.C135_registered",
    "Verif.C135_accepted",
    "Verif.C135_rejected_partial",
    "Verif.C135_rejected_fails"
   ],
   "note": "C135_registered and C135_accepted hold in full. C135_rejected_partial covers set_parameter_as_uncertain_parameter and set_initial_condition_as_uncertain; C135_rejected_fails: include_uncertain_parameter and create_uncertain_parameter put the parameter into the model before the sizes are checked."
  },
  {
   "property": "C136",
   "status": "partial",
   "theorems": [
    "Verif.C136_inequalities_partial",
    "Verif.C136_probabilities_fails",
    "Verif.C136_when_fails"
   ],
   "note": "C136_inequalities_partial: inequalities and right-hand sides. C136_probabilities_fails: the second check compares the right-hand side again instead of prob (stochastic_ocp.py:170), so any number of probabilities is accepted. C136_when_fails: `when` is never used."
  },
  {
   "property": "C137",
   "status": "partial",
   "theorems": [
    "Verif.C137_lists_fails",
    "Verif.C137_conversion_fails",
    "Verif.C137_checks_partial",
    "Verif.C137_samples"
   ],
   "note": "C137_lists_fails and C137_conversion_fails: the code uses model.p_sym, model.u_sym and model.x_0_sym, which SystemModel does not have (it has p, u, x_0), so these calls raise AttributeError for every problem. C137_checks_partial and C137_samples: the checks made before and the number of samples are right."
  },
  {
   "property": "C138",
   "status": "partial",
   "theorems": [
    "Verif.C138_collocation",
    "Verif.C138_shooting_partial",
    "Verif.C138_shooting_fails",
    "Verif.C138_shooting_start",
    "Verif.C138_time_fails",
    "Verif.C138_shooting_time_fails",
    "Verif.C138_wrong_size"
   ],
   "note": "Collocation is proved in full except for the start of the horizon: times count from 0 (C138_time_fails, C138_shooting_time_fails, see C51). Multiple shooting (C138_shooting_partial) needs, for controls determined by the other variables, an integrator whose simulations can be interrupted and control points other than the start of an element; with an indirect method of control degree 1 storing the result raises NotImplementedError (C138_shooting_fails)."
  },
  {
   "property": "C139",
   "status": "proved",
   "theorems": [
    "Verif.C139_collocation",
    "Verif.C139_shooting"
   ],
   "note": ""
  },
  {
   "property": "C140",
   "status": "partial",
   "theorems": [
    "Verif.C140_collocation",
    "Verif.C140_shooting",
    "Verif.C140_theta_fails",
    "Verif.C140_p_fails",
    "Verif.C140_shooting_p_fails"
   ],
   "note": "Proved when parameters are given. Without parameters per element both functions raise TypeError (C140_theta_fails), without parameters the collocation one raises NotImplementedError (C140_p_fails), and the one of multiple shooting raises whenever there is an optimised parameter (C140_shooting_p_fails), although the documentation promises zeros. The solution method always passes both."
  },
  {
   "property": "C141",
   "status": "partial",
   "theorems": [
    "Verif.C141_shooting_partial",
    "Verif.C141_sum_fails",
    "Verif.C141_given_fails"
   ],
   "note": "Proved without cost_as_a_sum. With it the guess breaks the joining equations of every element with a cost (C141_sum_fails), and an initial condition passed to solve is ignored by the guess, which then breaks the initial condition (C141_given_fails)."
  },
  {
   "property": "C142",
   "status": "partial",
   "theorems": [
    "Verif.C142_largest",
    "Verif.C142_same_partial",
    "Verif.C142_different_fails",
    "Verif.C142_isolated_fails"
   ],
   "note": "Errors and multipliers are always the same; penalties are all raised to the largest one (C142_largest). Equal to the serial update for the constant and bounded-increase rules with equal penalties (C142_same_partial). False as soon as the serial update leaves different penalties, as the primal rule does (C142_different_fails), and when a node has nothing relaxed: the update in separate processes raises (C142_isolated_fails)."
  },
  {
   "property": "C143",
   "status": "partial",
   "theorems": [
    "Verif.C143_describes_partial",
    "Verif.C143_no_update_fails",
    "Verif.C143_skip_fails",
    "Verif.C143_degree_fails"
   ],
   "note": "Proved for solves with updates and one degree everywhere. False with no_update_after_solving (used by the distributed method): the violations and errors are those of the update before (C143_no_update_fails). When the options of the solver ask for another degree the result raises unless the sizes happen to divide (C143_degree_fails)."
  },
  {
   "property": "C144",
   "status": "partial",
   "theorems": [
    "Verif.C144_coupled",
    "Verif.C144_decoupled_partial",
    "Verif.C144_outputs_fails",
    "Verif.C144_parameters_fails",
    "Verif.C144_twice_fails",
    "Verif.C144_rate_fails"
   ],
   "note": "Proved for problems whose path equalities together with the outputs are not more than the algebraic equations, with guesses for both inputs and algebraic variables or for neither, and with the option debug_skip_replace_by_approximation off. Otherwise false: a node with more outputs to pass on than algebraic equations (one output feeding two nodes) cannot be prepared, because the constructor tests the algebraic equations at the positions of the path equalities (C144_outputs_fails); a problem with own piecewise constant parameters, and a network solved a second time, get fewer values than parameters (C144_parameters_fails, C144_twice_fails); the rate limit of a connected input is lost (C144_rate_fails); C144_decoupled_partial also says that the upper and lower rate limits of the inputs become infinite and that everything else of the problem is unchanged."
  },
  {
   "property": "C145",
   "status": "partial",
   "theorems": [
    "Verif.C145_stops",
    "Verif.C145_tolerance",
    "Verif.C145_results",
    "Verif.C145_complete",
    "Verif.C145_blockIterations",
    "Verif.C145_counts_fails",
    "Verif.C145_none_fails",
    "Verif.C145_method",
    "Verif.C145_single_fails",
    "Verif.C145_missing_fails"
   ],
   "note": "The reported iteration numbers are the last loop indices, one less than the counts (C145_counts_fails). With max_iter_outer = 0 a ValueError is raised although the loop has a branch for it (C145_none_fails). A network whose update gives a single error value stops with an exception, even when it is zero (C145_single_fails). A node that was never solved is left out of the errors, so the tolerance can be met without it (C145_missing_fails). The model is of the first call of solve."
  },
  {
   "property": "C146",
   "status": "partial",
   "theorems": [
    "Verif.C146_collocation_partial",
    "Verif.C146_shooting_partial",
    "Verif.C146_start_fails",
    "Verif.C146_optimised_fails"
   ],
   "note": "The constraints are evaluated with the parameters given to the method, not with the optimised values of the solution (C146_optimised_fails); the two partial theorems are about evaluation with the given values, which are those of the solution when no parameter is optimised. C146_shooting_partial also assumes that a simulation may be interrupted without changing it. With a collocation point at the start of an element, multiple shooting cannot compute the violations at all (C146_start_fails)."
  },
  {
   "property": "C147",
   "status": "partial",
   "theorems": [
    "Verif.C147_told_partial",
    "Verif.C147_points_fails",
    "Verif.C147_block",
    "Verif.C147_dual_partial",
    "Verif.C147_names_fails"
   ],
   "note": "The partial theorems assume results with `degree` points in each element. A successor's control is reported with `degree_control` points (1 by default) and multiple shooting reports one point, so after the first iteration the vector of parameters is too short (C147_points_fails); guesses and zeros have the right size. The data for the dual residual are keyed by variable names, so of two coupled variables with the same name only the last one counts (C147_names_fails)."
  },
  {
   "property": "C148",
   "status": "partial",
   "theorems": [
    "Verif.C148_values_partial",
    "Verif.C148_names_fails",
    "Verif.C148_missing",
    "Verif.C148_unknown",
    "Verif.C148_without_model"
   ],
   "note": "Proved for networks whose nodes have different names and whose models only have variables of their problems, when the call to simulate returns (C148_values_partial). False for nodes with the same name, in particular for nodes created without a name: entries overwrite each other (C148_names_fails). When the call returns, every variable was found (C148_missing). The constructor DM of a list of one by one matrices is assumed to give the column."
  },
  {
   "property": "C149",
   "status": "partial",
   "theorems": [
    "Verif.C149_options_partial",
    "Verif.C149_shared_fails",
    "Verif.C149_frozen_fails",
    "Verif.C149_given_fails",
    "Verif.C149_problem_fails",
    "Verif.C149_own_problem",
    "Verif.C149_default_problem",
    "Verif.C149_cached_problem_fails",
    "Verif.C149_cached_fails"
   ],
   "note": "The full claim is false. C149_options_partial proves it for a method with a dictionary that nothing else writes to. The counterexamples hold in every world: methods without options share the default argument (C149_shared_fails), the configuration is frozen into the dictionary by the first method (C149_frozen_fails), the user's dictionary is changed (C149_given_fails), a problem without options has the configuration itself (C149_problem_fails), options set after the first solution are ignored (C149_cached_fails)."
  },
  {
   "property": "C150",
   "status": "partial",
   "theorems": [
    "Verif.C150_options_partial",
    "Verif.C150_accepts",
    "Verif.C150_problem",
    "Verif.C150_decided_fails",
    "Verif.C150_unknown_fails"
   ],
   "note": "Proved for all options but two, with an exact condition for acceptance (C150_accepts, C150_problem). C150_decided_fails: the indirect method ignores the given initial guess heuristic, and a last control overrides last_control_as_parameter. C150_unknown_fails: unknown keywords are accepted without effect."
  },
  {
   "property": "C151",
   "status": "partial",
   "theorems": [
    "Verif.C151_update",
    "Verif.C151_downdate",
    "Verif.C151_sign",
    "Verif.C151_vector_fails"
   ],
   "note": "Proved for both signs (C151_update, C151_downdate, C151_sign) in exact arithmetic. C151_vector_fails: the vector given is overwritten, because its transpose is the same array."
  },
  {
   "property": "C152",
   "status": "partial",
   "theorems": [
    "Verif.C152_values_partial",
    "Verif.C152_third_fails",
    "Verif.C152_documented_fails",
    "Verif.C152_control_fails",
    "Verif.C152_returns",
    "Verif.C152_errors"
   ],
   "note": "Proved for the states and algebraic variables of a returned equilibrium and for models without controls (C152_values_partial, C152_returns). The claim for controls is false: C152_documented_fails, C152_control_fails, C152_third_fails."
  },
  {
   "property": "C153",
   "status": "partial",
   "theorems": [
    "Verif.C153_fails",
    "Verif.C153_keywords",
    "Verif.C153_error"
   ],
   "note": "The claim is false for every input: C153_fails, C153_error. There is no proved part."
  },
  {
   "property": "C154",
   "status": "proved",
   "theorems": [
    "Verif.C154_exponential",
    "Verif.C154_transition",
    "Verif.C154_shape",
    "Verif.C154_empty"
   ],
   "note": ""
  },
  {
   "property": "C155",
   "status": "partial",
   "theorems": [
    "Verif.C155_options",
    "Verif.C155_defaults",
    "Verif.C155_rejected",
    "Verif.C155_unchanged",
    "Verif.C155_interval_partial",
    "Verif.C155_interval_fails"
   ],
   "note": "Proved for options, defaults, rejections and unchanged dictionaries. The interval is the requested one only when the options of the user contain neither 'tf' nor 't0' (C155_interval_partial); an option 'tf' makes every interval of a list end at that time although the results are recorded at the requested times (C155_interval_fails)."
  },
  {
   "property": "C156",
   "status": "partial",
   "theorems": [
    "Verif.C156_lower_partial",
    "Verif.C156_restricted_partial",
    "Verif.C156_optimal_partial",
    "Verif.C156_near_partial",
    "Verif.C156_tag_fails",
    "Verif.C156_control_fails"
   ],
   "note": "Proved for relaxed algebraic equations, path equalities imposed at every point and bounds of states (C156_restricted_partial, C156_lower_partial, C156_near_partial: among trajectories in which the freed variables have values that controls can have; C156_optimal_partial: all trajectories, if controls can have any values at the points). Fails for path equalities tagged 'end' or 'initial': the relaxation ignores the tag and penalises the equation along the whole horizon, so a converged solution solves a more constrained problem (C156_tag_fails). Fails for controls that are constant on the elements, the default: the freed variable has to be constant on the elements too (C156_control_fails)."
  },
  {
   "property": "C157",
   "status": "partial",
   "theorems": [
    "Verif.C157_solves",
    "Verif.C157_returns",
    "Verif.C157_rejected",
    "Verif.C157_free",
    "Verif.C157_sizes_fails"
   ],
   "note": "C157_solves, C157_returns, C157_rejected and C157_free hold as stated. The sizes of the arguments are only checked in total: a vector of states that is too long and a vector of controls that is too short are accepted and the values go to other variables (C157_sizes_fails)."
  },
  {
   "property": "C158",
   "status": "partial",
   "theorems": [
    "Verif.C158_exact_partial",
    "Verif.C158_integral",
    "Verif.C158_radau",
    "Verif.C158_horizon",
    "Verif.C158_start_fails"
   ],
   "note": "Exactness is proved for horizons that start at zero and for problems that do not depend on the time (C158_exact_partial); the integrals (C158_integral, C158_radau, C158_horizon) hold as stated. For time-dependent problems over a horizon starting elsewhere the exact solution violates the discretised constraints, because the grid runs from zero (C158_start_fails; same defect as C51_grid_fails)."
  },
  {
   "property": "C159",
   "status": "partial",
   "theorems": [
    "Verif.C159_direct",
    "Verif.C159_functions",
    "Verif.C159_values",
    "Verif.C159_scope_fails",
    "Verif.C159_algebraic_fails"
   ],
   "note": "Proved in full for problems whose expressions use the symbols their functions take (C159_direct, C159_values). It fails for initial conditions that use the time, algebraic variables or parameters, final conditions and final costs that use the time or algebraic variables (C159_scope_fails), and for algebraic equations in a model without algebraic variables, which are dropped (C159_algebraic_fails). A function with free symbols raises at its creation in the model, at its evaluation in CasADi."
  },
  {
   "property": "C160",
   "status": "partial",
   "theorems": [
    "Verif.C160_shooting",
    "Verif.C160_functions",
    "Verif.C160_final_cost_fails"
   ],
   "note": "With cost_as_a_sum the user's final cost V is not part of the objective (multipleshooting.py:275-281): C160_final_cost_fails; C160_shooting states the objective for both settings. Path constraints tagged 'start' are rejected by multiple shooting (C53), so the theorem is for 'end' and 'default'. Exactness of the integrator is a hypothesis on the equations of the elements."
  },
  {
   "property": "C161",
   "status": "partial",
   "theorems": [
    "Verif.C161_solve",
    "Verif.C161_succeeds",
    "Verif.C161_again",
    "Verif.C161_state_size_fails",
    "Verif.C161_last_control_fails",
    "Verif.C161_limits_fails"
   ],
   "note": "C161_solve and C161_succeeds prove the property when the initial condition is a parameter (default), a last control is in the problem if changes are limited, and x_0 has an entry for the cost state. The failing cases are proved as C161_state_size_fails (x_0 of the user's own size: Exception), C161_last_control_fails (last_u given: ValueError) and C161_limits_fails (limits without last control: RuntimeError). The solver is a parameter (GoodSolver); the initial guess does not matter for the result."
  },
  {
   "property": "C162",
   "status": "partial",
   "theorems": [
    "Verif.C162_cycle",
    "Verif.C162_run",
    "Verif.C162_default_fails",
    "Verif.C162_last_control_fails",
    "Verif.C162_limits_fails"
   ],
   "note": "C162_cycle and C162_run prove the claim for include_cost_in_state_vector=True without last control and rate limits (controls at the collocation points of the states, or one piecewise constant control). The last sentence is false: C162_default_fails (Exception), C162_last_control_fails (ValueError), C162_limits_fails (RuntimeError in the first cycle); nothing is sent."
  },
  {
   "property": "C163",
   "status": "partial",
   "theorems": [
    "Verif.C163_decision",
    "Verif.C163_bound_partial",
    "Verif.C163_between",
    "Verif.C163_start_fails"
   ],
   "note": "C163_bound_partial needs a horizon that starts at 0, or no dependence on the time: otherwise C163_start_fails gives a problem whose discretised solutions all cost more than a representable trajectory (element times are counted from 0)."
  },
  {
   "property": "C164",
   "status": "partial",
   "theorems": [
    "Verif.C164_new",
    "Verif.C164_kept_partial",
    "Verif.C164_merge_partial",
    "Verif.C164_merge_time_fails",
    "Verif.C164_replace_fails",
    "Verif.C164_remove_fails"
   ],
   "note": "C164_new and C164_kept_partial: a new problem's costs and constraints mention only the time and its own variables, and every program of successful calls with in-scope arguments keeps that, as long as no call takes a variable away. C164_merge_partial: merging keeps it for problems whose costs and constraints do not mention the time and whose controls are not parametrised. It fails otherwise: C164_merge_time_fails (merge retimes the model but not the merged costs, which keep the time symbol of the other problem), C164_replace_fails (connect with replace=True rewrites the model only, the removed input stays in the costs) and C164_remove_fails (remove_control leaves the control in the costs). In each case the optimisation problem built from it has a free symbol."
  },
  {
   "property": "C165",
   "status": "partial",
   "theorems": [
    "Verif.C165_kept_partial",
    "Verif.C165_include_fails",
    "Verif.C165_remove_fails",
    "Verif.C165_connect_fails"
   ],
   "note": "C165_kept_partial covers every history of calls that does not include, remove or connect controls; merging keeps the sizes consistent. For the other three the claim is false of the code and is refuted for all problems: C165_include_fails, C165_remove_fails and C165_connect_fails (last_u is not touched by any of them, so its values are read for the wrong controls)."
  },
  {
   "property": "C166",
   "status": "partial",
   "theorems": [
    "Verif.C166_solve",
    "Verif.C166_succeeds",
    "Verif.C166_cost_state",
    "Verif.C166_cost_state_fails",
    "Verif.C166_again",
    "Verif.C166_state_size_fails",
    "Verif.C166_last_control_fails",
    "Verif.C166_limits_fails"
   ],
   "note": "C166_solve and C166_succeeds prove the property for an exact integrator (hypothesis ExactElements on the equations of the elements), with the initial condition as a parameter (default), a last control in the problem if changes are limited, and x_0 with an entry for the cost state. With cost_as_a_sum = True (not the default) the objective has no final cost (shotCost, C160_final_cost_fails) and x_c_final is 0: C166_cost_state_fails. The failing arguments are C166_state_size_fails, C166_last_control_fails and C166_limits_fails. Path constraints are enforced at the ends of the elements only, as in the code."
  },
  {
   "property": "C167",
   "status": "partial",
   "theorems": [
    "Verif.C167_construct",
    "Verif.C167_solve_partial",
    "Verif.C167_near_partial",
    "Verif.C167_no_iterations_fails",
    "Verif.C167_default_fails",
    "Verif.C167_last_control_fails"
   ],
   "note": "Proved for relaxed algebraic equations (not relaxed path equalities or state bounds), problems without a last control and without limits on control changes, controls that are polynomials through the collocation points or constant per element, no optimised parameters and positive_objective=False for the statement on the violations. Earlier calls have arguments that fit and good solvers. False as stated: by default (no_update_after_solving=True) the violations are never computed and the multipliers never updated (C167_default_fails); with max_iter=0 an UnboundLocalError is raised instead of the intended ValueError (C167_no_iterations_fails); with a last control of the problem every call raises (C167_last_control_fails)."
  },
  {
   "property": "C168",
   "status": "partial",
   "theorems": [
    "Verif.C168_rows",
    "Verif.C168_multiplicity",
    "Verif.C168_one_row_partial",
    "Verif.C168_empty_fails",
    "Verif.C168_no_data_fails",
    "Verif.C168_distributed",
    "Verif.C168_repeated_fails"
   ],
   "note": "Proved: the columns, which rows there are, the order, and the number of rows at each time for every dataset; one row per time when no entry repeats a time (C168_one_row_partial). False in general: entries with repeated times (the borders of finite elements in the results of collocation) multiply, so a result of n nodes has 2^n rows at each border (C168_repeated_fails). A dataset without named entries raises AttributeError (C168_empty_fails) and an entry created without data raises ValueError (C168_no_data_fails)."
  },
  {
   "property": "C169",
   "status": "partial",
   "theorems": [
    "Verif.C169_declared",
    "Verif.C169_variables",
    "Verif.C169_initial",
    "Verif.C169_equations_partial",
    "Verif.C169_equations_fails",
    "Verif.C169_remaining_fails",
    "Verif.C169_initial_fails",
    "Verif.C169_state_bounds_partial",
    "Verif.C169_state_bounds_fails",
    "Verif.C169_solve",
    "Verif.C169_shooting"
   ],
   "note": "The declared problem is stated and solved as declared for every accepted program (declared, initial, solve, shooting). Differential equations are shown to be those given with the states only for programs without later include_system_equations(ode=...) (equations_partial): later equations may replace given ones (equations_fails), and equations for the remaining states are rejected when the first state has one (remaining_fails). State bounds are as asked unless given as lists of several numbers (state_bounds_partial, state_bounds_fails: the list is passed as the size of a matrix). An h_initial given together with x_0 is dropped (initial_fails). Sizes are numbers (column variables)."
  },
  {
   "property": "C170",
   "status": "proved",
   "theorems": [
    "Verif.C170_same",
    "Verif.C170_other",
    "Verif.C170_independent",
    "Verif.C170_outcome",
    "Verif.C170_interleaved",
    "Verif.C170_read",
    "Verif.C170_needs_deep_copy"
   ],
   "note": ""
  },
  {
   "property": "C171",
   "status": "partial",
   "theorems": [
    "Verif.C171_check_partial",
    "Verif.C171_created_fails",
    "Verif.C171_fresh_fails"
   ],
   "note": "`is_valid` reads an attribute `objective` that no result has (the value is stored as `objective_opt_problem`), so on every result of a method it raises `AttributeError` (or `Exception` for a negative initial or final time, which is no defect of the result), and `TypeError` on a fresh result. It does what it says for results that were given an attribute `objective` by hand."
  },
  {
   "property": "C172",
   "status": "partial",
   "theorems": [
    "Verif.C172_iteration",
    "Verif.C172_inner",
    "Verif.C172_processes_partial",
    "Verif.C172_processes_fails",
    "Verif.C172_stop_fails"
   ],
   "note": "Proved for solves one after the other: one inner iteration and all inner iterations of an outer iteration, for every block choice and with failing solvers (C172_iteration, C172_inner). With processes it is proved when no two visited nodes are connected (C172_processes_partial) and false in general, even with connected nodes in different blocks (C172_processes_fails: all blocks start from the results before the iteration). The second half, that the loop stops only when the Lagrangian stops decreasing, is false (C172_stop_fails). A term of a connection is one function of the two results, as seen by both nodes; that the problems the method makes of the nodes have these costs is C177_node_partial."
  },
  {
   "property": "C173",
   "status": "partial",
   "theorems": [
    "Verif.C173_lagrangian",
    "Verif.C173_bound",
    "Verif.C173_optimal",
    "Verif.C173_solve_fails"
   ],
   "note": "Proved for an inner iteration that changes no result, with and without processes, cyclic blocks (C173_lagrangian, C173_bound, C173_optimal). That every solution returned by solve with small coupling errors is optimal is false: the outer test looks at the coupling errors only (C173_solve_fails)."
  },
  {
   "property": "C174",
   "status": "partial",
   "theorems": [
    "Verif.C174_same",
    "Verif.C174_unsolved_fails",
    "Verif.C174_unupdated_fails"
   ],
   "note": "Proved for all histories in which both ends are solved in every outer iteration and see the same coupling errors, for all penalty rules, with a common penalty set by the network or not (C174_same). False when one end is not solved in an outer iteration, possible with randomly chosen blocks (C174_unsolved_fails), and when one end has no successful solve and is therefore not updated (C174_unupdated_fails). Not covered: only_update_if_improve and the debug switches. That both ends see the same coupling error is C175."
  },
  {
   "property": "C175",
   "status": "partial",
   "theorems": [
    "Verif.C175_same_partial",
    "Verif.C175_multipliers_partial"
   ],
   "note": "Proved for nodes solved by collocation with degree_control equal to degree, without time-varying parameters of their own, connected through algebraic outputs, both solved in each outer iteration (C175_same_partial, C175_multipliers_partial). The restrictions are needed: with the default degree_control of 1 the vector told to the neighbour is too short (C147_points_fails), a connected state output is left out of the told values (C71_state_fails), and a node with parameters of its own is handled wrongly (C144_parameters_fails)."
  },
  {
   "property": "C176",
   "status": "partial",
   "theorems": [
    "Verif.C176_reported",
    "Verif.C176_solved_partial",
    "Verif.C176_same_partial"
   ],
   "note": "Proved for connections of one variable, equal penalties, and neighbours solved by collocation as in C175 (C176_solved_partial, C176_same_partial); that the reported value is told to the neighbours holds without these conditions (C176_reported). For several variables see C69_two_variables_fails, for the multipliers that are never used C70_never_used_fails."
  },
  {
   "property": "C177",
   "status": "partial",
   "theorems": [
    "Verif.C177_node_partial",
    "Verif.C177_descent_partial",
    "Verif.C177_optimal_partial"
   ],
   "note": "Proved for nodes whose connected inputs have no limits on their rates (they are lost, C144_rate_fails), with at least as many algebraic equations as path equalities and outputs (C144_outputs_fails), square, and told the values of their neighbours at the points (C175 shows when the code does that); optimality for convex nodes and cyclic blocks (C177_node_partial, C177_descent_partial, C177_optimal_partial). The differential equations, boundary conditions and path inequalities enter through any conditions on trajectories that do not depend on the new symbols. What is not proved: that the iterations reach such results. C180_nodes shows that collocation is such a discretisation and that nodes solved by direct methods solve their problems."
  },
  {
   "property": "C178",
   "status": "partial",
   "theorems": [
    "Verif.C178_solution_partial",
    "Verif.C178_distributed_partial",
    "Verif.C178_time_fails"
   ],
   "note": "Proved for networks with a name and mergeable problems (C106), nodes with their own symbols, connected inputs without limits on their rates (C144_rate_fails: they are lost), controls that may have any values at the points, and all schemes that treat equations one by one, among them all schemes with a differentiation matrix (C178_solution_partial, C178_distributed_partial, matrixScheme_modular). Time symbols of the nodes must have the value of the time: false for problems with time in a cost, because merging replaces the time symbol in the equations of the models only (C178_time_fails). Collocation with controls of the degree of the states is one of these schemes (C180_scheme, C180_network)."
  },
  {
   "property": "C179",
   "status": "partial",
   "theorems": [
    "Verif.C179_method_partial",
    "Verif.C179_nodes_partial",
    "Verif.C179_reuse_fails",
    "Verif.C179_default_fails",
    "Verif.C179_object_fails",
    "Verif.C179_unknown_rejected",
    "Verif.C179_keywords_fails",
    "Verif.C179_conflict_rejected"
   ],
   "note": "Proved for options given as a dictionary (or not at all) and solver options that do not ask for another degree or number of elements, for every program around the call. The rest is false: a dictionary of solver options used twice (C179_reuse_fails), distributed methods without al_options (C179_default_fails), one options object for two methods (C179_object_fails), options given as keywords (C179_keywords_fails)."
  },
  {
   "property": "C180",
   "status": "proved",
   "theorems": [
    "Verif.C180_points",
    "Verif.C180_best",
    "Verif.C180_solve",
    "Verif.C180_scheme",
    "Verif.C180_nodes",
    "Verif.C180_network"
   ],
   "note": "PointProblem states the restriction: no optimised parameters, no rate limits, positive_objective off, no path constraints tagged start, an initial condition that fixes the states (the default). Controls are constant in the elements or of the degree of the states (ControlsMatch); a network needs the latter. The node problems are solved by a direct method; the augmented Lagrangian that wraps it in the code for nodes is C174."
  },
  {
   "property": "C181",
   "status": "partial",
   "theorems": [
    "Verif.C181_cycle",
    "Verif.C181_run_partial",
    "Verif.C181_runs",
    "Verif.C181_hold",
    "Verif.C181_ramp_fails"
   ],
   "note": "C181_cycle, C181_run_partial and C181_runs prove the first part for problems with one control, constant in the elements, without time-varying parameters and last control, with at least two elements; the plant is described by its simulations (collocation with the points of the controller). The claim about controls of higher degree is false: C181_hold (the plant only uses the value of the control function at the start of the interval) and C181_ramp_fails (a linear control: every solution goes to 1/2, the plant stays at 0)."
  },
  {
   "property": "C182",
   "status": "partial",
   "theorems": [
    "Verif.C182_tail",
    "Verif.C182_decrease",
    "Verif.C182_costs",
    "Verif.C182_settles",
    "Verif.C182_loop",
    "Verif.C182_run_partial"
   ],
   "note": "C182_tail, C182_decrease, C182_costs, C182_settles and C182_loop hold for all problems; C182_run_partial composes them with the run of the controller and has the hypotheses of C181 (one control, constant in the elements). Existence of solutions of problems with allowed trajectories is a hypothesis."
  },
  {
   "property": "C183",
   "status": "partial",
   "theorems": [
    "Verif.C183_partial",
    "Verif.C183_law_partial",
    "Verif.C183_values_partial",
    "Verif.C183_stage_fails",
    "Verif.C183_limits_fails"
   ],
   "note": "Proved for Hamiltonians that are strictly convex quadratic functions of the controls with a Hessian that does not couple a control that has a bound with another control (with cross terms and bounds the law is not the minimiser, C127_fails), without cost state: the constraints of the program are exactly the collocated conditions of optimality and the objective is zero; the reported controls are the minimisers; such values exist for every decision vector. The full statement is false: the stage cost S has no effect on the program (C183_stage_fails), and with limits on the changes of the controls the discretisation raises an exception (C183_limits_fails). The given start has an entry per state and adjoint. The conditions do not include multipliers for path constraints or a stationarity condition for optimised parameters; the theorem states what the program is."
  },
  {
   "property": "C184",
   "status": "partial",
   "theorems": [
    "Verif.C184_solve_partial",
    "Verif.C184_succeeds_partial",
    "Verif.C184_objective_fails",
    "Verif.C184_again_partial",
    "Verif.C184_state_size_fails",
    "Verif.C184_bounds_fails"
   ],
   "note": "Proved (`C184_solve_partial`, `C184_succeeds_partial`, `C184_again_partial`) for collocation with `create_cost_state=False`, Hamiltonians that are strictly convex quadratic functions of the controls with a Hessian that does not couple a control that has a bound with another control, no limits on the changes of the controls, and the initial condition as a parameter. Not covered: multiple shooting, `create_cost_state=True`. False: the objective of a successful result is 0, not the cost of the user (`C184_objective_fails`), and an `x_0` of the size of the user's model makes `solve` raise (`C184_state_size_fails`): it must have one (ignored) entry per adjoint. The bounds of states and algebraic variables have no effect, because the constructor of the method removes them (`C184_bounds_fails`)."
  },
  {
   "property": "C185",
   "status": "partial",
   "theorems": [
    "Verif.C185_partial",
    "Verif.C185_continuous",
    "Verif.C185_controls_partial",
    "Verif.C185_degree_fails"
   ],
   "note": "Proved for strictly convex quadratic Hamiltonians without coupling of bounded controls, without stage costs and limits on the changes of controls, path constraints at the ends of elements, integrators that are exact; the controls of the result for at least two collocation points. False with one collocation point: get_system_at_given_times raises NotImplementedError for a control at the start of an element."
  },
  {
   "property": "C186",
   "status": "partial",
   "theorems": [
    "Verif.C186_solve_partial",
    "Verif.C186_succeeds_partial",
    "Verif.C186_objective_fails",
    "Verif.C186_degree_fails",
    "Verif.C186_again_partial"
   ],
   "note": "C186_solve_partial and C186_succeeds_partial hold for problems without a cost state whose Hamiltonian is strictly convex and quadratic in the controls, with no coupling between a bounded control and another one. C186_objective_fails: the objective of a successful result is 0, whatever the cost. C186_degree_fails: with one collocation point, solve raises NotImplementedError after the solver has run. Missing: coupled Hessians with bounds, the cost state, stage costs, limits on the change of controls."
  },
  {
   "property": "C187",
   "status": "partial",
   "theorems": [
    "Verif.C187_extremal_partial",
    "Verif.C187_solve_partial",
    "Verif.C187_choice_fails",
    "Verif.C187_parameters_fails"
   ],
   "note": "C187_extremal_partial: an extremal along which the Hamiltonian is convex is optimal among all trajectories of the declared problem in continuous time; C187_solve_partial: the controls a successful solve shows are those of such a trajectory. C187_parameters_fails and C187_choice_fails: parameters that are to be found are not optimised, every value for which there is an extremal is a result. Missing: path constraints and state bounds in the competing trajectories (the indirect method ignores bounds of states, C184_bounds_fails), coupled Hessians with bounds, the cost state, stage costs, limits on the change of controls, collocation."
  },
  {
   "property": "C188",
   "status": "partial",
   "theorems": [
    "Verif.C188_direct_partial",
    "Verif.C188_shooting_fails",
    "Verif.C188_indirect_fails"
   ],
   "note": "False. With multiple shooting every run raises in the first iteration, whatever the method, plant and estimator: the discretiser has no `repack_decision_variables`, which the controller calls to prepare the next guess (C188_shooting_fails). With an indirect method every run raises, because `solve` asks for initial values of the adjoints, which it added to the states of the model (C188_indirect_fails, for estimates of the size of the user's model and include_cost_in_state_vector False). Nothing is sent to the plant. Holds for direct collocation from a new plant (C188_direct_partial, include_cost_in_state_vector True; False raises, see C162)."
  },
  {
   "property": "C189",
   "status": "partial",
   "theorems": [
    "Verif.C189_direct_fails",
    "Verif.C189_shooting_fails",
    "Verif.C189_indirect_fails",
    "Verif.C189_shoot_indirect_fails",
    "Verif.C189_direct_partial",
    "Verif.C189_shooting_partial",
    "Verif.C189_indirect_partial",
    "Verif.C189_shoot_indirect_partial",
    "Verif.C189_infeasible_fails"
   ],
   "note": "False. The nonlinear program of the first call is kept: once a call of `solve` has returned, changes of equations, bounds, rate limits, constraints, costs and guesses have no effect on further calls, for all four combinations of method and discretiser (C189_direct_fails, C189_shooting_fails, C189_indirect_fails, C189_shoot_indirect_fails; the functions that make initial guesses are parameters of the calls). A problem that the change makes infeasible is still reported as solved (C189_infeasible_fails). A changed initial state is honoured (the _partial theorems). Changes of the horizon or of the variables are not covered."
  },
  {
   "property": "C190",
   "status": "proved",
   "theorems": [
    "Verif.C190_loop",
    "Verif.C190_enough",
    "Verif.C190_direct"
   ],
   "note": "C190_loop gives the number of iterations and the bounds of the cost for the loop with any optimal solver of the relaxed problem, from any multipliers and positive penalties; C190_enough says for a new object that some number of iterations is enough. C190_direct connects it with the real solves: for a direct method with collocation, relaxed algebraic equations, affine and convex expressions and a solver of the nonlinear programs that finds the solutions that exist, a call of solve succeeds within that number of iterations and returns trajectories with these bounds."
  },
  {
   "property": "C191",
   "status": "proved",
   "theorems": [
    "Verif.C191_local",
    "Verif.C191_solve",
    "Verif.C191_succeeds"
   ],
   "note": "C191_local is about trajectories of the discretised problem, C191_solve and C191_succeeds about solve with a direct method and collocation. Convexity is a condition on the expressions (affine or convex in everything that is not given). Limits on the changes of the controls are allowed."
  },
  {
   "property": "C192",
   "status": "partial",
   "theorems": [
    "Verif.C192_fails",
    "Verif.C192_polynomials_fails",
    "Verif.C192_mixed_fails"
   ],
   "note": "False. The variables freed by the relaxation are controls of the relaxed problem, and the controller takes all controls of the result for controls of the plant. Unless the number of values per element happens to fit, every run raises and nothing is sent (C192_fails); so it is for polynomial controls, the default (C192_polynomials_fails). With one control that is constant per element and a fitting number of relaxed equations the run goes on, and the plant gets the values of the freed algebraic variables at the later collocation points (C192_mixed_fails). Proved for relaxed algebraic equations and estimates of the size of the plant's state with include_cost_in_state_vector True."
  },
  {
   "property": "C193",
   "status": "partial",
   "theorems": [
    "Verif.C193_dictionary",
    "Verif.C193_unchanged_fails",
    "Verif.C193_reuse_partial",
    "Verif.C193_fails"
   ],
   "note": "False: absent references are filled in the caller's dictionary with the sizes of the first problem (C193_unchanged_fails); weights given as numbers fit every problem, but after a call for a problem with two or more states they are rejected by a problem with another number of states (C193_fails). C193_reuse_partial: for equal sizes, or when the references are given, nothing changes for later calls."
  },
  {
   "property": "C194",
   "status": "partial",
   "theorems": [
    "Verif.C194_partial",
    "Verif.C194_new",
    "Verif.C194_fails"
   ],
   "note": "False: the symbols given are not looked up in the model. A foreign symbol has no index, so a parameter declared after it receives the value of the foreign symbol's decision variable (C194_fails). C194_partial: the invariant holds in every history in which only parameters of the model are declared and no failing merge is ignored."
  },
  {
   "property": "C195",
   "status": "partial",
   "theorems": [
    "Verif.C195_partial",
    "Verif.C195_fails",
    "Verif.C195_elements_fails"
   ],
   "note": "False as stated: the breakpoints are kept after the first reading, the length of an element is not (`C195_fails` for every other end of the horizon, `C195_elements_fails` for every other number of elements). Proved for histories in which every assignment comes before the first reading (`C195_partial`). Changes of the degree are not modelled: the points inside an element are a parameter."
  },
  {
   "property": "C196",
   "status": "proved",
   "theorems": [
    "Verif.C196_local",
    "Verif.C196_solve",
    "Verif.C196_succeeds"
   ],
   "note": "Convex problems for multiple shooting without optimised parameters and with positive_objective=False; limits on the changes of the controls are allowed. The integrator is exact (ExactElements), the running cost is continuous along mixtures of two trajectories (SteadyCost, met when the cost is a continuous expression of continuous signals), and the solver returns local solutions whenever it reports success."
  },
  {
   "property": "C197",
   "status": "partial",
   "theorems": [
    "Verif.C197_fails",
    "Verif.C197_turns_partial",
    "Verif.C197_unshared_partial"
   ],
   "note": "False: a new pickler replaces the serializer of the sender, but nothing replaces the deserializer of the receiver, which keeps the parts of earlier messages; of two messages in succession the second one arrives without an error and with a symbol of the first one in place of its own repeated symbol (C197_fails). C197_turns_partial: when no process sends twice in succession every message arrives as sent. C197_unshared_partial: so does every message in which no part occurs twice. Assumed of CasADi: a StringSerializer writes a shared part once and then its position in the order of first writing, a StringDeserializer looks positions up among the parts it has read, and encode and decode keep these tables; the same object occurring twice in a message, which pickle itself remembers, is outside the model. That multiprocessing uses the replaced pickler class is assumed too."
  },
  {
   "property": "C198",
   "status": "partial",
   "theorems": [
    "Verif.C198_same_fails",
    "Verif.C198_fails",
    "Verif.C198_partial",
    "Verif.C198_accepts_partial",
    "Verif.C198_single"
   ],
   "note": "False: left-hand sides and right-hand sides are put together first and only the totals are compared. Two equations that do not fit but fit in total are accepted, and a state of one gets an entry of the other (C198_fails, C198_same_fails). Proved for equations whose sides fit (C198_partial, C198_accepts_partial); a single equation that does not fit is rejected (C198_single)."
  },
  {
   "property": "C199",
   "status": "partial",
   "theorems": [
    "Verif.C199_ignored_fails",
    "Verif.C199_alone_fails",
    "Verif.C199_fails",
    "Verif.C199_both_fails",
    "Verif.C199_twice_fails",
    "Verif.C199_taken",
    "Verif.C199_partial"
   ],
   "note": "False: an argument that is not an equation is ignored wherever it stands (C199_ignored_fails, C199_alone_fails); every rejected call has already added its algebraic equations (C199_fails), which are in the model twice after the repaired call (C199_twice_fails); equations in equation form stay when those given as ode= are rejected (C199_both_fails). Proved: what a successful call adds (C199_taken), and that rejected calls without algebraic equations and with differential equations in one form only change nothing (C199_partial). Arguments in equation form are scalar equalities, or der(x) == f of any size."
  },
  {
   "property": "C200",
   "status": "partial",
   "theorems": [
    "Verif.C200_unscented_fails",
    "Verif.C200_extended_fails",
    "Verif.C200_chaos_fails",
    "Verif.C200_guess_partial",
    "Verif.C200_samples_partial"
   ],
   "note": "False: no call of any of the three constructors returns. The unscented filter raises KeyError for every model and all arguments (C200_unscented_fails), the extended one AttributeError (C200_extended_fails) and the one with polynomial chaos KeyError (C200_chaos_fails), also in examples/mpc_example.py. Proved: the exact conditions for ValueError (C200_guess_partial, C200_samples_partial). The claims on what filters compute (C124-C126 and others) are about their algebra, from an object as the constructor would leave it."
  },
  {
   "property": "C201",
   "status": "partial",
   "theorems": [
    "Verif.C201_first",
    "Verif.C201_fails",
    "Verif.C201_shared_fails",
    "Verif.C201_partial",
    "Verif.C201_raised_partial"
   ],
   "note": "False: the first data set that could be built is kept, so assignments after a successful reading do not show (C201_fails), and changes of the data set read are in every later reading (C201_shared_fails). C201_first says exactly what a reading gives after any history of readings and assignments. Proved: assignments before the first reading (C201_partial) and after readings that raised (C201_raised_partial). What to_dataset() returns is the subject of C84."
  },
  {
   "property": "C202",
   "status": "partial",
   "theorems": [
    "Verif.C202_fails",
    "Verif.C202_vector_fails",
    "Verif.C202_partial",
    "Verif.C202_plain_fails",
    "Verif.C202_single"
   ],
   "note": "False for names with underscores: a model's variable can have the name of another model's variable (C202_fails), and an entry of a vector that of a single variable of the same model (C202_vector_fails). Without the prefix, models share names (C202_plain_fails). Proved for names without underscores (C202_partial) and for single variables of one model (C202_single). Assumed of CasADi: SX.sym(name, size) names the entries name_0, name_1, ... unless there is exactly one. The symbols of initial conditions (name_0_sym) are not included."
  },
  {
   "property": "C203",
   "status": "partial",
   "theorems": [
    "Verif.C203_fails",
    "Verif.C203_point",
    "Verif.C203_partial",
    "Verif.C203_saved",
    "Verif.C203_race_fails",
    "Verif.C203_same_fails",
    "Verif.C203_gap_fails",
    "Verif.C203_lost_fails",
    "Verif.C203_race_partial"
   ],
   "note": "False: open(path, 'wb+') empties the file before anything is written, so the earlier data set is lost when the process is stopped (C203_fails); of two processes that find the directory missing one raises FileExistsError (C203_race_fails); two processes that save to one file can both end without an exception and leave one data set followed by the end of the other (C203_same_fails), or zeros in place of the beginning (C203_gap_fails), or an empty file (C203_lost_fails). Proved: what the file holds at every point, and that other files are untouched (C203_point), that loading never gives another data set if no proper beginning of a pickle can be loaded (C203_partial; pickles end with a stop sign), that an uninterrupted call saves everything (C203_saved), and that processes with different files do not disturb each other when the directory is there (C203_race_partial). Not modelled: removal of the directory, disk errors, and the order in which the operating system brings writes to the disk."
  },
  {
   "property": "C204",
   "status": "partial",
   "theorems": [
    "Verif.C204_partial",
    "Verif.C204_cancelled",
    "Verif.C204_fails",
    "Verif.C204_inner_fails",
    "Verif.C204_blame_fails",
    "Verif.C204_zero_fails"
   ],
   "note": "False with timeout blocks inside: the process has one alarm, which an inner block takes and cancels, so afterwards the outer limit is not in force (C204_fails), nor during the inner block (C204_inner_fails); an interrupted inner block ends the outer one before its time (C204_blame_fails). A limit of zero seconds is no limit (C204_zero_fails). Proved for code without inner blocks, with the exact time and outcome (C204_partial), and that no alarm is left after any block (C204_cancelled). Time is in whole seconds; handlers run as soon as the alarm rings."
  }
 ]
}