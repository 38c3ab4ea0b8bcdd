{
 "claims": [
  {
   "property": "C01",
   "status": "proved",
   "theorems": [
    "Verif.Argument.C01_names",
    "Verif.Argument.C01_unique",
    "Verif.Argument.C01_collision_with_explicit_name"
   ],
   "note": "Arbitrary creation histories of Parameters and Variables. C01_collision_with_explicit_name shows the limit: an explicit name may equal a generated one."
  },
  {
   "property": "C02",
   "status": "proved",
   "theorems": [
    "Verif.Argument.C02_raises_iff",
    "Verif.Argument.C02_attributes",
    "Verif.Argument.C02_ordered"
   ],
   "note": "Constructor over any linear order, all combinations of min/max/fixed."
  },
  {
   "property": "C03",
   "status": "partial",
   "theorems": [
    "Verif.Argument.C03_distributes",
    "Verif.Argument.C03_wrong_length",
    "Verif.Argument.C03_ordered_partial",
    "Verif.Argument.C03_mixed_bounds_not_validated",
    "Verif.Argument.C03_iterator_bounds_lost",
    "Verif.Argument.C03_iterators_lost"
   ],
   "note": "Full claim (no crossed bounds from parameters()) is FALSE of the code when one bound is a sequence and the other a scalar (C03_mixed_bounds_not_validated), and bounds given as bare iterators are lost (C03_iterator_bounds_lost). Proved: distribution, wrong lengths, and the ordering in all other cases."
  },
  {
   "property": "C04",
   "status": "proved",
   "theorems": [
    "Verif.Argument.C04_eq_iff",
    "Verif.Argument.C04_equivalence",
    "Verif.Argument.C04_hash",
    "Verif.Argument.C04_constructed_boundsSet",
    "Verif.Argument.C04_crossed_fixed_not_comparable"
   ],
   "note": "Finding inside: a fixed Parameter constructed with crossed bounds has no bounds and can not be compared (C04_crossed_fixed_not_comparable); constructed, uncrossed Parameters always can."
  },
  {
   "property": "C05",
   "status": "proved",
   "theorems": [
    "Verif.Argument.C05_pickle"
   ],
   "note": "Round trip of __getstate__/__setstate__, unset attributes included."
  },
  {
   "property": "C06",
   "status": "proved",
   "theorems": [
    "Verif.C06_raises_iff",
    "Verif.C06_partition",
    "Verif.C06_deterministic",
    "Verif.C06_order_matters_for_equal_names"
   ],
   "note": "For every set-iteration order. C06_order_matters_for_equal_names shows why distinct names are needed."
  },
  {
   "property": "C07",
   "status": "proved",
   "theorems": [
    "Verif.Support.C07_reads",
    "Verif.Support.C07_raises_and_deletes",
    "Verif.Support.C07_failure_caches_nothing"
   ],
   "note": "Arbitrary histories of reads and deletes, with functions that have side effects and may raise."
  },
  {
   "property": "C08",
   "status": "partial",
   "theorems": [
    "Verif.C08_first_order_partial",
    "Verif.C08_same_component_partial",
    "Verif.C08_any_order_partial",
    "Verif.C08_not_plain_name",
    "Verif.C08_symbols_partial",
    "Verif.C08_collision",
    "Verif.C08_collision_second_order"
   ],
   "note": "Full claim is FALSE: C08_collision, C08_collision_second_order (two derivatives with one name). Proved: injectivity for first order without underscores, for one component, and any order for restricted names."
  },
  {
   "property": "C09",
   "status": "proved",
   "theorems": [
    "Verif.Support.C09_lookup",
    "Verif.Support.C09_order"
   ],
   "note": "All target dicts."
  },
  {
   "property": "C10",
   "status": "proved",
   "theorems": [
    "Verif.Support.C10_value_iff",
    "Verif.Support.C10_ambiguous_names",
    "Verif.Support.C10_irrelevant_names"
   ],
   "note": "All calls, positional and named, with any extra names."
  },
  {
   "property": "C11",
   "status": "proved",
   "theorems": [
    "Verif.C11_circular_iff",
    "Verif.C11_constructs_iff",
    "Verif.C11_same_names",
    "Verif.C11_order"
   ],
   "note": "All finite model dicts of ordinary expressions, whatever the names; toposort is modelled as the library's algorithm. Two symbols a call takes values for with the same name: ValueError (C11_same_names)."
  },
  {
   "property": "C12",
   "status": "proved",
   "theorems": [
    "Verif.C12_members",
    "Verif.C12_params",
    "Verif.C12_sorted_disjoint",
    "Verif.C12_cover"
   ],
   "note": "For every hash order."
  },
  {
   "property": "C13",
   "status": "proved",
   "theorems": [
    "Verif.C13_order_independent"
   ],
   "note": "For every pair of hash orders and every permutation of the model dict."
  },
  {
   "property": "C14",
   "status": "partial",
   "theorems": [
    "Verif.C14_unused_not_dependent",
    "Verif.C14_longest_chain_partial",
    "Verif.C14_flat_partial",
    "Verif.C14_constants_only"
   ],
   "note": "Full claim is FALSE: in {y: a*x, z: w**2, w: b*x} the unused component y is not a dependent variable (C14_unused_not_dependent); constant models can not be constructed (C14_constants_only). Proved: exact characterisation (ends of longest chains) and the claim for models whose components do not use each other."
  },
  {
   "property": "C15",
   "status": "partial",
   "theorems": [
    "Verif.C15_dependent_parameter_partial",
    "Verif.C15_constant_parameter_accepted"
   ],
   "note": "Full claim is FALSE for constant expressions: Model({a: 5, y: a*x}) is accepted with a as component and parameter (C15_constant_parameter_accepted). Proved: rejected whenever its expression has dependencies."
  },
  {
   "property": "C16",
   "status": "proved",
   "theorems": [
    "Verif.C16_call_solves",
    "Verif.C16_output_of_solution",
    "Verif.C16_self_reference_key_error",
    "Verif.C16_elementwise",
    "Verif.C16_point_values_exist"
   ],
   "note": "Scalars (any value type with an interpretation of expressions) and numpy arrays with broadcasting, element-wise. A self-referencing component gives KeyError (C16_self_reference_key_error)."
  },
  {
   "property": "C17",
   "status": "proved",
   "theorems": [
    "Verif.C17_order_independent"
   ],
   "note": "For every two evaluation orders allowed by the hash order."
  },
  {
   "property": "C18",
   "status": "proved",
   "theorems": [
    "Verif.C18_calls_agree",
    "Verif.C18_any_split",
    "Verif.C18_bad_calls",
    "Verif.C18_bad_calls_spelled"
   ],
   "note": "All splits of the arguments into positional and named, and exactly which calls raise."
  },
  {
   "property": "C19",
   "status": "proved",
   "theorems": [
    "Verif.C19_views_agree",
    "Verif.C19_unknown_attribute",
    "Verif.C19_model_call",
    "Verif.C19_pickle"
   ],
   "note": "Index, name, attribute, dict and iteration views; pickling of the namedtuple-like output."
  },
  {
   "property": "C20",
   "status": "partial",
   "theorems": [
    "Verif.C20_same_arguments",
    "Verif.C20_jacobian_partial",
    "Verif.C20_two_levels_supported",
    "Verif.C20_absent_zero",
    "Verif.C20_arrays_partial",
    "Verif.C20_jac_evaluated_partial"
   ],
   "note": "Proved with Mathlib's HasDerivAt for every model whose jacobian is in the modelled part of sympy: all models in which components used by others do not use components themselves (C20_two_levels_supported), and deeper ones whose derivatives do not pass through a function of a function. Missing: derivatives with respect to an undefined function (three-level models), where sympy's own representation is outside the model."
  },
  {
   "property": "C21",
   "status": "partial",
   "theorems": [
    "Verif.C21_same_arguments",
    "Verif.C21_hessian_partial",
    "Verif.C21_absent_zero",
    "Verif.C21_hess_evaluated_partial"
   ],
   "note": "As C20; symmetric by proof, not by assumption."
  },
  {
   "property": "C22",
   "status": "proved",
   "theorems": [
    "Verif.C22_negation",
    "Verif.C22_double_negation",
    "Verif.C22_numerical_neg_raises"
   ],
   "note": "Includes the finding that -CallableNumericalModel raises TypeError (C22_numerical_neg_raises)."
  },
  {
   "property": "C23",
   "status": "partial",
   "theorems": [
    "Verif.C23_equivalence_partial",
    "Verif.C23_large_never_equal",
    "Verif.C23_sound",
    "Verif.C23_not_reflexive",
    "Verif.C23_arguments_may_differ"
   ],
   "note": "Reflexivity is FALSE beyond 256 components, because lengths are compared with `is` (C23_large_never_equal). Symmetry, transitivity and soundness proved without restriction; sympy's expand is an arbitrary value-preserving function."
  },
  {
   "property": "C24",
   "status": "proved",
   "theorems": [
    "Verif.C24_sign_convention",
    "Verif.Minimizers.C24_scipy",
    "Verif.Minimizers.C24_raw_le_fails",
    "Verif.Minimizers.C24_model_accepted"
   ],
   "note": "as_constraint, and what scipy is given (C24_scipy). Finding C24_raw_le_fails: a <= relation given directly to a minimizer is never accepted."
  },
  {
   "property": "C25",
   "status": "proved",
   "theorems": [
    "Verif.C25_accepted_iff",
    "Verif.C25_scalar",
    "Verif.C25_components_rejected"
   ],
   "note": "Exact condition for acceptance."
  },
  {
   "property": "C26",
   "status": "proved",
   "theorems": [
    "Verif.C26_component_values"
   ],
   "note": "Constraints on interdependent components evaluate these components."
  },
  {
   "property": "C27",
   "status": "proved",
   "theorems": [
    "Verif.C27_bound",
    "Verif.C27_unacceptable",
    "Verif.C27_keyword_order",
    "Verif.C27_same_names"
   ],
   "note": "All combinations of positional and named data, None included; clashing names raise ValueError (C27_same_names)."
  },
  {
   "property": "C28",
   "status": "partial",
   "theorems": [
    "Verif.C28_weights_partial",
    "Verif.C28_weight_shape",
    "Verif.C28_scalar_data_fails"
   ],
   "note": "Full claim is FALSE for a Python number as dependent data (C28_scalar_data_fails: AttributeError). Proved for arrays, None and scalar sigma."
  },
  {
   "property": "C29",
   "status": "proved",
   "theorems": [
    "Verif.C29_absolute_sigma"
   ],
   "note": "All inputs."
  },
  {
   "property": "C30",
   "status": "proved",
   "theorems": [
    "Verif.C30_objective"
   ],
   "note": "All inputs, user-chosen objectives included."
  },
  {
   "property": "C31",
   "status": "proved",
   "theorems": [
    "Verif.C31_minimizer"
   ],
   "note": "All models and parameters; the value actually used by execute is in C75_default_class."
  },
  {
   "property": "C32",
   "status": "proved",
   "theorems": [
    "Verif.C32_bounds",
    "Verif.C32_constructed"
   ],
   "note": "nextafter is abstract (class NextAfter, neighbour towards zero); instance: integers."
  },
  {
   "property": "C33",
   "status": "proved",
   "theorems": [
    "Verif.C33_value",
    "Verif.C33_unflattened_fails",
    "Verif.C33_nonneg_zero",
    "Verif.C33_unflattened_raises"
   ],
   "note": "Any ordered field, any shapes that broadcast to the data. flatten_components=False raises TypeError (C33_unflattened_fails, C33_unflattened_raises)."
  },
  {
   "property": "C34",
   "status": "partial",
   "theorems": [
    "Verif.C34_no_data",
    "Verif.C34_gradient_partial",
    "Verif.C34_gradient_of_call_partial",
    "Verif.C34_symbolic_partial"
   ],
   "note": "FALSE without dependent data (C34_no_data) and for jacobians whose shape is mistaken for that of the data (C42_misread_jacobian). Proved otherwise with HasDerivAt, in terms of calls, and from the expressions of a symbolic model."
  },
  {
   "property": "C35",
   "status": "partial",
   "theorems": [
    "Verif.C35_jac_approx",
    "Verif.C35_hessian_partial",
    "Verif.C35_symbolic_partial"
   ],
   "note": "As C34."
  },
  {
   "property": "C36",
   "status": "partial",
   "theorems": [
    "Verif.C36_different_shapes",
    "Verif.C36_half_sum_partial",
    "Verif.C36_finding_lengths"
   ],
   "note": "FALSE for data of different shapes (C36_different_shapes; C36_finding_lengths: ValueError for data sets of different lengths); proved for data of one shape."
  },
  {
   "property": "C37",
   "status": "partial",
   "theorems": [
    "Verif.C37_jacobian_partial"
   ],
   "note": "As C36; where the residual is zero the entry is 0 (not differentiable)."
  },
  {
   "property": "C38",
   "status": "proved",
   "theorems": [
    "Verif.C38_consistent"
   ],
   "note": "Value -sum(log f), gradient and Hessian via HasDerivAt. np.nansum is modelled as sum (no NaN in the model's numbers)."
  },
  {
   "property": "C39",
   "status": "proved",
   "theorems": [
    "Verif.C39_passes_through",
    "Verif.C39_vector_rejected"
   ],
   "note": "And a vector-valued model is rejected."
  },
  {
   "property": "C40",
   "status": "proved",
   "theorems": [
    "Verif.C40_free_params",
    "Verif.C40_arguments"
   ],
   "note": "All splits of the arguments; also for constraints."
  },
  {
   "property": "C41",
   "status": "proved",
   "theorems": [
    "Verif.C41_construction",
    "Verif.C41_components_match_data"
   ],
   "note": "All models and data."
  },
  {
   "property": "C42",
   "status": "partial",
   "theorems": [
    "Verif.C42_misread_jacobian",
    "Verif.C42_mismatch",
    "Verif.C42_shapes_partial"
   ],
   "note": "FALSE if the jacobian of a component has the shape of the data (C42_misread_jacobian); proved otherwise."
  },
  {
   "property": "C43",
   "status": "proved",
   "theorems": [
    "Verif.Minimizers.C43_packed"
   ],
   "note": "All masks of fixed parameters and all vectors; wrong lengths raise."
  },
  {
   "property": "C44",
   "status": "partial",
   "theorems": [
    "Verif.Minimizers.C44_jacobian",
    "Verif.Minimizers.C44_minpack",
    "Verif.Minimizers.C44_least_squares_partial"
   ],
   "note": "C44_jacobian and C44_minpack are unconditional; C44_least_squares_partial inherits the restrictions of C34."
  },
  {
   "property": "C45",
   "status": "partial",
   "theorems": [
    "Verif.Minimizers.C45_diagonal",
    "Verif.Minimizers.C45_block_partial",
    "Verif.Minimizers.C45_wrong",
    "Verif.Minimizers.C45_example"
   ],
   "note": "FALSE: out[mask, mask] picks the diagonal (C45_diagonal, C45_wrong, C45_example). Proved for exactly one free parameter."
  },
  {
   "property": "C46",
   "status": "partial",
   "theorems": [
    "Verif.Minimizers.C46_names",
    "Verif.Minimizers.C46_options_partial",
    "Verif.Minimizers.C46_name_clash"
   ],
   "note": "FALSE if a user-defined class is called like BFGS_2 (C46_name_clash). Proved otherwise."
  },
  {
   "property": "C47",
   "status": "partial",
   "theorems": [
    "Verif.Minimizers.C47_chain",
    "Verif.Minimizers.C47_uncounted",
    "Verif.Minimizers.C47_starts_partial",
    "Verif.Minimizers.C47_fixed_parameters",
    "Verif.Minimizers.C47_example"
   ],
   "note": "FALSE with fixed parameters: every minimizer but the first is started at a vector of the wrong length (C47_fixed_parameters, C47_example), and a chain with a minimizer that reports no iterations always raises TypeError (C47_uncounted). Proved: general description, and the claim if all parameters are free."
  },
  {
   "property": "C48",
   "status": "partial",
   "theorems": [
    "Verif.Minimizers.C48_constraints_partial",
    "Verif.Minimizers.C48_single_partial",
    "Verif.Minimizers.C48_last_hessian",
    "Verif.Minimizers.C48_example"
   ],
   "note": "FALSE: late binding of the loop variable, all constraints get the hessian of the last (C48_last_hessian, C48_example). Proved: functions, jacobians, bounds; and the single constraint."
  },
  {
   "property": "C49",
   "status": "proved",
   "theorems": [
    "Verif.Minimizers.C49_bounds",
    "Verif.Minimizers.C49_minpack"
   ],
   "note": "All parameter lists; also the two lists for MINPACK."
  },
  {
   "property": "C50",
   "status": "proved",
   "theorems": [
    "Verif.Results.C50_addressed",
    "Verif.Results.C50_params",
    "Verif.Results.C50_no_covariance",
    "Verif.Results.C50_symmetric",
    "Verif.Results.C50_unknown"
   ],
   "note": "By Parameter, covariance symmetric, unknown parameters raise."
  },
  {
   "property": "C51",
   "status": "partial",
   "theorems": [
    "Verif.Results.C51_least_squares",
    "Verif.Results.C51_log_likelihood",
    "Verif.Results.C51_absent",
    "Verif.Results.C51_likelihood_pos",
    "Verif.Results.C51_vector_partial"
   ],
   "note": "chi_squared of a VectorLeastSquares fit is chi^2 only for data of one shape (see C36). Everything else proved."
  },
  {
   "property": "C52",
   "status": "proved",
   "theorems": [
    "Verif.Results.C52_value",
    "Verif.Results.C52_range",
    "Verif.C52_axes_disagree"
   ],
   "note": "Finding: r_squared aligns axes differently from the objectives (C52_axes_disagree)."
  },
  {
   "property": "C53",
   "status": "partial",
   "theorems": [
    "Verif.Results.C53_equal_shapes",
    "Verif.Results.C53_scaled_inverse_partial",
    "Verif.Results.C53_covariance_partial",
    "Verif.Results.C53_rescale",
    "Verif.C53_symbolic_setup"
   ],
   "note": "Degrees of freedom are FALSE for components with data of equal shape: shapes are collected in a set (C53_equal_shapes). Proved: scaled inverse of the hessian otherwise; behaviour under rescaling of sigmas in all cases."
  },
  {
   "property": "C54",
   "status": "partial",
   "theorems": [
    "Verif.Results.C54_fallback_partial",
    "Verif.Results.C54_no_hessian",
    "Verif.Results.C54_log_likelihood"
   ],
   "note": "As C53."
  },
  {
   "property": "C55",
   "status": "partial",
   "theorems": [
    "Verif.C55_columns_partial",
    "Verif.C55_not_requested",
    "Verif.C55_succeeds",
    "Verif.C55_at_initial_time",
    "Verif.C55_single_time",
    "Verif.C55_single_succeeds",
    "Verif.C55_initial_time_array",
    "Verif.C55_no_times",
    "Verif.C55_python_list",
    "Verif.C55_unsorted_rejected",
    "Verif.C55_solution_partial",
    "Verif.C55_solution_at_one_time",
    "Verif.C55_finding_reordered",
    "Verif.C55_finding_wrong_start",
    "Verif.C55_finding_initial_time",
    "Verif.C55_finding_unsorted"
   ],
   "note": "FALSE for unsorted times, times on both sides of the initial time, an array with only the initial time, Python lists (findings C55_finding_*). Proved: for increasing times and single times, with an accurate integrator."
  },
  {
   "property": "C56",
   "status": "proved",
   "theorems": [
    "Verif.C56_finding_second_order",
    "Verif.C56_construct",
    "Verif.C56_order_independent",
    "Verif.C56_one_time",
    "Verif.C56_options",
    "Verif.C56_system",
    "Verif.C56_problem",
    "Verif.C56_missing_initial",
    "Verif.C56_parameter_as_initial_time",
    "Verif.C56_second_order_ignored",
    "Verif.C56_jacobian"
   ],
   "note": "Second-order derivatives are silently read as first order (C56_finding_second_order, C56_second_order_ignored)."
  },
  {
   "property": "C57",
   "status": "proved",
   "theorems": [
    "Verif.C57_step_ne_zero",
    "Verif.C57_array_values",
    "Verif.C57_central_difference",
    "Verif.C57_exact",
    "Verif.C57_symbolic",
    "Verif.C57_no_parameters"
   ],
   "note": "Any field of characteristic zero; polynomials of degree at most six."
  },
  {
   "property": "C58",
   "status": "proved",
   "theorems": [
    "Verif.C58_error",
    "Verif.C58_symbolic",
    "Verif.C58_jacobian"
   ],
   "note": "Taylor with Lagrange remainder over the reals; rounding not modelled."
  },
  {
   "property": "C59",
   "status": "proved",
   "theorems": [
    "Verif.C59_gaussian",
    "Verif.C59_formula",
    "Verif.C59_smooth"
   ],
   "note": "Lebesgue integral over the reals via Mathlib."
  },
  {
   "property": "C60",
   "status": "proved",
   "theorems": [
    "Verif.C60_exponential"
   ],
   "note": "As C59."
  },
  {
   "property": "C61",
   "status": "proved",
   "theorems": [
    "Verif.C61_bivariate",
    "Verif.C61_symmetric",
    "Verif.C61_opposite_signs"
   ],
   "note": "As C59; with sigmas of opposite sign it is negative (C61_opposite_signs)."
  },
  {
   "property": "C62",
   "status": "partial",
   "theorems": [
    "Verif.Guess.C62_synced",
    "Verif.Guess.C62_always_synced",
    "Verif.Guess.C62_only_values",
    "Verif.Guess.C62_ranges",
    "Verif.Guess.C62_values",
    "Verif.Guess.C62_start_partial",
    "Verif.Guess.C62_finding_negative"
   ],
   "note": "FALSE for values outside of the slider's range: making the guess clips them (C62_finding_negative). Proved: everything after any history of slider events."
  },
  {
   "property": "C63",
   "status": "partial",
   "theorems": [
    "Verif.ObjEq.C63_exact",
    "Verif.ObjEq.C63_reflexive_partial",
    "Verif.ObjEq.C63_total_partial",
    "Verif.ObjEq.C63_symmetric_partial",
    "Verif.ObjEq.C63_finding_extra_data",
    "Verif.ObjEq.C63_finding_tolerance",
    "Verif.ObjEq.C63_finding_broadcast",
    "Verif.ObjEq.C63_finding_not_transitive",
    "Verif.ObjEq.C63_finding_none"
   ],
   "note": "FALSE in general: asymmetric, not transitive, raises on missing keys or None (C63_finding_*). Proved: exact meaning, reflexivity (up to the limit of C23), symmetry outside of the tolerance band."
  },
  {
   "property": "C64",
   "status": "partial",
   "theorems": [
    "Verif.Pickle.C64_restores",
    "Verif.Pickle.C64_reads_partial",
    "Verif.Pickle.C64_fresh",
    "Verif.Pickle.C64_model",
    "Verif.Pickle.C64_vars",
    "Verif.Pickle.C64_finding_stale"
   ],
   "note": "FALSE once params was assigned to: stale caches (C64_finding_stale); proved for all other histories, and C64_restores/C64_fresh without restriction."
  },
  {
   "property": "C65",
   "status": "proved",
   "theorems": [
    "Verif.PickleMin.C65_restores",
    "Verif.PickleMin.C65_constructed",
    "Verif.PickleMin.C65_configuration",
    "Verif.PickleMin.C65_constructed_leaf",
    "Verif.PickleMin.C65_unexpected",
    "Verif.PickleMin.C65_guesses",
    "Verif.PickleMin.C65_attribute",
    "Verif.PickleMin.C65_finding_fixed"
   ],
   "note": "All classes and constructor arguments. C65_finding_fixed: fixed changed between construction and pickling."
  },
  {
   "property": "C66",
   "status": "proved",
   "theorems": [
    "Verif.C66_constructs_iff",
    "Verif.C66_agree",
    "Verif.C66_call_solves",
    "Verif.C66_connectivity",
    "Verif.C66_needs_mapping",
    "Verif.C66_constant_part",
    "Verif.C66_deprecated",
    "Verif.C66_equality",
    "Verif.C66_equality_asymmetric"
   ],
   "note": "Including findings: constant parts raise IndexError (C66_constant_part), equality asymmetric (C66_equality_asymmetric)."
  },
  {
   "property": "C67",
   "status": "proved",
   "theorems": [
    "Verif.Support.C67_wrapper"
   ],
   "note": "All calls."
  },
  {
   "property": "C68",
   "status": "proved",
   "theorems": [
    "Verif.C68_signature",
    "Verif.C68_data",
    "Verif.C68_clash",
    "Verif.C68_finding_sigma"
   ],
   "note": "All models and constraints. Fit accepts a model with an independent variable sigma_y next to a component y, whose data are then both (C68_finding_sigma)."
  },
  {
   "property": "C69",
   "status": "proved",
   "theorems": [
    "Verif.C69_shared_parameters"
   ],
   "note": "All models."
  },
  {
   "property": "C70",
   "status": "partial",
   "theorems": [
    "Verif.C70_finding_not_negated",
    "Verif.C70_neg_partial",
    "Verif.C70_options_lost"
   ],
   "note": "FALSE: initial values are not negated (C70_finding_not_negated) and options are lost (C70_options_lost). Proved: what the negative model is."
  },
  {
   "property": "C71",
   "status": "proved",
   "theorems": [
    "Verif.Guess.C71_drawn",
    "Verif.Guess.C71_points",
    "Verif.Guess.C71_finding_error_bars"
   ],
   "note": "Finding: with several independent variables the error bars are too high by the mean of the values (C71_finding_error_bars)."
  },
  {
   "property": "C72",
   "status": "partial",
   "theorems": [
    "Verif.PickleMin.C72_restores_partial",
    "Verif.PickleMin.C72_finding_lost",
    "Verif.PickleMin.C72_finding_nested"
   ],
   "note": "FALSE for the configuration of the minimizer (C72_finding_lost) and nested chains (C72_finding_nested). Proved: everything else."
  },
  {
   "property": "C73",
   "status": "proved",
   "theorems": [
    "Verif.Exec.C73_minimize",
    "Verif.Exec.C73_trust_constr",
    "Verif.Exec.C73_differential_evolution",
    "Verif.Exec.C73_minpack",
    "Verif.Exec.C73_basin_hopping",
    "Verif.Exec.C73_iterations"
   ],
   "note": "What each minimizer hands to scipy, from an independent description of the scipy interface."
  },
  {
   "property": "C74",
   "status": "partial",
   "theorems": [
    "Verif.Exec.C74_unchanged_partial",
    "Verif.Exec.C74_trust_constr",
    "Verif.Exec.C74_basin_hopping",
    "Verif.Exec.C74_finding_reuse",
    "Verif.Exec.C74_finding_trust"
   ],
   "note": "FALSE for TrustConstr (options) and BasinHopping (minimizer_kwargs): C74_finding_*. Proved: nothing else is changed, and nothing by all other minimizers."
  },
  {
   "property": "C75",
   "status": "partial",
   "theorems": [
    "Verif.FitExec.C75_completes_vector",
    "Verif.FitExec.C75_best_fit",
    "Verif.FitExec.C75_minpack_square",
    "Verif.FitExec.C75_minpack_least_squares",
    "Verif.FitExec.C75_default_class",
    "Verif.FitExec.C75_default",
    "Verif.FitExec.C75_chain_partial",
    "Verif.FitExec.C75_reported",
    "Verif.FitExec.C75_gradient_partial",
    "Verif.FitExec.C75_derivatives",
    "Verif.FitExec.C75_vector_jacobian_partial",
    "Verif.FitExec.C75_hessian_partial",
    "Verif.FitExec.C75_hessian_wrong",
    "Verif.FitExec.C75_not_scalar",
    "Verif.FitExec.C75_model_bounds",
    "Verif.FitExec.C75_problem",
    "Verif.FitExec.C75_silently_ignored",
    "Verif.FitExec.C75_example",
    "Verif.FitExec.C75_minpack_root",
    "Verif.FitExec.C75_ignored_example",
    "Verif.FitExec.C75_values_exist",
    "Verif.FitExec.C75_symbolic",
    "Verif.FitExec.C75_completes",
    "Verif.FitExec.C75_symbolic_example"
   ],
   "note": "scipy is an arbitrary function assumed to return solutions of the problem it is given. FALSE for minimizers without support for bounds/constraints, which ignore them silently (C75_silently_ignored, C75_ignored_example) for trust-constr's hessian (C75_hessian_wrong), and for MINPACK with MinimizeModel or LogLikelihood, which minimises the square: it finds roots (C75_minpack_square, C75_minpack_root; harmless for LeastSquares, C75_minpack_least_squares). Proved: best fit for all scipy minimizers with what they support, all bounds and constraints with the default minimizer, from the expressions to the results (C75_symbolic, C75_completes, C75_completes_vector), chains without fixed parameters."
  },
  {
   "property": "C76",
   "status": "partial",
   "theorems": [
    "Verif.C76_accepts_partial",
    "Verif.C76_value_partial",
    "Verif.C76_types",
    "Verif.C76_le_raises",
    "Verif.C76_needs_mapping",
    "Verif.C76_symbolic_refuses_mapping",
    "Verif.C76_mapping_extended",
    "Verif.C76_constant_component"
   ],
   "note": "FALSE in general: `<=` raises TypeError (C76_le_raises), a constraint without mapping or on a model with constant components fails (C76_needs_mapping, C76_constant_component), and the user's mapping dict is extended (C76_mapping_extended). Proved otherwise."
  },
  {
   "property": "C77",
   "status": "partial",
   "theorems": [
    "Verif.C77_symbolic",
    "Verif.C77_numerical_partial",
    "Verif.C77_callable_raises",
    "Verif.C77_ode_raises",
    "Verif.C77_one_by_one",
    "Verif.C77_hash_order",
    "Verif.C77_ode_parameters",
    "Verif.C77_ode_finding_rhs",
    "Verif.C77_ode_finding_raises"
   ],
   "note": "FALSE for ODE models (always TypeError, C77_ode_raises), and for numerical models if the relation uses a callable component (AttributeError, C77_callable_raises) or even one that happens to come earlier in set order (C77_hash_order). Proved for symbolic models without restriction, for numerical models if the callables are deeper than the symbols of the relation, and for ODE models if the constraint is made by Model.as_constraint and is about parameters only (about components it is wrong: C77_ode_finding_rhs)."
  },
  {
   "property": "C78",
   "status": "partial",
   "theorems": [
    "Verif.C78_symbolic",
    "Verif.C78_numerical",
    "Verif.C78_ode_partial",
    "Verif.C78_ode_mapping",
    "Verif.C78_ode_everything",
    "Verif.C78_ode_finding"
   ],
   "note": "FALSE for ODEModel: `in` is True for every symbol, [] and get return None (C78_ode_everything, C78_ode_finding). Everything else proved."
  },
  {
   "property": "C79",
   "status": "proved",
   "theorems": [
    "Verif.C79_symbolic",
    "Verif.C79_numerical"
   ],
   "note": "Symbolic and numerical models."
  },
  {
   "property": "C80",
   "status": "proved",
   "theorems": [
    "Verif.C80_ode",
    "Verif.C80_ode_order_independent",
    "Verif.C80_symbolic",
    "Verif.C80_latex",
    "Verif.C80_order_independent"
   ],
   "note": "sympy's printing of keys and expressions is arbitrary. For an ODEModel every line shows all parameters (C80_ode)."
  },
  {
   "property": "C81",
   "status": "proved",
   "theorems": [
    "Verif.C81_model",
    "Verif.C81_expression",
    "Verif.C81_other_model_raises"
   ],
   "note": "Finding: another model does not ignore superfluous parameters (C81_other_model_raises)."
  },
  {
   "property": "C82",
   "status": "partial",
   "theorems": [
    "Verif.Concurrency.C82_named",
    "Verif.Concurrency.C82_unique_partial",
    "Verif.Concurrency.C82_own_class",
    "Verif.Concurrency.C82_completes",
    "Verif.Concurrency.C82_finding_race",
    "Verif.Concurrency.C82_finding_lost_update"
   ],
   "note": "FALSE in general: without locks two threads can get one name (C82_finding_race), and a lost update of the counter makes even one thread use a name twice (C82_finding_lost_update). Proved for all schedules in which no two threads are inside the creation of an argument of one class, and for all schedules when each class has its own thread; order, explicit names and progress without restriction."
  },
  {
   "property": "C83",
   "status": "partial",
   "theorems": [
    "Verif.Concurrency.C83_reads_agree",
    "Verif.Concurrency.C83_reads_sound",
    "Verif.Concurrency.C83_deletions_partial",
    "Verif.Concurrency.C83_calls",
    "Verif.Concurrency.C83_alone",
    "Verif.Concurrency.C83_finding_delete",
    "Verif.Concurrency.C83_finding_disagree"
   ],
   "note": "Proved for threads which only read. FALSE with concurrent deletion: a read may raise AttributeError (C83_finding_delete); and if the function is not constant the threads may disagree (C83_finding_disagree)."
  },
  {
   "property": "C84",
   "status": "partial",
   "theorems": [
    "Verif.Objective.C84_seen",
    "Verif.FitExec.C84_fresh_partial",
    "Verif.FitExec.C84_repeat",
    "Verif.FitExec.C84_covariance",
    "Verif.FitExec.C84_best_fit_partial",
    "Verif.FitExec.C84_stale",
    "Verif.FitExec.C84_finding_stale",
    "Verif.FitExec.C84_example",
    "Verif.FitExec.C84_bounds_later",
    "Verif.FitExec.C84_finding_fixed"
   ],
   "note": "Proved for histories which do not assign to the value of a fixed parameter after the first execution and do not change `fixed`. FALSE otherwise: the objective keeps the values of fixed parameters from its first evaluation, so results pair new fixed values with a fit for the old ones (C84_stale says exactly what is found, C84_finding_stale is a concrete case); `fixed` changed after construction mixes up the vector (C84_finding_fixed); bounds set after construction of a fit without bounds are ignored (C84_bounds_later)."
  },
  {
   "property": "C85",
   "status": "partial",
   "theorems": [
    "Verif.FitExec.C85_function",
    "Verif.FitExec.C85_found",
    "Verif.FitExec.C85_minimum_partial",
    "Verif.FitExec.C85_basin_hopping_partial",
    "Verif.FitExec.C85_completes",
    "Verif.FitExec.C85_jacobian",
    "Verif.FitExec.C85_no_parameters",
    "Verif.FitExec.C85_swapped"
   ],
   "note": "Proved for parameters given in alphabetical order (C85_minimum_partial, C85_basin_hopping_partial). For other orders the claim is false: the vector from scipy, in the order of the list, is read in alphabetical order by the model made of the function (C85_found says exactly what is computed, C85_swapped is a concrete case). C85_function, C85_completes, C85_jacobian and C85_no_parameters hold for any order. Not covered: MINPACK (squares the function, C75), ChainedMinimizer, constraints, user-provided hessians."
  },
  {
   "property": "C86",
   "status": "partial",
   "theorems": [
    "Verif.C86_jacobian_partial",
    "Verif.C86_explicit",
    "Verif.C86_finding_hessian"
   ],
   "note": "C86_jacobian_partial: all models whose Jacobian is in the modelled part of sympy. C86_explicit: jacobian and hessian of all models whose components do not use each other, for whatever sympy makes of derivatives of derivatives. For interdependent models the claim about `hessian` is false (C86_finding_hessian): it differentiates with sympy.diff, for which the components are constants."
  },
  {
   "property": "C87",
   "status": "partial",
   "theorems": [
    "Verif.FitExec.C87_local_minimum",
    "Verif.FitExec.C87_stationary",
    "Verif.FitExec.C87_least_squares",
    "Verif.FitExec.C87_likelihood_partial",
    "Verif.FitExec.C87_maximum_likelihood",
    "Verif.FitExec.C87_minimize",
    "Verif.FitExec.C87_likelihood_completes",
    "Verif.FitExec.C87_minimize_completes",
    "Verif.FitExec.C87_likelihood_example",
    "Verif.FitExec.C87_minimize_example",
    "Verif.FitExec.C87_finding_constant"
   ],
   "note": "Least squares, the minimisation of a model and completion are proved in full. Partial for the likelihood: where some allowed values make a component negative the claim is false of the code (C88_finding_negative), so C87_likelihood_partial compares among values where all components are positive and C87_maximum_likelihood asks that all allowed values do; and a component that does not depend on the data is counted once rather than at every data point (C87_finding_constant), which hypothesis UsesData excludes."
  },
  {
   "property": "C88",
   "status": "partial",
   "theorems": [
    "Verif.C88_positive",
    "Verif.C88_impossible_partial",
    "Verif.C88_negative_ignored",
    "Verif.C88_same_model",
    "Verif.C88_finding_negative"
   ],
   "note": "Proved: positive values (C88_positive), zeros give +inf (C88_impossible_partial), and what happens for negative components: `np.nansum` drops their points (C88_negative_ignored; it is what the model of C38 computes with `log` := nanLog, C88_same_model). The last part of the statement is false of the code: values with negative components can have a smaller objective than every allowed one (C88_finding_negative). Floating point rounding is not modelled: `NpNum` is the reals with nan and two infinities."
  },
  {
   "property": "C89",
   "status": "partial",
   "theorems": [
    "Verif.FitExec.C89_least_squares_partial",
    "Verif.FitExec.C89_example",
    "Verif.FitExec.C89_finding_reordered",
    "Verif.FitExec.C89_completes"
   ],
   "note": "Partial: false for times that are not sorted (C89_finding_reordered), and parameter values for which the integrator fails are not covered. The integrator (scipy's solve_ivp) and the minimizer (scipy) are assumed to do what they say: `Answers`, `AccurateAt`, `Reliable`. C89_example meets all hypotheses, with an exact integrator."
  },
  {
   "property": "C90",
   "status": "proved",
   "theorems": [
    "Verif.FitExec.C90_finding_wrong_sign",
    "Verif.FitExec.C90_jacobian"
   ],
   "note": "Exact arithmetic. The bound is useless for the default tolerance of the integrator, which is larger than the step: C90_finding_wrong_sign."
  },
  {
   "property": "C91",
   "status": "proved",
   "theorems": [
    "Verif.Identity.C91_independent",
    "Verif.Identity.C91_same_object",
    "Verif.Identity.C91_other_object",
    "Verif.Identity.C91_last_wins",
    "Verif.Identity.C91_unpickle",
    "Verif.Identity.C91_unpickle_forgotten",
    "Verif.Identity.C91_assign",
    "Verif.Identity.C91_variable",
    "Verif.Identity.C91_finding_refused",
    "Verif.Identity.C91_finding_unpickle",
    "Verif.Identity.C91_finding_generated"
   ],
   "note": "Heap of objects with sympy's cache as a map; eviction is an operation that may happen at any time. The findings show what a user may not expect: a refused creation has changed the existing parameter, unpickling resets a live parameter, and a generated name can hit a named symbol."
  },
  {
   "property": "C92",
   "status": "proved",
   "theorems": [
    "Verif.C92_arguments",
    "Verif.C92_value",
    "Verif.C92_solution",
    "Verif.C92_components",
    "Verif.FitExec.C92_least_squares",
    "Verif.FitExec.C92_log_likelihood",
    "Verif.FitExec.C92_minimize",
    "Verif.FitExec.C92_no_covariance",
    "Verif.FitExec.C92_completes",
    "Verif.FitExec.C92_example"
   ],
   "note": "C92_arguments/C92_value/C92_solution/C92_components give evaluation in both directions; C92_least_squares/C92_log_likelihood/C92_minimize compose the model with the fit; C92_no_covariance: no covariance; C92_completes and C92_example: hypotheses are met by a concrete chained fit."
  },
  {
   "property": "C93",
   "status": "proved",
   "theorems": [
    "Verif.Report.C93_printed",
    "Verif.Report.C93_sorted",
    "Verif.Report.C93_padding",
    "Verif.Report.C93_fit",
    "Verif.Report.C93_finding_raw",
    "Verif.Report.C93_constraints",
    "Verif.Report.C93_minimizer"
   ],
   "note": "Formatting of numbers, arrays, sympy expressions and of the objective and minimizer objects are parameters of the model. Finding: the results of a stand-alone minimizer whose constraints are models or relations cannot be printed (C93_finding_raw)."
  },
  {
   "property": "C94",
   "status": "partial",
   "theorems": [
    "Verif.C94_constructs",
    "Verif.C94_values_partial",
    "Verif.C94_scalar",
    "Verif.C94_in_order_partial",
    "Verif.C94_in_order_iff",
    "Verif.C94_data_partial",
    "Verif.C94_finding_order",
    "Verif.C94_finding_data",
    "Verif.C94_finding_same"
   ],
   "note": "Proved for one expression (C94_scalar) and for addresses whose decimal strings are increasing (C94_in_order_partial); exactly what happens otherwise: one component per object, ordered by the decimal string of the address (C94_values_partial, C94_data_partial). The full claim is false of the code: C94_finding_order, C94_finding_data, C94_finding_same."
  },
  {
   "property": "C95",
   "status": "proved",
   "theorems": [
    "Verif.Guess.C95_grid",
    "Verif.Guess.C95_layout",
    "Verif.Guess.C95_finding_no_variables",
    "Verif.Guess.C95_works",
    "Verif.Guess.C95_drawn",
    "Verif.Guess.C95_finding_constant"
   ],
   "note": "Proved. Findings: a dependent variable that depends on no independent variable makes the constructor raise ValueError (C95_finding_constant); without independent variables it divides by zero (C95_finding_no_variables); the error bars are too high by the average (part of C95_drawn; C71_finding_error_bars)."
  },
  {
   "property": "C96",
   "status": "partial",
   "theorems": [
    "Verif.Printing.C96_value_partial",
    "Verif.Printing.C96_one_reading",
    "Verif.Printing.C96_one_value",
    "Verif.Printing.C96_finding_dropped",
    "Verif.Printing.C96_finding_sum_left",
    "Verif.Printing.C96_finding_sum_right",
    "Verif.Printing.C96_finding_power_of_product",
    "Verif.Printing.C96_finding_power_of_sum",
    "Verif.Printing.C96_finding_root",
    "Verif.Printing.C96_finding_power_of_power"
   ],
   "note": "False in general: no parentheses are printed around the arguments of HadamardProduct and HadamardPower, and only two factors are printed (C96_finding_*; an elementwise square root is computed as half of its argument). Proved for expressions that need no parentheses there (Plain), for every reading Python's grammar allows, which is at most one (C96_one_reading)."
  },
  {
   "property": "C97",
   "status": "partial",
   "theorems": [
    "Verif.ResEq.C97_same_iff_partial",
    "Verif.ResEq.C97_finding_raises",
    "Verif.ResEq.C97_finding_missing",
    "Verif.ResEq.C97_finding_nan",
    "Verif.ResEq.C97_reported_partial",
    "Verif.ResEq.C97_nested_partial",
    "Verif.ResEq.C97_copy",
    "Verif.ResEq.C97_finding_one_parameter",
    "Verif.ResEq.C97_finding_asymmetric",
    "Verif.ResEq.C97_alike",
    "Verif.ResEq.C97_shapes"
   ],
   "note": "'True exactly if' is proved for results of any number of parameters, also for dicts of arrays; FALSE that False is returned otherwise: with several parameters, different covariance matrices raise AssertionError (it is raised in an except clause, so the next one does not catch it), a missing one TypeError. Proved for one parameter or no matrices. Copies without NaN are the same. For arbitrary dicts C97_alike says what may be taken for the same, C97_shapes what happens with arrays of misfitting shapes. The two dicts are assumed to share no objects."
  },
  {
   "property": "C98",
   "status": "proved",
   "theorems": [
    "Verif.Guess.C98_start",
    "Verif.Guess.C98_fixed",
    "Verif.Guess.C98_in_bounds",
    "Verif.Guess.C98_finding_negative"
   ],
   "note": "Composition of C62 with the model of Fit. Chains of minimizers start there too (C47, C75). C98_finding_negative: merely opening the guess moves parameters without bounds and with negative values to 0 (as C62_finding_negative)."
  },
  {
   "property": "C99",
   "status": "proved",
   "theorems": [
    "Verif.FitExec.C99_errors",
    "Verif.FitExec.C99_likelihood_errors",
    "Verif.FitExec.C99_chi_sq",
    "Verif.FitExec.C99_objective",
    "Verif.FitExec.C99_least_squares",
    "Verif.FitExec.C99_likelihood"
   ],
   "note": "Symbolic models over any field for the value, over the reals for fits (C87's assumptions on scipy: it returns solutions). Floating point sums, which do depend on the order in the last digits, are not modelled. Standard deviations and covariances: for least squares fits in which all data has the same shape s (s not [n,1], [n,n,1] for n parameters, see C34), no point at the edge of the domain of a function; both fits are assumed to have found the same values; likewise for likelihood fits (_likelihood_errors; components computed from data; as elsewhere there is no NaN, so nothing is claimed of likelihoods that are zero)."
  },
  {
   "property": "C100",
   "status": "proved",
   "theorems": [
    "Verif.FitExec.C100_values_exist",
    "Verif.FitExec.C100_value",
    "Verif.FitExec.C100_sum",
    "Verif.FitExec.C100_split",
    "Verif.FitExec.C100_best_fit",
    "Verif.FitExec.C100_split_example",
    "Verif.FitExec.C100_example",
    "Verif.FitExec.C100_setup",
    "Verif.FitExec.C100_completes",
    "Verif.FitExec.C100_gradient",
    "Verif.FitExec.C100_hessian",
    "Verif.FitExec.C100_gradient_example",
    "Verif.FitExec.C100_finding_vector",
    "Verif.FitExec.C100_finding_vector_example"
   ],
   "note": "Symbolic models over any field for the value, over the reals for fits and derivatives (scipy is assumed to return solutions, as for C75). Fits have bounds but no constraints. Shapes [p, 1] and [p, p, 1], p the number of parameters, are excluded for completion and derivatives (they collide with the shapes of derivatives, see C41). The jacobian and hessian are proved (C100_gradient, C100_hessian) where the expressions are smooth at the points of their data sets. VectorLeastSquares raises for data sets of different lengths (C100_finding_vector). C100_example, C100_split_example and C100_gradient_example meet all hypotheses."
  },
  {
   "property": "C101",
   "status": "partial",
   "theorems": [
    "Verif.C101_component",
    "Verif.C101_component_raises",
    "Verif.C101_component_same",
    "Verif.C101_objective",
    "Verif.C101_objective_jacobian",
    "Verif.C101_objective_hessian",
    "Verif.FitExec.C101_minimizer",
    "Verif.FitExec.C101_chain",
    "Verif.FitExec.C101_fit",
    "Verif.FitExec.C101_covariance_partial",
    "Verif.FitExec.C101_attribute_error",
    "Verif.C101_integrator",
    "Verif.C101_integrator_gives_up",
    "Verif.C101_finite_difference",
    "Verif.C101_example_component",
    "Verif.FitExec.C101_example_fit",
    "Verif.FitExec.C101_example_chain",
    "Verif.FitExec.C101_example_covariance",
    "Verif.FitExec.C101_example_attribute_error",
    "Verif.C101_example_integrator"
   ],
   "note": "Everything but the last sentence is proved in full; the last is FALSE for AttributeError: Fit takes it for a missing eval_hessian, also if it comes from the user's own code, and silently uses an approximation (C101_attribute_error, C101_example_attribute_error); C101_covariance_partial proves it for all other exceptions. Exceptions are modelled by their class."
  },
  {
   "property": "C102",
   "status": "proved",
   "theorems": [
    "Verif.FitExec.C102_errors",
    "Verif.FitExec.C102_likelihood_errors",
    "Verif.C102_construction",
    "Verif.C102_lists",
    "Verif.C102_call",
    "Verif.FitExec.C102_values",
    "Verif.FitExec.C102_chi_sq",
    "Verif.FitExec.C102_objective",
    "Verif.FitExec.C102_least_squares",
    "Verif.FitExec.C102_likelihood"
   ],
   "note": "Symbolic models whose keys are Variables and whose expressions contain Variables and Parameters. scipy is assumed to return solutions (as for C75). Standard deviations and covariances: for least squares fits in which all data has the same shape s (s not [n,1], [n,n,1] for n parameters, see C34), no point at the edge of the domain of a function; both fits are assumed to have found the same values; likewise for likelihood fits (_likelihood_errors; components computed from data; as elsewhere there is no NaN, so nothing is claimed of likelihoods that are zero)."
  },
  {
   "property": "C103",
   "status": "partial",
   "theorems": [
    "Verif.FitExec.C103_errors_partial",
    "Verif.FitExec.C103_likelihood_errors_partial",
    "Verif.C103_arguments",
    "Verif.C103_call",
    "Verif.C103_dependent_partial",
    "Verif.FitExec.C103_values",
    "Verif.FitExec.C103_chi_sq",
    "Verif.FitExec.C103_objective_partial",
    "Verif.FitExec.C103_least_squares_partial",
    "Verif.C103_finding",
    "Verif.C103_finding_constant"
   ],
   "note": "Arguments and values are proved for all models. 'The same dependent variables' is FALSE (C103_finding): only components of the highest level are dependent variables (see C14), and leaving out an intermediate component lowers the level. Also the model without the component may not be constructible (C103_finding_constant). C103_dependent_partial gives the condition; objective and fit are proved when the dependent variables agree. Standard deviations and covariances: for least squares fits in which all data has the same shape s (s not [n,1], [n,n,1] for n parameters, see C34), no point at the edge of the domain of a function; both fits are assumed to have found the same values; likewise for likelihood fits (_likelihood_errors; components computed from data; as elsewhere there is no NaN, so nothing is claimed of likelihoods that are zero)."
  },
  {
   "property": "C104",
   "status": "proved",
   "theorems": [
    "Verif.FitExec.C104_errors",
    "Verif.FitExec.C104_likelihood_errors",
    "Verif.C104_construction",
    "Verif.C104_lists",
    "Verif.C104_call",
    "Verif.FitExec.C104_values",
    "Verif.FitExec.C104_chi_sq",
    "Verif.FitExec.C104_objective",
    "Verif.FitExec.C104_least_squares",
    "Verif.FitExec.C104_example"
   ],
   "note": "Units are rational factors; scipy is assumed to return solutions (as for C75); exact arithmetic. C104_example: a concrete fit in other units. Standard deviations and covariances: for least squares fits in which all data has the same shape s (s not [n,1], [n,n,1] for n parameters, see C34), no point at the edge of the domain of a function; both fits are assumed to have found the same values; likewise for likelihood fits (_likelihood_errors; components computed from data; as elsewhere there is no NaN, so nothing is claimed of likelihoods that are zero)."
  },
  {
   "property": "C105",
   "status": "proved",
   "theorems": [
    "Verif.C105_construction",
    "Verif.C105_lists",
    "Verif.C105_call",
    "Verif.FitExec.C105_values",
    "Verif.FitExec.C105_chi_sq",
    "Verif.FitExec.C105_objective",
    "Verif.FitExec.C105_least_squares",
    "Verif.FitExec.C105_maximum_likelihood",
    "Verif.FitExec.C105_least_squares_converse",
    "Verif.FitExec.C105_errors_ignore_fixed",
    "Verif.FitExec.C105_constant_component",
    "Verif.FitExec.C105_constant_model",
    "Verif.FitExec.C105_errors_example",
    "Verif.FitExec.C105_example"
   ],
   "note": "Proved for models, calls, objective and best fits, if every component still contains a symbol; otherwise it is false (C105_constant_component, C105_constant_model). Standard deviations are not those of the model with the numbers: Fit.covariance_matrix inverts the hessian with respect to all parameters, whether fixed or not (C105_errors_ignore_fixed, C105_errors_example). scipy is assumed to return solutions (as for C75)."
  },
  {
   "property": "C106",
   "status": "proved",
   "theorems": [
    "Verif.FitExec.C106_chi_sq",
    "Verif.FitExec.C106_objective",
    "Verif.FitExec.C106_least_squares",
    "Verif.FitExec.C106_errors",
    "Verif.FitExec.C106_errors_example"
   ],
   "note": "Proved. scipy is assumed to return solutions (as for C75); the standard deviations are compared for fits that find the same values."
  },
  {
   "property": "C107",
   "status": "proved",
   "theorems": [
    "Verif.FitExec.C107_chi_sq",
    "Verif.FitExec.C107_objective",
    "Verif.FitExec.C107_least_squares",
    "Verif.FitExec.C107_least_squares_converse",
    "Verif.FitExec.C107_errors",
    "Verif.FitExec.C107_reshape_errors",
    "Verif.FitExec.C107_reshape_least_squares",
    "Verif.FitExec.C107_errors_example",
    "Verif.FitExec.C107_reshape_example"
   ],
   "note": "Proved, for shapes that are not taken for the shape of a jacobian (as for C34, C42). With absolute_sigma=False the standard deviations of the two fits differ (the means have fewer degrees of freedom), except for mere reshaping. scipy is assumed to return solutions (as for C75); the standard deviations are compared for fits that find the same values."
  },
  {
   "property": "C108",
   "status": "proved",
   "theorems": [
    "Verif.C108_dependent",
    "Verif.FitExec.C108_chi_sq",
    "Verif.FitExec.C108_allowed",
    "Verif.FitExec.C108_least_squares",
    "Verif.FitExec.C108_least_squares_converse",
    "Verif.FitExec.C108_errors",
    "Verif.FitExec.C108_errors_hessian",
    "Verif.C108_finding_depth",
    "Verif.FitExec.C108_likelihood",
    "Verif.FitExec.C108_positive",
    "Verif.FitExec.C108_maximum_likelihood",
    "Verif.FitExec.C108_maximum_likelihood_converse"
   ],
   "note": "Proved, for models that are equally deep: only the ends of the longest chains are dependent variables (C14), so otherwise the data of the shallower model is ignored (finding). scipy is assumed to return solutions (as for C75). Likelihood fits: all components positive for all allowed values, and using the data (as for C87). Standard deviations and covariances: for absolute sigmas (with relative ones the covariance is scaled by chi^2 of everything); for LeastSquares if the hessian of the joint fit is invertible, as symfit otherwise uses J^T W J for both models."
  },
  {
   "property": "C109",
   "status": "proved",
   "theorems": [
    "Verif.C109_construction",
    "Verif.C109_lists",
    "Verif.C109_call",
    "Verif.FitExec.C109_chi_sq",
    "Verif.FitExec.C109_objective",
    "Verif.FitExec.C109_least_squares",
    "Verif.FitExec.C109_least_squares_converse",
    "Verif.FitExec.C109_maximum_likelihood",
    "Verif.FitExec.C109_errors"
   ],
   "note": "Replacements contain at least one parameter and no variables. scipy is assumed to return solutions (as for C75). C109_errors (standard deviations) is for replacements in which every original parameter depends on one new parameter, with a slope that is not zero; for LeastSquares the fit must be stationary, as C87_stationary proves of best fits inside the bounds."
  },
  {
   "property": "C110",
   "status": "proved",
   "theorems": [
    "Verif.FitExec.C110_written",
    "Verif.FitExec.C110_imposed",
    "Verif.FitExec.C110_written_maximum_likelihood",
    "Verif.FitExec.C110_imposed_maximum_likelihood"
   ],
   "note": "The bounds of a must hold for e whenever those of the others hold. scipy is assumed to return solutions (as for C75)."
  },
  {
   "property": "C111",
   "status": "proved",
   "theorems": [
    "Verif.Printing.C111_never_fails",
    "Verif.Printing.C111_reported",
    "Verif.Printing.C111_own",
    "Verif.Printing.C111_needed",
    "Verif.Printing.C111_symbols",
    "Verif.Printing.C111_finding_forgotten",
    "Verif.Printing.C111_finding_inverse",
    "Verif.Printing.C111_finding_remembered"
   ],
   "note": "sympy's CodePrinter.doprint is modelled as assigning an empty set, printing, reading and deleting it (versions which delete the attribute)."
  },
  {
   "property": "C112",
   "status": "proved",
   "theorems": [
    "Verif.FitExec.C112_likelihood",
    "Verif.FitExec.C112_least_squares"
   ],
   "note": "Two theorems: likelihood and least squares, both through the whole pipeline from the expressions to FitResults.stdev/covariance; exact arithmetic, symbolic derivatives as in C20/C21. All data of a fit has one shape (the points of all components count as those of one, C53). Fixed parameters are part of the matrix, as in the code."
  },
  {
   "property": "C113",
   "status": "proved",
   "theorems": [
    "Verif.FitExec.C113_vector",
    "Verif.FitExec.C113_least_squares",
    "Verif.FitExec.C113_likelihood",
    "Verif.FitExec.C113_finding_fixed",
    "Verif.FitExec.C113_least_squares_minimum",
    "Verif.FitExec.C113_likelihood_maximum",
    "Verif.FitExec.C113_one_parameter"
   ],
   "note": "C113_vector is unconditional (MINPACK objective); C113_least_squares and C113_likelihood assume that the second derivatives at the values found have no negative direction; C113_least_squares_minimum and C113_likelihood_maximum derive this from what SciPy guarantees (Reliable: no allowed values nearby are better), for fits without constraints whose parameters are free and strictly inside their bounds. With fixed parameters, constraints or values on a bound the code inverts the full matrix, and the condition stays a hypothesis; C113_finding_fixed (finding): it cannot be dropped, a fit with a fixed parameter that finds the minimum reports a negative variance for a free parameter. Exact arithmetic."
  }
 ]
}