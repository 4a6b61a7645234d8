{
 "claims": [
  {
   "property": "C01",
   "status": "proved",
   "theorems": [
    "DML.C01_arithmetic_up_to_sign",
    "DML.C01_arithmetic_is_direct_inference",
    "DML.C01_eval_succeeds_iff",
    "DML.C01_bias_bounds"
   ],
   "note": "every expression over +,-,scalar*,concat equals direct inference on the combined influence functions; negative scalars agree up to the sign of the standard error (see C02)"
  },
  {
   "property": "C02",
   "status": "partial",
   "theorems": [
    "DML.C02_ses_nonneg_partial",
    "DML.C02_negative_scalar",
    "DML.C02_violated"
   ],
   "note": "C02_ses_nonneg_partial covers nonnegative scalars; C02_violated proves the code breaks the property for negative scalars"
  },
  {
   "property": "C03",
   "status": "proved",
   "theorems": [
    "DML.C03_add_succeeds_iff",
    "DML.C03_add_comm",
    "DML.C03_add_assoc",
    "DML.C03_sub_eq_add_neg",
    "DML.C03_self_difference",
    "DML.C03_distrib",
    "DML.C03_acceptance_not_symmetric",
    "DML.C03_cancel",
    "DML.C03_scalar_sides",
    "DML.C03_equal_denotation"
   ],
   "note": "commutativity, associativity, cancellation ((A+B)-B), subtraction as addition of the negative, distributivity, numbers on either side, acceptance condition; acceptance is not symmetric (C03_acceptance_not_symmetric)"
  },
  {
   "property": "C04",
   "status": "partial",
   "theorems": [
    "DML.C04_violated",
    "DML.C04_smul_cluster_robust_partial"
   ],
   "note": "C04_violated: + and - replace the cluster-robust standard error by the i.i.d. one; scalar multiples keep it (C04_smul_cluster_robust_partial)"
  },
  {
   "property": "C05",
   "status": "proved",
   "theorems": [
    "DML.C05_concat",
    "DML.C05_concat_slice",
    "DML.C05_concat_rejects",
    "DML.C05_accepts_iff",
    "DML.C05_nested",
    "DML.C05_derived"
   ],
   "note": "exact acceptance condition for operands of any dimensions and types, nesting, and derived quantities (t, p, intervals, sensitivity)"
  },
  {
   "property": "C06",
   "status": "proved",
   "theorems": [
    "DML.C06_isolated",
    "DML.C06_history",
    "DML.C06_program_joint",
    "DML.C06_failed_call_no_effect",
    "DML.C06_queries_pure",
    "DML.C06_stored_bootstrap",
    "DML.C06_joint_confint",
    "DML.C06_method_names",
    "DML.C06_romano_wolf"
   ],
   "note": "state machine with bootstrap/confint/p_adjust/sensitivity/plot, by induction over call histories; and programs with any number of objects created from dictionaries, by arithmetic and concat: objects do not influence each other and start without bootstrap or sensitivity results (C06_isolated, C06_history, C06_program_joint)"
  },
  {
   "property": "C07",
   "status": "proved",
   "theorems": [
    "DML.C07_ci_contains_estimate",
    "DML.C07_pointwise_nested",
    "DML.C07_joint_nested",
    "DML.C07_joint_widens",
    "DML.C07_single_repetition"
   ],
   "note": ""
  },
  {
   "property": "C08",
   "status": "proved",
   "theorems": [
    "DML.C08_permutation_invariant",
    "DML.C08_single",
    "DML.C08_robust",
    "DML.C08_se_lower_bound",
    "DML.C08_se_at_least_median",
    "DML.C08_affine"
   ],
   "note": ""
  },
  {
   "property": "C09",
   "status": "partial",
   "theorems": [
    "DML.C09_pvals_in_unit",
    "DML.C09_pvals_absolute_t",
    "DML.C09_duality_single",
    "DML.C09_duality_odd",
    "DML.C09_violated",
    "DML.C09_violated_even",
    "DML.C09_model_eq_framework_single"
   ],
   "note": "duality proved for one repetition and one direction for odd repetitions; C09_violated and C09_violated_even show the full duality fails"
  },
  {
   "property": "C10",
   "status": "proved",
   "theorems": [
    "DML.C10_bootstrap_studentised",
    "DML.C10_bootstrap_bounded",
    "DML.C10_bootstrap_scale_free",
    "DML.C10_bootstrap_local"
   ],
   "note": ""
  },
  {
   "property": "C11",
   "status": "proved",
   "theorems": [
    "DML.C11_romano_wolf_is_stepdown",
    "DML.C11_ties_irrelevant",
    "DML.C11_order_equivariant"
   ],
   "note": ""
  },
  {
   "property": "C12",
   "status": "proved",
   "theorems": [
    "DML.C12_in_unit",
    "DML.C12_monotone",
    "DML.C12_between",
    "DML.C12_family_monotone",
    "DML.C12_single_hypothesis"
   ],
   "note": ""
  },
  {
   "property": "C13",
   "status": "proved",
   "theorems": [
    "DML.C13_bracket",
    "DML.C13_monotone",
    "DML.C13_sign_of_rho",
    "DML.C13_collapse",
    "DML.C13_collapse_se",
    "DML.C13_ci_outside"
   ],
   "note": ""
  },
  {
   "property": "C14",
   "status": "proved",
   "theorems": [
    "DML.C14_accepts_iff",
    "DML.C14_stored_params",
    "DML.C14_stored_values"
   ],
   "note": ""
  },
  {
   "property": "C15",
   "status": "proved",
   "theorems": [
    "DML.C15_unique_root",
    "DML.C15_minimiser",
    "DML.C15_closed_form"
   ],
   "note": "existence, uniqueness, monotone crossing for any number of repetitions; closed form for one repetition; the exact bounded minimiser is the root (scipy convergence itself is outside the model)"
  },
  {
   "property": "C16",
   "status": "partial",
   "theorems": [
    "DML.C16_violated_null_ignored",
    "DML.C16_violated_no_params",
    "DML.C16_contour_partial",
    "DML.C16_violated_wrong_side",
    "DML.C16_violated_ci_origin"
   ],
   "note": "C16_violated_*: null_hypothesis argument is ignored, plot without previous analysis always raises, ci origin uses a different limit; C16_contour_partial says what is plotted"
  },
  {
   "property": "C17",
   "status": "proved",
   "theorems": [
    "DML.C17_nu2_nonneg",
    "DML.C17_nu2_pos",
    "DML.C17_fallback_scope",
    "DML.C17_sigma2_nonneg",
    "DML.C17_centred",
    "DML.C17_max_bias",
    "DML.C17_plr_no_fallback",
    "DML.C17_fallback_not_centred",
    "DML.C17_fallback_reachable"
   ],
   "note": "PLR, IRM, APO, DiD, DiD-CS; C17_fallback_not_centred shows that the fall-back leaves psi_nu2 uncentred (excluded by the property)"
  },
  {
   "property": "C18",
   "status": "proved",
   "theorems": [
    "DML.C18_ranges",
    "DML.C18_meaning",
    "DML.C18_zero",
    "DML.C18_monotone",
    "DML.C18_rho_sign",
    "DML.C18_rho_size",
    "DML.C18_delta",
    "DML.C18_succeeds_iff",
    "DML.C18_rows",
    "DML.C18_benchmark_covariates",
    "DML.C18_not_always_usable_violated"
   ],
   "note": "C18_not_always_usable_violated: benchmark values may equal 1 and are then rejected by sensitivity_analysis"
  },
  {
   "property": "C19",
   "status": "proved",
   "theorems": [
    "DML.C19_moment_condition",
    "DML.C19_moment_condition_cluster",
    "DML.C19_influence_centred"
   ],
   "note": "linear scores; weighted average for clustered data; the unscaled influence function is centred in the non-clustered case"
  },
  {
   "property": "C20",
   "status": "proved",
   "theorems": [
    "DML.C20_se_nonneg",
    "DML.C20_se_zero_iff",
    "DML.C20_scale_outcome",
    "DML.C20_rescale_moment",
    "DML.C20_shift",
    "DML.C20_order_invariant",
    "DML.C20_replicated_sample",
    "DML.C20_framework_se",
    "DML.C20_framework_consistent"
   ],
   "note": "plus: every non-clustered fit produces a consistent framework block, the hypothesis of C01-C03"
  },
  {
   "property": "C21",
   "status": "proved",
   "theorems": [
    "DML.C21_one_way_formula",
    "DML.C21_two_way_formula",
    "DML.C21_two_way_complete",
    "DML.C21_replicated_within",
    "DML.C21_singleton_clusters",
    "DML.C21_relabel",
    "DML.C21_order_invariant",
    "DML.C21_variance_nonneg"
   ],
   "note": "one-way for singleton clusters; relabelling and reordering invariance also for two-way clustering; closed formulas for one- and two-way estimates, complete two-way designs, replication within clusters"
  },
  {
   "property": "C22",
   "status": "proved",
   "theorems": [
    "DML.C22_accepted_splits_valid",
    "DML.C22_nested_accepted_iff",
    "DML.C22_tuple_requires_no_split"
   ],
   "note": "soundness for every accepted argument and completeness for lists of lists of integer arrays"
  },
  {
   "property": "C23",
   "status": "proved",
   "theorems": [
    "DML.C23_drawn_splits_balanced",
    "DML.C23_rejects",
    "DML.C23_drawn_accepted",
    "DML.C23_stratified_partition"
   ],
   "note": "scikit-learn KFold modelled as contiguous slices of an arbitrary permutation; stratified draws as an arbitrary assignment of folds"
  },
  {
   "property": "C24",
   "status": "proved",
   "theorems": [
    "DML.C24_cluster_split_valid",
    "DML.C24_all_repetitions",
    "DML.C24_draw_succeeds_iff",
    "DML.C24_empty_test_possible"
   ],
   "note": "all cluster structures, any number of cluster variables; C24_empty_test_possible records that test sets can be empty for two-way clustering"
  },
  {
   "property": "C25",
   "status": "partial",
   "theorems": [
    "DML.C25_accepted_iff_partial",
    "DML.C25_violated",
    "DML.C25_drawn_accepted"
   ],
   "note": "C25_violated: only the first fold of the first repetition is checked; C25_accepted_iff_partial characterises what is accepted"
  },
  {
   "property": "C26",
   "status": "partial",
   "theorems": [
    "DML.C26_plr",
    "DML.C26_pliv_multi",
    "DML.C26_pliv",
    "DML.C26_complete",
    "DML.C26_prediction_rule",
    "DML.C26_honest",
    "DML.C26_paths_agree",
    "DML.C26_prediction_rule_proba",
    "DML.C26_paths_agree_proba_partial",
    "DML.C26_violated",
    "DML.C26_stored_models"
   ],
   "note": "prediction rule, honesty and agreement of both code paths for every learner using predict; for classifiers if every training set has both classes; C26_violated: otherwise the manual path raises IndexError where the default path succeeds; at the level of fits for PLR and the PLIV variants"
  },
  {
   "property": "C27",
   "status": "proved",
   "theorems": [
    "DML.C27_irm",
    "DML.C27_apo",
    "DML.C27_iivm",
    "DML.C27_did",
    "DML.C27_didcs",
    "DML.C27_ssm",
    "DML.C27_training_sets",
    "DML.C27_training_sets_sorted",
    "DML.C27_partition",
    "DML.C27_training_sets_2d",
    "DML.C27_conditional_prediction",
    "DML.C27_targets",
    "DML.C27_pq",
    "DML.C27_cvar",
    "DML.C27_lpq",
    "DML.C27_ssm_nonignorable"
   ],
   "note": "at the level of the stored predictions for PLR, IRM, APO, IIVM, DiD, DiD-CS, SSM (both variants), PQ, CVaR and LPQ"
  },
  {
   "property": "C28",
   "status": "partial",
   "theorems": [
    "DML.C28_apos_rejects",
    "DML.C28_stored",
    "DML.C28_irm_learner_unused",
    "DML.C28_apo_learner_unused",
    "DML.C28_did_learner_unused",
    "DML.C28_plr_learner_unused",
    "DML.C28_pliv_learner_unused",
    "DML.C28_iivm_violated",
    "DML.C28_plivz_violated",
    "DML.C28_irm",
    "DML.C28_apo",
    "DML.C28_did",
    "DML.C28_didcs",
    "DML.C28_plr",
    "DML.C28_pliv",
    "DML.C28_iivm_partial",
    "DML.C28_apos_partial",
    "DML.C28_apos_violated",
    "DML.C28_accepted_iff",
    "DML.C28_addressed_partial",
    "DML.C28_verbatim",
    "DML.C28_estimated",
    "DML.C28_violated",
    "DML.C28_lpq_class",
    "DML.C28_lpq_learner_unused",
    "DML.C28_lpq_class_ignored",
    "DML.C28_lpq_ignored",
    "DML.C28_lpq_all",
    "DML.C28_pq_violated",
    "DML.C28_lpq_ignored_ok"
   ],
   "note": "acceptance characterised; addressed columns used verbatim for covered treatments; C28_violated: accepted dictionaries that leave out a treatment raise KeyError; DoubleMLAPOS hands the predictions of every level to its sub-model unchanged (C28_apos_partial), rejects malformed ones without changing the object (C28_apos_rejects) but raises KeyError for an accepted dictionary that leaves out a level (C28_apos_violated); C28_pq_violated: PQ reads supplied propensities at the wrong rows inside its preliminary step; C28_lpq_ignored: LPQ ignores a dictionary that leaves out one of its learners, C28_lpq_all, C28_lpq_class: a complete one is used verbatim; at the level of fits (C28_stored) for PLR, IRM, APO, DiD, DiD-CS, PLIV and partly IIVM; C28_iivm_violated: predictions supplied for an excluded subgroup are replaced; C28_plivz_violated: the partialZ and partialXZ variants ignore what is supplied"
  },
  {
   "property": "C29",
   "status": "partial",
   "theorems": [
    "DML.C29_linear_classes",
    "DML.C29_fit_from_settings",
    "DML.C29_results_of_current_split",
    "DML.C29_refit",
    "DML.C29_ssm_nonignorable",
    "DML.C29_lpq_violated",
    "DML.C29_pq_violated",
    "DML.C29_refit_kept",
    "DML.C29_cvar"
   ],
   "note": "proved for all classes whose results do not depend on a stored start value (plr_startFree: PLR is one); and for classes that read but keep it (C29_cvar: CVaR); C29_pq_violated: PQ overwrites its start value during fit, so a second fit of the same object gives other predictions; C29_lpq_violated: so does LPQ; C29_linear_classes: all linear-score classes"
  },
  {
   "property": "C30",
   "status": "partial",
   "theorems": [
    "DML.C30_estimates_reset_partial",
    "DML.C30_violated_inference",
    "DML.C30_violated_draw",
    "DML.C30_violated"
   ],
   "note": "estimates and arrays are reset by set_sample_splitting; C30_violated_*: inference answers from the old framework after a new split and draw_sample_splitting resets nothing"
  },
  {
   "property": "C31",
   "status": "partial",
   "theorems": [
    "DML.C31_snapshot_without_refit_partial",
    "DML.C31_snapshot_after_resplit_partial",
    "DML.C31_inference_keeps_results_partial",
    "DML.C31_violated"
   ],
   "note": "holds until the next fit on the same split; the arrays handed to the framework are shared, so a refit changes a framework held by the user"
  },
  {
   "property": "C32",
   "status": "proved",
   "theorems": [
    "DML.C32_right_columns",
    "DML.C32_other_treatments_irrelevant"
   ],
   "note": ""
  },
  {
   "property": "C33",
   "status": "proved",
   "theorems": [
    "DML.C33_roles_disjoint",
    "DML.C33_after_successful_assignment",
    "DML.C33_default_covariates_init",
    "DML.C33_default_covariates_set"
   ],
   "note": "success-only histories and, with failing calls in between, every state right after a successful assignment"
  },
  {
   "property": "C34",
   "status": "partial",
   "theorems": [
    "DML.C34_violated",
    "DML.C34_type_errors_no_effect_partial",
    "DML.C34_unknown_columns_no_effect_partial"
   ],
   "note": "C34_violated: overlapping assignments raise but stay in effect, and the next fit uses them; type errors, repeated and unknown columns have no effect (C34_*_partial)"
  },
  {
   "property": "C35",
   "status": "partial",
   "theorems": [
    "DML.C35_cached_arrays_fresh_partial",
    "DML.C35_violated_binary_treatment",
    "DML.C35_violated_binary_outcome"
   ],
   "note": "all cached arrays are fresh after successful calls; C35_violated_*: binary_treats and binary_outcome are not refreshed by the setters"
  },
  {
   "property": "C36",
   "status": "proved",
   "theorems": [
    "DML.C36_names_distinct",
    "DML.C36_from_arrays_round_trip",
    "DML.C36_from_arrays_accepts"
   ],
   "note": "any number of columns; finite arrays are accepted"
  },
  {
   "property": "C37",
   "status": "proved",
   "theorems": [
    "DML.C37_partialling_out_formula",
    "DML.C37_least_squares",
    "DML.C37_iv_moment",
    "DML.C37_shift_partialling_out",
    "DML.C37_shift_iv_type",
    "DML.C37_rescale",
    "DML.C37_location",
    "DML.C37_expansion",
    "DML.C37_orthogonal",
    "DML.C37_initial"
   ],
   "note": ""
  },
  {
   "property": "C38",
   "status": "proved",
   "theorems": [
    "DML.C38_irm_is_apo_contrast",
    "DML.C38_ate_is_apo_contrast",
    "DML.C38_ate_estimate",
    "DML.C38_pseudo_outcomes",
    "DML.C38_exact_outcome_model",
    "DML.C38_exact_propensity",
    "DML.C38_scale_weights",
    "DML.C38_atte_is_weighted_ate",
    "DML.C38_atte_formula"
   ],
   "note": "ATE = APO contrast also with normalisation; C38_irm_is_apo_contrast lifts it to whole model fits"
  },
  {
   "property": "C39",
   "status": "partial",
   "theorems": [
    "DML.C39_irm",
    "DML.C39_apo",
    "DML.C39_iivm",
    "DML.C39_did",
    "DML.C39_ssm",
    "DML.C39_pq",
    "DML.C39_cvar",
    "DML.C39_ssm_nonignorable",
    "DML.C39_accepted_iff",
    "DML.C39_range",
    "DML.C39_idempotent_monotone",
    "DML.C39_nearest",
    "DML.C39_weights_bounded",
    "DML.C39_normalised_bound",
    "DML.C39_normalised_violated",
    "DML.C39_ssm_violated"
   ],
   "note": "proved without normalisation; C39_normalised_violated: normalising afterwards breaks the 1/t bound; C39_ssm_violated: SSM selection probabilities are never trimmed; lifted to the stored propensities of IRM, APO, IIVM, DiD, SSM (both variants), PQ and CVaR"
  },
  {
   "property": "C40",
   "status": "partial",
   "theorems": [
    "DML.C40_weights_average_one",
    "DML.C40_relative_weights",
    "DML.C40_complement",
    "DML.C40_iivm_violated",
    "DML.C40_iivm_partial",
    "DML.C40_ssm_partial",
    "DML.C40_ssm_violated"
   ],
   "note": "proved for IRM, APO, PQ, CVaR, LPQ (common normalisation); C40_iivm_violated (normalises with d instead of z) and C40_ssm_violated (weights average to the treated share)"
  },
  {
   "property": "C41",
   "status": "proved",
   "theorems": [
    "DML.C41_wald",
    "DML.C41_full_compliance",
    "DML.C41_subgroups",
    "DML.C41_recode_instrument"
   ],
   "note": ""
  },
  {
   "property": "C42",
   "status": "proved",
   "theorems": [
    "DML.C42_weights_contrast",
    "DML.C42_location_outcome",
    "DML.C42_location",
    "DML.C42_unnormalised_formula",
    "DML.C42_experimental_formula",
    "DML.C42_cs_unnormalised_formula",
    "DML.C42_exact_outcome_model",
    "DML.C42_exact_formula",
    "DML.C42_training_share",
    "DML.C42_cs_weights",
    "DML.C42_cs_location_outcome",
    "DML.C42_cs_location",
    "DML.C42_cs_exact_outcome_model"
   ],
   "note": ""
  },
  {
   "property": "C43",
   "status": "proved",
   "theorems": [
    "DML.C43_bracket_search",
    "DML.C43_success_iff",
    "DML.C43_root_finder_precondition",
    "DML.C43_bracket_in_bounds",
    "DML.C43_estimate_in_bounds",
    "DML.C43_monotone",
    "DML.C43_step",
    "DML.C43_ipw_range",
    "DML.C43_pq_range",
    "DML.C43_unique_crossing",
    "DML.C43_lpq_preliminary",
    "DML.C43_lpq_not_monotone",
    "DML.C43_start_values"
   ],
   "note": "Exact arithmetic; scipy root finder and L-BFGS are parameters with in-bracket contracts. Bounds theorem assumes the start value within the outcome bounds, which C43_start_values shows for PQ, LPQ and CVaR; LPQ moment shown not monotone."
  },
  {
   "property": "C44",
   "status": "partial",
   "theorems": [
    "DML.C44_violated_raises",
    "DML.C44_succeeds_iff_partial",
    "DML.C44_violated_only_last",
    "DML.C44_returned_partial",
    "DML.C44_stored_partial",
    "DML.C44_global_partial",
    "DML.C44_plr_own_training_partial",
    "DML.C44_plr_prediction_partial",
    "DML.C44_violated_iv",
    "DML.C44_violated"
   ],
   "note": "stored parameters and end-to-end use proved for fold-wise tuning that succeeds and for global tuning; C44_violated_*: fold-wise tuning raises unless n_rep = n_treat, the returned table keeps only the last repetition, and the IV-type score tunes ml_g with information from outside the training set"
  },
  {
   "property": "C45",
   "status": "proved",
   "theorems": [
    "DML.C45_accepted_iff",
    "DML.C45_rejected_without_change",
    "DML.C45_set",
    "DML.C45_history",
    "DML.C45_initial",
    "DML.C45_used_in_fit",
    "DML.C45_plr_prediction"
   ],
   "note": "set_ml_nuisance_params with dict, nested list and None, for every history of calls; C45_plr_prediction carries it to the predictions of a fitted PLR model"
  },
  {
   "property": "C46",
   "status": "partial",
   "theorems": [
    "DML.C46_pointwise_partial",
    "DML.C46_rejects",
    "DML.C46_coefficients",
    "DML.C46_violated_coefficients",
    "DML.C46_joint_single",
    "DML.C46_joint_levels",
    "DML.C46_before_fit",
    "DML.C46_violated_joint"
   ],
   "note": "pointwise intervals for evaluated bases and GATEs have exactly the requested central probability; violated for the coefficients of a CATE (central probability (1+level)/2) and for joint intervals (maximum over bootstrap repetitions, quantile over points)"
  },
  {
   "property": "C47",
   "status": "partial",
   "theorems": [
    "DML.C47_accuracy_is_gain",
    "DML.C47_best_policy",
    "DML.C47_zero_signal",
    "DML.C47_fit_partial",
    "DML.C47_violated",
    "DML.C47_depth_violated",
    "DML.C47_predict",
    "DML.C47_rejects",
    "DML.C47_treat_all"
   ],
   "note": "labels, weights and objective proved; the tree learner of scikit-learn is a parameter (that its greedy search attains the best tree is not claimed); C47_violated: one observation with signal zero makes fit raise; C47_depth_violated: depth 0 passes the check and then raises"
  },
  {
   "property": "C48",
   "status": "proved",
   "theorems": [
    "DML.C48_pairs",
    "DML.C48_contrasts",
    "DML.C48_names",
    "DML.C48_rejects",
    "DML.C48_bias_sharper",
    "DML.C48_apos_total"
   ],
   "note": "pairs, order, names, values, bias bound, success after every successful fit of distinct levels, and rejections; classes of sub-models without clusters"
  },
  {
   "property": "C49",
   "status": "partial",
   "theorems": [
    "DML.C49_qte_partial",
    "DML.C49_apos_partial",
    "DML.C49_fit_uses_reported_split",
    "DML.C49_apos_violated",
    "DML.C49_apos_attribute_violated",
    "DML.C49_qte_violated",
    "DML.C49_apos_weights_violated"
   ],
   "note": "holds for QTE over all histories and for APOS over all histories without draw_sample_splitting; C49_apos_violated, C49_apos_attribute_violated, C49_qte_violated, C49_apos_weights_violated: draws of APOS do not reach the sub-models, and a set_sample_splitting that raises leaves models and reported split apart"
  },
  {
   "property": "C50",
   "status": "proved",
   "theorems": [
    "DML.C50_qte_total",
    "DML.C50_qte_effects"
   ],
   "note": "n_jobs_models=None"
  },
  {
   "property": "C51",
   "status": "partial",
   "theorems": [
    "DML.C51_kernels",
    "DML.C51_kernel_names",
    "DML.C51_training",
    "DML.C51_adjusted_by_type",
    "DML.C51_adjusted_partial",
    "DML.C51_treatment_partial",
    "DML.C51_violated"
   ],
   "note": "kernels proved; adjustment proved for floating point columns; C51_violated: integer columns truncate the first stage predictions"
  },
  {
   "property": "C52",
   "status": "proved",
   "theorems": [
    "DML.C52_aggregation",
    "DML.C52_ci",
    "DML.C52_confint",
    "DML.C52_single",
    "DML.C52_pval"
   ],
   "note": "the external rdrobust fit is a parameter"
  },
  {
   "property": "C53",
   "status": "proved",
   "theorems": [
    "DML.C53_accepted_iff",
    "DML.C53_rejected",
    "DML.C53_used",
    "DML.C53_atte_normalised"
   ],
   "note": ""
  },
  {
   "property": "C54",
   "status": "partial",
   "theorems": [
    "DML.C54_bool",
    "DML.C54_categorical",
    "DML.C54_one_int_partial",
    "DML.C54_violated",
    "DML.C54_rejected"
   ],
   "note": "boolean frames, one categorical column and one integer column are accepted; C54_violated: every frame with two or more integer dummy columns is rejected"
  },
  {
   "property": "C55",
   "status": "partial",
   "theorems": [
    "DML.C55_quant_partial",
    "DML.C55_quant_halves",
    "DML.C55_quant_complete",
    "DML.C55_lpq_partial",
    "DML.C55_lpq_halves",
    "DML.C55_ssm",
    "DML.C55_ssm_halves",
    "DML.C55_violated"
   ],
   "note": "SSM: proved in full (C55_ssm, C55_ssm_halves). PQ, CVaR and LPQ: predictions depend only on the training rows of their fold once the start value and bounds of the scalar minimisation are given, and the two halves are disjoint (C55_quant_partial, C55_quant_halves, C55_lpq_partial, C55_lpq_halves); C55_violated: the start value and the bounds are taken from all observations, test fold included"
  },
  {
   "property": "C56",
   "status": "proved",
   "theorems": [
    "DML.C56_plr",
    "DML.C56_moment",
    "DML.C56_rescale_instrument",
    "DML.C56_shift",
    "DML.C56_two_stage",
    "DML.C56_single_instrument",
    "DML.C56_partialXZ"
   ],
   "note": "the least-squares projection is a parameter with its normal equations as contract"
  },
  {
   "property": "C57",
   "status": "partial",
   "theorems": [
    "DML.C57_nonignorable_unselected",
    "DML.C57_unselected",
    "DML.C57_unselected_irrelevant",
    "DML.C57_full_selection",
    "DML.C57_exact_outcome_model"
   ],
   "note": "normalised weights do not average to one: see C40_ssm_violated"
  },
  {
   "property": "C58",
   "status": "partial",
   "theorems": [
    "DML.C58_irm",
    "DML.C58_apo",
    "DML.C58_iivm",
    "DML.C58_did",
    "DML.C58_didcs",
    "DML.C58_group_loss",
    "DML.C58_ssm_violated",
    "DML.C58_loss",
    "DML.C58_irrelevant",
    "DML.C58_listed",
    "DML.C58_evaluate",
    "DML.C58_rmse",
    "DML.C58_evaluate_matches_loss",
    "DML.C58_plr_loss",
    "DML.C58_violated_stale",
    "DML.C58_violated",
    "DML.C58_pq",
    "DML.C58_cvar",
    "DML.C58_lpq"
   ],
   "note": "Proved for every model class: the loss runs over the observations with a defined target only, other observations have no influence; after a fit that stores predictions the loss listed for (learner, treatment, repetition) is the one of the stored predictions of this triple, and evaluate_learners agrees with it. For PLR the loss is the RMSE of the out-of-fold predictions over all observations. Violated: after fit(store_predictions=False) evaluate_learners reports the previous fit (C58_violated_stale for every class, C58_violated concretely). Missing: evaluation after a re-split with more repetitions (IndexError in the code). For IRM, APO, IIVM, DiD, DiD-CS the target is defined exactly on the group a learner is trained for; for PQ, CVaR and LPQ exactly on the observations with the treatment or instrument value in question; C58_ssm_violated: not for SSM."
  },
  {
   "property": "C59",
   "status": "partial",
   "theorems": [
    "DML.C59_plr",
    "DML.C59_irm",
    "DML.C59_apo",
    "DML.C59_did",
    "DML.C59_did_cs_partial",
    "DML.C59_did_cs_violated",
    "DML.C59_did_cs_squares"
   ],
   "note": "C59_did_cs_violated: wrong signs for the unnormalised observational score of repeated cross-sections"
  },
  {
   "property": "C60",
   "status": "partial",
   "theorems": [
    "DML.C60_linear_classes_partial",
    "DML.C60_factor_partial",
    "DML.C60_same_folds_partial",
    "DML.C60_constructed_partial",
    "DML.C60_violated"
   ],
   "note": "Models created with the same number of folds and given the same split agree in all results (C60_same_folds_partial); models created with different numbers of folds agree in the estimates and in the standard errors up to the exact factor 1 (no clusters), sqrt(K'/K) (one-way), K'/K (two-way), because set_sample_splitting keeps the number of folds per cluster of the constructor. The full property is therefore false: C60_violated (factor 2 on a concrete clustered PLR model). C60_linear_classes_partial: every linear-score class."
  },
  {
   "property": "C61",
   "status": "proved",
   "theorems": [
    "DML.C61_refit",
    "DML.C61_repetitions"
   ],
   "note": ""
  },
  {
   "property": "C62",
   "status": "proved",
   "theorems": [
    "DML.C62_gate_mean",
    "DML.C62_categorical_groups",
    "DML.C62_boolean_groups",
    "DML.C62_gates_average_to_ate",
    "DML.C62_constant_irm",
    "DML.C62_not_implemented",
    "DML.C62_constant_plr",
    "DML.C62_constant_plr_iv"
   ],
   "note": "the least squares routine is a parameter with normal equations and HC0 formula as contract"
  },
  {
   "property": "C63",
   "status": "partial",
   "theorems": [
    "DML.C63_of_cells_one_or",
    "DML.C63_of_cells_one",
    "DML.C63_irm_or",
    "DML.C63_irm_binary",
    "DML.C63_apo_or",
    "DML.C63_apo_binary",
    "DML.C63_iivm_or",
    "DML.C63_iivm_binary",
    "DML.C63_did_binary",
    "DML.C63_didcs_binary",
    "DML.C63_ssm_binary",
    "DML.C63_irm_labels",
    "DML.C63_of_cells_or",
    "DML.C63_of_cells_many",
    "DML.C63_plr_many_or",
    "DML.C63_plr_many",
    "DML.C63_pliv_many",
    "DML.C63_pliv_instruments",
    "DML.C63_pliv_instruments_violated",
    "DML.C63_plivZ",
    "DML.C63_plivXZ",
    "DML.C63_of_cells_args",
    "DML.C63_of_cells",
    "DML.C63_irm",
    "DML.C63_apo",
    "DML.C63_iivm",
    "DML.C63_did",
    "DML.C63_didcs",
    "DML.C63_ssm",
    "DML.C63_pliv",
    "DML.C63_plr",
    "DML.C63_stratified",
    "DML.C63_no_split",
    "DML.C63_cluster_violated",
    "DML.C63_apos",
    "DML.C63_qte",
    "DML.C63_pq",
    "DML.C63_cvar",
    "DML.C63_lpq",
    "DML.C63_ssm_nonignorable",
    "DML.C63_pq_violated",
    "DML.C63_lpq_violated"
   ],
   "note": "Proved for PLR, IRM, APO, IIVM, DiD, DiD-CS, SSM (both variants), PLIV (one and several instruments, partialX, partialZ, partialXZ), CVaR, PQ and LPQ, without clusters, PLR and PLIV with any number of treatments, outcomes continuous or binary (C63_*_binary; C63_*_or: with a classifier for a binary outcome the only possible failure is the ValueError for predictions in {0,1}; C63_irm_labels), over all histories of draws, given splits, parameter assignments, tuning, fits and inference calls, with and without external predictions; learners are functions that never raise, also for an empty training set (a fold without selected treated units in SSM, or without units of one of the four groups in DiD-CS, trains such a learner). C63_cluster_violated: with clustered data, after set_sample_splitting with another number of folds a new draw leaves the recorded number of folds behind, and an accepted parameter dictionary then makes every fit raise an AssertionError. C63_no_split: without a split fit raises a TypeError. C63_pq_violated, C63_lpq_violated: PQ raises if models are to be stored and any prediction is supplied, LPQ if models are to be stored and all predictions are supplied; excluded in C63_pq and C63_lpq. C63_pliv_instruments_violated: PLIV with several instruments cannot be fitted if the name of an instrument contains ml_l or ml_r. C63_apos and C63_qte: the same for potential outcomes at several levels and quantile treatment effects (all three scores)."
  },
  {
   "property": "C64",
   "status": "partial",
   "theorems": [
    "DML.C64_irm_fit",
    "DML.C64_apo_fit",
    "DML.C64_did_fit",
    "DML.C64_didCs_fit",
    "DML.C64_iivm_fit",
    "DML.C64_ssm_fit",
    "DML.C64_plr_fit",
    "DML.C64_pliv_fit",
    "DML.C64_ssm_violated",
    "DML.C64_constant_violated",
    "DML.C64_stale_violated",
    "DML.C64_apos",
    "DML.C64_apos_object",
    "DML.C64_apos_fit",
    "DML.C64_apos_empty_violated",
    "DML.C64_apos_cluster_violated",
    "DML.C64_apos_undrawn",
    "DML.C64_qte",
    "DML.C64_qte_object",
    "DML.C64_qte_fit",
    "DML.C64_qte_default_violated",
    "DML.C64_qte_empty_violated",
    "DML.C64_qte_cluster_violated",
    "DML.C64_qte_undrawn",
    "DML.C64_base",
    "DML.C64_irm",
    "DML.C64_irm_object",
    "DML.C64_apo",
    "DML.C64_apo_object",
    "DML.C64_iivm",
    "DML.C64_iivm_object",
    "DML.C64_did",
    "DML.C64_did_object",
    "DML.C64_didCs",
    "DML.C64_didCs_object",
    "DML.C64_ssm",
    "DML.C64_ssm_object",
    "DML.C64_plr",
    "DML.C64_plr_object",
    "DML.C64_pliv",
    "DML.C64_pliv_object",
    "DML.C64_quant",
    "DML.C64_quant_object",
    "DML.C64_rdflex"
   ],
   "note": "Success of every constructor characterised (C64_irm, C64_apo, C64_iivm, C64_did, C64_didCs, C64_ssm, C64_plr, C64_pliv, C64_quant, C64_rdflex) for data not changed since their creation, the created object described (C64_*_object), and composed with C63 (C64_*_fit). C64_ssm_violated: SSM accepts several and non-binary treatments and selection indicators; C64_constant_violated: a constant treatment passes as binary; C64_stale_violated: after changing the treatment of the data PLR consults the old indicator. APOS and QTE: the constructor with and without a draw characterised (C64_apos, C64_qte, C64_apos_undrawn, C64_qte_undrawn), the object and its fit (C64_*_object, C64_*_fit). Violations there: an empty list of levels or quantiles is accepted and cannot be fitted (C64_*_empty_violated), clustered data pass all checks and the draw then raises (C64_*_cluster_violated), the default ml_m=None of QTE always raises (C64_qte_default_violated). Callable scores are not modelled."
  },
  {
   "property": "C65",
   "status": "proved",
   "theorems": [
    "DML.C65_accepts_iff",
    "DML.C65_content",
    "DML.C65_rejects",
    "DML.C65_roundtrip"
   ],
   "note": ""
  },
  {
   "property": "C66",
   "status": "proved",
   "theorems": [
    "DML.C66_target",
    "DML.C66_equivariant",
    "DML.C66_monotone",
    "DML.C66_doubly_robust",
    "DML.C66_minimal",
    "DML.C66_at_least_quantile"
   ],
   "note": "predictions and preliminary quantile are arbitrary; C66_minimal and C66_at_least_quantile for propensity weights of mean one"
  },
  {
   "property": "C67",
   "status": "proved",
   "theorems": [
    "DML.C67_outcome_units",
    "DML.C67_treatment_plr",
    "DML.C67_treatment_pliv",
    "DML.C67_instrument",
    "DML.C67_same_draws",
    "DML.C67_inference"
   ],
   "note": "whole fits; both fits are assumed not to raise (C63 says when); learners must respect affine changes of their target on non-empty training sets; PLIV with partialZ needs b=0; for APO with b other than zero the weights must not average to zero"
  },
  {
   "property": "C68",
   "status": "proved",
   "theorems": [
    "DML.C68_order",
    "DML.C68_data",
    "DML.C68_draws",
    "DML.C68_inference"
   ],
   "note": "whole fits; both fits are assumed not to raise (C63 says when); the projection of PLIV with several instruments must commute with permutations of the rows; the random draws without clusters are those that put the same observations into the same folds"
  },
  {
   "property": "C69",
   "status": "proved",
   "theorems": [
    "DML.C69_fit",
    "DML.C69_inference",
    "DML.C69_init",
    "DML.C69_data",
    "DML.C69_replaced",
    "DML.C69_order",
    "DML.C69_unused"
   ],
   "note": "classes with linear scores; learners are deterministic functions of their training data; predictions from both sets of covariates agree for every set of training observations and all targets"
  },
  {
   "property": "C70",
   "status": "partial",
   "theorems": [
    "DML.C70_is_refit",
    "DML.C70_history",
    "DML.C70_rows",
    "DML.C70_zero",
    "DML.C70_after_draw_violated",
    "DML.C70_after_set_violated"
   ],
   "note": "C70_is_refit (fits and inference calls before), C70_history (any history of draws, given splits, parameters, fits), C70_rows, C70_zero for the linear score classes. C70_after_draw_violated and C70_after_set_violated: after a new split without a refit the benchmark does not raise; it compares estimates of the old split with a short model on the new one, and after set_sample_splitting reports NaN for rho and delta_theta next to numbers for cf_y and cf_d."
  },
  {
   "property": "C71",
   "status": "proved",
   "theorems": [
    "DML.C71_ignores",
    "DML.C71_kernel_irrelevant",
    "DML.C71_iterations",
    "DML.C71_adjusted",
    "DML.C71_same_as_equal_weights",
    "DML.C71_created"
   ],
   "note": "whole fits of RDFlex; base learners are deterministic functions of their training data; the ValueError of the wrappers for a base learner of the wrong kind is not modelled"
  },
  {
   "property": "C72",
   "status": "partial",
   "theorems": [
    "DML.C72_plr",
    "DML.C72_irm",
    "DML.C72_apo",
    "DML.C72_iivm",
    "DML.C72_did",
    "DML.C72_didcs",
    "DML.C72_ssm",
    "DML.C72_pliv",
    "DML.C72_pliv_multi",
    "DML.C72_pliv_z",
    "DML.C72_pq",
    "DML.C72_cvar",
    "DML.C72_lpq",
    "DML.C72_violated_ssm_nonignorable"
   ],
   "note": "Proved for PLR, PLIV (one or several instruments, partialZ), IRM, APO, IIVM, DiD, DiD-CS and SSM (missing at random), and for the propensities of PQ, CVaR and LPQ. Weaker by design of the code: ml_g of the IV-type scores (tuned and trained on y - theta*d with different preliminary theta) and ml_g of PQ, CVaR, LPQ (tuned on the full training sample with the sample quantile, trained on its second half with the preliminary estimate of the fold); the theorems state exactly this. C72_violated_ssm_nonignorable: SSM with nonignorable nonresponse searches parameters of ml_g and ml_m without the column of selection probabilities the learners are trained with. Missing: ml_r of partialXZ."
  },
  {
   "property": "C73",
   "status": "partial",
   "theorems": [
    "DML.C73_plr",
    "DML.C73_plr_iv",
    "DML.C73_pliv",
    "DML.C73_pliv_iv",
    "DML.C73_pliv_z",
    "DML.C73_pliv_xz",
    "DML.C73_pliv_multi",
    "DML.C73_irm_ate",
    "DML.C73_irm_atte",
    "DML.C73_apo",
    "DML.C73_iivm",
    "DML.C73_did",
    "DML.C73_didcs",
    "DML.C73_ssm",
    "DML.C73_ssm_nonignorable",
    "DML.C73_pq",
    "DML.C73_cvar",
    "DML.C73_lpq"
   ],
   "note": "All classes with their built-in scores, as theorems about whole fits; IIVM and SSM without normalisation of the weights only: with normalisation the code deviates from the published scores (C40: IIVM normalises with the treatment instead of the instrument, SSM weights average to the treated share). Callable scores are the user's own. For PQ, CVaR and LPQ the statement says which function of the stored predictions is evaluated; the search for its root is external (C43, C66)."
  },
  {
   "property": "C74",
   "status": "proved",
   "theorems": [
    "DML.C74_plr",
    "DML.C74_plr_iv",
    "DML.C74_irm_ate",
    "DML.C74_irm_atte",
    "DML.C74_apo",
    "DML.C74_did",
    "DML.C74_didcs"
   ],
   "note": "All classes that implement the sensitivity elements, as theorems about whole fits. For the ATTE score with normalised weights the formula of the representer is stated for calibrated propensities only. For repeated cross-sections the squares of the representer are given; the signs of the unnormalised observational representer deviate from the published one (C59)."
  },
  {
   "property": "C75",
   "status": "proved",
   "theorems": [
    "DML.C75_plr",
    "DML.C75_irm",
    "DML.C75_iivm",
    "DML.C75_pliv",
    "DML.C75_raises",
    "DML.C75_plr_builtin",
    "DML.C75_plr_builtin_iv",
    "DML.C75_irm_builtin",
    "DML.C75_iivm_builtin",
    "DML.C75_pliv_builtin",
    "DML.C75_irm_weights"
   ],
   "note": "Whole fits. The elements are those of the same function call in the model and the specification; the reproduction of the IV-type score of PLR is for fits without external predictions, because with external ml_g the built-in score does not estimate ml_l while a callable score does. For clustered data the estimate is the cluster version of the root (C13). Sensitivity elements of callable scores stay NaN in the code; the model has none."
  },
  {
   "property": "C76",
   "status": "proved",
   "theorems": [
    "DML.C76_multipliers",
    "DML.C76_rejects",
    "DML.C76_refines",
    "DML.C76_bootstrap",
    "DML.C76_normal"
   ],
   "note": "Frameworks whose standard errors are the library's own (not clustered) and whose scores are not all zero. Independence and the laws of the draws are the contract of numpy's generator (NpDraws; draws_exist shows it can be met). Everything else is proved in measure theory, including the moments of the exponential distribution and the fourth moment of the normal distribution."
  },
  {
   "property": "C77",
   "status": "proved",
   "theorems": [
    "DML.C77_pool",
    "DML.C77_pool_completes",
    "DML.C77_cv_predict",
    "DML.C77_models",
    "DML.C77_qte",
    "DML.C77_apos",
    "DML.C77_threads",
    "DML.C77_threads_complete"
   ],
   "note": "Workers get a copy of their arguments (joblib processes) or share the objects (threads; atomic steps are the passes of the loop over repetitions and treatments and the parts before and after it). Learners are deterministic functions of their training data, as everywhere; learners that draw from a global random number generator are outside of the model. joblib returns results in the order of the tasks and raises the exception of a failed task (contract in JobPool.step)."
  },
  {
   "property": "C78",
   "status": "partial",
   "theorems": [
    "DML.C78_irm_causal",
    "DML.C78_iivm_causal",
    "DML.C78_did_causal",
    "DML.C78_did_cs_causal",
    "DML.C78_ssm_causal",
    "DML.C78_ssm",
    "DML.C78_did_cs_elementwise",
    "DML.C78_did_cs",
    "DML.C78_did_cs_experimental",
    "DML.C78_elementwise",
    "DML.C78_pliv_po",
    "DML.C78_plr_po",
    "DML.C78_pliv_iv",
    "DML.C78_plr_iv",
    "DML.C78_irm_ate",
    "DML.C78_apo",
    "DML.C78_atte_sample",
    "DML.C78_irm_atte",
    "DML.C78_did",
    "DML.C78_did_experimental",
    "DML.C78_iivm",
    "DML.C78_pq",
    "DML.C78_pq_preliminary",
    "DML.C78_cvar",
    "DML.C78_cvar_meaning",
    "DML.C78_cvar_quantile",
    "DML.C78_lpq",
    "DML.C78_lpq_share",
    "DML.C78_lpq_share_violated"
   ],
   "note": "Scores without normalised propensities, unweighted, one instrument; the function that is integrated is the coded _score_elements applied to a sample of one observation (C78_elementwise shows that the coded score of an observation depends only on that observation), for ATTE and DiD with the treated share as a fixed number. PQ, LPQ and CVaR: C78_pq, C78_pq_preliminary, C78_lpq, C78_lpq_share, C78_cvar, C78_cvar_meaning, C78_cvar_quantile. Violated by LPQ: the expected score changes to first order with the share of the compliers, which is estimated (C78_lpq_share_violated); proved for its nuisance functions. Nonignorable nonresponse is not covered."
  },
  {
   "property": "C79",
   "status": "proved",
   "theorems": [
    "DML.C79_did_cs_normalized",
    "DML.C79_did_cs_experimental_normalized",
    "DML.C79_did_cs",
    "DML.C79_did_cs_experimental",
    "DML.C79_did_normalized",
    "DML.C79_irm_ate",
    "DML.C79_irm_atte",
    "DML.C79_apo",
    "DML.C79_iivm",
    "DML.C79_plr",
    "DML.C79_pliv",
    "DML.C79_did",
    "DML.C79_did_experimental",
    "DML.C79_did_experimental_normalized",
    "DML.C79_ssm",
    "DML.C79_irm_ate_normalized",
    "DML.C79_irm_atte_normalized",
    "DML.C79_apo_normalized",
    "DML.C79_plr_treatments",
    "DML.C79_treatments"
   ],
   "note": "Whole fits with random data; unclustered, one treatment (PLR also with several: C79_plr_treatments; C79_treatments for any class of C85), unweighted, no external predictions, no tuning, continuous outcome; normalised propensities for IRM, APO and both DiD classes. The split is any (balanced or stratified) split the package can draw, fixed before the data (i.e. conditional on the draw; stratified draws may depend on the treatment). Not covered: the IV-type scores (their ml_g is trained on residuals of an initial estimate from the whole sample, so it is not honest), IIVM with normalised propensities (C40), SSM with normalised weights (C40) or nonignorable nonresponse, and the quantile models."
  },
  {
   "property": "C80",
   "status": "partial",
   "theorems": [
    "DML.C80_irm",
    "DML.C80_irm_r2",
    "DML.C80_irm_overlap_violated",
    "DML.C80_irm_atte_violated",
    "DML.C80_pliv",
    "DML.C80_pliv_chs",
    "DML.C80_plr_ccddhnr",
    "DML.C80_plr_turrell",
    "DML.C80_plr_ccddhnr_fit",
    "DML.C80_did",
    "DML.C80_confounded_irm",
    "DML.C80_confounded_irm_short_violated",
    "DML.C80_confounded_plr",
    "DML.C80_levels",
    "DML.C80_levels_violated",
    "DML.C80_rdd",
    "DML.C80_rdd_first_stage",
    "DML.C80_returns_plr_ccddhnr",
    "DML.C80_returns_plr_turrell",
    "DML.C80_returns_irm",
    "DML.C80_returns_iivm",
    "DML.C80_returns_pliv",
    "DML.C80_returns_pliv_chs",
    "DML.C80_returns_ssm",
    "DML.C80_returns_did",
    "DML.C80_iivm",
    "DML.C80_iivm_late",
    "DML.C80_ssm_mar",
    "DML.C80_het",
    "DML.C80_het_overlap_violated"
   ],
   "note": "Violated: make_irm_data and make_heterogeneous_data (binary) have propensities arbitrarily close to 0 and 1 (or equal to 1), the effect on the treated in make_irm_data is larger than theta, g_short of make_confounded_irm_data is not the conditional mean, the levels of make_irm_data_discrete_treatments do not have equal probabilities. Distributions of the draws are those numpy documents (independent normal, uniform and Bernoulli draws); covariates of make_irm_data, make_iivm_data and make_ssm_data are any centred Gaussian vector (with the covariance of the code where R2 matters), elsewhere arbitrary. Not covered: fetch_401K, fetch_bonus, make_pliv_multiway_cluster_CKMS2021, rho_ate and rho_atte, binary outcome of make_simple_rdd_data, make_ssm_data without mar (beyond the returned values)."
  },
  {
   "property": "C81",
   "status": "partial",
   "theorems": [
    "DML.C81_storing_is_harmless",
    "DML.C81_irm",
    "DML.C81_apo",
    "DML.C81_iivm",
    "DML.C81_did",
    "DML.C81_didcs",
    "DML.C81_plr",
    "DML.C81_pliv",
    "DML.C81_pliv_multi",
    "DML.C81_ssm",
    "DML.C81_pliv_z",
    "DML.C81_pliv_xz",
    "DML.C81_pq",
    "DML.C81_cvar",
    "DML.C81_lpq",
    "DML.C81_ssm_nonignorable",
    "DML.C81_fit",
    "DML.C81_missing_class_violated",
    "DML.C81_kept_models",
    "DML.C81_stale_models_violated"
   ],
   "note": "Violated: storing models makes the package predict fold by fold, and a classifier whose training set misses a class then raises IndexError (C81_missing_class_violated; the fit without stored models succeeds); a later fit without store_models leaves the models of the earlier fit in the object next to the new predictions (C81_stale_models_violated). Proved for all fifteen classes: contents of the models of a cell (C81_irm, ...), carried to whole fits by C81_fit, and C81_storing_is_harmless for whole fits (classifiers with one column per class and targets 0 and 1). See also C63 for PQ and LPQ with supplied predictions."
  },
  {
   "property": "C82",
   "status": "partial",
   "theorems": [
    "DML.C82_coefficients_violated",
    "DML.C82_irm_cate",
    "DML.C82_irm_gate",
    "DML.C82_apo_capo",
    "DML.C82_apo_gapo"
   ],
   "note": "Violated: confint(level) without a basis, for cate and capo, has coverage tending to (1 + level)/2 instead of level (C82_coefficients_violated; alpha is halved twice, C46). Everything else is proved for whole fits: unnormalised propensities, unweighted, one treatment, continuous outcome, no external predictions. Statsmodels is assumed to solve the normal equations with HC0 covariance when the columns of the basis are linearly independent (OlsSpec) and arbitrary otherwise. Boolean groups; joint intervals are not covered (C46 shows that they are not joint)."
  },
  {
   "property": "C83",
   "status": "partial",
   "theorems": [
    "DML.C83_irm_violated",
    "DML.C83_irm_scale",
    "DML.C83_apo_scale",
    "DML.C83_irm_average_partial",
    "DML.C83_apo_average_partial",
    "DML.C83_irm_group",
    "DML.C83_apo_group",
    "DML.C83_atte_group",
    "DML.C83_atte_parts"
   ],
   "note": "Violated for weights whose average is not one: they are accepted, and multiplying the weights by x multiplies the estimate, the standard error, the scores and the sensitivity bounds by x (C83_irm_scale, C83_apo_scale for whole fits, clusters and weights_bar included; C83_irm_violated: constant weights 2 double the estimate). Proved for weights that average one (no clusters, no weights_bar): C83_*_average_partial; normalised indicators of groups give the results of gate and gapo (C83_*_group). For ATTE, whose weights must be indicators, the estimate is the effect on the treated of the subgroup (C83_atte_group, C83_atte_parts)."
  },
  {
   "property": "C84",
   "status": "proved",
   "theorems": [
    "DML.C84_apo_levels",
    "DML.C84_apo_contrasts",
    "DML.C84_plr_treatments",
    "DML.C84_concat",
    "DML.C84_fit",
    "DML.C84_apos",
    "DML.C84_contrast",
    "DML.C84_treatments"
   ],
   "note": "C84_fit: any fitted model with the conclusion of C79. C84_concat: several such models. C84_plr_treatments: PLR with several treatments, created and fitted; C84_treatments: any class of C85 with several treatments whose models with one treatment have the conclusion of C79. C84_apo_levels and C84_apo_contrasts: DoubleMLAPOS and causal_contrast under the assumptions of C79_apo at every level (unit weights, no normalisation, no clusters); C84_apos and C84_contrast state the same for any sub-models with influence functions. Multipliers are independent standard normal variables, independent of the data."
  },
  {
   "property": "C85",
   "status": "proved",
   "theorems": [
    "DML.C85_created",
    "DML.C85_separate"
   ],
   "note": "Classes of SeveralClass: PLR, PLIV (one instrument, several instruments, partialling out of the instruments and of both). Both fits are assumed to succeed (C63 says when). C85_created states it from the constructors: the data object with one treatment is created from the same frame, the models with the same arguments and draws. C85_separate: any two objects with the same active columns, splits and parameters (Alone), whatever happened before."
  },
  {
   "property": "C86",
   "status": "partial",
   "theorems": [
    "DML.C86_gate_violated",
    "DML.C86_cate",
    "DML.C86_gate_weighted",
    "DML.C86_gate_partial"
   ],
   "note": "Violated: the intervals of gate cover the average effect of a group with vanishing probability if the effect and the variation of the treatment are related within the group (C86_gate_violated: average effect 2, limit 14/5); the limit is the average weighted by the squared residual of the treatment (C86_gate_weighted). Proved for groups with a common effect (C86_gate_partial). cate is proved in full (C86_cate), with the same assumption about statsmodels as in C82; as there, confint(level) without a basis has coverage (1 + level)/2. Regression learner for the treatment, no clusters, no external predictions."
  },
  {
   "property": "C87",
   "status": "partial",
   "theorems": [
    "DML.C87_limits_consistent",
    "DML.C87_inside",
    "DML.C87_outside",
    "DML.C87_no_confounding",
    "DML.C87_exchanged",
    "DML.C87_violated",
    "DML.C87_bounds",
    "DML.C87_limits",
    "DML.C87_cover_partial"
   ],
   "note": "Violated: the standard errors of the two bounds are exchanged, because the scores of the framework are minus the influence function of the coefficient while psi_max_bias is the influence function of the bias bound. C87_violated: with cf_y = cf_d = 0.75, rho = 1 and an error whose skewness depends on the treatment, the upper limit is above the upper bound with probability tending to Phi(z/3), 0.71 for a level of 0.95. C87_limits gives the limits of the coverage in general; C87_exchanged: with one repetition, exchanging the two reported half-widths gives limits with the right coverage. C87_bounds and C87_limits_consistent (consistency of the bounds and of the limits), C87_inside and C87_outside are proved as stated; C87_no_confounding: the coverage is right for strength zero. C87_cover_partial: the coverage is right if the residual of the treatment is uncorrelated with the cube of the error. Score partialling out, one treatment, regression learner for the treatment, no clusters, no external predictions."
  }
 ]
}