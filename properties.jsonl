{"id": "C01", "title": "Arithmetic on frameworks equals direct inference on the combined influence function", "statement": "For result objects that were computed on the same (non-clustered) observations, every expression built with +, - and multiplication by a non-negative number reports estimates, per-repetition estimates, standard errors and influence functions identical to those obtained by first forming the same linear combination of the estimates and influence functions and then computing the standard errors and the aggregation over repetitions once.", "quantifier": "all numbers of observations, parameters and repetitions, all influence functions, all expression trees of any depth with non-negative scalars", "why_tests_cant": "Tests compare a handful of sums; the claim ranges over arbitrary nested expressions and the SE/aggregation formulas interact (scalar multiplication scales stored SEs, addition recomputes them).", "anchors": ["doubleml/double_ml_framework.py:DoubleMLFramework.__add__", "doubleml/double_ml_framework.py:DoubleMLFramework.__sub__", "doubleml/double_ml_framework.py:DoubleMLFramework.__mul__", "doubleml/utils/_estimation.py:_aggregate_coefs_and_ses"]}
{"id": "C02", "title": "Standard errors never become negative and intervals never invert", "statement": "Multiplying a result object by any real number yields non-negative standard errors and confidence intervals whose lower end does not exceed the upper end.", "quantifier": "all scalars (positive, zero, negative), all result objects with non-negative SEs, all levels in (0,1)", "why_tests_cant": "Sign errors only show for negative scalars, and every later operation inherits the sign.", "anchors": ["doubleml/double_ml_framework.py:DoubleMLFramework.__mul__", "doubleml/double_ml_framework.py:DoubleMLFramework.confint"]}
{"id": "C03", "title": "Framework addition is a commutative, associative, cancellative operation", "statement": "A+B and B+A, and (A+B)+C and A+(B+C), report the same estimates and standard errors; (A+B)-B reports the estimates and standard errors of A whenever A's standard errors are consistent with its influence function; c*(A+B) equals c*A+c*B for c>=0; number*A equals A*number.", "quantifier": "all compatible result objects and all non-negative scalars", "why_tests_cant": "An algebraic law quantifies over all triples of objects.", "anchors": ["doubleml/double_ml_framework.py:DoubleMLFramework.__add__", "doubleml/double_ml_framework.py:DoubleMLFramework.__sub__", "doubleml/double_ml_framework.py:DoubleMLFramework.__radd__", "doubleml/double_ml_framework.py:DoubleMLFramework.__rmul__"]}
{"id": "C04", "title": "Cluster-robust standard errors survive framework arithmetic", "statement": "If a result object was computed with cluster-robust standard errors, then A+A reports the same standard errors as 2*A (arithmetic keeps the clustering).", "quantifier": "all clustered result objects", "why_tests_cant": "The formula used after addition is correct on i.i.d. data, so only clustered data with correlated scores reveal the difference.", "anchors": ["doubleml/double_ml_framework.py:DoubleMLFramework.__add__", "doubleml/utils/_estimation.py:_var_est"]}
{"id": "C05", "title": "Concatenation keeps every parameter's inference unchanged and in order", "statement": "concat([A1,...,Ak]) lists the parameters of A1, then A2, ... in order; estimate, SE, t-statistic, p-value, pointwise confidence interval, sensitivity bounds of every parameter equal those of the object it came from; nesting concat does not matter; the call is rejected for an empty list, mismatching numbers of observations or repetitions, or clustered inputs.", "quantifier": "all non-empty lists of result objects of all sizes", "why_tests_cant": "Lists of arbitrary length and arbitrary shapes.", "anchors": ["doubleml/double_ml_framework.py:concat", "doubleml/double_ml_framework.py:DoubleMLFramework.confint"]}
{"id": "C06", "title": "Joint inference is only available after a successful bootstrap and failed calls change nothing", "statement": "In any sequence of bootstrap / confint / p_adjust / sensitivity calls on a result object: joint confidence intervals and Romano-Wolf p-values are served iff some earlier bootstrap call on that object succeeded, and they use the draws of the latest successful one; a rejected call leaves the object exactly as it was; objects produced by arithmetic or concat start without a bootstrap.", "quantifier": "all finite histories of calls with valid and invalid arguments", "why_tests_cant": "The number of histories is unbounded.", "anchors": ["doubleml/double_ml_framework.py:DoubleMLFramework.bootstrap", "doubleml/double_ml_framework.py:DoubleMLFramework.confint", "doubleml/double_ml_framework.py:DoubleMLFramework.p_adjust", "doubleml/utils/_checks.py:_check_bootstrap"]}
{"id": "C07", "title": "Confidence intervals contain the estimate and are nested in the level", "statement": "For every object with non-negative SEs, every n_rep and every level, the (pointwise and joint) confidence interval contains the reported estimate, and a higher level gives a superset interval; the joint interval for more parameters contains the joint interval computed from fewer of them with the same draws.", "quantifier": "all result objects, all numbers of repetitions (odd and even), all levels 0<a<=b<1, all bootstrap draws", "why_tests_cant": "The interval ends are medians over repetitions; containment for even and odd n_rep is a statement about all real matrices.", "anchors": ["doubleml/double_ml_framework.py:DoubleMLFramework.confint"]}
{"id": "C08", "title": "Aggregation over repeated sample splits is order independent, equivariant and conservative", "statement": "The reported estimate and SE do not depend on the order of the repetitions, equal the single values for n_rep=1, lie (estimate) between the smallest and largest repetition, are equivariant under shifting/rescaling all repetitions, and the aggregated SE is at least the median of the per-repetition SEs.", "quantifier": "all n_rep>=1 and all per-repetition values", "why_tests_cant": "Order independence/equivariance are universally quantified over permutations and reals.", "anchors": ["doubleml/utils/_estimation.py:_aggregate_coefs_and_ses", "doubleml/double_ml_framework.py:DoubleMLFramework.__add__", "doubleml/double_ml.py:DoubleML.fit"]}
{"id": "C09", "title": "p-values and confidence intervals agree", "statement": "With one repetition the reported p-value is below 1-level exactly when the pointwise interval excludes zero; the p-value shown by the model object equals the one of its framework; p-values lie in [0,1], depend on the estimate only through its absolute t-statistic and decrease in it.", "quantifier": "all result objects, all levels; n_rep=1 and n_rep>1 separately", "why_tests_cant": "Agreement for n_rep>1 involves medians of non-linear transforms; only particular configurations disagree.", "anchors": ["doubleml/double_ml_framework.py:DoubleMLFramework.pvals", "doubleml/double_ml_framework.py:DoubleMLFramework.confint", "doubleml/double_ml.py:DoubleML.pval"]}
{"id": "C10", "title": "Bootstrap t-statistics are studentized linear statistics of the influence function", "statement": "For a consistent non-clustered result each bootstrap t-statistic is a linear combination of the drawn multipliers whose squared coefficients sum to one, is invariant under rescaling the result by a positive number, and flips sign if the influence function does; repetition r only uses the influence function of repetition r.", "quantifier": "all result objects, all draws, all positive rescalings", "why_tests_cant": "Quantifies over all influence functions and draws.", "anchors": ["doubleml/double_ml_framework.py:DoubleMLFramework.bootstrap"]}
{"id": "C11", "title": "Romano-Wolf p-values follow the step-down definition irrespective of ordering and ties", "statement": "p_adjust('romano-wolf') returns for every hypothesis the largest, over all hypotheses at least as significant, of the bootstrap probability that the maximal absolute statistic among hypotheses not more significant reaches it; the result does not depend on the order in which parameters are listed or on how ties are sorted.", "quantifier": "all numbers of hypotheses and draws, all statistics with or without ties, all permutations", "why_tests_cant": "Ties and permutations are combinatorial; the code sorts, runs a cumulative max and un-sorts.", "anchors": ["doubleml/double_ml_framework.py:DoubleMLFramework.p_adjust"]}
{"id": "C12", "title": "Romano-Wolf p-values are valid p-values, monotone in significance and never below single-hypothesis bootstrap p-values", "statement": "Adjusted p-values lie in [0,1]; a larger |t| never receives a larger adjusted p-value; every adjusted p-value is at least the unadjusted bootstrap p-value and at most the single-step max-t p-value.", "quantifier": "all numbers of hypotheses and draws", "why_tests_cant": "Universal over all draws.", "anchors": ["doubleml/double_ml_framework.py:DoubleMLFramework.p_adjust"]}
{"id": "C13", "title": "Sensitivity bounds bracket the estimate and grow with the assumed confounding", "statement": "lower <= theta <= upper; bounds widen when cf_y, cf_d or |rho| increase, do not depend on the sign of rho, and collapse to the estimate if cf_y=0, cf_d=0 or rho=0; the confidence bounds lie outside the theta bounds for level>=0.5.", "quantifier": "all result objects with sensitivity elements, all cf_y, cf_d in [0,1), rho in [-1,1], all n_rep", "why_tests_cant": "A monotonicity claim over a continuum of scenarios.", "anchors": ["doubleml/double_ml_framework.py:DoubleMLFramework._calc_sensitivity_analysis", "doubleml/double_ml_framework.py:DoubleMLFramework.sensitivity_analysis"]}
{"id": "C14", "title": "Invalid inference parameters are rejected before anything is stored", "statement": "sensitivity_analysis accepts exactly: cf_y, cf_d floats in [0,1), rho a float in [-1,1], level a float in (0,1), null hypothesis a float or an array with one entry per parameter; every other call raises and the previously stored sensitivity results are kept.", "quantifier": "all argument tuples of all modelled types and all histories", "why_tests_cant": "Boundary values and type confusions form an infinite domain.", "anchors": ["doubleml/double_ml_framework.py:DoubleMLFramework.sensitivity_analysis", "doubleml/utils/_checks.py:_check_in_zero_one", "doubleml/utils/_checks.py:_check_float"]}
{"id": "C15", "title": "The robustness value is the smallest confounding strength that moves the bound to the null", "statement": "With cf_y=cf_d=v the bound moves monotonically and continuously in v, hence hits the null hypothesis for exactly one v in [0,1) whenever max_bias>0, and that v has the closed form (sqrt(k^4+4k^2)-k^2)/2 with k=|theta-H0|/(|rho|*max_bias).", "quantifier": "all estimates, null hypotheses and max_bias>0 (single repetition)", "why_tests_cant": "Uniqueness over a continuum.", "anchors": ["doubleml/double_ml_framework.py:DoubleMLFramework._calc_robustness_value"]}
{"id": "C16", "title": "sensitivity_plot evaluates the requested null hypothesis", "statement": "The figure produced by sensitivity_plot marks the null hypothesis passed by the caller, and works without a previous sensitivity_analysis when include_scenario=False.", "quantifier": "all arguments and histories", "why_tests_cant": "The argument is accepted but the stored one is used; only unequal values reveal it.", "anchors": ["doubleml/double_ml_framework.py:DoubleMLFramework.sensitivity_plot"]}
{"id": "C17", "title": "Sensitivity elements are always usable after fit", "statement": "After fit every reported sigma2 and nu2 is non-negative (nu2 after the fall-back), max_bias is the non-negative square root of their product, and the influence functions of sigma2 and nu2 average to zero whenever no fall-back was used.", "quantifier": "all data, all predictions, all models PLR/IRM/APO/DiD", "why_tests_cant": "nu2 can be negative only for extreme propensities.", "anchors": ["doubleml/double_ml.py:DoubleML._validate_sensitivity_elements", "doubleml/utils/_sensitivity.py:_compute_sensitivity_bias"]}
{"id": "C18", "title": "Benchmark strengths are proper shares", "statement": "gain_statistics / sensitivity_benchmark return cf_y and cf_d in [0,1] and rho in [-1,1], zero if the benchmarked covariates change neither the fit nor the Riesz representer, and delta_theta is the median change of the estimate.", "quantifier": "all pairs of long and short models", "why_tests_cant": "Division by zero and clipping corner cases.", "anchors": ["doubleml/utils/gain_statistics.py:gain_statistics", "doubleml/double_ml.py:DoubleML.sensitivity_benchmark"]}
{"id": "C19", "title": "The estimate solves the empirical moment condition, uniquely", "statement": "For linear scores the estimate of every treatment and repetition makes the average score (with clustering: the cluster-weighted average) exactly zero, it is the only value that does if the average derivative is non-zero, and the stored influence function of a non-clustered fit averages to zero.", "quantifier": "all score elements with non-zero mean derivative, all numbers of observations and folds", "why_tests_cant": "Holds for all data.", "anchors": ["doubleml/double_ml_score_mixins.py:LinearScoreMixin._est_coef", "doubleml/double_ml.py:DoubleML._est_causal_pars", "doubleml/double_ml.py:DoubleML.construct_framework"]}
{"id": "C20", "title": "Standard errors behave like standard errors", "statement": "The standard error is non-negative, zero iff all scores vanish, scales with |c| under y->c*y type rescaling of the score elements, is invariant under rescaling of the moment condition, does not depend on the order of observations, and duplicating the sample k times divides its square by k.", "quantifier": "all score vectors", "why_tests_cant": "Universal over reals and permutations.", "anchors": ["doubleml/utils/_estimation.py:_var_est", "doubleml/double_ml.py:DoubleML._se_causal_pars"]}
{"id": "C21", "title": "Clustered variance reduces to the i.i.d. variance for singleton clusters", "statement": "If every observation is its own cluster and folds have equal size, one-way clustered standard errors and estimates equal the non-clustered ones; clustered variances are non-negative; one-way clustering where all observations share the fold structure is invariant to relabelling clusters and observation order. The two-way estimate weights every fold by the product of the cluster shares, so that for a complete two-way design with one observation per cell it equals the unclustered estimate, and replicating every observation within its cluster changes neither estimate nor variance.", "quantifier": "all data and all balanced splits", "why_tests_cant": "Needs all data/splits; code computes per-fold sums.", "anchors": ["doubleml/utils/_estimation.py:_var_est", "doubleml/double_ml_score_mixins.py:LinearScoreMixin._est_coef", "doubleml/double_ml.py:DoubleML._est_causal_pars"]}
{"id": "C22", "title": "Accepted sample splits are valid cross-fitting partitions", "statement": "If set_sample_splitting accepts a specification then in every repetition the test sets are disjoint and cover all observations exactly once, all indices are in range and without repetition, and train and test sets are disjoint (except for the documented one-fold case train=test=all).", "quantifier": "all nested lists/tuples of index lists, all n_obs", "why_tests_cant": "Input space is unbounded.", "anchors": ["doubleml/utils/_checks.py:_check_sample_splitting", "doubleml/utils/_checks.py:_check_is_partition", "doubleml/utils/_checks.py:_check_smpl_split_tpl", "doubleml/double_ml.py:DoubleML.set_sample_splitting"]}
{"id": "C23", "title": "Drawn splits are valid, balanced partitions and are accepted when set explicitly", "statement": "For every n_obs >= n_folds >= 2 and every random permutation, each repetition of a drawn split has n_folds test sets whose sizes differ by at most one, that partition the observations, with train sets the exact complements; every repetition has its own n_folds entries in order; passing the drawn split back to set_sample_splitting is accepted and leaves n_folds and n_rep unchanged.", "quantifier": "all n_obs, n_folds, n_rep and permutations", "why_tests_cant": "Random; unbounded sizes.", "anchors": ["doubleml/utils/resampling.py:DoubleMLResampling.split_samples", "doubleml/double_ml.py:DoubleML.draw_sample_splitting", "doubleml/utils/_checks.py:_check_sample_splitting"]}
{"id": "C24", "title": "Cluster splits never leak a cluster between training and test", "statement": "For cluster data drawn splits have n_folds^(number of cluster variables) folds per repetition, the test sets partition the observations, and no training observation shares a cluster (in any dimension) with a test observation of the same fold; training sets contain exactly the observations all of whose clusters are outside the test clusters.", "quantifier": "all assignments of observations to clusters in one or two dimensions, all n_folds", "why_tests_cant": "Combinatorial over cluster structures.", "anchors": ["doubleml/utils/resampling.py:DoubleMLClusterResampling.split_samples", "doubleml/double_ml.py:DoubleML.draw_sample_splitting"]}
{"id": "C25", "title": "User-supplied cluster splits are validated", "statement": "set_sample_splitting with cluster data accepts a cluster split only if in every repetition and fold the cluster test sets form a partition of the clusters.", "quantifier": "all supplied cluster splits with any number of repetitions and folds", "why_tests_cant": "Only the first repetition/fold is exercised by small tests.", "anchors": ["doubleml/utils/_checks.py:_check_cluster_sample_splitting"]}
{"id": "C26", "title": "Cross-fitted predictions are honest and complete", "statement": "With a valid partition every observation receives exactly one prediction, made by the learner fitted on the training set of the fold whose test set contains it; the prediction does not change when outcomes of observations outside that training set change; this holds for the plain, the fold-specific-parameter, the conditional-subsample, the fold-specific-target and the stored-model paths, and both code paths agree.", "quantifier": "all learners (deterministic functions of their training data), all data, all valid splits", "why_tests_cant": "Leakage is invisible in point estimates; quantifies over all learners.", "anchors": ["doubleml/utils/_estimation.py:_dml_cv_predict", "doubleml/utils/_estimation.py:_get_cond_smpls", "doubleml/utils/_estimation.py:_get_cond_smpls_2d"]}
{"id": "C27", "title": "Conditional nuisance functions are trained only on the matching subsample", "statement": "g(0,X)/g(1,X) style learners are trained exactly on the training observations with the stated treatment (and time/selection/instrument) value, while predictions are still produced for all test observations.", "quantifier": "all splits and all binary indicators", "why_tests_cant": "Universal over indicator vectors.", "anchors": ["doubleml/utils/_estimation.py:_get_cond_smpls", "doubleml/utils/_estimation.py:_get_cond_smpls_2d", "doubleml/utils/_estimation.py:_cond_targets"]}
{"id": "C28", "title": "External predictions are used verbatim for exactly the addressed nuisance, treatment and repetition", "statement": "When valid external predictions are supplied the corresponding nuisance predictions are the supplied columns for the right repetition (propensities trimmed), other nuisances are estimated as usual; malformed dictionaries (unknown treatment, unknown learner, wrong shape) are rejected.", "quantifier": "all dictionaries of predictions, all n_rep, all treatments", "why_tests_cant": "Nested dictionaries with many partial combinations.", "anchors": ["doubleml/utils/_checks.py:_check_external_predictions", "doubleml/utils/_estimation.py:_set_external_predictions", "doubleml/double_ml.py:DoubleML.fit", "doubleml/irm/lpq.py:DoubleMLLPQ._nuisance_est", "doubleml/irm/apos.py:DoubleMLAPOS._rename_external_predictions", "doubleml/irm/pq.py:DoubleMLPQ._nuisance_est"]}
{"id": "C29", "title": "fit is a function of data, split and settings, not of the history", "statement": "For deterministic learners calling fit again (after any sequence of fit, bootstrap, confint, tune-free calls) reproduces the same estimates; the results reported after fit belong to the current sample split.", "quantifier": "all histories of API calls", "why_tests_cant": "Histories are unbounded; stale state only shows in particular orders.", "anchors": ["doubleml/double_ml.py:DoubleML.fit", "doubleml/double_ml.py:DoubleML.set_sample_splitting", "doubleml/double_ml.py:DoubleML.construct_framework"]}
{"id": "C30", "title": "Changing the sample split discards all earlier results", "statement": "After set_sample_splitting / draw_sample_splitting the model no longer serves inference (confint, bootstrap, p_adjust, sensitivity, summary) based on the previous split until fit is called again.", "quantifier": "all histories", "why_tests_cant": "Depends on the order of calls.", "anchors": ["doubleml/double_ml.py:DoubleML.set_sample_splitting", "doubleml/double_ml.py:DoubleML.draw_sample_splitting", "doubleml/double_ml.py:DoubleML.confint"]}
{"id": "C31", "title": "A framework obtained earlier is an immutable snapshot", "statement": "A framework object taken from a model keeps its estimates, standard errors and intervals when the model is fitted again, re-split or bootstrapped.", "quantifier": "all histories", "why_tests_cant": "Aliasing of numpy arrays only shows when the original is mutated in place.", "anchors": ["doubleml/double_ml.py:DoubleML.construct_framework", "doubleml/double_ml.py:DoubleML.fit"]}
{"id": "C32", "title": "Every treatment variable is estimated in turn with the right covariates", "statement": "With several treatments, treatment j is estimated with d=column j and covariates x plus the other treatments (iff use_other_treat_as_covariate) without dropping or duplicating columns; results for treatment j only fill slot j, and changing the estimation of one treatment does not affect the slots of the others.", "quantifier": "all data sets, all numbers of treatments and repetitions", "why_tests_cant": "Index bookkeeping over two nested loops.", "anchors": ["doubleml/double_ml.py:DoubleML.fit", "doubleml/double_ml_data.py:DoubleMLData.set_x_d"]}
{"id": "C33", "title": "Column roles are disjoint after any history of successful changes", "statement": "At any time reached by successful construction and setter calls the columns used as outcome, treatments, covariates, instruments, time, score/selection (and cluster) are pairwise disjoint (cluster columns may overlap with none), contain no repetition and exist in the data; without explicit covariates x is every remaining column.", "quantifier": "all data frames and all finite histories of setter calls", "why_tests_cant": "Unbounded histories.", "anchors": ["doubleml/double_ml_data.py:DoubleMLData._check_disjoint_sets", "doubleml/double_ml_data.py:DoubleMLData.x_cols", "doubleml/double_ml_data.py:DoubleMLClusterData._check_disjoint_sets_cluster_cols"]}
{"id": "C34", "title": "A rejected change of a column role leaves the data backend unchanged", "statement": "If assigning x_cols, d_cols, y_col, z_cols, t_col, s_col or cluster_cols raises, all attributes keep their previous values.", "quantifier": "all states and invalid assignments", "why_tests_cant": "Needs inspection of the state after exceptions for every setter.", "anchors": ["doubleml/double_ml_data.py:DoubleMLData.x_cols", "doubleml/double_ml_data.py:DoubleMLData.d_cols", "doubleml/double_ml_data.py:DoubleMLData.y_col"]}
{"id": "C35", "title": "Derived data attributes always reflect the current roles", "statement": "y, d, z, x and the binary-treatment/binary-outcome indicators correspond to the currently selected columns after any history of successful setter calls.", "quantifier": "all histories", "why_tests_cant": "Stale caches depend on the order of calls.", "anchors": ["doubleml/double_ml_data.py:DoubleMLData.d_cols", "doubleml/double_ml_data.py:DoubleMLData.y_col", "doubleml/double_ml_data.py:DoubleMLData._check_binary_treats"]}
{"id": "C36", "title": "Array input round-trips", "statement": "from_arrays produces a data frame with pairwise different column names whose x, y, d, z, t, s (and cluster variables) are the passed arrays in order.", "quantifier": "all arrays with any number of columns", "why_tests_cant": "Generated names for any number of columns could collide.", "anchors": ["doubleml/double_ml_data.py:DoubleMLData.from_arrays", "doubleml/double_ml_data.py:DoubleMLClusterData.from_arrays"]}
{"id": "C37", "title": "PLR scores are the documented orthogonal scores", "statement": "The partialling-out estimate is the residual-on-residual least squares coefficient; the IV-type estimate solves its moment condition; adding theta*d to y (with learners predicting accordingly) shifts the estimate by theta; rescaling y rescales the estimate; the empirical partialling-out score's derivative in the nuisances vanishes when residuals are empirically orthogonal (exact second-order expansion).", "quantifier": "all data vectors and predictions", "why_tests_cant": "Algebraic identities over all reals.", "anchors": ["doubleml/plm/plr.py:DoubleMLPLR._score_elements", "doubleml/plm/plr.py:DoubleMLPLR._nuisance_est"]}
{"id": "C38", "title": "IRM/APO scores: ATE is the contrast of average potential outcomes; doubly robust", "statement": "With identical nuisance predictions and no IPW normalisation, the ATE score equals the APO(1) score minus the APO(0) score observation by observation; if the outcome regressions are exact the propensity does not matter, and the estimate is the weighted average of the pseudo outcomes; scaling weights scales the estimate; ATTE equals ATE with weights d/mean(d) and m-based weights_bar.", "quantifier": "all data, predictions, weights", "why_tests_cant": "Algebraic identities over all reals.", "anchors": ["doubleml/irm/irm.py:DoubleMLIRM._score_elements", "doubleml/irm/apo.py:DoubleMLAPO._score_elements", "doubleml/irm/irm.py:DoubleMLIRM._get_weights"]}
{"id": "C39", "title": "Trimming bounds every inverse-probability weight", "statement": "With trimming 'truncate' and threshold t in (0,1/2) all used propensities lie in [t,1-t], hence weights are at most 1/t; values already inside are untouched; trimming is idempotent and monotone; invalid rules/thresholds are rejected.", "quantifier": "all propensity vectors and thresholds", "why_tests_cant": "Universal over reals.", "anchors": ["doubleml/utils/_propensity_score.py:_trimm", "doubleml/utils/_checks.py:_check_trimming"]}
{"id": "C40", "title": "IPW normalisation makes the weights average to one", "statement": "With normalize_ipw=True the inverse-probability weights of treated (controls) actually used in the score average to exactly one whenever both groups are present; this holds for every model offering the option.", "quantifier": "all binary treatments/instruments and propensities in (0,1)", "why_tests_cant": "Wrong normalisation leaves plausible numbers.", "anchors": ["doubleml/utils/_propensity_score.py:_normalize_ipw", "doubleml/irm/iivm.py:DoubleMLIIVM._score_elements", "doubleml/irm/ssm.py:DoubleMLSSM._score_elements"]}
{"id": "C41", "title": "IIVM reduces to the ATE under full compliance and reports a Wald-type ratio", "statement": "The LATE estimate is the ratio of the doubly robust effect of Z on Y and of Z on D; if D=Z with exact r it equals the ATE estimate of Z; with always_takers=False (never_takers=False) r0 is identically 0 (r1 identically 1) whether or not external predictions are passed.", "quantifier": "all data and predictions", "why_tests_cant": "Algebraic identities.", "anchors": ["doubleml/irm/iivm.py:DoubleMLIIVM._score_elements", "doubleml/irm/iivm.py:DoubleMLIIVM._nuisance_est"]}
{"id": "C42", "title": "DiD scores normalise their weights and are location invariant", "statement": "In-sample-normalised weights average to zero contrast, so adding a constant to all outcomes and predictions leaves the DiD estimate unchanged (panel and repeated cross-section); without normalisation the experimental/observational formulas agree with the stated ones; with exact outcome models the estimate ignores the propensity.", "quantifier": "all data and predictions with both groups (and periods) present", "why_tests_cant": "Algebraic identities.", "anchors": ["doubleml/did/did.py:DoubleMLDID._score_elements", "doubleml/did/did_cs.py:DoubleMLDIDCS._score_elements"]}
{"id": "C43", "title": "Quantile-type estimates: monotone moment and bracketing", "statement": "The IPW and PQ moment functions are monotone step functions of theta bounded by the outcome range; the bracket search terminates after at most ten widenings, never leaves the outcome bounds, and reports success only if the moment changes sign on the returned bracket. The search starts at an empirical quantile of the treated outcomes (PQ, LPQ) or at the mean of the treated outcomes not below it (CVaR), hence within the outcome bounds.", "quantifier": "all data, all start values and bounds", "why_tests_cant": "Search loop termination and bounds for all inputs.", "anchors": ["doubleml/irm/pq.py:DoubleMLPQ._compute_ipw_score", "doubleml/utils/_estimation.py:_get_bracket_guess", "doubleml/double_ml_score_mixins.py:NonLinearScoreMixin._est_coef"]}
{"id": "C44", "title": "Tuning results are reported and applied per repetition, treatment and fold", "statement": "tune(set_as_params=True, return_tune_res=True) returns for treatment i_d and repetition i_rep the result obtained for that pair and stores the tuned parameters so that the fold that is predicted uses the parameters tuned on its own training data.", "quantifier": "all n_rep, n_treat and tuning outcomes", "why_tests_cant": "Index swaps are invisible when n_rep=n_treat=1.", "anchors": ["doubleml/double_ml.py:DoubleML.tune", "doubleml/double_ml.py:DoubleML.set_ml_nuisance_params"]}
{"id": "C45", "title": "Learner parameters are applied to exactly the intended learner, treatment, repetition and fold", "statement": "After set_ml_nuisance_params(learner, treat, params) with a dict every fold and repetition of that learner/treatment uses the dict; with a nested list repetition r, fold k uses entry [r][k]; other learners and treatments keep their parameters; lists of wrong length are rejected without change; later calls override earlier ones.", "quantifier": "all histories of parameter assignments", "why_tests_cant": "Unbounded histories; nested-list aliasing.", "anchors": ["doubleml/double_ml.py:DoubleML.set_ml_nuisance_params", "doubleml/double_ml.py:DoubleML._get_params", "doubleml/utils/_estimation.py:_dml_cv_predict"]}
{"id": "C46", "title": "BLP/GATE/CATE intervals have the requested coverage level", "statement": "confint(level) of a CATE/GATE object uses the 1-level quantile for pointwise intervals in all branches, and for joint intervals the bootstrap quantile of the maximum over the evaluated points.", "quantifier": "all levels, bases and draws", "why_tests_cant": "Wrong quantiles give plausible but too wide/narrow intervals.", "anchors": ["doubleml/utils/blp.py:DoubleMLBLP.confint"]}
{"id": "C47", "title": "The policy tree is trained to maximise the estimated policy value", "statement": "Weighted classification accuracy of a policy on the constructed labels equals (up to a constant) the average estimated gain of the policy, observation with zero signal have no influence.", "quantifier": "all signals and all policies", "why_tests_cant": "Universal over all policies.", "anchors": ["doubleml/utils/policytree.py:DoubleMLPolicyTree.fit"]}
{"id": "C48", "title": "Causal contrasts cover every pair once with the right sign", "statement": "causal_contrast(refs) returns for distinct reference levels exactly the contrasts (level i minus reference r) for every unordered pair with at least one reference, each once, in reference-major order, with names matching; the estimates are differences of the APO estimates; invalid references are rejected.", "quantifier": "all lists of levels and references", "why_tests_cant": "Combinatorial over all lists.", "anchors": ["doubleml/irm/apos.py:DoubleMLAPOS.causal_contrast"]}
{"id": "C49", "title": "Multi-level and quantile models stay synchronised with their split", "statement": "After any history of draw_sample_splitting/set_sample_splitting calls on a DoubleMLAPOS/DoubleMLQTE object, fit uses for every sub-model the split currently reported by the object.", "quantifier": "all histories", "why_tests_cant": "Order of calls.", "anchors": ["doubleml/irm/apos.py:DoubleMLAPOS.draw_sample_splitting", "doubleml/irm/qte.py:DoubleMLQTE.draw_sample_splitting", "doubleml/irm/apos.py:DoubleMLAPOS.set_sample_splitting"]}
{"id": "C50", "title": "Quantile treatment effects are treated minus control, jointly", "statement": "DoubleMLQTE reports for every quantile the difference of the treated and the control potential quantile, its influence function is the difference of the influence functions, and the order of quantiles is preserved; pvals/t-stats refer to the differences.", "quantifier": "all lists of quantiles, repetitions", "why_tests_cant": "Universal.", "anchors": ["doubleml/irm/qte.py:DoubleMLQTE.fit"]}
{"id": "C51", "title": "RDD kernels are valid weights; adjustment removes the average of both sides", "statement": "All first stage kernels are non-negative, symmetric, zero outside (or at) the bandwidth, non-increasing in distance; the adjusted outcome is Y minus the mean of the left and right limits predicted out of fold, whatever the numeric type of the outcome column.", "quantifier": "all scores, bandwidths>0, outcomes", "why_tests_cant": "Numeric type of the column matters only for integer data.", "anchors": ["doubleml/rdd/rdd.py:RDFlex._check_and_set_kernel", "doubleml/rdd/rdd.py:RDFlex._fit_nuisance_model"]}
{"id": "C52", "title": "RDD aggregation matches the aggregation of all other models", "statement": "RDFlex aggregates coefficients and standard errors over repetitions by the same median rule, and its confidence intervals contain the coefficient.", "quantifier": "all repetitions", "why_tests_cant": "Universal.", "anchors": ["doubleml/rdd/rdd.py:RDFlex.aggregate_over_splits", "doubleml/rdd/rdd.py:RDFlex.confint"]}
{"id": "C53", "title": "Weights are validated and normalised consistently", "statement": "IRM/APO accept exactly non-negative weight arrays of length n_obs with positive total (ATTE: binary weights) or dictionaries with keys weights and weights_bar of matching shapes; everything else is rejected.", "quantifier": "all weight arguments", "why_tests_cant": "Infinite input space.", "anchors": ["doubleml/utils/_checks.py:_check_weights"]}
{"id": "C54", "title": "Group indicators accepted by gate", "statement": "gate accepts boolean and dummy-coded integer group indicators as documented and one categorical column.", "quantifier": "all data frames of groups", "why_tests_cant": "Depends on dtype combinations.", "anchors": ["doubleml/plm/plr.py:DoubleMLPLR.gate", "doubleml/irm/irm.py:DoubleMLIRM.gate"]}
{"id": "C55", "title": "Nested cross-fitting keeps preliminary and final stages separate", "statement": "In PQ/CVaR/LPQ/SSM the predictions for a test fold depend only on training data of that fold, and the preliminary estimate and the outcome model are fitted on disjoint halves of the training data.", "quantifier": "all learners, data and splits", "why_tests_cant": "Leakage is invisible.", "anchors": ["doubleml/irm/pq.py:DoubleMLPQ._nuisance_est", "doubleml/irm/cvar.py:DoubleMLCVAR._nuisance_est", "doubleml/irm/ssm.py:DoubleMLSSM._nuisance_est"]}
{"id": "C56", "title": "PLIV generalises PLR", "statement": "With z=d and equal predictions the one-instrument PLIV estimate equals the PLR partialling-out estimate; the estimate is invariant under rescaling the instrument; with several instruments the effective instrument is the projection.", "quantifier": "all data", "why_tests_cant": "Algebraic.", "anchors": ["doubleml/plm/pliv.py:DoubleMLPLIV._score_elements"]}
{"id": "C57", "title": "SSM estimates combine observed outcomes only", "statement": "Outcomes of unselected observations (s=0) do not influence the score given the predictions; with full selection and pi=1 the missing-at-random score equals the IRM ATE score; normalised weights average to one.", "quantifier": "all data", "why_tests_cant": "Algebraic; normalisation error leaves plausible numbers.", "anchors": ["doubleml/irm/ssm.py:DoubleMLSSM._score_elements"]}
{"id": "C58", "title": "Learner evaluation ignores irrelevant observations and matches the stored predictions", "statement": "Reported nuisance losses are computed over the observations with a defined target only, for the learner, treatment and repetition they are listed under.", "quantifier": "all predictions and targets with missing entries", "why_tests_cant": "Universal.", "anchors": ["doubleml/double_ml.py:DoubleML._calc_nuisance_loss", "doubleml/utils/_estimation.py:_rmse"]}
{"id": "C59", "title": "The reported Riesz representer is the weight the score puts on residuals", "statement": "In every model with sensitivity analysis the reported riesz_rep of an observation is the weight with which the estimated score (scaled to the estimate) uses that observation's outcome residual, including its sign (DiD models: with the overall treated share as p_hat).", "quantifier": "all data, predictions, weights, scores and normalisation options", "why_tests_cant": "Sign errors cancel in squares, so nu2 and all sensitivity bounds look right.", "anchors": ["doubleml/irm/irm.py:DoubleMLIRM._sensitivity_element_est", "doubleml/did/did_cs.py:DoubleMLDIDCS._sensitivity_element_est", "doubleml/did/did.py:DoubleMLDID._sensitivity_element_est", "doubleml/plm/plr.py:DoubleMLPLR._sensitivity_element_est"]}
{"id": "C60", "title": "Clustered standard errors depend on the split used, not on the split given first", "statement": "For clustered data, after set_sample_splitting the standard errors of the framework equal those of a model that was created with the new number of folds and given the same split.", "quantifier": "all cluster data, all pairs of (constructor n_folds, supplied split)", "why_tests_cant": "Only visible when the number of folds changes between construction and set_sample_splitting.", "anchors": ["doubleml/double_ml.py:DoubleML.set_sample_splitting", "doubleml/double_ml.py:DoubleML.construct_framework", "doubleml/utils/_estimation.py:_var_est"]}
{"id": "C61", "title": "RDD fits do not depend on the history, repetitions do not influence each other", "statement": "RDFlex.fit gives the same results whatever was fitted before on the same object, and the estimate of a repetition depends on the split of this repetition only.", "quantifier": "all data, learners, splits, numbers of iterations and histories", "why_tests_cant": "State kept between iterations and fits (weights, adjusted outcomes) could leak silently.", "anchors": ["doubleml/rdd/rdd.py:RDFlex.fit"]}
{"id": "C62", "title": "Group effects are group means and add up to the average effect", "statement": "For mutually exclusive groups, gate() of an IRM reports for every group the mean of the orthogonal signal over the group with the heteroscedasticity robust standard error of a mean; if the groups cover the sample, the group effects weighted with group shares add up to the ATE estimate of the model. The best linear predictor on a constant reproduces estimate and standard error of IRM and PLR (partialling out), and the estimate of PLR (IV-type).", "quantifier": "all data, predictions and groups", "why_tests_cant": "Algebraic identities for all inputs.", "anchors": ["doubleml/irm/irm.py:DoubleMLIRM.gate", "doubleml/irm/irm.py:DoubleMLIRM.cate", "doubleml/plm/plr.py:DoubleMLPLR.cate", "doubleml/utils/blp.py:DoubleMLBLP.fit"]}
{"id": "C63", "title": "Valid inputs can be fitted", "statement": "An object that was created from valid data and taken through any history of draws, given sample splits, parameter assignments, tuning, fits and inference calls can be fitted without an exception as soon as it has a sample split, provided every training set contains the observations the learners are trained on and the arguments of fit have the documented types.", "quantifier": "all data, learners, splits, histories of calls and accepted arguments", "why_tests_cant": "Internal assertions (fold counts of the parameter lists, shapes of subgroups, learner names) depend on the whole history of the object.", "anchors": ["doubleml/double_ml.py:DoubleML.fit", "doubleml/double_ml.py:DoubleML.set_sample_splitting", "doubleml/double_ml.py:DoubleML.draw_sample_splitting", "doubleml/double_ml.py:DoubleML.set_ml_nuisance_params"]}
{"id": "C64", "title": "Unsuitable data and settings are rejected when a model is created, suitable ones are accepted and used as given", "statement": "Creating a model succeeds exactly if the data fit the model class (exactly one binary treatment where the model needs one, binary instrument/time/selection variable, no superfluous instrument, enough treated observations; for regression discontinuity designs a running variable with observations on both sides of the cutoff), the learners have the scikit-learn interface needed for their role, a classifier for the outcome (treatment) comes with a binary outcome (treatment), and score, trimming, normalisation, weights, subgroups, quantile and resampling settings have the documented types and values. The created object uses exactly the given learners and settings and holds no results; under the conditions of C63 it can then be fitted.", "quantifier": "all data objects, learner objects, settings of any type and value, resampling arguments", "why_tests_cant": "The checks are spread over many functions with early exits; the accepted set is a conjunction over arbitrary data and argument types.", "anchors": ["doubleml/irm/irm.py:DoubleMLIRM.__init__", "doubleml/irm/apo.py:DoubleMLAPO.__init__", "doubleml/irm/iivm.py:DoubleMLIIVM.__init__", "doubleml/did/did.py:DoubleMLDID.__init__", "doubleml/did/did_cs.py:DoubleMLDIDCS.__init__", "doubleml/irm/ssm.py:DoubleMLSSM.__init__", "doubleml/plm/plr.py:DoubleMLPLR.__init__", "doubleml/plm/pliv.py:DoubleMLPLIV.__init__", "doubleml/irm/pq.py:DoubleMLPQ.__init__", "doubleml/irm/cvar.py:DoubleMLCVAR.__init__", "doubleml/irm/lpq.py:DoubleMLLPQ.__init__", "doubleml/rdd/rdd.py:RDFlex.__init__", "doubleml/irm/apos.py:DoubleMLAPOS.__init__", "doubleml/irm/qte.py:DoubleMLQTE.__init__", "doubleml/double_ml.py:DoubleML._check_learner", "doubleml/utils/_checks.py"]}
{"id": "C65", "title": "Result objects can only be built from consistent arrays, and report them unchanged", "statement": "DoubleMLFramework(d) succeeds exactly if d is a dictionary with the six required arrays whose shapes all agree with those of scaled_psi, a complete cluster dictionary if is_cluster_data is True, bias bounds of matching shape (and, if both residual variances are given, non-negative ones of matching shape) and a list of one string per parameter as names (each of the last three optional); every other argument raises TypeError, ValueError, AttributeError or IndexError. The object then reports, for every parameter, exactly the slices of the arrays it was given, and the dictionary an operation such as + or concat builds is accepted exactly if the checks on its parts succeed.", "quantifier": "all dictionaries with any subset of the keys, arrays of any dimension and shape, values of other types", "why_tests_cant": "Tests try a handful of wrong shapes; that no inconsistent dictionary slips through (and no consistent one is refused) is a statement about all shapes of ten arrays at once.", "anchors": ["doubleml/double_ml_framework.py:DoubleMLFramework.__init__", "doubleml/double_ml_framework.py:_check_framework_shapes", "doubleml/double_ml_framework.py:_check_and_set_sensitivity_elements", "doubleml/double_ml_framework.py:_check_treatment_names"]}
{"id": "C66", "title": "CVaR estimates behave like a conditional value at risk", "statement": "For given predictions and data without clusters the CVaR estimate is the doubly robust mean of q-quantile plus shortfall above it divided by 1-q: positive affine changes of the outcome (with quantile and predictions) carry over to the estimate, larger outcomes never lower it, propensities are irrelevant if the regression is exact, predictions are irrelevant if the weights balance them, with weights of mean one a weighted q-quantile gives the smallest estimate among all preliminary quantiles, and for constant predictions the estimate is not below the preliminary quantile.", "quantifier": "all data, predictions, quantiles below one and preliminary quantiles", "why_tests_cant": "Monotonicity, equivariance and minimality relate infinitely many inputs.", "anchors": ["doubleml/irm/cvar.py:DoubleMLCVAR._score_elements", "doubleml/irm/cvar.py:DoubleMLCVAR._nuisance_est"]}
{"id": "C67", "title": "Results do not depend on the units of measurement", "statement": "Two models of the same class (PLR, PLIV in all variants, IRM, APO, IIVM, DiD, DiD-CS, SSM under missingness at random), created with the same arguments and the same random draws on data that differ only in the outcome, y in one and a*y+b in the other, and fitted with learners that respect affine changes of their target, give the same results in other units: every estimate is multiplied by a (for APO shifted by b as well), every standard error by |a|, scores and bounds of the bias accordingly; for a>0 confidence intervals, joint intervals with the same multipliers and sensitivity bounds convert in the same way. Replacing the only treatment of PLR or PLIV by g*d+e divides the estimates by g and the standard errors by |g| (for IV-type scores if e=0), and the instrument of PLIV may be replaced by g*z+e without any effect.", "quantifier": "all data, splits, settings, learners with that property, a, b, e and g (non-zero); whole fits with any number of repetitions and treatments, clustered or not", "why_tests_cant": "A relation between two runs for all data and all changes of units; tests compare numbers for one data set.", "anchors": ["doubleml/double_ml.py:DoubleML.fit", "doubleml/double_ml.py:DoubleML._est_coef_and_se", "doubleml/plm/plr.py:DoubleMLPLR._nuisance_est", "doubleml/plm/pliv.py:DoubleMLPLIV._nuisance_est", "doubleml/irm/irm.py:DoubleMLIRM._nuisance_est", "doubleml/irm/apo.py:DoubleMLAPO._nuisance_est", "doubleml/did/did.py:DoubleMLDID._nuisance_est"]}
{"id": "C68", "title": "Results do not depend on the order of the rows", "statement": "Two models of the same class (PLR, PLIV in all variants, IRM, APO, IIVM, DiD, DiD-CS, SSM under missingness at random), created with the same arguments on data frames that contain the same rows in different orders, with folds that contain the same observations, and fitted with learners that do not depend on the order of their training data (weights and external predictions given in the order of the rows), report the same estimates and standard errors per repetition and aggregated, the same p values, confidence intervals and sensitivity results, and, with the same multiplier for every observation, the same bootstrap results; influence functions are permuted like the rows. The data object of the reordered frame is accepted exactly if the original one is. With clustered data the same random numbers draw the same folds whatever the order of the rows.", "quantifier": "all data, row orders, splits, settings and learners with that property; whole fits with any number of repetitions and treatments, clustered or not", "why_tests_cant": "A relation between two runs for all data sets and all permutations of the rows.", "anchors": ["doubleml/double_ml.py:DoubleML.fit", "doubleml/double_ml.py:DoubleML._est_coef_and_se", "doubleml/double_ml_data.py:DoubleMLData.__init__", "doubleml/utils/resampling.py:DoubleMLClusterResampling.split_samples", "doubleml/utils/_estimation.py:_dml_cv_predict", "doubleml/utils/_estimation.py:_var_est"]}
{"id": "C69", "title": "Covariates matter only through the learners' predictions", "statement": "Two models of the same class (PLR, PLIV in all variants, IRM, APO, IIVM, DiD, DiD-CS, SSM under missingness at random), created with the same arguments and the same sample split on data that differ only in the covariates, with learners that make the same predictions from both sets of covariates, behave the same: fit raises the same exception or succeeds for both, and everything but the stored fitted models is the same (estimates, standard errors, scores, predictions, losses, sensitivity elements, framework and all inference). In particular the order of x_cols does not matter for learners that do not depend on the order of the columns, and covariates that the learners ignore can be left out.", "quantifier": "all data, both sets of covariates, splits, settings and learners with that property; any number of treatments and repetitions, clustered or not, failing and successful fits", "why_tests_cant": "A relation between two runs for all data and learners; a covariate that leaks into an estimate by another way shows up only for some data.", "anchors": ["doubleml/double_ml.py:DoubleML.fit", "doubleml/double_ml_data.py:DoubleMLData.set_x_d", "doubleml/double_ml_data.py:DoubleMLData.__init__", "doubleml/plm/plr.py:DoubleMLPLR._nuisance_est", "doubleml/irm/irm.py:DoubleMLIRM._nuisance_est", "doubleml/irm/ssm.py:DoubleMLSSM._nuisance_est"]}
{"id": "C70", "title": "Benchmarks are comparisons with the model without the covariates", "statement": "sensitivity_benchmark of a fitted model returns, for every treatment, the gain statistics computed from the model and from a model that is separately created without the benchmarked covariates, with the same arguments and random draws, and fitted: same rows, or the same exception if that fit fails. The model itself is unchanged. If the learners ignore the benchmarked covariates, all four statistics are zero. After a change of the sample split without a new fit, the benchmark must not mix results of two splits.", "quantifier": "all data objects, learners, model arguments, benchmarked sets, histories of calls before the benchmark, and arguments of the refit", "why_tests_cant": "quantifies over every learner and every call history; tests run a few learners on one history", "anchors": ["doubleml/double_ml.py:DoubleML.sensitivity_benchmark", "doubleml/utils/gain_statistics.py:gain_statistics"]}
{"id": "C71", "title": "Global learners make the first stage of RDFlex global", "statement": "Wrapping a learner in GlobalRegressor or GlobalClassifier removes every influence of the sample weights on RDFlex: two objects created with wrapped learners and otherwise equal arguments, but with different first stage kernels (fs_kernel) and bandwidths (h_fs, given or selected), have the same fits; every number of iterations from two on gives the same result, and the adjusted outcomes do not depend on the number of iterations at all. If all weights are one, wrapping makes no difference.", "quantifier": "all data, base learners, kernels (also callables), bandwidths, splits, numbers of iterations and last stages; sharp and fuzzy designs, failing and successful fits", "why_tests_cant": "A relation between runs for all kernels, bandwidths and learners; weights that leak into a fit show only for some of them.", "anchors": ["doubleml/utils/global_learner.py:GlobalRegressor", "doubleml/utils/global_learner.py:GlobalClassifier", "doubleml/rdd/rdd.py:RDFlex.fit", "doubleml/rdd/rdd.py:RDFlex._fit_nuisance_model"]}
{"id": "C72", "title": "Learners are tuned for the task they are used for", "statement": "After tune and fit, the predictions of every nuisance come from its learner with the parameters that the search found on the same kind of data on which fit trains the learner: the same subgroup of observations (for example the untreated for g(0,X)), the same covariates and the same target. With tune_on_folds the search sees exactly the training rows of the fold, otherwise those of the whole sample; parameters found for one nuisance, treatment, repetition or fold are not used for another one.", "quantifier": "all data, splits, searches, learners, numbers of treatments and repetitions, and both kinds of tuning; all model classes", "why_tests_cant": "A wrong subgroup, covariate set or target in a search only makes the chosen parameters worse; nothing fails and no output has a known value.", "anchors": ["doubleml/double_ml.py:DoubleML.tune", "doubleml/utils/_estimation.py:_dml_tune", "doubleml/irm/irm.py:DoubleMLIRM._nuisance_tuning", "doubleml/irm/iivm.py:DoubleMLIIVM._nuisance_tuning", "doubleml/irm/apo.py:DoubleMLAPO._nuisance_tuning", "doubleml/did/did.py:DoubleMLDID._nuisance_tuning", "doubleml/did/did_cs.py:DoubleMLDIDCS._nuisance_tuning", "doubleml/irm/ssm.py:DoubleMLSSM._nuisance_tuning", "doubleml/plm/pliv.py:DoubleMLPLIV._nuisance_tuning", "doubleml/plm/plr.py:DoubleMLPLR._nuisance_tuning", "doubleml/irm/pq.py:DoubleMLPQ._nuisance_tuning", "doubleml/irm/lpq.py:DoubleMLLPQ._nuisance_tuning"]}
{"id": "C73", "title": "The stored scores are the published scores of the stored predictions", "statement": "After a successful fit with stored predictions, for every treatment and repetition the stored scores psi are, observation by observation, the published orthogonal score of the model evaluated at the reported estimate, the data and the stored predictions: partialling-out and IV-type scores of PLR and PLIV (also with several instruments and for partialZ and partialXZ), the doubly robust scores of IRM (ATE with weights, ATTE for subgroups) and APO, the LATE score of IIVM, the four scores of each DiD model with the treated share (and the share of post-treatment observations) of the training sample, the sample selection scores, and the quantile scores of PQ, LPQ and CVaR. Inverse propensity weights are divided by their average if normalisation is requested. For linear scores the stored derivative is the slope of psi in the parameter and, without clusters, the scores sum to zero at the estimate.", "quantifier": "all data, splits, learners, settings, numbers of treatments and repetitions, with and without external predictions", "why_tests_cant": "Tests compare the implementation with a second implementation of the same formulas on a few simulated samples; a wrong sign or weight that matters only in some combination of settings stays unnoticed.", "anchors": ["doubleml/double_ml.py:DoubleML.fit", "doubleml/double_ml_score_mixins.py:LinearScoreMixin._compute_score", "doubleml/double_ml_score_mixins.py:NonLinearScoreMixin._compute_score", "doubleml/plm/plr.py:DoubleMLPLR._score_elements", "doubleml/plm/pliv.py:DoubleMLPLIV._score_elements", "doubleml/irm/irm.py:DoubleMLIRM._score_elements", "doubleml/irm/apo.py:DoubleMLAPO._score_elements", "doubleml/irm/iivm.py:DoubleMLIIVM._score_elements", "doubleml/did/did.py:DoubleMLDID._score_elements", "doubleml/did/did_cs.py:DoubleMLDIDCS._score_elements", "doubleml/irm/ssm.py:DoubleMLSSM._score_elements", "doubleml/irm/pq.py:DoubleMLPQ._compute_score", "doubleml/irm/lpq.py:DoubleMLLPQ._compute_score", "doubleml/irm/cvar.py:DoubleMLCVAR._score_elements"]}
{"id": "C74", "title": "The reported sensitivity elements are the variance of the residual and the second moment of the Riesz representer", "statement": "After a successful fit with stored predictions, sigma2 is the mean squared residual of the outcome regression and the reported Riesz representer is the published one, both formulas in the data, the stored predictions and (PLR) the estimate. nu2 is the mean square of the reported Riesz representer: for PLR and the experimental DiD score always, for IRM (ATE with weights, ATTE for subgroups), APO, DiD and DiD with repeated cross-sections whenever the stored propensities are the treatment shares within groups of observations with the same covariates (and the weights average to the supplied mean weights, and treatment and period are independent given the group), with and without normalisation, whichever of the two formulas for nu2 the package used.", "quantifier": "all data, splits, learners, weights, settings, numbers of treatments and repetitions, with and without external predictions", "why_tests_cant": "nu2 is computed from a moment functional, not from the representer itself; the two agree only for exactly calibrated propensities, which simulated data never have, so tests cannot tell a wrong functional (for example a missing square) from estimation error.", "anchors": ["doubleml/plm/plr.py:DoubleMLPLR._sensitivity_element_est", "doubleml/irm/irm.py:DoubleMLIRM._sensitivity_element_est", "doubleml/irm/apo.py:DoubleMLAPO._sensitivity_element_est", "doubleml/did/did.py:DoubleMLDID._sensitivity_element_est", "doubleml/did/did_cs.py:DoubleMLDIDCS._sensitivity_element_est", "doubleml/double_ml.py:DoubleML._validate_sensitivity_elements"]}
{"id": "C75", "title": "Callable scores: estimate and scores are those of the user's function; reproducing a built-in score reproduces its fit", "statement": "PLR, IRM, IIVM and PLIV (one instrument) accept a function in place of the name of a score. After a successful fit with stored predictions the function, applied to the data, the stored predictions (for IRM and IIVM with the propensities trimmed and, if requested, normalised), `g_hat` or None depending on whether ml_g was given, and the folds of the repetition, returns elements (psi_a, psi_b) such that the stored scores are psi_a theta + psi_b at the stored estimate theta, and theta is their root. A function that computes a built-in score gives the same estimates, standard errors, scores, predictions, losses, models and framework (apart from sensitivity elements) as the built-in score. A function that raises makes the fit fail, and for PLIV with several instruments, partialZ and partialXZ every fit with a callable score fails. With a callable score the weights of an IRM have no effect.", "quantifier": "all functions (also partial ones), data, splits, learners, settings, external predictions, numbers of treatments and repetitions", "why_tests_cant": "A test uses one re-implementation of a built-in score; that every function receives the right arguments in the right order, for every repetition and treatment and with external predictions, is a statement about all functions.", "anchors": ["doubleml/plm/plr.py:DoubleMLPLR._score_elements", "doubleml/irm/irm.py:DoubleMLIRM._score_elements", "doubleml/irm/iivm.py:DoubleMLIIVM._score_elements", "doubleml/plm/pliv.py:DoubleMLPLIV._score_elements", "doubleml/double_ml.py:DoubleML._fit_sensitivity_elements"]}
{"id": "C76", "title": "Bootstrap statistics have the first two moments of the t statistics they imitate", "statement": "With independent draws of numpy's generator, the multipliers of each bootstrap method (Bayes, normal, wild) are independent and identically distributed with mean zero and variance one, across observations, draws and repetitions. Given the data, every bootstrap t statistic of a model without clusters has mean zero and variance one, two parameters in the same draw are correlated exactly as their scores, different draws and repetitions are independent and the draws of a repetition are identically distributed. With normal multipliers each statistic is standard normal: it exceeds the observed t statistic with exactly the reported p-value as probability and lies within the pointwise critical value with exactly the level as probability. Other methods are rejected.", "quantifier": "all data, scores, numbers of parameters, repetitions, observations and draws, and all three methods", "why_tests_cant": "A statement about distributions: a test sees finitely many draws and would need a tolerance that hides a wrong scale (for example a missing square root of two) in the tails.", "anchors": ["doubleml/utils/_estimation.py:_draw_weights", "doubleml/double_ml_framework.py:DoubleMLFramework.bootstrap"]}
{"id": "C77", "title": "Parallel execution does not change results", "statement": "fit of DoubleMLAPOS and DoubleMLQTE with any number of workers for the models (n_jobs_models), and cross-fitting with any number of workers for the folds (n_jobs_cv), give the same result as the sequential run, whatever the order in which the workers complete: fit succeeds if and only if the sequential fit does, and then estimates, framework, sub-models, predictions and fitted learners are the same. If the fit of a sub-model raises in a worker process, the exception is that of one of the sub-models and the object is left as it was before fit. With threads instead of processes the sub-models share one data object; every interleaving of their steps that completes gives the sub-models of the sequential run, and every schedule that gives each thread enough turns completes.", "quantifier": "all schedules (orders of dispatch and completion, interleavings of steps), numbers of tasks, data, learners, splits and fit arguments", "why_tests_cant": "Schedules are chosen by the operating system; a result stored under the wrong index or a data race shows up rarely and not reproducibly.", "anchors": ["doubleml/irm/apos.py:DoubleMLAPOS.fit", "doubleml/irm/apos.py:DoubleMLAPOS._fit_model", "doubleml/irm/qte.py:DoubleMLQTE.fit", "doubleml/irm/qte.py:DoubleMLQTE._fit_quantile", "doubleml/utils/_estimation.py:_dml_cv_predict"]}
{"id": "C78", "title": "Scores identify the causal parameter, are insensitive to first-order errors of the learners and doubly robust", "statement": "For the linear scores of PLR, PLIV, IRM (ATE and ATTE), APO, IIVM, DiD and DiD with repeated cross-sections (observational and experimental) and SSM (missing at random), evaluated on one random observation: at the true nuisance functions the expected score vanishes exactly at the parameter of the model (Theta of the partially linear models, average effect, average potential outcome, effect on the treated, local effect on the compliers, effect on the treated by the change over time, effect in the whole population with selected outcomes). The derivative of the expected score with respect to the nuisance functions is zero in every direction (Neyman orthogonality). The doubly robust scores keep mean zero if either the outcome regressions or the propensities are replaced by arbitrary wrong functions. Under unconfoundedness, a valid instrument with monotonicity, parallel trends or selection at random, the parameter is the mean of the difference of potential outcomes it is named after. For the quantile-type scores: with PQ the expected score at any candidate is the distribution function of the potential outcome minus the quantile level if one of the two nuisance functions is right, so its zeros are the quantiles; with LPQ the same among the compliers; with CVaR the parameter is the mean of the potential outcome above its quantile, and errors in the plugged-in quantile do not matter to first order. Expected scores do not change to first order with anything that is estimated beforehand.", "quantifier": "all laws of the data with the stated moments and overlap, all directions of misspecification and all wrong regressions or propensities (within the stated bounds)", "why_tests_cant": "Statements about expectations and derivatives in infinite-dimensional directions; a score with a wrong sign in a correction term has the same root at the true functions, and simulations with good learners do not notice.", "anchors": ["doubleml/plm/plr.py:DoubleMLPLR._score_elements", "doubleml/plm/pliv.py:DoubleMLPLIV._score_elements", "doubleml/irm/irm.py:DoubleMLIRM._score_elements", "doubleml/irm/apo.py:DoubleMLAPO._score_elements", "doubleml/irm/iivm.py:DoubleMLIIVM._score_elements", "doubleml/did/did.py:DoubleMLDID._score_elements", "doubleml/did/did_cs.py:DoubleMLDIDCS._score_elements", "doubleml/irm/ssm.py:DoubleMLSSM._score_elements", "doubleml/irm/pq.py:DoubleMLPQ._compute_score", "doubleml/irm/lpq.py:DoubleMLLPQ._compute_score", "doubleml/irm/cvar.py:DoubleMLCVAR._score_elements"]}
{"id": "C79", "title": "In large samples estimates are normal around the true parameter, standard errors are right and confidence intervals have their level", "statement": "For independent identically distributed observations, any number of folds and repetitions drawn by the package, and learners whose errors vanish with products faster than 1/sqrt(n) (in any way, at any single rate), the fits of PLR (partialling out; one or several treatments), PLIV (one instrument), IRM (ATE, ATTE; with and without normalised weights), APO (with and without normalised weights), IIVM, DiD (observational and experimental scores, with and without normalised weights; for the experimental score the errors only have to vanish), DiD with repeated cross-sections (the same four scores; the default included) and SSM (missing at random, unnormalised weights, selection predictions bounded away from zero with probability tending to one) on the first n observations succeed with probability tending to one, and sqrt(n)(coef - theta)/sigma converges in distribution to the standard normal, sqrt(n) se converges to sigma in probability, (coef - theta)/se is asymptotically standard normal, confint(level) contains theta with probability tending to level and any other value with probability tending to zero, and the p-value falls below alpha with probability tending to alpha if theta = 0 and to one if theta is not zero. sigma is the published asymptotic standard deviation.", "quantifier": "all laws of the data with the stated moments and overlap, all learners with these rates, all numbers of folds and repetitions, all draws of the splits", "why_tests_cant": "The central claim of double machine learning is a limit of probabilities; simulations show coverage for a few sample sizes, laws and learners within Monte Carlo error.", "anchors": ["doubleml/double_ml.py:DoubleML.fit", "doubleml/double_ml.py:DoubleML._est_coef_and_se", "doubleml/double_ml.py:DoubleML.confint", "doubleml/double_ml.py:DoubleML.pval", "doubleml/utils/_estimation.py:_var_est", "doubleml/utils/_estimation.py:_aggregate_coefs_and_ses", "doubleml/utils/resampling.py:DoubleMLResampling.split_samples", "doubleml/did/did_cs.py:DoubleMLDIDCS._score_elements"]}
{"id": "C80", "title": "Simulated data follow the model they are made for, with the parameter that was passed", "statement": "The simulators of the package return the same numbers as arrays, DataFrame and data object, with the documented roles of the columns. For every sample size and dimension, each observation of make_plr_CCDDHNR2018 and make_plr_turrell2018 follows the partially linear model with parameter alpha (theta), of make_pliv_data and make_pliv_CHS2015 the partially linear model with instruments (every instrument valid and relevant), of make_irm_data the interactive model with average effect theta and the requested R2, of make_iivm_data a valid instrument with local effect theta, of make_ssm_data (mar) selection at random with effect theta, of make_did_SZ2020 parallel trends with effect zero on the treated, of make_heterogeneous_data the stated conditional effect. Overlap holds, so that the estimators apply. The oracle values of make_confounded_irm_data, make_confounded_plr_data, make_irm_data_discrete_treatments and make_simple_rdd_data are the potential outcomes, conditional means, levels and probabilities they are named after.", "quantifier": "all sample sizes, dimensions, parameters, and draws (for the statements about distributions: the documented distributions of the draws)", "why_tests_cant": "A simulator with the wrong truth makes every simulation study and every unit test based on it wrong in the same way; the truth is a statement about distributions.", "anchors": ["doubleml/datasets.py:make_plr_CCDDHNR2018", "doubleml/datasets.py:make_plr_turrell2018", "doubleml/datasets.py:make_irm_data", "doubleml/datasets.py:make_iivm_data", "doubleml/datasets.py:make_pliv_CHS2015", "doubleml/datasets.py:make_ssm_data", "doubleml/datasets.py:make_did_SZ2020", "doubleml/datasets.py:make_confounded_irm_data", "doubleml/datasets.py:make_confounded_plr_data", "doubleml/datasets.py:make_heterogeneous_data", "doubleml/datasets.py:make_irm_data_discrete_treatments", "doubleml/rdd/datasets/simple_dgp.py:make_simple_rdd_data"]}
{"id": "C81", "title": "Stored models are the models that produced the predictions, and storing them changes nothing else", "statement": "After a successful fit with store_models=True, for each treatment, repetition and learner, the object holds one fitted learner per fold: it has the hyperparameters that were set for this learner, treatment, repetition and fold, it was trained on exactly the training observations of the fold (restricted to the group the learner is meant for) with the features and targets the class uses, and its predictions at the test observations are the stored predictions (after trimming, for propensities). Learners whose predictions were supplied have no models. For quantile-type models and nonignorable nonresponse the final model of each fold is stored, trained as the class documents. The fit would also succeed with store_models=False, with the same estimates, standard errors, scores, predictions, losses, sensitivity elements and framework. Conversely, storing models does not make a fit fail, and the models in the object belong to its predictions.", "quantifier": "all data, splits, learners, hyperparameters, external predictions, treatments, repetitions and histories of calls, for all fifteen model classes", "why_tests_cant": "Models are opaque objects; a model stored under the wrong fold, repetition or learner predicts plausible numbers. Storing models switches to another code path, which must agree for every learner and split.", "anchors": ["doubleml/double_ml.py:DoubleML.fit", "doubleml/double_ml.py:DoubleML._store_predictions_and_targets", "doubleml/double_ml.py:DoubleML._store_models", "doubleml/utils/_estimation.py:_dml_cv_predict", "doubleml/irm/pq.py:DoubleMLPQ._nuisance_est", "doubleml/irm/lpq.py:DoubleMLLPQ._nuisance_est", "doubleml/irm/ssm.py:DoubleMLSSM._nuisance_est"]}
{"id": "C82", "title": "In large samples conditional and group effects are normal around the best linear predictor and their intervals have their level", "statement": "For independent identically distributed observations, one repetition (the package accepts no other), learners whose errors vanish with products faster than 1/sqrt(n), and a bounded basis without collinearity: the prediction of cate(basis) of a fitted IRM (score ATE) and of capo(basis) of a fitted APO at any row of a basis is asymptotically normal around the value of the population best linear predictor of the conditional effect (potential outcome), sqrt(n) times its standard error converges to the asymptotic standard deviation of this regression of the doubly robust signal, and confint(basis, level) covers it with probability tending to level. With gate(groups) and gapo(groups), for mutually exclusive boolean groups of positive probability, confint(level) covers the average effect (potential outcome) of each group with probability tending to level. confint(level) without a basis covers the coefficients of the best linear predictor with probability tending to level.", "quantifier": "all laws of the data with the stated moments and overlap, all learners with these rates, all numbers of folds, all draws of the splits, all bounded bases and all families of groups", "why_tests_cant": "A limit of probabilities over all laws and learners; the regression uses estimated signals, and whether its robust standard errors account for that cannot be read off a finite sample.", "anchors": ["doubleml/irm/irm.py:DoubleMLIRM.cate", "doubleml/irm/irm.py:DoubleMLIRM.gate", "doubleml/irm/apo.py:DoubleMLAPO.capo", "doubleml/irm/apo.py:DoubleMLAPO.gapo", "doubleml/utils/blp.py:DoubleMLBLP.fit", "doubleml/utils/blp.py:DoubleMLBLP.confint"]}
{"id": "C83", "title": "A weighted average effect is the weighted average of the effects", "statement": "DoubleMLIRM (score ATE) and DoubleMLAPO take an array of weights for a weighted average effect. In every repetition the estimate is the average, with these weights, of the signals of the model without weights on the same data and split, and the standard error is that of this average. In particular weights that select a group give the estimate and the standard error that gate (gapo) of the unweighted model reports for the group, and multiplying all weights by a positive number changes nothing. For the score ATTE, where weights select a subgroup, the effects on the treated of a subgroup and of its complement, weighted with their numbers of treated observations, average to the effect on all treated.", "quantifier": "all data, learners, splits, numbers of repetitions, external predictions, weights and groups", "why_tests_cant": "Weights enter a score, its derivative, the sensitivity elements and an aggregation; tests compare with a manual computation that makes the same choices, for a few weight vectors.", "anchors": ["doubleml/irm/irm.py:DoubleMLIRM._get_weights", "doubleml/irm/irm.py:DoubleMLIRM._score_elements", "doubleml/irm/irm.py:DoubleMLIRM.gate", "doubleml/irm/apo.py:DoubleMLAPO._get_weights", "doubleml/irm/apo.py:DoubleMLAPO._score_elements", "doubleml/irm/apo.py:DoubleMLAPO.gapo"]}
{"id": "C84", "title": "In large samples joint bootstrap intervals cover all parameters at once with their level", "statement": "For independent identically distributed observations and learners as in C79, with any fixed number of repetitions, bootstrap() with normal multipliers (the default) and a number of draws that grows with the sample: the intervals of confint(joint=True, level) cover the true parameter of a fitted model with one treatment, the parameters of all treatments of a fitted PLR with several treatments, all true parameters of a concatenation of such models (possibly of different classes) on the same observations, all average potential outcomes of a fitted DoubleMLAPOS object, and all differences of average potential outcomes reported by its causal_contrast, simultaneously and with probability tending to level.", "quantifier": "all laws of the data with the stated moments and overlap, all learners with these rates, all numbers of models and treatment levels, all dependence between their scores, all reference levels, all numbers of folds and repetitions, all draws of the splits, all levels between 0 and 1", "why_tests_cant": "A limit of probabilities over data and bootstrap draws, for all laws and learners; the critical value is an empirical quantile of maxima of dependent statistics and is recomputed from estimated scores.", "anchors": ["doubleml/double_ml_framework.py:DoubleMLFramework.bootstrap", "doubleml/double_ml_framework.py:DoubleMLFramework.confint", "doubleml/double_ml_framework.py:concat", "doubleml/double_ml_framework.py:DoubleMLFramework.__sub__", "doubleml/irm/apos.py:DoubleMLAPOS.bootstrap", "doubleml/irm/apos.py:DoubleMLAPOS.confint", "doubleml/irm/apos.py:DoubleMLAPOS.causal_contrast"]}
{"id": "C85", "title": "Fitting several treatments together gives each treatment the results it would get alone", "statement": "If a model of a class that accepts several treatments (PLR, PLIV with one or several instruments and its variants) is fitted with several treatments, then everything it reports for one of them (estimates, standard errors, scores, losses, stored predictions and stored models of every repetition, aggregated estimate and standard error, the parameter of the framework, sensitivity elements) is what a model with this treatment alone reports, if that model has the same sample splits and parameters and its covariates are the covariates together with the other treatments, in the same order (without them if use_other_treat_as_covariate is False). In particular the treatments fitted before do not matter.", "quantifier": "all data, numbers and orders of treatments, learners, splits, repetitions, hyperparameters, external predictions, with and without clusters", "why_tests_cant": "The loop over treatments changes the active columns of a shared data object and writes into shared arrays; a leftover from a previous treatment gives plausible numbers. Tests compare with a manual loop that makes the same steps.", "anchors": ["doubleml/double_ml.py:DoubleML.fit", "doubleml/double_ml_data.py:DoubleMLData.set_x_d", "doubleml/double_ml.py:DoubleML._est_causal_pars_and_se", "doubleml/double_ml.py:DoubleML.construct_framework"]}
{"id": "C86", "title": "In large samples heterogeneous effects of the partially linear model are normal around the best linear predictor and their intervals have their level", "statement": "For independent identically distributed observations with outcome tau(X) D + g(X) + noise, learners as in C79, a fitted DoubleMLPLR (score partialling out, one treatment, one repetition, stored predictions) and a bounded basis without collinearity: the prediction of cate(basis) at any row of a basis is asymptotically normal around a linear predictor of the effect tau(X), namely the best one when squared distances are weighted by the squared residual of the treatment; sqrt(n) times its standard error converges to the asymptotic standard deviation although both the regressand and the regressors are estimated; confint(basis, level) covers this value with probability tending to level and any other value with vanishing probability. gate(groups), for mutually exclusive boolean groups in which the treatment varies, covers the average effect of each group with probability tending to level.", "quantifier": "all laws of the data with the stated moments, all learners with these rates, all numbers of folds, all draws of the splits, all bounded bases and all families of groups", "why_tests_cant": "A limit of probabilities over all laws and learners; which average of the effects is estimated, and whether robust standard errors of a regression with estimated regressors are right, cannot be read off a finite sample.", "anchors": ["doubleml/plm/plr.py:DoubleMLPLR.cate", "doubleml/plm/plr.py:DoubleMLPLR.gate", "doubleml/plm/plr.py:DoubleMLPLR._partial_out", "doubleml/utils/blp.py:DoubleMLBLP.fit", "doubleml/utils/blp.py:DoubleMLBLP.confint"]}
{"id": "C87", "title": "In large samples the sensitivity bounds of the partially linear model are consistent and their confidence limits cover them", "statement": "For independent identically distributed observations of a partially linear model, learners as in C79 whose squared errors for the outcome are also o(n^-1/2), and a fitted DoubleMLPLR (score partialling out): the lower and upper bound of sensitivity_analysis(cf_y, cf_d, rho, level) converge in probability to the coefficient minus and plus the confounding strength times the ratio of the standard deviations of the outcome error and of the residual of the treatment; the lower confidence limit is below the lower bound, and the upper confidence limit above the upper bound, with probability tending to level; values strictly between the bounds are between the limits, and values beyond the bounds are not, with probability tending to one.", "quantifier": "all laws of the data with the stated moments, all learners with these rates, all numbers of folds and repetitions, all draws of the splits, all cf_y, cf_d, rho and level", "why_tests_cant": "A limit of probabilities over all laws and learners. The standard errors of the bounds combine two influence functions; a wrong sign of one of them still gives positive, plausible numbers and is invisible when the two are uncorrelated, as with errors that are independent of the treatment.", "anchors": ["doubleml/double_ml_framework.py:DoubleMLFramework.sensitivity_analysis", "doubleml/double_ml_framework.py:DoubleMLFramework._calc_sensitivity_analysis", "doubleml/double_ml.py:DoubleML.construct_framework", "doubleml/plm/plr.py:DoubleMLPLR._sensitivity_element_est"]}
