# Formal model of DoubleML/doubleml-for-py — design

Contents: 1 method · 2 trusted base · 3 what is modelled and what is not · 4 modules · 5 plan per
property · 6 where the code violates a property · 7 smaller observations · 8 mutation testing.

## 1. Method

The package is a Python library on numpy / pandas / scikit-learn.  The model is a
shallow Lean 4 model: every modelled Python function is a Lean function that
mirrors it branch by branch; exceptions are values (`Except Exc`), mutation is state
passing (`step : State → Op → State × Out`), numpy arrays of shape `(n_obs, n_rep)`
are functions `Fin n → Fin r → ℝ`, Python lists are `List`.  Every definition cites
the file and lines in `/repo` it models, and says where it simplifies.

A property is stated as one or more theorems `Cnn_…`, mostly in files ending in `Props`; helper lemmas have
other names.  If the code satisfies a property only in part, the proved part is named `…_partial`
(with what is missing in its comment), and the deviation of the code is a theorem `…_violated`: a
concrete witness, or a general statement with a concrete instance beside it.  Beside theorems with
hypotheses there is an `example` that meets the hypotheses by a concrete, non-trivial case.
`MANIFEST.json` lists for each property the status, the theorems and what is missing.

Conventions

* Arithmetic is exact real arithmetic (`ℝ`).  Floating point rounding and `inf` are **not**
  modelled; `NaN` is `none : Option ℝ` where the code stores or tests it.  Lean's `x / 0 = 0` is
  never relied on: each theorem whose model contains a division carries the guard under which the
  Python code does not divide by zero, or is true for a reason independent of it.  "`fit`
  succeeds" means that no exception is raised (a zero denominator in numpy is a warning).
* Learners are arbitrary *deterministic* functions from parameters and training data to a
  prediction function; they never raise.  Randomness of sample splitting is an arbitrary
  permutation (or, stratified, an arbitrary assignment of folds); bootstrap multipliers are an
  arbitrary matrix, except in C76, where they are computed from independent draws on a probability space.
* `norm.cdf` / `norm.ppf` are Mathlib's distribution function of the standard Gaussian measure and its
  generalised inverse (`Normal.lean`); nothing is assumed about them.
* Library functions of numpy used by the code (`median`, `argsort`, `mean`, `quantile`,
  `unique`, `intersect1d`, `isin`, `clip`, ...) are modelled by their documented meaning; where the
  documentation leaves freedom (ties in `argsort`) the theorem quantifies over every admissible
  behaviour.  `np.allclose` is `|a - b| ≤ 1e-8 + 1e-5 |b|`.
* Arguments whose *type* the code inspects are elements of `PyVal` (`Py.lean`).
* External routines (statsmodels OLS, rdrobust, scipy root finding and bounded minimisation,
  scikit-learn decision trees and hyper-parameter search) are arbitrary functions; theorems that need
  something of them name it as a hypothesis (`Ols.Correct`, `NestedExt.Ok`, `TreeLearner.PredictsLabels`, …).
* Arrays that are shared between Python objects, where the sharing is observable, live in an explicit
  heap (`Model.lean`).

## 2. Trusted base

* The Lean 4.33.0 kernel, and of Mathlib only what the kernel checks.
* Axioms: `propext`, `Classical.choice`, `Quot.sound`, and no others.  Checked with `#print axioms` for every
  theorem listed in `MANIFEST.json`: all depend on exactly these three, except `C23_rejects` and
  `C48_names`, which depend on `propext` and `Quot.sound` only.  No `sorry`, no own axioms, no
  `native_decide`, no `bv_decide`, no `implemented_by`, no `unsafe`.
* The reading of `/repo` that turned Python into the definitions; no code was run.
* The documented behaviour of numpy, pandas, scipy, scikit-learn, statsmodels and rdrobust, as far as
  section 1 says how it is modelled.
* The English statements in `properties.jsonl`, and the judgement that the theorems say the same.

## 3. What is modelled and what is not

| file in `/repo/doubleml` | modelled | not modelled |
| --- | --- | --- |
| `double_ml_framework.py` | construction from arrays, `+`, `-`, scalar `*`, `concat`, `confint`, `summary` p-values, `bootstrap`, `p_adjust` (Romano–Wolf; the other methods are statsmodels), sensitivity analysis and robustness values, the values behind `sensitivity_plot`, state after failing calls, the checks of the constructor | string output, drawing |
| `double_ml.py` | construction, `fit`, `draw_sample_splitting`, `set_sample_splitting`, `set_ml_nuisance_params`, `tune`, `evaluate_learners`, `construct_framework`, delegation to the framework, external predictions, losses, stored predictions and models, sharing of arrays, `sensitivity_benchmark` (values) | string output, warnings, parallelism inside learners |
| `double_ml_score_mixins.py` | linear scores completely, also with callable scores; nonlinear scores with root finder and minimiser as parameters | |
| `double_ml_data.py` | roles, setters and the state after exceptions, cached arrays, `from_arrays`, cluster data, `force_all_x_finite` for finite data | pandas dtypes beyond what C51/C54 need, string output |
| `plm/plr.py` | completely: nuisance estimation, scores (also callable), sensitivity, `cate`/`gate`, tuning | tuning with callable scores |
| `plm/pliv.py` | partialX, partialZ, partialXZ for one instrument; several instruments for partialX; callable scores; tuning | tuning with callable scores |
| `irm/irm.py`, `irm/apo.py`, `irm/iivm.py`, `did/did.py`, `did/did_cs.py` | nuisance estimation, scores, sensitivity elements, weights, constructors with all checks, `cate`/`gate`/`capo`/`gapo`/`policy_tree`, callable scores (IRM, IIVM; the other classes reject them), tuning | `NaN` sensitivity elements of callable scores |
| `irm/ssm.py` | constructor; missing at random and nonignorable nonresponse as model classes; tuning | – |
| `irm/pq.py`, `irm/cvar.py`, `irm/lpq.py` | constructors, nested cross-fitting, scores, estimation, all three as model classes; tuning | – |
| `irm/apos.py`, `irm/qte.py` | constructors with all checks, sub-models, splits, `fit`, external predictions, contrasts, bootstrap and intervals by delegation | evaluation and parameter access of sub-models |
| `rdd/rdd.py` | kernels, first stage, iterations, adjustment, aggregation | rdrobust itself, string output |
| `utils/_checks.py`, `_estimation.py`, `resampling.py`, `_propensity_score.py`, `gain_statistics.py`, `blp.py`, `policytree.py` | the functions used by the above | `_check_is_propensity` and other warnings |
| `utils/global_learner.py` | fit and predictions of `GlobalRegressor`, `GlobalClassifier` | the `ValueError` for a base learner of the wrong kind, input validation |
| `datasets.py`, `rdd/datasets/simple_dgp.py` | all simulators as functions of the drawn arrays, except those on the right; return types | `fetch_401K`, `fetch_bonus`, `make_pliv_multiway_cluster_CKMS2021`, `rho_ate`, `rho_atte`, binary outcome of `make_simple_rdd_data`; numpy's generator |
| `_plots.py`, `dummy_learners.py` | – | plots and auxiliary learners (that learners which are not needed are not used: C28) |

## 4. Modules

| modules | models | properties |
| --- | --- | --- |
| `Py`, `Stats`, `Normal` | Python values, numpy primitives, `_aggregate_coefs_and_ses`, normal distribution | – |
| `Framework`, `FrameworkSpec`, `FrameworkLemmas`, `FrameworkProps`, `FrameworkLawsProps` | framework arithmetic, `concat` | C01–C05 |
| `InferenceProps` | intervals, aggregation, p-values, bootstrap statistics | C07–C10 |
| `FrameworkState`, `FrameworkStateProps` | a framework object under any history of calls | C06, C14, C16 |
| `FrameworkInit`, `FrameworkInitProps`, `FrameworkPoolProps` | constructor on arrays of any shape, `concat` of any operands, programs with several objects | C03, C05, C06, C65 |
| `RomanoWolf`, `RomanoWolfProps` | step-down adjustment | C11, C12 |
| `Sensitivity`, `SensitivityProps`, `Gain`, `SensElemProps` | sensitivity bounds, robustness value, elements, benchmarks | C13, C15, C17, C18, C42, C59 |
| `VarEst`, `LinearScore`, `LinearScoreProps`, `ClusterProps` | estimation with linear scores, variance, clusters | C19–C21 |
| `CvarProps` | the CVaR estimate as a function of data, predictions and preliminary quantile (definitions in `Nonlinear`) | C66 |
| `FitView`, `Units`, `UnitsProps`, `UnitsFitProps` | a successful fit as a function of its cells; two fits on data in different units | C67 |
| `Reorder`, `ReorderProps`, `ReorderFitProps` | two fits on the same rows in different orders | C68 |
| `Covariates`, `CovariatesFitProps` | two fits with different covariates | C69 |
| `Benchmark`, `BenchmarkProps` | `sensitivity_benchmark` of model objects | C70 |
| `Splitting`, `SplittingProps`, `DrawSplitProps` | drawing and validating sample splits | C22–C25 |
| `CrossFit`, `CrossFitProps` | `_dml_cv_predict`, subsamples, external predictions | C26–C28 |
| `Model`, `ModelLemmas`, `ModelProps`, `ParamProps`, `FitTotal` | the `DoubleML` object as a state machine | C29–C32, C45 |
| `Data`, `DataProps` | data backend | C33–C36 |
| `Scores`, `ScoreProps`, `PropensityProps`, `Weights`, `WeightsProps` | scores, weights, trimming, normalisation | C37–C42, C53, C56, C57 |
| `Nonlinear`, `NonlinearProps`, `StartValueProps` | quantile-type estimation | C43 |
| `PlrModel`, `PlrFitProps`, `PlrModelProps`, `PlrTune`, `TuneProps` | PLR end to end, tuning | C26, C28, C29, C44, C45 |
| `Classes`, `ClassesProps`, `ClassesFitProps` | IRM, APO, IIVM, DiD, DiD-CS, SSM, PLIV end to end | C26–C29, C38, C39, C58, C60 |
| `FitOkProps`, `FitOkManyProps`, `FitOkBinaryProps`, `MultiFitProps` | which objects can be fitted; several treatments and instruments, binary outcomes, APOS and QTE | C63 |
| `Construct`, `ConstructProps`, `ConstructFitProps` | constructors of all model classes with their checks | C64 |
| `ConstructMulti`, `ConstructMultiProps` | constructors of APOS and QTE with their checks and draws | C64 |
| `Evaluate`, `EvalProps`, `FoldCountProps` | losses, evaluation of learners; number of folds | C58, C60 |
| `Nested`, `NestedProps`, `NestedFitProps`, `NestedClasses`, `NestedClassesProps` | nested cross-fitting; PQ, CVaR, LPQ, SSM (nonignorable) end to end | C27–C29, C39, C55, C57, C58, C63 |
| `Multi`, `MultiProps`, `ContrastProps`, `ApoExtProps` | APOS, QTE | C28, C48–C50 |
| `Blp`, `BlpProps` | BLP, CATE, GATE | C46, C54, C62 |
| `Policy`, `PolicyProps` | policy trees | C47 |
| `Rdd`, `RddProps`, `RddConstructProps` | regression discontinuity | C51, C52, C61, C64 |
| `GlobalLearner`, `GlobalLearnerProps` | wrappers that ignore sample weights | C71 |
| `ClassTune`, `ClassTuneProps` | `_nuisance_tuning` of all classes; tuning followed by a fit | C72, C26 |
| `PublishedScoreProps` | scores of whole fits as formulas in data and predictions | C73 |
| `RieszMomentProps` | sensitivity elements of whole fits as formulas in data and predictions; second moments of the Riesz representers | C74 |
| `CallScore`, `CallScoreProps` | score functions as arbitrary functions that may raise; fits with callable scores of PLR, IRM, IIVM, PLIV | C75 |
| `Multipliers`, `MultipliersProps` | `_draw_weights` and `bootstrap` on draws of numpy's generator; laws of multipliers and bootstrap statistics | C76 |
| `Parallel`, `ParallelProps` | joblib's `Parallel` as a transition system with arbitrary schedules; `fit` with `n_jobs_models`, `_dml_cv_predict` with workers; threads on a shared data object | C77 |
| `Neyman`, `OrthogonalityProps`, `OrthogonalityDesignProps`, `OrthogonalityCausalProps`, `OrthogonalityExamples`, `OrthogonalityQuantProps`, `OrthogonalityQuantExamples` | expectations of the coded scores: identification, orthogonality, double robustness, causal meaning | C78 |
| `Limit`, `LimitStrata`, `LimitScore`, `LimitInference`, `LimitLearn`, `LimitNorm`, `LimitArm`, `LimitPower`, `LimitFit`, `Population` | probability theory: averages over folds with learned functions, central limit theorem for cross-fitted scores, medians over repetitions, laws of one observation | C79 |
| `LimitGauss`, `LimitBoot`, `LimitJoint`, `LimitConcat`, `LimitCombine` | probability theory for joint intervals: boxes under Gaussian vectors, empirical quantiles of the multiplier bootstrap, joint central limit theorem of influence functions, coverage of the intervals of concatenated frameworks, influence functions of differences | C84 |
| `JointProps`, `JointApoProps`, `JointExamples` | joint intervals of fitted models, concatenations, `DoubleMLAPOS` objects and causal contrasts in large samples | C84 |
| `Treatments`, `TreatmentsProps`, `TreatmentsCreated`, `TreatmentsExamples` | one treatment of several and the model with this treatment alone | C85 |
| `CreatedObj`, `JointTreatProps`, `JointPlrProps`, `JointPlrExamples` | models with several treatments in large samples | C79, C84, C85 |
| `Study`, `StudyCreated`, `AsymptoticProps`, `AsymptoticIrmProps`, `AsymptoticExamples`, `AsymptoticIrmExamples` | sequences of whole fits on the first n observations, created objects, large-sample theorems | C79 |
| `LimitWeights`, `AsymptoticWeightProps`, `AsymptoticDidProps`, `AsymptoticWeightExamples` | inverse probability weights that are divided by their average over the sample; large-sample theorems for IRM, APO and DiD with normalised weights | C79 |
| `LimitShare`, `AsymptoticShareProps`, `AsymptoticShareExamples` | means over training sets as factors of scores; large-sample theorems for DiD with shares of the training sets and for randomised treatments | C79 |
| `AsymptoticSsmProps`, `AsymptoticSsmExamples` | products of learned functions as weights; large-sample theorem for sample selection (missing at random) | C79 |
| `AsymptoticCsProps`, `AsymptoticCsNormProps`, `AsymptoticCsExamples` | large-sample theorems for DiD with repeated cross-sections, all four scores | C79 |
| `Datasets`, `DatasetsProps`, `DatasetsLawProps`, `DatasetsIvProps`, `DatasetsCausalProps`, `DatasetsSelectionProps`, `DatasetsOracleProps`, `DatasetsExamples` | simulators as functions of the draws; return types; laws of the observations; oracle values | C80 |
| `LimitOls`, `LimitBlp`, `AsymptoticBlpProps`, `AsymptoticBlpExamples` | large-sample theory of least squares with HC0 covariance on fitted signals; conditional and group effects | C82 |
| `LimitGen`, `LimitResid`, `AsymptoticPlrBlpProps`, `AsymptoticPlrBlpExamples` | least squares with HC0 covariance whose regressors are estimated too; products of residuals as parts of a score; heterogeneous effects of PLR | C86 |
| `LimitLinear`, `LimitSens`, `AsymptoticSensProps`, `AsymptoticSensExamples`, `AsymptoticSensCover` | linear expansions and the delta method; functions of three averages of products of residuals; sensitivity analysis of PLR in large samples | C87 |
| `WeightedProps`, `WeightedExamples` | weighted effects of IRM and APO compared with the unweighted fit and with `gate`/`gapo` | C83 |
| `StoreModels`, `StoreModelsFit`, `StoreModelsProps`, `StoreModelsWitness` | fits with and without stored models; contents of the stored models | C81 |

## 5. Plan per property

* **C01, C03** Framework expressions `e ::= A_i | e+e | e-e | c*e` are evaluated by
  the modelled operations and compared with a direct specification (linear
  combination, then one SE/aggregation step); induction on `e` with the invariant
  "SEs are consistent with the influence function".
* **C02** negation with a concrete framework and scalar −1; `_partial` for `c ≥ 0`.
* **C04** negation with a concrete two-cluster example; `_partial`: the reported SE
  is exactly the i.i.d. formula, so it is right iff both formulas agree.
* **C05** `concat` as list append with the checks; per-parameter inference commutes with `append`; nesting by comparing
  the constructor arguments.
* **C06** state machine over `Op` lists, invariant relating the state to the last successful bootstrap; for programs with
  several objects, projection of the program to the calls addressed to one object.
* **C07, C08** order statistics through counting; monotonicity and equivariance of the median.
* **C09** duality for `n_rep = 1`, one-sided duality for odd `n_rep`, concrete
  disagreement of model and framework p-values for `n_rep > 1`.
* **C10** algebra over finite sums.
* **C11, C12** closed form of the step-down procedure for *any* sorting permutation.
* **C13–C18** real analysis on the closed formulas; state machine for C14; negation for C16.
* **C19–C21** finite-sum algebra; cluster sums over `Finset`s of observations.
* **C22–C25** list/permutation combinatorics; negation for C25 (only the first fold is checked).
* **C26–C28, C55** learners as functions; congruence ("depends only on") theorems; negations for
  partially supplied external predictions (LPQ, APOS) and misaligned indices (PQ).  Lifted from
  single predictions to the stored results of whole fits for every linear class.
* **C29–C32** state machine for the `DoubleML` object with an explicit heap for the aliased arrays;
  negations for stale framework and aliasing.
* **C33–C36** state machine of the data backend, with the order "assign, then check" of the setters.
* **C37, C38, C41, C42, C56, C57** pointwise and finite-sum algebra.
* **C39, C40** order/field algebra; negation for IIVM (normalises with the treatment instead of the
  instrument) and SSM (average is the treated share).
* **C43** the bracket search as a fuel-free recursion on the number of widenings.
* **C44, C45** nested lists; parameters of every (learner, treatment, repetition, fold) tracked through histories.
* **C46** negations for the two branches; `_partial` for the remaining branch.
* **C47, C48, C50–C54, C58, C59, C61, C62** direct theorems on the modelled functions; negations where the code deviates.
* **C49** state machine; negation for APOS.
* **C60** two runs on the same split, related by the exact factor between their standard errors.
* **C63** invariant over histories (the split is a partition, the parameters have the shape of the split),
  then totality of `fit` for every class, from totality of each nuisance estimation; with several treatments the data object
  activates them one after the other.  With a binary outcome the first fit of the loop that meets predictions in {0, 1}
  only (for a learner of a binary outcome) raises, so success needs a learner with predictions strictly between
  (`C63_*_or` says that nothing else can go wrong, `C63_irm_labels` that label learners always raise).
  For APOS and QTE the sub-models inherit the invariant: every sub-model starts with the split of the whole object.
* **C64** for every class a structure lists the documented requirements; success of the constructor is equivalent to
  them (for data not changed since their creation), the created object carries the given settings, and composed with C63
  it can be fitted.  Negations for what the checks let pass.  APOS and QTE: the constructor with a draw, the constructor without
  one, the created object and its `fit` (the draw is stratified by the treatment and shared by the sub-models).
* **C65** arrays as shape and entry function, missing keys as `none`, values of other types as `other`; success is
  equivalent to the structure `GoodDict`, which lists the documented requirements; the dictionaries built by the library
  (`FW.toDict`) connect this constructor with the one used for C01–C06.
* **C66** the score of CVaR is linear with `psi_a = -1`; the estimate is a mean of `max(pq, (y - q pq)/(1-q))` terms. Minimality
  is the argument of Rockafellar and Uryasev on the weighted sample.
* **C67** `FitView` describes everything a successful fit reports through the inputs and outputs of its cells (treatment by
  repetition); `fits_rescaled` lifts a relation between cells to two fits.  Per class the relation is shown through
  cross-fitting, the nuisance parts and the score.  Specification: `OutcomeChanged`, `TreatmentChanged`, `InstrumentChanged`,
  `InNewUnits`; `C67_same_draws` shows that objects created with the same draws meet the conditions on the split.
* **C68** the same method with another relation between cells: `CellIn.Reordered` for the input, `FitOne.Reordered` and
  `SensElems.Reordered` for the output.  Folds are compared as sets of observations (`SplitReordered`), so learners must not
  depend on the order of the training data (`Learner.OrderFree`).  `C68_data` treats the constructor of the data object,
  `C68_draws` the split drawn by the constructor of the model, `C68_inference` everything computed from the framework.
* **C69** here the two objects are compared after every step, also if it raises: `MState.SameButX` says that they differ in the
  covariates and the stored fitted models only.  `Learner.Alike` is the condition on a learner; `C69_fit` is the general
  statement, `C69_order` (`Learner.ColumnFree`) and `C69_unused` (`Learner.Ignores`) start from the constructors of data and model.
* **C70** assigning fewer covariates to a data object gives the object created with them (`setX_created`); both models have the same
  setup after every step of a history (`SameSetup`), and a fit depends on the setup only (C29).  `compareWith` is the comparison.
* **C71** the wrapped learner does not depend on the weights in its training rows, so one pass of the first stage is the same for all
  weights; induction over iterations and repetitions. A second pass with the same first stage repeats the first (`adjust_again`).
* **C72** `UsesTuned` names one task (subgroup, covariates, target) for search and training.  `TunesTask` is proved for every
  `_nuisance_tuning`, the training side is C26/C27; `tuned_cell` connects them through the parameters stored by `tune` (C44, C45).
* **C73** `ScoreIs` says which score function is stored; `FitAt.cell` leads from the whole fit to the cell, `scoreIs_of` from the score
  elements to the score.  `ipw` is the specification of (normalised) inverse propensity weights, `IsTrainMean` of the shares in DiD.
* **C74** `Calibrated` (averages within groups) is the only condition; `Calibrated.mean` moves from an indicator to its averages inside a
  mean, which gives one moment lemma per class; `FitAt.sens` leads from the whole fit, including the validation of `nu2`, to the cell.
* **C75** The score is an arbitrary function into `Except Exc (PsiElems n)`. The values are read off the cell (`FitAt.cell`, as for C73);
  fits with built-in scores are compared by a simulation of the loops (`fit_call`): the states agree up to sensitivity elements and
  framework after every cell.
* **C76** Draws are random variables with given laws (`NpDraws`, the contract of `np.random`). Moments of the exponential and the normal
  distribution are computed from Mathlib's densities and moment generating functions; sums of independent standardised
  variables give the covariances, grouping of independent families the independence of draws, and closure of Gaussian laws under sums
  the normal law.
* **C77** A run of the pool is a list of events (dispatch, completion). Invariant: recorded results are results of their tasks. The fit
  with workers is then compared with the sequential loop (`fitSubs_append` splits it into tasks). Threads: the data object is
  not written with one treatment (`activate_one`), and what a thread still has to do (`Thread.rest`) leads to the result of the
  fit that runs alone, an invariant of all interleavings.
* **C78** The coded `_score_elements` applied to a sample of one observation is a random variable; `expScore` is its mean at
  a parameter. Conditional means are moment conditions against all square integrable (or bounded) functions of the covariates. All
  doubly robust scores are sums of arms (`ArmLaw.signal_mean`, `ArmLaw.robust`, `ArmLaw.flat`); `FlatMean` (expectation along
  a line of nuisance functions with derivative zero) is closed under sums. Causal meaning: potential outcomes as functions on the same
  space, with the identifying condition stated as moment conditions.  Quantile-type scores: the indicator `1{y ≤ θ}` (PQ), its product with the
  treatment indicator (LPQ) or the target of CVaR takes the place of the outcome; the integral of the indicator is a distribution function.
* **C79** `Study` collects a sequence of objects created on the first n observations of an i.i.d. sequence. Conditional on the other
  folds the predictions on a fold are fixed functions (`Honest`), Chebyshev's inequality bounds the centred part of the error, orthogonality the
  rest; Mathlib's central limit theorem and a Slutsky argument finish one repetition, and all repetitions have the same linear
  expansion, so medians over repetitions do too. The whole fit leads to the score by C26, C63 and the score lemmas of C73.
  Fits that can fail (a fold without treated observations) are excluded by an event of vanishing probability (`Lacking`; `created_both`
  shows it for objects the constructors make).  Normalised weights are ratios of averages; the score is then an array with a scalar that
  converges (`LimitWeights`).  Without normalisation DiD divides by the share of treated units in the training set, which is independent of the
  fold and converges at the rate 1/√n (`Study.trainMean_factor`, `Study.trainMean_bdd`).
* **C80** Every simulator is a function of the arrays it draws. The draws of one observation are an element of a product space; the
  laws of C78 and C79 (`PlrLaw`, `PlivLaw`, `ValidInstrument`, …) are shown for the resulting observation, with independence of the
  errors turned into conditional means (`MeanZeroGiven.preserving`). `C80_plr_ccddhnr_fit` combines a simulator with C79.
* **C81** The estimation of a cell with and without `store_models` is compared step by step (`Keeps`: if the first succeeds, so does the
  second, with the same result but for the models); the loop of `fit` carries this to the object.  What the models are is read off the
  fold-by-fold branch of `_dml_cv_predict` (`MadeBy`: parameters, training data, answers).
* **C82** Signal and products of signal and regressors are parts of a score in the sense of C79, so that replacing the true signal by the
  fitted one changes neither the normal equations at the rate 1/√n nor the limit of the HC0 covariance (`OlsSignal`, `ols_limit`). The
  Gram matrix converges, hence is invertible with probability tending to one, which is where least squares are used at all. Multiplying
  outcome and regression function by a function of the covariates keeps the model (`ArmLaw.weigh`). Groups are the case of
  indicators, with a diagonal Gram matrix.
* **C83** Two objects that differ only in the weights (`SameObject`) have the same cells up to the weights; the cells are compared
  (`irm_reweight`) and the comparison is carried to the fits as in C67. For groups both sides are computed (C62).
* **C84** Every theorem of C79 also gives an influence function of the estimate (`AsympLinear`). The estimates of several models are then
  jointly normal (Cramér–Wold, `LimitJoint`); given the data the bootstrap statistics are exactly normal with the empirical correlations,
  which converge, so the empirical quantile of their maxima converges to the quantile of the maximum of the limit (`LimitGauss`, `LimitBoot`).
  Differences of frameworks have the difference of the influence functions (`LimitCombine`). The sub-models of a created `DoubleMLAPOS` object
  are objects in the sense of `Study` (`Study.ofApos`). Models with several treatments are reduced to models with one (C85).
* **C85** `Alone` describes the model with one treatment: same active columns, splits and parameters. Each class looks at the active
  columns of the data object only (`ColsOnly`), so the cells of the two models give the same output (`Alone.out`), and `fit_view` says
  how everything that is reported comes from the cells.
* **C86** The Gram matrix, the products with the regressand and the HC0 middle matrix are averages of products of residuals of two learners,
  which are parts of a score in the sense of C79 (`Part.residuals`); averages of products of such parts converge by polarisation
  (`GenOls.of_parts`). `GenOls.limit` is least squares for any regressors with these limits. The stored predictions and the data of the fitted object are
  read off `fit_cells`.
* **C87** The estimate and the bound of the bias are functions of the averages of `uu`, `uv` and `vv`, with `u` and `v` the residuals of outcome
  and treatment (`sens_ratio`). Each average has a linear expansion (`LinExp`, from the parts of C86), the delta method gives that of the two
  functions, and the reported standard errors are root mean squares of scores that are close to known functions (`RatioParts.score`).
  `limit_cover` turns this into limits of the coverage, for the median over repetitions. The limits themselves are consistent whatever the
  standard errors (`RatioParts.ci_tends`), which gives the values inside and outside the bounds.

## 6. Where the code violates a property

Each has a theorem with the suffix `_violated` (or `_violated_…`) and a `_partial` theorem for what holds.

* **C02** a negative scalar multiplies the standard errors by a negative number.
* **C04** `+` and `-` recompute the standard error of clustered frameworks with the i.i.d. formula.
* **C09** p-values and intervals disagree for several repetitions (median of bounds versus p-value of medians).
* **C16** `sensitivity_plot` ignores `null_hypothesis`, raises without a previous analysis, and uses another limit for `ci`.
* **C17** the fall-back for a negative `nu2` leaves `psi_nu2` uncentred.  **C18** a benchmark of exactly 1 is rejected afterwards.
* **C25** only the first fold of the first repetition of a cluster split is checked.
* **C26** a classifier trained on one class makes the manual cross-fitting path raise where the default path succeeds.
* **C28** accepted dictionaries without one of the treatments raise `KeyError` (also APOS with a subset of
  the levels); PQ reads supplied propensities at the wrong rows inside its preliminary step; LPQ ignores incomplete dictionaries
  silently; IIVM replaces what is supplied for an excluded subgroup; PLIV partialZ/partialXZ ignore what is supplied.
* **C29** PQ and LPQ overwrite their start value during `fit`, so that a second fit (and later repetitions of the
  same fit) can give other predictions.
* **C30** after `set_sample_splitting` inference still answers from the old framework; `draw_sample_splitting` resets nothing.
* **C31** a framework obtained before a refit shares its arrays with the model and changes.
* **C34** overlapping column roles raise but stay in effect.  **C35** `binary_treats` and `binary_outcome` are not refreshed.
* **C39** normalising after trimming breaks the bound on weights; SSM never trims the selection probability.
* **C40** IIVM normalises with the treatment instead of the instrument; SSM weights average to the treated share.
* **C44** fold-wise tuning raises unless `n_rep = n_treat`; the returned table keeps only the last repetition; the IV-type
  score tunes `ml_g` with information from outside the training set.
* **C46** coefficient intervals of CATEs have level `(1+level)/2`; joint intervals take maxima over the wrong axis.
* **C47** one observation with signal zero makes the policy tree fail; depth 0 is accepted and then fails.
* **C49** `DoubleMLAPOS.draw_sample_splitting` does not reach the sub-models; a failing `set_sample_splitting` leaves
  reported split and sub-models apart; clustered data cannot be used with a split.
* **C51** integer outcome columns truncate the first-stage predictions.
* **C54** frames with several integer dummy columns are rejected, one integer column is used as a regressor.
* **C55** start value and bounds of the scalar search are taken from all observations, test fold included.
* **C58** after `fit(store_predictions=False)` `evaluate_learners` reports the previous fit; SSM does not mask its targets.
* **C59** the representer of the unnormalised observational repeated cross-section DiD score has a wrong sign.
* **C60** clustered standard errors use the number of folds of the constructor after `set_sample_splitting`.
* **C63** with clustered data, `draw_sample_splitting` after `set_sample_splitting` with another number of folds draws a
  number of folds that differs from the recorded one; accepted parameter dictionaries then make every `fit` raise.  PQ raises whenever models are to be stored and any
  prediction is supplied, LPQ whenever models are to be stored and all five predictions are supplied.  PLIV with several instruments
  raises an `AssertionError` in every `fit` if the name of an instrument contains `ml_l` or `ml_r`
  (`C63_pliv_instruments_violated`; without such a name `C63_pliv_instruments` proves success).
* **C64** SSM checks neither treatment nor selection indicator (several treatments, non-binary values pass); a constant treatment
  passes as binary variable; after changing the treatment of a data object PLR consults the old indicator.  APOS (QTE) accept an
  empty list of levels (quantiles) and the object cannot be fitted; with clustered data their constructors raise in the draw although the
  single models accept the data; QTE with the default `ml_m=None` always raises; without a draw APOS and QTE postpone the checks of the
  sub-models.
* **C70** a benchmark after a new draw or a new split without a refit is answered from results of two different splits.
* **C72** SSM with nonignorable nonresponse searches the parameters of `ml_g` and `ml_m` on the covariates and trains the learners on the
  covariates and the estimated selection probability.
* **C78** the score of LPQ is evaluated at an estimated share of compliers and is not insensitive to it: the derivative of its mean is
  `-q/share` (`C78_lpq_share_violated`), and the standard error takes the share as known.
* **C80** `make_irm_data` has no overlap bound (propensities below every `τ` with positive probability) and an effect on the treated above
  `theta`; `make_heterogeneous_data` with a binary treatment can treat everybody in a set of covariates of positive probability;
  `g_short` of `make_confounded_irm_data` is not the conditional mean of the outcome (the confounder is not independent of the covariates
  given the treatment); `make_irm_data_discrete_treatments` has `n_levels + 1` levels with unequal probabilities.
* **C81** with `store_models=True` a classifier whose training set has only one class raises an `IndexError` in `fit`, without it the fit
  succeeds (`C81_missing_class_violated`); a fit with `store_models=False` leaves the models of an earlier fit in `models` although
  `predictions` are those of the new fit (`C81_stale_models_violated`).
* **C82** the intervals for the coefficients (`confint` without a basis) have asymptotic coverage `(1 + level)/2`, e.g. 0.975 for a
  requested 0.95 (`C82_coefficients_violated`, a consequence of C46).
* **C86** `gate` of PLR reports the average of the effects in a group weighted by the squared residual of the treatment, not the average
  effect; the intervals exclude the average effect with probability tending to one (`C86_gate_violated`).
* **C87** the confidence limits of the sensitivity analysis use the standard error of the upper bound for the lower one and conversely:
  `_calc_sensitivity_analysis` adds `psi_max_bias` to `scaled_psi = psi / mean(psi_deriv)`, which is minus the influence function since the
  derivative is negative. With an error whose skewness depends on the treatment the upper limit covers the upper bound with probability tending to 0.71 at a level of 0.95
  (`C87_violated`); exchanging the half-widths repairs it (`C87_exchanged`). The mechanism is the same in the other models with sensitivity elements, whose derivative of the score is negative too.
* **C83** weights are not normalised for the scores ATE and APO: constant weights 2 are accepted and double the estimate and its standard
  error (`C83_irm_violated`), the indicator of a group gives the effect in the group times its share. For ATTE, where they must be indicators, they are normalised.

## 7. Smaller observations (not counted as violations of a listed property)

* `fit` without a split raises `TypeError` from the loop instead of an explanation (`C63_no_split`).
* `RDFlex` does not check that the first-stage bandwidth is positive; no weight on one side divides by zero, and a
  negative bandwidth gives the triangular kernel positive weights everywhere.
* `weights_bar` is not checked again after `set_sample_splitting` (IndexError in `fit`).
* `PLIV` partialX drops `ml_g`, so the IV-type score raises `TypeError`.
* SSM with clustered data raises `TypeError` (`psi_a` is a scalar).
* The fall-back of nonlinear scores uses the unweighted mean for clustered data.
* Stratified splits of DiD-CS and SSM balance treatment and time (selection), but nothing guarantees that each of the four groups occurs in
  each training set; the outcome learner of a missing group is then trained without observations. Learners in the model accept this, those of
  scikit-learn raise.
* An empty training set is accepted by `set_sample_splitting` (C22 characterises what is accepted).
* A rejected `x_cols="y"` followed by a fit puts the outcome among the covariates (part of C34_violated).
* PLR decides with `binary_treats.all()` whether `ml_m` may be a classifier.
* `sensitivity_benchmark` on an unfitted model raises `AttributeError`.
* `APOS.causal_contrast` after `fit` and `set_sample_splitting` raises `TypeError` (`None - None`); repeated references
  repeat contrasts; no references raise an error from an empty concatenation; repeated levels are not rejected.
* For several repetitions the QTE coefficient is the median of differences, not the difference of medians.
* PLIV with `partialZ` depends on the origin of the outcome (no intercept); the IV-type scores of PLR and PLIV depend on
  the origin of the treatment (their `ml_g` is trained on `y - theta d`).  Outcome times `a < 0` and refit multiplies
  standard errors by `|a|`, `a * framework` by `a` (C02).
* `APO` with a level that is not an integer raises when the split is drawn (stratification by a continuous variable).
* LPQ stores the untrimmed propensity of the instrument; its test `any(ext) and not any(ext)` can never be true.
* SSM (nonignorable) calls `ml_g.predict` also for a classifier (labels instead of probabilities).
* PQ, CVaR and LPQ accept clustered data; the halves of a training set ignore the clusters.
* SSM accepts a callable score in the constructor, but every fit with it ends in an `AssertionError`. IRM checks and stores
  weights given together with a callable score and never uses them (`C75_irm_weights`).
* With external predictions for `ml_g`, the IV-type score of PLR does not estimate `ml_l`; a callable score does.
* `fit` checks the learners again when the losses are computed.
* `tune` completes a given `scoring_methods` dictionary in place, so the user's dictionary changes (not modelled).
* The initial estimate of the IV-type scores of PLR and PLIV uses predictions of all observations, so `ml_g` of a fold is trained on
  targets that depend on the fold itself; tuning without `tune_on_folds` looks at the whole sample. In both cases
  the fitted functions of a fold are not independent of its observations, so C79 does not apply.
* `sensitivity_benchmark` refits the short model with the arguments given to the benchmark, not with those of the original fit.
* `set_ml_nuisance_params` keeps the user's nested list without copying (not modelled).
* `make_ssm_data` uses `x'β` in the outcome where the documentation has `x'β d`; the effect of `make_irm_data_discrete_treatments` is another
  function than the documented one, and treated units with negative continuous treatment get the effect too.
* `g_short` of `make_confounded_plr_data` is `D` times a constant plus `g(Z)`, although the confounder depends on `D - m_short(Z)` only;
  `m_short` of `make_confounded_irm_data` is not trimmed unless `m_long` is outside the bounds somewhere.
* In `make_simple_rdd_data` the effect at the cutoff `c` is `tau - c²/2` (plus `a c ∑ x`), so `tau` only for cutoff zero; covariates with a
  large term have treatment probability one on both sides of the cutoff (`C80_rdd_first_stage`).

## 8. Mutation testing

`seeded/LOG.jsonl`: one line per wrong program tried in a scratch copy: the edited definition, the edit, the claim it breaks,
the theorems that failed (directly or through a helper lemma they use), and the theorems that were added or
tightened where nothing failed.
