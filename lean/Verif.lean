import Verif.Stats
import Verif.Normal
import Verif.Py
import Verif.VarEst
import Verif.Framework
import Verif.FrameworkSpec
import Verif.FrameworkLemmas
import Verif.FrameworkProps
import Verif.FrameworkLawsProps
import Verif.InferenceProps
import Verif.RomanoWolf
import Verif.RomanoWolfProps
import Verif.Sensitivity
import Verif.SensitivityProps
import Verif.FrameworkState
import Verif.FrameworkStateProps
import Verif.Splitting
import Verif.SplittingProps
import Verif.DrawSplitProps
import Verif.Data
import Verif.DataProps
import Verif.LinearScore
import Verif.LinearScoreProps
import Verif.CrossFit
import Verif.CrossFitProps
import Verif.Nonlinear
import Verif.NonlinearProps
import Verif.Scores
import Verif.PropensityProps
import Verif.ScoreProps
import Verif.Gain
import Verif.SensElemProps
import Verif.Model
import Verif.ModelLemmas
import Verif.ModelProps
import Verif.PlrModel
import Verif.PlrModelProps
import Verif.ParamProps
import Verif.PlrFitProps
import Verif.PlrTune
import Verif.TuneProps
import Verif.Evaluate
import Verif.EvalProps
import Verif.FoldCountProps
import Verif.Rdd
import Verif.RddProps
import Verif.Weights
import Verif.WeightsProps
import Verif.Blp
import Verif.BlpProps
import Verif.FitOkProps
import Verif.FitOkManyProps
import Verif.FitOkBinaryProps
import Verif.FitTotal
import Verif.Multi
import Verif.MultiProps
import Verif.ContrastProps
import Verif.Policy
import Verif.PolicyProps
import Verif.Nested
import Verif.NestedProps
import Verif.NestedFitProps
import Verif.Classes
import Verif.ClassesProps
import Verif.ClassesFitProps
import Verif.Construct
import Verif.ConstructProps
import Verif.ConstructFitProps
import Verif.FrameworkInit
import Verif.FrameworkInitProps
import Verif.FrameworkPoolProps
import Verif.ClusterProps
import Verif.CvarProps
import Verif.FitView
import Verif.Units
import Verif.UnitsProps
import Verif.UnitsFitProps
import Verif.Reorder
import Verif.ReorderProps
import Verif.ReorderFitProps
import Verif.Covariates
import Verif.CovariatesFitProps
import Verif.Benchmark
import Verif.BenchmarkProps
import Verif.NestedClasses
import Verif.NestedClassesProps
import Verif.ConstructMulti
import Verif.MultiFitProps
import Verif.ConstructMultiProps
import Verif.GlobalLearner
import Verif.GlobalLearnerProps
import Verif.ClassTune
import Verif.ClassTuneProps
import Verif.PublishedScoreProps
import Verif.RieszMomentProps
import Verif.RddConstructProps
import Verif.StartValueProps
import Verif.ApoExtProps
import Verif.CallScore
import Verif.CallScoreProps
import Verif.Multipliers
import Verif.MultipliersProps
import Verif.Parallel
import Verif.ParallelProps
import Verif.Limit
import Verif.LimitStrata
import Verif.LimitScore
import Verif.LimitInference
import Verif.LimitPower
import Verif.LimitFit
import Verif.LimitLearn
import Verif.Population
import Verif.LimitNorm
import Verif.Study
import Verif.AsymptoticProps
import Verif.LimitArm
import Verif.LimitWeights
import Verif.AsymptoticIrmProps
import Verif.AsymptoticDidProps
import Verif.StudyCreated
import Verif.AsymptoticExamples
import Verif.AsymptoticIrmExamples
import Verif.Neyman
import Verif.OrthogonalityProps
import Verif.OrthogonalityDesignProps
import Verif.OrthogonalityCausalProps
import Verif.OrthogonalityExamples
import Verif.OrthogonalityQuantProps
import Verif.OrthogonalityQuantExamples
import Verif.AsymptoticWeightProps
import Verif.AsymptoticWeightExamples
import Verif.LimitShare
import Verif.AsymptoticShareProps
import Verif.AsymptoticShareExamples
import Verif.AsymptoticSsmProps
import Verif.AsymptoticSsmExamples
import Verif.AsymptoticCsProps
import Verif.AsymptoticCsNormProps
import Verif.AsymptoticCsExamples
import Verif.LimitOls
import Verif.LimitBlp
import Verif.AsymptoticBlpProps
import Verif.AsymptoticBlpExamples
import Verif.LimitGen
import Verif.LimitResid
import Verif.AsymptoticPlrBlpProps
import Verif.AsymptoticPlrBlpExamples
import Verif.Datasets
import Verif.DatasetsProps
import Verif.DatasetsLawProps
import Verif.DatasetsIvProps
import Verif.DatasetsCausalProps
import Verif.DatasetsSelectionProps
import Verif.DatasetsOracleProps
import Verif.DatasetsExamples
import Verif.StoreModels
import Verif.StoreModelsFit
import Verif.StoreModelsProps
import Verif.StoreModelsWitness
import Verif.WeightedProps
import Verif.WeightedExamples
import Verif.LimitGauss
import Verif.LimitBoot
import Verif.LimitJoint
import Verif.LimitConcat
import Verif.LimitCombine
import Verif.JointProps
import Verif.JointApoProps
import Verif.JointExamples
import Verif.Treatments
import Verif.TreatmentsProps
import Verif.CreatedObj
import Verif.JointTreatProps
import Verif.JointPlrProps
import Verif.JointPlrExamples
import Verif.TreatmentsCreated
import Verif.TreatmentsExamples
import Verif.LimitLinear
import Verif.LimitSens
import Verif.AsymptoticSensProps
import Verif.AsymptoticSensExamples
import Verif.AsymptoticSensCover
