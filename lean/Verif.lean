import Verif.Spec.Binning
import Verif.Spec.Options
import Verif.Spec.Admissible
import Verif.Model.Solver
import Verif.Model.ModelData
import Verif.Lemmas.Partition
import Verif.Lemmas.Accept
import Verif.Lemmas.ModelData
import Verif.Lemmas.Refine
import Verif.Props.Solver
import Verif.Props.SolverFindings
import Verif.Props.Fit
import Verif.Props.FitTable
import Verif.Props.Categorical
import Verif.Props.CatUser
import Verif.Props.Json
import Verif.Props.Metrics
import Verif.Props.TransformRate
import Verif.Props.Trend
import Verif.Props.Ks
import Verif.Props.Monitoring
import Verif.Props.Scorecard
import Verif.Props.Outlier
import Verif.Props.GK
import Verif.Props.GKMerge
import Verif.Props.BSketch
import Verif.Props.SketchBins
import Verif.Props.BCatSketch
import Verif.Props.Mdlp
import Verif.Props.Counterfactual
import Verif.Props.CounterfactualOpt
import Verif.Props.FitMore
import Verif.Props.Binning2D
import Verif.Props.Optimal2D
import Verif.Props.Examples2D
import Verif.Props.ContinuousSolver
import Verif.Props.Continuous
import Verif.Props.ContinuousTable
import Verif.Props.ContinuousTransform
import Verif.Props.ContinuousFit
import Verif.Props.MulticlassSolver
import Verif.Props.Multiclass
import Verif.Props.MulticlassTable
import Verif.Props.MulticlassTransform
import Verif.Props.ScenarioSolver
import Verif.Props.Scenarios
import Verif.Props.ScenarioFixed
import Verif.Props.ProcessSelect
import Verif.Props.ProcessTransform
import Verif.Props.ProcessFit
import Verif.Props.Stream
import Verif.Props.StreamSolve
import Verif.Props.StreamTable
import Verif.Props.StreamHistory
import Verif.Props.StreamMerge
import Verif.Props.StreamMerge2
import Verif.Props.CatStream
import Verif.Props.CatStream2
import Verif.Props.CatStream3
import Verif.Props.ProcessSketch
import Verif.Props.ProcessSketch2
import Verif.Props.ProcessSketch3
import Verif.Model.Piecewise
import Verif.Spec.Piecewise
import Verif.Lemmas.Piecewise
import Verif.Props.Piecewise
import Verif.Props.Piecewise2
import Verif.Props.Piecewise3
import Verif.Model.PiecewiseC
import Verif.Props.PiecewiseC
import Verif.Props.PiecewiseEx
import Verif.Model.Fit2DC
import Verif.Lemmas.Geo2D
import Verif.Lemmas.Continuous2D
import Verif.Lemmas.Pairs2D
import Verif.Spec.Continuous2D
import Verif.Props.Continuous2D
import Verif.Props.ContinuousOpt2D
import Verif.Props.Pairs2D
import Verif.Props.Refinements2D
import Verif.Props.ExamplesC2D
import Verif.Model.Cart2D
import Verif.Spec.Cart2D
import Verif.Lemmas.CartTree
import Verif.Lemmas.CartRows
import Verif.Lemmas.CartCands
import Verif.Lemmas.CartSolve
import Verif.Lemmas.CartFit
import Verif.Props.Cart2D
import Verif.Props.CartOpt2D
import Verif.Props.ExamplesCart2D
import Verif.Model.Regression
import Verif.Spec.Regression
import Verif.Lemmas.Regression
import Verif.Props.Regression
import Verif.Model.Gini
import Verif.Spec.Gini
import Verif.Props.Gini
import Verif.Model.MonitorSystem
import Verif.Spec.MonitorSystem
import Verif.Props.MonitorSystem
import Verif.Props.MonitorVariables
import Verif.Props.SolverFindings2
import Verif.Model.Analysis
import Verif.Spec.Analysis
import Verif.Lemmas.Analysis
import Verif.Props.Analysis
import Verif.Props.Analysis2
import Verif.Props.AnalysisFit
import Verif.Props.AnalysisM
import Verif.Props.AnalysisC
import Verif.Props.Analysis3
import Verif.Model.Params
import Verif.Spec.Params
import Verif.Props.Params
import Verif.Props.ParamsFit
import Verif.Lemmas.Isotonic
import Verif.Lemmas.IsoDiv
import Verif.Spec.Optimal
import Verif.Lemmas.Optimal
import Verif.Props.Optimal
import Verif.Spec.Cuts
import Verif.Lemmas.Cuts
import Verif.Lemmas.CutsFit
import Verif.Props.FitOptimal
import Verif.Props.FitOptimalEx
import Verif.Props.FitOptimalPure
import Verif.Props.FitOptimalMiss
import Verif.Spec.TrendRows
import Verif.Spec.ParamsC
import Verif.Model.ParamsC
import Verif.Lemmas.ContinuousCells
import Verif.Props.TrendRows
import Verif.Props.ParamsC
import Verif.Props.ParamsCEx
import Verif.Spec.CutsC
import Verif.Lemmas.CutsC
import Verif.Props.FitOptimalC
import Verif.Props.FitOptimalCEx
import Verif.Model.SolverChoice
import Verif.Props.SolverChoice
import Verif.Model.ParamsM
import Verif.Spec.ParamsM
import Verif.Props.ParamsM
import Verif.Model.Labels
import Verif.Spec.Labels
import Verif.Props.Labels
import Verif.Model.JsMulti
import Verif.Spec.JsMulti
import Verif.Props.JsMulti
import Verif.Model.Params2D
import Verif.Spec.Params2D
import Verif.Props.Params2D
import Verif.Model.Table2D
import Verif.Spec.Table2D
import Verif.Lemmas.Plot2D
import Verif.Props.Table2D
import Verif.Model.LocalSolver
import Verif.Spec.LocalSolver
import Verif.Lemmas.LocalSolver
import Verif.Props.LocalSolver
import Verif.Model.SketchArgs
import Verif.Spec.SketchArgs
import Verif.Lemmas.SketchArgs
import Verif.Props.SketchArgs
import Verif.Props.SketchArgs2
import Verif.Props.SketchArgs3
import Verif.Props.SketchArgsEx
import Verif.Props.SketchFlag
import Verif.Model.ScenArgs
import Verif.Spec.ScenArgs
import Verif.Props.ScenOrder
import Verif.Props.ScenOrder2
import Verif.Props.ScenArgs
import Verif.Props.ScenArgs2
import Verif.Model.JsonFile
import Verif.Spec.JsonFile
import Verif.Props.JsonFile
import Verif.Props.JsonFile2
import Verif.Model.ProcessArgs
import Verif.Spec.ProcessArgs
import Verif.Props.ProcessArgs
import Verif.Model.UserParams
import Verif.Spec.UserParams
import Verif.Lemmas.UserParams
import Verif.Props.UserParams
import Verif.Model.CatParams
import Verif.Spec.CatParams
import Verif.Props.CatParams
import Verif.Model.SketchProcessArgs
import Verif.Spec.SketchProcessArgs
import Verif.Props.SketchProcessArgs
import Verif.Props.SketchProcessArgsEx
import Verif.Model.SplitRound
import Verif.Props.SplitRound
import Verif.Model.UserParamsC
import Verif.Spec.UserParamsC
import Verif.Props.UserParamsC
import Verif.Props.UserParamsCEx
import Verif.Model.CatParamsC
import Verif.Spec.CatParamsC
import Verif.Props.CatParamsC
import Verif.Props.CatParamsCEx
import Verif.Model.CatUserC
import Verif.Spec.CatUserC
import Verif.Lemmas.CatUserC
import Verif.Props.CatUserC
import Verif.Props.CatUserParamsC
import Verif.Props.CatUserOptC
import Verif.Props.CatUserCEx
import Verif.Props.CatUserOptCEx
import Verif.Model.CatFixedC
import Verif.Props.CatFixedC
import Verif.Props.CatFixedOptC
import Verif.Props.CatFixedCEx
import Verif.Props.CatFixedOptCEx
