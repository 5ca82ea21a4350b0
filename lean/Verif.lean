import Verif.Subsample.Props
import Verif.Quantile.Props
import Verif.Reshape.Props
import Verif.Pmf.Props
import Verif.Split.Props
import Verif.Encode.Props
import Verif.Refit.Props
import Verif.Params.Props
import Verif.Boost.Props
import Verif.Names.Props
import Verif.Transform.Props
import Verif.Transform.Causal
import Verif.Binned.Props
import Verif.Fmt.Props
import Verif.Normalize.Props
import Verif.Kfcv.Props
import Verif.Prune.Props
import Verif.Calendar.Props
import Verif.GlobalForm.Props
import Verif.Hankel.Props
import Verif.Bench.Props
import Verif.HW.Props
import Verif.HW.Multi
import Verif.HW.Props2
import Verif.Kalman.Props
import Verif.Fast.Props
import Verif.Fast.Examples
import Verif.Statsmodels.Props
import Verif.Fast.Fourier
import Verif.Scenred.Props
import Verif.Scenred.NetProps
import Verif.Scenred.TreeProps
import Verif.Scenred.Examples
import Verif.Scenred.Greedy
import Verif.TreeBuild.Props
import Verif.TreeBuild.Gas
import Verif.TreeBuild.Cover
import Verif.TreeBuild.Examples
import Verif.Metrics.Props
import Verif.Metrics.Examples
import Verif.ScenGen.Props
import Verif.ScenGen.Examples
import Verif.Trainer.Props
import Verif.Trainer.Examples
import Verif.Recon.Props
import Verif.Recon.More
import Verif.Recon.Examples
import Verif.BigData.Props
import Verif.BigData.Memory
import Verif.BigData.Examples
import Verif.ICNN.Model
import Verif.ICNN.Spec
import Verif.ICNN.Lemmas
import Verif.ICNN.Proj
import Verif.ICNN.Props
import Verif.ICNN.Quasi
import Verif.ICNN.Examples
import Verif.NNTrain.Model
import Verif.NNTrain.Lemmas
import Verif.NNTrain.Props
import Verif.NNTrain.Stop
import Verif.NNTrain.Examples
import Verif.SaveLoad.Model
import Verif.SaveLoad.Props
import Verif.SaveLoad.Examples
import Verif.INN.Model
import Verif.INN.Activation
import Verif.INN.Props
import Verif.INN.Ctor
import Verif.INN.CtorProps
import Verif.INN.Examples
import Verif.Lstm.Model
import Verif.Lstm.Props
import Verif.Lstm.Examples
import Verif.NNQuant.Model
import Verif.NNQuant.Props
import Verif.NNQuant.Examples
import Verif.NNOpt.Model
import Verif.NNOpt.Props
import Verif.NNOpt.Examples
import Verif.Hybrid.Model
import Verif.Hybrid.Lemmas
import Verif.Hybrid.Props
import Verif.Hybrid.PropsEA
import Verif.Hybrid.Examples
import Verif.FmtNorm.Model
import Verif.FmtNorm.Props
import Verif.FmtNorm.Examples
import Verif.Tune.Model
import Verif.Tune.Spec
import Verif.Tune.Lemmas
import Verif.Tune.Props
import Verif.Tune.Props2
import Verif.Tune.Props3
import Verif.Tune.Examples
import Verif.Ctor.Model
import Verif.Ctor.Spec
import Verif.Ctor.Props
import Verif.Ctor.Props2
import Verif.Ctor.Props3
import Verif.Ctor.Examples
import Verif.Utils.Model
import Verif.Utils.Freq
import Verif.Utils.Lemmas
import Verif.Utils.Props
import Verif.Utils.FreqProps
import Verif.Utils.Examples
import Verif.Summary.Model
import Verif.Summary.Lemmas
import Verif.Summary.Props
import Verif.Summary.Props2
import Verif.Summary.Examples
import Verif.Rff.Model
import Verif.Rff.Props
import Verif.Rff.Props2
import Verif.Rff.Props3
import Verif.Rff.Examples
import Verif.Boot.Model
import Verif.Boot.Props
import Verif.Boot.Examples
import Verif.Qrf.Model
import Verif.Qrf.Spec
import Verif.Qrf.Lemmas
import Verif.Qrf.Props
import Verif.Qrf.Props2
import Verif.Qrf.Examples
import Verif.NnIo.Model
import Verif.NnIo.Props
import Verif.NnIo.Props2
import Verif.NnIo.Examples
import Verif.Kpi.Model
import Verif.Kpi.Spec
import Verif.Kpi.Lemmas
import Verif.Kpi.Props
import Verif.Kpi.Examples
import Verif.Hyper.Model
import Verif.Hyper.Spec
import Verif.Hyper.Lemmas
import Verif.Hyper.Props
import Verif.Hyper.Props2
import Verif.Hyper.Examples
import Verif.Refine.Model
import Verif.Refine.Spec
import Verif.Refine.Lemmas
import Verif.Refine.Props
import Verif.Refine.Examples
import Verif.Losses.Model
import Verif.Losses.Spec
import Verif.Losses.Lemmas
import Verif.Losses.Props
import Verif.Losses.Props2
import Verif.Losses.Examples
import Verif.FkRun.Model
import Verif.FkRun.Spec
import Verif.FkRun.Lemmas
import Verif.FkRun.Props
import Verif.FkRun.Examples
import Verif.LatOpt.Model
import Verif.LatOpt.Spec
import Verif.LatOpt.Lemmas
import Verif.LatOpt.Props
import Verif.LatOpt.Examples
import Verif.TreeInit.Model
import Verif.TreeInit.Spec
import Verif.TreeInit.Lemmas
import Verif.TreeInit.Props
import Verif.TreeInit.Examples
import Verif.Insample.Model
import Verif.Insample.Spec
import Verif.Insample.Lemmas
import Verif.Insample.Props
import Verif.Insample.Examples
import Verif.PredTrees.Model
import Verif.PredTrees.Spec
import Verif.PredTrees.Lemmas
import Verif.PredTrees.Props
import Verif.PredTrees.Calls
import Verif.PredTrees.Examples
import Verif.RecScen.Model
import Verif.RecScen.Spec
import Verif.RecScen.Lemmas
import Verif.RecScen.Props
import Verif.RecScen.Examples
import Verif.Pickle.Model
import Verif.Pickle.Props
import Verif.Pickle.Examples
import Verif.TreeLoss.Model
import Verif.TreeLoss.Lemmas
import Verif.TreeLoss.Props
import Verif.TreeLoss.Deriv
import Verif.TreeLoss.Examples
import Verif.ReconCov.Model
import Verif.ReconCov.Lemmas
import Verif.ReconCov.Props
import Verif.ReconCov.Examples
import Verif.ReconCov.Witness
import Verif.Plots.Model
import Verif.Plots.Lemmas
import Verif.Plots.Props
import Verif.Plots.Examples
import Verif.TreeGen.Model
import Verif.TreeGen.Lemmas
import Verif.TreeGen.Props
import Verif.TreeGen.Stuck
import Verif.TreeGen.Examples
import Verif.Serve.Model
import Verif.Serve.Props
import Verif.Serve.Seasonal
import Verif.Serve.Examples
import Verif.InnLoss.Model
import Verif.InnLoss.Props
import Verif.InnLoss.Examples
import Verif.Sampling.Model
import Verif.Sampling.Spec
import Verif.Sampling.Median
import Verif.Sampling.Gaps
import Verif.Sampling.Discrete
import Verif.Sampling.Examples
import Verif.Forward.Model
import Verif.Forward.Spec
import Verif.Forward.Static
import Verif.Forward.Binding
import Verif.Forward.Props
import Verif.Forward.Examples
import Verif.Ctor.Props4
import Verif.Fast.Linear
import Verif.ICNN.Layer
import Verif.LatNet.Model
import Verif.LatNet.Props
import Verif.LatNet.Examples
import Verif.Quantile.Errors
import Verif.Pickle.Props2
import Verif.HW.Linear
import Verif.Quantile.Units
import Verif.Summary.Arrays
import Verif.Denorm.Examples
import Verif.FkUnits.Examples
import Verif.FkUnits.Refine
import Verif.Ols.Examples
import Verif.ScenUnits.Examples
import Verif.FmtUnits.Examples
import Verif.TreeObs.Examples
import Verif.FmtViews.Examples
import Verif.LstmNet.Examples
import Verif.LstmBidir.Examples
import Verif.Mapper.Examples
import Verif.Pipe.Examples
import Verif.Refit.Reach
import Verif.FfNet.Examples
import Verif.Metrics.UnitsExamples
import Verif.ReconCov.UnitsExamples
import Verif.RffKernel.Examples
import Verif.Copula.Examples
import Verif.Copula.ShareExamples
import Verif.RecScen.LawExamples
import Verif.ICNN.InitExamples
import Verif.TreePlot.Examples
import Verif.Subsample.FairExamples
import Verif.TreeLoss.SoftExamples
import Verif.HW.GaugeExamples
import Verif.FfNet.LipschitzExamples
import Verif.Scenred.ExpectExamples
import Verif.Kfcv.OverlapExamples
import Verif.Boot.ExpectExamples
import Verif.Quantile.CoverageExamples
import Verif.Metrics.EnsExamples
import Verif.Kalman.ScalarExamples
import Verif.Tune.ChanceExamples
import Verif.FkRun.CapExamples
import Verif.Pmf.QrfExamples
import Verif.FkRun.UnitsExamples
import Verif.Losses.ProbExamples
import Verif.Prune.Cols
import Verif.Lstm.Overlap
import Verif.CatSel.Examples
import Verif.PipeQ.Examples
import Verif.FmtUnits.OrderExamples
import Verif.Ols.OrderExamples
import Verif.Ols.DeterminedExamples
import Verif.PipeOrd.Examples
import Verif.LatNet.ConvexExamples
import Verif.BinFlat.Examples
import Verif.FoldPic.Examples
import Verif.NNSeed.Examples
import Verif.BinFlat.Latest
import Verif.Tune.BudgetExamples
import Verif.HwSearch.Examples
import Verif.ScenGen.RepeatExamples
import Verif.Brutal.Examples
import Verif.EsFreq.Examples
import Verif.PipeQ.Faithful
import Verif.FkRun.NoiseExamples
import Verif.FkRun.PsdExamples
import Verif.FkUnits.PsdExamples
