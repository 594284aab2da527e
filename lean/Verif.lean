import Verif.Model.AC
import Verif.Model.Aliasing
import Verif.Model.Bags
import Verif.Model.Base
import Verif.Model.CC
import Verif.Model.CvEstimator
import Verif.Model.Ddag
import Verif.Model.DeBias
import Verif.Model.Decomp
import Verif.Model.DecompBase
import Verif.Model.DecompLife
import Verif.Model.Df
import Verif.Model.DfxRun
import Verif.Model.EM
import Verif.Model.EmptyBag
import Verif.Model.Energy
import Verif.Model.Ensemble
import Verif.Model.Eoq
import Verif.Model.EoqEst
import Verif.Model.Experiment
import Verif.Model.FrankHall
import Verif.Model.Interrupt
import Verif.Model.Knn
import Verif.Model.Lifecycle
import Verif.Model.LoadData
import Verif.Model.MetricsBinary
import Verif.Model.MetricsMulti
import Verif.Model.MetricsOrdinal
import Verif.Model.NanPreds
import Verif.Model.NanQuanty
import Verif.Model.Optimization
import Verif.Model.OrdTree
import Verif.Model.Ordinal
import Verif.Model.Pipeline
import Verif.Model.Plot
import Verif.Model.Quanty
import Verif.Model.Regression
import Verif.Model.RoundedMetrics
import Verif.Model.Rounding
import Verif.Model.Search
import Verif.Model.Settings
import Verif.Model.Shapes
import Verif.Model.Solve
import Verif.Model.Sordy
import Verif.Model.Threads
import Verif.Model.ThreadsBags
import Verif.Model.ThreadsPrior
import Verif.Model.Utils
import Verif.Model.WeightedKnn
import Verif.Num.Fl
import Verif.Num.ListAux
import Verif.Proof.AC
import Verif.Proof.Bags
import Verif.Proof.CvEstimator
import Verif.Proof.Ddag
import Verif.Proof.Decomp
import Verif.Proof.Deviation
import Verif.Proof.Df
import Verif.Proof.Double
import Verif.Proof.Dpofa
import Verif.Proof.Eoq
import Verif.Proof.FrankHall
import Verif.Proof.Golden
import Verif.Proof.NanPreds
import Verif.Proof.NearestPd
import Verif.Proof.NegType
import Verif.Proof.Ordinal
import Verif.Proof.Population
import Verif.Proof.PriorShift
import Verif.Proof.Quantiles
import Verif.Proof.RoundedMetrics
import Verif.Proof.Rounding
import Verif.Proof.SameFrequencies
import Verif.Proof.Solvers
import Verif.Proof.Sord
import Verif.Proof.Stream
import Verif.Proof.Threads
import Verif.Proof.ThreadsBags
import Verif.Proof.ThreadsFit
import Verif.Proof.ThreadsPrior
import Verif.Proof.ThreadsPriorShared
import Verif.Proof.Units
import Verif.Props.AC
import Verif.Props.AcOptimal
import Verif.Props.Aliasing
import Verif.Props.Averaging
import Verif.Props.BagOrder
import Verif.Props.BagOrderMore
import Verif.Props.Bags
import Verif.Props.Bags2
import Verif.Props.BagsReturn
import Verif.Props.Base
import Verif.Props.Baselines
import Verif.Props.Bias
import Verif.Props.Certain
import Verif.Props.Columns
import Verif.Props.Consistency
import Verif.Props.CvEstimator
import Verif.Props.Ddag
import Verif.Props.DeBias
import Verif.Props.Decomp
import Verif.Props.DecompError
import Verif.Props.DecompLife
import Verif.Props.DecompShift
import Verif.Props.Df
import Verif.Props.DfOptimal
import Verif.Props.Double
import Verif.Props.Drift
import Verif.Props.EM
import Verif.Props.EMRate
import Verif.Props.EmptyBag
import Verif.Props.EndToEnd
import Verif.Props.Energy
import Verif.Props.EnergyStability
import Verif.Props.Ensemble
import Verif.Props.Eoq
import Verif.Props.Eoq2
import Verif.Props.Eoq3
import Verif.Props.EoqClassifiers
import Verif.Props.EoqEst
import Verif.Props.EoqReturns
import Verif.Props.EoqVotes
import Verif.Props.EqualCount
import Verif.Props.Experiment
import Verif.Props.ExperimentWarm
import Verif.Props.FailedFit
import Verif.Props.FrankHall
import Verif.Props.Influence
import Verif.Props.Interrupt
import Verif.Props.Joined
import Verif.Props.JoinedMore
import Verif.Props.L2Search
import Verif.Props.Lifecycle
import Verif.Props.LifecycleMore
import Verif.Props.LoadData
import Verif.Props.MatchQuality
import Verif.Props.MatchStability
import Verif.Props.Merge
import Verif.Props.MetricValues
import Verif.Props.MetricsBinary
import Verif.Props.MetricsClass
import Verif.Props.MetricsCompared
import Verif.Props.MetricsMulti
import Verif.Props.MetricsOrdinal
import Verif.Props.NanPreds
import Verif.Props.NanQuanty
import Verif.Props.NoMemory
import Verif.Props.NormError
import Verif.Props.NormPerfect
import Verif.Props.NormSearch
import Verif.Props.NormShift
import Verif.Props.Optimization
import Verif.Props.OrdTree
import Verif.Props.Ordinal
import Verif.Props.Perfect
import Verif.Props.Pipeline
import Verif.Props.Plot
import Verif.Props.Population
import Verif.Props.PopulationMatch
import Verif.Props.PriorShift
import Verif.Props.Pwkq
import Verif.Props.Quantiles
import Verif.Props.QuantilesError
import Verif.Props.Quanty
import Verif.Props.RegLearn
import Verif.Props.RegQuery
import Verif.Props.Regression
import Verif.Props.Relabel
import Verif.Props.Rename
import Verif.Props.RenameDf
import Verif.Props.RenameEnergy
import Verif.Props.RoundedMetrics
import Verif.Props.RoundedMetricsDouble
import Verif.Props.RoundedMetricsLimit
import Verif.Props.Rounding
import Verif.Props.RoundingLimit
import Verif.Props.SampleSize
import Verif.Props.SampleSizeMore
import Verif.Props.SaysNothing
import Verif.Props.SaysNothingMulti
import Verif.Props.Search
import Verif.Props.SearchErrors
import Verif.Props.SearchMethods
import Verif.Props.Settings
import Verif.Props.Shapes
import Verif.Props.Solve
import Verif.Props.Sord
import Verif.Props.Stability
import Verif.Props.Threads
import Verif.Props.ThreadsBags
import Verif.Props.ThreadsFit
import Verif.Props.ThreadsPrior
import Verif.Props.TrainInfluence
import Verif.Props.TrainInfluenceEnergy
import Verif.Props.TrainInfluenceMatch
import Verif.Props.TrainOrder
import Verif.Props.UniformBags
import Verif.Props.Units
import Verif.Props.Utils
import Verif.Props.WeightedKnn
import Verif.Spec.Average
import Verif.Spec.Bags
import Verif.Spec.Bias
import Verif.Spec.Columns
import Verif.Spec.Confusion
import Verif.Spec.Consistency
import Verif.Spec.CvEstimator
import Verif.Spec.Cvx
import Verif.Spec.Ddag
import Verif.Spec.DeBias
import Verif.Spec.Decomp
import Verif.Spec.Df
import Verif.Spec.Divergences
import Verif.Spec.Double
import Verif.Spec.Drift
import Verif.Spec.EM
import Verif.Spec.Ecdf
import Verif.Spec.Eoq
import Verif.Spec.EqualGroups
import Verif.Spec.ErrorVanishes
import Verif.Spec.Experiment
import Verif.Spec.FrankHall
import Verif.Spec.Influence
import Verif.Spec.Joined
import Verif.Spec.Merge
import Verif.Spec.NanPreds
import Verif.Spec.NegType
import Verif.Spec.Ordinal
import Verif.Spec.Population
import Verif.Spec.Prevalence
import Verif.Spec.PriorShift
import Verif.Spec.Quanty
import Verif.Spec.Regression
import Verif.Spec.Relabel
import Verif.Spec.Rename
import Verif.Spec.RoundedMetrics
import Verif.Spec.Rounding
import Verif.Spec.SameFrequencies
import Verif.Spec.SampleSize
import Verif.Spec.SaysNothing
import Verif.Spec.Settings
import Verif.Spec.Solvers
import Verif.Spec.Stability
import Verif.Spec.Transport
import Verif.Spec.Units
