import Verif.Props.PublisherData
import Verif.Props.ReachPoint
import Verif.Props.DataSet
import Verif.Props.PrivacyTracker
import Verif.Props.Halo
import Verif.Props.Strategy
import Verif.Props.Venn
import Verif.Props.VennNonneg
import Verif.Props.ReachCurve
import Verif.Props.Pairwise
import Verif.Props.Restricted
import Verif.Props.RestrictedFit
import Verif.Props.MultiStart
import Verif.Props.Mixture
import Verif.Props.Noiseless
import Verif.Props.PublisherFile
import Verif.Props.Storage
import Verif.Props.Generators
import Verif.Props.DataDesign
import Verif.Props.TestPoints
import Verif.Props.Aggregator
import Verif.Props.Trial
import Verif.Props.Design
import Verif.Props.DesignSizes
import Verif.Props.Designs
import Verif.Props.Beam
import Verif.Props.TrialReport
import Verif.Props.TrialRow
import Verif.Props.Descriptor
import Verif.Props.KInflated
import Verif.Props.ExpPoisson
import Verif.Props.KInflatedFit
import Verif.Props.KInflatedObjective
import Verif.Props.GammaPoisson
import Verif.Props.Dirac
import Verif.Props.Planner
import Verif.Props.TwoPublishers
import Verif.Props.PlannerFit
import Verif.Props.MixtureFit
import Verif.Props.RestrictedWhole
import Verif.Props.Dp
import Verif.Props.Noise
import Verif.Props.VennPrivacy
import Verif.Props.LiquidLegions
import Verif.Props.VennMean
import Verif.Props.CloudStorage
import Verif.Props.SyntheticDesign
import Verif.Props.WholeTrial
import Verif.Props.TrialPrivacy
import Verif.Props.TrialFit
import Verif.Props.Refusals
import Verif.Props.Exact
import Verif.Model.TrialModels
import Verif.Props.TrialModels
import Verif.Props.TrialSurface
import Verif.Props.TrialCurves
import Verif.Props.TrialMany
import Verif.Props.TrialPredictions
import Verif.Props.DiracStrategy
import Verif.Props.ExactMore
import Verif.Model.CloudTrial
import Verif.Props.CloudTrial
import Verif.Props.Coverage
import Verif.Model.Float64
import Verif.Spec.Float64
import Verif.Lemmas.Float64
import Verif.Props.Float64
import Verif.Model.FloatSpend
import Verif.Model.FloatSurface
import Verif.Model.FloatGoerg
import Verif.Model.CommandLine
import Verif.Lemmas.FloatSpend
import Verif.Props.FloatSpend
import Verif.Props.Rounding
import Verif.Lemmas.TrialAny
import Verif.Props.AnyGenerators
import Verif.Model.DriverRun
import Verif.Props.DriverRun
import Verif.Props.DriverExact
import Verif.Model.Dataflow
import Verif.Props.Dataflow
import Verif.Spec.Laws
import Verif.Model.Laws
import Verif.Lemmas.Laws
import Verif.Lemmas.Zeta
import Verif.Props.Laws
import Verif.Props.Conservation
import Verif.Props.ConservationMore
import Verif.Props.Returns
import Verif.Props.LegionsDelta
import Verif.Props.MixtureReturns
import Verif.Props.FloatSurface
import Verif.Props.FloatGoerg
import Verif.Props.FloatUnion
import Verif.Model.FloatMetrics
import Verif.Props.AggregatorEmpty
import Verif.Props.FloatMetrics
import Verif.Props.FloatMare
import Verif.Props.FloatShuffle
import Verif.Props.FloatVariance
import Verif.Spec.CommandLine
import Verif.Props.CommandLine
import Verif.Props.CommandLineForms
import Verif.Lemmas.Likelihood
import Verif.Model.DiracSolve
import Verif.Props.DiracSolve
