import Verif.Model.Basic
import Verif.Model.Constants
import Verif.Model.UtilsCommon
import Verif.Model.UtilsCovariance
import Verif.Model.UtilsPlotting
import Verif.Model.Acquisition
import Verif.Model.UtilsBo
import Verif.Model.BaseBo
import Verif.Model.WrappersBo
import Verif.Model.WrapperClass
import Verif.Model.Trees
import Verif.Model.Covariance
import Verif.Model.Gp
import Verif.Model.Tp
import Verif.Model.BoCommon
import Verif.Model.BoWGp
import Verif.Model.BoWTp
import Verif.Model.BoWTrees
import Verif.Props.Normalize
import Verif.Props.Selection
import Verif.Props.Curves
import Verif.Props.Grids
import Verif.Props.Hyps
import Verif.Props.Dispatch
import Verif.Props.Run
import Verif.Props.Sampling
import Verif.Props.Acquisition
import Verif.Props.Trees
import Verif.Props.Checks
import Verif.Props.Covariance
import Verif.Props.KernelMatrix
import Verif.Props.Gradients
import Verif.Props.Gp
import Verif.Props.GpPosterior
import Verif.Props.Likelihood
import Verif.Props.Loo
import Verif.Props.Tp
import Verif.Props.Rejects
import Verif.Lemmas.OptM
import Verif.Lemmas.PointwisePredict
import Verif.Spec.Steps
import Verif.Spec.Total
import Verif.Lemmas.StepTrace
import Verif.Lemmas.StepAcq
import Verif.Lemmas.StepPost
import Verif.Lemmas.StepTotal
import Verif.Lemmas.StepTotalOthers
import Verif.Props.Propose
import Verif.Props.Total
import Verif.Lemmas.StepState
import Verif.Spec.StepState
import Verif.Props.Units
import Verif.Props.StepState
import Verif.Props.Options
import Verif.Spec.Wrapper
import Verif.Lemmas.WrapperClass
import Verif.Lemmas.WrapperSteps
import Verif.Lemmas.WrapperTotal
import Verif.Props.Wrapper
import Verif.Props.Steps
import Verif.Model.SampleFunctions
import Verif.Model.ThompsonSampling
import Verif.Model.UtilsLogger
import Verif.Spec.Thompson
import Verif.Spec.Samples
import Verif.Spec.Logger
import Verif.Lemmas.Thompson
import Verif.Lemmas.StudentSample
import Verif.Lemmas.Logger
import Verif.Props.Thompson
import Verif.Props.Samples
import Verif.Props.Logger
import Verif.Props.WrapperOptions
import Verif.Props.GpUpdate
import Verif.Lemmas.Mills
import Verif.Props.AcquisitionJitter
import Verif.Spec.Fit
import Verif.Lemmas.Fit
import Verif.Props.Fit
import Verif.Spec.Symmetry
import Verif.Props.GpSymmetries
import Verif.Model.Figures
import Verif.Spec.Figures
import Verif.Props.Figures
import Verif.Props.CurveFigures
import Verif.Model.PlotSession
import Verif.Props.PlotSession
import Verif.Model.Seeds
import Verif.Spec.Seeds
import Verif.Lemmas.RunSim
import Verif.Lemmas.Seeds
import Verif.Props.Seeds
import Verif.Lemmas.StudentLimit
import Verif.Props.StudentLimit
import Verif.Lemmas.TreeUnits
import Verif.Props.TreeUnits
import Verif.Spec.Replicates
import Verif.Lemmas.Replicates
import Verif.Props.Replicates
import Verif.Spec.Objective
import Verif.Lemmas.Objective
import Verif.Props.Objective
import Verif.Spec.Doubles
import Verif.Spec.Rounded
import Verif.Model.Rounded
import Verif.Lemmas.Doubles
import Verif.Lemmas.Rounded
import Verif.Props.Rounded
import Verif.Lemmas.Robust
import Verif.Props.Robust
import Verif.Lemmas.Chain
import Verif.Props.Chain
import Verif.Spec.Frames
import Verif.Lemmas.Frames
import Verif.Lemmas.Moved
import Verif.Lemmas.FrameSteps
import Verif.Lemmas.FrameRun
import Verif.Lemmas.FrameCreate
import Verif.Props.Frames
import Verif.Model.Pool
import Verif.Lemmas.Pool
import Verif.Props.Pool
import Verif.Spec.Overflow
import Verif.Model.Overflow
import Verif.Lemmas.Overflow
import Verif.Props.Overflow
import Verif.Spec.Chance
import Verif.Lemmas.Chance
import Verif.Props.Chance
import Verif.Spec.Bootstrap
import Verif.Lemmas.Bootstrap
import Verif.Props.Bootstrap
import Verif.Props.SplitChance
import Verif.Spec.Regret
import Verif.Lemmas.Regret
import Verif.Props.Regret
import Verif.Lemmas.Band
import Verif.Props.Band
import Verif.Props.RandomStart
import Verif.Model.StartLog
import Verif.Spec.StartLog
import Verif.Lemmas.StartLog
import Verif.Props.StartLog
import Verif.Spec.Annotations
import Verif.Props.Annotations
import Verif.Model.NonFinite
import Verif.Spec.NonFinite
import Verif.Lemmas.NonFinite
import Verif.Lemmas.NonFiniteStep
import Verif.Props.NonFinite
import Verif.Props.Exploration
import Verif.Props.WorstCase
import Verif.Props.Bayes
import Verif.Props.RoundedKernels
import Verif.Model.RoundedPredict
import Verif.Props.RoundedPredict
import Verif.Props.RoundedAcquisition
import Verif.Model.OverflowKernels
import Verif.Props.OverflowKernels
import Verif.Model.NonFiniteAcquisition
import Verif.Props.NonFiniteAcquisition
import Verif.Model.NonFiniteKernels
import Verif.Spec.NonFiniteKernels
import Verif.Lemmas.NonFiniteKernels
import Verif.Props.NonFiniteKernels
import Verif.Spec.HypSearch
import Verif.Lemmas.HypSearch
import Verif.Props.HypSearch
import Verif.Props.Signs
import Verif.Props.ForestShape
import Verif.Props.ForestNearest
import Verif.Props.SeedsForest
import Verif.Model.RoundedTrees
import Verif.Spec.RoundedTrees
import Verif.Lemmas.RoundedTrees
import Verif.Lemmas.RoundedMeans
import Verif.Lemmas.RoundedForest
import Verif.Lemmas.RoundedTreesId
import Verif.Props.RoundedTrees
import Verif.Props.RoundedForest
import Verif.Lemmas.GrowingWeight
import Verif.Props.GrowingWeight
import Verif.Spec.StudentChoices
import Verif.Lemmas.StudentChoices
import Verif.Props.StudentChoices
import Verif.Model.OverflowTrees
import Verif.Spec.OverflowTrees
import Verif.Lemmas.OverflowTrees
import Verif.Lemmas.OverflowTreesFail
import Verif.Props.OverflowTrees
import Verif.Props.TreesReject
import Verif.Lemmas.ImproveRefit
import Verif.Props.ImproveRefit
import Verif.Spec.EndToEnd
import Verif.Lemmas.EndToEnd
import Verif.Props.EndToEnd
import Verif.Lemmas.EndToEndMore
import Verif.Lemmas.ImprovementChance
import Verif.Props.EndToEndMore
import Verif.Props.ImprovementChance
import Verif.Props.OtherRuns
import Verif.Props.StudentBand
import Verif.Spec.StudentRuns
import Verif.Lemmas.StudentRuns
import Verif.Props.StudentRuns
import Verif.Model.WrapperFunction
import Verif.Spec.WrapperFunction
import Verif.Props.WrapperFunction
import Verif.Model.OverflowTp
import Verif.Spec.OverflowTp
import Verif.Lemmas.OverflowTp
import Verif.Props.OverflowTp
import Verif.Spec.ThompsonSearch
import Verif.Props.ThompsonSearch
import Verif.Spec.RoundedLikelihood
import Verif.Model.RoundedLikelihood
import Verif.Lemmas.RoundedLikelihood
import Verif.Props.RoundedLikelihood
import Verif.Spec.RoundedChoice
import Verif.Model.RoundedChoice
import Verif.Lemmas.RoundedChoice
import Verif.Props.RoundedChoice
import Verif.Model.RoundedStep
import Verif.Spec.RoundedStep
import Verif.Lemmas.RoundedStep
import Verif.Lemmas.RoundedStepNumbers
import Verif.Props.RoundedStep
import Verif.Props.RoundedStepReturns
import Verif.Model.RoundedTp
import Verif.Spec.RoundedValues
import Verif.Lemmas.RoundedValues
import Verif.Lemmas.RoundedTp
import Verif.Props.RoundedTp
import Verif.Model.RoundedTreesStep
import Verif.Lemmas.RoundedTreesStep
import Verif.Props.RoundedTreesStep
import Verif.Model.RoundedTpStep
import Verif.Lemmas.RoundedTpStep
import Verif.Lemmas.RoundedTpNumbers
import Verif.Props.RoundedTpStep
import Verif.Props.RoundedTpStepReturns
import Verif.Model.RoundedTpLikelihood
import Verif.Spec.RoundedTpLikelihood
import Verif.Lemmas.RoundedTpLikelihood
import Verif.Lemmas.RoundedTpLikelihoodNumbers
import Verif.Props.RoundedTpLikelihood
import Verif.Props.RoundedTpFit
import Verif.Props.RoundedRefusals
