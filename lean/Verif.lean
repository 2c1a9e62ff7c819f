import Verif.Props.Sampler
import Verif.Props.Adding
import Verif.Props.Polling
import Verif.Props.Initial
import Verif.Props.Storage
import Verif.Props.StorageFile
import Verif.Props.Parallel
import Verif.Props.Pool
import Verif.Props.PbsJob
import Verif.Props.Pbs
import Verif.Props.PbsCollect
import Verif.Props.PbsRecovery
import Verif.Props.PbsSim
import Verif.Props.Quantity
import Verif.Props.QuantityMix
import Verif.Props.QuantityAccess
import Verif.Props.QuantitySize
import Verif.Props.QuantityParts
import Verif.Props.QuantityTime
import Verif.Props.QuantityMoments
import Verif.Props.Estimate
import Verif.Props.EstimateLinear
import Verif.Props.EstimateIndex
import Verif.Props.EstimateCov
import Verif.Props.Allocation
import Verif.Props.Domain
import Verif.Props.Moments
import Verif.Props.MomentsDiff
import Verif.Props.Fields
import Verif.Props.RandomField
import Verif.Props.Substitute
import Verif.Props.Gmsh
import Verif.Props.FlowSim
import Verif.Props.Synth
import Verif.Props.Distribution
import Verif.Props.Cache
import Verif.Props.Subsample
import Verif.Props.Regression
import Verif.Props.Waiting
import Verif.Model.DensityFit
import Verif.Proofs.DensityFit
import Verif.Props.DensityFit
import Verif.Model.Orthogonal
import Verif.Props.Orthogonal
import Verif.Model.Program
import Verif.Spec.Program
import Verif.Proofs.Program
import Verif.Proofs.ProgramEstimate
import Verif.Props.Program
import Verif.Spec.Statistics
import Verif.Props.Unbiased
import Verif.Spec.Covariance
import Verif.Proofs.PosDef
import Verif.Model.KarhunenLoeve
import Verif.Props.Correlation
import Verif.Proofs.KarhunenLoeve
import Verif.Props.KarhunenLoeve
import Verif.Model.FourierField
import Verif.Spec.FourierField
import Verif.Proofs.FourierField
import Verif.Props.FourierField
import Verif.Model.ProgramPbs
import Verif.Spec.ProgramPbs
import Verif.Proofs.ProgramPbs
import Verif.Props.ProgramPbs
import Verif.Proofs.SameEstimates
import Verif.Model.ProgramPar
import Verif.Spec.ProgramPar
import Verif.Proofs.ProgramPar
import Verif.Props.ProgramPar
import Verif.Model.ProgramRestart
import Verif.Spec.ProgramRestart
import Verif.Proofs.ProgramRestart
import Verif.Props.ProgramRestart
import Verif.Model.Estimator
import Verif.Proofs.Estimator
import Verif.Props.Estimator
import Verif.Spec.Index
import Verif.Props.QuantityIndex
import Verif.Spec.Gmsh1
import Verif.Props.Gmsh1
import Verif.Model.Divergence
import Verif.Spec.Divergence
import Verif.Props.Divergence
import Verif.Model.ExactMoments
import Verif.Spec.ExactMoments
import Verif.Props.ExactMoments
import Verif.Model.Constant
import Verif.Props.Constant
import Verif.Model.MomentsDer
import Verif.Props.MomentsDer
import Verif.Model.Slope
import Verif.Spec.Slope
import Verif.Proofs.Slope
import Verif.Props.Slope
import Verif.Model.Qstat
import Verif.Spec.Qstat
import Verif.Proofs.Qstat
import Verif.Props.Qstat
import Verif.Model.PbsScript
import Verif.Spec.PbsScript
import Verif.Proofs.PbsScript
import Verif.Props.PbsScript
import Verif.Model.Workspace
import Verif.Spec.Workspace
import Verif.Proofs.Workspace
import Verif.Props.Workspace
import Verif.Proofs.MomentsLinear
import Verif.Model.ConstructDensity
import Verif.Proofs.ConstructDensity
import Verif.Props.ConstructDensity
import Verif.Proofs.ConstructDensityExamples
import Verif.Props.ConstructDensityCut
import Verif.Model.PbsRestart
import Verif.Spec.PbsRestart
import Verif.Proofs.PbsRestart
import Verif.Props.PbsRestart
import Verif.Model.FloatEstimate
import Verif.Spec.FloatEstimate
import Verif.Proofs.FloatEstimate
import Verif.Props.FloatEstimate
import Verif.Model.PbsSessions
import Verif.Spec.PbsSessions
import Verif.Proofs.PbsSessions
import Verif.Props.PbsSessions
import Verif.Model.LevelSamples
import Verif.Spec.LevelSamples
import Verif.Proofs.LevelSamples
import Verif.Props.LevelSamples
import Verif.Model.StagedFit
import Verif.Spec.StagedFit
import Verif.Proofs.StagedFit
import Verif.Props.StagedFit
import Verif.Model.StatsTests
import Verif.Proofs.StatsTests
import Verif.Props.StatsTests
import Verif.Spec.NormalTests
import Verif.Props.StatsNormal
import Verif.Model.Adaptive
import Verif.Spec.Adaptive
import Verif.Proofs.Adaptive
import Verif.Props.Adaptive
import Verif.Model.AdaptiveStats
import Verif.Spec.AdaptiveStats
import Verif.Proofs.LegendreBound
import Verif.Proofs.AdaptiveStats
import Verif.Props.AdaptiveStats
import Verif.Spec.ProgramDirs
import Verif.Proofs.ProgramDirs
import Verif.Props.ProgramDirs
import Verif.Model.FlowLevels
import Verif.Spec.FlowLevels
import Verif.Props.FlowLevels
import Verif.Model.Shooting
import Verif.Spec.Shooting
import Verif.Proofs.Shooting
import Verif.Props.Shooting
import Verif.Model.MomentArrays
import Verif.Spec.MomentArrays
import Verif.Props.MomentArrays
import Verif.Model.StoreText
import Verif.Props.StoreText
import Verif.Model.StorePath
import Verif.Props.StorePath
import Verif.Model.SeedRace
import Verif.Props.SeedRace
import Verif.Model.FlowSeed
import Verif.Props.FlowSeed
import Verif.Model.QuadCache
import Verif.Props.QuadCache
import Verif.Model.LogField
import Verif.Spec.LogField
import Verif.Props.LogField
import Verif.Model.ProgramMem
import Verif.Props.ProgramMem
import Verif.Spec.Convergence
import Verif.Props.Consistency
import Verif.Props.Confidence
import Verif.Props.AllocationCost
import Verif.Model.SynthWorkspace
import Verif.Props.SynthWorkspace
import Verif.Props.Complexity
import Verif.Model.VarOfVar
import Verif.Props.VarOfVar
import Verif.Model.FracGeom
import Verif.Spec.FracGeom
import Verif.Props.FracGeom
import Verif.Model.GsField
import Verif.Props.GsField
import Verif.Spec.ProgramStats
import Verif.Props.ProgramStats
import Verif.Spec.FailingStats
import Verif.Props.FailingStats
import Verif.Spec.PoolStats
import Verif.Props.PoolStats
import Verif.Model.PbsRenew
import Verif.Spec.PbsRenew
import Verif.Props.PbsRenew
import Verif.Model.PbsTorn
import Verif.Spec.PbsTorn
import Verif.Props.PbsTorn
import Verif.Spec.PbsRecover
import Verif.Props.PbsRecover
import Verif.Spec.PbsOnce
import Verif.Props.PbsOnce
import Verif.Props.PbsSame
import Verif.Model.TargetArrays
import Verif.Spec.TargetArrays
import Verif.Props.TargetArrays
import Verif.Model.ShapedStore
import Verif.Spec.ShapedStore
import Verif.Props.ShapedStore
import Verif.Model.EstimateCalls
import Verif.Spec.EstimateCalls
import Verif.Props.EstimateCalls
import Verif.Model.Plots
import Verif.Model.PlotFigures
import Verif.Spec.Plots
import Verif.Proofs.Plots
import Verif.Props.PlotSubset
import Verif.Props.PlotBreakdown
import Verif.Props.PlotEigen
import Verif.Props.PlotDistribution
import Verif.Props.PlotVariance
import Verif.Props.PlotBootstrap
import Verif.Props.PlotBootstrap
import Verif.Model.IndexEllipsis
import Verif.Spec.IndexEllipsis
import Verif.Proofs.IndexEllipsis
import Verif.Props.IndexEllipsis
import Verif.Props.Central
import Verif.Model.Reduce
import Verif.Spec.Elementwise
import Verif.Props.Elementwise
import Verif.Props.Reduce
import Verif.Spec.MomentParts
import Verif.Props.MomentParts
import Verif.Model.Process
import Verif.Spec.Process
import Verif.Props.Process
import Verif.Props.CovarianceParts
import Verif.Model.TimeNan
import Verif.Props.TimeEstimate
import Verif.Props.EstimateCombine
import Verif.Props.Units
import Verif.Props.BasisChange
import Verif.Props.CentralMoments
import Verif.Props.FloatMoments
import Verif.Props.DictTypes
import Verif.Props.DomainMoments
import Verif.Spec.Concentration
import Verif.Props.Concentration
import Verif.Props.PoolConcentration
import Verif.Props.AccessOnly
import Verif.Model.FloatAllocation
import Verif.Props.FloatAllocation
import Verif.Props.FailedFormat
import Verif.Model.FloatAdding
import Verif.Proofs.FloatAdding
import Verif.Props.FloatAdding
import Verif.Model.FloatInitial
import Verif.Props.FloatInitial
import Verif.Model.FloatLevels
import Verif.Props.FloatLevels
import Verif.Model.FloatVander
import Verif.Props.FloatVander
import Verif.Props.FlowFiles
import Verif.Props.FourierEval
import Verif.Props.FloatMomentMeans
import Verif.Props.FloatDropped
import Verif.Props.SeededClaims
