import Verif.Props.CloudAccum
import Verif.Props.PFStructural
import Verif.Props.PFWeights
import Verif.Props.PFResample
import Verif.Props.PFFamilies
import Verif.Props.PFSources
import Verif.Props.PFEstimate
import Verif.Props.QuatAlgebra
import Verif.Props.QuatAngles
import Verif.Props.QuatLookAt
import Verif.Props.State6DOF
import Verif.Props.StateResample
import Verif.Props.Filter
import Verif.Props.ChunkedKdtree
import Verif.Props.DDA
import Verif.Props.KDRay
import Verif.Props.LidarBeam
import Verif.Props.LidarRelease
import Verif.Props.LidarLike
import Verif.Props.Sampler
import Verif.Props.SamplerEnds
import Verif.Props.Motion
import Verif.Props.Likelihood
import Verif.Props.MultiNoise
import Verif.Props.Conv
import Verif.Props.Params
import Verif.Model.NodeTypes
import Verif.Model.NodeMeasure
import Verif.Model.Node
import Verif.Proofs.NodeBasic
import Verif.Proofs.NodeDemo
import Verif.Proofs.NodeTotal
import Verif.Spec.NodeMap
import Verif.Props.NodeMap
import Verif.Spec.NodeSensors
import Verif.Props.NodeSensors
import Verif.Proofs.NodeCloud
import Verif.Proofs.Ub
import Verif.Spec.NodeUb
import Verif.Proofs.UbReal
import Verif.Props.NodeUb
import Verif.Spec.NodeSafe
import Verif.Proofs.CloudTotal
import Verif.Proofs.NodeSafe
import Verif.Props.NodeSafe
import Verif.Spec.NodeStatus
import Verif.Proofs.NodeStatus
import Verif.Props.NodeStatus
import Verif.Spec.NodeBatch
import Verif.Proofs.NodeBatch
import Verif.Props.NodeBatch
import Verif.Proofs.NodeOut
import Verif.Props.NodeOut
import Verif.Props.Estimate
import Verif.Spec.NodeServices
import Verif.Proofs.NodeDemoExact
import Verif.Props.NodeServices
import Verif.Props.NodeWeights
import Verif.Spec.NodeMatch
import Verif.Props.NodeMatch
import Verif.Spec.NodeMatchRate
import Verif.Props.NodeMatchRate
import Verif.Props.NodeDemoPose
import Verif.Props.NodeMatchDemo
import Verif.Props.NodeEntropy
import Verif.Props.NodeMatchRatio
import Verif.Spec.NodePosterior
import Verif.Props.NodePosterior
import Verif.Props.QuatWeighted
import Verif.Props.PFSelect
import Verif.Proofs.NodeNoise
import Verif.Proofs.NodeSources
import Verif.Spec.NodeNoise
import Verif.Props.NodeExpand
import Verif.Proofs.NodeStates
import Verif.Props.NodeUnit
import Verif.Props.NodeResample
import Verif.Model.KdtreeSettings
import Verif.Props.ChunkClouds
import Verif.Props.KDRayHits
import Verif.Props.NodeOdomError
import Verif.Spec.ParamTable
import Verif.Props.ParamTable
import Verif.Spec.NodeLandmark
import Verif.Props.NodeLandmark
import Verif.Spec.NodeCovariance
import Verif.Props.NodeCovariance
import Verif.Spec.NodeMarkers
import Verif.Props.NodeMarkers
import Verif.Props.NodePcd
import Verif.Props.NodeStatusDemo
import Verif.Props.NodeTolerance
import Verif.Props.NodeSmooth
import Verif.Props.NodeFake
import Verif.Props.NodeDiag
import Verif.Props.PFRounded
import Verif.Spec.NodeReal
import Verif.Proofs.NodeReal
import Verif.Props.NodeReal
import Verif.Model.ChunkRange
import Verif.Props.ChunkRange
import Verif.Props.NodeCaster
import Verif.Props.NodeWeightSum
import Verif.Props.NonFinite
import Verif.Props.Density
import Verif.Props.PFFlat
import Verif.Props.KDRayWall
import Verif.Props.MotionPlanar
import Verif.Tests.Upstream
import Verif.Spec.NodeNormal
import Verif.Props.NodeNormal
import Verif.Props.NodeNormalDemo
import Verif.Model.QuatAssign
import Verif.Spec.Algebra
import Verif.Props.Algebra
import Verif.Spec.Frame
import Verif.Props.FrameInvariance
import Verif.Spec.Relabel
import Verif.Props.Relabel
import Verif.Model.StateIndex
import Verif.Props.StateIndex
import Verif.Spec.ScanOrder
import Verif.Props.ScanOrder
import Verif.Props.ParticleOrder
import Verif.Spec.Draws
import Verif.Props.PFUnbiased
import Verif.Spec.Concentrate
import Verif.Props.Concentrate
import Verif.Model.Estimate
import Verif.Spec.Finite
import Verif.Props.Opposed
import Verif.Spec.Aligned
import Verif.Props.Aligned
import Verif.Spec.RoundedResample
import Verif.Proofs.Digits
import Verif.Props.PFRoundedResample
import Verif.Spec.RosTime
import Verif.Model.NodeTime
import Verif.Props.NodeTime
import Verif.Spec.NodeLive
import Verif.Props.NodeLive
import Verif.Props.PFRoundedMean
import Verif.Spec.Display
import Verif.Props.Display
import Verif.Model.BeamResult
import Verif.Spec.BeamResult
import Verif.Props.BeamResult
import Verif.Model.NodeFrames
import Verif.Spec.MapHeader
import Verif.Props.MapHeader
import Verif.Spec.DeadReckoning
import Verif.Props.DeadReckoning
import Verif.Props.DeadReckoningDemo
import Verif.Spec.Sampling
import Verif.Props.Sampling
import Verif.Spec.SamplerLaw
import Verif.Proofs.SamplerLaw
import Verif.Props.SamplerLaw
import Verif.Spec.NoiseLaw
import Verif.Proofs.NoiseLaw
import Verif.Props.NoiseLaw
import Verif.Spec.DriveLaw
import Verif.Proofs.DriveLaw
import Verif.Proofs.NoiseSwap
import Verif.Props.DriveLaw
import Verif.Props.DriveLawDemo
import Verif.Props.NoiseLawCloud
import Verif.Spec.MeanLaw
import Verif.Proofs.MeanLaw
import Verif.Props.NoiseLawMean
import Verif.Props.NoiseLawDemo
import Verif.Spec.RoundedGeom
import Verif.Proofs.RoundedGeom
import Verif.Props.RoundedGeom
import Verif.Spec.Anchor
import Verif.Props.Anchor
import Verif.Props.AnchorDemo
import Verif.Spec.Emptied
import Verif.Props.Emptied
import Verif.Spec.RoundedFilter
import Verif.Proofs.RoundedFilter
import Verif.Props.RoundedFilter
import Verif.Spec.BadOdom
import Verif.Props.BadOdom
import Verif.Model.DDAMachine
import Verif.Spec.DDAMachine
import Verif.Proofs.DDAMachine
import Verif.Props.DDAMachine
import Verif.Spec.Smooth
import Verif.Props.Smooth
import Verif.Spec.Stable
import Verif.Props.Stable
import Verif.Spec.MapLocal
import Verif.Props.MapLocal
import Verif.Spec.RayLocal
import Verif.Props.RayLocal
import Verif.Spec.Interface
import Verif.Spec.FarMap
import Verif.Proofs.FarMap
import Verif.Props.FarMap
import Verif.Spec.Agree
import Verif.Props.Agree
import Verif.Props.FarMapUpdate
import Verif.Model.ChunkFloat
import Verif.Spec.ChunkFloat
import Verif.Proofs.ChunkFloat
import Verif.Props.ChunkFloat
import Verif.Spec.DDALocal
import Verif.Proofs.DDALocal
import Verif.Props.DDALocal
import Verif.Spec.BeamWork
import Verif.Spec.NodeWork
import Verif.Props.BeamWork
import Verif.Props.BatchWork
import Verif.Props.CovBounds
import Verif.Props.ScanMemory
import Verif.Props.ParticleNumber
