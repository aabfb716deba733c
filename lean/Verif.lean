import Verif.Props.Vec3
import Verif.Props.Sphere
import Verif.Props.Box
import Verif.Props.Sector
import Verif.Props.Step
import Verif.Props.Run
import Verif.Props.Monotone
import Verif.Props.Overshoot
import Verif.Props.Random
import Verif.Props.Losses
import Verif.Props.Lookup
import Verif.Props.Passage
import Verif.Props.Approach
import Verif.Props.EnergyCut
import Verif.Props.Tiling
import Verif.Props.Rates
import Verif.Props.LossAxis
import Verif.Props.RootFinding
import Verif.Props.Statistics
import Verif.Props.Polynom
import Verif.Props.Spline
import Verif.Props.Density
import Verif.Props.Kinematics
import Verif.Props.Decay
import Verif.Props.Leptonic
import Verif.Props.DecayTable
import Verif.Props.ManyBody
import Verif.Props.Secondaries
import Verif.Props.Medium
import Verif.Props.Names
import Verif.Props.Registry
import Verif.Props.Integral
import Verif.Props.IntegralExact
import Verif.Props.Neville
import Verif.Props.Romberg
import Verif.Props.UpperLimit
import Verif.Props.Calculators
import Verif.Props.CalculatorsTrack
import Verif.Props.Cylinder
import Verif.Props.GeometryJson
import Verif.Props.Registration
import Verif.Props.Deflection
import Verif.Props.Ginneken
import Verif.Props.Highland
import Verif.Props.Moliere
import Verif.Props.MoliereSampling
import Verif.Props.ScatteringJson
import Verif.Props.RateIntegral
import Verif.Props.IonizationCross
import Verif.Props.KleinNishina
import Verif.Props.MoliereTail
import Verif.Props.PhotoEffectRate
import Verif.Props.PhotoproductionRate
import Verif.Props.MuonPairs
import Verif.Props.PhotonMuonPairs
import Verif.Props.Photonuclear
import Verif.Props.Dilog
import Verif.Props.PhotonPairRates
import Verif.Props.PhotonPairs
import Verif.Props.BremsComplete
import Verif.Props.BremsForms
import Verif.Props.BremsLimits
import Verif.Props.BremsSigns
import Verif.Props.DensityEffect
import Verif.Props.BremsElectron
import Verif.Props.BremsKelner
import Verif.Props.Lpm
import Verif.Props.LpmAboveOne
import Verif.Props.LpmFunctions
import Verif.Props.LpmMore
import Verif.Props.EpairCross
import Verif.Props.EpairElectron
import Verif.Props.EpairEnergy
import Verif.Props.EpairFunctions
import Verif.Props.EpairKelner
import Verif.Props.EpairSandrock
import Verif.Props.EpairSandrockLogs
import Verif.Props.EpairLpm
import Verif.Props.EpairLpmLimits
import Verif.Props.EpairTernovskii
import Verif.Props.PhotoQ2Bracket
import Verif.Props.PhotoQ2Cross
import Verif.Props.PhotoQ2Range
import Verif.Props.PhotoQ2Shadow
import Verif.Props.PhotoQ2Structure
import Verif.Props.TableClash
import Verif.Props.TableNames
import Verif.Props.TableStore
import Verif.Props.BetheMaximon
import Verif.Props.ConfigCross
import Verif.Props.ConfigDefaults
import Verif.Props.ConfigReach
import Verif.Props.ConfigSector
import Verif.Props.InterpArray
import Verif.Props.InterpGrid
import Verif.Props.InterpInverse
import Verif.Props.InterpTable
import Verif.Props.InterpTwo
import Verif.Props.InterpLinear
import Verif.Props.LowTableData
import Verif.Props.LowTables
import Verif.Props.PhotoproductionRhode
import Verif.Props.NormalQuantile
import Verif.Props.InterpStore
import Verif.Props.CallEdges
import Verif.Props.KinematicEdges
import Verif.Props.StepEvents
import Verif.Props.TsaiAngles
import Verif.Props.KochMotz
import Verif.Props.NewTracks
import Verif.Props.RandomEngine
import Verif.Props.Termination
import Verif.Props.CrossTables
import Verif.Props.InterpGridTwo
import Verif.Props.RombergPrecision
import Verif.Props.UpperSearch
import Verif.Props.Assembled
import Verif.Props.AssembledLaws
import Verif.Props.Cascade
import Verif.Props.InterpGridLog
import Verif.Props.InterpRational
import Verif.Props.KochMotzLoss
import Verif.Props.Charges
import Verif.Props.CrossBuilder
import Verif.Props.Particles
import Verif.Props.Continuation
import Verif.Props.JsonEdges
import Verif.Props.Motion
import Verif.Props.Replay
import Verif.Props.AssembledTables
import Verif.Props.Worlds
import Verif.Props.Competition
import Verif.Props.Isotropy
import Verif.Props.Azimuth
import Verif.Props.FirstInteraction
import Verif.Props.LossLaw
import Verif.Props.ScatterSymmetry
import Verif.Props.FreePath
import Verif.Props.MeanLoss
import Verif.Props.PassLaw
import Verif.Props.DividedSteps
import Verif.Props.MinimalEnergy
import Verif.Props.RandomLaw
import Verif.Props.SplineStore
