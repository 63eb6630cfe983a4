import Verif.Common
import Verif.Lemmas.Absorbers
import Verif.Lemmas.Absorption
import Verif.Lemmas.Arrays
import Verif.Lemmas.ComputeSpectra
import Verif.Lemmas.Curvature
import Verif.Lemmas.EmissionSave
import Verif.Lemmas.Erfcx
import Verif.Lemmas.Hermite
import Verif.Lemmas.HermiteWing
import Verif.Lemmas.Histogram
import Verif.Lemmas.IndexTable
import Verif.Lemmas.Kernels
import Verif.Lemmas.MeanFlux
import Verif.Lemmas.NearParticles
import Verif.Lemmas.NearRounding
import Verif.Lemmas.NearSpectra
import Verif.Lemmas.Numpy
import Verif.Lemmas.PartInt
import Verif.Lemmas.PyModule
import Verif.Lemmas.Quadrature
import Verif.Lemmas.Race
import Verif.Lemmas.Rounding
import Verif.Lemmas.Session
import Verif.Lemmas.Shared
import Verif.Lemmas.Spline
import Verif.Lemmas.StdMap
import Verif.Lemmas.Store
import Verif.Lemmas.VoigtSeries
import Verif.Lemmas.VoigtSum
import Verif.Lemmas.VoigtTheta
import Verif.Lemmas.Voronoi
import Verif.Lemmas.VoronoiNearest
import Verif.Lemmas.WingErr
import Verif.Model.Absorbers
import Verif.Model.Absorption
import Verif.Model.AtomDat
import Verif.Model.BParam
import Verif.Model.Broadening
import Verif.Model.CReader
import Verif.Model.CRes
import Verif.Model.CTools
import Verif.Model.Catalogue
import Verif.Model.CellRounding
import Verif.Model.CodeProfile
import Verif.Model.ComputeSpectra
import Verif.Model.Construct
import Verif.Model.Cooling
import Verif.Model.Curvature
import Verif.Model.DensityRounding
import Verif.Model.DistPlots
import Verif.Model.EdgeRounding
import Verif.Model.Emission
import Verif.Model.EmissionSave
import Verif.Model.ErfcxTable
import Verif.Model.Extract
import Verif.Model.Faddeeva
import Verif.Model.FilterTau
import Verif.Model.FluxPower3D
import Verif.Model.FluxStats
import Verif.Model.GadgetRead
import Verif.Model.GasProps
import Verif.Model.Gridded
import Verif.Model.HaloAssigned
import Verif.Model.HaloLoad
import Verif.Model.HaloSpectra
import Verif.Model.HaloStats
import Verif.Model.HandOff
import Verif.Model.IndexTable
import Verif.Model.Interp
import Verif.Model.Kernels
import Verif.Model.LineData
import Verif.Model.Lockstep
import Verif.Model.MachineInts
import Verif.Model.MeanFlux
import Verif.Model.NearRounding
import Verif.Model.NumTypes
import Verif.Model.Numpy
import Verif.Model.OpenMP
import Verif.Model.Overlap
import Verif.Model.ParseArgs
import Verif.Model.PartInt
import Verif.Model.Plots
import Verif.Model.PyModule
import Verif.Model.Race
import Verif.Model.RateGas
import Verif.Model.RateNetwork
import Verif.Model.RatePlots
import Verif.Model.Readers
import Verif.Model.ReplaceDLA
import Verif.Model.Rounding
import Verif.Model.SavePath
import Verif.Model.SaveSteps
import Verif.Model.Session
import Verif.Model.Shared
import Verif.Model.SnapNames
import Verif.Model.Snapshot
import Verif.Model.SpecTools
import Verif.Model.SpeciesQuery
import Verif.Model.Spline
import Verif.Model.StdMap
import Verif.Model.Store
import Verif.Model.TempDens
import Verif.Model.Units
import Verif.Model.Voigt
import Verif.Model.VoigtMin
import Verif.Model.WeightMean
import Verif.Props.Additive
import Verif.Props.AtomDat
import Verif.Props.BParam
import Verif.Props.Broadening
import Verif.Props.CExtract
import Verif.Props.CPower
import Verif.Props.CReader
import Verif.Props.CStatistic
import Verif.Props.CTools
import Verif.Props.Catalogue
import Verif.Props.CellRounding
import Verif.Props.CodeProfile
import Verif.Props.ColumnDensity
import Verif.Props.Constants
import Verif.Props.Construct
import Verif.Props.Cooling
import Verif.Props.Curvature
import Verif.Props.DensWeightRounding
import Verif.Props.DensityRounding
import Verif.Props.Deposit
import Verif.Props.Details
import Verif.Props.DistPlots
import Verif.Props.Distances
import Verif.Props.EdgeRounding
import Verif.Props.EdgeSplines
import Verif.Props.EdgeTau
import Verif.Props.Emission
import Verif.Props.EmissionSave
import Verif.Props.EndToEnd
import Verif.Props.EquivalentWidth
import Verif.Props.ErfcxTable
import Verif.Props.Extract
import Verif.Props.Faddeeva
import Verif.Props.FaddeevaLoop
import Verif.Props.FaddeevaSafe
import Verif.Props.FaddeevaTable
import Verif.Props.FilterTau
import Verif.Props.FluxPdf
import Verif.Props.FluxPower
import Verif.Props.FluxPower3D
import Verif.Props.GadgetRead
import Verif.Props.GasProps
import Verif.Props.Gridded
import Verif.Props.HaloAssigned
import Verif.Props.HaloLoad
import Verif.Props.HaloSpectra
import Verif.Props.HaloStats
import Verif.Props.HandOff
import Verif.Props.Incidence
import Verif.Props.Interp
import Verif.Props.Kernels
import Verif.Props.LineData
import Verif.Props.LineProfile
import Verif.Props.Lockstep
import Verif.Props.MachineInts
import Verif.Props.MeanFlux
import Verif.Props.MeshDensity
import Verif.Props.MeshInts
import Verif.Props.MeshSpecies
import Verif.Props.Metallicity
import Verif.Props.NearLines
import Verif.Props.NearRounding
import Verif.Props.NearSpectra
import Verif.Props.Noise
import Verif.Props.NumTypes
import Verif.Props.OmegaCddf
import Verif.Props.Overlap
import Verif.Props.Parallel
import Verif.Props.ParseArgs
import Verif.Props.Plots
import Verif.Props.ProfileAccuracy
import Verif.Props.ProfileCore
import Verif.Props.ProfileLarge
import Verif.Props.ProfileTiny
import Verif.Props.ProfileWing
import Verif.Props.PyModule
import Verif.Props.RateGas
import Verif.Props.RateNetwork
import Verif.Props.RateOrder
import Verif.Props.RatePlots
import Verif.Props.Rates
import Verif.Props.Readers
import Verif.Props.Regions
import Verif.Props.Renormalise
import Verif.Props.ReplaceDLA
import Verif.Props.Rounding
import Verif.Props.SavePath
import Verif.Props.SaveSteps
import Verif.Props.Session
import Verif.Props.Shared
import Verif.Props.SnapNames
import Verif.Props.Snapshot
import Verif.Props.SnapshotSpectra
import Verif.Props.SpecTools
import Verif.Props.SpeciesQuery
import Verif.Props.Spline
import Verif.Props.Store
import Verif.Props.TailCut
import Verif.Props.TauIntegral
import Verif.Props.TempDens
import Verif.Props.TempRounding
import Verif.Props.Translation
import Verif.Props.Units
import Verif.Props.VelRounding
import Verif.Props.VoigtFit
import Verif.Props.VoigtFunction
import Verif.Props.VoigtMin
import Verif.Props.VoigtParams
import Verif.Props.VoigtSystems
import Verif.Props.Voronoi
import Verif.Props.VoronoiCases
import Verif.Props.VoronoiSafe
import Verif.Props.WeightMean
import Verif.Spec.Absorbers
import Verif.Spec.Codata
import Verif.Spec.Flux
import Verif.Spec.Geometry
import Verif.Spec.Ionisation
import Verif.Spec.Store
import Verif.Spec.Voigt
