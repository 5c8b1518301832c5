import Verif.Lemmas.Argmax
import Verif.Lemmas.Array
import Verif.Lemmas.CCG
import Verif.Lemmas.CCGNan
import Verif.Lemmas.CCGRounded
import Verif.Lemmas.CG
import Verif.Lemmas.CLI
import Verif.Lemmas.CellSmoothing
import Verif.Lemmas.Fourier
import Verif.Lemmas.GaussPos
import Verif.Lemmas.HalfSpace
import Verif.Lemmas.HalfSpectrum
import Verif.Lemmas.LineSeries
import Verif.Lemmas.Logger
import Verif.Lemmas.Logger2
import Verif.Lemmas.Logger3
import Verif.Lemmas.Love
import Verif.Lemmas.LovePos
import Verif.Lemmas.NetCDF
import Verif.Lemmas.NetCDF2
import Verif.Lemmas.NetCDF3
import Verif.Lemmas.Numbers
import Verif.Lemmas.Pipeline
import Verif.Lemmas.Potentials
import Verif.Lemmas.Rounding
import Verif.Lemmas.ScalarProduct
import Verif.Lemmas.Smoothing
import Verif.Lemmas.Spheroid
import Verif.Lemmas.Symbolic
import Verif.Lemmas.Symmetry
import Verif.Lemmas.Systems
import Verif.Lemmas.Tiling
import Verif.Model.Array
import Verif.Model.Bisect
import Verif.Model.CCG
import Verif.Model.CCGNan
import Verif.Model.CCGRounded
import Verif.Model.CLI
import Verif.Model.CLIRun
import Verif.Model.CLIText
import Verif.Model.EndToEnd
import Verif.Model.FFT
import Verif.Model.Factory
import Verif.Model.FactoryPlastic
import Verif.Model.FreeHalfSpace
import Verif.Model.Greens
import Verif.Model.GreenwoodTripp
import Verif.Model.HalfSpace
import Verif.Model.Logger
import Verif.Model.LoggerCrash
import Verif.Model.MapDisk
import Verif.Model.MapFiles
import Verif.Model.NetCDF
import Verif.Model.NetCDFAmber
import Verif.Model.NetCDFContainer
import Verif.Model.NetCDFCrash
import Verif.Model.Numbers
import Verif.Model.ParallelCCG
import Verif.Model.ParallelPlastic
import Verif.Model.ParallelSubstrate
import Verif.Model.ParallelSystems
import Verif.Model.Pipeline
import Verif.Model.Py
import Verif.Model.Reference
import Verif.Model.SemiPeriodic
import Verif.Model.SolverMemory
import Verif.Model.SubstrateState
import Verif.Model.Systems
import Verif.Model.SystemsBase
import Verif.Model.SystemsLogged
import Verif.Model.SystemsScipy
import Verif.Model.Tools
import Verif.Props.Boussinesq
import Verif.Props.CCG
import Verif.Props.CCG2
import Verif.Props.CCG3
import Verif.Props.CCG4
import Verif.Props.CCG5
import Verif.Props.CCG6
import Verif.Props.CCG7
import Verif.Props.CCG8
import Verif.Props.CCG9
import Verif.Props.CCGDemo
import Verif.Props.CCGNan
import Verif.Props.CCGNanFree
import Verif.Props.CCGNanPlastic
import Verif.Props.CCGRounded
import Verif.Props.CLI
import Verif.Props.CLI2
import Verif.Props.CLI3
import Verif.Props.CLI4
import Verif.Props.CLI5
import Verif.Props.CellContinuum
import Verif.Props.CellExamples
import Verif.Props.CellWork
import Verif.Props.CliContinuum
import Verif.Props.CliExtension
import Verif.Props.CommandLine
import Verif.Props.CommandLine2
import Verif.Props.Cone
import Verif.Props.Continuum
import Verif.Props.Discretisation
import Verif.Props.EndToEnd
import Verif.Props.EndToEnd2
import Verif.Props.Extension
import Verif.Props.Factory
import Verif.Props.FactoryPlastic
import Verif.Props.FlagBlind
import Verif.Props.Free
import Verif.Props.Free2
import Verif.Props.FreeContinuum
import Verif.Props.FreeContinuum2
import Verif.Props.FreePressures
import Verif.Props.FreeTest
import Verif.Props.FreshSurface
import Verif.Props.FullContact
import Verif.Props.Greens
import Verif.Props.Greens2
import Verif.Props.Greens3
import Verif.Props.Greens4
import Verif.Props.Greens5
import Verif.Props.Greens6
import Verif.Props.Greens7
import Verif.Props.GreensDecay
import Verif.Props.GreensDefined
import Verif.Props.GreensEnergy
import Verif.Props.GreensIso
import Verif.Props.GreensMirror
import Verif.Props.GreensPositive
import Verif.Props.GreenwoodTripp
import Verif.Props.HalfSpace
import Verif.Props.HalfSpace1D
import Verif.Props.HalfSpace2
import Verif.Props.HalfSpace3
import Verif.Props.HalfSpace4
import Verif.Props.HalfSpaceMPI
import Verif.Props.HardWall
import Verif.Props.HardWall2
import Verif.Props.HardWall3
import Verif.Props.HardWall4
import Verif.Props.Hertz
import Verif.Props.HertzElastic
import Verif.Props.HertzSteps
import Verif.Props.HertzStress
import Verif.Props.HertzTangential
import Verif.Props.HertzTangentialElastic
import Verif.Props.Indentation
import Verif.Props.Layer
import Verif.Props.Line1D
import Verif.Props.LineContact
import Verif.Props.LineContinuum
import Verif.Props.LineWestergaard
import Verif.Props.Logger
import Verif.Props.LoggerCrash
import Verif.Props.LoveWork
import Verif.Props.MapDisk
import Verif.Props.MapFiles
import Verif.Props.MeanGap
import Verif.Props.Modulus
import Verif.Props.NetCDF
import Verif.Props.NetCDF2
import Verif.Props.NetCDF3
import Verif.Props.NetCDF4
import Verif.Props.NetCDF7
import Verif.Props.NetCDFAmber
import Verif.Props.NetCDFCrash
import Verif.Props.Numbers
import Verif.Props.ParallelCCG
import Verif.Props.ParallelCCG2
import Verif.Props.ParallelPlastic
import Verif.Props.ParallelSubstrate
import Verif.Props.ParallelSystems
import Verif.Props.Pipeline
import Verif.Props.Pipeline2
import Verif.Props.Pipeline3
import Verif.Props.PlaneStrain
import Verif.Props.Plastic
import Verif.Props.Plastic2
import Verif.Props.Plastic3
import Verif.Props.ReportNear
import Verif.Props.Scale
import Verif.Props.Scale2
import Verif.Props.Scale3
import Verif.Props.SemiCheck
import Verif.Props.SemiImages
import Verif.Props.SemiImages2
import Verif.Props.SemiPeriodic
import Verif.Props.SemiPeriodic2
import Verif.Props.SemiScaling
import Verif.Props.SolverMemory
import Verif.Props.Spectral
import Verif.Props.SubstrateState
import Verif.Props.Symmetry
import Verif.Props.Symmetry2
import Verif.Props.Symmetry3
import Verif.Props.Symmetry4
import Verif.Props.Systems
import Verif.Props.Systems2
import Verif.Props.Systems3
import Verif.Props.Systems4
import Verif.Props.Systems5
import Verif.Props.Systems6
import Verif.Props.SystemsLine
import Verif.Props.SystemsScipy
import Verif.Props.Tiling
import Verif.Props.Tiling2
import Verif.Props.Tiling3
import Verif.Props.Tools
import Verif.Props.Westergaard
import Verif.Props.WestergaardMean
import Verif.Props.WestergaardResponse
import Verif.Spec.Boussinesq
import Verif.Spec.CLI
import Verif.Spec.CellContinuum
import Verif.Spec.CliExtension
import Verif.Spec.CommandLine
import Verif.Spec.Cone
import Verif.Spec.Contact
import Verif.Spec.ContactProblem
import Verif.Spec.Continuum
import Verif.Spec.Discretisation
import Verif.Spec.Elastic
import Verif.Spec.Extension
import Verif.Spec.FlagBlind
import Verif.Spec.FreeHalfSpace
import Verif.Spec.FreshSurface
import Verif.Spec.Greens
import Verif.Spec.HalfSpace
import Verif.Spec.IntText
import Verif.Spec.LineContact
import Verif.Spec.LineContinuum
import Verif.Spec.Logger
import Verif.Spec.LoggerCrash
import Verif.Spec.MapFiles
import Verif.Spec.MaterialContinuum
import Verif.Spec.Modulus
import Verif.Spec.NanInputs
import Verif.Spec.NetCDF
import Verif.Spec.NetCDFContainer
import Verif.Spec.NetCDFCrash
import Verif.Spec.Numbers
import Verif.Spec.Pipeline
import Verif.Spec.Reference
import Verif.Spec.Rounding
import Verif.Spec.Scale
import Verif.Spec.SemiPeriodic
import Verif.Spec.SolverMemory
import Verif.Spec.Spectral
import Verif.Spec.Symmetry
import Verif.Spec.Systems
import Verif.Spec.Tiling
