import Verif.Basic
import Verif.Sums
import Verif.Memory
import Verif.Volume
import Verif.TotalVariation
import Verif.Props.Memory
import Verif.Props.TotalVariation
import Verif.Boundary
import Verif.NetFlux
import Verif.NetFluxSplit
import Verif.NetFluxTotals
import Verif.Props.Boundary
import Verif.Props.NetFlux
import Verif.Flux
import Verif.Props.Flux
import Verif.Euler
import Verif.Props.Euler
import Verif.EulerFlux
import Verif.Props.EulerFlux
import Verif.Diffusion
import Verif.DiffusionTotals
import Verif.Props.Diffusion
import Verif.Limiter
import Verif.Props.Limiter
import Verif.Eno
import Verif.EnoLemmas
import Verif.Props.Eno
import Verif.Weno
import Verif.Props.Weno
import Verif.TecnoEno
import Verif.Props.TecnoEno
import Verif.Integrator
import Verif.Simulator
import Verif.IntegratorLemmas
import Verif.Step
import Verif.Props.Integrator
import Verif.SimulatorLemmas
import Verif.Props.Simulator
import Verif.Writers
import Verif.Props.Writers
import Verif.Structure
import Verif.StructureLemmas
import Verif.Props.Structure
import Verif.Iterate
import Verif.IterateLemmas
import Verif.Props.Iterate
import Verif.AlsMath
import Verif.Props.AlsMath
import Verif.Params
import Verif.Props.Params
import Verif.CellComputer
import Verif.Props.CellComputer
import Verif.Cartesian
import Verif.Props.Cartesian
import Verif.Halo
import Verif.HaloLemmas
import Verif.HaloField
import Verif.Props.Halo
import Verif.ParallelRun
import Verif.Props.ParallelRun
import Verif.UQ
import Verif.UQLemmas
import Verif.Props.UQ
import Verif.Functionals
import Verif.FunctionalsLemmas
import Verif.Props.Functionals
import Verif.Stats
import Verif.StatsLemmas
import Verif.Props.Stats
import Verif.Props.StatsTimes
import Verif.Queue
import Verif.Props.Queue
import Verif.Output
import Verif.OutputLemmas
import Verif.Props.Output
import Verif.Gpu
import Verif.CudaBoundary
import Verif.Props.CudaBoundary
import Verif.CudaMemory
import Verif.Props.CudaMemory
import Verif.CudaCells
import Verif.CudaTotalVariation
import Verif.Props.CudaTotalVariation
import Verif.CudaCellComputer
import Verif.Props.CudaCellComputer
import Verif.GpuGrid
import Verif.GpuStreams
import Verif.CudaNetFlux
import Verif.CudaNetFluxSplit
import Verif.CudaRecon
import Verif.CudaHalo
import Verif.CudaReconLemmas
import Verif.Props.CudaRecon
import Verif.Props.CudaNetFlux
import Verif.CudaHaloLemmas
import Verif.Props.CudaHalo
import Verif.GpuLoop
import Verif.CudaTecno
import Verif.CudaTecnoLemmas
import Verif.Props.CudaTecno
import Verif.CudaFunctionals
import Verif.CudaFunctionalsLemmas
import Verif.Props.CudaFunctionals
import Verif.Props.CudaStructure
import Verif.WholeRun
import Verif.ScalarRun
import Verif.Variation
import Verif.LimitedRun
import Verif.Props.WholeRun
import Verif.Factories
import Verif.FactoriesSpec
import Verif.FactoriesLemmas
import Verif.CudaGhosts
import Verif.Props.Factories
import Verif.Setup
import Verif.SetupSpec
import Verif.SetupLemmas
import Verif.SetupReaders
import Verif.Props.Setup
import Verif.Schedule
import Verif.RunSetup
import Verif.RunSetupSpec
import Verif.RunSetupLemmas
import Verif.RunSetupOutput
import Verif.Props.RunSetup
import Verif.EulerPositivity
import Verif.EulerPositivity3
import Verif.EulerRun
import Verif.Props.EulerRun
import Verif.EntropyTotals
import Verif.Props.EntropyRun
import Verif.UQRun
import Verif.UQRunLemmas
import Verif.Props.UQRun
import Verif.UQSetup
import Verif.UQSetupSpec
import Verif.UQSetupLemmas
import Verif.Props.UQSetup
import Verif.IntegratedStatistics
import Verif.IntegratedStatisticsLemmas
import Verif.Props.IntegratedStatistics
import Verif.RunAgree
import Verif.ParallelSim
import Verif.ParallelSimLemmas
import Verif.ParallelEuler
import Verif.Props.ParallelSim
import Verif.Views
import Verif.ViewsSpec
import Verif.ViewsLemmas
import Verif.Props.Views
import Verif.PyConfig
import Verif.PyConfigSpec
import Verif.PyConfigLemmas
import Verif.PyRun
import Verif.PyRunLemmas
import Verif.Props.PyConfig
import Verif.Props.PyRun
import Verif.Punctual
import Verif.PunctualWriters
import Verif.Props.RunBounds
import Verif.Props.RunFourth
import Verif.Related
import Verif.Symmetry
import Verif.SymmetrySchemes
import Verif.SymmetryExamples
import Verif.Props.Symmetry
import Verif.Plugin
import Verif.PluginSpec
import Verif.PluginLemmas
import Verif.Props.Plugin
import Verif.Report
import Verif.ReportSpec
import Verif.ReportLemmas
import Verif.Props.Report
import Verif.PyInit
import Verif.PyInitSpec
import Verif.PyInitLemmas
import Verif.Props.PyInit
import Verif.PyScript
import Verif.PyScriptSpec
import Verif.PyScriptLemmas
import Verif.Props.PyScript
import Verif.Timer
import Verif.TimerSpec
import Verif.TimerLemmas
import Verif.Props.Timer
import Verif.Standalone
import Verif.StandaloneLemmas
import Verif.StandaloneSpec
import Verif.StandaloneRun
import Verif.Props.Standalone
import Verif.SampleFiles
import Verif.SampleFilesLemmas
import Verif.Props.SampleFiles
import Verif.Devices
import Verif.DevicesSpec
import Verif.DevicesLemmas
import Verif.Props.Devices
import Verif.Table
import Verif.TableSpec
import Verif.TableLemmas
import Verif.Props.Table
import Verif.EulerStages
import Verif.Props.EulerStages
import Verif.ScalarOutput
import Verif.ScalarProgram
import Verif.Props.ScalarOutput
import Verif.UQProgram
import Verif.Props.UQOutput
import Verif.WriterParams
import Verif.WriterParamsLemmas
import Verif.Props.WriterParams
import Verif.Plotting
import Verif.PlottingLemmas
import Verif.Props.Plotting
import Verif.Registration
import Verif.RegistrationLemmas
import Verif.Props.Registration
import Verif.Props.RunCombined
import Verif.BuckleyRun
import Verif.Props.BuckleyRun
import Verif.NewClass
import Verif.NewClassLemmas
import Verif.Props.NewClass
import Verif.Examples
import Verif.ExamplesLemmas
import Verif.Props.Examples
import Verif.Brownian
import Verif.BrownianLemmas
import Verif.Props.Brownian
import Verif.Units
import Verif.Props.Units
import Verif.UnitsRun
import Verif.Props.UnitsRun
import Verif.Props.FirstSave
import Verif.PyPlot
import Verif.Props.PyPlot
