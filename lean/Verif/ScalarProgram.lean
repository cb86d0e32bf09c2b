import Verif.RunSetup
import Verif.Step
import Verif.ParallelRun
import Verif.LimitedRun
import Verif.CudaRecon

/-!
The program as a configuration file puts it together, for the scalar equations on the processor (alsvinncli/src/main.cpp:197-234, alsfvm/src/config/SimulatorSetup.cpp:165-202,
alsfvm/src/simulator/Simulator.cpp:30-63).
-/

namespace Verif.ScalarProgram
open Params Integrator Verif.Simulator Verif.Setup Verif.NetFlux
variable {F : Type}

/-- The size of the volumes (alsfvm/src/simulator/Simulator.cpp:54-63, alsfvm/src/volume/VolumeFactory.cpp:53-79): the cells of the grid and the ghost cells of the boundary condition. -/
def volumeSize (s : Settings ℝ F) (o : Factories.SimObj) : I3 := Halo.totalOf s.grid.dims o.boundary.ghost

/-- The ghost cells in each direction. -/
def ghosts (s : Settings ℝ F) (o : Factories.SimObj) : I3 := Halo.ghostsOf s.grid.dims o.boundary.ghost

/-- The directions in which fluxes are computed, which are those with ghost cells (alsfvm/src/numflux/NumericalFluxCPU.cpp:190-221). -/
def active (o : Factories.SimObj) : I3 := ⟨if 0 < o.flux.dimension then 1 else 0, if 1 < o.flux.dimension then 1 else 0, if 2 < o.flux.dimension then 1 else 0⟩

/-- The cell lengths (alsfvm/src/grid/Grid.cpp:24-41, with the corners and the size of the file, SimulatorSetup.cpp:260-287). -/
noncomputable def lengths (s : Settings ℝ F) : Nat → ℝ := ParallelRun.lengthOf (Grid.make s.grid.lower s.grid.upper s.grid.dims 0 s.grid.dims)

/-- What the integrator is given: the right hand side of the objects made from the file, no adjusters of the wave speed (a single process), the cell lengths and the CFL number of the file
(Simulator.cpp:40-54). -/
noncomputable def env (s : Settings ℝ F) (o : Factories.SimObj) (r : Recon ℝ) (fl : FluxFn ℝ ℝ) (work : NetFlux.State ℝ ℝ) : Env (I3 → ℝ) ℝ :=
  ⟨Step.cpuSystem o.flux.dimension r fl (volumeSize s o) (ghosts s o) (active o) work, [], lengths s, s.cfl⟩

/-- The program with the objects made from the file. Not in the model: the initial data `u` (a Python program), the values of functionals (`eval`), the check of the solution (`obeys`; for
the scalar equations it only refuses numbers that are not finite, alsfvm/include/alsfvm/equation/burgers/Burgers.hpp:220-224). `others` are the further volumes of the simulator and `work` those
of the flux. -/
noncomputable def fileProgram (eval : F → (I3 → ℝ) → (I3 → ℝ) → ℝ → Res (I3 → ℝ)) (dx : ℝ) (s : Settings ℝ F) (o : Factories.SimObj) (r : Recon ℝ) (fl : FluxFn ℝ ℝ) (work : NetFlux.State ℝ ℝ)
    (obeys : (I3 → ℝ) → Bool) (u : I3 → ℝ) (others : List (I3 → ℝ)) (fuel : Nat) : Res (Option (Sim (I3 → ℝ) ℝ (States (I3 → ℝ) s.writers))) :=
  program eval dx s o.integrator (env s o r fl work) (Step.cpuBoundary o.boundary.condition (volumeSize s o) o.boundary.ghost o.flux.dimension) obeys u others fuel

/-- The name of an equation in the file. -/
def equationName : Flux.ScalarName → String
  | .burgers => "burgers"
  | .buckleyleverett => "buckleyleverett"
  | .cubic => "cubic"
  | .linear => "linear"

end Verif.ScalarProgram
