import Verif.UQRun
import Verif.UQSetup
import Verif.ScalarProgram

/-!
The program for uncertainty quantification as a configuration file puts it together, for the scalar equations on the processor and the statistics `meanvar` and `onepointmoment`
(alsuq/src/config/Setup.cpp:53-108, alsuq/src/run/Runner.cpp:40-88, alsuq/src/run/FiniteVolumeSimulatorCreator.cpp:39-66).
-/

namespace Verif.UQProgram
open Params Integrator Verif.Simulator Verif.Setup Verif.NetFlux Verif.UQSetup Verif.UQRun
variable {F : Type}

/-- The statistics told apart: mean and variance, moments with a power that is not negative, all others. -/
inductive Stat where
  | meanVar
  | moment (p : Nat)
  | other

/-- The names registered for the processor besides `meanvar` and `onepointmoment` (the lines with REGISTER_STATISTICS of alsuq/src/stats: StructureTwoPoints.cpp:102, StructureSurface.cpp:58,
BoundedVariationDirection.cpp:83, StructureBasic.cpp:121, TimeIntegratedFunctionalStatistics.cpp:91-92, BoundedVariation.cpp:57, FunctionalStatistics.cpp:76-77, StructureCube.cpp:82). -/
def otherNames : List String := ["structure_2pt", "structure_surface", "bv_direction", "structure_basic", "functional_time_integrated", "bv", "functional", "structure_cube"]

/-- `StatisticsFactory::makeStatistics` (alsuq/src/stats/StatisticsFactory.cpp:53-68) with the creators registered (MeanVariance.cpp:68, OnePointMoment.cpp:21-25, :51 and `otherNames`). The
constructors of the others, which can throw, and those for graphics cards are not modelled: every other platform gives `other`. -/
def makeStat {K : Type} (conv : Conv K) (platform name : Str) (_samples : Nat) (node : Tree) : Res Stat :=
  if platform = "cpu".toList then
    if name = "meanvar".toList then .ok .meanVar
    else if name = "onepointmoment".toList then do
      let p ← get conv.int ["p"] node
      .ok (if 0 ≤ p then .moment p.toNat else .other)
    else if otherNames.any fun n => n.toList == name then .ok .other
    else .error .thrown
  else .ok .other

/-- `getStatisticsNames` (MeanVariance.cpp:26-28, OnePointMoment.cpp:27-29). -/
def statNames : Stat → List Str
  | .meanVar => ["mean".toList, "variance".toList]
  | .moment p => [("m" ++ toString p).toList]
  | .other => []

/-- The statistic as an object of the run; nothing for the others. -/
noncomputable def asObj (x : StatSetup ℝ Stat) : StatObj :=
  let saving : Saving := match x.times with
    | .fixed i initial => .fixed i initial
    | .window _ _ => .every
  match x.stat with
  | .meanVar => ⟨Stats.meanVariance, saving, Stats.finalizeMeanVariance⟩
  | .moment p => ⟨Stats.onePointMoment p, saving, fun s => .ok s⟩
  | .other => ⟨[], saving, fun s => .ok s⟩

/-- What all samples have in common (FiniteVolumeSimulatorCreator.cpp:44-58 reads the file again for each of them): the parts of `ScalarProgram.fileProgram` and the statistics. A state is
stored in a volume with one variable. -/
noncomputable def common (eval : F → (I3 → ℝ) → (I3 → ℝ) → ℝ → Res (I3 → ℝ)) (dx : ℝ) (s : Settings ℝ F) (o : Factories.SimObj) (r : Recon ℝ) (fl : FluxFn ℝ ℝ) (work : NetFlux.State ℝ ℝ)
    (obeys : (I3 → ℝ) → Bool) (others : List (I3 → ℝ)) (q : UQSettings ℝ Stat) : Common (I3 → ℝ) F :=
  ⟨s, eval, dx, o.integrator, ScalarProgram.env s o r fl work, Step.cpuBoundary o.boundary.condition (ScalarProgram.volumeSize s o) o.boundary.ghost o.flux.dimension, obeys, others,
    fun u => ⟨s.grid.dims, ScalarProgram.ghosts s o, [u]⟩, q.statistics.map asObj⟩

/-- The initial data of a sample with the values `xs` of its random parameters, in the order of their names (FiniteVolumeSimulatorCreator.cpp:61-63,
alsuq/src/samples/SampleGenerator.cpp:28-66): the Python program `data` gets the parameters of the file, replaced or extended by these. -/
def initial (s : Settings ℝ F) (q : UQSettings ℝ Stat) (data : List (Str × List ℝ) → I3 → ℝ) (xs : List (List ℝ)) : I3 → ℝ :=
  data (setParameters s.parameters ((q.parameters.map Prod.fst).zip xs))

/-- The program on `processes` processes with the random numbers `w`. Not in the model: as for `ScalarProgram.fileProgram`. -/
noncomputable def uqFileProgram (eval : F → (I3 → ℝ) → (I3 → ℝ) → ℝ → Res (I3 → ℝ)) (dx : ℝ) (s : Settings ℝ F) (o : Factories.SimObj) (r : Recon ℝ) (fl : FluxFn ℝ ℝ)
    (work : NetFlux.State ℝ ℝ) (obeys : (I3 → ℝ) → Bool) (others : List (I3 → ℝ)) (q : UQSettings ℝ Stat) (data : List (Str × List ℝ) → I3 → ℝ) (w : Nat → ℝ) (processes : Int) (fuel : Nat) :
    Res (Option (List Stats.Snaps)) :=
  uqProgram (common eval dx s o r fl work obeys others q) fuel w (q.parameters.map Prod.snd) (initial s q data) q.first q.samples processes

end Verif.UQProgram
