import Verif.UQ
import Verif.Stats
import Verif.RunSetup

/-!
A whole run of the program for uncertainty quantification (alsuq/src/run/Runner.cpp, alsuqcli/src/main.cpp): the samples of every process one after another, with the statistics as further
writers of every simulator, then the combination of the statistics.
-/

namespace Verif.UQRun
open Integrator Verif.Simulator Verif.Setup Stats Functionals

/-- When a statistic is evaluated: at fixed intervals (`FixedIntervalStatistics`; `none` if the interval is infinite) or at every step (`TimeIntegratedWriter`, which does not use its
time and radius, alsuq/src/stats/TimeIntegratedWriter.cpp:24-64). -/
inductive Saving where
  | fixed (interval : Option ℝ) (initial : Bool)
  | every

/-- A statistic as `createStatistics` sets it up (alsuq/src/config/Setup.cpp:237-295): its snapshots, when it is evaluated, and its `finalizeStatistics`. `StatisticsTimer`
(alsuq/src/stats/StatisticsTimer.cpp) passes every call on and is left out. -/
structure StatObj where
  parts : List Part
  saving : Saving
  finalize : Snaps → Res Snaps

/-- The members that change: `numberSaved` and the snapshots. -/
abbrev StatState := Nat × Snaps

/-- After construction (alsuq/src/stats/FixedIntervalStatistics.cpp:22-31; no snapshots). -/
def StatObj.fresh (o : StatObj) : StatState :=
  match o.saving with
  | .fixed _ initial => (intervalInit initial, [])
  | .every => (0, [])

/-- `Statistics::write` (alsuq/src/stats/Statistics.cpp:21-26, FixedIntervalStatistics.cpp:64-86, TimeIntegratedWriter.cpp:53-64), in exact arithmetic. With an infinite interval
no time is a save time (`0 * inf` is not a number). -/
noncomputable def StatObj.write (o : StatObj) (u : Vol) (info : TimeInfo ℝ) (s : StatState) : Res StatState :=
  match o.saving with
  | .fixed (some i) initial => intervalCompute id i initial (fun u info snaps => compute o.parts info.time u snaps) u info s
  | .fixed none initial => .ok (if info.time = 0 then intervalInit initial else s.1, s.2)
  | .every => do
    let snaps ← compute o.parts info.time u s.2
    .ok (s.1, snaps)

/-- `adjustTimestep` if the statistic is an adjuster (FixedIntervalStatistics.cpp:33-41); an infinite interval leaves the time step as it is. -/
noncomputable def StatObj.adjuster (o : StatObj) (s : StatState) : Option (Adjuster ℝ) :=
  match o.saving with
  | .fixed (some i) _ => some fun dt info => intervalAdjust id i s.1 dt info.time
  | _ => none

/-- The members of all statistics. -/
abbrev StatStates (stats : List StatObj) : Type := Fin stats.length → StatState

/-- Calling one of the statistics. `toVol` is the volume a state of the simulation is stored in. -/
noncomputable def writeStat {V σ : Type} (toVol : V → Vol) (stats : List StatObj) (j : Fin stats.length) (u : V) (info : TimeInfo ℝ) (st : σ × StatStates stats) :
    Res (σ × StatStates stats) := do
  let x ← (stats.get j).write (toVol u) info (st.2 j)
  .ok (st.1, Function.update st.2 j x)

variable {V F : Type} [AddCommGroup V] [Module ℝ V]

/-- What the samples have in common: the settings of the configuration file, the parts of the simulator, the volumes a simulator allocates besides the first, the statistics. -/
structure Common (V F : Type) where
  settings : Settings ℝ F
  eval : F → V → V → ℝ → Res V
  dx : ℝ
  kind : Kind
  env : Env V ℝ
  bc : V → Res V
  obeys : V → Bool
  others : List V
  toVol : V → Vol
  stats : List StatObj

/-- The simulator of a sample with the statistics as further writers and adjusters (alsuq/src/run/Runner.cpp:53-66). -/
noncomputable def sampleSimulator (c : Common V F) : Config V ℝ (States V c.settings.writers × StatStates c.stats) :=
  let sim := simulator c.eval c.dx c.settings c.kind c.env c.bc c.obeys
  { kind := c.kind, env := c.env, bc := c.bc, obeys := c.obeys, endTime := c.settings.endTime,
    writers := (sim.writers.map fun w u info st => do
        let x ← w u info st.1
        .ok (x, st.2)) ++ (List.finRange c.stats.length).map fun j => writeStat c.toVol c.stats j,
    adjusters := fun st => sim.adjusters st.1 ++ (List.finRange c.stats.length).filterMap fun j => (c.stats.get j).adjuster (st.2 j) }

/-- One sample with initial data `u` (Runner.cpp:53-76, alsuq/src/run/FiniteVolumeSimulatorCreator.cpp:39-66): the writers of the configuration are made anew, the statistics keep their
state. `finalize` is that of the writers; the statistics inherit the empty one (alsfvm/include/alsfvm/io/Writer.hpp:49-52). `none` if `fuel` steps do not suffice. The group names for the
output (FiniteVolumeSimulatorCreator.cpp:68-85) are left out; they need all processes to run the same number of samples, see C50. -/
noncomputable def runSample (c : Common V F) (fuel : Nat) (u : V) (st : StatStates c.stats) : Res (Option (StatStates c.stats)) := do
  let sim ← start (sampleSimulator c) u c.others (freshAll V c.settings.writers, st)
  let r ← run (sampleSimulator c) fuel sim
  match r with
  | none => .ok none
  | some sim => do
    let _ ← finalizeAll c.eval c.dx c.settings.writers sim.info sim.ws.1
    .ok (some sim.ws.2)

/-- The loop over the samples of a process (Runner.cpp:42-78). `w` is the stream of random numbers, `pos` the number of those used; `initial` are the initial data for given values of the
random parameters. -/
noncomputable def runSamples (c : Common V F) (fuel : Nat) (w : Nat → ℝ) (params : List (UQ.Param ℝ)) (initial : List (List ℝ) → V) :
    List Nat → Nat → StatStates c.stats → Res (Option (StatStates c.stats))
  | [], _, st => .ok (some st)
  | sample :: rest, pos, st => do
    let x ← UQ.sampleParameters w params sample pos
    let r ← runSample c fuel (initial x.1) st
    match r with
    | none => .ok none
    | some st => runSamples c fuel w params initial rest x.2 st

/-- What process `r` of `processes` has before the statistics are combined: its samples (alsuq/src/config/Setup.cpp:70-83), run one after another. One process per sample
(`multiSpatial` is 1, 1, 1). -/
noncomputable def process (c : Common V F) (fuel : Nat) (w : Nat → ℝ) (params : List (UQ.Param ℝ)) (initial : List (List ℝ) → V) (first samples : Nat) (processes r : Int) :
    Res (Option (StatStates c.stats)) := do
  let mine ← UQ.loadBalance (UQ.sampleNumbers first samples) processes ⟨1, 1, 1⟩ processes r
  runSamples c fuel w params initial mine.1 0 fun j => (c.stats.get j).fresh

/-- The end of `Runner::run` for one statistic (Runner.cpp:80-87): `ranks` are its snapshots on the processes. Rank 0 combines, finalises and writes; without a sample its grid is a null
pointer. The result are the volumes written, with their times and names. -/
noncomputable def finish (o : StatObj) (samples : Nat) (ranks : List Snaps) : Res Snaps := do
  let combined ← combine samples ranks
  match combined with
  | [] => .error .thrown
  | first :: _ => do
    let final ← o.finalize first
    if samples = 0 then .error .ub else .ok final

/-- The program on `processes` processes: for every statistic what is written. `none` if some sample takes more than `fuel` steps. -/
noncomputable def uqProgram (c : Common V F) (fuel : Nat) (w : Nat → ℝ) (params : List (UQ.Param ℝ)) (initial : List (List ℝ) → V) (first samples : Nat) (processes : Int) :
    Res (Option (List Snaps)) := do
  let ranks ← (irange 0 processes).mapM fun r => process c fuel w params initial first samples processes r
  match ranks.mapM id with
  | none => .ok none
  | some ranks => do
    let out ← (List.finRange c.stats.length).mapM fun j => finish (c.stats.get j) samples (ranks.map fun st => (st j).2)
    .ok (some out)

end Verif.UQRun
