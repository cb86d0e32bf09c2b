import Verif.Integrator

/-!
Model of the simulator loop (alsfvm/src/simulator/Simulator.cpp) around the integrators.
-/

namespace Verif
namespace Simulator
open Integrator
variable {K V σ : Type} [Field K] [LinearOrder K] [AddCommGroup V] [Module K V]

/-- A call of a writer: its position in the list of writers, the volume, the time information. -/
structure Call (V K : Type) where
  writer : Nat
  state : V
  info : TimeInfo K

/-- What a simulator is constructed with. `σ` is the joint state of all writers and functionals; the time step adjusters are functions of it (the fixed interval
writers are both, alsfvm/src/config/SimulatorSetup.cpp:206-228). -/
structure Config (V K σ : Type) where
  kind : Kind
  env : Env V K
  /-- `boundary->applyBoundaryConditions` -/
  bc : V → Res V
  /-- `cellComputer->obeysConstraints` -/
  obeys : V → Bool
  /-- `writer->write` -/
  writers : List (V → TimeInfo K → σ → Res σ)
  adjusters : σ → List (Adjuster K)
  endTime : K

/-- The mutable part of the simulator. `log` records the calls of writers, for the statements about them. -/
structure Sim (V K σ : Type) where
  vols : List V
  info : TimeInfo K
  ws : σ
  log : List (Call V K)

/-- `conservedVolumes[0].swap(conservedVolumes.back())` (alsfvm/src/simulator/Simulator.cpp:211). -/
def swapEnds (vols : List V) : Res (List V) := do
  let a ← at' vols 0
  let b ← at' vols (vols.length - 1)
  pure ((vols.set 0 b).set (vols.length - 1) a)

/-- One iteration of the loop in `incrementSolution` (alsfvm/src/simulator/Simulator.cpp:194-209). -/
def substepAndBoundary (c : Config V K σ) (adj : List (Adjuster K)) (info : TimeInfo K) (s : List V × K) (substep : Nat) : Res (List V × K) := do
  let r ← performSubstep c.kind c.env adj info s.1 s.2 substep
  let next ← at' r.1 (substep + 1)
  let next ← c.bc next
  pure (r.1.set (substep + 1) next, r.2)

/-- `incrementSolution` (alsfvm/src/simulator/Simulator.cpp:191-214). -/
def incrementSolution (c : Config V K σ) (s : Sim V K σ) : Res (Sim V K σ) := do
  let r ← (List.range c.kind.substeps).foldlM (substepAndBoundary c (c.adjusters s.ws) s.info) (s.vols, 0)
  let vols ← swapEnds r.1
  pure { s with vols := vols, info := s.info.increment r.2 }

/-- `checkConstraints` (alsfvm/src/simulator/Simulator.cpp:180-189). -/
def checkConstraints (c : Config V K σ) (s : Sim V K σ) : Res Unit := do
  let u ← at' s.vols 0
  if c.obeys u then pure () else .error .thrown

/-- `callWriters` (alsfvm/src/simulator/Simulator.cpp:172-178). -/
def callWriters (c : Config V K σ) (s : Sim V K σ) : Res (Sim V K σ) := do
  let u ← at' s.vols 0
  let r ← c.writers.zipIdx.foldlM (fun (r : σ × List (Call V K)) w => do
    let ws ← w.1 u s.info r.1
    pure (ws, r.2 ++ [⟨w.2, u, s.info⟩])) (s.ws, s.log)
  pure { s with ws := r.1, log := r.2 }

/-- `performStep` (alsfvm/src/simulator/Simulator.cpp:81-85). -/
def performStep (c : Config V K σ) (s : Sim V K σ) : Res (Sim V K σ) := do
  let s ← incrementSolution c s
  checkConstraints c s
  callWriters c s

/-- `n` steps. -/
def steps (c : Config V K σ) : Nat → Sim V K σ → Res (Sim V K σ)
  | 0, s => .ok s
  | n + 1, s => do
    let s ← performStep c s
    steps c n s

/-- `setSimulationState` and the end of `setInitialValue` (alsfvm/src/simulator/Simulator.cpp:104-107, 117-162): the new values are in the first volume, then the
boundary conditions are applied. -/
def start (c : Config V K σ) (u : V) (others : List V) (ws : σ) : Res (Sim V K σ) := do
  let u ← c.bc u
  pure ⟨u :: others, ⟨0, 0⟩, ws, []⟩

/-- `atEnd` (alsfvm/src/simulator/Simulator.cpp:77-79). -/
def atEnd (c : Config V K σ) (s : Sim V K σ) : Bool := decide (c.endTime ≤ s.info.time)

/-- The main loop (alsvinncli/src/main.cpp:210-232, alsuq/src/run/Runner.cpp:68-73), for at most `fuel` steps; `none` if the end is not reached by then. -/
def loop (c : Config V K σ) : Nat → Sim V K σ → Res (Option (Sim V K σ))
  | 0, s => if atEnd c s then .ok (some s) else .ok none
  | fuel + 1, s =>
    if atEnd c s then .ok (some s) else do
      let s ← performStep c s
      loop c fuel s

/-- The whole run: writers are called once before the loop. -/
def run (c : Config V K σ) (fuel : Nat) (s : Sim V K σ) : Res (Option (Sim V K σ)) := do
  let s ← callWriters c s
  loop c fuel s

/-- `incrementSolution` (alsfvm/src/simulator/Simulator.cpp:191-214) when the right hand side of substep `i` behaves like `sys i`: on several processes what it does to
the ghost cells depends on the order of the messages, which may be different in every call. -/
def incrementWith (c : Config V K σ) (sys : Nat → System V K) (s : Sim V K σ) : Res (Sim V K σ) := do
  let r ← (List.range c.kind.substeps).foldlM
    (fun r i => substepAndBoundary { c with env := { c.env with sys := sys i } } (c.adjusters s.ws) s.info r i) (s.vols, 0)
  let vols ← swapEnds r.1
  pure { s with vols := vols, info := s.info.increment r.2 }

/-- `performStep` (alsfvm/src/simulator/Simulator.cpp:81-85); in step `n` the right hand side of substep `i` behaves like `sys n i`. -/
def performStepWith (c : Config V K σ) (sys : Nat → Nat → System V K) (s : Sim V K σ) : Res (Sim V K σ) := do
  let s ← incrementWith c (sys s.info.steps) s
  checkConstraints c s
  callWriters c s

/-- The main loop as in `loop`, with right hand sides that differ from step to step. -/
def loopWith (c : Config V K σ) (sys : Nat → Nat → System V K) : Nat → Sim V K σ → Res (Option (Sim V K σ))
  | 0, s => if atEnd c s then .ok (some s) else .ok none
  | fuel + 1, s =>
    if atEnd c s then .ok (some s) else do
      let s ← performStepWith c sys s
      loopWith c sys fuel s

/-- The whole run as in `run`, with right hand sides that differ from step to step. -/
def runWith (c : Config V K σ) (sys : Nat → Nat → System V K) (fuel : Nat) (s : Sim V K σ) : Res (Option (Sim V K σ)) := do
  let s ← callWriters c s
  loopWith c sys fuel s

end Simulator
end Verif
