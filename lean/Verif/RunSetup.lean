import Verif.Setup
import Verif.Writers
import Verif.Simulator

/-!
The writers a configuration describes at work: the models of `Verif/Writers.lean` composed as the objects of `Verif/Setup.lean` are, and the simulator that calls them.
-/

namespace Verif.Setup
open Params Integrator Verif.Simulator Writers
variable {K V F : Type}

/-- What a file received: the volumes with their times, and how often it was finalised. -/
structure FileState (V K : Type) where
  entries : List (V × TimeInfo K)
  finalized : Nat

/-- The members of a writer object that change: those of `FixedIntervalWriter`, `CoarseGrainingIntervalWriter`, `TimeIntegratedWriter` and `TimeIntegrationFunctional`
(alsfvm/include/alsfvm/io/FixedIntervalWriter.hpp, CoarseGrainingIntervalWriter.hpp:74-77, TimeIntegratedWriter.hpp:57-63, alsfvm/include/alsfvm/functional/TimeIntegrationFunctional.hpp)
and of the writer they wrap. -/
def WriterObj.St (V : Type) : WriterObj K F → Type
  | .base _ _ _ => FileState V K
  | .fixed w _ _ _ => Nat × w.St V
  | .coarse w _ _ _ => CoarseState K × w.St V
  | .integrated w _ _ => IntegratedState V K × w.St V
  | .timeFunctional w _ _ _ => (Option V × K) × w.St V
  | .functional w _ => w.St V

/-- After construction (alsfvm/src/io/FixedIntervalWriter.cpp:23-31 and the initialisers of the members of the other writers). -/
def WriterObj.fresh [Field K] [LinearOrder K] : (w : WriterObj K F) → w.St V
  | .base _ _ _ => (⟨[], 0⟩ : FileState V K)
  | .fixed w _ _ initial => (if initial then 0 else 1, w.fresh)
  | .coarse w _ _ _ => (CoarseState.init, w.fresh)
  | .integrated w _ _ => (IntegratedState.init, w.fresh)
  | .timeFunctional w _ _ _ => ((none, 0), w.fresh)
  | .functional w _ => w.fresh

/-- What reached the file. -/
def WriterObj.file : (w : WriterObj K F) → w.St V → FileState V K
  | .base _ _ _, s => s
  | .fixed w _ _ _, s => w.file s.2
  | .coarse w _ _ _, s => w.file s.2
  | .integrated w _ _, s => w.file s.2
  | .timeFunctional w _ _ _, s => w.file s.2
  | .functional w _, s => w.file s

section
variable [Field K] [LinearOrder K] [AddCommGroup V] [Module K V]

/-- `write` of the writer object: alsfvm/src/io/FixedIntervalWriter.cpp:33-43, CoarseGrainingIntervalWriter.cpp:36-75, TimeIntegratedWriter.cpp:28-66,
alsfvm/src/functional/TimeIntegrationFunctional.cpp:33-49, IntervalFunctionalWriter.cpp:31-65. `eval f out u weight` is the functional, adding to `out`; its volumes are taken to be of
the type of the simulation (the grid they are written with is left out). The writers of files (`base`) always succeed. An interval that is not finite (`none`) lets no save time come;
`0 * inf` of the first save is not a number, and the comparison with it is false. -/
def WriterObj.write (eval : F → V → V → K → Res V) (dx : K) : (w : WriterObj K F) → V → TimeInfo K → w.St V → Res (w.St V)
  | .base _ _ _, u, info, s => .ok (⟨FileState.entries s ++ [(u, info)], FileState.finalized s⟩ : FileState V K)
  | .fixed w (some i) start initial, u, info, s => Fixed.write ⟨i, start, initial⟩ (w.write eval dx) u info s
  | .fixed _ none _ _, _, _, s => .ok s
  | .coarse w (some i) saves skips, u, info, s => Coarse.write ⟨i, saves, skips⟩ (w.write eval dx) dx u info s
  | .coarse _ none _ _, _, _, s => .ok s
  | .integrated w time radius, u, info, s => integratedWrite time radius (w.write eval dx) u info s
  | .timeFunctional _ f time radius, u, info, s => do
    let r ← functionalWrite time radius 0 (eval f) u info s.1
    .ok (r, s.2)
  | .functional w f, u, info, s => do
    let v ← eval f 0 u 1
    w.write eval dx v info s

/-- `finalize` of the writer object (alsfvm/src/io/FixedIntervalWriter.cpp:55-58, CoarseGrainingIntervalWriter.cpp:90-93, TimeIntegratedWriter.cpp:68-71,
alsfvm/src/functional/TimeIntegrationFunctional.cpp:51-62; `IntervalFunctionalWriter` has none and inherits the empty one, alsfvm/include/alsfvm/io/Writer.hpp:49-52). -/
def WriterObj.finalize (eval : F → V → V → K → Res V) (dx : K) : (w : WriterObj K F) → TimeInfo K → w.St V → Res (w.St V)
  | .base _ _ _, _, s => .ok (⟨FileState.entries s, FileState.finalized s + 1⟩ : FileState V K)
  | .fixed w _ _ _, info, s => do
    let t ← w.finalize eval dx info s.2
    .ok (s.1, t)
  | .coarse w _ _ _, info, s => do
    let t ← w.finalize eval dx info s.2
    .ok (s.1, t)
  | .integrated w _ _, info, s => do
    let t ← w.finalize eval dx info s.2
    .ok (s.1, t)
  | .timeFunctional w _ _ _, info, s => do
    let v ← functionalFinalize s.1
    let t ← w.write eval dx v info s.2
    .ok (s.1, t)
  | .functional _ _, _, s => .ok s

/-- `adjustTimestep` of the writer object if it is an adjuster. That of the coarse graining writer needs the length of a cell, which it has from its first call on; before that this
model leaves the time step as it is (see C37 for the undefined behaviour). -/
def WriterObj.adjuster : (w : WriterObj K F) → w.St V → Option (Adjuster K)
  | .fixed _ (some i) start initial, s => some (Fixed.adjust ⟨i, start, initial⟩ s.1)
  | .coarse _ (some i) saves skips, s => some fun dt info => match Coarse.adjust ⟨i, saves, skips⟩ s.1 dt info with
    | .ok x => x
    | .error _ => dt
  | _, _ => none

/-- The members of all writers. -/
abbrev States (V : Type) (ws : List (WriterObj K F)) : Type := ∀ i : Fin ws.length, (ws.get i).St V

/-- All writers after construction. -/
def freshAll (V : Type) (ws : List (WriterObj K F)) : States V ws := fun i => (ws.get i).fresh

/-- Calling one of the writers. -/
def writeOne (eval : F → V → V → K → Res V) (dx : K) (ws : List (WriterObj K F)) (i : Fin ws.length) (u : V) (info : TimeInfo K) (st : States V ws) : Res (States V ws) := do
  let x ← (ws.get i).write eval dx u info (st i)
  .ok (Function.update st i x)

/-- The simulator of a configuration (alsfvm/src/config/SimulatorSetup.cpp:182-230): its writers in their order and those that are adjusters. The code asks the adjusters in another
order (functionals first); all of them take a minimum. Integrator, right hand side, boundary conditions and the check of the constraints are given. -/
def simulator (eval : F → V → V → K → Res V) (dx : K) (s : Settings K F) (kind : Kind) (env : Env V K) (bc : V → Res V) (obeys : V → Bool) : Config V K (States V s.writers) :=
  { kind := kind, env := env, bc := bc, obeys := obeys, endTime := s.endTime,
    writers := (List.finRange s.writers.length).map fun i => writeOne eval dx s.writers i,
    adjusters := fun st => (List.finRange s.writers.length).filterMap fun i => (s.writers.get i).adjuster (st i) }

/-- `Simulator::finalize` (alsfvm/src/simulator/Simulator.cpp:70-75). -/
def finalizeAll (eval : F → V → V → K → Res V) (dx : K) (ws : List (WriterObj K F)) (info : TimeInfo K) (st : States V ws) : Res (States V ws) :=
  (List.finRange ws.length).foldlM (fun st i => do
    let x ← (ws.get i).finalize eval dx info (st i)
    .ok (Function.update st i x)) st

/-- The program (alsvinncli/src/main.cpp:197-234): the run with a bound for the number of steps, then the end of the output. -/
def program (eval : F → V → V → K → Res V) (dx : K) (s : Settings K F) (kind : Kind) (env : Env V K) (bc : V → Res V) (obeys : V → Bool) (u : V) (others : List V) (fuel : Nat) :
    Res (Option (Sim V K (States V s.writers))) := do
  let c := simulator eval dx s kind env bc obeys
  let sim ← start c u others (freshAll V s.writers)
  let r ← run c fuel sim
  match r with
  | none => .ok none
  | some sim => do
    let ws ← finalizeAll eval dx s.writers sim.info sim.ws
    .ok (some { sim with ws := ws })

end
end Verif.Setup
