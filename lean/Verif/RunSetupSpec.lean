import Verif.RunSetup

/-!
What output a configuration asks for, for C86 and C87, in terms of the solutions `past` of the run with their times.
-/

namespace Verif.Setup
open Params Integrator Verif.Simulator
variable {K V F : Type} [Field K] [LinearOrder K]

/-- The kinds of output a configuration up to time `T` can ask for (see `C86_kinds`): every step, `N` saves at equal distances, no saves, `N` values of a functional, the integral of a
functional over a time window (over all steps or over `n` snapshots on each side of its centre; the first of them comes before the end), a time average over snapshots. -/
inductive Asked (T : K) : WriterObj K F → Prop
  | everyStep (type name : Str) (ps : Tree) : Asked T (.base type name ps)
  | saves (type name : Str) (ps : Tree) (N : Nat) (initial : Bool) : 0 < N → Asked T (.fixed (.base type name ps) (some (T / N)) 0 initial)
  | nothing (w : WriterObj K F) (start : K) (initial : Bool) : (∃ type name ps, w = .base type name ps) ∨ (∃ type name ps f, w = .functional (.base type name ps) f) →
      Asked T (.fixed w none start initial)
  | functional (type name : Str) (ps : Tree) (f : F) (N : Nat) : 0 < N → Asked T (.fixed (.functional (.base type name ps) f) (some (T / N)) 0 true)
  | window (type name : Str) (ps : Tree) (f : F) (time radius : K) : Asked T (.timeFunctional (.base type name ps) f time radius)
  | snapshots (type name : Str) (ps : Tree) (f : F) (time radius : K) (n : Nat) : 0 < n → 0 < radius → max (time - radius) 0 + radius / n ≤ T →
      Asked T (.fixed (.timeFunctional (.base type name ps) f time radius) (some (radius / n)) (max (time - radius) 0) false)
  | average (type name : Str) (ps : Tree) (time radius : K) (n : Nat) : 0 < n → 0 < radius → 0 < time →
      Asked T (.fixed (.integrated (.base type name ps) time radius) (some (radius / n)) (max (time - radius) 0) false)

/-- The writer asks for at least one save, the last at the end. -/
def SavesEnd : WriterObj K F → Prop
  | .fixed (.base _ _ _) (some _) _ _ => True
  | .fixed (.functional _ _) (some _) _ _ => True
  | _ => False

/-- The writer writes solutions, not values of a functional. -/
def OfSolution : WriterObj K F → Prop
  | .base _ _ _ => True
  | .fixed w _ _ _ => OfSolution w
  | .coarse w _ _ _ => OfSolution w
  | .integrated w _ _ => OfSolution w
  | .timeFunctional _ _ _ _ => False
  | .functional _ _ => False

variable [AddCommGroup V]

/-- Integral of a functional over the solutions with `|t - time| ≤ radius`: each counts with the time since the solution before it. -/
inductive Integral (eval : F → V → V → K → Res V) (f : F) (time radius : K) : V → K → List (V × TimeInfo K) → V → Prop
  | nil (v : V) (last : K) : Integral eval f time radius v last [] v
  | inside {v v' out u : V} {last : K} {info : TimeInfo K} {l : List (V × TimeInfo K)} : |info.time - time| ≤ radius → eval f v u (info.time - last) = .ok v' →
      Integral eval f time radius v' info.time l out → Integral eval f time radius v last ((u, info) :: l) out
  | outside {v out u : V} {last : K} {info : TimeInfo K} {l : List (V × TimeInfo K)} : radius < |info.time - time| →
      Integral eval f time radius v info.time l out → Integral eval f time radius v last ((u, info) :: l) out

/-- The files contain what was asked for. Nothing is said of the two kinds with snapshots. -/
def Delivered (eval : F → V → V → K → Res V) (T : K) (past : List (V × TimeInfo K)) : WriterObj K F → List (V × TimeInfo K) → Prop
  | .base _ _ _, entries => entries = past
  | .fixed (.base _ _ _) (some i) _ initial, entries =>
    ∃ N : Nat, i = T / N ∧ (entries.map fun e => e.2.time) = ((List.range (N + 1)).drop (if initial then 0 else 1)).map (fun k : Nat => k * (T / N)) ∧ ∀ e ∈ entries, e ∈ past
  | .fixed (.base _ _ _) none _ _, entries => entries = []
  | .fixed (.functional _ _) none _ _, entries => entries = []
  | .fixed (.functional _ f) (some i) _ _, entries =>
    ∃ N : Nat, i = T / N ∧ (entries.map fun e => e.2.time) = (List.range (N + 1)).map (fun k : Nat => k * (T / N)) ∧ ∀ e ∈ entries, ∃ u, (u, e.2) ∈ past ∧ eval f 0 u 1 = .ok e.1
  | .timeFunctional _ f time radius, entries => ∃ v info, entries = [(v, info)] ∧ info.time = T ∧ Integral eval f time radius 0 0 past v
  | _, _ => True

end Verif.Setup
