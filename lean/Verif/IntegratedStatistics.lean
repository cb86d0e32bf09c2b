import Verif.Stats

/-!
Statistics of functionals integrated over a window of time (alsuq/src/stats/TimeIntegratedFunctionalStatistics.cpp).
-/

namespace Verif.Stats
open Verif.Functionals

/-- `TimeIntegratedFunctionalStatistics` (alsuq/src/stats/TimeIntegratedFunctionalStatistics.cpp:23-43): the functional with its output size and name, and the window. -/
structure Integrated where
  name : String
  f : Vol → Vol → ℝ → Res Vol
  size : I3
  time : ℝ
  radius : ℝ

/-- The snapshot: always the one at the time of the window (TimeIntegratedFunctionalStatistics.cpp:41, 59-62). -/
noncomputable def Integrated.key (p : Integrated) : Key := toLex (p.time, "mean_" ++ p.name)

/-- `computeStatistics` (TimeIntegratedFunctionalStatistics.cpp:50-83) at the time `t` with the state `u`. The members are `lastTime` and the snapshots; `lastTime` keeps its value from one
sample to the next. -/
noncomputable def Integrated.compute (p : Integrated) (t : ℝ) (u : Vol) (s : ℝ × Snaps) : Res (ℝ × Snaps) := do
  let snaps ← touch p.key (ofSize p.size u) (fun v => if |t - p.time| ≤ p.radius then (if 0 < t - s.1 then p.f v u (t - s.1) else .ok v) else .ok v) s.2
  .ok (t, snaps)

/-- One rank: the samples one after another, each with the calls of its simulator (`Runner::run`, alsuq/src/run/Runner.cpp:42-78). The initial value of `lastTime` is 0
(alsuq/include/alsuq/stats/TimeIntegratedFunctionalStatistics.hpp:55). -/
noncomputable def Integrated.runRank {S : Type} (p : Integrated) (calls : S → List (ℝ × Vol)) (samples : List S) : Res (ℝ × Snaps) :=
  samples.foldlM (fun s sample => (calls sample).foldlM (fun s e => p.compute e.1 e.2 s) s) (0, [])

end Verif.Stats
