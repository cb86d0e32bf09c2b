import Verif.Examples
import Mathlib.Analysis.SpecialFunctions.Log.Base
import Mathlib.Analysis.SpecialFunctions.Pow.Real

/-!
Model of examples/euler_brownian/euler_brownian.py: a velocity field by midpoint displacement. Numbers are real numbers. `item` is `X[i]` (`Verif/Examples.lean`).
-/

namespace Verif.Brownian
open Verif Verif.Examples

/-- The array `d`, of size N+1 by N+1. All accesses are within it: indices are at most `2*(N//2)`. -/
abbrev Field := Nat → Nat → ℝ

/-- `zeros((N+1,N+1))` (examples/euler_brownian/euler_brownian.py:16). -/
def zeros : Field := fun _ _ => 0

/-- `d[i,j] = v`. -/
def put (d : Field) (i j : Nat) (v : ℝ) : Field := fun a b => if a = i ∧ b = j then v else d a b

/-- `variancefBm(H, n)` with `n = log2(N)` (examples/euler_brownian/euler_brownian.py:11-12, 15). -/
noncomputable def deviation (H : ℝ) (N : Nat) : ℝ := Real.sqrt ((1 - (2 : ℝ) ^ (2 * H - 2)) / (2 : ℝ) ^ (2 * Real.logb 2 N * H))

/-- `d[2*i,2*j] = dPrev[i,j]` for all `i`, `j` below `N//2` (examples/euler_brownian/euler_brownian.py:22-24). -/
def spread (h : Nat) (prev : Field) : Field :=
  (List.range h).foldl (fun d i => (List.range h).foldl (fun d j => put d (2 * i) (2 * j) (prev i j)) d) zeros

/-- The body of the second loop (examples/euler_brownian/euler_brownian.py:29-61). The second component is the number of random numbers used so far, `self.i + 1`
(examples/euler_brownian/euler_brownian.py:1-8). -/
noncomputable def displace (s : ℝ) (X : List ℝ) (i : Nat) (st : Field × Nat) (j : Nat) : Res (Field × Nat) := do
  let (d, pos) := st
  let r ← item X pos
  let d := put d (2 * i + 1) (2 * j) (0.5 * (d (2 * i) (2 * j) + d (2 * (i + 1)) (2 * j)) + s * r)
  let r ← item X (pos + 1)
  let d := put d (2 * i) (2 * j + 1) (0.5 * (d (2 * i) (2 * j) + d (2 * i) (2 * (j + 1))) + s * r)
  let r ← item X (pos + 2)
  let d := put d (2 * i + 1) (2 * j + 1)
    (1.0 / 4.0 * (d (2 * i) (2 * j) + d (2 * i) (2 * (j + 1)) + d (2 * (i + 1)) (2 * j) + d (2 * (i + 1)) (2 * (j + 1))) + s * r)
  pure (d, pos + 3)

/-- The second loop (examples/euler_brownian/euler_brownian.py:27-61). -/
noncomputable def displaceAll (s : ℝ) (X : List ℝ) (h : Nat) (st : Field × Nat) : Res (Field × Nat) :=
  (List.range h).foldlM (fun st i => (List.range h).foldlM (displace s X i) st) st

/-- `fBm(N, H, rand)` (examples/euler_brownian/euler_brownian.py:14-63). For `N = 0` the recursion does not end, which Python stops by an exception. -/
noncomputable def fBm (H : ℝ) (X : List ℝ) : Nat → Res (Field × Nat)
  | 0 => .error .thrown
  | 1 => .ok (zeros, 0)
  | N + 2 => do
    let (prev, pos) ← fBm H X ((N + 2) / 2)
    displaceAll (deviation H (N + 2)) X ((N + 2) / 2) (spread ((N + 2) / 2) prev, pos)

/-- `init_global` (examples/euler_brownian/euler_brownian.py:71-77): the state of each cell, or an exception. `dux[:-1,:-1]` has `nx` rows and columns; an assignment to an array with `nx` rows
and `ny` columns is refused unless `ny` is `nx` (or `nx` is one: the single row and column are copied). -/
noncomputable def initGlobal (X : List ℝ) (nx ny : Nat) : Res (Nat → Nat → Gas) := do
  let (dux, _) ← fBm 0.1 (X.take (1024 * 1024)) nx
  let (duy, _) ← fBm 0.2 (X.drop (1024 * 1024)) nx
  if nx = ny then pure fun i j => ⟨4, dux i j, duy i j, 0, 2.5⟩
  else if nx = 1 then pure fun _ _ => ⟨4, dux 0 0, duy 0 0, 0, 2.5⟩
  else .error .thrown

end Verif.Brownian
