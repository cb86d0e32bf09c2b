import Verif.Boundary
import Verif.Sums
import Mathlib.Analysis.SpecialFunctions.Pow.Real
import Mathlib.Algebra.BigOperators.Ring.Finset

/-!
Model of the structure functions: alsfvm/include/alsfvm/functional/structure_common.hpp, alsfvm/src/functional/StructureBase.cpp, alsuq/src/stats/StructureBasic.cpp,
alsuq/src/stats/StructureTwoPoints.cpp, and of alsutils/include/alsutils/math/FastPower.hpp. One variable at a time (the loops over the variables are outermost and do not
interact); volumes are addressed by coordinates.
-/

namespace Verif
namespace Structure
open Boundary

/-- `FastPower<p>::power_internal` (alsutils/include/alsutils/math/FastPower.hpp:16-24). `none` for `p = 0`, where the template recursion does not end. -/
def fastPower {K : Type} [Mul K] : Nat → K → Option K
  | 0, _ => none
  | 1, x => some x
  | p + 2, x => (fastPower (p + 1) x).map fun y => x * y

/-- The power class chosen by `dispatchComputeStructureCubeCPU` (structure_common.hpp:156-180): the unrolled powers for 1, …, 5, otherwise `pow`
(alsutils/include/alsutils/math/PowPower.hpp). -/
noncomputable def dispatchPower (p x : ℝ) : Option ℝ :=
  if p = 1 then fastPower 1 x else if p = 2 then fastPower 2 x else if p = 3 then fastPower 3 x
  else if p = 4 then fastPower 4 x else if p = 5 then fastPower 5 x else some (x ^ p)

/-- Bounds of the inner loops of `forEachPointInComputeStructureCube` (structure_common.hpp:50-80) for the direction `d` and the side (`false`: side 0). -/
def cubeBounds (dims : Nat) (c : I3) (h : Int) (d : Nat) (side : Bool) : I3 × I3 :=
  let zStart := if d = 2 then (if side then c.z + h else c.z - h) else if 2 < dims then c.z - h else 0
  let zEnd := if d = 2 then zStart + 1 else if 2 < dims then c.z + h + 1 else 1
  let yStart := if d = 1 then (if side then c.y + h else c.y - h) else if dims = 2 then c.y - h + 1 else if dims = 3 then c.y - h + 1 else 0
  let yEnd := if d = 1 then yStart + 1 else if dims = 2 then c.y + h else if dims = 3 then c.y + h else 1
  let xStart := if d = 0 then (if side then c.x + h else c.x - h) else c.x - h
  let xEnd := if d = 0 then xStart + 1 else c.x + h + 1
  let xStart' := if d = 2 then xStart + 1 else xStart
  let xEnd' := if d = 2 then xEnd - 1 else xEnd
  (⟨xStart', yStart, zStart⟩, ⟨xEnd', yEnd, zEnd⟩)

/-- The positions visited for the cell `c` and distance `h`, in order (structure_common.hpp:48-100). -/
def cubePoints (dims : Nat) (c : I3) (h : Int) : List I3 :=
  (List.range dims).flatMap fun d => [false, true].flatMap fun side => box (cubeBounds dims c h d side).1 (cubeBounds dims c h d side).2

/-- `ValueAtBoundary<BoundaryType>::getValueAtBoundary` for the two boundary types instantiated (StructureCube.cpp:48-62); others throw. -/
def valueAt (bc : BC) {α : Type} (view : Arr I3 α) (pos n g : I3) : Res α :=
  match bc with
  | .periodic => valuePeriodic view pos n g
  | .neumann => valueNeumann view pos n g

/-- `output.at(p) += x`. -/
def addAt {K : Type} [Add K] (out : Arr I3 K) (p : I3) (x : K) : Res (Arr I3 K) := do
  let o ← out.rd p
  out.wr p (o + x)

/-- Calling the power class. -/
noncomputable def power (p x : ℝ) : Res ℝ :=
  match dispatchPower p x with
  | some y => .ok y
  | none => .error .ub

/-- `computeStructureCubeCPU` with the power class of the exponent `p`, for one variable (structure_common.hpp:105-180). `n` and `g` the interior size and the ghost widths of the input,
`dims` its number of dimensions. The output is addressed by `View::at(h)`, which for the output of size `numberOfH × 1 × 1` without ghost cells is the cell `(h, 0, 0)`.
`nx * ny * nz` is an `int` product in the code; overflow is not modelled. -/
noncomputable def cube (p : ℝ) (bc : BC) (dims : Nat) (n g : I3) (numberOfH : Int) (input out : Arr I3 ℝ) : Res (Arr I3 ℝ) :=
  (box 0 n).foldlM (fun out c => (irange 1 numberOfH).foldlM (fun out h => do
    let u ← input.rd (c + g)
    (cubePoints dims c h).foldlM (fun out q => do
      let uh ← valueAt bc input q n g
      let x ← power p |u - uh|
      addAt out ⟨h, 0, 0⟩ (x / ((n.x * n.y * n.z : Int) : ℝ))) out) out) out

/-- The boundary condition checks around it (alsfvm/src/functional/StructureCube.cpp:38-62, alsuq/src/stats/StructureCube.cpp:46-73): all active sides must have the type of side
0, and it must be periodic or Neumann (`none` stands for the other types). -/
noncomputable def cubeChecked (p : ℝ) (sides : Nat → Option BC) (dims : Nat) (n g : I3) (numberOfH : Int) (input out : Arr I3 ℝ) : Res (Arr I3 ℝ) :=
  if (List.range (2 * dims)).any fun s => sides s != sides 0 then .error .thrown
  else match sides 0 with
    | some bc => cube p bc dims n g numberOfH input out
    | none => .error .thrown

/-- `StructureBase::computeStructure` for one variable (alsfvm/src/functional/StructureBase.cpp:46-88). `n` is `getNumberOf?Cells`, the interior size. -/
noncomputable def base (p : ℝ) (direction : Nat) (numberOfH : Int) (n g : I3) (input out : Arr I3 ℝ) : Res (Arr I3 ℝ) :=
  let m : I3 := ⟨n.x - 2 * g.x, n.y - 2 * g.y, n.z - 2 * g.z⟩
  let dv := I3.dir direction
  (box 0 m).foldlM (fun out c => (irange 0 numberOfH).foldlM (fun out h => do
    let u ← input.rd (c + g)
    let px ← cmod (c.x + h * dv.x) m.x
    let py ← cmod (c.y + h * dv.y) m.y
    let pz ← cmod (c.z + h * dv.z) m.z
    let uh ← input.rd (⟨px, py, pz⟩ + g)
    addAt out ⟨h, 0, 0⟩ (|u - uh| ^ p / ((m.x * m.y * m.z : Int) : ℝ))) out) out

/-- `StructureBasic::computeStructure` for one variable (alsuq/src/stats/StructureBasic.cpp:67-120). -/
noncomputable def basicWith (bc : BC) (p : ℝ) (direction : Nat) (numberOfH : Int) (n g : I3) (input out : Arr I3 ℝ) : Res (Arr I3 ℝ) :=
  let dv := I3.dir direction
  (box 0 n).foldlM (fun out c => (irange 0 numberOfH).foldlM (fun out h => do
    let u ← input.rd (c + g)
    let uh ← valueAt bc input (c + ⟨h * dv.x, h * dv.y, h * dv.z⟩) n g
    addAt out ⟨h, 0, 0⟩ (|u - uh| ^ p / ((n.x * n.y * n.z : Int) : ℝ))) out) out

/-- `StructureBasic::computeStatistics` for one variable (StructureBasic.cpp:39-61): the boundary condition is that of the side number `direction`
(`sides` as in `Grid::getBoundaryCondition`, alsfvm/src/grid/Grid.cpp:173-175: sides 0 and 1 belong to x, 2 and 3 to y, 4 and 5 to z; `none` stands for the types other than
periodic and Neumann). -/
noncomputable def basic (sides : Nat → Option BC) (p : ℝ) (direction : Nat) (numberOfH : Int) (n g : I3) (input out : Arr I3 ℝ) : Res (Arr I3 ℝ) :=
  match sides direction with
  | some bc => basicWith bc p direction numberOfH n g input out
  | none => .error .thrown

/-- `StructureTwoPoints::computeStructure` for one variable (alsuq/src/stats/StructureTwoPoints.cpp:58-101). -/
noncomputable def twoPoints (direction1 _direction2 : Nat) (numberOfH : Int) (n g : I3) (input out : Arr I3 ℝ) : Res (Arr I3 ℝ) :=
  let m : I3 := ⟨n.x - 2 * g.x, n.y - 2 * g.y, n.z - 2 * g.z⟩
  let dv := I3.dir direction1
  (box 0 m).foldlM (fun out c => do
    let u ← input.rd (c + g)
    (irange 0 numberOfH).foldlM (fun out h1 => do
      let u1 ← input.rd (⟨min (c.x + h1 * dv.x) (m.x - 1), min (c.y + h1 * dv.y) (m.y - 1), min (c.z + h1 * dv.z) (m.z - 1)⟩ + g)
      (irange 0 numberOfH).foldlM (fun out h2 => do
        let px ← cmod (min (c.x + h2 * dv.x) (m.x - 1)) m.x
        let py ← cmod (min (c.y + h2 * dv.y) (m.y - 1)) m.y
        let pz ← cmod (min (c.z + h2 * dv.z) (m.z - 1)) m.z
        let u2 ← input.rd (⟨px, py, pz⟩ + g)
        addAt out ⟨h1, h2, 0⟩ ((u1 - u) * (u1 - u) * (u2 - u) / ((m.x * m.y * m.z : Int) : ℝ))) out) out) out

/-! ### Loop rules -/

/-- `for i in l { v = …; a[w i] += v; }` where the places may repeat. -/
theorem foldlM_acc {ι M : Type} [AddCommMonoid M] (l : List ι) (w : ι → I3) (v' : ι → M) (f : Arr I3 M → ι → Res (Arr I3 M))
    (a : Arr I3 M) (hf : ∀ b : Arr I3 M, b.inb = a.inb → ∀ i ∈ l, f b i = addAt b (w i) (v' i)) (hw : ∀ i ∈ l, a.inb (w i) = true) :
    ∃ a', l.foldlM f a = .ok a' ∧ a'.inb = a.inb ∧ ∀ q, a'.val q = a.val q + (l.map fun i => if w i = q then v' i else 0).sum := by
  have key := foldlM_inv f l a
    (fun pre b => b.inb = a.inb ∧ ∀ q, b.val q = a.val q + (pre.map fun i => if w i = q then v' i else 0).sum)
    ⟨rfl, by simp⟩ ?_
  · obtain ⟨a', h1, h2, h3⟩ := key
    exact ⟨a', h1, h2, h3⟩
  · rintro pre i post b hl ⟨h1, h2⟩
    have hi : i ∈ l := by simp [hl]
    have hin : b.inb (w i) = true := by rw [h1]; exact hw i hi
    refine ⟨{ b with val := Function.update b.val (w i) (b.val (w i) + v' i) }, ?_, h1, fun q => ?_⟩
    · rw [hf b h1 i hi, addAt, Arr.rd_ok hin, Res.ok_bind, Arr.wr_ok hin]
    · by_cases hq : w i = q
      · subst hq; simp [h2, add_assoc]
      · simp [Function.update_of_ne (Ne.symm hq), h2, hq]

/-- Nested version: the body adds `v' i q` to every place `q`. -/
theorem foldlM_addInto {ι M : Type} [AddCommMonoid M] (l : List ι) (v' : ι → I3 → M) (f : Arr I3 M → ι → Res (Arr I3 M)) (a : Arr I3 M)
    (hf : ∀ b : Arr I3 M, b.inb = a.inb → ∀ i ∈ l, ∃ b', f b i = .ok b' ∧ b'.inb = b.inb ∧ ∀ q, b'.val q = b.val q + v' i q) :
    ∃ a', l.foldlM f a = .ok a' ∧ a'.inb = a.inb ∧ ∀ q, a'.val q = a.val q + (l.map fun i => v' i q).sum := by
  have key := foldlM_inv f l a
    (fun pre b => b.inb = a.inb ∧ ∀ q, b.val q = a.val q + (pre.map fun i => v' i q).sum)
    ⟨rfl, by simp⟩ ?_
  · obtain ⟨a', h1, h2, h3⟩ := key
    exact ⟨a', h1, h2, h3⟩
  · rintro pre i post b hl ⟨h1, h2⟩
    obtain ⟨b', e1, e2, e3⟩ := hf b h1 i (by simp [hl])
    exact ⟨b', e1, by rw [e2, h1], fun q => by rw [e3, h2]; simp [add_assoc]⟩

theorem addAt_ok {M : Type} [AddCommMonoid M] {b : Arr I3 M} {p : I3} (h : b.inb p = true) (x : M) :
    ∃ b', addAt b p x = .ok b' ∧ b'.inb = b.inb ∧ ∀ q, b'.val q = b.val q + if p = q then x else 0 := by
  refine ⟨{ b with val := Function.update b.val p (b.val p + x) }, by rw [addAt, Arr.rd_ok h, Res.ok_bind, Arr.wr_ok h], rfl, fun q => ?_⟩
  by_cases hq : p = q
  · subst hq; simp
  · simp [Function.update_of_ne (Ne.symm hq), hq]

theorem sum_row {M : Type} [AddCommMonoid M] (lo hi : Int) (X : Int → M) (q : I3) :
    ((irange lo hi).map fun h => if (⟨h, 0, 0⟩ : I3) = q then X h else 0).sum = if q.y = 0 ∧ q.z = 0 ∧ lo ≤ q.x ∧ q.x < hi then X q.x else 0 := by
  rw [sum_irange]
  by_cases hq : q.y = 0 ∧ q.z = 0
  · have : ∀ h : Int, ((⟨h, 0, 0⟩ : I3) = q) ↔ q.x = h := by
      intro h; rw [I3.ext_iff]; simp only; omega
    simp only [this, Finset.sum_ite_eq, Finset.mem_Ico, hq, true_and]
  · rw [if_neg (by tauto), Finset.sum_eq_zero]
    intro h _
    rw [if_neg]
    rintro rfl
    exact hq ⟨rfl, rfl⟩

/-- The two outer loops of the directional structure functions. -/
theorem loop_rows {M : Type} [AddCommMonoid M] (l : List I3) (lo hi : Int) (X : I3 → Int → M) (f : Arr I3 M → I3 → Int → Res (Arr I3 M)) (a : Arr I3 M)
    (hf : ∀ b : Arr I3 M, b.inb = a.inb → ∀ c ∈ l, ∀ h, lo ≤ h → h < hi → ∃ b', f b c h = .ok b' ∧ b'.inb = b.inb ∧
      ∀ q, b'.val q = b.val q + if (⟨h, 0, 0⟩ : I3) = q then X c h else 0) :
    ∃ a', l.foldlM (fun out c => (irange lo hi).foldlM (fun out h => f out c h) out) a = .ok a' ∧ a'.inb = a.inb ∧
      ∀ q, a'.val q = a.val q + if q.y = 0 ∧ q.z = 0 ∧ lo ≤ q.x ∧ q.x < hi then (l.map fun c => X c q.x).sum else 0 := by
  have key := foldlM_addInto l (fun c q => if q.y = 0 ∧ q.z = 0 ∧ lo ≤ q.x ∧ q.x < hi then X c q.x else 0)
    (fun out c => (irange lo hi).foldlM (fun out h => f out c h) out) a ?_
  · obtain ⟨a', h1, h2, h3⟩ := key
    refine ⟨a', h1, h2, fun q => ?_⟩
    rw [h3]
    split_ifs with h <;> simp
  · intro b hb c hc
    obtain ⟨b', h1, h2, h3⟩ := foldlM_addInto (irange lo hi) (fun h q => if (⟨h, 0, 0⟩ : I3) = q then X c h else 0) (fun out h => f out c h) b (by
      intro b1 hb1 h hh
      rw [mem_irange] at hh
      exact hf b1 (hb1.trans hb) c hc h hh.1 hh.2)
    exact ⟨b', h1, h2, fun q => by rw [h3, sum_row]⟩

end Structure
end Verif
