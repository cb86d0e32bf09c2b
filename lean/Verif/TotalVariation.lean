import Verif.Memory
import Verif.Sums
import Mathlib.Analysis.Real.Sqrt

/-!
Model of the total variation of a memory area: alsfvm/src/memory/HostMemory.cpp:325-401.
-/

namespace Verif
namespace Mem

/-- Read with an `int` index (`data[index]`); a negative index is out of bounds. -/
noncomputable def rdInt (m : Mem ℝ) (i : Int) : Res ℝ := if 0 ≤ i then m.arr.rd i.toNat else .error .ub

/-- Body of the innermost loop of `getTotalVariation(p, start, end)` (HostMemory.cpp:344-355). -/
noncomputable def tvTerm (m : Mem ℝ) (p : Nat) (c : I3) : Res ℝ := do
  let index := c.z * m.nx * m.ny + c.y * m.nx + c.x
  let indexXLeft := c.z * m.nx * m.ny + c.y * m.nx + (c.x - 1)
  let yBottom := if 1 < m.ny then c.y - 1 else 0
  let indexYLeft := c.z * m.nx * m.ny + yBottom * m.nx + c.x
  let d ← m.rdInt index
  let dy ← m.rdInt indexYLeft
  let dx ← m.rdInt indexXLeft
  pure (Real.sqrt ((d - dy) ^ 2 + (d - dx) ^ 2) ^ p)

/-- `getTotalVariation(p, start, end)` (HostMemory.cpp:325-362). The exponent is a natural number here (`int p` in the code). -/
noncomputable def totalVariation (m : Mem ℝ) (p : Nat) (start stop : I3) : Res ℝ :=
  if 1 < m.nz then .error .thrown
  else
    let startX := start.x + 1
    let startY := start.y + if 1 < m.ny then 1 else 0
    (box ⟨startX, startY, 0⟩ stop).foldlM (fun bv c => do let t ← m.tvTerm p c; pure (bv + t)) 0

/-- `View::at(x,y,z)` with `int` coordinates (View.hpp:79-84). -/
noncomputable def viewAt (m : Mem ℝ) (c : I3) : Res ℝ :=
  if 0 ≤ c.x ∧ c.x < m.nx ∧ 0 ≤ c.y ∧ c.y < m.ny ∧ 0 ≤ c.z ∧ c.z < m.nz then
    .ok (m.val (calculateIndex c.x.toNat c.y.toNat c.z.toNat m.nx m.ny))
  else .error .ub

/-- `getTotalVariation(direction, p, start, end)` (HostMemory.cpp:365-401). -/
noncomputable def totalVariationDir (m : Mem ℝ) (direction p : Nat) (start stop : I3) : Res ℝ :=
  if direction > 1 + (if 1 < m.ny then 1 else 0) + (if 1 < m.nz then 1 else 0) then .error .thrown
  else
    let dv := I3.dir direction
    (box (start + dv) stop).foldlM (fun bv c => do
      let t ← (do
        let a ← m.viewAt c
        let b ← m.viewAt (c - dv)
        pure (|a - b| ^ p))
      pure (bv + t)) 0

/-- Value of a cell by coordinates (specification vocabulary). -/
def cell (m : Mem ℝ) (x y z : Int) : ℝ := m.val (calculateIndex x.toNat y.toNat z.toNat m.nx m.ny)

theorem rdInt_cell {m : Mem ℝ} {x y z : Int} (hx : 0 ≤ x ∧ x < m.nx) (hy : 0 ≤ y ∧ y < m.ny) (hz : 0 ≤ z ∧ z < m.nz) :
    m.rdInt (z * m.nx * m.ny + y * m.nx + x) = .ok (m.cell x y z) := by
  obtain ⟨x, rfl⟩ := Int.eq_ofNat_of_zero_le hx.1
  obtain ⟨y, rfl⟩ := Int.eq_ofNat_of_zero_le hy.1
  obtain ⟨z, rfl⟩ := Int.eq_ofNat_of_zero_le hz.1
  have e : (z : Int) * m.nx * m.ny + (y : Int) * m.nx + (x : Int) = ((calculateIndex x y z m.nx m.ny : Nat) : Int) := by
    simp [calculateIndex]
  have h := calculateIndex_lt (x := x) (y := y) (z := z) (nx := m.nx) (ny := m.ny) (nz := m.nz)
    (by omega) (by omega) (by omega)
  rw [e]
  have h0 : (0 : Int) ≤ ((calculateIndex x y z m.nx m.ny : Nat) : Int) := Int.natCast_nonneg _
  simp only [rdInt, h0, if_true, Int.toNat_natCast, cell]
  rw [Arr.rd_ok]
  · rfl
  · exact decide_eq_true h

theorem viewAt_cell {m : Mem ℝ} {c : I3} (hx : 0 ≤ c.x ∧ c.x < m.nx) (hy : 0 ≤ c.y ∧ c.y < m.ny) (hz : 0 ≤ c.z ∧ c.z < m.nz) :
    m.viewAt c = .ok (m.cell c.x c.y c.z) := by
  simp [viewAt, hx, hy, hz, cell]

end Mem
end Verif
