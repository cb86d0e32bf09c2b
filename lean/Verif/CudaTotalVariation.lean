import Verif.CudaCells
import Verif.TotalVariation

/-!
Model of the total variation on the graphics card: alsfvm/src/cuda/vector_operations.cu:144-211, 373-424.
-/

namespace Verif.CudaMemory
open Gpu

/-- `compute_total_variation_device` for one cell (vector_operations.cu:160-175); `yBottom` is `y - 1` whenever the area is not empty. The
indices are `size_t`; a negative one lies outside every allocation either way. -/
noncomputable def tvBody (out data nx ny p : Nat) (c : I3) : Prog (Nat × Int) ℝ :=
  let yBottom := if 0 < ny then c.y - 1 else 0
  .read (data, index nx ny c) fun d =>
  .read (data, index nx ny ⟨c.x - 1, c.y, c.z⟩) fun dx =>
  .read (data, index nx ny c) fun d' =>
  .read (data, index nx ny ⟨c.x, yBottom, c.z⟩) fun dy =>
  .write (out, index nx ny c) (Real.sqrt ((d - dx) ^ 2 + (d' - dy) ^ 2) ^ p) .done

/-- `compute_total_variation(a, nx, ny, nz, p, start, end)` up to the final sum (vector_operations.cu:373-390), called by
CudaMemory.cpp:360-365; `out` is the buffer of zeros. The result of the function is `reduce` of the buffer. -/
noncomputable def totalVariation (m : Area) (out p : Nat) (start stop : I3) : Res (Launch (Nat × Int) ℝ) :=
  if 1 < m.nz then .error .thrown
  else .ok (boxLaunch (start + ⟨1, if 1 < m.ny then 1 else 0, if 1 < m.nz then 1 else 0⟩) stop 1024 (tvBody out m.buf m.nx m.ny p))

/-- `compute_total_variation_device` with a direction for one cell (vector_operations.cu:197-210). -/
noncomputable def tvDirBody (out data nx ny direction p : Nat) (c : I3) : Prog (Nat × Int) ℝ :=
  .read (data, index nx ny c) fun a =>
  .read (data, index nx ny (c - I3.dir direction)) fun b =>
  .write (out, index nx ny c) (|a - b| ^ p) .done

/-- `compute_total_variation` with a direction up to the final sum (vector_operations.cu:399-419). -/
noncomputable def totalVariationDir (m : Area) (out direction p : Nat) (start stop : I3) : Res (Launch (Nat × Int) ℝ) :=
  if 1 < m.nz then .error .thrown
  else .ok (boxLaunch (start + I3.dir direction) stop 1024 (tvDirBody out m.buf m.nx m.ny direction p))

/-- The buffer `out` is a new allocation of the size of `m`, filled with zeros (`thrust::device_vector<T> buffer(nx * ny * nz, 0)`,
vector_operations.cu:376, 403). -/
def ZeroBuffer (h : Heap ℝ) (m : Area) (out : Nat) : Prop :=
  out ≠ m.buf ∧ ∀ i : Nat, i < m.nx * m.ny * m.nz → h.inb (out, (i : Int)) = true ∧ h.val (out, (i : Int)) = 0

/-! ### Helper lemmas -/

theorem toHost_cell {h : Heap ℝ} {m : Area} {c : I3} (hc : inSize ⟨m.nx, m.ny, m.nz⟩ c = true) :
    (toHost h m).cell c.x c.y c.z = h.val (m.buf, index m.nx m.ny c) := by
  rw [index_eq hc]
  simp only [Mem.cell, toHost, calculateIndex, encode]
  congr 2
  push_cast
  ring

theorem Allocated.cell {h : Heap ℝ} {m : Area} (hm : Allocated h m) {c : I3} (hc : inSize ⟨m.nx, m.ny, m.nz⟩ c = true) :
    h.inb (m.buf, index m.nx m.ny c) = true := by
  rw [hm.2]
  exact decide_eq_true (index_lt hc)

theorem ZeroBuffer.cell {h : Heap ℝ} {m : Area} {out : Nat} (hz : ZeroBuffer h m out) {c : I3} (hc : inSize ⟨m.nx, m.ny, m.nz⟩ c = true) :
    h.inb (out, index m.nx m.ny c) = true := by
  rw [index_eq hc]
  exact (hz.2 _ (encode_lt hc)).1

/-- Reading from another buffer than the one that is written. -/
theorem other {out data : Nat} (h : out ≠ data) (i : Int) (cells : I3 → Prop) (f : I3 → Int) (c : I3) :
    ∀ c', cells c' → ((data, i) : Nat × Int) = (out, f c') → c' = c := by
  intro c' _ he
  exact absurd (congrArg Prod.fst he).symm h

end Verif.CudaMemory
