import Verif.CudaMemory
import Verif.Sums

/-!
Helpers for kernels with one thread per cell that writes one element of one area: result of the launch, and sums over an area.
-/

namespace Verif.CudaMemory
open Gpu
variable {K : Type}

/-- Flat index of a cell, `z * nx * ny + y * nx + x` (for instance vector_operations.cu:164). -/
def index (nx ny : Nat) (c : I3) : Int := c.z * nx * ny + c.y * nx + c.x

theorem index_eq {nx ny nz : Nat} {c : I3} (h : inSize ⟨nx, ny, nz⟩ c = true) : index nx ny c = ((encode nx ny c : Nat) : Int) := by
  simp only [inSize_iff] at h
  obtain ⟨h1, h2, h3, h4, h5, h6⟩ := h
  simp only [index, encode]
  push_cast
  rw [Int.toNat_of_nonneg h1, Int.toNat_of_nonneg h3, Int.toNat_of_nonneg h5]
  ring

theorem index_lt {nx ny nz : Nat} {c : I3} (h : inSize ⟨nx, ny, nz⟩ c = true) :
    0 ≤ index nx ny c ∧ index nx ny c < ((nx * ny * nz : Nat) : Int) := by
  rw [index_eq h]
  exact ⟨Int.natCast_nonneg _, Int.ofNat_lt.2 (encode_lt h)⟩

theorem decode_index {nx ny nz : Nat} {c : I3} (h : inSize ⟨nx, ny, nz⟩ c = true) : decode nx ny (index nx ny c).toNat = c := by
  rw [index_eq h, Int.toNat_natCast, decode_encode h]

theorem index_inj {nx ny nz : Nat} {c c' : I3} (h : inSize ⟨nx, ny, nz⟩ c = true) (h' : inSize ⟨nx, ny, nz⟩ c' = true)
    (he : index nx ny c = index nx ny c') : c = c' := by
  rw [← decode_index h, he, decode_index h']

/-- The cells of `box lo hi` lie in an area of the given size. -/
def Inside (lo hi : I3) (nx ny nz : Nat) : Prop :=
  0 ≤ lo.x ∧ 0 ≤ lo.y ∧ 0 ≤ lo.z ∧ hi.x ≤ nx ∧ hi.y ≤ ny ∧ hi.z ≤ nz

theorem Inside.mem {lo hi : I3} {nx ny nz : Nat} (h : Inside lo hi nx ny nz) {c : I3} (hc : c ∈ box lo hi) :
    inSize ⟨nx, ny, nz⟩ c = true := by
  obtain ⟨h1, h2, h3, h4, h5, h6⟩ := h
  simp only [mem_box] at hc
  simp only [inSize_iff]
  omega

/-- A launch over a box where the thread of cell `c` writes `g c` to element `index c` of the area `out`. -/
theorem cellwise {h : Heap K} {out nx ny nz blockSize : Nat} {lo hi : I3} {body : I3 → Prog (Nat × Int) K} (g : I3 → K)
    (hin : Inside lo hi nx ny nz) (hb : 0 < blockSize)
    (hbody : ∀ c ∈ box lo hi, CellFits (· ∈ box lo hi) (fun c l => l = (out, index nx ny c)) h (fun l => g (decode nx ny l.2.toNat)) c
      (fun _ => False) (body c)) :
    ∃ h', yields (boxLaunch lo hi blockSize body) h h' ∧ h'.inb = h.inb ∧
      (∀ c ∈ box lo hi, h'.val (out, index nx ny c) = g c) ∧
      ∀ l, (∀ c ∈ box lo hi, l ≠ (out, index nx ny c)) → h'.val l = h.val l := by
  classical
  refine ⟨{ h with val := fun l => if ∃ c ∈ box lo hi, l = (out, index nx ny c) then g (decode nx ny l.2.toNat) else h.val l }, ?_, rfl, ?_, ?_⟩
  · refine yields_box (touch := fun c l => l = (out, index nx ny c)) (F := fun l => g (decode nx ny l.2.toNat)) hin.1 hb hbody rfl ?_ ?_
    · intro c hc l hl
      exact if_pos ⟨c, hc, hl⟩
    · intro l hl
      exact if_neg fun ⟨c, hc, he⟩ => hl c hc he
  · intro c hc
    simp only
    rw [if_pos ⟨c, hc, rfl⟩, decode_index (hin.mem hc)]
  · intro l hl
    exact if_neg fun ⟨c, hc, he⟩ => hl c hc he

/-- `thrust::reduce` over an area: the sum of its elements (exact arithmetic, so the order does not matter). -/
def reduce [AddCommMonoid K] (h : Heap K) (buf size : Nat) : K := ((List.range size).map fun i : Nat => h.val (buf, (i : Int))).sum

theorem decode_perm_box (nx ny nz : Nat) :
    ((List.range (nx * ny * nz)).map (decode nx ny)).Perm (box ⟨0, 0, 0⟩ ⟨nx, ny, nz⟩) := by
  refine (List.perm_ext_iff_of_nodup ?_ (nodup_box _ _)).2 ?_
  · exact List.Nodup.map (fun i j h => decode_inj h) List.nodup_range
  · intro c
    simp only [List.mem_map, List.mem_range]
    constructor
    · rintro ⟨i, hi, rfl⟩
      have := decode_mem hi
      simp only [inSize_iff] at this
      simp only [mem_box]; omega
    · intro hc
      have hin : inSize ⟨nx, ny, nz⟩ c = true := by
        simp only [mem_box] at hc; simp only [inSize_iff]; omega
      exact ⟨encode nx ny c, encode_lt hin, decode_encode hin⟩

/-- The sum over an area that was zero except in a box. -/
theorem reduce_box [AddCommMonoid K] {h : Heap K} {out nx ny nz : Nat} {lo hi : I3} (g : I3 → K) (hin : Inside lo hi nx ny nz)
    (hg : ∀ c ∈ box lo hi, h.val (out, index nx ny c) = g c)
    (hz : ∀ i : Nat, i < nx * ny * nz → (∀ c ∈ box lo hi, (i : Int) ≠ index nx ny c) → h.val (out, (i : Int)) = 0) :
    reduce h out (nx * ny * nz) = ((box lo hi).map g).sum := by
  classical
  have h1 : ∀ i ∈ List.range (nx * ny * nz), h.val (out, (i : Int)) =
      (fun c => if c ∈ box lo hi then g c else 0) (decode nx ny i) := by
    intro i hi
    have hi := List.mem_range.1 hi
    have hd := decode_mem hi
    have he : index nx ny (decode nx ny i) = i := by rw [index_eq hd, encode_decode]
    simp only
    split
    · rename_i hc
      rw [← hg _ hc, he]
    · rename_i hc
      refine hz i hi fun c hcb hic => hc ?_
      have := index_inj hd (hin.mem hcb) (he.trans hic)
      rw [this]; exact hcb
  unfold reduce
  rw [List.map_congr_left h1, show ((List.range (nx * ny * nz)).map fun a => (fun c => if c ∈ box lo hi then g c else 0) (decode nx ny a)) =
      ((List.range (nx * ny * nz)).map (decode nx ny)).map (fun c => if c ∈ box lo hi then g c else 0) by rw [List.map_map]; rfl,
    ((decode_perm_box nx ny nz).map _).sum_eq,
    ← List.sum_toFinset _ (nodup_box _ _), ← List.sum_toFinset _ (nodup_box _ _), ← Finset.sum_filter]
  refine Finset.sum_congr ?_ fun _ _ => rfl
  ext c
  simp only [Finset.mem_filter, List.mem_toFinset, and_iff_right_iff_imp]
  intro hc
  have := hin.mem hc
  simp only [inSize_iff] at this
  simp only [mem_box]; omega

end Verif.CudaMemory
