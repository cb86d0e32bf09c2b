import Verif.CudaTotalVariation
import Verif.Props.TotalVariation

/-!
C70: total variation on the graphics card.
-/

namespace Verif.Props.CudaMemory
open Verif Gpu CudaMemory

/-- The launch fills the buffer `out` whatever the interleaving of the threads, changes nothing else, and the sum over the buffer is the
result `r` of the processor. -/
def SameSumAsProcessor (h : Heap ℝ) (m : Area) (out : Nat) (k : Res (Launch (Nat × Int) ℝ)) (r : Res ℝ) : Prop :=
  ∃ l h', k = .ok l ∧ yields l h h' ∧ (∀ q : Nat × Int, q.1 ≠ out → h'.val q = h.val q) ∧ r = .ok (reduce h' out (m.nx * m.ny * m.nz))

/-- C70 (total variation), in two dimensions: for all contents, exponents and bounds inside the area, the card computes the number of
the processor. Missing for the full property: one dimension, where the kernel reads outside the area
(`C70_total_variation_fails_in_one_dimension`).  The bounds are not empty (the code converts a negative number of cells to
`size_t`, which is not modelled). -/
theorem C70_total_variation_partial (h : Heap ℝ) (m : Area) (out p : Nat) (start stop : I3) (hm : Allocated h m)
    (hz : ZeroBuffer h m out) (h2 : 1 < m.ny) (h3 : m.nz = 1) (hs : 0 ≤ start.x ∧ 0 ≤ start.y ∧ start.z = 0)
    (he : stop.x ≤ m.nx ∧ stop.y ≤ m.ny ∧ stop.z = 1) (_hse : start.x < stop.x ∧ start.y < stop.y) :
    SameSumAsProcessor h m out (totalVariation m out p start stop) ((toHost h m).totalVariation p start stop) := by
  have hnz : ¬ 1 < m.nz := by omega
  have hlo : start + ⟨1, if 1 < m.ny then 1 else 0, if 1 < m.nz then 1 else 0⟩ = ⟨start.x + 1, start.y + 1, 0⟩ := by
    simp [h2, hnz, I3.ext_iff, hs.2.2]
  have hin : Inside ⟨start.x + 1, start.y + 1, 0⟩ stop m.nx m.ny m.nz := by
    simp only [Inside]; omega
  let g (c : I3) : ℝ := Real.sqrt ((h.val (m.buf, index m.nx m.ny c) - h.val (m.buf, index m.nx m.ny ⟨c.x - 1, c.y, c.z⟩)) ^ 2 +
    (h.val (m.buf, index m.nx m.ny c) - h.val (m.buf, index m.nx m.ny ⟨c.x, c.y - 1, c.z⟩)) ^ 2) ^ p
  have hnb : ∀ c ∈ box ⟨start.x + 1, start.y + 1, 0⟩ stop, inSize ⟨m.nx, m.ny, m.nz⟩ c = true ∧
      inSize ⟨m.nx, m.ny, m.nz⟩ ⟨c.x - 1, c.y, c.z⟩ = true ∧ inSize ⟨m.nx, m.ny, m.nz⟩ ⟨c.x, c.y - 1, c.z⟩ = true := by
    intro c hc
    simp only [mem_box] at hc
    simp only [inSize_iff]; omega
  obtain ⟨h', k1, _, k3, k4⟩ := cellwise (h := h) (out := out) (nx := m.nx) (ny := m.ny) (nz := m.nz) (blockSize := 1024)
    (lo := ⟨start.x + 1, start.y + 1, 0⟩) (hi := stop) (body := tvBody out m.buf m.nx m.ny p) g hin (by norm_num) (by
      intro c hc
      obtain ⟨a1, a2, a3⟩ := hnb c hc
      unfold tvBody
      simp only [show 0 < m.ny by omega, if_true]
      exact .readOld (hm.cell a1) id (other hz.1 _ _ _ _) (.readOld (hm.cell a2) id (other hz.1 _ _ _ _)
        (.readOld (hm.cell a1) id (other hz.1 _ _ _ _) (.readOld (hm.cell a3) id (other hz.1 _ _ _ _)
        (.write (hz.cell a1) rfl (by simp only [decode_index a1, g]) (.done fun l hl => Or.inr hl))))))
  refine ⟨_, h', ?_, k1, ?_, ?_⟩
  · simp only [totalVariation, hnz, if_false]
    rw [← hlo]; simp [hnz]
  · intro q hq
    exact k4 q fun c _ he => hq (by rw [he])
  · rw [reduce_box g hin k3 (by
      intro i hi hne
      rw [k4 _ fun c hc he => hne c hc (congrArg Prod.snd he)]
      exact (hz.2 i hi).2)]
    simp only [Mem.totalVariation, show (toHost h m).nz = m.nz from rfl, show (toHost h m).ny = m.ny from rfl, hnz, h2, if_true, if_false]
    rw [foldlM_sum _ _ g _ (by
      intro c hc
      obtain ⟨a1, a2, a3⟩ := hnb c hc
      have e1 := toHost_cell (h := h) a1
      have e2 := toHost_cell (h := h) a2
      have e3 := toHost_cell (h := h) a3
      simp only [inSize_iff] at a1 a2 a3
      unfold Mem.tvTerm
      simp only [show (toHost h m).ny = m.ny from rfl, show (toHost h m).nx = m.nx from rfl, h2, if_true]
      have r1 := Mem.rdInt_cell (m := toHost h m) (x := c.x) (y := c.y) (z := c.z) ⟨a1.1, a1.2.1⟩ ⟨a1.2.2.1, a1.2.2.2.1⟩ a1.2.2.2.2
      have r2 := Mem.rdInt_cell (m := toHost h m) (x := c.x - 1) (y := c.y) (z := c.z) ⟨a2.1, a2.2.1⟩ ⟨a2.2.2.1, a2.2.2.2.1⟩ a2.2.2.2.2
      have r3 := Mem.rdInt_cell (m := toHost h m) (x := c.x) (y := c.y - 1) (z := c.z) ⟨a3.1, a3.2.1⟩ ⟨a3.2.2.1, a3.2.2.2.1⟩ a3.2.2.2.2
      simp only [show (toHost h m).ny = m.ny from rfl, show (toHost h m).nx = m.nx from rfl] at r1 r2 r3
      rw [r1, r2, r3, e1, e2, e3]
      simp only [Res.ok_bind, Res.pure_eq, g]
      rw [add_comm])]
    simp

/-- C70 (total variation along one direction), in one and two dimensions, for directions the processor accepts. Missing: three
dimensions, which the card refuses (`C70_direction_refused_in_three_dimensions`). -/
theorem C70_total_variation_direction_partial (h : Heap ℝ) (m : Area) (out d p : Nat) (start stop : I3) (hm : Allocated h m)
    (hz : ZeroBuffer h m out) (h3 : m.nz = 1) (hd : d ≤ 1 + if 1 < m.ny then 1 else 0)
    (hs : 0 ≤ start.x ∧ 0 ≤ start.y ∧ 0 ≤ start.z) (he : stop.x ≤ m.nx ∧ stop.y ≤ m.ny ∧ stop.z ≤ m.nz)
    (_hse : start.x + (I3.dir d).x ≤ stop.x ∧ start.y + (I3.dir d).y ≤ stop.y ∧ start.z + (I3.dir d).z ≤ stop.z) :
    SameSumAsProcessor h m out (totalVariationDir m out d p start stop) ((toHost h m).totalVariationDir d p start stop) := by
  have hnz : ¬ 1 < m.nz := by omega
  have hin : Inside (start + I3.dir d) stop m.nx m.ny m.nz := by
    simp only [Inside, I3.add_x, I3.add_y, I3.add_z, I3.dir]
    split_ifs <;> omega
  let g (c : I3) : ℝ := |h.val (m.buf, index m.nx m.ny c) - h.val (m.buf, index m.nx m.ny (c - I3.dir d))| ^ p
  have hnb : ∀ c ∈ box (start + I3.dir d) stop, inSize ⟨m.nx, m.ny, m.nz⟩ c = true ∧
      inSize ⟨m.nx, m.ny, m.nz⟩ (c - I3.dir d) = true := by
    intro c hc
    simp only [mem_box, I3.add_x, I3.add_y, I3.add_z, I3.dir] at hc
    simp only [inSize_iff, I3.sub_x, I3.sub_y, I3.sub_z, I3.dir]
    split_ifs at hc ⊢ <;> omega
  obtain ⟨h', k1, _, k3, k4⟩ := cellwise (h := h) (out := out) (nx := m.nx) (ny := m.ny) (nz := m.nz) (blockSize := 1024)
    (lo := start + I3.dir d) (hi := stop) (body := tvDirBody out m.buf m.nx m.ny d p) g hin (by norm_num) (by
      intro c hc
      obtain ⟨a1, a2⟩ := hnb c hc
      unfold tvDirBody
      exact .readOld (hm.cell a1) id (other hz.1 _ _ _ _) (.readOld (hm.cell a2) id (other hz.1 _ _ _ _)
        (.write (hz.cell a1) rfl (by simp only [decode_index a1, g]) (.done fun l hl => Or.inr hl))))
  refine ⟨_, h', ?_, k1, ?_, ?_⟩
  · simp only [totalVariationDir, hnz, if_false]
  · intro q hq
    exact k4 q fun c _ he => hq (by rw [he])
  · rw [reduce_box g hin k3 (by
      intro i hi hne
      rw [k4 _ fun c hc he => hne c hc (congrArg Prod.snd he)]
      exact (hz.2 i hi).2)]
    have hok : ¬ (d > 1 + (if 1 < m.ny then 1 else 0) + (if 1 < m.nz then 1 else 0)) := by simp only [hnz, if_false]; omega
    simp only [Mem.totalVariationDir, show (toHost h m).nz = m.nz from rfl, show (toHost h m).ny = m.ny from rfl, hok, if_false]
    rw [foldlM_sum _ _ g _ (by
      intro c hc
      obtain ⟨a1, a2⟩ := hnb c hc
      have e1 := toHost_cell (h := h) a1
      have e2 := toHost_cell (h := h) a2
      simp only [inSize_iff] at a1 a2
      rw [Mem.viewAt_cell (m := toHost h m) ⟨a1.1, a1.2.1⟩ ⟨a1.2.2.1, a1.2.2.2.1⟩ a1.2.2.2.2,
        Mem.viewAt_cell (m := toHost h m) ⟨a2.1, a2.2.1⟩ ⟨a2.2.2.1, a2.2.2.2.1⟩ a2.2.2.2.2, e1, e2]
      simp only [Res.ok_bind, Res.pure_eq, g])]
    simp

/-- Violation of C70: in one dimension with two or more cells the kernel reads at a negative index, so an execution leaves the memory
and the launch has no result; the processor computes the total variation (`C06_total_variation`). -/
theorem C70_total_variation_fails_in_one_dimension (h : Heap ℝ) (m : Area) (out p : Nat) (hm : Allocated h m) (h1 : m.ny = 1)
    (h3 : m.nz = 1) (h2 : 2 ≤ m.nx) :
    ∃ l, totalVariation m out p ⟨0, 0, 0⟩ ⟨m.nx, 1, 1⟩ = .ok l ∧
      (∃ schedule : List Nat, (∀ i ∈ schedule, i < l.threads) ∧ Machine.run schedule ⟨h, l.kernel⟩ = .error .ub) ∧
      ∀ h', ¬ yields l h h' := by
  have b1 : h.inb (m.buf, index m.nx m.ny ⟨1, 0, 0⟩) = true := hm.cell (by simp only [inSize_iff]; omega)
  have b2 : h.inb (m.buf, index m.nx m.ny ⟨0, 0, 0⟩) = true := hm.cell (by simp only [inSize_iff]; omega)
  have b3 : h.inb (m.buf, index m.nx m.ny ⟨1, -1, 0⟩) = false := by
    rw [hm.2]
    have : index m.nx m.ny ⟨1, -1, 0⟩ = 1 - m.nx := by simp only [index]; ring
    rw [this]
    exact decide_eq_false (by omega)
  have hbad : Leaves h (tvBody out m.buf m.nx m.ny p ⟨1, 0, 0⟩) := by
    unfold tvBody
    simp only [show 0 < m.ny by omega, if_true]
    exact .read b1 (.read b2 (.read b1 (.readBad b3)))
  refine ⟨boxLaunch ⟨1, 0, 0⟩ ⟨m.nx, 1, 1⟩ 1024 (tvBody out m.buf m.nx m.ny p), ?_, Leaves.box (by norm_num) (by norm_num) (by
    simp only [mem_box]; omega) hbad⟩
  simp only [totalVariation, h3, h1]
  rfl

/-- Violation of C70: the variation along one direction is refused in three dimensions, where the processor computes it. -/
theorem C70_direction_refused_in_three_dimensions (h : Heap ℝ) (m : Area) (out d p : Nat) (h2 : 1 < m.ny) (h3 : 1 < m.nz) (hd : d < 3) :
    totalVariationDir m out d p ⟨0, 0, 0⟩ ⟨m.nx, m.ny, m.nz⟩ = .error .thrown ∧
      ∃ v, (toHost h m).totalVariationDir d p ⟨0, 0, 0⟩ ⟨m.nx, m.ny, m.nz⟩ = .ok v := by
  refine ⟨by simp [totalVariationDir, h3], ?_⟩
  obtain ⟨v, hv, _⟩ := Verif.Props.C06_total_variation_direction (toHost h m) d p ⟨0, 0, 0⟩ ⟨m.nx, m.ny, m.nz⟩
    (by simp only [toHost, h2, h3, if_true]; omega) (by simp) (by simp [toHost])
  exact ⟨v, hv⟩

/-- A device with an area of `4 × 3 × 1` cells holding 0, 1, 2, … and a buffer of zeros. -/
def sampleHeap : Heap ℝ := ⟨fun l => decide ((l.1 = 0 ∨ l.1 = 1) ∧ 0 ≤ l.2 ∧ l.2 < 12), fun l => if l.1 = 0 then (l.2 : ℝ) else 0⟩

example := C70_total_variation_partial sampleHeap ⟨false, 0, 4, 3, 1⟩ 1 2 ⟨0, 0, 0⟩ ⟨4, 3, 1⟩
  ⟨rfl, by intro i; simp [sampleHeap, Area.size]⟩ ⟨by simp, by intro i hi; simp at hi; simp [sampleHeap]; omega⟩ (by simp) rfl
  (by simp) (by simp) (by simp)

example := C70_total_variation_direction_partial sampleHeap ⟨false, 0, 4, 3, 1⟩ 1 1 2 ⟨0, 0, 0⟩ ⟨4, 3, 1⟩
  ⟨rfl, by intro i; simp [sampleHeap, Area.size]⟩ ⟨by simp, by intro i hi; simp at hi; simp [sampleHeap]; omega⟩ rfl (by simp)
  (by simp) (by simp) (by simp [I3.dir])

example := C70_total_variation_fails_in_one_dimension sampleHeap ⟨false, 0, 12, 1, 1⟩ 1 2
  ⟨rfl, by intro i; simp [sampleHeap, Area.size]⟩ rfl rfl (by simp)

end Verif.Props.CudaMemory
