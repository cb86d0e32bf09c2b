import Verif.TotalVariation

/-!
Property theorems C06 (total variation).
-/

namespace Verif.Props
open Verif Finset

/-- The isotropic increment of cell `(x,y)`: Euclidean norm of the differences to the left and to the lower neighbour; in one
dimension only the left neighbour counts. -/
noncomputable def increment (m : Mem ℝ) (x y : Int) : ℝ :=
  if 1 < m.ny then Real.sqrt ((m.cell x y 0 - m.cell x (y - 1) 0) ^ 2 + (m.cell x y 0 - m.cell (x - 1) y 0) ^ 2)
  else |m.cell x y 0 - m.cell (x - 1) y 0|

/-- C06. For one- and two-dimensional areas and bounds inside the area, the total variation never reads out of bounds, is the sum
over the visited cells of the `p`-th power of the isotropic increment, is non-negative, and for `p ≥ 1` vanishes exactly when each
visited cell equals its left (and in two dimensions lower) neighbour. Three-dimensional areas are refused. -/
theorem C06_total_variation (m : Mem ℝ) (p : Nat) (start stop : I3) :
    (m.nz = 1 → 0 ≤ start.x → 0 ≤ start.y → 0 < m.ny → stop.x ≤ m.nx → stop.y ≤ m.ny → stop.z = 1 →
      ∃ bv, m.totalVariation p start stop = .ok bv ∧
        bv = ∑ y ∈ Ico (start.y + if 1 < m.ny then 1 else 0) stop.y, ∑ x ∈ Ico (start.x + 1) stop.x, increment m x y ^ p ∧
        0 ≤ bv ∧
        (1 ≤ p → (bv = 0 ↔ ∀ x y, start.x + 1 ≤ x → x < stop.x → (start.y + if 1 < m.ny then 1 else 0) ≤ y → y < stop.y →
          m.cell x y 0 = m.cell (x - 1) y 0 ∧ (1 < m.ny → m.cell x y 0 = m.cell x (y - 1) 0)))) ∧
    (1 < m.nz → m.totalVariation p start stop = .error .thrown) := by
  constructor
  · intro hz hsx hsy hny hex hey hez
    have hnz : ¬ 1 < m.nz := by omega
    have hinc : ∀ x y, 0 ≤ increment m x y := by
      intro x y; unfold increment; split
      · exact Real.sqrt_nonneg _
      · exact abs_nonneg _
    have hterm : ∀ c ∈ box ⟨start.x + 1, start.y + if 1 < m.ny then 1 else 0, 0⟩ stop,
        m.tvTerm p c = .ok (increment m c.x c.y ^ p) := by
      intro c hc
      simp only [mem_box] at hc
      obtain ⟨hx, hy, hcz⟩ := hc
      have hc0 : c.z = 0 := by omega
      unfold Mem.tvTerm increment
      by_cases h1 : 1 < m.ny
      · simp only [h1, if_true] at hy ⊢
        rw [Mem.rdInt_cell (by omega) (by omega) (by omega), Mem.rdInt_cell (by omega) (by omega) (by omega),
          Mem.rdInt_cell (by omega) (by omega) (by omega)]
        simp [hc0]
      · simp only [h1, if_false] at hy ⊢
        have hy0 : c.y = 0 := by omega
        rw [Mem.rdInt_cell (by omega) (by omega) (by omega), Mem.rdInt_cell (by omega) (by omega) (by omega),
          Mem.rdInt_cell (by omega) (by omega) (by omega)]
        simp [hc0, hy0, Real.sqrt_sq_eq_abs]
    refine ⟨_, ?_, rfl, ?_, ?_⟩
    · simp only [Mem.totalVariation, hnz, if_false]
      rw [foldlM_sum _ _ _ _ hterm, sum_box]
      simp [hez]
    · exact Finset.sum_nonneg fun y _ => Finset.sum_nonneg fun x _ => pow_nonneg (hinc x y) p
    · intro hp
      rw [Finset.sum_eq_zero_iff_of_nonneg fun y _ => Finset.sum_nonneg fun x _ => pow_nonneg (hinc x y) p]
      have hinc0 : ∀ x y, increment m x y ^ p = 0 ↔
          m.cell x y 0 = m.cell (x - 1) y 0 ∧ (1 < m.ny → m.cell x y 0 = m.cell x (y - 1) 0) := by
        intro x y
        rw [pow_eq_zero_iff (by omega)]
        unfold increment
        split
        · rename_i h1
          rw [Real.sqrt_eq_zero (by positivity)]
          constructor
          · intro h
            have h2 := sq_nonneg (m.cell x y 0 - m.cell x (y - 1) 0)
            have h3 := sq_nonneg (m.cell x y 0 - m.cell (x - 1) y 0)
            have h4 : (m.cell x y 0 - m.cell x (y - 1) 0) ^ 2 = 0 := by linarith
            have h5 : (m.cell x y 0 - m.cell (x - 1) y 0) ^ 2 = 0 := by linarith
            exact ⟨sub_eq_zero.1 (pow_eq_zero_iff (by norm_num) |>.1 h5), fun _ => sub_eq_zero.1 (pow_eq_zero_iff (by norm_num) |>.1 h4)⟩
          · rintro ⟨h, h'⟩
            rw [← h, ← h' h1]; simp
        · rename_i h1
          simp [h1, sub_eq_zero]
      constructor
      · intro h x y h1 h2 h3 h4
        have := h y (by simp [h3, h4])
        rw [Finset.sum_eq_zero_iff_of_nonneg fun x _ => pow_nonneg (hinc x y) p] at this
        exact (hinc0 x y).1 (this x (by simp [h1, h2]))
      · intro h y hy
        simp only [Finset.mem_Ico] at hy
        refine Finset.sum_eq_zero fun x hx => ?_
        simp only [Finset.mem_Ico] at hx
        exact (hinc0 x y).2 (h x y hx.1 hx.2 hy.1 hy.2)
  · intro h
    simp [Mem.totalVariation, h]

/-- C06, one direction: for bounds inside the area and a direction below the dimension the directional variation never reads out of
bounds and is the sum over the visited cells of `|difference to the previous cell in that direction|^p`; it is non-negative. -/
theorem C06_total_variation_direction (m : Mem ℝ) (d p : Nat) (start stop : I3)
    (hdim : d ≤ 1 + (if 1 < m.ny then 1 else 0) + (if 1 < m.nz then 1 else 0))
    (hs : 0 ≤ start.x ∧ 0 ≤ start.y ∧ 0 ≤ start.z) (he : stop.x ≤ m.nx ∧ stop.y ≤ m.ny ∧ stop.z ≤ m.nz) :
    ∃ bv, m.totalVariationDir d p start stop = .ok bv ∧ 0 ≤ bv ∧
      bv = ∑ z ∈ Ico (start.z + if d = 2 then 1 else 0) stop.z, ∑ y ∈ Ico (start.y + if d = 1 then 1 else 0) stop.y,
        ∑ x ∈ Ico (start.x + if d = 0 then 1 else 0) stop.x,
          |m.cell x y z - m.cell (x - if d = 0 then 1 else 0) (y - if d = 1 then 1 else 0) (z - if d = 2 then 1 else 0)| ^ p := by
  have hterm : ∀ c ∈ box (start + I3.dir d) stop,
      (do
        let a ← m.viewAt c
        let b ← m.viewAt (c - I3.dir d)
        pure (|a - b| ^ p) : Res ℝ) =
      .ok (|m.cell c.x c.y c.z - m.cell (c.x - if d = 0 then 1 else 0) (c.y - if d = 1 then 1 else 0)
        (c.z - if d = 2 then 1 else 0)| ^ p) := by
    intro c hc
    simp only [mem_box, I3.dir, I3.add_x, I3.add_y, I3.add_z] at hc
    rw [Mem.viewAt_cell, Mem.viewAt_cell]
    · simp [I3.dir]
    all_goals try simp only [I3.dir, I3.sub_x, I3.sub_y, I3.sub_z]
    all_goals (split_ifs at hc ⊢ <;> omega)
  refine ⟨_, ?_, ?_, rfl⟩
  · have hnot : ¬ (d > 1 + (if 1 < m.ny then 1 else 0) + (if 1 < m.nz then 1 else 0)) := by omega
    simp only [Mem.totalVariationDir, hnot, if_false]
    rw [foldlM_sum _ _ _ _ hterm, sum_box]
    simp [I3.dir]
  · exact Finset.sum_nonneg fun z _ => Finset.sum_nonneg fun y _ => Finset.sum_nonneg fun x _ => pow_nonneg (abs_nonneg _) p

example : ∃ bv, (⟨4, 3, 1, fun i => (i : ℝ)⟩ : Mem ℝ).totalVariation 1 ⟨0, 0, 0⟩ ⟨4, 3, 1⟩ = .ok bv ∧ 0 ≤ bv := by
  obtain ⟨bv, h, _, h2, _⟩ := (C06_total_variation ⟨4, 3, 1, fun i => (i : ℝ)⟩ 1 ⟨0, 0, 0⟩ ⟨4, 3, 1⟩).1 rfl
    (by decide) (by decide) (by decide) (by decide) (by decide) rfl
  exact ⟨bv, h, h2⟩
example : ∃ bv, (⟨4, 3, 2, fun i => (i : ℝ)⟩ : Mem ℝ).totalVariationDir 2 1 ⟨0, 0, 0⟩ ⟨4, 3, 2⟩ = .ok bv ∧ 0 ≤ bv := by
  obtain ⟨bv, h, h2, _⟩ := C06_total_variation_direction ⟨4, 3, 2, fun i => (i : ℝ)⟩ 2 1 ⟨0, 0, 0⟩ ⟨4, 3, 2⟩
    (by decide) (by decide) (by decide)
  exact ⟨bv, h, h2⟩

end Verif.Props
