import Mathlib.Data.Real.Basic
import Mathlib.Tactic.Linarith
import Mathlib.Tactic.Ring
import Mathlib.Tactic.FieldSimp

/-!
Model of the limited second order reconstructions (MC, MM): the pointwise part. The loop around it is `NetFlux.Recon.perform` with kind
`region`.
-/

namespace Verif
namespace Limiter

/-- alsfvm/include/alsfvm/reconstruction/sign.hpp:19-27. -/
noncomputable def sign (a : ℝ) : ℝ := if a > 0 then 1 else if a = 0 then 0 else -1

/-- alsfvm/include/alsfvm/reconstruction/minmod.hpp:22-28. -/
noncomputable def minmod (a b : ℝ) : ℝ := if sign a = sign b then sign a * min |a| |b| else 0

/-- minmod.hpp:30-36. -/
noncomputable def minmod3 (a b c : ℝ) : ℝ := if sign a = sign b ∧ sign b = sign c then sign a * min |a| (min |b| |c|) else 0

/-- Left and right face value of one variable, alsfvm/include/alsfvm/reconstruction/MM.hpp:37-47. -/
noncomputable def mm (left middle right : ℝ) : ℝ × ℝ :=
  let sigma := minmod (right - middle) (middle - left)
  (middle - sigma / 2, middle + sigma / 2)

/-- Left and right face value of one variable, alsfvm/include/alsfvm/reconstruction/MC.hpp:38-49. -/
noncomputable def mc (left middle right : ℝ) : ℝ × ℝ :=
  let sigma := minmod3 (2 * (right - middle)) ((right - left) / 2) (2 * (middle - left))
  (middle - sigma / 2, middle + sigma / 2)

/-! ### Lemmas -/

theorem sign_pos {a : ℝ} (h : 0 < a) : sign a = 1 := by simp [sign, h]
theorem sign_neg {a : ℝ} (h : a < 0) : sign a = -1 := by simp [sign, h.not_gt, h.ne]
theorem sign_zero : sign 0 = 0 := by simp [sign]

/-- Closed form of minmod. -/
theorem minmod_cases (a b : ℝ) : (0 < a ∧ 0 < b ∧ minmod a b = min a b) ∨ (a < 0 ∧ b < 0 ∧ minmod a b = max a b) ∨ (a * b ≤ 0 ∧ minmod a b = 0) := by
  rcases lt_trichotomy a 0 with ha | ha | ha <;> rcases lt_trichotomy b 0 with hb | hb | hb
  · refine Or.inr (Or.inl ⟨ha, hb, ?_⟩)
    rw [minmod, sign_neg ha, sign_neg hb, if_pos rfl, abs_of_neg ha, abs_of_neg hb, min_neg_neg]; ring
  all_goals first
    | (refine Or.inl ⟨ha, hb, ?_⟩
       rw [minmod, sign_pos ha, sign_pos hb, if_pos rfl, abs_of_pos ha, abs_of_pos hb]; ring)
    | (refine Or.inr (Or.inr ⟨by nlinarith, ?_⟩)
       simp only [minmod]
       split_ifs with h
       · first
           | (subst ha; simp [sign_zero])
           | (subst hb; rw [h]; simp [sign_zero])
           | (exfalso; simp only [sign_pos, sign_neg, ha, hb] at h; norm_num at h)
       · rfl)

/-- Closed form of the three-argument minmod. -/
theorem minmod3_cases (a b c : ℝ) : (0 < a ∧ 0 < b ∧ 0 < c ∧ minmod3 a b c = min a (min b c)) ∨
    (a < 0 ∧ b < 0 ∧ c < 0 ∧ minmod3 a b c = max a (max b c)) ∨ (¬ (0 < a ∧ 0 < b ∧ 0 < c) ∧ ¬ (a < 0 ∧ b < 0 ∧ c < 0) ∧ minmod3 a b c = 0) := by
  by_cases h1 : 0 < a ∧ 0 < b ∧ 0 < c
  · obtain ⟨ha, hb, hc⟩ := h1
    refine Or.inl ⟨ha, hb, hc, ?_⟩
    rw [minmod3, sign_pos ha, sign_pos hb, sign_pos hc, if_pos ⟨rfl, rfl⟩, abs_of_pos ha, abs_of_pos hb, abs_of_pos hc]; ring
  · by_cases h2 : a < 0 ∧ b < 0 ∧ c < 0
    · obtain ⟨ha, hb, hc⟩ := h2
      refine Or.inr (Or.inl ⟨ha, hb, hc, ?_⟩)
      rw [minmod3, sign_neg ha, sign_neg hb, sign_neg hc, if_pos ⟨rfl, rfl⟩, abs_of_neg ha, abs_of_neg hb, abs_of_neg hc, min_neg_neg, min_neg_neg]; ring
    · refine Or.inr (Or.inr ⟨h1, h2, ?_⟩)
      simp only [minmod3]
      split_ifs with h
      · obtain ⟨hab, hbc⟩ := h
        rcases lt_trichotomy a 0 with ha | ha | ha
        · exfalso
          rw [sign_neg ha] at hab
          rcases lt_trichotomy b 0 with hb | hb | hb
          · rw [sign_neg hb] at hbc
            rcases lt_trichotomy c 0 with hc | hc | hc
            · exact h2 ⟨ha, hb, hc⟩
            · rw [hc, sign_zero] at hbc; norm_num at hbc
            · rw [sign_pos hc] at hbc; norm_num at hbc
          · rw [hb, sign_zero] at hab; norm_num at hab
          · rw [sign_pos hb] at hab; norm_num at hab
        · subst ha; simp [sign_zero]
        · exfalso
          rw [sign_pos ha] at hab
          rcases lt_trichotomy b 0 with hb | hb | hb
          · rw [sign_neg hb] at hab; norm_num at hab
          · rw [hb, sign_zero] at hab; norm_num at hab
          · rw [sign_pos hb] at hbc
            rcases lt_trichotomy c 0 with hc | hc | hc
            · rw [sign_neg hc] at hbc; norm_num at hbc
            · rw [hc, sign_zero] at hbc; norm_num at hbc
            · exact h1 ⟨ha, hb, hc⟩
      · rfl

end Limiter
end Verif
