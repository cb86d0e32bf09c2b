import Verif.ScalarRun

/-!
Bounds for the fluxes of the Buckley-Leverett equation (C80, C81), for states on one side of the inflection point one half.
-/

namespace Verif.ScalarRun
open Verif Flux

/-- The derivative of the flux of Buckley-Leverett. -/
noncomputable def slope (u : ℝ) : ℝ := 2 * (u * (1 - u)) / (1 - 2 * (u * (1 - u))) ^ 2

theorem buckley_flux (u : ℝ) : buckleyLeverett.flux u = u * u / (1 - 2 * (u * (1 - u))) := by
  simp only [buckleyLeverett]; congr 1; ring

theorem buckley_eig (u : ℝ) : buckleyLeverett.eig u = slope u := by
  simp only [buckleyLeverett, slope]
  congr 1 <;> ring

theorem half_le (u : ℝ) : 1 / 2 ≤ 1 - 2 * (u * (1 - u)) := by nlinarith [sq_nonneg (2 * u - 1)]

theorem slope_nonneg {u : ℝ} (h0 : 0 ≤ u) (h1 : u ≤ 1) : 0 ≤ slope u :=
  div_nonneg (mul_nonneg (by norm_num) (mul_nonneg h0 (by linarith))) (sq_nonneg _)

theorem buckley_speed {u : ℝ} (h0 : 0 ≤ u) (h1 : u ≤ 1) : buckleyLeverett.speed u = slope u := by
  have : buckleyLeverett.speed u = |buckleyLeverett.eig u| := by
    simp only [buckleyLeverett, abs_div]
    congr 1
    rw [abs_of_nonneg (mul_self_nonneg _)]
  rw [this, buckley_eig, abs_of_nonneg (slope_nonneg h0 h1)]

theorem slope_le {x y : ℝ} (hx : 0 ≤ x * (1 - x)) (h : x * (1 - x) ≤ y * (1 - y)) : slope x ≤ slope y := by
  have hx2 := half_le x
  have hy2 := half_le y
  rw [slope, slope]
  apply div_le_div₀
  · nlinarith
  · linarith
  · positivity
  · exact pow_le_pow_left₀ (by linarith) (by linarith) 2

/-- Difference of two fluxes. -/
theorem buckley_sub (x y : ℝ) : buckleyLeverett.flux y - buckleyLeverett.flux x =
    (y - x) * ((x + y - 2 * (x * y)) / ((1 - 2 * (x * (1 - x))) * (1 - 2 * (y * (1 - y))))) := by
  have hx := half_le x
  have hy := half_le y
  have hx0 : 1 - 2 * (x * (1 - x)) ≠ 0 := by linarith
  have hy0 : 1 - 2 * (y * (1 - y)) ≠ 0 := by linarith
  rw [buckley_flux, buckley_flux, div_sub_div _ _ hy0 hx0, mul_div_assoc', mul_comm (1 - 2 * (x * (1 - x)))]
  congr 1
  ring

/-- A flux with increasing or decreasing slope. -/
structure Curved (f g : ℝ → ℝ) (m M : ℝ) : Prop where
  nonneg : ∀ x, m ≤ x → x ≤ M → 0 ≤ g x
  between : (∀ x y, m ≤ x → x ≤ y → y ≤ M → g x ≤ g y ∧ g x * (y - x) ≤ f y - f x ∧ f y - f x ≤ g y * (y - x)) ∨
    ∀ x y, m ≤ x → x ≤ y → y ≤ M → g y ≤ g x ∧ g y * (y - x) ≤ f y - f x ∧ f y - f x ≤ g x * (y - x)

theorem buckley_curved {m M : ℝ} (h : (0 ≤ m ∧ M ≤ 1 / 2) ∨ (1 / 2 ≤ m ∧ M ≤ 1)) : Curved buckleyLeverett.flux slope m M where
  nonneg x h1 h2 := slope_nonneg (by rcases h with h | h <;> linarith) (by rcases h with h | h <;> linarith)
  between := by
    -- the mean slope lies between the two slopes
    have lower : ∀ p q s : ℝ, 0 ≤ p → p ≤ q → 0 < 1 - 2 * q → 2 * p ≤ s → 2 * p / (1 - 2 * p) ^ 2 ≤ s / ((1 - 2 * p) * (1 - 2 * q)) := by
      intro p q s h0 h1 h2 h3
      rw [pow_two]
      exact div_le_div₀ (by linarith) h3 (mul_pos (by linarith) h2) (mul_le_mul_of_nonneg_left (by linarith) (by linarith))
    have upper : ∀ p q s : ℝ, 0 ≤ p → p ≤ q → 0 < 1 - 2 * q → s ≤ 2 * q → s / ((1 - 2 * p) * (1 - 2 * q)) ≤ 2 * q / (1 - 2 * q) ^ 2 := by
      intro p q s h0 h1 h2 h3
      rw [pow_two]
      exact div_le_div₀ (by linarith) h3 (mul_pos h2 h2) (mul_le_mul_of_nonneg_right (by linarith) h2.le)
    rcases h with ⟨h0, h1⟩ | ⟨h0, h1⟩
    · refine .inl fun x y hx hxy hy => ?_
      have hq : x * (1 - x) ≤ y * (1 - y) := by nlinarith [mul_nonneg (sub_nonneg.2 hxy) (show 0 ≤ 1 - x - y by linarith)]
      have hp : 0 ≤ x * (1 - x) := mul_nonneg (by linarith) (by linarith)
      have hy2 : 0 < 1 - 2 * (y * (1 - y)) := by have := half_le y; linarith
      refine ⟨slope_le hp hq, ?_, ?_⟩ <;> rw [buckley_sub, mul_comm (slope _)]
      · exact mul_le_mul_of_nonneg_left (lower _ _ _ hp hq hy2 (by nlinarith [mul_nonneg (sub_nonneg.2 hxy) (show 0 ≤ 1 - 2 * x by linarith)])) (by linarith)
      · exact mul_le_mul_of_nonneg_left (upper _ _ _ hp hq hy2 (by nlinarith [mul_nonneg (sub_nonneg.2 hxy) (show 0 ≤ 1 - 2 * y by linarith)])) (by linarith)
    · refine .inr fun x y hx hxy hy => ?_
      have hq : y * (1 - y) ≤ x * (1 - x) := by nlinarith [mul_nonneg (sub_nonneg.2 hxy) (show 0 ≤ x + y - 1 by linarith)]
      have hp : 0 ≤ y * (1 - y) := mul_nonneg (by linarith) (by linarith)
      have hx2 : 0 < 1 - 2 * (x * (1 - x)) := by have := half_le x; linarith
      refine ⟨slope_le hp hq, ?_, ?_⟩ <;> rw [buckley_sub, mul_comm (slope _), mul_comm (1 - 2 * (x * (1 - x)))]
      · exact mul_le_mul_of_nonneg_left (lower _ _ _ hp hq hx2 (by nlinarith [mul_nonneg (sub_nonneg.2 hxy) (show 0 ≤ 2 * y - 1 by linarith)])) (by linarith)
      · exact mul_le_mul_of_nonneg_left (upper _ _ _ hp hq hx2 (by nlinarith [mul_nonneg (sub_nonneg.2 hxy) (show 0 ≤ 2 * x - 1 by linarith)])) (by linarith)

/-- The slope between two states, and bounds for it. -/
theorem Curved.secant {f g : ℝ → ℝ} {m M : ℝ} (h : Curved f g m M) {l r : ℝ} (hl : m ≤ l ∧ l ≤ M) (hr : m ≤ r ∧ r ≤ M) :
    ∃ a, 0 ≤ a ∧ a ≤ max (g l) (g r) ∧ f r - f l = a * (r - l) := by
  have key : ∀ x y, m ≤ x → x < y → y ≤ M → ∃ a, 0 ≤ a ∧ a ≤ max (g x) (g y) ∧ f y - f x = a * (y - x) := by
    intro x y hx hxy hy
    have hd : 0 < y - x := by linarith
    have gx := h.nonneg x hx (by linarith)
    have gy := h.nonneg y (by linarith) hy
    refine ⟨(f y - f x) / (y - x), ?_, ?_, by field_simp⟩
    · rcases h.between with hb | hb <;> obtain ⟨-, h1, h2⟩ := hb x y hx hxy.le hy <;> exact div_nonneg (le_trans (mul_nonneg ‹_› hd.le) h1) hd.le
    · rcases h.between with hb | hb <;> obtain ⟨-, h1, h2⟩ := hb x y hx hxy.le hy <;> rw [div_le_iff₀ hd]
      · exact h2.trans (mul_le_mul_of_nonneg_right (le_max_right _ _) hd.le)
      · exact h2.trans (mul_le_mul_of_nonneg_right (le_max_left _ _) hd.le)
  rcases lt_trichotomy l r with hlt | rfl | hlt
  · exact key l r hl.1 hlt hr.2
  · exact ⟨0, le_rfl, le_max_of_le_left (h.nonneg l hl.1 hl.2), by ring⟩
  · obtain ⟨a, h1, h2, h3⟩ := key r l hr.1 hlt hl.2
    exact ⟨a, h1, by rwa [max_comm], by linarith⟩

theorem curved_rusanov_monotone {f g : ℝ → ℝ} {m M : ℝ} (h : Curved f g m M) (F : ℝ → ℝ → ℝ)
    (hF : ∀ l r, m ≤ l → l ≤ M → m ≤ r → r ≤ M → F l r = (f l + f r) / 2 - max (g l) (g r) * (r - l) / 2) :
    (∀ l l' r, m ≤ l → l ≤ l' → l' ≤ M → m ≤ r → r ≤ M → F l r ≤ F l' r) ∧ ∀ l r r', m ≤ l → l ≤ M → m ≤ r → r ≤ r' → r' ≤ M → F l r' ≤ F l r := by
  rcases h.between with hb | hb
  · constructor
    · have low : ∀ l l' r, m ≤ l → l ≤ l' → l' ≤ r → r ≤ M → F l r ≤ F l' r := fun l l' r h1 h2 h3 h4 => by
        rw [hF l r h1 (by linarith) (by linarith) h4, hF l' r (by linarith) (by linarith) (by linarith) h4, max_eq_right (hb l r h1 (by linarith) h4).1, max_eq_right (hb l' r (by linarith) h3 h4).1]
        have a := (hb l l' h1 h2 (by linarith)).2.1
        nlinarith [mul_nonneg (h.nonneg l h1 (by linarith)) (sub_nonneg.2 h2), mul_nonneg (h.nonneg r (by linarith) h4) (sub_nonneg.2 h2)]
      have high : ∀ l l' r, m ≤ r → r ≤ l → l ≤ l' → l' ≤ M → F l r ≤ F l' r := fun l l' r h1 h2 h3 h4 => by
        rw [hF l r (by linarith) (by linarith) h1 (by linarith), hF l' r (by linarith) h4 h1 (by linarith), max_eq_left (hb r l h1 h2 (by linarith)).1, max_eq_left (hb r l' h1 (by linarith) h4).1]
        obtain ⟨a, b, -⟩ := hb l l' (by linarith) h3 h4
        nlinarith [mul_nonneg (h.nonneg l (by linarith) (by linarith)) (sub_nonneg.2 h3), mul_nonneg (h.nonneg l' (by linarith) h4) (sub_nonneg.2 h3), mul_nonneg (sub_nonneg.2 a) (sub_nonneg.2 h2)]
      intro l l' r h1 h2 h3 h4 h5
      rcases le_total l' r with c | c
      · exact low l l' r h1 h2 c h5
      · rcases le_total l r with c' | c'
        · exact (low l r r h1 c' le_rfl h5).trans (high r l' r h4 le_rfl c h3)
        · exact high l l' r h4 c' h2 h3
    · have high : ∀ l r r', m ≤ l → l ≤ r → r ≤ r' → r' ≤ M → F l r' ≤ F l r := fun l r r' h1 h2 h3 h4 => by
        rw [hF l r h1 (by linarith) (by linarith) (by linarith), hF l r' h1 (by linarith) (by linarith) h4, max_eq_right (hb l r h1 h2 (by linarith)).1, max_eq_right (hb l r' h1 (by linarith) h4).1]
        obtain ⟨a, -, b⟩ := hb r r' (by linarith) h3 h4
        nlinarith [mul_nonneg (sub_nonneg.2 a) (sub_nonneg.2 h2)]
      have low : ∀ l r r', m ≤ r → r ≤ r' → r' ≤ l → l ≤ M → F l r' ≤ F l r := fun l r r' h1 h2 h3 h4 => by
        rw [hF l r (by linarith) h4 h1 (by linarith), hF l r' (by linarith) h4 (by linarith) (by linarith), max_eq_left (hb r l h1 (by linarith) h4).1, max_eq_left (hb r' l (by linarith) h3 h4).1]
        obtain ⟨-, -, b⟩ := hb r r' h1 h2 (by linarith)
        have a := (hb r' l (by linarith) h3 h4).1
        nlinarith [mul_nonneg (sub_nonneg.2 a) (sub_nonneg.2 h2)]
      intro l r r' h1 h2 h3 h4 h5
      rcases le_total r' l with c | c
      · exact low l r r' h3 h4 c h2
      · rcases le_total r l with c' | c'
        · exact (high l l r' h1 le_rfl c h5).trans (low l r l h3 c' le_rfl h2)
        · exact high l r r' h1 c' h4 h5
  · constructor
    · have low : ∀ l l' r, m ≤ l → l ≤ l' → l' ≤ r → r ≤ M → F l r ≤ F l' r := fun l l' r h1 h2 h3 h4 => by
        rw [hF l r h1 (by linarith) (by linarith) h4, hF l' r (by linarith) (by linarith) (by linarith) h4, max_eq_left (hb l r h1 (by linarith) h4).1, max_eq_left (hb l' r (by linarith) h3 h4).1]
        obtain ⟨a, b, -⟩ := hb l l' h1 h2 (by linarith)
        nlinarith [mul_nonneg (h.nonneg l h1 (by linarith)) (sub_nonneg.2 h2), mul_nonneg (h.nonneg l' (by linarith) (by linarith)) (sub_nonneg.2 h2), mul_nonneg (sub_nonneg.2 a) (sub_nonneg.2 h3)]
      have high : ∀ l l' r, m ≤ r → r ≤ l → l ≤ l' → l' ≤ M → F l r ≤ F l' r := fun l l' r h1 h2 h3 h4 => by
        rw [hF l r (by linarith) (by linarith) h1 (by linarith), hF l' r (by linarith) h4 h1 (by linarith), max_eq_right (hb r l h1 h2 (by linarith)).1, max_eq_right (hb r l' h1 (by linarith) h4).1]
        obtain ⟨-, b, -⟩ := hb l l' (by linarith) h3 h4
        nlinarith [mul_nonneg (h.nonneg l' (by linarith) h4) (sub_nonneg.2 h3), mul_nonneg (h.nonneg r h1 (by linarith)) (sub_nonneg.2 h3)]
      intro l l' r h1 h2 h3 h4 h5
      rcases le_total l' r with c | c
      · exact low l l' r h1 h2 c h5
      · rcases le_total l r with c' | c'
        · exact (low l r r h1 c' le_rfl h5).trans (high r l' r h4 le_rfl c h3)
        · exact high l l' r h4 c' h2 h3
    · have high : ∀ l r r', m ≤ l → l ≤ r → r ≤ r' → r' ≤ M → F l r' ≤ F l r := fun l r r' h1 h2 h3 h4 => by
        rw [hF l r h1 (by linarith) (by linarith) (by linarith), hF l r' h1 (by linarith) (by linarith) h4, max_eq_left (hb l r h1 h2 (by linarith)).1, max_eq_left (hb l r' h1 (by linarith) h4).1]
        obtain ⟨-, -, b⟩ := hb r r' (by linarith) h3 h4
        have a := (hb l r h1 h2 (by linarith)).1
        nlinarith [mul_nonneg (sub_nonneg.2 a) (sub_nonneg.2 h3)]
      have low : ∀ l r r', m ≤ r → r ≤ r' → r' ≤ l → l ≤ M → F l r' ≤ F l r := fun l r r' h1 h2 h3 h4 => by
        rw [hF l r (by linarith) h4 h1 (by linarith), hF l r' (by linarith) h4 (by linarith) (by linarith), max_eq_right (hb r l h1 (by linarith) h4).1, max_eq_right (hb r' l (by linarith) h3 h4).1]
        obtain ⟨a, -, b⟩ := hb r r' h1 h2 (by linarith)
        nlinarith [mul_nonneg (sub_nonneg.2 a) (sub_nonneg.2 h3)]
      intro l r r' h1 h2 h3 h4 h5
      rcases le_total r' l with c | c
      · exact low l r r' h3 h4 c h2
      · rcases le_total r l with c' | c'
        · exact (high l l r' h1 le_rfl c h5).trans (low l r l h3 c' le_rfl h2)
        · exact high l r r' h1 c' h4 h5

theorem rusanov_buckley_eq {l r : ℝ} (hl : 0 ≤ l ∧ l ≤ 1) (hr : 0 ≤ r ∧ r ≤ 1) :
    (rusanov buckleyLeverett l r).1 = (buckleyLeverett.flux l + buckleyLeverett.flux r) / 2 - max (slope l) (slope r) * (r - l) / 2 := by
  have e : (rusanov buckleyLeverett l r).1 = 0.5 * (buckleyLeverett.flux l + buckleyLeverett.flux r) - 0.5 * max |buckleyLeverett.eig l| |buckleyLeverett.eig r| * (r - l) := rfl
  rw [e, buckley_eig, buckley_eig, abs_of_nonneg (slope_nonneg hl.1 hl.2), abs_of_nonneg (slope_nonneg hr.1 hr.2)]
  ring

theorem buckley_quasi {m M : ℝ} (h : (0 ≤ m ∧ M ≤ 1 / 2) ∨ (1 / 2 ≤ m ∧ M ≤ 1)) (a x c : ℝ) (h1 : m ≤ a) (h2 : a ≤ x) (h3 : x ≤ c) (h4 : c ≤ M) :
    buckleyLeverett.speed x ≤ max (buckleyLeverett.speed a) (buckleyLeverett.speed c) := by
  have hm : 0 ≤ m ∧ M ≤ 1 := by rcases h with h | h <;> constructor <;> linarith
  rw [buckley_speed (by linarith) (by linarith), buckley_speed (by linarith) (by linarith), buckley_speed (by linarith) (by linarith)]
  rcases (buckley_curved h).between with hb | hb
  · exact le_max_of_le_right (hb x c (by linarith) h3 h4).1
  · exact le_max_of_le_left (hb a x h1 h2 (by linarith)).1

theorem rusanov_buckley {m M : ℝ} (h : (0 ≤ m ∧ M ≤ 1 / 2) ∨ (1 / 2 ≤ m ∧ M ≤ 1)) : Bounding buckleyLeverett.flux buckleyLeverett.speed (rusanov buckleyLeverett) m M where
  incremental l r h1 h2 h3 h4 := by
    have hm : 0 ≤ m ∧ M ≤ 1 := by rcases h with h | h <;> constructor <;> linarith
    obtain ⟨a, a0, a1, a2⟩ := (buckley_curved h).secant ⟨h1, h2⟩ ⟨h3, h4⟩
    have hw : (rusanov buckleyLeverett l r).2 = max (slope l) (slope r) := by
      rw [show (rusanov buckleyLeverett l r).2 = max (buckleyLeverett.speed l) (buckleyLeverett.speed r) from rfl, buckley_speed (by linarith) (by linarith),
        buckley_speed (by linarith) (by linarith)]
    rw [hw, rusanov_buckley_eq ⟨by linarith, by linarith⟩ ⟨by linarith, by linarith⟩]
    refine ⟨(max (slope l) (slope r) - a) / 2, (max (slope l) (slope r) + a) / 2, by linarith, by linarith, by linarith, ?_, ?_⟩
    · rw [show buckleyLeverett.flux r = buckleyLeverett.flux l + a * (r - l) by linarith]; ring
    · rw [show buckleyLeverett.flux l = buckleyLeverett.flux r - a * (r - l) by linarith]; ring
  monotone := by
    have hm : 0 ≤ m ∧ M ≤ 1 := by rcases h with h | h <;> constructor <;> linarith
    obtain ⟨a, b⟩ := curved_rusanov_monotone (buckley_curved h) (fun l r => (rusanov buckleyLeverett l r).1) fun l r h1 h2 h3 h4 =>
      rusanov_buckley_eq ⟨by linarith, by linarith⟩ ⟨by linarith, by linarith⟩
    exact ⟨a, b⟩
  wave _ _ := rfl
  quasi := buckley_quasi h

theorem godunov_buckley_eq {l r : ℝ} (hl : 0 ≤ l) (hr : 0 ≤ r) : (godunov buckleyLeverett l r).1 = buckleyLeverett.flux l := by
  have e : (godunov buckleyLeverett l r).1 = max (buckleyLeverett.flux (max l 0)) (buckleyLeverett.flux (min r 0)) := rfl
  rw [e, max_eq_left hl, min_eq_right hr, show buckleyLeverett.flux 0 = 0 by simp [buckleyLeverett]]
  exact max_eq_left (buckley_nonneg l)

theorem godunov_buckley {m M : ℝ} (h : (0 ≤ m ∧ M ≤ 1 / 2) ∨ (1 / 2 ≤ m ∧ M ≤ 1)) : Bounding buckleyLeverett.flux buckleyLeverett.speed (godunov buckleyLeverett) m M where
  incremental l r h1 h2 h3 h4 := by
    have hm : 0 ≤ m ∧ M ≤ 1 := by rcases h with h | h <;> constructor <;> linarith
    obtain ⟨a, a0, a1, a2⟩ := (buckley_curved h).secant ⟨h1, h2⟩ ⟨h3, h4⟩
    have hw : (godunov buckleyLeverett l r).2 = max (slope l) (slope r) := by
      rw [show (godunov buckleyLeverett l r).2 = max (buckleyLeverett.speed l) (buckleyLeverett.speed r) from rfl, buckley_speed (by linarith) (by linarith),
        buckley_speed (by linarith) (by linarith)]
    rw [hw, godunov_buckley_eq (by linarith) (by linarith)]
    exact ⟨0, a, le_rfl, a0, by linarith, by ring, by linarith⟩
  monotone := by
    have hm : 0 ≤ m ∧ M ≤ 1 := by rcases h with h | h <;> constructor <;> linarith
    constructor
    · intro l l' r h1 h2 h3 h4 h5
      rw [godunov_buckley_eq (by linarith) (by linarith), godunov_buckley_eq (by linarith) (by linarith)]
      exact buckley_le (by linarith) h2 (by linarith)
    · intro l r r' h1 h2 h3 h4 h5
      rw [godunov_buckley_eq (by linarith) (by linarith), godunov_buckley_eq (by linarith) (by linarith)]
  wave _ _ := rfl
  quasi := buckley_quasi h

end Verif.ScalarRun
