import Verif.Examples
import Mathlib.Analysis.SpecialFunctions.Trigonometric.Bounds
import Mathlib.Analysis.Complex.ExponentialBounds
import Mathlib.Analysis.Real.Pi.Bounds
import Mathlib.NumberTheory.Harmonic.Bounds
import Mathlib.Tactic.Linarith
import Mathlib.Tactic.Positivity
import Mathlib.Tactic.NormNum
import Mathlib.Tactic.FieldSimp
import Mathlib.Tactic.Ring

/-! Helper lemmas about the initial data of the examples. -/

namespace Verif.Examples
open Verif Real

theorem mapM_ok {α β : Type} (f : α → Res β) (g : α → β) : ∀ l : List α, (∀ i ∈ l, f i = .ok (g i)) → l.mapM f = .ok (l.map g)
  | [], _ => rfl
  | i :: l, h => by
    rw [List.mapM_cons, h i (by simp), mapM_ok f g l fun j hj => h j (by simp [hj])]; rfl

theorem mapM_error {α β : Type} (f : α → Res β) : ∀ l : List α, (∀ i ∈ l, (∃ y, f i = .ok y) ∨ f i = .error .thrown) → (∃ i ∈ l, f i = .error .thrown) →
    l.mapM f = .error .thrown
  | [], _, h => by obtain ⟨i, hi, _⟩ := h; simp at hi
  | i :: l, h, hx => by
    rw [List.mapM_cons]
    rcases h i (by simp) with ⟨y, hy⟩ | hy
    · rw [hy]
      obtain ⟨j, hj, hje⟩ := hx
      rcases List.mem_cons.mp hj with rfl | hj
      · rw [hy] at hje; cases hje
      · have := mapM_error f l (fun j hj => h j (by simp [hj])) ⟨j, hj, hje⟩
        show (l.mapM f >>= _) = _
        rw [this]; rfl
    · rw [hy]; rfl

theorem item_ok (a : List ℝ) (i : Nat) (h : i < a.length) : item a i = .ok (a.getD i 0) := by
  simp [item, h]

theorem item_thrown (a : List ℝ) (i : Nat) (h : a.length ≤ i) : item a i = .error .thrown := by
  simp [item, h]

theorem item_cases (a : List ℝ) (i : Nat) : (∃ y, item a i = .ok y) ∨ item a i = .error .thrown := by
  rcases Nat.lt_or_ge i a.length with h | h
  · exact .inl ⟨_, item_ok a i h⟩
  · exact .inr (item_thrown a i h)

/-- The sum of waves. -/
noncomputable def waveSum (a b : List ℝ) (x : ℝ) : ℝ :=
  ((List.range a.length).map fun i => a.getD i 0 * cos (2 * π * ((i : ℝ) + 1) * (x + b.getD i 0))).sum

theorem waves_ok (a b : List ℝ) (x : ℝ) (h : a.length ≤ b.length) : waves a b x = .ok (waveSum a b x) := by
  unfold waves
  rw [mapM_ok _ (fun i => a.getD i 0 * cos (2 * π * ((i : ℝ) + 1) * (x + b.getD i 0)))]
  · rfl
  · intro i hi
    have hi := List.mem_range.mp hi
    rw [item_ok a i hi, item_ok b i (by omega)]; rfl

theorem abs_sum_le (f g : Nat → ℝ) : ∀ l : List Nat, (∀ i ∈ l, |f i| ≤ g i) → |(l.map f).sum| ≤ (l.map g).sum
  | [], _ => by simp
  | i :: l, h => by
    simp only [List.map_cons, List.sum_cons]
    exact (abs_add_le _ _).trans (add_le_add (h i (by simp)) (abs_sum_le f g l fun j hj => h j (by simp [hj])))

theorem map_getD (a : List ℝ) : (List.range a.length).map (fun i => a.getD i 0) = a := by
  apply List.ext_getElem
  · simp
  · intro i h1 h2; simp [h2]

theorem abs_waveSum_le (a b : List ℝ) (x : ℝ) (h : ∀ v ∈ a, 0 ≤ v) : |waveSum a b x| ≤ a.sum := by
  have := abs_sum_le (fun i => a.getD i 0 * cos (2 * π * ((i : ℝ) + 1) * (x + b.getD i 0))) (fun i => a.getD i 0) (List.range a.length) (by
    intro i hi
    have hi := List.mem_range.mp hi
    have h0 : 0 ≤ a.getD i 0 := by
      have : a.getD i 0 = a[i] := by simp [hi]
      rw [this]; exact h _ (List.getElem_mem hi)
    rw [abs_mul, abs_of_nonneg h0]
    exact mul_le_of_le_one_right h0 (abs_cos_le_one _))
  rwa [map_getD] at this

theorem slice_length (a : List ℝ) (i j : Nat) : (slice a i j).length = min j a.length - i := by simp [slice]

theorem slice_nonneg (a : List ℝ) (i j : Nat) (h : ∀ v ∈ a, 0 ≤ v) : ∀ v ∈ slice a i j, 0 ≤ v := fun v hv =>
  h v (List.mem_of_mem_take (List.mem_of_mem_drop hv))

theorem normalization_pos (a : List ℝ) (h : ∀ v ∈ a, 0 ≤ v) : 0 < normalization a := by
  have h0 : 0 ≤ a.sum := List.sum_nonneg h
  unfold normalization
  split
  · norm_num
  · rename_i hn
    rw [abs_of_nonneg h0] at hn
    have : (0 : ℝ) < 1e-10 := by norm_num
    linarith

theorem le_normalization (a c : List ℝ) (hc : ∀ v ∈ c, 0 ≤ v) (hs : a.sum ≤ c.sum) : a.sum ≤ normalization c := by
  unfold normalization
  have h0 : 0 ≤ c.sum := List.sum_nonneg hc
  split
  · rename_i hn
    rw [abs_of_nonneg h0] at hn
    have : (1e-10 : ℝ) < 1 := by norm_num
    linarith
  · exact hs

/-- Divided by a larger normalization the waves are at most as high as the perturbation. -/
theorem ripple_le (eps : ℝ) (he : 0 ≤ eps) (a b c : List ℝ) (x : ℝ) (ha : ∀ v ∈ a, 0 ≤ v) (hc : ∀ v ∈ c, 0 ≤ v) (hs : a.sum ≤ c.sum) :
    |eps * waveSum a b x / normalization c| ≤ eps := by
  have hn := normalization_pos c hc
  rw [abs_div, abs_mul, abs_of_nonneg he, abs_of_pos hn, div_le_iff₀ hn]
  exact mul_le_mul_of_nonneg_left ((abs_waveSum_le a b x ha).trans (le_normalization a c hc hs)) he

theorem ripple_ok (eps : ℝ) (a b : List ℝ) (x : ℝ) (h : a.length ≤ b.length) : ripple eps a b x = .ok (eps * waveSum a b x / normalization a) := by
  unfold ripple; rw [waves_ok a b x h]; rfl

theorem layer_physical (o : Prop) [Decidable o] : 0 < (layer o).rho ∧ 0 < (layer o).p := by
  unfold layer; split <;> norm_num

theorem waveSum_zero (n : Nat) (b : List ℝ) (x : ℝ) : waveSum (List.replicate n 0) b x = 0 := by
  have h := abs_waveSum_le (List.replicate n 0) b x (by intro v hv; rw [List.eq_of_mem_replicate hv])
  rw [List.sum_replicate, smul_zero] at h
  exact abs_nonpos_iff.mp h

open Classical in
theorem kelvinHelmholtz_ok (eps : ℝ) (a : List ℝ) (x y : ℝ) (h : 40 ≤ a.length) : kelvinHelmholtz eps a x y = .ok (layer
    (y < 0.25 + eps * waveSum (slice a 10 20) (slice a 30 40) x / normalization (slice a 10 20) ∨
      y > 0.75 + eps * waveSum (slice a 0 10) (slice a 20 40) x / normalization (slice a 0 10))) := by
  unfold kelvinHelmholtz
  rw [ripple_ok _ _ _ _ (by simp only [slice_length]; omega), ripple_ok _ _ _ _ (by simp only [slice_length]; omega)]
  rfl

/-- A sum over halves is at most a harmonic number. -/
theorem halves_le (n : Nat) : ((List.range (n + 1)).map fun k : Nat => 1 / ((k : ℝ) + 1 / 2)).sum ≤ 2 + (harmonic n : ℝ) := by
  induction n with
  | zero => norm_num [harmonic]
  | succ n ih =>
    rw [List.range_succ, List.map_append, List.sum_append, List.map_singleton, List.sum_singleton, harmonic_succ]
    have h1 : 1 / (((n + 1 : ℕ) : ℝ) + 1 / 2) ≤ (((n + 1 : ℕ) : ℝ))⁻¹ := by
      rw [← one_div]
      exact one_div_le_one_div_of_le (by positivity) (by linarith)
    push_cast at h1 ih ⊢
    linarith

/-- Up to two to the power 18 terms. -/
theorem halves_le_five_pi (n : Nat) (h : n ≤ 2 ^ 18) : ((List.range n).map fun k : Nat => 1 / ((k : ℝ) + 1 / 2)).sum ≤ 5 * π := by
  have hpi := pi_gt_d2
  rcases n with _ | n
  · simp only [List.range_zero, List.map_nil, List.sum_nil]; positivity
  · have h1 := halves_le n
    have h2 := harmonic_le_one_add_log n
    have h3 : log n ≤ 18 * log 2 := by
      rcases Nat.eq_zero_or_pos n with rfl | hn
      · simp only [CharP.cast_eq_zero, log_zero]; have := log_nonneg (by norm_num : (1 : ℝ) ≤ 2); positivity
      · have : log (n : ℝ) ≤ log ((2 : ℝ) ^ 18) := log_le_log (by exact_mod_cast hn) (by exact_mod_cast (by omega : n ≤ 2 ^ 18))
        rwa [log_pow] at this
    have h4 := log_two_lt_d9
    norm_num at hpi h4
    linarith

theorem abs_brownian_le (X : List ℝ) (x : ℝ) (hn : X.length ≤ 2 ^ 18) (hX : ∀ v ∈ X, |v| ≤ 1) : |brownian X x| ≤ 5 := by
  have h := abs_sum_le (fun k : Nat => X.getD k 0 * sin (((k : ℝ) + 1 - 0.5) * π * x) / (((k : ℝ) + 1 - 0.5) * π)) (fun k : Nat => 1 / ((k : ℝ) + 1 / 2) * (1 / π))
    (List.range X.length) (by
      intro k hk
      have hk := List.mem_range.mp hk
      have h0 : |X.getD k 0| ≤ 1 := by
        have : X.getD k 0 = X[k] := by simp [hk]
        rw [this]; exact hX _ (List.getElem_mem hk)
      have e : ((k : ℝ) + 1 - 0.5) = k + 1 / 2 := by norm_num; ring
      have hd : (0 : ℝ) < ((k : ℝ) + 1 / 2) * π := by positivity
      rw [e, abs_div, abs_mul, abs_of_pos hd, one_div_mul_one_div]
      apply div_le_div_of_nonneg_right _ hd.le
      exact mul_le_one₀ h0 (abs_nonneg _) (abs_sin_le_one _))
  rw [List.sum_map_mul_right] at h
  have h5 := halves_le_five_pi X.length hn
  have hp := pi_pos
  refine h.trans ?_
  rw [mul_one_div, div_le_iff₀ hp]
  exact h5

theorem bands_layer (eps y lower upper : ℝ) (hl : |lower| ≤ eps) (hu : |upper| ≤ eps) [Decidable (y < 0.25 + lower ∨ y > 0.75 + upper)] :
    (y < 1 / 4 - eps ∨ 3 / 4 + eps < y → (layer (y < 0.25 + lower ∨ y > 0.75 + upper)).rho = 1 ∧ (layer (y < 0.25 + lower ∨ y > 0.75 + upper)).ux = 1 / 2) ∧
      (1 / 4 + eps < y ∧ y < 3 / 4 - eps → (layer (y < 0.25 + lower ∨ y > 0.75 + upper)).rho = 2 ∧ (layer (y < 0.25 + lower ∨ y > 0.75 + upper)).ux = -(1 / 2)) := by
  have hl := abs_le.mp hl
  have hu := abs_le.mp hu
  constructor
  · intro h
    have : y < 0.25 + lower ∨ y > 0.75 + upper := by
      rcases h with h | h
      · left; norm_num; linarith
      · right; norm_num; linarith
    unfold layer; rw [if_pos this]; norm_num
  · intro h
    have : ¬(y < 0.25 + lower ∨ y > 0.75 + upper) := by
      rintro (h1 | h1) <;> norm_num at h1 <;> linarith [h.1, h.2]
    unfold layer; rw [if_neg this]; norm_num

open Classical in
theorem global_ok (a : List ℝ) (ax bx : ℝ) (nx i : Nat) (ay by_ : ℝ) (ny j : Nat) (h : 40 ≤ a.length) : ∃ lower upper : ℝ,
    kelvinHelmholtzGlobal a ax bx nx i ay by_ ny j = .ok (if linspace ay by_ ny j < 0.75 + upper ∧ linspace ay by_ ny j > 0.25 + lower then ⟨2, -0.5, 0, 0, 2.5⟩
      else ⟨1, 0.5, 0, 0, 2.5⟩) ∧ ((∀ v ∈ a, 0 ≤ v) → |lower| ≤ 0.1 ∧ |upper| ≤ 0.1) := by
  refine ⟨0.1 * waveSum (slice a 10 20) (slice a 30 40) (linspace ax bx nx i) / normalization (slice a 10 20),
    0.1 * waveSum (slice a 0 10) (slice a 20 40) (linspace ax bx nx i) / normalization (slice a 0 10), ?_, fun ha =>
    ⟨ripple_le _ (by norm_num) _ _ _ _ (slice_nonneg _ _ _ ha) (slice_nonneg _ _ _ ha) le_rfl,
      ripple_le _ (by norm_num) _ _ _ _ (slice_nonneg _ _ _ ha) (slice_nonneg _ _ _ ha) le_rfl⟩⟩
  unfold kelvinHelmholtzGlobal
  rw [ripple_ok _ _ _ _ (by simp only [slice_length]; omega), ripple_ok _ _ _ _ (by simp only [slice_length]; omega)]
  show Except.ok _ = Except.ok _
  congr 1
  split <;> norm_num

theorem vortex_pressure (rho p tau : ℝ) (hr0 : 0 ≤ rho) (hr : rho ≤ 1) (hp : 5 / 6 - 1 / 1000 ≤ p) :
    0 < p + -(gamma - 1) * 0.3 ^ 2 * exp (2 * 0.204 * (1 - tau ^ 2)) / (4 * 0.204 * gamma) * rho := by
  have he : exp (2 * 0.204 * (1 - tau ^ 2)) ≤ 3 := by
    have h1 : (2 * 0.204 * (1 - tau ^ 2) : ℝ) ≤ 1 := by norm_num; nlinarith [sq_nonneg tau]
    have h2 := exp_one_lt_d9
    have h3 := exp_le_exp.mpr h1
    norm_num at h2
    linarith
  have he0 := exp_pos (2 * 0.204 * (1 - tau ^ 2))
  generalize exp (2 * 0.204 * (1 - tau ^ 2)) = e at he he0
  have hm : e * rho ≤ 3 := by nlinarith
  have hm0 : 0 ≤ e * rho := by positivity
  have : -(gamma - 1) * 0.3 ^ 2 * e / (4 * 0.204 * gamma) * rho = -((gamma - 1) * 0.3 ^ 2 / (4 * 0.204 * gamma)) * (e * rho) := by ring
  rw [this]
  have hk : (gamma - 1) * 0.3 ^ 2 / (4 * 0.204 * gamma) ≤ 1 / 10 := by unfold gamma; norm_num
  nlinarith

end Verif.Examples
