import Verif.Props.EulerFlux

/-!
Helper lemmas for C88: the states with positive density and pressure form a convex cone, and the HLL flux keeps it.
-/

namespace Verif.Euler
open EulerFlux
variable {n : Nat} {γ : ℝ}

theorem dot_add_right (a b c : Fin n → ℝ) : dot a (b + c) = dot a b + dot a c := by simp [dot, mul_add, Finset.sum_add_distrib]
theorem dot_smul_pi (a b : Fin n → ℝ) (k : ℝ) : dot a (k • b) = k * dot a b := by
  simp only [dot, Pi.smul_apply, smul_eq_mul, Finset.mul_sum]
  exact Finset.sum_congr rfl fun i _ => by ring

/-- Energy in a frame moving with velocity `w`; linear in the state. -/
noncomputable def form (w : Fin n → ℝ) (U : Cons n) : ℝ := U.2.2 - dot w U.2.1 + 0.5 * dot w w * U.1

theorem form_add (w : Fin n → ℝ) (U V : Cons n) : form w (U + V) = form w U + form w V := by
  simp only [form, Prod.snd_add, Prod.fst_add, dot_add_right]; ring
theorem form_smul (w : Fin n → ℝ) (a : ℝ) (U : Cons n) : form w (a • U) = a * form w U := by
  simp only [form, Prod.smul_snd, Prod.smul_fst, smul_eq_mul, dot_smul_pi]; ring

/-- The closed cone. -/
def Above (U : Cons n) : Prop := 0 ≤ U.1 ∧ ∀ w, 0 ≤ form w U

theorem Above.add {U V : Cons n} (h : Above U) (h' : Above V) : Above (U + V) :=
  ⟨add_nonneg h.1 h'.1, fun w => by rw [form_add]; exact add_nonneg (h.2 w) (h'.2 w)⟩
theorem Above.smul {U : Cons n} (h : Above U) {a : ℝ} (ha : 0 ≤ a) : Above (a • U) :=
  ⟨mul_nonneg ha h.1, fun w => by rw [form_smul]; exact mul_nonneg ha (h.2 w)⟩
theorem above_zero : Above (0 : Cons n) := ⟨le_rfl, fun w => by simp [form, dot]⟩

/-- The form of a state in terms of its velocity and pressure. -/
theorem form_eq (hγ : 1 < γ) {U : Cons n} (hr : 0 < U.1) (w : Fin n → ℝ) :
    form w U = pressure γ U / (γ - 1) + 0.5 * U.1 * dot (velocity U - w) (velocity U - w) := by
  have h1 : γ - 1 ≠ 0 := by linarith
  have h2 : U.1 ≠ 0 := hr.ne'
  have e1 : dot (velocity U - w) (velocity U - w) = dot U.2.1 U.2.1 / U.1 ^ 2 - 2 * (dot w U.2.1 / U.1) + dot w w := by
    simp only [dot, velocity, Pi.sub_apply, Finset.sum_div, Finset.mul_sum, ← Finset.sum_sub_distrib, ← Finset.sum_add_distrib]
    refine Finset.sum_congr rfl fun i _ => ?_
    simp only [Cons.m, Cons.rho]
    field_simp
    ring
  rw [e1, form, pressure]
  simp only [Cons.m, Cons.rho, Cons.E]
  field_simp
  ring

theorem dot_self_nonneg (a : Fin n → ℝ) : 0 ≤ dot a a := Finset.sum_nonneg fun _ _ => mul_self_nonneg _
theorem sq_le_dot (a : Fin n → ℝ) (d : Fin n) : a d * a d ≤ dot a a := Finset.single_le_sum (f := fun i => a i * a i) (fun _ _ => mul_self_nonneg _) (Finset.mem_univ d)

theorem obeys_iff (hγ : 1 < γ) (U : Cons n) : obeysConstraints γ U ↔ 0 < U.1 ∧ ∀ w, 0 < form w U := by
  constructor
  · rintro ⟨h1, h2⟩
    refine ⟨h1, fun w => ?_⟩
    rw [form_eq hγ h1]
    have := div_pos h2 (show 0 < γ - 1 by linarith)
    have := mul_nonneg (mul_nonneg (show (0 : ℝ) ≤ 0.5 by norm_num) (le_of_lt h1)) (dot_self_nonneg (velocity U - w))
    linarith
  · rintro ⟨h1, h2⟩
    refine ⟨h1, ?_⟩
    have := h2 (velocity U)
    rw [form_eq hγ h1, sub_self] at this
    have e : dot (0 : Fin n → ℝ) 0 = 0 := by simp [dot]
    rw [e, mul_zero, add_zero] at this
    exact (div_pos_iff_of_pos_right (by linarith)).1 this

theorem obeys_above (hγ : 1 < γ) {U : Cons n} (h : obeysConstraints γ U) : Above U :=
  ⟨((obeys_iff hγ U).1 h).1.le, fun w => (((obeys_iff hγ U).1 h).2 w).le⟩

theorem obeys_add (hγ : 1 < γ) {U V : Cons n} (h : obeysConstraints γ U) (h' : Above V) : obeysConstraints γ (U + V) := by
  rw [obeys_iff hγ] at h ⊢
  exact ⟨add_pos_of_pos_of_nonneg h.1 h'.1, fun w => by rw [form_add]; exact add_pos_of_pos_of_nonneg (h.2 w) (h'.2 w)⟩

theorem obeys_smul (hγ : 1 < γ) {U : Cons n} (h : obeysConstraints γ U) {a : ℝ} (ha : 0 < a) : obeysConstraints γ (a • U) := by
  rw [obeys_iff hγ] at h ⊢
  exact ⟨mul_pos ha h.1, fun w => by rw [form_smul]; exact mul_pos ha (h.2 w)⟩

/-- The form of the flux. -/
theorem form_flux {U : Cons n} (hr : 0 < U.1) (d : Fin n) (w : Fin n → ℝ) :
    form w (flux γ d U) = velocity U d * form w U + pressure γ U * (velocity U d - w d) := by
  have e1 : dot w (flux γ d U).2.1 = velocity U d * dot w U.2.1 + w d * pressure γ U := by
    simp only [dot, flux, Finset.mul_sum, mul_add, Finset.sum_add_distrib, mul_ite, mul_zero, Finset.sum_ite_eq', Finset.mem_univ, if_true]
    congr 1
    exact Finset.sum_congr rfl fun i _ => by ring
  have e2 : (flux γ d U).1 = velocity U d * U.1 := by
    simp only [flux, velocity]; exact (div_mul_cancel₀ _ hr.ne').symm
  have e3 : (flux γ d U).2.2 = (U.2.2 + pressure γ U) * velocity U d := rfl
  rw [form, e1, e2, e3, form]
  ring

/-- States moving away from a face: to the right of one moving at most as fast as the slowest wave. -/
theorem above_away (hγ : 1 < γ) {U : Cons n} (h : obeysConstraints γ U) (d : Fin n) (s t : ℝ) (hs : s = 1 ∨ s = -1) (ht : soundSpeed γ U ≤ t + s * velocity U d) :
    Above (t • U + s • flux γ d U) := by
  obtain ⟨hr, hp⟩ := h
  have hr : 0 < U.1 := hr
  have hs2 : s * s = 1 := by rcases hs with rfl | rfl <;> norm_num
  have hc0 : 0 ≤ soundSpeed γ U := Real.sqrt_nonneg _
  have hc2 : soundSpeed γ U * soundSpeed γ U * U.1 = γ * pressure γ U := by
    rw [soundSpeed, Real.mul_self_sqrt (div_nonneg (mul_nonneg (by linarith) hp.le) hr.le)]
    exact div_mul_cancel₀ _ hr.ne'
  have e2 : (flux γ d U).1 = velocity U d * U.1 := by
    simp only [flux, velocity]; exact (div_mul_cancel₀ _ hr.ne').symm
  refine ⟨?_, fun w => ?_⟩
  · simp only [Prod.fst_add, Prod.smul_fst, smul_eq_mul, e2]
    have : t * U.1 + s * (velocity U d * U.1) = (t + s * velocity U d) * U.1 := by ring
    rw [this]
    exact mul_nonneg (hc0.trans ht) hr.le
  · rw [form_add, form_smul, form_smul, form_flux hr]
    set v := velocity U d with hv
    set z := v - w d with hz
    set c := soundSpeed γ U with hc
    set p := pressure γ U with hp'
    have hform : p / (γ - 1) + 0.5 * U.1 * (z * z) ≤ form w U := by
      rw [form_eq hγ hr]
      have := sq_le_dot (velocity U - w) d
      have e : (velocity U - w) d * (velocity U - w) d = z * z := rfl
      rw [e] at this
      have := mul_le_mul_of_nonneg_left this (show 0 ≤ 0.5 * U.1 by positivity)
      linarith
    have hbase : 0 ≤ p / (γ - 1) + 0.5 * U.1 * (z * z) := by
      have : 0 < γ - 1 := by linarith
      have : 0 ≤ z * z := mul_self_nonneg z
      positivity
    have h1 : c * (p / (γ - 1) + 0.5 * U.1 * (z * z)) ≤ (t + s * v) * form w U := mul_le_mul ht hform hbase (hc0.trans ht)
    have h2 : 0 ≤ c * (p / (γ - 1) + 0.5 * U.1 * (z * z)) + s * (p * z) := by
      have hcp : 0 < c := Real.sqrt_pos.2 (div_pos (mul_pos (by linarith) hp) hr)
      have hg : 0 < γ - 1 := by linarith
      have : 0 ≤ c * (c * (p / (γ - 1) + 0.5 * U.1 * (z * z)) + s * (p * z)) := by
        have e : c * (c * (p / (γ - 1) + 0.5 * U.1 * (z * z)) + s * (p * z)) = c * c * p / (γ - 1) + 0.5 * (c * c * U.1) * (z * z) + s * p * (c * z) := by ring
        rw [e, hc2]
        have e3 : c * c * p / (γ - 1) + 0.5 * (γ * p) * (z * z) + s * p * (c * z) =
            p / (γ - 1) * ((c + s * (γ - 1) * z / 2) ^ 2 + (γ - 1) * (z * z) * ((γ + 1) / 4)) := by
          field_simp
          linear_combination (-4 * (γ - 1) ^ 2 * z ^ 2) * hs2
        rw [e3]
        have : 0 ≤ z * z := mul_self_nonneg z
        positivity
      exact nonneg_of_mul_nonneg_right (by linarith [this]) hcp
    nlinarith

/-- The flux to the right of a cell in state `u`. -/
theorem hll_right (hγ : 1 < γ) (d : Fin n) {u R : Cons n} (hu : obeysConstraints γ u) (hR : obeysConstraints γ R) :
    ∃ x y Z, 0 ≤ x ∧ 0 ≤ y ∧ 0 < x + y ∧ x ≤ (hll γ d u R).2 ∧ y ≤ (hll γ d u R).2 ∧ soundSpeed γ u ≤ x + velocity u d ∧ Above Z ∧
      -(hll γ d u R).1 = -(y / (x + y)) • (flux γ d u + x • u) + Z := by
  have hlt := hllSpeeds_lt hγ d hu hR
  have hl : (hllSpeeds γ d u R).1 ≤ velocity u d - soundSpeed γ u := min_le_left _ _
  have hr : velocity R d + soundSpeed γ R ≤ (hllSpeeds γ d u R).2 := le_max_left _ _
  simp only [hll]
  generalize (hllSpeeds γ d u R).1 = sL at *
  generalize (hllSpeeds γ d u R).2 = sR at *
  have m1 : |sL| ≤ max |sL| |sR| := le_max_left _ _
  have m2 : |sR| ≤ max |sL| |sR| := le_max_right _ _
  have n1 := neg_le_abs sL
  have n2 := le_abs_self sR
  rcases lt_trichotomy sL 0 with h | h | h
  · rw [if_neg h.ne, if_neg (by linarith)]
    split_ifs with h2
    · refine ⟨-sL, 0, -flux γ d R, by linarith, le_rfl, by linarith, by linarith, by linarith [abs_nonneg sR], by linarith, ?_, by simp⟩
      have := above_away hγ hR d (-1) 0 (.inr rfl) (by linarith)
      simpa using this
    · have h2 : 0 ≤ sR := not_lt.1 h2
      have hne : sR - sL ≠ 0 := by linarith
      refine ⟨-sL, sR, (-sL / (sR - sL)) • (sR • R + (-1 : ℝ) • flux γ d R), by linarith, h2, by linarith, by linarith, by linarith, by linarith,
        (above_away hγ hR d (-1) sR (.inr rfl) (by linarith)).smul (div_nonneg (by linarith) (by linarith)), ?_⟩
      rw [show -sL + sR = sR - sL by ring]
      match_scalars <;> field_simp
  · subst h
    rw [if_pos rfl]
    refine ⟨0, sR, flux γ d u, le_rfl, by linarith, by linarith, by linarith [abs_nonneg (0 : ℝ)], by linarith, by linarith, ?_, ?_⟩
    · have := above_away hγ hu d 1 0 (.inl rfl) (by linarith)
      simpa using this
    · rw [zero_add, div_self (by linarith)]; simp
  · rw [if_neg h.ne', if_pos h]
    refine ⟨0, sR, 0, le_rfl, by linarith, by linarith, by linarith [abs_nonneg sL], by linarith, by linarith, above_zero, ?_⟩
    rw [zero_add, div_self (by linarith)]; simp

/-- The flux to the left of a cell in state `u`. -/
theorem hll_left (hγ : 1 < γ) (d : Fin n) {L u : Cons n} (hL : obeysConstraints γ L) (hu : obeysConstraints γ u) :
    ∃ x y Z, 0 ≤ x ∧ 0 ≤ y ∧ 0 < x + y ∧ x ≤ (hll γ d L u).2 ∧ y ≤ (hll γ d L u).2 ∧ velocity u d + soundSpeed γ u ≤ y ∧ Above Z ∧
      (hll γ d L u).1 = (x / (x + y)) • (flux γ d u - y • u) + Z := by
  have hlt := hllSpeeds_lt hγ d hL hu
  have hl : (hllSpeeds γ d L u).1 ≤ velocity L d - soundSpeed γ L := min_le_left _ _
  have hr : velocity u d + soundSpeed γ u ≤ (hllSpeeds γ d L u).2 := le_max_left _ _
  simp only [hll]
  generalize (hllSpeeds γ d L u).1 = sL at *
  generalize (hllSpeeds γ d L u).2 = sR at *
  have m1 : |sL| ≤ max |sL| |sR| := le_max_left _ _
  have m2 : |sR| ≤ max |sL| |sR| := le_max_right _ _
  have n1 := neg_le_abs sL
  have n2 := le_abs_self sR
  rcases lt_trichotomy sL 0 with h | h | h
  · rw [if_neg h.ne, if_neg (by linarith)]
    split_ifs with h2
    · refine ⟨-sL, 0, 0, by linarith, le_rfl, by linarith, by linarith, by linarith [abs_nonneg sR], by linarith, above_zero, ?_⟩
      rw [add_zero, add_zero, div_self (by linarith : -sL ≠ 0)]; simp
    · have h2 : 0 ≤ sR := not_lt.1 h2
      have hne : sR - sL ≠ 0 := by linarith
      refine ⟨-sL, sR, (sR / (sR - sL)) • ((-sL) • L + (1 : ℝ) • flux γ d L), by linarith, h2, by linarith, by linarith, by linarith, hr,
        (above_away hγ hL d 1 (-sL) (.inl rfl) (by linarith)).smul (div_nonneg (by linarith) (by linarith)), ?_⟩
      rw [show -sL + sR = sR - sL by ring]
      match_scalars <;> field_simp
  · subst h
    rw [if_pos rfl]
    exact ⟨0, sR, 0, le_rfl, by linarith, by linarith, by linarith [abs_nonneg (0 : ℝ)], by linarith, hr, above_zero, by simp⟩
  · rw [if_neg h.ne', if_pos h]
    refine ⟨0, sR, flux γ d L, le_rfl, by linarith, by linarith, by linarith [abs_nonneg sL], by linarith, hr, ?_, by simp⟩
    have := above_away hγ hL d 1 0 (.inl rfl) (by linarith)
    simpa using this

/-- What a cell in state `u` loses to its neighbours in one direction is at most itself, for time steps up to the inverse of the wave speeds at its two faces. -/
theorem hll_keeps (hγ : 1 < γ) (d : Fin n) {L u R : Cons n} (hL : obeysConstraints γ L) (hu : obeysConstraints γ u) (hR : obeysConstraints γ R) (S : ℝ)
    (h1 : (hll γ d L u).2 ≤ S) (h2 : (hll γ d u R).2 ≤ S) : Above (S • u + ((hll γ d L u).1 - (hll γ d u R).1)) := by
  obtain ⟨x, y, Z, x0, y0, xy, xS, yS, hx, hZ, e⟩ := hll_right hγ d hu hR
  obtain ⟨x', y', Z', x0', y0', xy', xS', yS', hy', hZ', e'⟩ := hll_left hγ d hL hu
  rw [sub_eq_add_neg, e, e']
  have t0 : 0 ≤ y / (x + y) := div_nonneg y0 xy.le
  have t0' : 0 ≤ x' / (x' + y') := div_nonneg x0' xy'.le
  have key : Above (S • u + ((x' / (x' + y')) • (flux γ d u - y' • u) + -(y / (x + y)) • (flux γ d u + x • u))) := by
    set θ := y / (x + y) with hθ
    set θ' := x' / (x' + y') with hθ'
    have eθ : θ * (x + y) = y := div_mul_cancel₀ _ xy.ne'
    have eθ' : θ' * (x' + y') = x' := div_mul_cancel₀ _ xy'.ne'
    rcases le_total θ θ' with h | h
    · have hS : θ' * (x + y') ≤ S := by
        rcases le_total x x' with hh | hh
        · have : θ' * (x + y') ≤ θ' * (x' + y') := mul_le_mul_of_nonneg_left (by linarith) t0'
          linarith
        · have h1 : θ' ≤ 1 := by rw [hθ', div_le_one xy']; linarith
          have : θ' * (x + y') = x' + θ' * (x - x') := by linear_combination eθ'
          nlinarith
      have e3 : S • u + (θ' • (flux γ d u - y' • u) + -θ • (flux γ d u + x • u)) = (S - θ' * (x + y')) • u + (θ' - θ) • (x • u + (1 : ℝ) • flux γ d u) := by
        module
      rw [e3]
      exact ((obeys_above hγ hu).smul (by linarith)).add ((above_away hγ hu d 1 x (.inl rfl) (by linarith)).smul (by linarith))
    · have hS : θ * (x + y') ≤ S := by
        rcases le_total y' y with hh | hh
        · have : θ * (x + y') ≤ θ * (x + y) := mul_le_mul_of_nonneg_left (by linarith) t0
          linarith
        · have h1 : θ ≤ 1 := by rw [hθ, div_le_one xy]; linarith
          have : θ * (x + y') = y + θ * (y' - y) := by linear_combination eθ
          nlinarith
      have e3 : S • u + (θ' • (flux γ d u - y' • u) + -θ • (flux γ d u + x • u)) = (S - θ * (x + y')) • u + (θ - θ') • (y' • u + (-1 : ℝ) • flux γ d u) := by
        module
      rw [e3]
      exact ((obeys_above hγ hu).smul (by linarith)).add ((above_away hγ hu d (-1) y' (.inr rfl) (by linarith)).smul (by linarith))
  have e4 : S • u + ((x' / (x' + y')) • (flux γ d u - y' • u) + Z' + (-(y / (x + y)) • (flux γ d u + x • u) + Z)) =
      S • u + ((x' / (x' + y')) • (flux γ d u - y' • u) + -(y / (x + y)) • (flux γ d u + x • u)) + (Z' + Z) := by abel
  rw [e4]
  exact key.add (hZ'.add hZ)

end Verif.Euler
