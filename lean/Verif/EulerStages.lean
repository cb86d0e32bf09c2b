import Verif.EulerRun

/-!
Helper lemmas for C88 with the Runge-Kutta schemes of order two and three: how much the wave speeds of the HLL flux can grow in one stage.
-/

namespace Verif.Euler
open EulerFlux
variable {n : Nat} {γ : ℝ}

/-- A convex cone of states. -/
structure Cone (Q : Cons n → Prop) : Prop where
  zero : Q 0
  add : ∀ {U V : Cons n}, Q U → Q V → Q (U + V)
  smul : ∀ {U : Cons n} {a : ℝ}, Q U → 0 ≤ a → Q (a • U)

/-- What moves away from a face lies in the cone. -/
def Away (Q : Cons n → Prop) (γ : ℝ) (d : Fin n) (U : Cons n) : Prop :=
  ∀ s t : ℝ, (s = 1 ∨ s = -1) → soundSpeed γ U ≤ t + s * velocity U d → Q (t • U + s • flux γ d U)

/-- The flux to the right of a cell in state `u`. -/
theorem hll_rightQ {Q : Cons n → Prop} (hQ : Cone Q) (hγ : 1 < γ) (d : Fin n) {u R : Cons n} (hu : obeysConstraints γ u) (hR : obeysConstraints γ R)
    (au : Away Q γ d u) (aR : Away Q γ d R) :
    ∃ x y Z, 0 ≤ x ∧ 0 ≤ y ∧ 0 < x + y ∧ x ≤ (hll γ d u R).2 ∧ y ≤ (hll γ d u R).2 ∧ soundSpeed γ u ≤ x + velocity u d ∧ Q Z ∧
      -(hll γ d u R).1 = -(y / (x + y)) • (flux γ d u + x • u) + Z := by
  have hlt := hllSpeeds_lt hγ d hu hR
  have hl : (hllSpeeds γ d u R).1 ≤ velocity u d - soundSpeed γ u := min_le_left _ _
  have hr : velocity R d + soundSpeed γ R ≤ (hllSpeeds γ d u R).2 := le_max_left _ _
  simp only [hll]
  generalize (hllSpeeds γ d u R).1 = sL at *
  generalize (hllSpeeds γ d u R).2 = sR at *
  have m1 : |sL| ≤ max |sL| |sR| := le_max_left _ _
  have m2 : |sR| ≤ max |sL| |sR| := le_max_right _ _
  have n1 := neg_le_abs sL
  have n2 := le_abs_self sR
  rcases lt_trichotomy sL 0 with h | h | h
  · rw [if_neg h.ne, if_neg (by linarith)]
    split_ifs with h2
    · refine ⟨-sL, 0, -flux γ d R, by linarith, le_rfl, by linarith, by linarith, by linarith [abs_nonneg sR], by linarith, ?_, by simp⟩
      have := aR (-1) 0 (.inr rfl) (by linarith)
      simpa using this
    · have h2 : 0 ≤ sR := not_lt.1 h2
      have hne : sR - sL ≠ 0 := by linarith
      refine ⟨-sL, sR, (-sL / (sR - sL)) • (sR • R + (-1 : ℝ) • flux γ d R), by linarith, h2, by linarith, by linarith, by linarith, by linarith,
        hQ.smul (aR (-1) sR (.inr rfl) (by linarith)) (div_nonneg (by linarith) (by linarith)), ?_⟩
      rw [show -sL + sR = sR - sL by ring]
      match_scalars <;> field_simp
  · subst h
    rw [if_pos rfl]
    refine ⟨0, sR, flux γ d u, le_rfl, by linarith, by linarith, by linarith [abs_nonneg (0 : ℝ)], by linarith, by linarith, ?_, ?_⟩
    · have := au 1 0 (.inl rfl) (by linarith)
      simpa using this
    · rw [zero_add, div_self (by linarith)]; simp
  · rw [if_neg h.ne', if_pos h]
    refine ⟨0, sR, 0, le_rfl, by linarith, by linarith, by linarith [abs_nonneg sL], by linarith, by linarith, hQ.zero, ?_⟩
    rw [zero_add, div_self (by linarith)]; simp

/-- The flux to the left of a cell in state `u`. -/
theorem hll_leftQ {Q : Cons n → Prop} (hQ : Cone Q) (hγ : 1 < γ) (d : Fin n) {L u : Cons n} (hL : obeysConstraints γ L) (hu : obeysConstraints γ u)
    (aL : Away Q γ d L) :
    ∃ x y Z, 0 ≤ x ∧ 0 ≤ y ∧ 0 < x + y ∧ x ≤ (hll γ d L u).2 ∧ y ≤ (hll γ d L u).2 ∧ velocity u d + soundSpeed γ u ≤ y ∧ Q Z ∧
      (hll γ d L u).1 = (x / (x + y)) • (flux γ d u - y • u) + Z := by
  have hlt := hllSpeeds_lt hγ d hL hu
  have hl : (hllSpeeds γ d L u).1 ≤ velocity L d - soundSpeed γ L := min_le_left _ _
  have hr : velocity u d + soundSpeed γ u ≤ (hllSpeeds γ d L u).2 := le_max_left _ _
  simp only [hll]
  generalize (hllSpeeds γ d L u).1 = sL at *
  generalize (hllSpeeds γ d L u).2 = sR at *
  have m1 : |sL| ≤ max |sL| |sR| := le_max_left _ _
  have m2 : |sR| ≤ max |sL| |sR| := le_max_right _ _
  have n1 := neg_le_abs sL
  have n2 := le_abs_self sR
  rcases lt_trichotomy sL 0 with h | h | h
  · rw [if_neg h.ne, if_neg (by linarith)]
    split_ifs with h2
    · refine ⟨-sL, 0, 0, by linarith, le_rfl, by linarith, by linarith, by linarith [abs_nonneg sR], by linarith, hQ.zero, ?_⟩
      rw [add_zero, add_zero, div_self (by linarith : -sL ≠ 0)]; simp
    · have h2 : 0 ≤ sR := not_lt.1 h2
      have hne : sR - sL ≠ 0 := by linarith
      refine ⟨-sL, sR, (sR / (sR - sL)) • ((-sL) • L + (1 : ℝ) • flux γ d L), by linarith, h2, by linarith, by linarith, by linarith, hr,
        hQ.smul (aL 1 (-sL) (.inl rfl) (by linarith)) (div_nonneg (by linarith) (by linarith)), ?_⟩
      rw [show -sL + sR = sR - sL by ring]
      match_scalars <;> field_simp
  · subst h
    rw [if_pos rfl]
    exact ⟨0, sR, 0, le_rfl, by linarith, by linarith, by linarith [abs_nonneg (0 : ℝ)], by linarith, hr, hQ.zero, by simp⟩
  · rw [if_neg h.ne', if_pos h]
    refine ⟨0, sR, flux γ d L, le_rfl, by linarith, by linarith, by linarith [abs_nonneg sL], by linarith, hr, ?_, by simp⟩
    have := aL 1 0 (.inl rfl) (by linarith)
    simpa using this

/-- What a cell in state `u` loses to its neighbours in one direction is at most itself, for time steps up to the inverse of the wave speeds at its two faces. -/
theorem hll_keepsQ {Q : Cons n → Prop} (hQ : Cone Q) (hγ : 1 < γ) (d : Fin n) {L u R : Cons n} (hL : obeysConstraints γ L) (hu : obeysConstraints γ u) (hR : obeysConstraints γ R)
    (qu : Q u) (aL : Away Q γ d L) (au : Away Q γ d u) (aR : Away Q γ d R) (S : ℝ)
    (h1 : (hll γ d L u).2 ≤ S) (h2 : (hll γ d u R).2 ≤ S) : Q (S • u + ((hll γ d L u).1 - (hll γ d u R).1)) := by
  obtain ⟨x, y, Z, x0, y0, xy, xS, yS, hx, hZ, e⟩ := hll_rightQ hQ hγ d hu hR au aR
  obtain ⟨x', y', Z', x0', y0', xy', xS', yS', hy', hZ', e'⟩ := hll_leftQ hQ hγ d hL hu aL
  rw [sub_eq_add_neg, e, e']
  have t0 : 0 ≤ y / (x + y) := div_nonneg y0 xy.le
  have t0' : 0 ≤ x' / (x' + y') := div_nonneg x0' xy'.le
  have key : Q (S • u + ((x' / (x' + y')) • (flux γ d u - y' • u) + -(y / (x + y)) • (flux γ d u + x • u))) := by
    set θ := y / (x + y) with hθ
    set θ' := x' / (x' + y') with hθ'
    have eθ : θ * (x + y) = y := div_mul_cancel₀ _ xy.ne'
    have eθ' : θ' * (x' + y') = x' := div_mul_cancel₀ _ xy'.ne'
    rcases le_total θ θ' with h | h
    · have hS : θ' * (x + y') ≤ S := by
        rcases le_total x x' with hh | hh
        · have : θ' * (x + y') ≤ θ' * (x' + y') := mul_le_mul_of_nonneg_left (by linarith) t0'
          linarith
        · have h1 : θ' ≤ 1 := by rw [hθ', div_le_one xy']; linarith
          have : θ' * (x + y') = x' + θ' * (x - x') := by linear_combination eθ'
          nlinarith
      have e3 : S • u + (θ' • (flux γ d u - y' • u) + -θ • (flux γ d u + x • u)) = (S - θ' * (x + y')) • u + (θ' - θ) • (x • u + (1 : ℝ) • flux γ d u) := by
        module
      rw [e3]
      exact hQ.add (hQ.smul qu (by linarith)) (hQ.smul (au 1 x (.inl rfl) (by linarith)) (by linarith))
    · have hS : θ * (x + y') ≤ S := by
        rcases le_total y' y with hh | hh
        · have : θ * (x + y') ≤ θ * (x + y) := mul_le_mul_of_nonneg_left (by linarith) t0
          linarith
        · have h1 : θ ≤ 1 := by rw [hθ, div_le_one xy]; linarith
          have : θ * (x + y') = y + θ * (y' - y) := by linear_combination eθ
          nlinarith
      have e3 : S • u + (θ' • (flux γ d u - y' • u) + -θ • (flux γ d u + x • u)) = (S - θ * (x + y')) • u + (θ - θ') • (y' • u + (-1 : ℝ) • flux γ d u) := by
        module
      rw [e3]
      exact hQ.add (hQ.smul qu (by linarith)) (hQ.smul (au (-1) y' (.inr rfl) (by linarith)) (by linarith))
  have e4 : S • u + ((x' / (x' + y')) • (flux γ d u - y' • u) + Z' + (-(y / (x + y)) • (flux γ d u + x • u) + Z)) =
      S • u + ((x' / (x' + y')) • (flux γ d u - y' • u) + -(y / (x + y)) • (flux γ d u + x • u)) + (Z' + Z) := by abel
  rw [e4]
  exact hQ.add key (hQ.add hZ' hZ)

/-- The energy per mass is at most `e`. -/
def Cool (e : ℝ) (U : Cons n) : Prop := U.2.2 ≤ e * U.1

theorem cool_cone (e : ℝ) : Cone (Cool (n := n) e) where
  zero := by simp [Cool]
  add h h' := by simp only [Cool, Prod.snd_add, Prod.fst_add] at *; linarith
  smul {U a} h ha := by
    simp only [Cool, Prod.smul_snd, Prod.smul_fst, smul_eq_mul] at *
    have := mul_le_mul_of_nonneg_left h ha
    linarith

/-- The energy in terms of the sound speed and the velocity. -/
theorem energy_eq (hγ : 1 < γ) {U : Cons n} (h : obeysConstraints γ U) :
    U.2.2 = U.1 * (soundSpeed γ U ^ 2 / (γ * (γ - 1)) + dot (velocity U) (velocity U) / 2) := by
  obtain ⟨hr, hp⟩ := h
  have hr : 0 < U.1 := hr
  have hc2 : soundSpeed γ U ^ 2 = γ * pressure γ U / U.1 := Real.sq_sqrt (div_nonneg (mul_nonneg (by linarith) hp.le) hr.le)
  have h := form_eq hγ hr (0 : Fin n → ℝ)
  have e0 : form (0 : Fin n → ℝ) U = U.2.2 := by simp [form, dot]
  rw [e0, sub_zero] at h
  have hg : γ - 1 ≠ 0 := by linarith
  have hg' : γ ≠ 0 := by linarith
  rw [h, hc2]
  field_simp
  norm_num
  ring

/-- Velocity and sound speed of a state with little energy. -/
theorem cool_speeds (hγ : 1 < γ) {e : ℝ} {U : Cons n} (h : obeysConstraints γ U) (hU : Cool e U) (d : Fin n) :
    0 < e ∧ soundSpeed γ U ^ 2 / (γ * (γ - 1)) + velocity U d ^ 2 / 2 ≤ e := by
  have h1 := energy_eq hγ h
  have hr : 0 < U.1 := h.1
  have hcp : 0 < soundSpeed γ U := Real.sqrt_pos.2 (div_pos (mul_pos (by linarith) h.2) hr)
  have h2 : soundSpeed γ U ^ 2 / (γ * (γ - 1)) + dot (velocity U) (velocity U) / 2 ≤ e := by
    rw [Cool, h1, mul_comm] at hU
    exact le_of_mul_le_mul_right hU hr
  have h3 := sq_le_dot (velocity U) d
  have hg : 0 < γ * (γ - 1) := mul_pos (by linarith) (by linarith)
  have h4 : 0 < soundSpeed γ U ^ 2 / (γ * (γ - 1)) := by positivity
  have h5 := dot_self_nonneg (velocity U)
  exact ⟨by linarith, by nlinarith⟩

/-- What moves away from a face has at most seven quarters of the energy per mass. -/
theorem cool_away (hγ : 1 < γ) {e : ℝ} {U : Cons n} (h : obeysConstraints γ U) (hU : Cool e U) (d : Fin n) : Away (Cool (7 / 4 * e)) γ d U := by
  intro s t hs ht
  obtain ⟨he, hcv⟩ := cool_speeds hγ h hU d
  have hr : 0 < U.1 := h.1
  have hcp : 0 < soundSpeed γ U := Real.sqrt_pos.2 (div_pos (mul_pos (by linarith) h.2) hr)
  have hc2 : soundSpeed γ U ^ 2 * U.1 = γ * pressure γ U := by
    rw [soundSpeed, Real.sq_sqrt (div_nonneg (mul_nonneg (by linarith) h.2.le) hr.le)]
    exact div_mul_cancel₀ _ hr.ne'
  have e2 : (flux γ d U).1 = velocity U d * U.1 := by
    simp only [flux, velocity]; exact (div_mul_cancel₀ _ hr.ne').symm
  have e3 : (flux γ d U).2.2 = (U.2.2 + pressure γ U) * velocity U d := rfl
  simp only [Cool, Prod.snd_add, Prod.fst_add, Prod.smul_snd, Prod.smul_fst, smul_eq_mul, e2, e3] at hU ⊢
  set c := soundSpeed γ U
  set v := velocity U d
  set p := pressure γ U
  have hg : 0 < γ := by linarith
  have hp : p = c ^ 2 * U.1 / γ := by rw [hc2]; field_simp
  -- the work of the pressure
  have hw : s * v * c / γ ≤ 3 / 4 * e := by
    have hs2 : s ^ 2 = 1 := by rcases hs with rfl | rfl <;> norm_num
    apply abs_le_of_sq_le_sq' _ (by linarith) |>.2
    set a := c ^ 2 / (γ * (γ - 1)) with ha
    have hg1 : 0 < γ - 1 := by linarith
    have hca : c ^ 2 = a * (γ * (γ - 1)) := by rw [ha]; field_simp
    have e1 : (s * v * c / γ) ^ 2 = v ^ 2 * a * ((γ - 1) / γ) := by
      rw [div_pow, mul_pow, mul_pow, hs2, hca]; field_simp
    have ha0 : 0 ≤ a := by positivity
    have hfrac : (γ - 1) / γ ≤ 1 := by rw [div_le_one hg]; linarith
    have hva : 0 ≤ v ^ 2 * a := by positivity
    rw [e1]
    have h1 : v ^ 2 * a * ((γ - 1) / γ) ≤ v ^ 2 * a := mul_le_of_le_one_right hva hfrac
    have hv0 : 0 ≤ v ^ 2 := sq_nonneg v
    nlinarith [sq_nonneg (a - v ^ 2 / 2)]
  have h1 : 0 ≤ t + s * v - c := by linarith
  have h2 : 0 ≤ 7 / 4 * e * U.1 - U.2.2 := by nlinarith
  have h3 : c * (3 / 4 * e * U.1) ≤ (t + s * v) * (7 / 4 * e * U.1 - U.2.2) :=
    mul_le_mul ht (by linarith) (by positivity) (by linarith)
  have h4 : s * v * p ≤ c * (3 / 4 * e * U.1) := by
    have e4 : s * v * p = (s * v * c / γ) * (c * U.1) := by rw [hp]; ring
    rw [e4]
    have := mul_le_mul_of_nonneg_right hw (show 0 ≤ c * U.1 by positivity)
    linarith
  nlinarith

theorem cool_mono {e e' : ℝ} (h : e ≤ e') {U : Cons n} (hr : 0 ≤ U.1) (hU : Cool e U) : Cool e' U :=
  le_trans hU (mul_le_mul_of_nonneg_right h hr)

/-- A bound for the speeds of the HLL flux. -/
noncomputable def topSpeed (γ e : ℝ) : ℝ := Real.sqrt (2 * e) * (1 + Real.sqrt (γ * (γ - 1)))

theorem cool_velocity (hγ : 1 < γ) {e : ℝ} {U : Cons n} (h : obeysConstraints γ U) (hU : Cool e U) (d : Fin n) : |velocity U d| ≤ Real.sqrt (2 * e) := by
  obtain ⟨he, hcv⟩ := cool_speeds hγ h hU d
  have hg : 0 < γ * (γ - 1) := mul_pos (by linarith) (by linarith)
  have h4 : 0 ≤ soundSpeed γ U ^ 2 / (γ * (γ - 1)) := by positivity
  exact Real.abs_le_sqrt (by linarith)

theorem cool_pressure (hγ : 1 < γ) {e : ℝ} {U : Cons n} (h : obeysConstraints γ U) (hU : Cool e U) : pressure γ U ≤ (γ - 1) * (e * U.1) := by
  have hr : 0 < U.1 := h.1
  have h1 := form_eq hγ hr (velocity U)
  have h2 := form_eq hγ hr (0 : Fin n → ℝ)
  have e0 : form (0 : Fin n → ℝ) U = U.2.2 := by simp [form, dot]
  rw [e0, sub_zero] at h2
  have h5 := dot_self_nonneg (velocity U)
  have h6 : 0 ≤ 0.5 * U.1 * dot (velocity U) (velocity U) := by positivity
  have h7 : pressure γ U / (γ - 1) ≤ e * U.1 := by rw [Cool] at hU; linarith
  rwa [div_le_iff₀' (by linarith)] at h7

theorem cool_mean (hγ : 1 < γ) {e : ℝ} {L R : Cons n} (hL : obeysConstraints γ L) (hR : obeysConstraints γ R) (qL : Cool e L) (qR : Cool e R) :
    meanSound γ L R ≤ Real.sqrt (2 * e) * Real.sqrt (γ * (γ - 1)) := by
  have h1 := cool_pressure hγ hL qL
  have h2 := cool_pressure hγ hR qR
  have rL : 0 < L.rho := hL.1
  have rR : 0 < R.rho := hR.1
  have pL : 0 < pressure γ L := hL.2
  have he : 0 < e := by
    by_contra hcon
    have : (γ - 1) * (e * L.1) ≤ 0 := mul_nonpos_of_nonneg_of_nonpos (by linarith) (mul_nonpos_of_nonpos_of_nonneg (not_lt.1 hcon) (le_of_lt rL))
    linarith
  have sL : 0 < Real.sqrt L.rho := Real.sqrt_pos.2 rL
  have sR : 0 < Real.sqrt R.rho := Real.sqrt_pos.2 rR
  rw [← Real.sqrt_mul (by linarith)]
  apply Real.sqrt_le_sqrt
  have hg : 0 < γ - 1 := by linarith
  have hm : meanPressure γ L R ≤ (γ - 1) * e * (L.rho + R.rho) := by
    rw [meanPressure, div_le_iff₀ (by linarith)]
    have a1 := mul_le_mul_of_nonneg_right h1 sL.le
    have a2 := mul_le_mul_of_nonneg_right h2 sR.le
    have a3 : 0 ≤ (γ - 1) * e * (L.rho * Real.sqrt R.rho + R.rho * Real.sqrt L.rho) := by positivity
    have e1 : L.1 = L.rho := rfl
    have e2 : R.1 = R.rho := rfl
    rw [e1] at a1
    rw [e2] at a2
    linarith
  rw [div_le_iff₀ (by linarith)]
  have := mul_le_mul_of_nonneg_left hm (show 0 ≤ γ by linarith)
  linarith

theorem cool_meanVelocity (hγ : 1 < γ) {e : ℝ} {L R : Cons n} (hL : obeysConstraints γ L) (hR : obeysConstraints γ R) (qL : Cool e L) (qR : Cool e R) (d : Fin n) :
    |meanVelocity d L R| ≤ Real.sqrt (2 * e) := by
  have h1 := abs_le.1 (cool_velocity hγ hL qL d)
  have h2 := abs_le.1 (cool_velocity hγ hR qR d)
  have sL : 0 < Real.sqrt L.rho := Real.sqrt_pos.2 hL.1
  have sR : 0 < Real.sqrt R.rho := Real.sqrt_pos.2 hR.1
  have h3 : (0 : ℝ) < Real.sqrt L.rho + Real.sqrt R.rho := by positivity
  rw [abs_le]
  constructor
  · rw [meanVelocity, le_div_iff₀ h3]; nlinarith
  · rw [meanVelocity, div_le_iff₀ h3]; nlinarith

theorem cool_sound (hγ : 1 < γ) {e : ℝ} {U : Cons n} (h : obeysConstraints γ U) (hU : Cool e U) : soundSpeed γ U ≤ Real.sqrt (2 * e) * Real.sqrt (γ * (γ - 1)) := by
  have := cool_mean hγ h h hU hU
  have e1 : meanSound γ U U = soundSpeed γ U := by
    have hr : 0 < Real.sqrt U.rho := Real.sqrt_pos.2 h.1
    have h1 : meanPressure γ U U = pressure γ U := by
      simp only [meanPressure]; field_simp
    rw [meanSound, h1, soundSpeed]
    congr 2
    ring
  rwa [e1] at this

/-- The wave speed at a face between two states with little energy. -/
theorem cool_hll (hγ : 1 < γ) {e : ℝ} {L R : Cons n} (hL : obeysConstraints γ L) (hR : obeysConstraints γ R) (qL : Cool e L) (qR : Cool e R) (d : Fin n) :
    (hll γ d L R).2 ≤ topSpeed γ e := by
  have a1 := abs_le.1 (cool_velocity hγ hL qL d)
  have a2 := abs_le.1 (cool_velocity hγ hR qR d)
  have a3 := abs_le.1 (cool_meanVelocity hγ hL hR qL qR d)
  have b1 := cool_sound hγ hL qL
  have b2 := cool_sound hγ hR qR
  have b3 := cool_mean hγ hL hR qL qR
  have c1 : 0 ≤ soundSpeed γ L := Real.sqrt_nonneg _
  have c2 : 0 ≤ soundSpeed γ R := Real.sqrt_nonneg _
  have c3 : 0 ≤ meanSound γ L R := Real.sqrt_nonneg _
  have t : topSpeed γ e = Real.sqrt (2 * e) + Real.sqrt (2 * e) * Real.sqrt (γ * (γ - 1)) := by unfold topSpeed; ring
  simp only [hll, hllSpeeds]
  rw [t]
  refine max_le (abs_le.2 ⟨?_, ?_⟩) (abs_le.2 ⟨?_, ?_⟩)
  · exact le_min (by linarith) (by linarith)
  · exact (min_le_left _ _).trans (by linarith)
  · exact le_trans (by linarith) (le_max_right _ _)
  · exact max_le (by linarith) (by linarith)

end Verif.Euler

namespace Verif.EulerRun
open Integrator Simulator NetFlux WholeRun Euler EulerFlux
variable {b : BC} {n G active : I3} {g dims m : Nat} {γ : ℝ}

/-- The HLL flux of two states. -/
noncomputable def hllTwo (m : Nat) (γ : ℝ) (d : Nat) (l r : Cons m) : Cons m × ℝ := if h : d < m then hll γ ⟨d, h⟩ l r else 0

theorem cone_sum {Q : Cons m → Prop} (hQ : Cone Q) {ι : Type} (l : List ι) (t : ι → Cons m) (h : ∀ i ∈ l, Q (t i)) : Q (l.map t).sum := by
  induction l with
  | nil => exact hQ.zero
  | cons i l ih =>
    rw [List.map_cons, List.sum_cons]
    exact hQ.add (h i (by simp)) (ih fun j hj => h j (by simp [hj]))

theorem above_cone : Cone (Above (n := m)) := ⟨above_zero, fun h h' => h.add h', fun h ha => h.smul ha⟩

/-- What is left in a cell after a forward Euler step. -/
theorem cell_cone {Q : Cons m → Prop} (hQ : Cone Q) (hγ : 1 < γ) (hm : dims ≤ m) (u : Cons m) (L R : Nat → Cons m) (hu : obeysConstraints γ u) (hL : ∀ d, obeysConstraints γ (L d))
    (hR : ∀ d, obeysConstraints γ (R d)) (qu : Q u) (aL : ∀ d (e : Fin m), Away Q γ e (L d)) (au : ∀ e : Fin m, Away Q γ e u) (aR : ∀ d (e : Fin m), Away Q γ e (R d)) (S : Nat → ℝ)
    (hS : ∀ d < dims, (hllTwo m γ d (L d) u).2 ≤ S d ∧ (hllTwo m γ d u (R d)).2 ≤ S d) (κ : ℝ) :
    ∃ Z, Q Z ∧ u + κ • ((List.range dims).map fun d => (hllTwo m γ d (L d) u).1 - (hllTwo m γ d u (R d)).1).sum = (1 - κ * ((List.range dims).map S).sum) • u + κ • Z := by
  refine ⟨((List.range dims).map fun d => S d • u + ((hllTwo m γ d (L d) u).1 - (hllTwo m γ d u (R d)).1)).sum, cone_sum hQ _ _ fun d hd => ?_, ?_⟩
  · have hd : d < dims := by simpa using hd
    have hd' : d < m := by omega
    obtain ⟨h1, h2⟩ := hS d hd
    simp only [hllTwo, hd', dif_pos] at h1 h2 ⊢
    exact hll_keepsQ hQ hγ ⟨d, hd'⟩ (hL d) hu (hR d) qu (aL d _) (au _) (aR d _) _ h1 h2
  · have esum : ∀ l : List Nat, (l.map fun d => S d • u + ((hllTwo m γ d (L d) u).1 - (hllTwo m γ d u (R d)).1)).sum =
        (l.map S).sum • u + (l.map fun d => (hllTwo m γ d (L d) u).1 - (hllTwo m γ d u (R d)).1).sum := by
      intro l
      induction l with
      | nil => simp
      | cons d l ih =>
        simp only [List.map_cons, List.sum_cons]
        rw [ih]
        module
    rw [esum]
    module

/-- Positive density and pressure, and at most the energy `e` per mass. -/
def Fair (γ e : ℝ) (U : Cons m) : Prop := obeysConstraints γ U ∧ Cool e U

theorem fair_pos (hγ : 1 < γ) {e : ℝ} {U : Cons m} (h : Fair γ e U) : 0 < e := by
  have h1 := cool_pressure hγ h.1 h.2
  have h2 : 0 < pressure γ U := h.1.2
  have h3 : 0 < U.1 := h.1.1
  by_contra hcon
  have : (γ - 1) * (e * U.1) ≤ 0 := mul_nonpos_of_nonneg_of_nonpos (by linarith) (mul_nonpos_of_nonpos_of_nonneg (not_lt.1 hcon) h3.le)
  linarith

theorem fair_mono {e e' : ℝ} (he : e ≤ e') {U : Cons m} (h : Fair γ e U) : Fair γ e' U := ⟨h.1, cool_mono he (le_of_lt h.1.1) h.2⟩

theorem fair_convex (hγ : 1 < γ) {e : ℝ} {U V : Cons m} (hU : Fair γ e U) (hV : Fair γ e V) {a b : ℝ} (ha : 0 < a) (hb : 0 ≤ b) : Fair γ e (a • U + b • V) := by
  refine ⟨obeys_add hγ (obeys_smul hγ hU.1 ha) ((obeys_above hγ hV.1).smul hb), ?_⟩
  exact (cool_cone e).add ((cool_cone e).smul hU.2 ha.le) ((cool_cone e).smul hV.2 hb)

/-- One forward Euler step of a cell: density and pressure stay positive, and the energy per mass grows by at most three quarters. -/
theorem cell_fair (hγ : 1 < γ) (hm : dims ≤ m) {e : ℝ} (u : Cons m) (L R : Nat → Cons m) (hu : Fair γ e u) (hL : ∀ d, Fair γ e (L d)) (hR : ∀ d, Fair γ e (R d)) (S : Nat → ℝ)
    (hS : ∀ d < dims, (hllTwo m γ d (L d) u).2 ≤ S d ∧ (hllTwo m γ d u (R d)).2 ≤ S d) {κ : ℝ} (hκ : 0 ≤ κ) (hlt : κ * ((List.range dims).map S).sum < 1) :
    Fair γ (7 / 4 * e) (u + κ • ((List.range dims).map fun d => (hllTwo m γ d (L d) u).1 - (hllTwo m γ d u (R d)).1).sum) := by
  constructor
  · obtain ⟨Z, hZ, eq⟩ := cell_cone above_cone hγ hm u L R hu.1 (fun d => (hL d).1) (fun d => (hR d).1) (obeys_above hγ hu.1) (fun d e => above_away hγ (hL d).1 e) (above_away hγ hu.1)
      (fun d e => above_away hγ (hR d).1 e) S hS κ
    rw [eq]
    exact obeys_add hγ (obeys_smul hγ hu.1 (by linarith)) (hZ.smul hκ)
  · obtain ⟨Z, hZ, eq⟩ := cell_cone (cool_cone (7 / 4 * e)) hγ hm u L R hu.1 (fun d => (hL d).1) (fun d => (hR d).1)
      (fair_mono (by have := fair_pos hγ hu; linarith) hu).2 (fun d e => cool_away hγ (hL d).1 (hL d).2 e) (cool_away hγ hu.1 hu.2)
      (fun d e => cool_away hγ (hR d).1 (hR d).2 e) S hS κ
    rw [eq]
    exact (cool_cone _).add ((cool_cone _).smul (fair_mono (by have := fair_pos hγ hu; linarith) hu).2 (by linarith)) ((cool_cone _).smul hZ hκ)

/-- The energy per mass in terms of the wave speeds, when there are waves in every direction of the equation. -/
noncomputable def energyFactor (γ : ℝ) : ℝ := max (1 / (γ * (γ - 1))) (1 / 2)

theorem fair_start (hγ : 1 < γ) (hm : 0 < m) (u : Cons m) (L R : Nat → Cons m) (hu : obeysConstraints γ u) (S : Nat → ℝ)
    (hS : ∀ d < m, (hllTwo m γ d (L d) u).2 ≤ S d ∧ (hllTwo m γ d u (R d)).2 ≤ S d) : Fair γ (energyFactor γ * ((List.range m).map S).sum ^ 2) u := by
  refine ⟨hu, ?_⟩
  rw [Cool, energy_eq hγ hu, mul_comm]
  refine mul_le_mul_of_nonneg_right ?_ (le_of_lt hu.1)
  set c := soundSpeed γ u with hc
  have hc0 : 0 ≤ c := Real.sqrt_nonneg _
  have hv : ∀ d : Fin m, |velocity u d| + c ≤ S d := by
    intro d
    obtain ⟨h1, h2⟩ := hS d d.2
    simp only [hllTwo, d.2, dif_pos] at h1 h2
    have k1 : velocity u d + c ≤ S d := by
      refine le_trans ?_ h1
      simp only [hll]
      refine le_trans ?_ ((le_abs_self _).trans (le_max_right _ _))
      exact le_max_left _ _
    have k2 : c - velocity u d ≤ S d := by
      refine le_trans ?_ h2
      simp only [hll]
      refine le_trans ?_ ((neg_le_abs _).trans (le_max_left _ _))
      have : (hllSpeeds γ d u (R d)).1 ≤ velocity u d - c := min_le_left _ _
      linarith
    rcases abs_cases (velocity u d) with ⟨h, -⟩ | ⟨h, -⟩ <;> rw [h] <;> linarith
  have esum : ((List.range m).map S).sum = ∑ d : Fin m, S d := by
    rw [← List.sum_ofFn]
    congr 1
    apply List.ext_getElem <;> simp
  have hdot : dot (velocity u) (velocity u) ≤ (∑ d : Fin m, |velocity u d|) ^ 2 := by
    have := Finset.sum_sq_le_sq_sum_of_nonneg (s := (Finset.univ : Finset (Fin m))) (f := fun d => |velocity u d|) (fun d _ => abs_nonneg _)
    simp only [sq_abs] at this
    unfold dot
    simpa [pow_two] using this
  have hsum : (∑ d : Fin m, |velocity u d|) + c ≤ ∑ d : Fin m, S d := by
    have h1 : ∑ d : Fin m, (|velocity u d| + c) ≤ ∑ d : Fin m, S d := Finset.sum_le_sum fun d _ => hv d
    rw [Finset.sum_add_distrib] at h1
    simp only [Finset.sum_const, Finset.card_univ, Fintype.card_fin, nsmul_eq_mul] at h1
    have : (1 : ℝ) ≤ m := by exact_mod_cast hm
    nlinarith
  rw [esum]
  have hx : 0 ≤ ∑ d : Fin m, |velocity u d| := Finset.sum_nonneg fun d _ => abs_nonneg _
  generalize (∑ d : Fin m, |velocity u d|) = x at *
  generalize (∑ d : Fin m, S d) = T at *
  have f1 : 1 / (γ * (γ - 1)) ≤ energyFactor γ := le_max_left _ _
  have f2 : 1 / 2 ≤ energyFactor γ := le_max_right _ _
  have f0 : 0 < energyFactor γ := by linarith
  have g1 : c ^ 2 / (γ * (γ - 1)) ≤ energyFactor γ * c ^ 2 := by
    rw [div_eq_mul_one_div, mul_comm]
    exact mul_le_mul_of_nonneg_right f1 (sq_nonneg c)
  have g2 : dot (velocity u) (velocity u) / 2 ≤ energyFactor γ * x ^ 2 := by
    have : 1 / 2 * x ^ 2 ≤ energyFactor γ * x ^ 2 := mul_le_mul_of_nonneg_right f2 (sq_nonneg x)
    linarith
  have g3 : c ^ 2 + x ^ 2 ≤ T ^ 2 := by nlinarith
  nlinarith

/-- What the CFL number is multiplied with for the later stages of the Runge-Kutta schemes. -/
noncomputable def stageFactor (m : Nat) (γ : ℝ) : ℝ := m * (7 / 4 * Real.sqrt (2 * energyFactor γ) * (1 + Real.sqrt (γ * (γ - 1))))

theorem one_le_stageFactor (hγ : 1 < γ) (hm : 0 < m) : 1 ≤ stageFactor m γ := by
  have h1 : (1 : ℝ) ≤ m := by exact_mod_cast hm
  have h2 : 1 ≤ Real.sqrt (2 * energyFactor γ) := by
    rw [Real.one_le_sqrt]
    have : 1 / 2 ≤ energyFactor γ := le_max_right _ _
    linarith
  have h3 : 0 ≤ Real.sqrt (γ * (γ - 1)) := Real.sqrt_nonneg _
  have h4 : 1 ≤ 7 / 4 * Real.sqrt (2 * energyFactor γ) := by linarith
  exact one_le_mul_of_one_le_of_one_le h1 (one_le_mul_of_one_le_of_one_le h4 (by linarith))

/-- The speed at the latest stage. -/
theorem topSpeed_eq {T : ℝ} (hT : 0 ≤ T) {e : ℝ} (he : e ≤ (7 / 4) * ((7 / 4) * (energyFactor γ * T ^ 2))) : m * topSpeed γ e ≤ stageFactor m γ * T := by
  have h0 : 0 ≤ 2 * energyFactor γ := by
    have : 1 / 2 ≤ energyFactor γ := le_max_right _ _
    linarith
  have h1 : Real.sqrt (2 * e) ≤ 7 / 4 * Real.sqrt (2 * energyFactor γ) * T := by
    rw [show 7 / 4 * Real.sqrt (2 * energyFactor γ) * T = Real.sqrt (2 * energyFactor γ) * (7 / 4 * T) by ring]
    rw [← Real.sqrt_sq (show 0 ≤ 7 / 4 * T by linarith), ← Real.sqrt_mul h0]
    exact Real.sqrt_le_sqrt (by nlinarith)
  have h3 : 0 ≤ 1 + Real.sqrt (γ * (γ - 1)) := by have := Real.sqrt_nonneg (γ * (γ - 1)); linarith
  have h2 := mul_le_mul_of_nonneg_right h1 h3
  have h4 := mul_le_mul_of_nonneg_left h2 (show (0 : ℝ) ≤ m from Nat.cast_nonneg m)
  unfold topSpeed stageFactor
  linarith

/-- One time step with Runge-Kutta 2 or 3 keeps density and pressure positive. -/
theorem stages_positive (hγ : 1 < γ) (hL : Layout n G active dims g) (hN : ∀ d < dims, 3 * G.get d ≤ n.get d) (hpos : 0 < dims) (hg : 1 ≤ g)
    {work : NetFlux.State (Cons dims) ℝ} (hwork : Sized n work) (len : Nat → ℝ) (hlen : ∀ d, 0 ≤ len d) (hlen0 : 0 < len 0) (hcube : ∀ d < dims, len d = len 0) {dt : ℝ} (hdt : 0 ≤ dt)
    (k : Kind) (hk : k ≠ .rungeKutta4) (w : Step.Cells n G → Cons dims)
    (hcfl : stageFactor dims γ * (dt * Props.cflSum (Step.waves b dims CudaRecon.noRecon (twoPoint (hllTwo dims γ)) n G active g work w) len) < 1)
    (hw : ∀ p, obeysConstraints γ (w p)) (p : Step.Cells n G) :
    obeysConstraints γ (textbook k (fun w => (1 / len 0) • Step.rhs b dims CudaRecon.noRecon (twoPoint (hllTwo dims γ)) n G g w) dt w p) := by
  have hdl := hL.dims_le
  have hws := ScalarRun.waves_nonneg (b := b) hL hN hpos (fits (hllTwo dims γ) hg) hwork w
  have hupd := fun (v : Step.Cells n G → Cons dims) p => update_eq (b := b) hL hN hpos hg (hllTwo dims γ) hwork v p
  set ws := Step.waves b dims CudaRecon.noRecon (twoPoint (hllTwo dims γ)) n G active g work w with hwsd
  set κ := dt / len 0 with hκ
  have hκ0 : 0 ≤ κ := div_nonneg hdt hlen0.le
  have hone := one_le_stageFactor hγ hpos
  set T := ((List.range dims).map ws).sum with hT
  have hT0 : 0 ≤ T := List.sum_nonneg fun x hx => by
    obtain ⟨d, -, rfl⟩ := List.mem_map.1 hx
    exact hws d
  have hlt : stageFactor dims γ * (κ * T) < 1 :=
    (mul_le_mul_of_nonneg_left (cfl_directions hdl ws len hws hlen hlen0 hcube hdt) (by linarith)).trans_lt hcfl
  have hlt1 : κ * T < 1 := by nlinarith [mul_nonneg hκ0 hT0]
  set E : (Step.Cells n G → Cons dims) → Step.Cells n G → Cons dims := fun v =>
    v + dt • (1 / len 0) • Step.rhs b dims CudaRecon.noRecon (twoPoint (hllTwo dims γ)) n G g v with hE
  have hEp : ∀ v p, E v p = v p + κ • Step.rhs b dims CudaRecon.noRecon (twoPoint (hllTwo dims γ)) n G g v p := by
    intro v p
    simp only [hE, Pi.add_apply, Pi.smul_apply, smul_smul]
    congr 2
    rw [hκ]; ring
  set e0 := energyFactor γ * T ^ 2 with he0
  -- the data
  have f0 : ∀ p, Fair γ e0 (w p) := by
    intro p
    obtain ⟨L, R, -, hS⟩ := hupd w p
    exact fair_start hγ hpos (w p) (fun d => w (L d)) (fun d => w (R d)) (hw p) ws hS
  have e0pos : 0 < e0 := fair_pos hγ (f0 p)
  -- the first stage
  have f1 : ∀ p, Fair γ (7 / 4 * e0) (E w p) := by
    intro p
    obtain ⟨L, R, e, hS⟩ := hupd w p
    rw [hEp, e]
    exact cell_fair hγ le_rfl (w p) (fun d => w (L d)) (fun d => w (R d)) (f0 p) (fun d => f0 _) (fun d => f0 _) ws hS hκ0 hlt1
  -- the later stages
  have later : ∀ (v : Step.Cells n G → Cons dims) (e : ℝ), e ≤ 7 / 4 * (7 / 4 * e0) → (∀ p, Fair γ e (v p)) → ∀ p, Fair γ (7 / 4 * e) (E v p) := by
    intro v e he hv p
    obtain ⟨L, R, eq, -⟩ := hupd v p
    rw [hEp, eq]
    refine cell_fair hγ le_rfl (v p) (fun d => v (L d)) (fun d => v (R d)) (hv p) (fun d => hv _) (fun d => hv _) (fun _ => topSpeed γ e) (fun d hd => ?_) hκ0 ?_
    · simp only [hllTwo, hd, dif_pos]
      exact ⟨cool_hll hγ (hv _).1 (hv _).1 (hv _).2 (hv _).2 _, cool_hll hγ (hv _).1 (hv _).1 (hv _).2 (hv _).2 _⟩
    · have h1 := topSpeed_eq (m := dims) (γ := γ) hT0 he
      have h2 := mul_le_mul_of_nonneg_left h1 hκ0
      simp only [List.map_const', List.length_range, List.sum_replicate, nsmul_eq_mul]
      linarith
  cases k with
  | forwardEuler => exact (f1 p).1
  | rungeKutta2 =>
    have e : textbook .rungeKutta2 (fun w => (1 / len 0) • Step.rhs b dims CudaRecon.noRecon (twoPoint (hllTwo dims γ)) n G g w) dt w p =
        (1 / 2 : ℝ) • w p + (1 / 2 : ℝ) • E (E w) p := rfl
    rw [e]
    exact (fair_convex hγ (fair_mono (by linarith) (f0 p)) (later _ _ (by linarith) f1 p) (by norm_num) (by norm_num)).1
  | rungeKutta3 =>
    set w2 : Step.Cells n G → Cons dims := (3 / 4 : ℝ) • w + (1 / 4 : ℝ) • E (E w) with hw2
    have e : textbook .rungeKutta3 (fun w => (1 / len 0) • Step.rhs b dims CudaRecon.noRecon (twoPoint (hllTwo dims γ)) n G g w) dt w p =
        (1 / 3 : ℝ) • w p + (2 / 3 : ℝ) • E w2 p := rfl
    have f2 : ∀ p, Fair γ (7 / 4 * (7 / 4 * e0)) (w2 p) := fun p =>
      fair_convex hγ (fair_mono (by linarith) (f0 p)) (later _ _ (by linarith) f1 p) (by norm_num) (by norm_num)
    rw [e]
    exact (fair_convex hγ (fair_mono (by linarith) (f0 p)) (later _ _ le_rfl f2 p) (by norm_num) (by norm_num)).1
  | rungeKutta4 => exact absurd rfl hk

/-- Whole runs. -/
theorem run_stages_positive {σ : Type} (hγ : 1 < γ) (hg : 1 ≤ g) (hL : Layout n G active dims g) (hN : ∀ d < dims, 3 * G.get d ≤ n.get d) (hpos : 0 < dims)
    (work : NetFlux.State (Cons dims) ℝ) (hw : Sized n work) (k : Kind) (hk : k ≠ .rungeKutta4)
    (waveAdj : List (ℝ → ℝ)) (hwave : ∀ f ∈ waveAdj, ∀ w, w ≤ f w) (len : Nat → ℝ) (hlen : ∀ d, 0 ≤ len d) (hlen0 : 0 < len 0) (hcube : ∀ d < dims, len d = len 0)
    (cfl : ℝ) (hcfl0 : 0 < cfl) (hcfl : stageFactor dims γ * cfl < 1) (endTime : ℝ) (obeys : (I3 → Cons dims) → Bool) (writers : List ((I3 → Cons dims) → TimeInfo ℝ → σ → Res σ))
    (adj : σ → List (Adjuster ℝ)) (wst : σ) (Fine : σ → TimeInfo ℝ → Prop) (hadj : WholeRun.Punctual writers adj wst Fine)
    (c : Config (I3 → Cons dims) ℝ σ)
    (hc : c = ⟨k, ⟨Step.cpuSystem dims CudaRecon.noRecon (twoPoint (hllTwo dims γ)) n G active work, waveAdj, len, cfl⟩, Step.cpuBoundary b n g dims, obeys, writers, adj, endTime⟩)
    (u : I3 → Cons dims) (spare : List (I3 → Cons dims)) (hspare : spare.length = k.substeps) (hu : ∀ p, IsInterior n G p → obeysConstraints γ (u p)) (fuel : Nat) :
    (∀ s', (start c u spare wst >>= run c fuel) = .ok (some s') →
      (∃ u', s'.vols[0]? = some u' ∧ ∀ p, IsInterior n G p → obeysConstraints γ (u' p)) ∧ ∀ call ∈ s'.log, ∀ p, IsInterior n G p → obeysConstraints γ (call.state p)) ∧
    ((∀ v, (∀ p, inSize n p = true → obeysConstraints γ (v p)) → obeys v = true) →
      (start c u spare wst >>= run c fuel) = (start { c with obeys := fun _ => true } u spare wst >>= run { c with obeys := fun _ => true } fuel)) := by
  subst hc
  have hs := Step.sound (b := b) hL (fits (hllTwo dims γ) hg) hN hpos hw
  set c : Config (I3 → Cons dims) ℝ σ :=
    ⟨k, ⟨Step.cpuSystem dims CudaRecon.noRecon (twoPoint (hllTwo dims γ)) n G active work, waveAdj, len, cfl⟩, Step.cpuBoundary b n g dims, obeys, writers, adj, endTime⟩ with hc
  have hst : WholeRun.Steps c (Step.waves b dims CudaRecon.noRecon (twoPoint (hllTwo dims γ)) n G active g work) := ⟨hwave, ScalarRun.waves_nonneg hL hN hpos (fits _ hg) hw, hlen, hcfl0⟩
  have hP : WholeRun.Preserves c (Step.rhs b dims CudaRecon.noRecon (twoPoint (hllTwo dims γ)) n G g) (Step.waves b dims CudaRecon.noRecon (twoPoint (hllTwo dims γ)) n G active g work)
      (fun w : Step.Cells n G → Cons dims => ∀ p, obeysConstraints γ (w p)) :=
    fun w dt hP h0 h1 p => stages_positive hγ hL hN hpos hg hw len hlen hlen0 hcube h0 k hk w
      ((mul_le_mul_of_nonneg_left h1 (by have := one_le_stageFactor hγ hpos; linarith)).trans_lt hcfl) hP p
  refine ⟨fun s' h => ?_, fun hob => ?_⟩
  · obtain ⟨⟨u', h1, h2⟩, h3⟩ := WholeRun.run_punctual hs hst wst hadj hP u spare hspare (fun p : Step.Cells n G => hu p p.2) fuel s' h
    exact ⟨⟨u', h1, fun p hp => h2 ⟨p, hp⟩⟩, fun call hcall p hp => h3 call hcall ⟨p, hp⟩⟩
  · refine WholeRun.run_unchecked_punctual hs hst wst hadj hP ?_ u spare hspare (fun p : Step.Cells n G => hu p p.2) fuel
    rintro v ⟨w, hv⟩ hvP
    refine hob v fun p hp => ?_
    obtain ⟨q, hq⟩ := ScalarRun.extend_mem (b := b) hL hN (w := w) hp
    rw [hv p hp, hq]
    have e : v q.1 = w q := by rw [hv q.1 (Step.interior_inSize hL q.2), Step.extend_interior hL w q.2]
    rw [← e]
    exact hvP q

/-! ### Runs of one step -/

section
variable {V : Type} [AddCommGroup V] [Module ℝ V]

/-- As `config3`, with any integrator. -/
noncomputable def config3k (k : Kind) (F : Nat → V → V → V × ℝ) (cfl endTime : ℝ) : Config (I3 → V) ℝ Unit :=
  ⟨k, ⟨Step.cpuSystem 1 CudaRecon.noRecon (twoPoint F) ⟨5, 1, 1⟩ ⟨1, 0, 0⟩ ⟨1, 0, 0⟩ (work3 V), [], fun _ => 1, cfl⟩, Step.cpuBoundary .periodic ⟨5, 1, 1⟩ 1 1,
    fun _ => true, [], fun _ => [], endTime⟩

omit [Module ℝ V] in
theorem face3 (F : Nat → V → V → V × ℝ) (a b c : V) (x : Int) (hx : 0 ≤ x ∧ x ≤ 3) : face CudaRecon.noRecon (twoPoint F)
    (Step.extend .periodic ⟨5, 1, 1⟩ ⟨1, 0, 0⟩ 1 1 (fun p : Step.Cells ⟨5, 1, 1⟩ ⟨1, 0, 0⟩ => data3 a b c p)) 0 ⟨x, 0, 0⟩ =
    F 0 (if x = 0 then c else if x = 1 then a else if x = 2 then b else c) (if x = 0 then a else if x = 1 then b else if x = 2 then c else a) := by
  rw [face_eq _ _ (by decide)]
  have e : (⟨x, 0, 0⟩ + I3.dir 0 : I3) = ⟨x + 1, 0, 0⟩ := rfl
  rw [e, (faces3 a b c x hx).1, (faces3 a b c x hx).2]

theorem cells3 (p : Step.Cells ⟨5, 1, 1⟩ ⟨1, 0, 0⟩) : p.1 = ⟨1, 0, 0⟩ ∨ p.1 = ⟨2, 0, 0⟩ ∨ p.1 = ⟨3, 0, 0⟩ := by
  obtain ⟨⟨x, y, z⟩, hp⟩ := p
  have h0 := hp 0 (by decide); have h1 := hp 1 (by decide); have h2 := hp 2 (by decide)
  simp [I3.get] at h0 h1 h2
  simp
  omega

omit [Module ℝ V] in
theorem rhs3 (F : Nat → V → V → V × ℝ) (a b c : V) :
    Step.rhs .periodic 1 CudaRecon.noRecon (twoPoint F) ⟨5, 1, 1⟩ ⟨1, 0, 0⟩ 1 (fun p : Step.Cells ⟨5, 1, 1⟩ ⟨1, 0, 0⟩ => data3 a b c p) =
      fun p : Step.Cells ⟨5, 1, 1⟩ ⟨1, 0, 0⟩ => data3 ((F 0 c a).1 - (F 0 a b).1) ((F 0 a b).1 - (F 0 b c).1) ((F 0 b c).1 - (F 0 c a).1) p := by
  funext p
  obtain ⟨p, hp⟩ := p
  have hc := cells3 ⟨p, hp⟩
  simp only [Step.rhs, net, List.range_succ, List.range_zero, List.nil_append, List.map_cons, List.map_nil, List.sum_cons, List.sum_nil]
  simp only at hc
  rcases hc with rfl | rfl | rfl
  · simp only [show (⟨1, 0, 0⟩ - I3.dir 0 : I3) = ⟨0, 0, 0⟩ from rfl, face3 F a b c 0 (by decide), face3 F a b c 1 (by decide)]
    simp [data3]
  · simp only [show (⟨2, 0, 0⟩ - I3.dir 0 : I3) = ⟨1, 0, 0⟩ from rfl, face3 F a b c 1 (by decide), face3 F a b c 2 (by decide)]
    simp [data3]
  · simp only [show (⟨3, 0, 0⟩ - I3.dir 0 : I3) = ⟨2, 0, 0⟩ from rfl, face3 F a b c 2 (by decide), face3 F a b c 3 (by decide)]
    simp [data3]

theorem add3 (a b c a' b' c' : V) (κ κ' : ℝ) : (κ' • (fun p : Step.Cells ⟨5, 1, 1⟩ ⟨1, 0, 0⟩ => data3 a b c p) + κ • fun p : Step.Cells ⟨5, 1, 1⟩ ⟨1, 0, 0⟩ => data3 a' b' c' p) =
    fun p : Step.Cells ⟨5, 1, 1⟩ ⟨1, 0, 0⟩ => data3 (κ' • a + κ • a') (κ' • b + κ • b') (κ' • c + κ • c') p := by
  funext p
  simp only [data3, Pi.add_apply, Pi.smul_apply]
  split_ifs <;> simp

theorem run3k (k : Kind) (F : Nat → V → V → V × ℝ) (a b c : V) (s : ℝ) (hs : 0 < s) (h1 : (F 0 c a).2 ≤ s) (h2 : (F 0 a b).2 ≤ s) (h3 : (F 0 b c).2 ≤ s)
    (h : (F 0 c a).2 = s ∨ (F 0 a b).2 = s ∨ (F 0 b c).2 = s) (cfl endTime : ℝ) (he0 : 0 < endTime) (he1 : endTime ≤ cfl / s) (spare : List (I3 → V)) (hspare : spare.length = k.substeps) :
    ∃ s' u', (start (config3k k F cfl endTime) (data3 a b c) spare () >>= run (config3k k F cfl endTime) 1) = .ok (some s') ∧ s'.vols[0]? = some u' ∧
      (fun p : Step.Cells ⟨5, 1, 1⟩ ⟨1, 0, 0⟩ => u' p) = textbook k (Step.rhs .periodic 1 CudaRecon.noRecon (twoPoint F) ⟨5, 1, 1⟩ ⟨1, 0, 0⟩ 1) (cfl / s)
        (fun p : Step.Cells ⟨5, 1, 1⟩ ⟨1, 0, 0⟩ => data3 a b c p) := by
  have hf := fits (g := 1) F (le_refl 1)
  have hsound := Step.sound (b := .periodic) layout3 hf (by decide) (by decide) sized3
  have hws : Step.waves .periodic 1 CudaRecon.noRecon (twoPoint F) ⟨5, 1, 1⟩ ⟨1, 0, 0⟩ ⟨1, 0, 0⟩ 1 (work3 V) (fun p : Step.Cells ⟨5, 1, 1⟩ ⟨1, 0, 0⟩ => data3 a b c p) =
      fun k => if k < 1 then s else 0 := by
    obtain ⟨t, e1, -, -, e4, e5⟩ := Step.cpuSystem_ok layout3 hf (by decide) (by decide) sized3
      (Step.extend .periodic ⟨5, 1, 1⟩ ⟨1, 0, 0⟩ 1 1 (fun p : Step.Cells ⟨5, 1, 1⟩ ⟨1, 0, 0⟩ => data3 a b c p)) 0
    funext k
    simp only [Step.waves, e1]
    split_ifs with hk
    · obtain rfl : k = 0 := by omega
      refine (e4 0 hk).unique ⟨Or.inr ?_, ?_⟩
      · rcases h with h | h | h
        · exact ⟨⟨0, 0, 0⟩, by unfold IsFace; decide, by rw [face3 F a b c 0 (by decide)]; exact h.symm⟩
        · exact ⟨⟨1, 0, 0⟩, by unfold IsFace; decide, by rw [face3 F a b c 1 (by decide)]; exact h.symm⟩
        · exact ⟨⟨2, 0, 0⟩, by unfold IsFace; decide, by rw [face3 F a b c 2 (by decide)]; exact h.symm⟩
      · rintro x (rfl | ⟨⟨x, y, z⟩, hq, rfl⟩)
        · exact hs.le
        · unfold IsFace at hq
          simp [mem_box, I3.dir] at hq
          obtain rfl : y = 0 := by omega
          obtain rfl : z = 0 := by omega
          have hx : 0 ≤ x ∧ x ≤ 3 := by omega
          rw [face3 F a b c x hx]
          obtain ⟨a, c⟩ := hx
          interval_cases x <;> simp <;> assumption
    · exact e5 k (by omega)
  obtain ⟨s', u', g1, g2, g3⟩ := WholeRun.run_one_step (c := config3k k F cfl endTime) hsound rfl (fun _ => rfl) (data3 a b c) spare hspare () (cfl / s) (by
    change computeTimestep [] [] (Step.waves .periodic 1 CudaRecon.noRecon (twoPoint F) ⟨5, 1, 1⟩ ⟨1, 0, 0⟩ ⟨1, 0, 0⟩ 1 (work3 V)
      (fun p : Step.Cells ⟨5, 1, 1⟩ ⟨1, 0, 0⟩ => data3 a b c p)) (fun _ => 1) cfl ⟨0, 0⟩ = _
    rw [hws]
    simp [computeTimestep, adjustTimestep, waveSpeedTotal, List.range_succ, hs.ne']) one_ne_zero he0 he1
  refine ⟨s', u', g1, g2, ?_⟩
  have e : (fun w : Step.Cells ⟨5, 1, 1⟩ ⟨1, 0, 0⟩ → V => (1 / (config3k k F cfl endTime).env.len 0) •
      Step.rhs .periodic 1 CudaRecon.noRecon (twoPoint F) ⟨5, 1, 1⟩ ⟨1, 0, 0⟩ 1 w) = Step.rhs .periodic 1 CudaRecon.noRecon (twoPoint F) ⟨5, 1, 1⟩ ⟨1, 0, 0⟩ 1 := by
    funext w
    have : (config3k k F cfl endTime).env.len 0 = 1 := rfl
    rw [this, div_one, one_smul]
  rw [e] at g3
  exact g3

/-- Runge-Kutta 2 in three cells. -/
theorem rk2_3 (F : Nat → V → V → V × ℝ) (a b c a1 b1 c1 : V) (dt : ℝ) (ha : a1 = a + dt • ((F 0 c a).1 - (F 0 a b).1)) (hb : b1 = b + dt • ((F 0 a b).1 - (F 0 b c).1))
    (hc : c1 = c + dt • ((F 0 b c).1 - (F 0 c a).1)) :
    textbook .rungeKutta2 (Step.rhs .periodic 1 CudaRecon.noRecon (twoPoint F) ⟨5, 1, 1⟩ ⟨1, 0, 0⟩ 1) dt (fun p : Step.Cells ⟨5, 1, 1⟩ ⟨1, 0, 0⟩ => data3 a b c p) =
      fun p : Step.Cells ⟨5, 1, 1⟩ ⟨1, 0, 0⟩ => data3 ((1 / 2 : ℝ) • a + (1 / 2 : ℝ) • (a1 + dt • ((F 0 c1 a1).1 - (F 0 a1 b1).1)))
        ((1 / 2 : ℝ) • b + (1 / 2 : ℝ) • (b1 + dt • ((F 0 a1 b1).1 - (F 0 b1 c1).1))) ((1 / 2 : ℝ) • c + (1 / 2 : ℝ) • (c1 + dt • ((F 0 b1 c1).1 - (F 0 c1 a1).1))) p := by
  have step : ∀ a b c : V, (fun p : Step.Cells ⟨5, 1, 1⟩ ⟨1, 0, 0⟩ => data3 a b c p) +
      dt • Step.rhs .periodic 1 CudaRecon.noRecon (twoPoint F) ⟨5, 1, 1⟩ ⟨1, 0, 0⟩ 1 (fun p : Step.Cells ⟨5, 1, 1⟩ ⟨1, 0, 0⟩ => data3 a b c p) =
      fun p : Step.Cells ⟨5, 1, 1⟩ ⟨1, 0, 0⟩ => data3 (a + dt • ((F 0 c a).1 - (F 0 a b).1)) (b + dt • ((F 0 a b).1 - (F 0 b c).1)) (c + dt • ((F 0 b c).1 - (F 0 c a).1)) p := by
    intro a b c
    have := add3 a b c ((F 0 c a).1 - (F 0 a b).1) ((F 0 a b).1 - (F 0 b c).1) ((F 0 b c).1 - (F 0 c a).1) dt 1
    rw [rhs3]
    simpa only [one_smul] using this
  simp only [textbook]
  rw [step a b c, ← ha, ← hb, ← hc, step a1 b1 c1, add3]

end

/-! ### Gas sliding along a face -/

/-- Density one, momentum `x * V` along the face, energy between that of gas at rest (`x = 0`) and of gas moving with velocity `V` (`x = 1`). -/
noncomputable def mixed (V x : ℝ) : Cons 2 := (1, ![0, x * V], 1 / 2 + V ^ 2 / 2 * x)

theorem mixed_pressure (V x : ℝ) : pressure 2 (mixed V x) = 1 / 2 + V ^ 2 / 2 * (x * (1 - x)) := by
  simp only [pressure, mixed, dot, Cons.E, Cons.m, Cons.rho, Fin.sum_univ_two, Matrix.cons_val_zero, Matrix.cons_val_one]; ring

theorem mixed_velocity (V x : ℝ) : velocity (mixed V x) 0 = 0 := by simp [velocity, mixed, Cons.m]

theorem mixed_flux (V x : ℝ) : flux 2 0 (mixed V x) = (0, ![pressure 2 (mixed V x), 0], 0) := by
  have hv := mixed_velocity V x
  refine Prod.ext ?_ (Prod.ext (funext fun i => ?_) ?_)
  · simp [flux, mixed, Cons.m]
  · fin_cases i <;> simp_all [flux, Cons.m]
  · simp_all [flux]

theorem mixed_mean (V x y : ℝ) : meanSound 2 (mixed V x) (mixed V y) = Real.sqrt (1 + V ^ 2 / 2 * (x * (1 - x) + y * (1 - y))) := by
  have hr : ∀ x, (mixed V x).rho = 1 := fun x => rfl
  rw [meanSound, meanPressure, mixed_pressure, mixed_pressure, hr, hr]
  congr 1
  norm_num
  ring

theorem mixed_sound (V x : ℝ) : soundSpeed 2 (mixed V x) = Real.sqrt (1 + V ^ 2 * (x * (1 - x))) := by
  have hr : (mixed V x).rho = 1 := rfl
  rw [soundSpeed, mixed_pressure, hr]
  congr 1
  ring

theorem mixed_speeds (V x y : ℝ) : hllSpeeds 2 0 (mixed V x) (mixed V y) =
    (-max (soundSpeed 2 (mixed V x)) (meanSound 2 (mixed V x) (mixed V y)), max (soundSpeed 2 (mixed V y)) (meanSound 2 (mixed V x) (mixed V y))) := by
  have hmv : meanVelocity 0 (mixed V x) (mixed V y) = 0 := by simp [meanVelocity, mixed_velocity]
  simp only [hllSpeeds, mixed_velocity, hmv, zero_sub, zero_add]
  rw [min_neg_neg]

theorem mixed_hll (V x y p q : ℝ) (hp : 0 < p) (hq : 0 < q) (h : hllSpeeds 2 0 (mixed V x) (mixed V y) = (-p, q)) :
    (hll 2 0 (mixed V x) (mixed V y)).1 = (0, ![(q * pressure 2 (mixed V x) + p * pressure 2 (mixed V y)) / (p + q), -(p * q / (p + q)) * (V * (y - x))],
      -(p * q / (p + q)) * (V ^ 2 / 2 * (y - x))) := by
  simp only [hll, h]
  rw [if_neg (by linarith), if_neg (by linarith), if_neg (by linarith), mixed_flux, mixed_flux]
  have hne : q - -p ≠ 0 := by linarith
  have hne' : p + q ≠ 0 := by linarith
  have e : (q - -p)⁻¹ = 1 / (p + q) := by rw [one_div]; congr 1; ring
  rw [e]
  refine Prod.ext ?_ (Prod.ext (funext fun i => ?_) ?_)
  · simp [mixed]
  · fin_cases i
    · simp [mixed]; field_simp
    · simp [mixed]; field_simp
  · simp [mixed]; field_simp

/-- At the first stage. -/
theorem mixed_first (V x y : ℝ) (hx : x * (1 - x) = 0) (hy : y * (1 - y) = 0) :
    hll 2 0 (mixed V x) (mixed V y) = ((0, ![1 / 2, -(1 / 2) * (V * (y - x))], -(1 / 2) * (V ^ 2 / 2 * (y - x))), 1) := by
  have h : hllSpeeds 2 0 (mixed V x) (mixed V y) = (-1, 1) := by
    rw [mixed_speeds, mixed_sound, mixed_sound, mixed_mean, hx, hy]; simp
  refine Prod.ext ?_ ?_
  · rw [mixed_hll V x y 1 1 one_pos one_pos h, mixed_pressure, mixed_pressure, hx, hy]
    norm_num
  · simp [hll, h]

/-- At the second stage: the energy flux. -/
theorem mixed_second (V x y A : ℝ) (hA : 0 < A) (h : A ^ 2 ≤ V ^ 2 / 2 * (x * (1 - x) + y * (1 - y))) :
    ∃ r, A / 2 ≤ r ∧ (hll 2 0 (mixed V x) (mixed V y)).1.2.2 = -r * (V ^ 2 / 2 * (y - x)) := by
  have hm : A ≤ meanSound 2 (mixed V x) (mixed V y) := by
    rw [mixed_mean]
    exact Real.le_sqrt_of_sq_le (by linarith)
  have hp : A ≤ max (soundSpeed 2 (mixed V x)) (meanSound 2 (mixed V x) (mixed V y)) := hm.trans (le_max_right _ _)
  have hq : A ≤ max (soundSpeed 2 (mixed V y)) (meanSound 2 (mixed V x) (mixed V y)) := hm.trans (le_max_right _ _)
  have hs := mixed_speeds V x y
  generalize max (soundSpeed 2 (mixed V x)) (meanSound 2 (mixed V x) (mixed V y)) = p at *
  generalize max (soundSpeed 2 (mixed V y)) (meanSound 2 (mixed V x) (mixed V y)) = q at *
  refine ⟨p * q / (p + q), ?_, by rw [mixed_hll V x y p q (by linarith) (by linarith) hs]⟩
  rw [le_div_iff₀ (by linarith)]
  nlinarith [mul_nonneg (sub_nonneg.2 hp) (sub_nonneg.2 hq), mul_nonneg hA.le (sub_nonneg.2 hp), mul_nonneg hA.le (sub_nonneg.2 hq)]

end Verif.EulerRun
