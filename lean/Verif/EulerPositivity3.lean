import Verif.EulerPositivity

/-!
Helper lemmas for C88: the flux `hll3` in one dimension keeps the states with positive density and pressure.
-/

namespace Verif.Euler
open EulerFlux
variable {n : Nat} {γ : ℝ}

/-- Half the sound speed suffices for gases with `γ ≤ 2`. -/
theorem half_sound (hγ : 1 < γ) (hγ2 : γ ≤ 2) {U : Cons n} (h : obeysConstraints γ U) {t : ℝ} (ht : soundSpeed γ U / 2 ≤ t) : 0 < t ∧ (γ - 1) * pressure γ U ≤ 2 * (t * t) * U.1 := by
  obtain ⟨hr, hp⟩ := h
  have hr : 0 < U.1 := hr
  have hcp : 0 < soundSpeed γ U := Real.sqrt_pos.2 (div_pos (mul_pos (by linarith) hp) hr)
  have hc2 : soundSpeed γ U * soundSpeed γ U * U.1 = γ * pressure γ U := by
    rw [soundSpeed, Real.mul_self_sqrt (div_nonneg (mul_nonneg (by linarith) hp.le) hr.le)]
    exact div_mul_cancel₀ _ hr.ne'
  have h0 : 0 < t := by linarith
  refine ⟨h0, ?_⟩
  have h1 : soundSpeed γ U / 2 * (soundSpeed γ U / 2) ≤ t * t := mul_le_mul ht ht (by linarith) h0.le
  have h2 : soundSpeed γ U / 2 * (soundSpeed γ U / 2) * U.1 ≤ t * t * U.1 := mul_le_mul_of_nonneg_right h1 hr.le
  nlinarith

/-- Completing the square. -/
theorem square_bound (hγ : 1 < γ) {t p r z s : ℝ} (hs : s = 1 ∨ s = -1) (ht : 0 < t) (hp : 0 < p) (h : (γ - 1) * p ≤ 2 * (t * t) * r) :
    0 ≤ t * (p / (γ - 1)) + s * (p * z) + 0.5 * t * r * (z * z) := by
  have hg : 0 < γ - 1 := by linarith
  have hs2 : s * s = 1 := by rcases hs with rfl | rfl <;> norm_num
  have : 0 ≤ t * (t * (p / (γ - 1)) + s * (p * z) + 0.5 * t * r * (z * z)) := by
    have e : t * (t * (p / (γ - 1)) + s * (p * z) + 0.5 * t * r * (z * z)) =
        p / (γ - 1) * ((t + s * (γ - 1) * z / 2) ^ 2) + (2 * (t * t) * r - (γ - 1) * p) * (z * z) / 4 := by
      field_simp
      linear_combination (-4 * (γ - 1) ^ 2 * z ^ 2 * p) * hs2
    rw [e]
    have h1 : 0 ≤ 2 * (t * t) * r - (γ - 1) * p := by linarith
    have h2 : 0 ≤ z * z := mul_self_nonneg z
    positivity
  exact nonneg_of_mul_nonneg_right (by linarith [this]) ht

/-- States moving away from a face at half the sound speed or more. -/
theorem above_half (hγ : 1 < γ) (hγ2 : γ ≤ 2) {U : Cons n} (h : obeysConstraints γ U) (d : Fin n) (s t : ℝ) (hs : s = 1 ∨ s = -1) (ht : soundSpeed γ U / 2 ≤ t + s * velocity U d) :
    Above (t • U + s • flux γ d U) := by
  obtain ⟨h0, h1⟩ := half_sound hγ hγ2 h ht
  obtain ⟨hr, hp⟩ := h
  have hr : 0 < U.1 := hr
  have e2 : (flux γ d U).1 = velocity U d * U.1 := by
    simp only [flux, velocity]; exact (div_mul_cancel₀ _ hr.ne').symm
  refine ⟨?_, fun w => ?_⟩
  · simp only [Prod.fst_add, Prod.smul_fst, smul_eq_mul, e2]
    have : t * U.1 + s * (velocity U d * U.1) = (t + s * velocity U d) * U.1 := by ring
    rw [this]
    exact mul_nonneg h0.le hr.le
  · rw [form_add, form_smul, form_smul, form_flux hr]
    have hform : pressure γ U / (γ - 1) + 0.5 * U.1 * ((velocity U d - w d) * (velocity U d - w d)) ≤ form w U := by
      rw [form_eq hγ hr]
      have := sq_le_dot (velocity U - w) d
      have e : (velocity U - w) d * (velocity U - w) d = (velocity U d - w d) * (velocity U d - w d) := rfl
      rw [e] at this
      have := mul_le_mul_of_nonneg_left this (show 0 ≤ 0.5 * U.1 by positivity)
      linarith
    have h2 := square_bound hγ hs h0 hp h1 (z := velocity U d - w d)
    have h3 := mul_le_mul_of_nonneg_left hform h0.le
    nlinarith

/-- The left wave is slower than the left gas by at least half its sound speed. -/
theorem hll3_left_half (hγ : 1 < γ) (d : Fin n) {L R : Cons n} (hL : obeysConstraints γ L) (hR : obeysConstraints γ R) :
    soundSpeed γ L / 2 ≤ velocity L d - (hll3Speeds γ d L R).1 := by
  have h1 : (hll3Speeds γ d L R).1 ≤ velocity L d + 0.5 * max 0 (velocity L d - velocity R d) - soundSpeed γ L := min_le_left _ _
  have h2 : (hll3Speeds γ d L R).1 ≤ meanVelocity d L R - meanSound γ L R := min_le_right _ _
  have hcs := meanSound_pos hγ hL hR
  have a0 := Real.sqrt_pos.2 hL.1
  have b0 := Real.sqrt_pos.2 hR.1
  have hc : 0 < soundSpeed γ L := (param hγ hL).1
  rcases le_or_gt (0.5 * max 0 (velocity L d - velocity R d)) (soundSpeed γ L / 2) with h | h
  · linarith
  · have hd : soundSpeed γ L < velocity L d - velocity R d := by
      rcases max_choice 0 (velocity L d - velocity R d) with e | e <;> rw [e] at h <;> linarith
    have ab : 0 < Real.sqrt L.rho + Real.sqrt R.rho := by positivity
    have ev : velocity L d - meanVelocity d L R = Real.sqrt R.rho * (velocity L d - velocity R d) / (Real.sqrt L.rho + Real.sqrt R.rho) := by
      rw [meanVelocity]; field_simp; ring
    rcases le_total (Real.sqrt L.rho) (Real.sqrt R.rho) with hab | hab
    · have : soundSpeed γ L / 2 ≤ velocity L d - meanVelocity d L R := by
        rw [ev, le_div_iff₀ ab]
        nlinarith
      linarith
    · have h3 : 0 ≤ velocity L d - meanVelocity d L R := by
        rw [ev]; exact div_nonneg (mul_nonneg b0.le (by linarith)) ab.le
      have h4 : soundSpeed γ L / 2 ≤ meanSound γ L R := by
        refine Real.le_sqrt_of_sq_le ?_
        obtain ⟨hrL, hpL⟩ := hL
        obtain ⟨hrR, hpR⟩ := hR
        have hc2 : soundSpeed γ L * soundSpeed γ L * L.rho = γ * pressure γ L := by
          rw [soundSpeed, Real.mul_self_sqrt (div_nonneg (mul_nonneg (by linarith) hpL.le) hrL.le)]
          exact div_mul_cancel₀ _ hrL.ne'
        have hle : R.rho ≤ L.rho := by
          have := mul_self_le_mul_self b0.le hab
          rwa [Real.mul_self_sqrt hrL.le, Real.mul_self_sqrt hrR.le] at this
        have hm : pressure γ L / 2 ≤ meanPressure γ L R := by
          rw [meanPressure, le_div_iff₀ ab]
          nlinarith [mul_pos hpR b0]
        have hs : 0 < (L.rho + R.rho) / 2 := by linarith
        rw [le_div_iff₀ hs]
        have h5 : (soundSpeed γ L / 2) ^ 2 * ((L.rho + R.rho) / 2) ≤ (soundSpeed γ L / 2) ^ 2 * L.rho := mul_le_mul_of_nonneg_left (by linarith) (sq_nonneg _)
        nlinarith
      linarith

/-- The right wave is faster than the right gas by at least half its sound speed. -/
theorem hll3_right_half (hγ : 1 < γ) (d : Fin n) {L R : Cons n} (hL : obeysConstraints γ L) (hR : obeysConstraints γ R) :
    soundSpeed γ R / 2 ≤ (hll3Speeds γ d L R).2 - velocity R d := by
  have h1 : velocity R d - 0.5 * max 0 (velocity L d - velocity R d) + soundSpeed γ R ≤ (hll3Speeds γ d L R).2 := le_max_left _ _
  have h2 : meanVelocity d L R + meanSound γ L R ≤ (hll3Speeds γ d L R).2 := le_max_right _ _
  have hcs := meanSound_pos hγ hL hR
  have a0 := Real.sqrt_pos.2 hL.1
  have b0 := Real.sqrt_pos.2 hR.1
  have hc : 0 < soundSpeed γ R := (param hγ hR).1
  rcases le_or_gt (0.5 * max 0 (velocity L d - velocity R d)) (soundSpeed γ R / 2) with h | h
  · linarith
  · have hd : soundSpeed γ R < velocity L d - velocity R d := by
      rcases max_choice 0 (velocity L d - velocity R d) with e | e <;> rw [e] at h <;> linarith
    have ab : 0 < Real.sqrt L.rho + Real.sqrt R.rho := by positivity
    have ev : meanVelocity d L R - velocity R d = Real.sqrt L.rho * (velocity L d - velocity R d) / (Real.sqrt L.rho + Real.sqrt R.rho) := by
      rw [meanVelocity]; field_simp; ring
    rcases le_total (Real.sqrt R.rho) (Real.sqrt L.rho) with hab | hab
    · have : soundSpeed γ R / 2 ≤ meanVelocity d L R - velocity R d := by
        rw [ev, le_div_iff₀ ab]
        nlinarith
      linarith
    · have h3 : 0 ≤ meanVelocity d L R - velocity R d := by
        rw [ev]; exact div_nonneg (mul_nonneg a0.le (by linarith)) ab.le
      have h4 : soundSpeed γ R / 2 ≤ meanSound γ L R := by
        refine Real.le_sqrt_of_sq_le ?_
        obtain ⟨hrL, hpL⟩ := hL
        obtain ⟨hrR, hpR⟩ := hR
        have hc2 : soundSpeed γ R * soundSpeed γ R * R.rho = γ * pressure γ R := by
          rw [soundSpeed, Real.mul_self_sqrt (div_nonneg (mul_nonneg (by linarith) hpR.le) hrR.le)]
          exact div_mul_cancel₀ _ hrR.ne'
        have hle : L.rho ≤ R.rho := by
          have := mul_self_le_mul_self a0.le hab
          rwa [Real.mul_self_sqrt hrL.le, Real.mul_self_sqrt hrR.le] at this
        have hm : pressure γ R / 2 ≤ meanPressure γ L R := by
          rw [meanPressure, le_div_iff₀ ab]
          nlinarith [mul_pos hpL a0]
        have hs : 0 < (L.rho + R.rho) / 2 := by linarith
        rw [le_div_iff₀ hs]
        have h5 : (soundSpeed γ R / 2) ^ 2 * ((L.rho + R.rho) / 2) ≤ (soundSpeed γ R / 2) ^ 2 * R.rho := mul_le_mul_of_nonneg_left (by linarith) (sq_nonneg _)
        nlinarith
      linarith

/-- The middle state times the difference of the speeds. -/
noncomputable def undivided (γ sm : ℝ) (d : Fin 1) (U : Cons 1) (s : ℝ) : Cons 1 :=
  (U.1 * (velocity U d - s), (fun _ => U.1 * (velocity U d - s) * sm),
    (velocity U d - s) * U.2.2 + pressure γ U * velocity U d - starPressure γ d sm U s * sm)

theorem middle_undivided {sm s : ℝ} (hne : sm - s ≠ 0) (d : Fin 1) (us : Fin 1 → ℝ) (hus : us d = sm) (U : Cons 1) :
    hll3Middle γ d sm us U s = (1 / (sm - s)) • undivided γ sm d U s := by
  refine Prod.ext ?_ (Prod.ext (funext fun i => ?_) ?_)
  · simp only [hll3Middle, undivided, Prod.smul_fst, smul_eq_mul]
    rw [one_div, inv_mul_eq_div]
  · rw [Subsingleton.elim i d]
    simp only [hll3Middle, undivided, Prod.smul_snd, Prod.smul_fst, Pi.smul_apply, smul_eq_mul, hus]
    change U.1 * (velocity U d - s) / (sm - s) * sm = _
    field_simp
  · simp only [hll3Middle, undivided, Prod.smul_snd, smul_eq_mul, starPressure]
    rw [one_div, inv_mul_eq_div]

/-- The flux less the transport with the wave. -/
theorem undivided_eq {sm s : ℝ} (d : Fin 1) {U : Cons 1} (hU : U.1 ≠ 0) :
    undivided γ sm d U s = flux γ d U - s • U - ((0, (fun _ => starPressure γ d sm U s), starPressure γ d sm U s * sm) : Cons 1) := by
  have hm : U.2.1 d = U.1 * velocity U d := congrFun (momentum_eq (U := U) hU) d
  have hi : ∀ i : Fin 1, i = d := fun i => Subsingleton.elim _ _
  refine Prod.ext ?_ (Prod.ext (funext fun i => ?_) ?_)
  · simp only [undivided, flux, Prod.fst_sub, Prod.smul_fst, smul_eq_mul, Cons.m, hm]; ring
  · rw [hi i]
    simp only [undivided, flux, Prod.fst_sub, Prod.snd_sub, Prod.smul_fst, Prod.smul_snd, Pi.sub_apply, Pi.smul_apply, smul_eq_mul, Cons.m, hm, if_true, starPressure, Cons.rho]; ring
  · simp only [undivided, flux, Prod.snd_sub, Prod.smul_snd, smul_eq_mul, Cons.E, starPressure]; ring

/-- The middle states have positive density and pressure. -/
theorem undivided_above (hγ : 1 < γ) (hγ2 : γ ≤ 2) (sm s σ : ℝ) (hσ : σ = 1 ∨ σ = -1) (d : Fin 1) {U : Cons 1} (h : obeysConstraints γ U)
    (ht : soundSpeed γ U / 2 ≤ σ * (velocity U d - s)) : Above (σ • undivided γ sm d U s) := by
  obtain ⟨h0, h1⟩ := half_sound hγ hγ2 h ht
  obtain ⟨hr, hp⟩ := h
  have hr : 0 < U.1 := hr
  refine ⟨?_, fun w => ?_⟩
  · have e : (σ • undivided γ sm d U s).1 = U.1 * (σ * (velocity U d - s)) := by
      simp only [undivided, Prod.smul_fst, smul_eq_mul]; ring
    rw [e]; positivity
  · have h2 := square_bound hγ hσ h0 hp h1 (z := velocity U d - sm)
    have hE : U.2.2 = pressure γ U / (γ - 1) + 0.5 * U.1 * (velocity U d * velocity U d) := by
      have := form_eq hγ hr (0 : Fin 1 → ℝ)
      simp only [form, dot, Finset.univ_unique, Finset.sum_singleton, Pi.zero_apply, Pi.sub_apply, zero_mul, mul_zero, sub_zero, add_zero] at this
      rw [this, Subsingleton.elim d default]
    have e : form w (σ • undivided γ sm d U s) = σ * (velocity U d - s) * (pressure γ U / (γ - 1)) + σ * (pressure γ U * (velocity U d - sm)) +
        0.5 * (σ * (velocity U d - s)) * U.1 * ((velocity U d - sm) * (velocity U d - sm)) + 0.5 * (σ * (velocity U d - s)) * U.1 * ((sm - w d) * (sm - w d)) := by
      rw [form_smul]
      simp only [form, undivided, dot, Finset.univ_unique, Finset.sum_singleton, starPressure, Cons.rho]
      rw [hE, Subsingleton.elim d default]
      ring
    rw [e]
    have h3 : 0 ≤ 0.5 * (σ * (velocity U d - s)) * U.1 * ((sm - w d) * (sm - w d)) := by
      have := mul_self_nonneg (sm - w d)
      positivity
    linarith

/-- The pressure is the same on both sides of the middle wave. -/
theorem starPressure_eq (hγ : 1 < γ) (d : Fin n) {L R : Cons n} (hL : obeysConstraints γ L) (hR : obeysConstraints γ R) :
    starPressure γ d (hll3sm γ d L R) L (hll3Speeds γ d L R).1 = starPressure γ d (hll3sm γ d L R) R (hll3Speeds γ d L R).2 := by
  have haa := hll3aa_neg hγ d hL hR
  have e : hll3sm γ d L R * hll3aa γ d L R = R.m d * (velocity R d - (hll3Speeds γ d L R).2) - L.m d * (velocity L d - (hll3Speeds γ d L R).1) + pressure γ R - pressure γ L :=
    div_mul_cancel₀ _ haa.ne
  have hmL : L.m d = L.rho * velocity L d := congrFun (momentum_eq (ne_of_gt hL.1)) d
  have hmR : R.m d = R.rho * velocity R d := congrFun (momentum_eq (ne_of_gt hR.1)) d
  rw [hll3aa, hmL, hmR] at e
  simp only [starPressure]
  linear_combination e

/-- The decomposition of the flux at a face between `L` and `R`: into the flux of `L` and states of the cone, and into the flux of `R` and states of the cone. -/
theorem hll3_faces (hγ : 1 < γ) (hγ2 : γ ≤ 2) (d : Fin 1) {L R : Cons 1} (hL : obeysConstraints γ L) (hR : obeysConstraints γ R) :
    (∃ x Z, x ≤ (hll3 γ d L R).2 ∧ Above Z ∧ -(hll3 γ d L R).1 = -flux γ d L - x • L + Z) ∧
    (∃ y Z, y ≤ (hll3 γ d L R).2 ∧ Above Z ∧ (hll3 γ d L R).1 = flux γ d R - y • R + Z) := by
  have hus : hll3us γ d L R d = hll3sm γ d L R := by simp [hll3us]
  have hlL := hll3_left_half hγ d hL hR
  have hrR := hll3_right_half hγ d hL hR
  have hp := starPressure_eq hγ d hL hR
  have nL : Above (undivided γ (hll3sm γ d L R) d L (hll3Speeds γ d L R).1) := by
    have := undivided_above hγ hγ2 (hll3sm γ d L R) (hll3Speeds γ d L R).1 1 (.inl rfl) d hL (by linarith)
    rwa [one_smul] at this
  have nR : Above (-undivided γ (hll3sm γ d L R) d R (hll3Speeds γ d L R).2) := by
    have := undivided_above hγ hγ2 (hll3sm γ d L R) (hll3Speeds γ d L R).2 (-1) (.inr rfl) d hR (by linarith)
    rwa [neg_one_smul] at this
  have eL := undivided_eq (γ := γ) (sm := hll3sm γ d L R) (s := (hll3Speeds γ d L R).1) d (ne_of_gt hL.1)
  have eR := undivided_eq (γ := γ) (sm := hll3sm γ d L R) (s := (hll3Speeds γ d L R).2) d (ne_of_gt hR.1)
  have mL := fun h => middle_undivided (γ := γ) (sm := hll3sm γ d L R) (s := (hll3Speeds γ d L R).1) h d (hll3us γ d L R) hus L
  have mR := fun h => middle_undivided (γ := γ) (sm := hll3sm γ d L R) (s := (hll3Speeds γ d L R).2) h d (hll3us γ d L R) hus R
  have aL := obeys_above hγ hL
  have aR := obeys_above hγ hR
  simp only [hll3]
  rw [hp] at eL
  generalize hll3us γ d L R = us at *
  generalize hll3sm γ d L R = sm at *
  generalize (hll3Speeds γ d L R).1 = sL at *
  generalize (hll3Speeds γ d L R).2 = sR at *
  generalize ((0, (fun _ => starPressure γ d sm R sR), starPressure γ d sm R sR * sm) : Cons 1) = P at *
  have key : flux γ d L - flux γ d R = undivided γ sm d L sL - undivided γ sm d R sR + sL • L - sR • R := by rw [eL, eR]; module
  have fL := above_half hγ hγ2 hL d 1 (-sL) (.inl rfl) (by linarith)
  have fR := above_half hγ hγ2 hR d (-1) sR (.inr rfl) (by linarith)
  generalize undivided γ sm d L sL = A at *
  generalize undivided γ sm d R sR = B at *
  generalize flux γ d L = f at *
  generalize flux γ d R = f' at *
  have m1 : |sL| ≤ max |sL| |sR| := le_max_left _ _
  have m2 : |sR| ≤ max |sL| |sR| := le_max_right _ _
  have n1 := neg_le_abs sL
  have n2 := le_abs_self sR
  have n3 := abs_nonneg sL
  rcases lt_trichotomy sL 0 with h | h | h
  · rw [if_neg h.ne, if_neg (by linarith)]
    split_ifs with h2 h3
    · refine ⟨⟨-sL, A + -B + (-sR) • R, by linarith, (nL.add nR).add (aR.smul (by linarith)), ?_⟩, ⟨0, 0, by linarith, above_zero, by simp⟩⟩
      have : f' = f - (A - B + sL • L - sR • R) := by rw [← key]; abel
      rw [this]; module
    · have h2 : 0 ≤ sR := not_lt.1 h2
      have hne : sm - sL ≠ 0 := by linarith
      rw [mL hne]
      refine ⟨⟨-sL, (-sL) • (1 / (sm - sL)) • A, by linarith, (nL.smul (one_div_nonneg.2 (by linarith))).smul (by linarith), by module⟩,
        ⟨sR, sm • (1 / (sm - sL)) • A + -B, by linarith, ((nL.smul (one_div_nonneg.2 (by linarith))).smul (by linarith)).add nR, ?_⟩⟩
      have : f' = f - (A - B + sL • L - sR • R) := by rw [← key]; abel
      rw [this]
      match_scalars <;> field_simp <;> ring
    · have h2 : 0 ≤ sR := not_lt.1 h2
      have h3 : sm < 0 := not_le.1 h3
      have hne : sm - sR ≠ 0 := by linarith
      rw [mR hne]
      refine ⟨⟨-sL, A + (-sm) • (1 / (sR - sm)) • -B, by linarith, nL.add ((nR.smul (one_div_nonneg.2 (by linarith))).smul (by linarith)), ?_⟩,
        ⟨sR, sR • (1 / (sR - sm)) • -B, by linarith, (nR.smul (one_div_nonneg.2 (by linarith))).smul (by linarith), ?_⟩⟩
      · have hne' : sR - sm ≠ 0 := by linarith
        have : f' = f - (A - B + sL • L - sR • R) := by rw [← key]; abel
        rw [this]
        match_scalars <;> field_simp <;> ring
      · have hne' : sR - sm ≠ 0 := by linarith
        match_scalars <;> field_simp
        ring
  · subst h
    rw [if_pos rfl]
    refine ⟨⟨0, f, by linarith, ?_, by simp⟩, ⟨sR, sR • R + (-1 : ℝ) • f', by linarith, fR, by module⟩⟩
    simpa using fL
  · rw [if_neg h.ne', if_pos h]
    refine ⟨⟨0, 0, by linarith, above_zero, by simp⟩, ⟨sR, A + -B + sL • L, by linarith, (nL.add nR).add (aL.smul h.le), ?_⟩⟩
    have : f' = f - (A - B + sL • L - sR • R) := by rw [← key]; abel
    rw [this]; module

/-- What a cell in state `u` loses to its neighbours is at most itself, for time steps up to half the inverse of the wave speeds at its two faces. -/
theorem hll3_keeps (hγ : 1 < γ) (hγ2 : γ ≤ 2) (d : Fin 1) {L u R : Cons 1} (hL : obeysConstraints γ L) (hu : obeysConstraints γ u) (hR : obeysConstraints γ R) (S : ℝ)
    (h1 : (hll3 γ d L u).2 ≤ S) (h2 : (hll3 γ d u R).2 ≤ S) : Above ((2 * S) • u + ((hll3 γ d L u).1 - (hll3 γ d u R).1)) := by
  obtain ⟨x, Z, hx, hZ, e⟩ := (hll3_faces hγ hγ2 d hu hR).1
  obtain ⟨y, Z', hy, hZ', e'⟩ := (hll3_faces hγ hγ2 d hL hu).2
  rw [sub_eq_add_neg, e, e']
  have : (2 * S) • u + (flux γ d u - y • u + Z' + (-flux γ d u - x • u + Z)) = (2 * S - x - y) • u + (Z' + Z) := by module
  rw [this]
  exact ((obeys_above hγ hu).smul (by linarith)).add (hZ'.add hZ)

end Verif.Euler
