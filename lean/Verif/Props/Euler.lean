import Verif.Euler
import Mathlib.Algebra.BigOperators.Field

/-!
Property theorems about the Euler equations: C19 (variables), C20 (entropy variables, flux and potential), C21 (eigenvectors).
`γ` is the adiabatic exponent; `obeysConstraints γ U` is the admissibility check of the solver.
-/

namespace Verif.Props
open Verif Euler

/-! ### C19 -/

/-- C19. In `n` dimensions, for positive density and pressure and `γ > 1`: going to conserved variables and back gives the original
values; the state passes the admissibility check. -/
theorem C19_round_trip {n : Nat} (γ : ℝ) (hγ : 1 < γ) (w : Prim n) (hρ : 0 < w.rho) (hp : 0 < w.p) :
    toPrim γ (toCons γ w) = w ∧ obeysConstraints γ (toCons γ w) := by
  refine ⟨toPrim_toCons (by linarith) hρ.ne', hρ, ?_⟩
  rw [pressure_toCons (by linarith) hρ.ne']; exact hp

/-- C19, other direction and sound speed: every state passing the check is recovered from its primitive variables, the argument of the
square root in the sound speed is positive, and the wave speed is `|u| + c` with `c² = γ p / ρ`, `c > 0`. -/
theorem C19_admissible {n : Nat} (γ : ℝ) (hγ : 1 < γ) (U : Cons n) (h : obeysConstraints γ U) :
    toCons γ (toPrim γ U) = U ∧ 0 < γ * (toPrim γ U).p / (toPrim γ U).rho ∧
      ∀ d, ∃ c > 0, c ^ 2 = γ * (toPrim γ U).p / (toPrim γ U).rho ∧ waveSpeed γ d U = |(toPrim γ U).u d| + c := by
  have hpos : 0 < γ * (toPrim γ U).p / (toPrim γ U).rho := by
    have h1 : 0 < (toPrim γ U).rho := h.1
    have h2 : 0 < (toPrim γ U).p := h.2
    positivity
  exact ⟨toCons_toPrim (by linarith) (ne_of_gt h.1), hpos, fun d => ⟨_, Real.sqrt_pos.2 hpos, Real.sq_sqrt hpos.le, rfl⟩⟩

example : toPrim (7 / 5) (toCons (7 / 5) (⟨2, ![1, -3, 0], 5⟩ : Prim 3)) = ⟨2, ![1, -3, 0], 5⟩ :=
  (C19_round_trip _ (by norm_num) _ (by norm_num) (by norm_num)).1

example : ∃ U : Cons 3, obeysConstraints (7 / 5) U :=
  ⟨_, (C19_round_trip (7 / 5) (by norm_num) (⟨2, ![1, -3, 0], 5⟩ : Prim 3) (by norm_num) (by norm_num)).2⟩

/-! ### C20 -/

/-- Inner product of two state vectors. -/
def inner {n : Nat} (V W : Cons n) : ℝ := V.1 * W.1 + ∑ i, V.2.1 i * W.2.1 i + V.2.2 * W.2.2

/-- The entropy `-ρ s / (γ - 1)`. -/
noncomputable def entropy {n : Nat} (γ : ℝ) (U : Cons n) : ℝ :=
  -U.1 * (Real.log (toPrim γ U).p - γ * Real.log U.1) / (γ - 1)

/-- The entropy flux `-ρ u_d s / (γ - 1)`. -/
noncomputable def entropyFlux {n : Nat} (γ : ℝ) (d : Fin n) (U : Cons n) : ℝ :=
  -U.2.1 d * (Real.log (toPrim γ U).p - γ * Real.log U.1) / (γ - 1)

/-- C20. In every dimension and direction, for every admissible state: entropy variables times physical flux minus entropy flux is the
potential the equation reports. -/
theorem C20_potential {n : Nat} (γ : ℝ) (hγ : 1 < γ) (U : Cons n) (h : obeysConstraints γ U) (d : Fin n) :
    inner (entropyVariables γ U) (flux γ d U) - entropyFlux γ d U = entropyPotential U d := by
  obtain ⟨h1, h2⟩ := h
  have hg : γ - 1 ≠ 0 := by linarith
  have hp : pressure γ U ≠ 0 := h2.ne'
  have hρ : U.rho ≠ 0 := h1.ne'
  have hE : U.E = pressure γ U / (γ - 1) + 0.5 * dot U.m U.m / U.rho := by
    simp only [pressure]; field_simp; ring
  have hs : ∑ i, (U.m i / pressure γ U) * (velocity U d * U.m i + if i = d then pressure γ U else 0) =
      velocity U d * dot U.m U.m / pressure γ U + U.m d := by
    simp only [mul_add, Finset.sum_add_distrib, mul_ite, mul_zero, Finset.sum_ite_eq', Finset.mem_univ, if_true]
    congr 1
    · simp only [dot, Finset.mul_sum, Finset.sum_div]
      exact Finset.sum_congr rfl fun i _ => by ring
    · field_simp
  have hd : dot (velocity U) (velocity U) = dot U.m U.m / U.rho ^ 2 := by
    have : velocity U = fun i => U.rho⁻¹ * U.m i := by funext i; simp only [velocity]; field_simp
    rw [this, dot_smul_left, dot_smul_right]; field_simp
  simp only [inner, entropyVariables, flux, entropyFlux, entropyPotential, hs, hd]
  rw [hE]
  have e : Real.log (toPrim γ U).p - γ * Real.log U.1 = entropyS γ U := rfl
  rw [e]
  simp only [velocity]
  simp only [Cons.rho, Cons.m] at hρ ⊢
  field_simp
  ring

/-- C20, what "entropy variables" and "entropy flux" mean: the entropy variables are the gradient of the entropy, and the entropy flux is
compatible with it (its derivative is the entropy variables applied to the derivative of the flux); both along every direction `W`. -/
theorem C20_entropy_pair {n : Nat} (γ : ℝ) (hγ : 1 < γ) (U : Cons n) (h : obeysConstraints γ U) (W : Cons n) (d : Fin n) :
    HasDerivAt (fun t : ℝ => entropy γ (U + t • W)) (inner (entropyVariables γ U) W) 0 ∧
    ∃ F', HasDerivAt (fun t : ℝ => flux γ d (U + t • W)) F' 0 ∧
      HasDerivAt (fun t : ℝ => entropyFlux γ d (U + t • W)) (inner (entropyVariables γ U) F') 0 := by
  obtain ⟨h1, h2⟩ := h
  have hg : γ - 1 ≠ 0 := by linarith
  have hp : pressure γ U ≠ 0 := h2.ne'
  have hρ : U.rho ≠ 0 := h1.ne'
  have e0 : U + (0 : ℝ) • W = U := by simp
  have hS : HasDerivAt (fun t : ℝ => Real.log (pressure γ (U + t • W)) - γ * Real.log (U + t • W).rho)
      (dpressure γ U W / pressure γ U - γ * (W.rho / U.rho)) 0 := by
    have a := (hasDerivAt_pressure γ hρ W).log (by rw [e0]; exact hp)
    have b := (hasDerivAt_rho U W).log (by rw [e0]; exact hρ)
    have := a.sub (b.const_mul γ)
    rw [e0] at this
    exact this
  have hd : dot (velocity U) (velocity U) = dot U.m U.m / U.rho ^ 2 := by
    have : velocity U = fun i => U.rho⁻¹ * U.m i := by funext i; simp only [velocity]; field_simp
    rw [this, dot_smul_left, dot_smul_right]; field_simp
  have hE : U.E = pressure γ U / (γ - 1) + 0.5 * dot U.m U.m / U.rho := by
    simp only [pressure]; field_simp; ring
  refine ⟨?_, _, hasDerivAt_flux γ d hρ W, ?_⟩
  · have := (((hasDerivAt_rho U W).neg.mul hS).div_const (γ - 1))
    rw [e0] at this
    refine HasDerivAt.congr_deriv (f := fun t : ℝ => entropy γ (U + t • W)) this ?_
    simp only [inner, entropyVariables, hd, Pi.neg_apply, e0]
    have e : Real.log (pressure γ U) - γ * Real.log U.rho = entropyS γ U := rfl
    have hs : ∑ i, U.m i / pressure γ U * W.2.1 i = dot U.m W.m / pressure γ U := by
      simp only [dot, Finset.sum_div]; exact Finset.sum_congr rfl fun i _ => by ring
    rw [hs, e]
    simp only [dpressure]
    simp only [Cons.rho, Cons.m, Cons.E] at hρ ⊢
    field_simp
    ring
  · have := (((hasDerivAt_m U W d).neg.mul hS).div_const (γ - 1))
    rw [e0] at this
    refine HasDerivAt.congr_deriv (f := fun t : ℝ => entropyFlux γ d (U + t • W)) this ?_
    have e : Real.log (pressure γ U) - γ * Real.log U.rho = entropyS γ U := rfl
    have hs : ∑ i, U.m i / pressure γ U * ((W.m d / U.rho - U.m d * W.rho / U.rho ^ 2) * U.m i + U.m d / U.rho * W.m i +
        if i = d then dpressure γ U W else 0) =
        (W.m d / U.rho - U.m d * W.rho / U.rho ^ 2) * dot U.m U.m / pressure γ U + U.m d / U.rho * dot U.m W.m / pressure γ U +
          U.m d / pressure γ U * dpressure γ U W := by
      simp only [mul_add, Finset.sum_add_distrib, mul_ite, mul_zero, Finset.sum_ite_eq', Finset.mem_univ, if_true]
      congr 2
      · simp only [dot, Finset.mul_sum, Finset.sum_div]
        exact Finset.sum_congr rfl fun i _ => by ring
      · simp only [dot, Finset.mul_sum, Finset.sum_div]
        exact Finset.sum_congr rfl fun i _ => by ring
    simp only [inner, entropyVariables, dflux, hs, hd, Pi.neg_apply, e0, e]
    rw [hE]
    simp only [dpressure]
    simp only [Cons.rho, Cons.m, Cons.E] at hρ ⊢
    field_simp
    ring

example : ∃ U : Cons 2, obeysConstraints (7 / 5) U ∧ inner (entropyVariables (7 / 5) U) (flux (7 / 5) 1 U) - entropyFlux (7 / 5) 1 U = U.2.1 1 := by
  have h := (C19_round_trip (7 / 5) (by norm_num) (⟨2, ![1, -3], 5⟩ : Prim 2) (by norm_num) (by norm_num)).2
  exact ⟨_, h, C20_potential (7 / 5) (by norm_num) _ h 1⟩

example : ∃ U : Cons 2, obeysConstraints (7 / 5) U ∧
    HasDerivAt (fun t : ℝ => entropy (7 / 5) (U + t • (1, ![0, 1], 2))) (inner (entropyVariables (7 / 5) U) (1, ![0, 1], 2)) 0 := by
  have h := (C19_round_trip (7 / 5) (by norm_num) (⟨2, ![1, -3], 5⟩ : Prim 2) (by norm_num) (by norm_num)).2
  exact ⟨_, h, (C20_entropy_pair (7 / 5) (by norm_num) _ h (1, ![0, 1], 2) 0).1⟩

/-! ### C21 -/

/-- `r` is a right eigenvector with eigenvalue `lam` of the Jacobian of the flux in direction `d` at `U`: the derivative of the flux along
`r` is `lam r`. -/
def IsEigenpair {n : Nat} (γ : ℝ) (d : Fin n) (U r : Cons n) (lam : ℝ) : Prop :=
  HasDerivAt (fun t : ℝ => flux γ d (U + t • r)) (lam • r) 0

/-- (helper) -/
theorem eigenpair_of {n : Nat} {γ : ℝ} {d : Fin n} {U r₀ : Cons n} {lam₀ : ℝ} (hU : U.rho ≠ 0) (h : dflux γ d U r₀ = lam₀ • r₀)
    (c : ℝ) {r : Cons n} {lam : ℝ} (hr : r = c • r₀) (hl : lam = lam₀) : IsEigenpair γ d U r lam := by
  subst hr hl
  unfold IsEigenpair; rw [← dflux_eigen_scale h c]; exact hasDerivAt_flux γ d hU _

/-- (helper) equality of states, component by component -/
macro "components" : tactic => `(tactic|
  (refine Prod.ext ?_ (Prod.ext (funext fun i => ?_) ?_) <;> (try fin_cases i) <;>
    simp [-mul_eq_mul_left_iff, -mul_eq_mul_right_iff, acoustic, entropyWave, shearWave, ofVec1, ofVec2, ofVec3, dot, Fin.sum_univ_succ] <;>
    (try ring)))

/-- C21 in one dimension: columns and eigenvalues match, for every admissible state. -/
theorem C21_one_dimension (γ : ℝ) (hγ : 1 < γ) (U : Cons 1) (h : obeysConstraints γ U) (k : Fin 3) :
    IsEigenpair γ 0 U (ofVec1 fun i => eigenVectors1 γ U i k) (eigenValues1 γ U k) := by
  have ac := fun s hs => dflux_acoustic hγ h 0 s hs
  have en := dflux_entropy γ (ne_of_gt h.1) 0
  have hr : U.rho ≠ 0 := ne_of_gt h.1
  simp only [eigenVectors1, eigenValues1]
  fin_cases k
  · exact eigenpair_of hr (ac (-1) (by norm_num)) (Real.sqrt (U.rho / (2 * γ))) (by components) (by simp; ring)
  · exact eigenpair_of hr en (Real.sqrt (U.rho * (γ - 1) / γ)) (by components) (by simp)
  · exact eigenpair_of hr (ac 1 (by norm_num)) (Real.sqrt (U.rho / (2 * γ))) (by components) (by simp)

/-- C21 in two dimensions. The full statement is
`∀ d k, IsEigenpair γ d U (ofVec2 fun i => eigenVectors2 γ d U i k) (eigenValues2 γ d U k)`; it holds for `d = 0` and fails for `d = 1`
(`C21_two_dimensions_direction_one_fails`), since the columns are never rotated back. What holds for `d = 1` is that the columns rotated
back are eigenvectors with the returned eigenvalues. -/
theorem C21_two_dimensions_partial (γ : ℝ) (hγ : 1 < γ) (U : Cons 2) (h : obeysConstraints γ U) (k : Fin 4) :
    IsEigenpair γ 0 U (ofVec2 fun i => eigenVectors2 γ 0 U i k) (eigenValues2 γ 0 U k) ∧
    IsEigenpair γ 1 U
      (let r : Fin 4 → ℝ := fun i => eigenVectors2 γ 1 U i k
       (r 0, ![-r 2, r 1], r 3)) (eigenValues2 γ 1 U k) := by
  have hr : U.rho ≠ 0 := ne_of_gt h.1
  constructor
  · have ac := fun s hs => dflux_acoustic hγ h 0 s hs
    have en := dflux_entropy γ hr (0 : Fin 2)
    have sh := dflux_shear γ hr (d := 0) (j := (1 : Fin 2)) (by decide)
    simp only [eigenVectors2, eigenValues2, rotate2_zero]
    fin_cases k
    · exact eigenpair_of hr (ac (-1) (by norm_num)) 1 (by components) (by simp; ring)
    · exact eigenpair_of hr en 1 (by components) (by simp)
    · exact eigenpair_of hr sh 1 (by components) (by simp)
    · exact eigenpair_of hr (ac 1 (by norm_num)) 1 (by components) (by simp)
  · have ac := fun s hs => dflux_acoustic hγ h 1 s hs
    have en := dflux_entropy γ hr (1 : Fin 2)
    have sh := dflux_shear γ hr (d := 1) (j := (0 : Fin 2)) (by decide)
    simp only [eigenVectors2, eigenValues2, soundSpeed_rotate2, enthalpy_rotate2, velocity_rotate2]
    fin_cases k
    · exact eigenpair_of hr (ac (-1) (by norm_num)) 1 (by components) (by simp; ring)
    · exact eigenpair_of hr en 1 (by components) (by simp)
    · exact eigenpair_of hr sh (-1) (by components) (by simp)
    · exact eigenpair_of hr (ac 1 (by norm_num)) 1 (by components) (by simp)

/-- C21 in three dimensions. The full statement is
`∀ d k, IsEigenpair γ d U (ofVec3 fun i => eigenVectors3 γ d U i k) (eigenValues3 γ d U k)`; it holds for `d = 0` and fails for `d = 1` and
`d = 2` (`C21_three_dimensions_other_directions_fail`), since the columns are never rotated back. What holds there is that the columns rotated
back are eigenvectors with the returned eigenvalues. -/
theorem C21_three_dimensions_partial (γ : ℝ) (hγ : 1 < γ) (U : Cons 3) (h : obeysConstraints γ U) (k : Fin 5) :
    IsEigenpair γ 0 U (ofVec3 fun i => eigenVectors3 γ 0 U i k) (eigenValues3 γ 0 U k) ∧
    IsEigenpair γ 1 U
      (let r : Fin 5 → ℝ := fun i => eigenVectors3 γ 1 U i k
       (r 0, ![-r 2, r 1, r 3], r 4)) (eigenValues3 γ 1 U k) ∧
    IsEigenpair γ 2 U
      (let r : Fin 5 → ℝ := fun i => eigenVectors3 γ 2 U i k
       (r 0, ![-r 3, r 2, r 1], r 4)) (eigenValues3 γ 2 U k) := by
  have hr : U.rho ≠ 0 := ne_of_gt h.1
  refine ⟨?_, ?_, ?_⟩
  · have ac := fun s hs => dflux_acoustic hγ h 0 s hs
    have en := dflux_entropy γ hr (0 : Fin 3)
    have sh := dflux_shear γ hr (d := 0) (j := (1 : Fin 3)) (by decide)
    have sh' := dflux_shear γ hr (d := 0) (j := (2 : Fin 3)) (by decide)
    simp only [eigenVectors3, normalized]
    generalize Real.sqrt (∑ r, eigenVectors3raw γ 0 U r k * eigenVectors3raw γ 0 U r k) = N
    simp only [eigenVectors3raw, eigenValues3, rotate3_zero]
    fin_cases k
    · exact eigenpair_of hr (ac (-1) (by norm_num)) N⁻¹ (by components) (by simp; ring)
    · exact eigenpair_of hr en N⁻¹ (by components) (by simp)
    · exact eigenpair_of hr sh N⁻¹ (by components) (by simp)
    · exact eigenpair_of hr sh' N⁻¹ (by components) (by simp)
    · exact eigenpair_of hr (ac 1 (by norm_num)) N⁻¹ (by components) (by simp)
  · have ac := fun s hs => dflux_acoustic hγ h 1 s hs
    have en := dflux_entropy γ hr (1 : Fin 3)
    have sh := dflux_shear γ hr (d := 1) (j := (0 : Fin 3)) (by decide)
    have sh' := dflux_shear γ hr (d := 1) (j := (2 : Fin 3)) (by decide)
    simp only [eigenVectors3, normalized]
    generalize Real.sqrt (∑ r, eigenVectors3raw γ 1 U r k * eigenVectors3raw γ 1 U r k) = N
    simp only [eigenVectors3raw, eigenValues3, soundSpeed_rotate3, enthalpy_rotate3, velocity_rotate3_one]
    fin_cases k
    · exact eigenpair_of hr (ac (-1) (by norm_num)) N⁻¹ (by components) (by simp; ring)
    · exact eigenpair_of hr en N⁻¹ (by components) (by simp)
    · exact eigenpair_of hr sh (-N⁻¹) (by components) (by simp)
    · exact eigenpair_of hr sh' N⁻¹ (by components) (by simp)
    · exact eigenpair_of hr (ac 1 (by norm_num)) N⁻¹ (by components) (by simp)
  · have ac := fun s hs => dflux_acoustic hγ h 2 s hs
    have en := dflux_entropy γ hr (2 : Fin 3)
    have sh := dflux_shear γ hr (d := 2) (j := (0 : Fin 3)) (by decide)
    have sh' := dflux_shear γ hr (d := 2) (j := (1 : Fin 3)) (by decide)
    simp only [eigenVectors3, normalized]
    generalize Real.sqrt (∑ r, eigenVectors3raw γ 2 U r k * eigenVectors3raw γ 2 U r k) = N
    simp only [eigenVectors3raw, eigenValues3, soundSpeed_rotate3, enthalpy_rotate3, velocity_rotate3_two]
    fin_cases k
    · exact eigenpair_of hr (ac (-1) (by norm_num)) N⁻¹ (by components) (by simp; ring)
    · exact eigenpair_of hr en N⁻¹ (by components) (by simp)
    · exact eigenpair_of hr sh' N⁻¹ (by components) (by simp)
    · exact eigenpair_of hr sh (-N⁻¹) (by components) (by simp)
    · exact eigenpair_of hr (ac 1 (by norm_num)) N⁻¹ (by components) (by simp)

/-- (helper) an eigenpair satisfies the eigenvector equation for the derivative of the flux. -/
theorem IsEigenpair.eq {n : Nat} {γ : ℝ} {d : Fin n} {U r : Cons n} {lam : ℝ} (hU : U.rho ≠ 0) (h : IsEigenpair γ d U r lam) :
    dflux γ d U r = lam • r := (hasDerivAt_flux γ d hU r).unique h

/-- C21 fails in direction 1 of two dimensions: for gas at rest (`γ = 2`, `ρ = 1`, `p = 1/2`, sound speed 1) the first column is not an
eigenvector for the first eigenvalue. -/
theorem C21_two_dimensions_direction_one_fails :
    ∃ U : Cons 2, obeysConstraints 2 U ∧ ¬ IsEigenpair 2 1 U (ofVec2 fun i => eigenVectors2 2 1 U i 0) (eigenValues2 2 1 U 0) := by
  refine ⟨toCons 2 ⟨1, ![0, 0], 1 ^ 2 * 1 / 2⟩, (C19_round_trip 2 (by norm_num) _ (by norm_num) (by norm_num)).2, fun h => ?_⟩
  have e := congrArg Prod.fst (h.eq (by simp [toCons, Cons.rho]))
  simp only [eigenVectors2, eigenValues2, soundSpeed_rotate2, velocity_rotate2, soundSpeed_toCons one_lt_two one_pos one_pos] at e
  simp [dflux, ofVec2, toCons, velocity, Cons.m] at e

/-- C21 fails in directions 1 and 2 of three dimensions, for the same gas at rest. -/
theorem C21_three_dimensions_other_directions_fail :
    ∃ U : Cons 3, obeysConstraints 2 U ∧ ¬ IsEigenpair 2 1 U (ofVec3 fun i => eigenVectors3 2 1 U i 0) (eigenValues3 2 1 U 0) ∧
      ¬ IsEigenpair 2 2 U (ofVec3 fun i => eigenVectors3 2 2 U i 0) (eigenValues3 2 2 U 0) := by
  have hN : ∀ d, Real.sqrt (∑ r, eigenVectors3raw 2 d (toCons 2 ⟨1, ![0, 0, 0], 1 ^ 2 * 1 / 2⟩) r 0 *
      eigenVectors3raw 2 d (toCons 2 ⟨1, ![0, 0, 0], 1 ^ 2 * 1 / 2⟩) r 0) ≠ 0 := by
    intro d
    have e : eigenVectors3raw 2 d (toCons 2 ⟨1, ![0, 0, 0], 1 ^ 2 * 1 / 2⟩) 0 0 = 1 := rfl
    generalize eigenVectors3raw 2 d (toCons 2 ⟨1, ![0, 0, 0], 1 ^ 2 * 1 / 2⟩) = M at e ⊢
    apply ne_of_gt
    apply Real.sqrt_pos.2
    have h0 : 0 < M 0 0 * M 0 0 := by rw [e]; norm_num
    exact lt_of_lt_of_le h0
      (Finset.single_le_sum (f := fun r => M r 0 * M r 0) (fun i _ => mul_self_nonneg (M i 0)) (Finset.mem_univ (0 : Fin 5)))
  refine ⟨toCons 2 ⟨1, ![0, 0, 0], 1 ^ 2 * 1 / 2⟩, (C19_round_trip 2 (by norm_num) _ (by norm_num) (by norm_num)).2, fun h => ?_, fun h => ?_⟩
  · have e := congrArg Prod.fst (h.eq (by simp [toCons, Cons.rho]))
    have := hN 1
    simp only [eigenVectors3, normalized] at e
    generalize Real.sqrt (∑ r, eigenVectors3raw 2 1 (toCons 2 ⟨1, ![0, 0, 0], 1 ^ 2 * 1 / 2⟩) r 0 *
      eigenVectors3raw 2 1 (toCons 2 ⟨1, ![0, 0, 0], 1 ^ 2 * 1 / 2⟩) r 0) = N at *
    simp only [eigenVectors3raw, eigenValues3, soundSpeed_rotate3, velocity_rotate3_one, soundSpeed_toCons one_lt_two one_pos one_pos] at e
    simp [dflux, ofVec3, toCons, velocity, Cons.m] at e
    exact this e
  · have e := congrArg Prod.fst (h.eq (by simp [toCons, Cons.rho]))
    have := hN 2
    simp only [eigenVectors3, normalized] at e
    generalize Real.sqrt (∑ r, eigenVectors3raw 2 2 (toCons 2 ⟨1, ![0, 0, 0], 1 ^ 2 * 1 / 2⟩) r 0 *
      eigenVectors3raw 2 2 (toCons 2 ⟨1, ![0, 0, 0], 1 ^ 2 * 1 / 2⟩) r 0) = N at *
    simp only [eigenVectors3raw, eigenValues3, soundSpeed_rotate3, velocity_rotate3_two, soundSpeed_toCons one_lt_two one_pos one_pos] at e
    simp [dflux, ofVec3, toCons, velocity, Cons.m] at e
    exact this e

example : ∃ U : Cons 1, IsEigenpair (7 / 5) 0 U (ofVec1 fun i => eigenVectors1 (7 / 5) U i 2) (eigenValues1 (7 / 5) U 2) :=
  ⟨_, C21_one_dimension (7 / 5) (by norm_num) _
    (C19_round_trip (7 / 5) (by norm_num) (⟨2, ![-3], 5⟩ : Prim 1) (by norm_num) (by norm_num)).2 2⟩

example : ∃ U : Cons 2, IsEigenpair (7 / 5) 0 U (ofVec2 fun i => eigenVectors2 (7 / 5) 0 U i 2) (eigenValues2 (7 / 5) 0 U 2) :=
  ⟨_, (C21_two_dimensions_partial (7 / 5) (by norm_num) _
    (C19_round_trip (7 / 5) (by norm_num) (⟨2, ![-3, 1], 5⟩ : Prim 2) (by norm_num) (by norm_num)).2 2).1⟩

example : ∃ U : Cons 3, IsEigenpair (7 / 5) 0 U (ofVec3 fun i => eigenVectors3 (7 / 5) 0 U i 2) (eigenValues3 (7 / 5) 0 U 2) :=
  ⟨_, (C21_three_dimensions_partial (7 / 5) (by norm_num) _
    (C19_round_trip (7 / 5) (by norm_num) (⟨2, ![-3, 1, 4], 5⟩ : Prim 3) (by norm_num) (by norm_num)).2 2).1⟩

end Verif.Props
