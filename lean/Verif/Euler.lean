import Mathlib.Analysis.SpecialFunctions.Log.Deriv
import Mathlib.Analysis.SpecialFunctions.Sqrt
import Mathlib.Analysis.Calculus.Deriv.Prod
import Mathlib.Analysis.Calculus.Deriv.Pi
import Mathlib.Analysis.Calculus.Deriv.Mul
import Mathlib.Analysis.Calculus.Deriv.Inv
import Mathlib.Analysis.Calculus.Deriv.Add
import Mathlib.LinearAlgebra.Matrix.Notation
import Mathlib.Algebra.BigOperators.Fin
import Mathlib.Tactic.FinCases
import Mathlib.Tactic.Linarith
import Mathlib.Tactic.FieldSimp
import Mathlib.Tactic.Ring
import Mathlib.Tactic.Positivity
import Mathlib.Tactic.LinearCombination

/-!
Model of the Euler equations in `n` = 1, 2, 3 space dimensions (alsfvm/include/alsfvm/equation/euler/Euler.hpp). `real` is modelled by the
real numbers, vectors of `nsd` components by functions `Fin n → ℝ`, the direction template parameter by `d : Fin n` (the solver only
instantiates directions below the dimension of the grid).
-/

namespace Verif
namespace Euler
variable {n : Nat}

/-- `ConservedVariables<nsd>`: density, momentum, energy (alsfvm/include/alsfvm/equation/euler/ConservedVariables.hpp:30-136); addition,
subtraction, scaling and comparison are componentwise there as here. -/
abbrev Cons (n : Nat) := ℝ × (Fin n → ℝ) × ℝ
/-- density -/
abbrev Cons.rho (U : Cons n) : ℝ := U.1
/-- momentum -/
abbrev Cons.m (U : Cons n) : Fin n → ℝ := U.2.1
/-- energy -/
abbrev Cons.E (U : Cons n) : ℝ := U.2.2

/-- `PrimitiveVariables<nsd>`: density, velocity, pressure. -/
@[ext] structure Prim (n : Nat) where
  rho : ℝ
  u : Fin n → ℝ
  p : ℝ

/-- Scalar product of two `nsd`-vectors (alsutils/include/alsutils/vec1.hpp, vec2.hpp, vec3.hpp: `dot`). -/
def dot (a b : Fin n → ℝ) : ℝ := ∑ i, a i * b i

/-- Pressure part of `computeExtra` (Euler.hpp:204-211). -/
noncomputable def pressure (γ : ℝ) (U : Cons n) : ℝ := (γ - 1) * (U.E - 0.5 * dot U.m U.m / U.rho)

/-- Velocity part of `computeExtra` (Euler.hpp:204-211). -/
noncomputable def velocity (U : Cons n) : Fin n → ℝ := fun i => U.m i / U.rho

/-- `computePrimitiveVariables` (Euler.hpp:290-297). -/
noncomputable def toPrim (γ : ℝ) (U : Cons n) : Prim n := ⟨U.rho, velocity U, pressure γ U⟩

/-- `computeConserved` (Euler.hpp:236-245). -/
noncomputable def toCons (γ : ℝ) (w : Prim n) : Cons n :=
  (w.rho, (fun i => w.rho * w.u i), w.p / (γ - 1) + 0.5 * w.rho * dot w.u w.u)

/-- `obeysConstraints` (Euler.hpp:269-277); finiteness holds for every real number. -/
def obeysConstraints (γ : ℝ) (U : Cons n) : Prop := U.rho > 0 ∧ pressure γ U > 0

/-- `computeWaveSpeed` (Euler.hpp:251-258). -/
noncomputable def waveSpeed (γ : ℝ) (d : Fin n) (U : Cons n) : ℝ := |velocity U d| + Real.sqrt (γ * pressure γ U / U.rho)

/-- `computePointFlux` (Euler.hpp:172-194), with the extra variables belonging to the state. -/
noncomputable def flux (γ : ℝ) (d : Fin n) (U : Cons n) : Cons n :=
  (U.m d, (fun i => velocity U d * U.m i + if i = d then pressure γ U else 0), (U.E + pressure γ U) * velocity U d)

/-- `s = log p - gamma log rho` (Euler.hpp:341). -/
noncomputable def entropyS (γ : ℝ) (U : Cons n) : ℝ := Real.log (pressure γ U) - γ * Real.log U.rho

/-- `computeEntropyVariables` (Euler.hpp:338-348). -/
noncomputable def entropyVariables (γ : ℝ) (U : Cons n) : Cons n :=
  ((γ - entropyS γ U) / (γ - 1) - U.rho * dot (velocity U) (velocity U) / (2 * pressure γ U),
   (fun i => U.m i / pressure γ U), -U.rho / pressure γ U)

/-- `computeEntropyPotential` (Euler.hpp:358-361). -/
def entropyPotential (U : Cons n) : Fin n → ℝ := U.m

/-- Sound speed as used in the eigenvector routines (Euler.hpp:431, 525, 597). -/
noncomputable def soundSpeed (γ : ℝ) (U : Cons n) : ℝ := Real.sqrt (γ * pressure γ U / U.rho)

/-- Total enthalpy (Euler.hpp:432, 526, 598). -/
noncomputable def enthalpy (γ : ℝ) (U : Cons n) : ℝ := (U.E + pressure γ U) / U.rho

/-- `Euler<1>::computeEigenVectorMatrix<0>` (Euler.hpp:584-644, the branch compiled in). -/
noncomputable def eigenVectors1 (γ : ℝ) (U : Cons 1) : Matrix (Fin 3) (Fin 3) ℝ :=
  let u := velocity U 0
  let a := soundSpeed γ U
  let H := enthalpy γ U
  let a1 := Real.sqrt (U.rho / (2 * γ))
  let a2 := Real.sqrt (U.rho * (γ - 1) / γ)
  !![a1, a2, a1; a1 * (u - a), a2 * u, a1 * (u + a); a1 * (H - u * a), 0.5 * a2 * dot (velocity U) (velocity U), a1 * (H + u * a)]

/-- `Euler<1>::computeEigenValues<0>` (Euler.hpp:646-659). -/
noncomputable def eigenValues1 (γ : ℝ) (U : Cons 1) : Fin 3 → ℝ :=
  ![velocity U 0 - soundSpeed γ U, velocity U 0, velocity U 0 + soundSpeed γ U]

/-- The rotation applied to the state in direction 1 (Euler.hpp:512-517, 561-566): `(my, -mx)`; direction 0 leaves it alone. -/
def rotate2 (d : Fin 2) (U : Cons 2) : Cons 2 := if d = 1 then (U.rho, ![U.m 1, -U.m 0], U.E) else U

/-- `Euler<2>::computeEigenVectorMatrix<d>` (Euler.hpp:504-553). -/
noncomputable def eigenVectors2 (γ : ℝ) (d : Fin 2) (U₀ : Cons 2) : Matrix (Fin 4) (Fin 4) ℝ :=
  let U := rotate2 d U₀
  let u := velocity U
  let a := soundSpeed γ U
  let H := enthalpy γ U
  !![1, 1, 0, 1; u 0 - a, u 0, 0, u 0 + a; u 1, u 1, 1, u 1; H - u 0 * a, 0.5 * dot u u, u 1, H + u 0 * a]

/-- `Euler<2>::computeEigenValues<d>` (Euler.hpp:555-580). -/
noncomputable def eigenValues2 (γ : ℝ) (d : Fin 2) (U₀ : Cons 2) : Fin 4 → ℝ :=
  let U := rotate2 d U₀
  ![velocity U 0 - soundSpeed γ U, velocity U 0, velocity U 0, velocity U 0 + soundSpeed γ U]

/-- The rotation of the state in directions 1 and 2 (Euler.hpp:413-424, 476-487). -/
def rotate3 (d : Fin 3) (U : Cons 3) : Cons 3 :=
  if d = 1 then (U.rho, ![U.m 1, -U.m 0, U.m 2], U.E) else if d = 2 then (U.rho, ![U.m 2, U.m 1, -U.m 0], U.E) else U

/-- `matrix::normalized` (alsutils/include/alsutils/mat.hpp:103-122): columns divided by their Euclidean norm (`sqrtf` is modelled exactly). -/
noncomputable def normalized {k : Nat} (M : Matrix (Fin k) (Fin k) ℝ) : Matrix (Fin k) (Fin k) ℝ :=
  fun i j => M i j / Real.sqrt (∑ r, M r j * M r j)

/-- The matrix of `Euler<3>::computeEigenVectorMatrix<d>` before normalisation (Euler.hpp:427-461). -/
noncomputable def eigenVectors3raw (γ : ℝ) (d : Fin 3) (U₀ : Cons 3) : Matrix (Fin 5) (Fin 5) ℝ :=
  let U := rotate3 d U₀
  let u := velocity U
  let a := soundSpeed γ U
  let H := enthalpy γ U
  !![1, 1, 0, 0, 1; u 0 - a, u 0, 0, 0, u 0 + a; u 1, u 1, 1, 0, u 1; u 2, u 2, 0, 1, u 2;
     H - u 0 * a, 0.5 * dot u u, u 1, u 2, H + u 0 * a]

/-- `Euler<3>::computeEigenVectorMatrix<d>` (Euler.hpp:407-468). -/
noncomputable def eigenVectors3 (γ : ℝ) (d : Fin 3) (U₀ : Cons 3) : Matrix (Fin 5) (Fin 5) ℝ := normalized (eigenVectors3raw γ d U₀)

/-- `Euler<3>::computeEigenValues<d>` (Euler.hpp:470-500). -/
noncomputable def eigenValues3 (γ : ℝ) (d : Fin 3) (U₀ : Cons 3) : Fin 5 → ℝ :=
  let U := rotate3 d U₀
  ![velocity U 0 - soundSpeed γ U, velocity U 0, velocity U 0, velocity U 0, velocity U 0 + soundSpeed γ U]

/-- A state vector as conserved variables (ConservedVariables.hpp:138-157). -/
def ofVec1 (v : Fin 3 → ℝ) : Cons 1 := (v 0, ![v 1], v 2)
/-- as above, two dimensions -/
def ofVec2 (v : Fin 4 → ℝ) : Cons 2 := (v 0, ![v 1, v 2], v 3)
/-- as above, three dimensions -/
def ofVec3 (v : Fin 5 → ℝ) : Cons 3 := (v 0, ![v 1, v 2, v 3], v 4)

/-! ### Lemmas -/

theorem dot_smul_left (c : ℝ) (a b : Fin n → ℝ) : dot (fun i => c * a i) b = c * dot a b := by
  simp only [dot, Finset.mul_sum]; refine Finset.sum_congr rfl fun i _ => by ring

theorem dot_smul_right (c : ℝ) (a b : Fin n → ℝ) : dot a (fun i => c * b i) = c * dot a b := by
  simp only [dot, Finset.mul_sum]; refine Finset.sum_congr rfl fun i _ => by ring

theorem toPrim_toCons {γ : ℝ} (hγ : γ ≠ 1) {w : Prim n} (hw : w.rho ≠ 0) : toPrim γ (toCons γ w) = w := by
  have hg : γ - 1 ≠ 0 := sub_ne_zero.2 hγ
  ext i
  · rfl
  · simp only [toPrim, velocity, toCons]; field_simp
  · have hd : dot (toCons γ w).m (toCons γ w).m = w.rho * (w.rho * dot w.u w.u) := by
      show dot (fun i => w.rho * w.u i) (fun i => w.rho * w.u i) = _
      rw [dot_smul_left, dot_smul_right]
    simp only [toPrim, pressure, hd]
    simp only [toCons]
    field_simp
    ring

theorem toCons_toPrim {γ : ℝ} (hγ : γ ≠ 1) {U : Cons n} (hU : U.rho ≠ 0) : toCons γ (toPrim γ U) = U := by
  have hg : γ - 1 ≠ 0 := sub_ne_zero.2 hγ
  have hd : dot (velocity U) (velocity U) = dot U.m U.m / U.rho ^ 2 := by
    have : velocity U = fun i => U.rho⁻¹ * U.m i := by funext i; simp only [velocity]; field_simp
    rw [this, dot_smul_left, dot_smul_right]; field_simp
  refine Prod.ext rfl (Prod.ext ?_ ?_)
  · funext i; simp only [toCons, toPrim, velocity]; field_simp
  · simp only [toCons, toPrim, hd, pressure]; field_simp; ring

theorem pressure_toCons {γ : ℝ} (hγ : γ ≠ 1) {w : Prim n} (hw : w.rho ≠ 0) : pressure γ (toCons γ w) = w.p :=
  congrArg Prim.p (toPrim_toCons hγ hw)

theorem velocity_toCons {γ : ℝ} (hγ : γ ≠ 1) {w : Prim n} (hw : w.rho ≠ 0) : velocity (toCons γ w) = w.u :=
  congrArg Prim.u (toPrim_toCons hγ hw)

/-- Directional derivative of the pressure. -/
noncomputable def dpressure (γ : ℝ) (U W : Cons n) : ℝ :=
  (γ - 1) * (W.E - (dot U.m W.m / U.rho - 0.5 * dot U.m U.m * W.rho / U.rho ^ 2))

/-- Directional derivative of the flux. -/
noncomputable def dflux (γ : ℝ) (d : Fin n) (U W : Cons n) : Cons n :=
  (W.m d,
   (fun i => (W.m d / U.rho - U.m d * W.rho / U.rho ^ 2) * U.m i + U.m d / U.rho * W.m i + if i = d then dpressure γ U W else 0),
   (W.E + dpressure γ U W) * (U.m d / U.rho) + (U.E + pressure γ U) * (W.m d / U.rho - U.m d * W.rho / U.rho ^ 2))

theorem hasDerivAt_rho (U W : Cons n) : HasDerivAt (fun t : ℝ => (U + t • W).rho) W.rho 0 := by
  have := ((hasDerivAt_id (0 : ℝ)).mul_const W.rho).const_add U.rho
  simpa [Cons.rho] using this

theorem hasDerivAt_m (U W : Cons n) (i : Fin n) : HasDerivAt (fun t : ℝ => (U + t • W).m i) (W.m i) 0 := by
  have := ((hasDerivAt_id (0 : ℝ)).mul_const (W.m i)).const_add (U.m i)
  simpa [Cons.m] using this

theorem hasDerivAt_E (U W : Cons n) : HasDerivAt (fun t : ℝ => (U + t • W).E) W.E 0 := by
  have := ((hasDerivAt_id (0 : ℝ)).mul_const W.E).const_add U.E
  simpa [Cons.E] using this

theorem hasDerivAt_velocity {U : Cons n} (hU : U.rho ≠ 0) (W : Cons n) (i : Fin n) :
    HasDerivAt (fun t : ℝ => velocity (U + t • W) i) (W.m i / U.rho - U.m i * W.rho / U.rho ^ 2) 0 := by
  have h := (hasDerivAt_m U W i).div (hasDerivAt_rho U W) (by simpa [Cons.rho] using hU)
  refine HasDerivAt.congr_deriv (f := fun t : ℝ => velocity (U + t • W) i) h ?_
  simp only [Cons.rho, Cons.m, zero_smul, add_zero] at hU ⊢
  field_simp

theorem hasDerivAt_dot (U W : Cons n) :
    HasDerivAt (fun t : ℝ => dot (U + t • W).m (U + t • W).m) (2 * dot U.m W.m) 0 := by
  have h : HasDerivAt (fun t : ℝ => ∑ i, (U + t • W).m i * (U + t • W).m i) (∑ i : Fin n, 2 * (U.m i * W.m i)) 0 := by
    apply HasDerivAt.fun_sum
    intro i _
    have := (hasDerivAt_m U W i).mul (hasDerivAt_m U W i)
    refine HasDerivAt.congr_deriv (f := fun t : ℝ => (U + t • W).m i * (U + t • W).m i) this ?_
    simp [Cons.m]; ring
  rw [← Finset.mul_sum] at h
  exact h

theorem hasDerivAt_pressure (γ : ℝ) {U : Cons n} (hU : U.rho ≠ 0) (W : Cons n) :
    HasDerivAt (fun t : ℝ => pressure γ (U + t • W)) (dpressure γ U W) 0 := by
  have h := (((hasDerivAt_E U W).sub (((hasDerivAt_dot U W).const_mul 0.5).div (hasDerivAt_rho U W) (by simpa [Cons.rho] using hU)))).const_mul (γ - 1)
  refine HasDerivAt.congr_deriv (f := fun t : ℝ => pressure γ (U + t • W)) h ?_
  simp only [Cons.rho, Cons.m, zero_smul, add_zero, dpressure] at hU ⊢
  field_simp
  ring

theorem hasDerivAt_flux (γ : ℝ) (d : Fin n) {U : Cons n} (hU : U.rho ≠ 0) (W : Cons n) :
    HasDerivAt (fun t : ℝ => flux γ d (U + t • W)) (dflux γ d U W) 0 := by
  have hp := hasDerivAt_pressure γ hU W
  refine (hasDerivAt_m U W d).prodMk (HasDerivAt.prodMk ?_ ?_)
  · rw [hasDerivAt_pi]
    intro i
    have h1 := (hasDerivAt_velocity hU W d).mul (hasDerivAt_m U W i)
    have h2 : HasDerivAt (fun t : ℝ => if i = d then pressure γ (U + t • W) else 0) (if i = d then dpressure γ U W else 0) 0 := by
      split_ifs
      · exact hp
      · exact hasDerivAt_const _ _
    refine HasDerivAt.congr_deriv (h1.add h2) ?_
    simp [Cons.m, velocity]
  · have h3 := ((hasDerivAt_E U W).add hp).mul (hasDerivAt_velocity hU W d)
    refine HasDerivAt.congr_deriv (f := fun t : ℝ => ((U + t • W).E + pressure γ (U + t • W)) * velocity (U + t • W) d) h3 ?_
    simp [Cons.E, velocity]

theorem dpressure_smul (γ c : ℝ) (U W : Cons n) : dpressure γ U (c • W) = c * dpressure γ U W := by
  have : dot U.m (c • W).m = c * dot U.m W.m := dot_smul_right c U.m W.m
  simp only [dpressure, this]
  simp [Cons.E, Cons.rho]; ring

theorem dflux_smul (γ c : ℝ) (d : Fin n) (U W : Cons n) : dflux γ d U (c • W) = c • dflux γ d U W := by
  simp only [dflux, dpressure_smul]
  refine Prod.ext ?_ (Prod.ext (funext fun i => ?_) ?_)
  · simp [Cons.m]
  · simp only [Cons.m, Cons.rho, Prod.smul_fst, Prod.smul_snd, Pi.smul_apply, smul_eq_mul]
    split_ifs <;> ring
  · simp only [Cons.m, Cons.rho, Cons.E, Prod.smul_fst, Prod.smul_snd, Pi.smul_apply, smul_eq_mul]; ring

/-- Every admissible state is given by density, velocity and a positive sound speed `a` with `p = a² ρ / γ`. -/
theorem param {γ : ℝ} (hγ : 1 < γ) {U : Cons n} (h : obeysConstraints γ U) :
    0 < soundSpeed γ U ∧ pressure γ U = soundSpeed γ U ^ 2 * U.rho / γ ∧
      U = toCons γ ⟨U.rho, velocity U, soundSpeed γ U ^ 2 * U.rho / γ⟩ := by
  obtain ⟨h1, h2⟩ := h
  have h3 : 0 < γ * pressure γ U / U.rho := by positivity
  have h4 : soundSpeed γ U ^ 2 = γ * pressure γ U / U.rho := Real.sq_sqrt h3.le
  have h5 : pressure γ U = soundSpeed γ U ^ 2 * U.rho / γ := by rw [h4]; field_simp
  refine ⟨Real.sqrt_pos.2 h3, h5, ?_⟩
  rw [← h5]
  exact (toCons_toPrim (by linarith) h1.ne').symm

theorem soundSpeed_toCons {γ : ℝ} (hγ : 1 < γ) {ρ a : ℝ} {u : Fin n → ℝ} (hρ : 0 < ρ) (ha : 0 < a) :
    soundSpeed γ (toCons γ ⟨ρ, u, a ^ 2 * ρ / γ⟩) = a := by
  have : γ ≠ 0 := by linarith
  unfold soundSpeed
  rw [pressure_toCons (by linarith) (by simpa using hρ.ne')]
  have e : γ * (a ^ 2 * ρ / γ) / (toCons γ (⟨ρ, u, a ^ 2 * ρ / γ⟩ : Prim n)).rho = a ^ 2 := by
    simp only [toCons]; field_simp
  rw [e, Real.sqrt_sq ha.le]

/-- The acoustic waves of direction `d` (`s = -1` and `s = 1`). -/
noncomputable def acoustic (γ : ℝ) (d : Fin n) (U : Cons n) (s : ℝ) : Cons n :=
  (1, (fun i => velocity U i + if i = d then s * soundSpeed γ U else 0), enthalpy γ U + s * velocity U d * soundSpeed γ U)

/-- The entropy wave. -/
noncomputable def entropyWave (U : Cons n) : Cons n := (1, velocity U, 0.5 * dot (velocity U) (velocity U))

/-- The shear wave in the direction `j`. -/
noncomputable def shearWave (j : Fin n) (U : Cons n) : Cons n := (0, (fun i => if i = j then 1 else 0), velocity U j)

theorem enthalpy_eq {γ : ℝ} (hγ : 1 < γ) {U : Cons n} (h : obeysConstraints γ U) :
    enthalpy γ U = soundSpeed γ U ^ 2 / (γ - 1) + 0.5 * dot (velocity U) (velocity U) := by
  have hρ : U.rho ≠ 0 := ne_of_gt h.1
  have hg : γ - 1 ≠ 0 := by linarith
  have hg0 : γ ≠ 0 := by linarith
  obtain ⟨ha, hpa, hU⟩ := param hγ h
  rw [enthalpy, hpa]
  have : U.E = soundSpeed γ U ^ 2 * U.rho / γ / (γ - 1) + 0.5 * U.rho * dot (velocity U) (velocity U) := congrArg Cons.E hU
  rw [this]
  field_simp
  ring

theorem dot_add_single (d : Fin n) (u v : Fin n → ℝ) (x : ℝ) :
    dot u (fun i => v i + if i = d then x else 0) = dot u v + u d * x := by
  simp [dot, mul_add, Finset.sum_add_distrib]

theorem dot_single (j : Fin n) (u : Fin n → ℝ) : dot u (fun i => if i = j then (1 : ℝ) else 0) = u j := by
  simp [dot]

theorem momentum_eq {U : Cons n} (hρ : U.rho ≠ 0) : U.m = fun i => U.rho * velocity U i := by
  funext i; simp only [velocity]; field_simp

theorem dot_momentum {U : Cons n} (hρ : U.rho ≠ 0) (v : Fin n → ℝ) : dot U.m v = U.rho * dot (velocity U) v := by
  rw [momentum_eq hρ, dot_smul_left]

theorem dot_momentum_self {U : Cons n} (hρ : U.rho ≠ 0) : dot U.m U.m = U.rho ^ 2 * dot (velocity U) (velocity U) := by
  rw [momentum_eq hρ, dot_smul_left, dot_smul_right]; ring

theorem dpressure_acoustic {γ : ℝ} (hγ : 1 < γ) {U : Cons n} (h : obeysConstraints γ U) (d : Fin n) (s : ℝ) :
    dpressure γ U (acoustic γ d U s) = soundSpeed γ U ^ 2 := by
  have hρ : U.rho ≠ 0 := ne_of_gt h.1
  have hg : γ - 1 ≠ 0 := by linarith
  have e1 : (acoustic γ d U s).rho = 1 := rfl
  have e2 : (acoustic γ d U s).m = fun i => velocity U i + if i = d then s * soundSpeed γ U else 0 := rfl
  have e3 : (acoustic γ d U s).E = enthalpy γ U + s * velocity U d * soundSpeed γ U := rfl
  rw [dpressure, e1, e2, e3, dot_momentum hρ, dot_momentum_self hρ, dot_add_single, enthalpy_eq hγ h]
  field_simp
  ring

theorem dflux_acoustic {γ : ℝ} (hγ : 1 < γ) {U : Cons n} (h : obeysConstraints γ U) (d : Fin n) (s : ℝ) (hs : s ^ 2 = 1) :
    dflux γ d U (acoustic γ d U s) = (velocity U d + s * soundSpeed γ U) • acoustic γ d U s := by
  have hρ : U.rho ≠ 0 := ne_of_gt h.1
  have e1 : (acoustic γ d U s).rho = 1 := rfl
  have e2 : (acoustic γ d U s).m = fun i => velocity U i + if i = d then s * soundSpeed γ U else 0 := rfl
  have e3 : (acoustic γ d U s).E = enthalpy γ U + s * velocity U d * soundSpeed γ U := rfl
  have e4 : U.E + pressure γ U = U.rho * enthalpy γ U := by rw [enthalpy]; field_simp
  have hm : ∀ i, U.m i = U.rho * velocity U i := fun i => congrFun (momentum_eq hρ) i
  simp only [dflux, dpressure_acoustic hγ h, e1, e2, e3, e4, hm, if_true]
  refine Prod.ext ?_ (Prod.ext (funext fun i => ?_) ?_)
  · simp [acoustic]
  · simp only [acoustic, Prod.smul_snd, Prod.smul_fst, Pi.smul_apply, smul_eq_mul]
    split_ifs with hi
    · subst hi
      field_simp
      linear_combination (-soundSpeed γ U ^ 2) * hs
    · field_simp
      ring
  · simp only [acoustic, Prod.smul_snd, smul_eq_mul]
    field_simp
    linear_combination (-soundSpeed γ U ^ 2 * velocity U d) * hs

theorem dflux_entropy (γ : ℝ) {U : Cons n} (hρ : U.rho ≠ 0) (d : Fin n) :
    dflux γ d U (entropyWave U) = velocity U d • entropyWave U := by
  have e1 : (entropyWave U).rho = 1 := rfl
  have e2 : (entropyWave U).m = velocity U := rfl
  have e3 : (entropyWave U).E = 0.5 * dot (velocity U) (velocity U) := rfl
  have hp : dpressure γ U (entropyWave U) = 0 := by
    rw [dpressure, e1, e2, e3, dot_momentum hρ, dot_momentum_self hρ]
    field_simp
    ring
  have hm : ∀ i, U.m i = U.rho * velocity U i := fun i => congrFun (momentum_eq hρ) i
  simp only [dflux, hp, e1, e2, e3, hm, ite_self]
  refine Prod.ext ?_ (Prod.ext (funext fun i => ?_) ?_)
  · simp [entropyWave]
  · simp only [entropyWave, Prod.smul_snd, Prod.smul_fst, Pi.smul_apply, smul_eq_mul]
    field_simp
    ring
  · simp only [entropyWave, Prod.smul_snd, smul_eq_mul]
    field_simp
    ring

theorem dflux_shear (γ : ℝ) {U : Cons n} (hρ : U.rho ≠ 0) {d j : Fin n} (hj : j ≠ d) :
    dflux γ d U (shearWave j U) = velocity U d • shearWave j U := by
  have e1 : (shearWave j U).rho = 0 := rfl
  have e2 : (shearWave j U).m = (fun i => if i = j then 1 else 0) := rfl
  have e3 : (shearWave j U).E = velocity U j := rfl
  have hp : dpressure γ U (shearWave j U) = 0 := by
    rw [dpressure, e1, e2, e3, dot_momentum hρ, dot_single]
    field_simp
    ring
  have hm : ∀ i, U.m i = U.rho * velocity U i := fun i => congrFun (momentum_eq hρ) i
  simp only [dflux, hp, e1, e2, e3, hm, ite_self, if_neg hj.symm]
  refine Prod.ext ?_ (Prod.ext (funext fun i => ?_) ?_)
  · simp [shearWave]
  · simp only [shearWave, Prod.smul_snd, Prod.smul_fst, Pi.smul_apply, smul_eq_mul]
    field_simp
    ring
  · simp only [shearWave, Prod.smul_snd, smul_eq_mul]
    field_simp
    ring

theorem dflux_eigen_scale {γ : ℝ} {d : Fin n} {U r : Cons n} {lam : ℝ} (h : dflux γ d U r = lam • r) (c : ℝ) :
    dflux γ d U (c • r) = lam • (c • r) := by
  rw [dflux_smul, h, smul_comm]

theorem pressure_rotate2 (γ : ℝ) (d : Fin 2) (U : Cons 2) : pressure γ (rotate2 d U) = pressure γ U := by
  unfold rotate2; split_ifs
  · simp [-mul_eq_mul_left_iff, pressure, dot, Cons.m, Cons.rho, Cons.E, Fin.sum_univ_succ]; ring
  · rfl

theorem rotate2_rho (d : Fin 2) (U : Cons 2) : (rotate2 d U).rho = U.rho := by unfold rotate2; split_ifs <;> rfl
theorem rotate2_E (d : Fin 2) (U : Cons 2) : (rotate2 d U).E = U.E := by unfold rotate2; split_ifs <;> rfl

theorem pressure_rotate3 (γ : ℝ) (d : Fin 3) (U : Cons 3) : pressure γ (rotate3 d U) = pressure γ U := by
  unfold rotate3; split_ifs
  · simp [-mul_eq_mul_left_iff, pressure, dot, Cons.m, Cons.rho, Cons.E, Fin.sum_univ_succ]; ring
  · simp [-mul_eq_mul_left_iff, pressure, dot, Cons.m, Cons.rho, Cons.E, Fin.sum_univ_succ]; ring
  · rfl

theorem rotate3_rho (d : Fin 3) (U : Cons 3) : (rotate3 d U).rho = U.rho := by unfold rotate3; split_ifs <;> rfl
theorem rotate3_E (d : Fin 3) (U : Cons 3) : (rotate3 d U).E = U.E := by unfold rotate3; split_ifs <;> rfl

theorem soundSpeed_rotate2 (γ : ℝ) (d : Fin 2) (U : Cons 2) : soundSpeed γ (rotate2 d U) = soundSpeed γ U := by
  simp only [soundSpeed, pressure_rotate2, rotate2_rho]
theorem enthalpy_rotate2 (γ : ℝ) (d : Fin 2) (U : Cons 2) : enthalpy γ (rotate2 d U) = enthalpy γ U := by
  simp only [enthalpy, pressure_rotate2, rotate2_rho, rotate2_E]
theorem soundSpeed_rotate3 (γ : ℝ) (d : Fin 3) (U : Cons 3) : soundSpeed γ (rotate3 d U) = soundSpeed γ U := by
  simp only [soundSpeed, pressure_rotate3, rotate3_rho]
theorem enthalpy_rotate3 (γ : ℝ) (d : Fin 3) (U : Cons 3) : enthalpy γ (rotate3 d U) = enthalpy γ U := by
  simp only [enthalpy, pressure_rotate3, rotate3_rho, rotate3_E]

theorem velocity_rotate2 (U : Cons 2) : velocity (rotate2 1 U) = ![velocity U 1, -velocity U 0] := by
  funext i; fin_cases i <;> simp [velocity, rotate2, Cons.m, Cons.rho] <;> ring
theorem rotate2_zero (U : Cons 2) : rotate2 0 U = U := by simp [rotate2]
theorem velocity_rotate3_one (U : Cons 3) : velocity (rotate3 1 U) = ![velocity U 1, -velocity U 0, velocity U 2] := by
  funext i; fin_cases i <;> simp [velocity, rotate3, Cons.m, Cons.rho] <;> ring
theorem velocity_rotate3_two (U : Cons 3) : velocity (rotate3 2 U) = ![velocity U 2, velocity U 1, -velocity U 0] := by
  funext i; fin_cases i <;> simp [velocity, rotate3, Cons.m, Cons.rho] <;> ring
theorem rotate3_zero (U : Cons 3) : rotate3 0 U = U := by simp [rotate3]

end Euler
end Verif
