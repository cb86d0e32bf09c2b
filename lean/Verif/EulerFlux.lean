import Verif.Euler
import Verif.Flux

/-!
Model of the numerical fluxes of the Euler equations (alsfvm/include/alsfvm/numflux/euler/*.hpp). The code passes `AllVariables` (conserved
variables together with the velocity and pressure computed from them by `computeExtra`); here the velocity and pressure are computed
where they are used. `fmin`, `fmax`, `sqrt`, `log` are the real functions. A flux returns the flux and the wave speed.
-/

namespace Verif
namespace EulerFlux
open Euler
variable {n : Nat}

/-- Average of a component of the velocity with weights `sqrt rho` (HLL.hpp:98-103, HLL3.hpp:126-131). -/
noncomputable def meanVelocity (d : Fin n) (L R : Cons n) : ℝ :=
  (Real.sqrt L.rho * velocity L d + Real.sqrt R.rho * velocity R d) / (Real.sqrt L.rho + Real.sqrt R.rho)

/-- Average of the pressure with weights `sqrt rho` (HLL.hpp:105-106, HLL3.hpp:132-133). -/
noncomputable def meanPressure (γ : ℝ) (L R : Cons n) : ℝ :=
  (pressure γ L * Real.sqrt L.rho + pressure γ R * Real.sqrt R.rho) / (Real.sqrt L.rho + Real.sqrt R.rho)

/-- Averaged sound speed (HLL.hpp:101, 108, HLL3.hpp:129, 144). -/
noncomputable def meanSound (γ : ℝ) (L R : Cons n) : ℝ := Real.sqrt (γ * meanPressure γ L R / ((L.rho + R.rho) / 2))

/-- `HLL::computeHLLSpeeds` (alsfvm/include/alsfvm/numflux/euler/HLL.hpp:89-115): left and right speed. -/
noncomputable def hllSpeeds (γ : ℝ) (d : Fin n) (L R : Cons n) : ℝ × ℝ :=
  (min (velocity L d - soundSpeed γ L) (meanVelocity d L R - meanSound γ L R),
   max (velocity R d + soundSpeed γ R) (meanVelocity d L R + meanSound γ L R))

/-- `HLL::computeFlux` (HLL.hpp:52-78). -/
noncomputable def hll (γ : ℝ) (d : Fin n) (L R : Cons n) : Cons n × ℝ :=
  let sL := (hllSpeeds γ d L R).1
  let sR := (hllSpeeds γ d L R).2
  (if sL = 0 then 0
   else if sL > 0 then flux γ d L
   else if sR < 0 then flux γ d R
   else (sR - sL)⁻¹ • (sR • flux γ d L - sL • flux γ d R + (sR * sL) • (R - L)),
   max |sL| |sR|)

/-- `HLL3::computeHLLSpeeds` (alsfvm/include/alsfvm/numflux/euler/HLL3.hpp:119-148). -/
noncomputable def hll3Speeds (γ : ℝ) (d : Fin n) (L R : Cons n) : ℝ × ℝ :=
  let correct := 0.5 * max 0 (velocity L d - velocity R d)
  (min (velocity L d + correct - soundSpeed γ L) (meanVelocity d L R - meanSound γ L R),
   max (velocity R d - correct + soundSpeed γ R) (meanVelocity d L R + meanSound γ L R))

/-- `aa` (HLL3.hpp:71-74). -/
noncomputable def hll3aa (γ : ℝ) (d : Fin n) (L R : Cons n) : ℝ :=
  (velocity R d - (hll3Speeds γ d L R).2) * R.rho - (velocity L d - (hll3Speeds γ d L R).1) * L.rho

/-- The middle speed `sm` (HLL3.hpp:75-76). -/
noncomputable def hll3sm (γ : ℝ) (d : Fin n) (L R : Cons n) : ℝ :=
  (R.m d * (velocity R d - (hll3Speeds γ d L R).2) - L.m d * (velocity L d - (hll3Speeds γ d L R).1) + pressure γ R - pressure γ L) /
    hll3aa γ d L R

/-- The velocity of the middle states `us` (HLL3.hpp:78-80). -/
noncomputable def hll3us (γ : ℝ) (d : Fin n) (L R : Cons n) : Fin n → ℝ := fun i =>
  if i = d then hll3sm γ d L R
  else ((flux γ d R).m i - (flux γ d L).m i - (hll3Speeds γ d L R).2 * R.m i + (hll3Speeds γ d L R).1 * L.m i) / hll3aa γ d L R

/-- A middle state next to `S`, which is `left` with the left speed (HLL3.hpp:89-94) or `right` with the right speed (HLL3.hpp:97-102). -/
noncomputable def hll3Middle (γ : ℝ) (d : Fin n) (sm : ℝ) (us : Fin n → ℝ) (S : Cons n) (speed : ℝ) : Cons n :=
  let ud := velocity S d - speed
  let rho := S.rho * ud / (sm - speed)
  let p := pressure γ S + S.rho * (velocity S d - sm) * ud
  (rho, (fun i => rho * us i), (ud * S.E + pressure γ S * velocity S d - p * sm) / (sm - speed))

/-- `HLL3::computeFlux` (HLL3.hpp:53-107). -/
noncomputable def hll3 (γ : ℝ) (d : Fin n) (L R : Cons n) : Cons n × ℝ :=
  let sL := (hll3Speeds γ d L R).1
  let sR := (hll3Speeds γ d L R).2
  let sm := hll3sm γ d L R
  let us := hll3us γ d L R
  (if sL = 0 then 0
   else if sL > 0 then flux γ d L
   else if sR < 0 then flux γ d R
   else if sm ≥ 0 then flux γ d L + sL • (hll3Middle γ d sm us L sL - L)
   else flux γ d R + sR • (hll3Middle γ d sm us R sR - R),
   max |sL| |sR|)

/-- `Central::computeFlux` (alsfvm/include/alsfvm/numflux/Central.hpp:34-55) for the Euler equations. -/
noncomputable def central (γ : ℝ) (d : Fin n) (L R : Cons n) : Cons n × ℝ :=
  ((0.5 : ℝ) • (flux γ d L + flux γ d R), max (waveSpeed γ d L) (waveSpeed γ d R))

/-- `bar` (alsfvm/include/alsfvm/numflux/tecno_utils.hpp:22-24). -/
noncomputable def bar (l r : ℝ) : ℝ := (l + r) / 2

open Classical in
/-- `ln` (tecno_utils.hpp:29-35). -/
noncomputable def ln (l r : ℝ) : ℝ :=
  if r - l = 0 ∨ Real.log r - Real.log l = 0 then 0 else (r - l) / (Real.log r - Real.log l)

open Classical in
/-- `divLn` (tecno_utils.hpp:39-47). -/
noncomputable def divLn (l r F : ℝ) : ℝ := if ln l r = 0 then 0 else F / ln l r

/-- First component of `computeTecnoVariables` (alsfvm/include/alsfvm/equation/euler/Euler.hpp:311-320). -/
noncomputable def zFirst (γ : ℝ) (U : Cons n) : ℝ := Real.sqrt (U.rho / pressure γ U)
/-- The velocity components of `computeTecnoVariables` (Euler.hpp:311-320). -/
noncomputable def zVel (γ : ℝ) (U : Cons n) : Fin n → ℝ := fun i => Real.sqrt (U.rho / pressure γ U) * velocity U i
/-- Last component of `computeTecnoVariables` (Euler.hpp:311-320). -/
noncomputable def zLast (γ : ℝ) (U : Cons n) : ℝ := Real.sqrt (U.rho * pressure γ U)

/-- The wave speed reported by `Tecno1` (alsfvm/include/alsfvm/numflux/euler/Tecno1.hpp:85-89, 125-129, 158-162). -/
noncomputable def tecnoSpeed (γ : ℝ) (d : Fin n) (L R : Cons n) : ℝ := max |(hll3Speeds γ d L R).1| |(hll3Speeds γ d L R).2|

open Classical in
/-- `Tecno1<1>::computeFlux` (Tecno1.hpp:136-166). `left == right` compares the conserved variables (ConservedVariables.hpp:88-91). -/
noncomputable def tecno1D (γ : ℝ) (d : Fin 1) (L R : Cons 1) : Cons 1 × ℝ :=
  let z0 := bar (zFirst γ L) (zFirst γ R)
  let z1 := bar (zVel γ L 0) (zVel γ R 0)
  let z2 := bar (zLast γ L) (zLast γ R)
  (if L = R then flux γ d L
   else
     let F0 := z1 * ln (zLast γ L) (zLast γ R)
     let F1 := z2 / z0 + z1 / z0 * F0
     let F2 := 1.0 / (2 * z0) * ((γ + 1) / (γ - 1) * divLn (zFirst γ L) (zFirst γ R) F0 + z1 * F1)
     (F0, ![F1], F2),
   tecnoSpeed γ d L R)

open Classical in
/-- `Tecno1<2>::computeFlux` (Tecno1.hpp:94-133). -/
noncomputable def tecno2D (γ : ℝ) (d : Fin 2) (L R : Cons 2) : Cons 2 × ℝ :=
  let z0 := bar (zFirst γ L) (zFirst γ R)
  let z1 := bar (zVel γ L 0) (zVel γ R 0)
  let z2 := bar (zVel γ L 1) (zVel γ R 1)
  let z3 := bar (zLast γ L) (zLast γ R)
  (if L = R then flux γ d L
   else if d = 0 then
     let F0 := z1 * ln (zLast γ L) (zLast γ R)
     let F1 := z3 / z0 + z1 / z0 * F0
     let F2 := z2 / z0 * F0
     let F3 := 1.0 / (2 * z0) * ((γ + 1) / (γ - 1) * divLn (zFirst γ L) (zFirst γ R) F0 + z1 * F1 + z2 * F2)
     (F0, ![F1, F2], F3)
   else
     let F0 := z2 * ln (zLast γ L) (zLast γ R)
     let F1 := z1 / z0 * F0
     let F2 := z3 / z0 + z2 / z0 * F0
     let F3 := 1.0 / (2 * z0) * ((γ + 1) / (γ - 1) * divLn (zFirst γ L) (zFirst γ R) F0 + z1 * F1 + z2 * F2)
     (F0, ![F1, F2], F3),
   tecnoSpeed γ d L R)

open Classical in
/-- `Tecno1<3>::computeFlux` (Tecno1.hpp:52-90). The third momentum component is set to zero, and direction 2 has no branch, so that `F` keeps
the zeros it was constructed with (alsfvm/src/numflux/NumericalFluxCPU.cpp:84-90, numflux_util.hpp:86, ConservedVariables.hpp:35-38). -/
noncomputable def tecno3D (γ : ℝ) (d : Fin 3) (L R : Cons 3) : Cons 3 × ℝ :=
  let z0 := bar (zFirst γ L) (zFirst γ R)
  let z1 := bar (zVel γ L 0) (zVel γ R 0)
  let z2 := bar (zVel γ L 1) (zVel γ R 1)
  let z4 := bar (zLast γ L) (zLast γ R)
  (if L = R then flux γ d L
   else if d = 0 then
     let F0 := z1 * ln (zLast γ L) (zLast γ R)
     let F1 := z4 / z0 + z1 / z0 * F0
     let F2 := z2 / z0 * F0
     let F4 := 1.0 / (2 * z0) * ((γ + 1) / (γ - 1) * divLn (zFirst γ L) (zFirst γ R) F0 + z1 * F1 + z2 * F2)
     (F0, ![F1, F2, 0], F4)
   else if d = 1 then
     let F0 := z2 * ln (zLast γ L) (zLast γ R)
     let F1 := z1 / z0 * F0
     let F2 := z4 / z0 + z2 / z0 * F0
     let F4 := 1.0 / (2 * z0) * ((γ + 1) / (γ - 1) * divLn (zFirst γ L) (zFirst γ R) F0 + z1 * F1 + z2 * F2)
     (F0, ![F1, F2, 0], F4)
   else 0,
   tecnoSpeed γ d L R)

/-- `Tecno1<nsd>` for `nsd` = 1, 2, 3 (there are no other specialisations; the last case is never used). -/
noncomputable def tecno1 : (n : Nat) → ℝ → Fin n → Cons n → Cons n → Cons n × ℝ
  | 1 => tecno1D
  | 2 => tecno2D
  | 3 => tecno3D
  | _ => fun _ _ _ _ => (0, 0)

/-- A numerical flux as the solver uses it: the stencil and the function on the values at the stencil (the counterpart of `Flux.Selected`
for systems; `computeFlux` of numflux_util.hpp:46-142 applies the flux to the values at the stencil). -/
structure Selected (n : Nat) where
  stencil : List Int
  fn : List (Cons n) → Cons n × ℝ

/-- The fluxes registered for `Euler<nsd>` (alsfvm/include/alsfvm/numflux/numerical_flux_list.hpp:43-73), by name; the names are those of the
`name` constants and the search is NumericalFluxFactory.cpp:60-99. -/
noncomputable def select (n : Nat) (γ : ℝ) (d : Fin n) : String → Option (Selected n)
  | "hll" => some ⟨Flux.stencil2, fun v => match v with | [l, r] => hll γ d l r | _ => (0, 0)⟩
  | "hll3" => some ⟨Flux.stencil2, fun v => match v with | [l, r] => hll3 γ d l r | _ => (0, 0)⟩
  | "central" => some ⟨Flux.stencil2, fun v => match v with | [l, r] => central γ d l r | _ => (0, 0)⟩
  | "tecno1" => some ⟨Flux.stencil2, fun v => match v with | [l, r] => tecno1 n γ d l r | _ => (0, 0)⟩
  | "tecno4" => some ⟨Flux.stencil4, fun v => match v with | [a, b, c, e] => Flux.combined4 (tecno1 n γ d) a b c e | _ => (0, 0)⟩
  | "tecno6" => some ⟨Flux.stencil6, fun v => match v with
      | [a, b, c, e, f, g] => Flux.combined6 (tecno1 n γ d) a b c e f g | _ => (0, 0)⟩
  | _ => none

/-! ### Lemmas -/

theorem mean_same {d : Fin n} {γ : ℝ} {U : Cons n} (h : obeysConstraints γ U) :
    meanVelocity d U U = velocity U d ∧ meanPressure γ U U = pressure γ U ∧ meanSound γ U U = soundSpeed γ U := by
  have hw : Real.sqrt U.rho ≠ 0 := (Real.sqrt_pos.2 h.1).ne'
  have h1 : meanVelocity d U U = velocity U d := by simp only [meanVelocity]; field_simp
  have h2 : meanPressure γ U U = pressure γ U := by simp only [meanPressure]; field_simp
  refine ⟨h1, h2, ?_⟩
  simp only [meanSound, h2, soundSpeed]
  congr 2; ring

theorem hllSpeeds_same {d : Fin n} {γ : ℝ} {U : Cons n} (h : obeysConstraints γ U) :
    hllSpeeds γ d U U = (velocity U d - soundSpeed γ U, velocity U d + soundSpeed γ U) := by
  obtain ⟨h1, -, h2⟩ := mean_same (d := d) h
  simp [hllSpeeds, h1, h2]

theorem hll3Speeds_same {d : Fin n} {γ : ℝ} {U : Cons n} (h : obeysConstraints γ U) :
    hll3Speeds γ d U U = (velocity U d - soundSpeed γ U, velocity U d + soundSpeed γ U) := by
  obtain ⟨h1, -, h2⟩ := mean_same (d := d) h
  simp [hll3Speeds, h1, h2]

theorem meanPressure_pos {γ : ℝ} {L R : Cons n} (hL : obeysConstraints γ L) (hR : obeysConstraints γ R) : 0 < meanPressure γ L R := by
  have h1 := Real.sqrt_pos.2 hL.1
  have h2 := Real.sqrt_pos.2 hR.1
  have h3 := hL.2
  have h4 := hR.2
  simp only [meanPressure]; positivity

theorem meanSound_pos {γ : ℝ} (hγ : 1 < γ) {L R : Cons n} (hL : obeysConstraints γ L) (hR : obeysConstraints γ R) : 0 < meanSound γ L R := by
  have h1 := meanPressure_pos hL hR
  have h2 := hL.1
  have h3 := hR.1
  apply Real.sqrt_pos.2
  positivity

theorem hllSpeeds_lt {γ : ℝ} (hγ : 1 < γ) (d : Fin n) {L R : Cons n} (hL : obeysConstraints γ L) (hR : obeysConstraints γ R) :
    (hllSpeeds γ d L R).1 < (hllSpeeds γ d L R).2 := by
  have h := meanSound_pos hγ hL hR
  calc (hllSpeeds γ d L R).1 ≤ meanVelocity d L R - meanSound γ L R := min_le_right _ _
    _ < meanVelocity d L R + meanSound γ L R := by linarith
    _ ≤ (hllSpeeds γ d L R).2 := le_max_right _ _

theorem hll3Speeds_lt {γ : ℝ} (hγ : 1 < γ) (d : Fin n) {L R : Cons n} (hL : obeysConstraints γ L) (hR : obeysConstraints γ R) :
    (hll3Speeds γ d L R).1 < (hll3Speeds γ d L R).2 := by
  have h := meanSound_pos hγ hL hR
  calc (hll3Speeds γ d L R).1 ≤ meanVelocity d L R - meanSound γ L R := min_le_right _ _
    _ < meanVelocity d L R + meanSound γ L R := by linarith
    _ ≤ (hll3Speeds γ d L R).2 := le_max_right _ _

theorem meanVelocity_bounds (d : Fin n) {γ : ℝ} {L R : Cons n} (hL : obeysConstraints γ L) (hR : obeysConstraints γ R) :
    (velocity R d ≤ velocity L d → meanVelocity d L R ≤ velocity L d ∧ velocity R d ≤ meanVelocity d L R) := by
  have h1 := Real.sqrt_pos.2 hL.1
  have h2 := Real.sqrt_pos.2 hR.1
  intro h
  have h3 : (0 : ℝ) < Real.sqrt L.rho + Real.sqrt R.rho := by positivity
  constructor
  · rw [meanVelocity, div_le_iff₀ h3]; nlinarith
  · rw [meanVelocity, le_div_iff₀ h3]; nlinarith

/-- The left wave is slower than the left gas, the right wave faster than the right gas. -/
theorem hll3_outer {γ : ℝ} (hγ : 1 < γ) (d : Fin n) {L R : Cons n} (hL : obeysConstraints γ L) (hR : obeysConstraints γ R) :
    (hll3Speeds γ d L R).1 < velocity L d ∧ velocity R d < (hll3Speeds γ d L R).2 := by
  have h := meanSound_pos hγ hL hR
  have cL : 0 < soundSpeed γ L := (param hγ hL).1
  have cR : 0 < soundSpeed γ R := (param hγ hR).1
  rcases le_total (velocity R d) (velocity L d) with hle | hle
  · obtain ⟨h1, h2⟩ := meanVelocity_bounds d hL hR hle
    constructor
    · calc (hll3Speeds γ d L R).1 ≤ meanVelocity d L R - meanSound γ L R := min_le_right _ _
        _ < velocity L d := by linarith
    · calc velocity R d < meanVelocity d L R + meanSound γ L R := by linarith
        _ ≤ (hll3Speeds γ d L R).2 := le_max_right _ _
  · have h0 : max 0 (velocity L d - velocity R d) = 0 := max_eq_left (by linarith)
    constructor
    · calc (hll3Speeds γ d L R).1 ≤ velocity L d + 0.5 * max 0 (velocity L d - velocity R d) - soundSpeed γ L := min_le_left _ _
        _ < velocity L d := by rw [h0]; linarith
    · calc velocity R d < velocity R d - 0.5 * max 0 (velocity L d - velocity R d) + soundSpeed γ R := by rw [h0]; linarith
        _ ≤ (hll3Speeds γ d L R).2 := le_max_left _ _

theorem hll3aa_neg {γ : ℝ} (hγ : 1 < γ) (d : Fin n) {L R : Cons n} (hL : obeysConstraints γ L) (hR : obeysConstraints γ R) :
    hll3aa γ d L R < 0 := by
  obtain ⟨h1, h2⟩ := hll3_outer hγ d hL hR
  have h3 : 0 < L.rho := hL.1
  have h4 : 0 < R.rho := hR.1
  simp only [hll3aa]
  nlinarith

theorem hll_consistent {γ : ℝ} (hγ : 1 < γ) (d : Fin n) {U : Cons n} (h : obeysConstraints γ U) (hs : velocity U d ≠ soundSpeed γ U) :
    (hll γ d U U).1 = flux γ d U := by
  have ha : 0 < soundSpeed γ U := (param hγ h).1
  simp only [hll, hllSpeeds_same h]
  rw [if_neg (sub_ne_zero.2 hs)]
  split_ifs
  · rfl
  · rfl
  · have e : velocity U d + soundSpeed γ U - (velocity U d - soundSpeed γ U) ≠ 0 := by
      have : velocity U d + soundSpeed γ U - (velocity U d - soundSpeed γ U) = 2 * soundSpeed γ U := by ring
      rw [this]; positivity
    rw [sub_self, smul_zero, add_zero, ← sub_smul, smul_smul, inv_mul_cancel₀ e, one_smul]

theorem hll3Middle_same {γ : ℝ} (d : Fin n) {U : Cons n} (hU : U.rho ≠ 0) {s : ℝ} (hs : velocity U d - s ≠ 0) :
    hll3Middle γ d (velocity U d) (velocity U) U s = U := by
  have e : U.rho * (velocity U d - s) / (velocity U d - s) = U.rho := by field_simp
  simp only [hll3Middle, e]
  refine Prod.ext rfl (Prod.ext (funext fun i => ?_) ?_)
  · simp only [velocity]; field_simp
  · show ((velocity U d - s) * U.E + pressure γ U * velocity U d -
      (pressure γ U + U.rho * (velocity U d - velocity U d) * (velocity U d - s)) * velocity U d) / (velocity U d - s) = U.E
    field_simp
    ring

theorem hll3_consistent {γ : ℝ} (hγ : 1 < γ) (d : Fin n) {U : Cons n} (h : obeysConstraints γ U) (hs : velocity U d ≠ soundSpeed γ U) :
    (hll3 γ d U U).1 = flux γ d U := by
  have ha : 0 < soundSpeed γ U := (param hγ h).1
  have hr : U.rho ≠ 0 := ne_of_gt h.1
  have haa : hll3aa γ d U U ≠ 0 := (hll3aa_neg hγ d h h).ne
  have hm : ∀ i, U.m i = U.rho * velocity U i := fun i => congrFun (momentum_eq hr) i
  have eaa : hll3aa γ d U U = - 2 * soundSpeed γ U * U.rho := by simp only [hll3aa, hll3Speeds_same h]; ring
  have esm : hll3sm γ d U U = velocity U d := by
    simp only [hll3sm, eaa, hll3Speeds_same h, hm]; field_simp; ring
  have eus : hll3us γ d U U = velocity U := by
    funext i
    simp only [hll3us, eaa, esm, hll3Speeds_same h, hm]
    split_ifs with hi
    · rw [hi]
    · field_simp; ring
  simp only [hll3, hll3Speeds_same h, esm, eus]
  rw [if_neg (sub_ne_zero.2 hs), hll3Middle_same d hr (by simpa using ha.ne'), hll3Middle_same d hr (by simpa using ha.ne')]
  simp

theorem central_consistent (γ : ℝ) (d : Fin n) (U : Cons n) : (central γ d U U).1 = flux γ d U := by
  simp only [central]; rw [← two_smul ℝ, smul_smul]; norm_num

theorem tecno1_consistent (γ : ℝ) : ∀ (n : Nat) (_ : 1 ≤ n ∧ n ≤ 3) (d : Fin n) (U : Cons n), (tecno1 n γ d U U).1 = flux γ d U
  | 1, _, d, U => by simp [tecno1, tecno1D]
  | 2, _, d, U => by simp [tecno1, tecno2D]
  | 3, _, d, U => by simp [tecno1, tecno3D]

theorem zFirst_pos {γ : ℝ} {U : Cons n} (h : obeysConstraints γ U) : 0 < zFirst γ U := Real.sqrt_pos.2 (div_pos h.1 h.2)
theorem zLast_pos {γ : ℝ} {U : Cons n} (h : obeysConstraints γ U) : 0 < zLast γ U := Real.sqrt_pos.2 (mul_pos h.1 h.2)

theorem rho_of_z {γ : ℝ} {U : Cons n} (h : obeysConstraints γ U) : U.rho = zFirst γ U * zLast γ U := by
  have h1 : 0 < U.rho := h.1
  have h2 : 0 < pressure γ U := h.2
  rw [zFirst, zLast, ← Real.sqrt_mul (by positivity), show U.rho / pressure γ U * (U.rho * pressure γ U) = U.rho ^ 2 by field_simp,
    Real.sqrt_sq h1.le]

theorem pressure_of_z {γ : ℝ} {U : Cons n} (h : obeysConstraints γ U) : pressure γ U = zLast γ U / zFirst γ U := by
  have h1 : 0 < U.rho := h.1
  have h2 : 0 < pressure γ U := h.2
  have h3 := zFirst_pos h
  rw [eq_div_iff h3.ne', zFirst, zLast, ← Real.sqrt_sq h2.le, ← Real.sqrt_mul (by positivity)]
  congr 1
  rw [Real.sqrt_sq h2.le]
  field_simp

theorem velocity_of_z {γ : ℝ} {U : Cons n} (h : obeysConstraints γ U) (i : Fin n) : velocity U i = zVel γ U i / zFirst γ U := by
  have h3 := zFirst_pos h
  rw [eq_div_iff h3.ne']
  simp only [zVel, zFirst]; ring

/-- Entropy variables and potential in the variables `z`. -/
theorem entropyVariables_of_z {γ : ℝ} (hγ : 1 < γ) {U : Cons n} (h : obeysConstraints γ U) :
    entropyVariables γ U =
      (γ / (γ - 1) + (γ + 1) / (γ - 1) * Real.log (zFirst γ U) + Real.log (zLast γ U) - dot (zVel γ U) (zVel γ U) / 2,
       (fun i => zFirst γ U * zVel γ U i), -zFirst γ U ^ 2) := by
  have h3 := zFirst_pos h
  have h4 := zLast_pos h
  have hg : γ - 1 ≠ 0 := by linarith
  have hv : velocity U = fun i => (zFirst γ U)⁻¹ * zVel γ U i := by
    funext i; rw [velocity_of_z h]; field_simp
  have hd : dot (velocity U) (velocity U) = dot (zVel γ U) (zVel γ U) / zFirst γ U ^ 2 := by
    rw [hv, dot_smul_left, dot_smul_right]; field_simp
  have hm : ∀ i, U.m i = U.rho * velocity U i := fun i => congrFun (momentum_eq (ne_of_gt h.1)) i
  have hs : entropyS γ U = (1 - γ) * Real.log (zLast γ U) - (γ + 1) * Real.log (zFirst γ U) := by
    rw [entropyS, pressure_of_z h, rho_of_z h, Real.log_div h4.ne' h3.ne', Real.log_mul h3.ne' h4.ne']; ring
  refine Prod.ext ?_ (Prod.ext (funext fun i => ?_) ?_)
  · simp only [entropyVariables, hs, hd]
    rw [pressure_of_z h, rho_of_z h]
    field_simp
    ring
  · simp only [entropyVariables, hm]
    rw [pressure_of_z h, rho_of_z h, velocity_of_z h]
    field_simp
  · simp only [entropyVariables]
    rw [pressure_of_z h, rho_of_z h]
    field_simp

theorem momentum_of_z {γ : ℝ} {U : Cons n} (h : obeysConstraints γ U) (d : Fin n) : U.m d = zLast γ U * zVel γ U d := by
  have h3 := zFirst_pos h
  have hm : U.m d = U.rho * velocity U d := congrFun (momentum_eq (ne_of_gt h.1)) d
  rw [hm, rho_of_z h, velocity_of_z h]; field_simp

theorem ln_mul (l r : ℝ) (hl : 0 < l) (hr : 0 < r) : ln l r * (Real.log r - Real.log l) = r - l := by
  unfold ln
  split_ifs with h
  · rcases h with h | h
    · rw [h, zero_mul]
    · have : r = l := Real.log_injOn_pos hr hl (by linarith)
      rw [this]; ring
  · have h2 : Real.log r - Real.log l ≠ 0 := fun h' => h (Or.inr h')
    field_simp

theorem divLn_mul (l r F : ℝ) (hl : 0 < l) (hr : 0 < r) : divLn l r F * (r - l) = F * (Real.log r - Real.log l) := by
  have h := ln_mul l r hl hr
  unfold divLn
  split_ifs with h0
  · rw [h0, zero_mul] at h
    have : r = l := by linarith
    rw [this]; ring
  · rw [← h]; field_simp

/-- The general entropy conservative flux (the specialisations of the code are compared with it in the proofs). -/
noncomputable def general (γ : ℝ) (d : Fin n) (L R : Cons n) : Cons n :=
  let z0 := bar (zFirst γ L) (zFirst γ R)
  let zu := fun i => bar (zVel γ L i) (zVel γ R i)
  let ze := bar (zLast γ L) (zLast γ R)
  let F0 := zu d * ln (zLast γ L) (zLast γ R)
  let Fm := fun i => (if i = d then ze / z0 else 0) + zu i / z0 * F0
  (F0, Fm, 1 / (2 * z0) * ((γ + 1) / (γ - 1) * divLn (zFirst γ L) (zFirst γ R) F0 + ∑ i, zu i * Fm i))

/-- The star pressure next to the state `S`. -/
noncomputable def starPressure (γ : ℝ) (d : Fin n) (sm : ℝ) (S : Cons n) (speed : ℝ) : ℝ :=
  pressure γ S + S.rho * (velocity S d - sm) * (velocity S d - speed)

theorem star_flux {γ : ℝ} (d : Fin n) {sm : ℝ} {us : Fin n → ℝ} {S : Cons n} {s : ℝ} (hS : S.rho ≠ 0) (hne : sm - s ≠ 0) (hus : us d = sm)
    (M : Cons n) (hM : M = hll3Middle γ d sm us S s) :
    (flux γ d S + s • (M - S)).1 = sm * M.1 ∧
    (flux γ d S + s • (M - S)).2.1 d = sm * M.2.1 d + starPressure γ d sm S s ∧
    (∀ i, i ≠ d → (flux γ d S + s • (M - S)).2.1 i = (velocity S d - s) * S.rho * velocity S i + s * M.2.1 i) ∧
    (flux γ d S + s • (M - S)).2.2 = sm * (M.2.2 + starPressure γ d sm S s) ∧
    (M.1 * (sm - s) = S.rho * (velocity S d - s)) ∧ M.2.1 = fun i => M.1 * us i := by
  have hm : ∀ i, S.2.1 i = S.rho * velocity S i := fun i => congrFun (momentum_eq hS) i
  have e1 : M.1 = S.rho * (velocity S d - s) / (sm - s) := by rw [hM]; rfl
  have e2 : M.2.1 = fun i => M.1 * us i := by rw [hM]; rfl
  have e3 : M.2.2 = ((velocity S d - s) * S.2.2 + pressure γ S * velocity S d - starPressure γ d sm S s * sm) / (sm - s) := by rw [hM]; rfl
  have k1 : M.1 * (sm - s) = S.rho * (velocity S d - s) := by rw [e1]; field_simp
  have k3 : M.2.2 * (sm - s) = (velocity S d - s) * S.2.2 + pressure γ S * velocity S d - starPressure γ d sm S s * sm := by
    rw [e3]; field_simp
  have r0 : S.1 = S.rho := rfl
  refine ⟨?_, ?_, fun i hi => ?_, ?_, k1, e2⟩
  · simp only [flux, Prod.fst_add, Prod.smul_fst, Prod.fst_sub, smul_eq_mul, hm]
    rw [r0]; linear_combination -k1
  · simp only [flux, Prod.fst_add, Prod.snd_add, Prod.smul_fst, Prod.smul_snd, Prod.fst_sub, Prod.snd_sub, Pi.add_apply, Pi.smul_apply,
      Pi.sub_apply, smul_eq_mul, hm, e2, hus, if_true, starPressure]
    linear_combination -sm * k1
  · simp only [flux, Prod.fst_add, Prod.snd_add, Prod.smul_fst, Prod.smul_snd, Prod.fst_sub, Prod.snd_sub, Pi.add_apply, Pi.smul_apply,
      Pi.sub_apply, smul_eq_mul, hm, if_neg hi]
    ring
  · simp only [flux, Prod.snd_add, Prod.smul_snd, Prod.snd_sub, smul_eq_mul]
    linear_combination -k3

end EulerFlux
end Verif
