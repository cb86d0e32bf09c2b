import Verif.EulerFlux
import Verif.Props.Euler

/-!
Property theorems about the numerical fluxes of the Euler equations: C13 (consistency, Euler part), C22 (entropy conservation of Tecno1),
C23 (HLL and HLL3).
-/

namespace Verif.Props
open Verif Euler EulerFlux

/-! ### C13 -/

/-- C13, Euler part: every selectable flux, in one, two and three dimensions, returns the physical flux when all the cells it looks at hold
the same admissible state. Missing: "hll" and "hll3" at states with `u_d` equal to the sound speed, where they return zero
(`C13_euler_hll_inconsistent_at_sonic_states`). -/
theorem C13_euler_consistency_partial (n : Nat) (hn : 1 ≤ n ∧ n ≤ 3) (γ : ℝ) (hγ : 1 < γ) (d : Fin n) (name : String) (F : Selected n)
    (hF : select n γ d name = some F) (U : Cons n) (h : obeysConstraints γ U)
    (hs : name = "hll" ∨ name = "hll3" → U.2.1 d / U.1 ≠ Real.sqrt (γ * pressure γ U / U.1)) :
    (F.fn (F.stencil.map fun _ => U)).1 = flux γ d U := by
  unfold EulerFlux.select at hF
  split at hF <;> simp only [Option.some.injEq, reduceCtorEq] at hF <;> subst hF <;>
    simp only [Flux.stencil2, Flux.stencil4, Flux.stencil6, Flux.vec6, List.map_cons, List.map_nil]
  · exact hll_consistent hγ d h (hs (Or.inl rfl))
  · exact hll3_consistent hγ d h (hs (Or.inr rfl))
  · exact central_consistent γ d U
  · exact tecno1_consistent γ n hn d U
  · rw [Flux.combined4_consistent]; exact tecno1_consistent γ n hn d U
  · rw [Flux.combined6_consistent]; exact tecno1_consistent γ n hn d U

/-- C13 is violated by "hll" and "hll3" when the gas moves exactly at the speed of sound: both return zero, for instance no mass flux although
the gas of density 1 moves with velocity 1 (`γ = 2`, `p = 1/2`). -/
theorem C13_euler_hll_inconsistent_at_sonic_states : ∃ U : Cons 1, obeysConstraints 2 U ∧
    (hll 2 0 U U).1 = 0 ∧ (hll3 2 0 U U).1 = 0 ∧ (flux 2 0 U).1 = 1 := by
  have hU := (C19_round_trip 2 (by norm_num) (⟨1, ![1], 1 ^ 2 * 1 / 2⟩ : Prim 1) (by norm_num) (by norm_num)).2
  have hv : velocity (toCons 2 (⟨1, ![1], 1 ^ 2 * 1 / 2⟩ : Prim 1)) 0 = 1 := by simp [velocity, toCons, Cons.m]
  refine ⟨_, hU, ?_, ?_, ?_⟩
  · simp only [hll, hllSpeeds_same hU, soundSpeed_toCons one_lt_two one_pos one_pos, hv]
    simp
  · simp only [hll3, hll3Speeds_same hU, soundSpeed_toCons one_lt_two one_pos one_pos, hv]
    simp
  · simp [flux, toCons, Cons.m]

example : ∃ F U, EulerFlux.select 2 (7 / 5) 1 "tecno4" = some F ∧ obeysConstraints (7 / 5) U ∧
    (F.fn (F.stencil.map fun _ => U)).1 = flux (7 / 5) 1 U := by
  have h := (C19_round_trip (7 / 5) (by norm_num) (⟨2, ![-3, 1], 5⟩ : Prim 2) (by norm_num) (by norm_num)).2
  exact ⟨_, _, rfl, h, C13_euler_consistency_partial 2 (by omega) (7 / 5) (by norm_num) 1 "tecno4" _ rfl _ h (by simp)⟩

example : ∃ F U, EulerFlux.select 1 2 0 "hll3" = some F ∧ obeysConstraints 2 U ∧ (F.fn (F.stencil.map fun _ => U)).1 = flux 2 0 U := by
  have h := (C19_round_trip 2 (by norm_num) (⟨1, ![1 / 2], 1 ^ 2 * 1 / 2⟩ : Prim 1) (by norm_num) (by norm_num)).2
  have e : soundSpeed 2 (toCons 2 (⟨1, ![1 / 2], 1 ^ 2 * 1 / 2⟩ : Prim 1)) = 1 := soundSpeed_toCons one_lt_two one_pos one_pos
  refine ⟨_, _, rfl, h, C13_euler_consistency_partial 1 (by omega) 2 (by norm_num) 0 "hll3" _ rfl _ h fun _ => ?_⟩
  show _ ≠ soundSpeed 2 _
  rw [e]
  simp [toCons]

/-! ### C22 -/

/-- The discrete entropy identity in direction `d` for the numerical flux `F` between the states `L` and `R`: jump of the entropy variables
times the flux equals the jump of the potential `ρ u_d`. -/
def EntropyIdentity {n : Nat} (γ : ℝ) (d : Fin n) (L R F : Cons n) : Prop :=
  inner (entropyVariables γ R - entropyVariables γ L) F = R.2.1 d - L.2.1 d

/-- (helper) the general flux satisfies the identity. -/
theorem general_identity {n : Nat} (γ : ℝ) (hγ : 1 < γ) (d : Fin n) (L R : Cons n) (hL : obeysConstraints γ L) (hR : obeysConstraints γ R) :
    EntropyIdentity γ d L R (general γ d L R) := by
  have hz0 : 0 < bar (zFirst γ L) (zFirst γ R) := by
    have := zFirst_pos hL; have := zFirst_pos hR; simp only [bar]; linarith
  have k1 := ln_mul _ _ (zLast_pos hL) (zLast_pos hR)
  have mL := momentum_of_z hL d
  have mR := momentum_of_z hR d
  simp only [Cons.m] at mL mR
  simp only [EntropyIdentity, inner, entropyVariables_of_z hγ hL, entropyVariables_of_z hγ hR, mL, mR]
  set aL := zFirst γ L
  set aR := zFirst γ R
  set eL := zLast γ L
  set eR := zLast γ R
  set uL := zVel γ L
  set uR := zVel γ R
  have k2 := divLn_mul aL aR (general γ d L R).1 (zFirst_pos hL) (zFirst_pos hR)
  set F := general γ d L R with hF
  have f0 : F.1 = bar (uL d) (uR d) * ln eL eR := rfl
  have fm : ∀ i, bar aL aR * F.2.1 i = (if i = d then bar eL eR else 0) + bar (uL i) (uR i) * F.1 := by
    intro i
    show bar aL aR * ((if i = d then bar eL eR / bar aL aR else 0) + bar (uL i) (uR i) / bar aL aR * F.1) = _
    split_ifs
    · field_simp
    · field_simp; ring
  have fe : 2 * bar aL aR * F.2.2 = (γ + 1) / (γ - 1) * divLn aL aR F.1 + ∑ i, bar (uL i) (uR i) * F.2.1 i := by
    show 2 * bar aL aR * (1 / (2 * bar aL aR) * ((γ + 1) / (γ - 1) * divLn aL aR F.1 + ∑ i, bar (uL i) (uR i) * F.2.1 i)) = _
    field_simp
  have s1 : ∑ i, (aR * uR i - aL * uL i) * F.2.1 i =
      (eL + eR) / 2 * (uR d - uL d) + (dot uR uR - dot uL uL) / 2 * F.1 + (aR - aL) * ∑ i, bar (uL i) (uR i) * F.2.1 i := by
    have : ∀ i, (aR * uR i - aL * uL i) * F.2.1 i =
        (if i = d then bar eL eR * (uR i - uL i) else 0) + ((uR i * uR i - uL i * uL i) / 2 * F.1) + (aR - aL) * (bar (uL i) (uR i) * F.2.1 i) := by
      intro i
      have := fm i
      have e : (aR * uR i - aL * uL i) * F.2.1 i = (uR i - uL i) * (bar aL aR * F.2.1 i) + (aR - aL) * (bar (uL i) (uR i) * F.2.1 i) := by
        simp only [bar]; ring
      rw [e, this]
      split_ifs <;> simp only [bar] <;> ring
    rw [Finset.sum_congr rfl fun i _ => this i, Finset.sum_add_distrib, Finset.sum_add_distrib, ← Finset.mul_sum]
    simp only [Finset.sum_ite_eq', Finset.mem_univ, if_true, dot, ← Finset.sum_mul, ← Finset.sum_div, Finset.sum_sub_distrib, bar]
  simp only [Prod.fst_sub, Prod.snd_sub, Pi.sub_apply]
  rw [s1]
  have s2 : (-aR ^ 2 - -aL ^ 2) * F.2.2 = -(aR - aL) * ((γ + 1) / (γ - 1) * divLn aL aR F.1 + ∑ i, bar (uL i) (uR i) * F.2.1 i) := by
    rw [← fe]; simp only [bar]; ring
  rw [s2]
  have k3 : F.1 * (Real.log eR - Real.log eL) = bar (uL d) (uR d) * (eR - eL) := by rw [f0, ← k1]; ring
  simp only [bar] at k3 ⊢
  linear_combination k3 - (γ + 1) / (γ - 1) * k2

/-- C22 in one dimension: for every pair of admissible states. -/
theorem C22_one_dimension (γ : ℝ) (hγ : 1 < γ) (L R : Cons 1) (hL : obeysConstraints γ L) (hR : obeysConstraints γ R) :
    EntropyIdentity γ 0 L R (tecno1 1 γ 0 L R).1 := by
  by_cases h : L = R
  · subst h; simp [EntropyIdentity, inner]
  · have e : (tecno1 1 γ 0 L R).1 = general γ 0 L R := by
      simp only [tecno1, tecno1D, if_neg h, general]
      refine Prod.ext rfl (Prod.ext (funext fun i => ?_) ?_)
      · fin_cases i; simp
      · simp; norm_num
    rw [e]; exact general_identity γ hγ 0 L R hL hR

/-- C22 in two dimensions, both directions: for every pair of admissible states. -/
theorem C22_two_dimensions (γ : ℝ) (hγ : 1 < γ) (d : Fin 2) (L R : Cons 2) (hL : obeysConstraints γ L) (hR : obeysConstraints γ R) :
    EntropyIdentity γ d L R (tecno1 2 γ d L R).1 := by
  by_cases h : L = R
  · subst h; simp [EntropyIdentity, inner]
  · have e : (tecno1 2 γ d L R).1 = general γ d L R := by
      simp only [tecno1, tecno2D, if_neg h, general]
      have hd : d = 0 ∨ d = 1 := by omega
      rcases hd with rfl | rfl
      · refine Prod.ext rfl (Prod.ext (funext fun i => ?_) ?_)
        · fin_cases i <;> simp
        · simp [-mul_eq_mul_left_iff, Fin.sum_univ_succ]; rw [show (1.0 : ℝ) = 1 by norm_num]; ring
      · refine Prod.ext rfl (Prod.ext (funext fun i => ?_) ?_)
        · fin_cases i <;> simp
        · simp [-mul_eq_mul_left_iff, Fin.sum_univ_succ]; rw [show (1.0 : ℝ) = 1 by norm_num]; ring
    rw [e]; exact general_identity γ hγ d L R hL hR

/-- C22 in three dimensions, directions 0 and 1, for different states: the identity holds up to the term
`F_ρ ((ρ/p) w²)_jump / 2`, where `w` is the velocity in z. The full statement `EntropyIdentity γ d L R (tecno1 3 γ d L R).1` for all `d`
therefore holds for `d < 2` exactly when that term vanishes, for instance for flows without velocity in z. Missing: flows with velocity in
z, and direction 2 (`C22_three_dimensions_fails`). -/
theorem C22_three_dimensions_partial (γ : ℝ) (hγ : 1 < γ) (d : Fin 3) (hd : d ≠ 2) (L R : Cons 3) (hL : obeysConstraints γ L)
    (hR : obeysConstraints γ R) (hne : L ≠ R) :
    inner (entropyVariables γ R - entropyVariables γ L) (tecno1 3 γ d L R).1 =
      R.2.1 d - L.2.1 d - (tecno1 3 γ d L R).1.1 *
        (R.1 / pressure γ R * velocity R 2 ^ 2 - L.1 / pressure γ L * velocity L 2 ^ 2) / 2 := by
  have hz0 : 0 < bar (zFirst γ L) (zFirst γ R) := by
    have := zFirst_pos hL; have := zFirst_pos hR; simp only [bar]; linarith
  have key := general_identity γ hγ d L R hL hR
  have zq : ∀ U : Cons 3, obeysConstraints γ U → U.1 / pressure γ U * velocity U 2 ^ 2 = zVel γ U 2 ^ 2 := by
    intro U hU
    have h1 : 0 < U.rho := hU.1
    have h2 : 0 < pressure γ U := hU.2
    rw [zVel, mul_pow, Real.sq_sqrt (by positivity)]
  rw [zq L hL, zq R hR]
  have hd : d = 0 ∨ d = 1 := by omega
  set w := bar (zVel γ L 2) (zVel γ R 2) with hw
  set z0 := bar (zFirst γ L) (zFirst γ R) with hz
  have split : (tecno1 3 γ d L R).1 = general γ d L R - (0, ![0, 0, w / z0 * (general γ d L R).1], w ^ 2 / (2 * z0 ^ 2) * (general γ d L R).1) := by
    simp only [tecno1, tecno3D, if_neg hne, general]
    rcases hd with rfl | rfl
    · refine Prod.ext (by simp) (Prod.ext (funext fun i => ?_) ?_)
      · fin_cases i <;> simp [← hw, ← hz, Matrix.vecHead, Matrix.vecTail]
      · simp [Fin.sum_univ_succ, ← hw, ← hz]; field_simp; norm_num; ring
    · refine Prod.ext (by simp) (Prod.ext (funext fun i => ?_) ?_)
      · fin_cases i <;> simp [← hw, ← hz, Matrix.vecHead, Matrix.vecTail]
      · simp [Fin.sum_univ_succ, ← hw, ← hz]; field_simp; norm_num; ring
  have hsub : ∀ V A B : Cons 3, inner V (A - B) = inner V A - inner V B := by
    intro V A B
    simp only [inner, Prod.fst_sub, Prod.snd_sub, Pi.sub_apply, mul_sub, Finset.sum_sub_distrib]; ring
  unfold EntropyIdentity at key
  have e0 : (tecno1 3 γ d L R).1.1 = (general γ d L R).1 := by rw [split]; simp
  rw [e0, split, hsub, key]
  have : inner (entropyVariables γ R - entropyVariables γ L) (0, ![0, 0, w / z0 * (general γ d L R).1], w ^ 2 / (2 * z0 ^ 2) * (general γ d L R).1) =
      (general γ d L R).1 * (zVel γ R 2 ^ 2 - zVel γ L 2 ^ 2) / 2 := by
    simp only [inner, entropyVariables_of_z hγ hL, entropyVariables_of_z hγ hR, Fin.sum_univ_succ]
    simp
    have hz0' : z0 ≠ 0 := hz0.ne'
    field_simp
    simp only [hw, hz, bar]
    ring
  rw [this]

/-- C22 fails in three dimensions: in direction 2 the flux between gas at rest and gas moving with velocity 1 in z is zero, so that the
identity reads `0 = 1`. -/
theorem C22_three_dimensions_fails : ∃ L R : Cons 3, obeysConstraints 2 L ∧ obeysConstraints 2 R ∧
    ¬ EntropyIdentity 2 2 L R (tecno1 3 2 2 L R).1 := by
  refine ⟨toCons 2 ⟨1, ![0, 0, 0], 1⟩, toCons 2 ⟨1, ![0, 0, 1], 1⟩, (C19_round_trip 2 (by norm_num) _ (by norm_num) (by norm_num)).2,
    (C19_round_trip 2 (by norm_num) _ (by norm_num) (by norm_num)).2, ?_⟩
  simp [EntropyIdentity, tecno1, tecno3D, inner, toCons]

/-- C22 also fails in direction 0 of three dimensions as soon as the velocity in z jumps: density and pressure 1 on the left and 4 on the
right, velocity (1,0,0) on the left and (1,0,1) on the right. -/
theorem C22_three_dimensions_fails_in_x : ∃ L R : Cons 3, obeysConstraints 2 L ∧ obeysConstraints 2 R ∧
    ¬ EntropyIdentity 2 0 L R (tecno1 3 2 0 L R).1 := by
  have hL := (C19_round_trip 2 (by norm_num) (⟨1, ![1, 0, 0], 1⟩ : Prim 3) (by norm_num) (by norm_num)).2
  have hR := (C19_round_trip 2 (by norm_num) (⟨4, ![1, 0, 1], 4⟩ : Prim 3) (by norm_num) (by norm_num)).2
  refine ⟨_, _, hL, hR, ?_⟩
  have hne : toCons 2 (⟨1, ![1, 0, 0], 1⟩ : Prim 3) ≠ toCons 2 ⟨4, ![1, 0, 1], 4⟩ := by
    intro h
    have := congrArg (fun U : Cons 3 => U.1) h
    simp [toCons] at this
  have key := C22_three_dimensions_partial 2 (by norm_num) 0 (by decide) _ _ hL hR hne
  unfold EntropyIdentity
  rw [key]
  have pL : pressure 2 (toCons 2 (⟨1, ![1, 0, 0], 1⟩ : Prim 3)) = 1 := pressure_toCons (by norm_num) (by norm_num)
  have pR : pressure 2 (toCons 2 (⟨4, ![1, 0, 1], 4⟩ : Prim 3)) = 4 := pressure_toCons (by norm_num) (by norm_num)
  have rL : (toCons 2 (⟨1, ![1, 0, 0], 1⟩ : Prim 3)).1 = 1 := rfl
  have rR : (toCons 2 (⟨4, ![1, 0, 1], 4⟩ : Prim 3)).1 = 4 := rfl
  have vL : ∀ i, velocity (toCons 2 (⟨1, ![1, 0, 0], 1⟩ : Prim 3)) i = ![1, 0, 0] i := fun i => congrFun (velocity_toCons (by norm_num) (by norm_num)) i
  have vR : ∀ i, velocity (toCons 2 (⟨4, ![1, 0, 1], 4⟩ : Prim 3)) i = ![1, 0, 1] i := fun i => congrFun (velocity_toCons (by norm_num) (by norm_num)) i
  have hF : (tecno1 3 2 0 (toCons 2 (⟨1, ![1, 0, 0], 1⟩ : Prim 3)) (toCons 2 ⟨4, ![1, 0, 1], 4⟩)).1.1 ≠ 0 := by
    simp only [tecno1, tecno3D, if_neg hne, if_true, bar, zVel, zLast, ln, pL, pR, Cons.rho, rL, rR, vL, vR]
    have h4 : Real.sqrt (4 * 4) = 4 := by rw [Real.sqrt_mul_self]; norm_num
    have hl : Real.log 4 ≠ 0 := (Real.log_pos (by norm_num)).ne'
    rw [h4]
    norm_num [hl]
  rw [pL, pR, rL, rR, vL, vR]
  intro h
  apply hF
  have e : ![(1 : ℝ), 0, 0] 2 = 0 := rfl
  have e' : ![(1 : ℝ), 0, 1] 2 = 1 := rfl
  rw [e, e'] at h
  linarith

example : ∃ L R : Cons 1, L ≠ R ∧ obeysConstraints (7 / 5) L ∧ obeysConstraints (7 / 5) R ∧
    EntropyIdentity (7 / 5) 0 L R (tecno1 1 (7 / 5) 0 L R).1 := by
  have hL := (C19_round_trip (7 / 5) (by norm_num) (⟨2, ![-3], 5⟩ : Prim 1) (by norm_num) (by norm_num)).2
  have hR := (C19_round_trip (7 / 5) (by norm_num) (⟨1, ![4], 1⟩ : Prim 1) (by norm_num) (by norm_num)).2
  exact ⟨_, _, fun h => by simpa [toCons] using congrArg Prod.fst h, hL, hR, C22_one_dimension (7 / 5) (by norm_num) _ _ hL hR⟩

example : ∃ L R : Cons 2, L ≠ R ∧ obeysConstraints (7 / 5) L ∧ obeysConstraints (7 / 5) R ∧
    EntropyIdentity (7 / 5) 1 L R (tecno1 2 (7 / 5) 1 L R).1 := by
  have hL := (C19_round_trip (7 / 5) (by norm_num) (⟨2, ![-3, 1], 5⟩ : Prim 2) (by norm_num) (by norm_num)).2
  have hR := (C19_round_trip (7 / 5) (by norm_num) (⟨1, ![4, 4], 1⟩ : Prim 2) (by norm_num) (by norm_num)).2
  exact ⟨_, _, fun h => by simpa [toCons] using congrArg Prod.fst h, hL, hR, C22_two_dimensions (7 / 5) (by norm_num) 1 _ _ hL hR⟩

/-! ### C23 -/

/-- C23, HLL. Let `sL`, `sR` be the wave speed estimates of the code. If `sL > 0` the flux is that of the left state. Otherwise, unless
`sL = 0`: if `sR < 0` it is that of the right state; else it is the unique `F` for which some middle state `M` satisfies the
Rankine-Hugoniot conditions `F - f(L) = sL (M - L)` and `f(R) - F = sR (R - M)`. The full statement has no exception; it fails for
`sL = 0` (`C23_hll_fails_when_left_speed_is_zero`). -/
theorem C23_hll_partial {n : Nat} (γ : ℝ) (hγ : 1 < γ) (d : Fin n) (L R : Cons n) (hL : obeysConstraints γ L) (hR : obeysConstraints γ R)
    (sL sR : ℝ) (hs : hllSpeeds γ d L R = (sL, sR)) (F : Cons n) (hF : F = (hll γ d L R).1) (h0 : sL ≠ 0) :
    sL < sR ∧ (0 < sL → F = flux γ d L) ∧ (sR < 0 → F = flux γ d R) ∧
    (sL < 0 → 0 ≤ sR → ∀ G, G = F ↔ ∃ M, G - flux γ d L = sL • (M - L) ∧ flux γ d R - G = sR • (R - M)) := by
  have hlt := hllSpeeds_lt hγ d hL hR
  rw [hs] at hlt
  simp only [hll, hs, if_neg h0] at hF
  refine ⟨hlt, fun h => by rw [hF, if_pos h], fun h => by rw [hF, if_neg (by linarith), if_pos h], fun h1 h2 G => ?_⟩
  rw [if_neg (by linarith), if_neg (by linarith)] at hF
  have hne : sR - sL ≠ 0 := by linarith
  constructor
  · rintro rfl
    refine ⟨(sR - sL)⁻¹ • (sR • R - sL • L + flux γ d L - flux γ d R), ?_, ?_⟩ <;> rw [hF]
    · match_scalars <;> field_simp <;> ring
    · match_scalars <;> field_simp <;> ring
  · rintro ⟨M, e1, e2⟩
    have : (sR - sL) • G = sR • flux γ d L - sL • flux γ d R + (sR * sL) • (R - L) := by
      linear_combination (norm := module) sR • e1 + sL • e2
    rw [hF, ← this, smul_smul, inv_mul_cancel₀ hne, one_smul]

/-- C23 is violated when the left speed is exactly zero: the left state with `γ = 2`, `ρ = 1`, `u = 1`, `p = 1/2` (sound speed 1) on both
sides has all waves moving right or standing, but the flux returned is zero instead of that of the state (mass flux 1). -/
theorem C23_hll_fails_when_left_speed_is_zero : ∃ U : Cons 1, obeysConstraints 2 U ∧ (hllSpeeds 2 0 U U).1 = 0 ∧
    (hll 2 0 U U).1 = 0 ∧ ¬ ∃ M, (0 : Cons 1) - flux 2 0 U = (hllSpeeds 2 0 U U).1 • (M - U) := by
  obtain ⟨U, hU, h1, -, h2⟩ := C13_euler_hll_inconsistent_at_sonic_states
  have hs : (hllSpeeds 2 0 U U).1 = 0 := by
    by_contra hne
    have := C23_hll_partial 2 (by norm_num) 0 U U hU hU _ _ rfl _ rfl hne
    have hv : velocity U 0 ≠ soundSpeed 2 U := by
      rw [hllSpeeds_same hU] at hne; exact sub_ne_zero.1 hne
    rw [hll_consistent (by norm_num) 0 hU hv] at h1
    rw [h1] at h2
    exact zero_ne_one h2
  refine ⟨U, hU, hs, h1, ?_⟩
  rintro ⟨M, hM⟩
  rw [hs, zero_smul, zero_sub, neg_eq_zero] at hM
  rw [hM] at h2
  exact zero_ne_one h2

/-- C23, HLL3. Let `sL`, `sR`, `sm` be the speeds of the code. If `sL > 0` the flux is that of the left state, if `sR < 0` that of the right
state. Otherwise, if the waves are ordered `sL < sm < sR`, there are two middle states with positive density moving with normal velocity
`sm`, and fluxes `GL`, `GR` in them, satisfying the Rankine-Hugoniot conditions across all three waves, and the flux returned is the one at
`x = 0`. Missing for the full statement: `sL = 0`, and pairs of states for which the speed estimates are not ordered. -/
theorem C23_hll3_partial {n : Nat} (γ : ℝ) (hγ : 1 < γ) (d : Fin n) (L R : Cons n) (hL : obeysConstraints γ L) (hR : obeysConstraints γ R)
    (sL sR sm : ℝ) (hs : hll3Speeds γ d L R = (sL, sR)) (hsm : hll3sm γ d L R = sm) (F : Cons n) (hF : F = (hll3 γ d L R).1) (h0 : sL ≠ 0) :
    sL < sR ∧ (0 < sL → F = flux γ d L) ∧ (sR < 0 → F = flux γ d R) ∧
    (sL < 0 → 0 ≤ sR → sL < sm → sm < sR → ∃ ML MR GL GR : Cons n,
      0 < ML.1 ∧ 0 < MR.1 ∧ ML.2.1 d = ML.1 * sm ∧ MR.2.1 d = MR.1 * sm ∧
      GL - flux γ d L = sL • (ML - L) ∧ GR - GL = sm • (MR - ML) ∧ flux γ d R - GR = sR • (R - MR) ∧
      F = if 0 ≤ sm then GL else GR) := by
  have hlt := hll3Speeds_lt hγ d hL hR
  have haa := hll3aa_neg hγ d hL hR
  obtain ⟨o1, o2⟩ := hll3_outer hγ d hL hR
  rw [hs] at hlt o1 o2
  simp only [hll3, hs, if_neg h0, hsm] at hF
  refine ⟨hlt, fun h => by rw [hF, if_pos h], fun h => by rw [hF, if_neg (by linarith), if_pos h], fun h1 h2 h3 h4 => ?_⟩
  rw [if_neg (by linarith), if_neg (by linarith)] at hF
  have rL : 0 < L.rho := hL.1
  have rR : 0 < R.rho := hR.1
  have hus : hll3us γ d L R d = sm := by simp [hll3us, hsm]
  set us := hll3us γ d L R with hus'
  obtain ⟨a1, a2, a3, a4, a5, a6⟩ := star_flux (γ := γ) d (s := sL) rL.ne' (by linarith : sm - sL ≠ 0) hus _ rfl
  obtain ⟨b1, b2, b3, b4, b5, b6⟩ := star_flux (γ := γ) d (s := sR) rR.ne' (by linarith : sm - sR ≠ 0) hus _ rfl
  set ML := hll3Middle γ d sm us L sL
  set MR := hll3Middle γ d sm us R sR
  have eaa : hll3aa γ d L R = (velocity R d - sR) * R.rho - (velocity L d - sL) * L.rho := by simp only [hll3aa, hs]
  have mL : ∀ i, L.m i = L.rho * velocity L i := fun i => congrFun (momentum_eq rL.ne') i
  have mR : ∀ i, R.m i = R.rho * velocity R i := fun i => congrFun (momentum_eq rR.ne') i
  have hp : starPressure γ d sm L sL = starPressure γ d sm R sR := by
    have e : sm * hll3aa γ d L R = R.m d * (velocity R d - sR) - L.m d * (velocity L d - sL) + pressure γ R - pressure γ L := by
      have e : sm = (R.m d * (velocity R d - sR) - L.m d * (velocity L d - sL) + pressure γ R - pressure γ L) / hll3aa γ d L R := by
        rw [← hsm, hll3sm, hs]
      rw [e, div_mul_cancel₀ _ haa.ne]
    rw [eaa, mL, mR] at e
    simp only [starPressure]
    linear_combination e
  have hpos1 : 0 < ML.1 := by
    have : 0 < ML.1 * (sm - sL) := by rw [a5]; exact mul_pos rL (by linarith)
    exact (pos_iff_pos_of_mul_pos this).2 (by linarith)
  have hpos2 : 0 < MR.1 := by
    have : MR.1 * (sm - sR) < 0 := by rw [b5]; nlinarith
    by_contra hc
    nlinarith
  refine ⟨ML, MR, flux γ d L + sL • (ML - L), flux γ d R + sR • (MR - R), hpos1, hpos2, by rw [a6, ← hus], by rw [b6, ← hus],
    by module, ?_, by module, by rw [hF]⟩
  refine Prod.ext ?_ (Prod.ext (funext fun i => ?_) ?_)
  · rw [Prod.fst_sub, a1, b1]; simp; ring
  · by_cases hi : i = d
    · subst hi
      rw [Prod.snd_sub, Prod.fst_sub, Pi.sub_apply, a2, b2, hp]; simp; ring
    · have e : us i * hll3aa γ d L R = (velocity R d - sR) * R.rho * velocity R i - (velocity L d - sL) * L.rho * velocity L i := by
        have : us i = ((flux γ d R).m i - (flux γ d L).m i - sR * R.m i + sL * L.m i) / hll3aa γ d L R := by
          rw [hus']; simp only [hll3us, if_neg hi, hs]
        rw [this, div_mul_cancel₀ _ haa.ne]
        simp only [flux, Cons.m, if_neg hi]
        have mL' := mL i
        have mR' := mR i
        simp only [Cons.m] at mL' mR'
        rw [mL', mR']
        ring
      rw [Prod.snd_sub, Prod.fst_sub, Pi.sub_apply, a3 i hi, b3 i hi]
      simp only [Prod.smul_snd, Prod.smul_fst, Prod.snd_sub, Prod.fst_sub, Pi.smul_apply, Pi.sub_apply, smul_eq_mul]
      rw [a6, b6]
      rw [eaa] at e
      linear_combination -e - us i * b5 + us i * a5
  · rw [Prod.snd_sub, Prod.snd_sub, a4, b4, hp]; simp; ring

/-- C23, HLL3, without any assumption on the order of the waves: whenever the middle branches are taken, the divisions in the branch used are
by non-zero numbers and its middle state has positive density. -/
theorem C23_hll3_used_branch {n : Nat} (γ : ℝ) (hγ : 1 < γ) (d : Fin n) (L R : Cons n) (hL : obeysConstraints γ L)
    (hR : obeysConstraints γ R) (sL sR sm : ℝ) (hs : hll3Speeds γ d L R = (sL, sR)) (hsm : hll3sm γ d L R = sm) (h1 : sL < 0) (h2 : 0 ≤ sR) :
    hll3aa γ d L R ≠ 0 ∧
    (0 ≤ sm → sm - sL ≠ 0 ∧ 0 < (hll3Middle γ d sm (hll3us γ d L R) L sL).1 ∧
      (hll3 γ d L R).1 = flux γ d L + sL • (hll3Middle γ d sm (hll3us γ d L R) L sL - L)) ∧
    (sm < 0 → sm - sR ≠ 0 ∧ 0 < (hll3Middle γ d sm (hll3us γ d L R) R sR).1 ∧
      (hll3 γ d L R).1 = flux γ d R + sR • (hll3Middle γ d sm (hll3us γ d L R) R sR - R)) := by
  obtain ⟨o1, o2⟩ := hll3_outer hγ d hL hR
  rw [hs] at o1 o2
  have rL : 0 < L.rho := hL.1
  have rR : 0 < R.rho := hR.1
  refine ⟨(hll3aa_neg hγ d hL hR).ne, fun h => ⟨by linarith, ?_, ?_⟩, fun h => ⟨by linarith, ?_, ?_⟩⟩
  · exact div_pos (mul_pos rL (by linarith)) (by linarith)
  · simp only [hll3, hs, hsm, if_neg h1.ne, if_neg (not_lt.2 h1.le), if_neg (not_lt.2 h2), ge_iff_le, if_pos h]
  · exact div_pos_of_neg_of_neg (mul_neg_of_pos_of_neg rR (by linarith)) (by linarith)
  · simp only [hll3, hs, hsm, if_neg h1.ne, if_neg (not_lt.2 h1.le), if_neg (not_lt.2 h2), ge_iff_le, if_neg (not_le.2 h)]

/-- (helper) gas with `γ = 2`, density 1, velocity 1/2 and sound speed 1: the waves move with -1/2, 1/2 and 3/2. -/
theorem sample_speeds : ∃ U : Cons 1, obeysConstraints 2 U ∧ hllSpeeds 2 0 U U = (-1 / 2, 3 / 2) ∧ hll3Speeds 2 0 U U = (-1 / 2, 3 / 2) ∧
    hll3sm 2 0 U U = 1 / 2 := by
  have hU := (C19_round_trip 2 (by norm_num) (⟨1, ![1 / 2], 1 ^ 2 * 1 / 2⟩ : Prim 1) (by norm_num) (by norm_num)).2
  have hv : velocity (toCons 2 (⟨1, ![1 / 2], 1 ^ 2 * 1 / 2⟩ : Prim 1)) 0 = 1 / 2 := by simp [velocity, toCons, Cons.m, Cons.rho]
  refine ⟨_, hU, ?_, ?_, ?_⟩
  · rw [hllSpeeds_same hU, soundSpeed_toCons one_lt_two one_pos one_pos, hv]; norm_num
  · rw [hll3Speeds_same hU, soundSpeed_toCons one_lt_two one_pos one_pos, hv]; norm_num
  · simp only [hll3sm, hll3aa, hll3Speeds_same hU, soundSpeed_toCons one_lt_two one_pos one_pos, hv]
    simp [toCons, Cons.m, Cons.rho]; norm_num

example : ∃ U : Cons 1, ∃ M, (hll 2 0 U U).1 - flux 2 0 U = (-1 / 2 : ℝ) • (M - U) ∧ flux 2 0 U - (hll 2 0 U U).1 = (3 / 2 : ℝ) • (U - M) := by
  obtain ⟨U, hU, h1, -, -⟩ := sample_speeds
  exact ⟨U, ((C23_hll_partial 2 (by norm_num) 0 U U hU hU _ _ h1 _ rfl (by norm_num)).2.2.2 (by norm_num) (by norm_num) _).1 rfl⟩

example : ∃ U ML MR GL GR : Cons 1, GL - flux 2 0 U = (-1 / 2 : ℝ) • (ML - U) ∧ GR - GL = (1 / 2 : ℝ) • (MR - ML) ∧
    (hll3 2 0 U U).1 = GL := by
  obtain ⟨U, hU, -, h1, h2⟩ := sample_speeds
  obtain ⟨ML, MR, GL, GR, -, -, -, -, k1, k2, -, k3⟩ :=
    (C23_hll3_partial 2 (by norm_num) 0 U U hU hU _ _ _ h1 h2 _ rfl (by norm_num)).2.2.2 (by norm_num) (by norm_num) (by norm_num) (by norm_num)
  exact ⟨U, ML, MR, GL, GR, k1, k2, by rw [k3, if_pos (by norm_num)]⟩

example : ∃ U : Cons 1, hll3aa 2 0 U U ≠ 0 := by
  obtain ⟨U, hU, -, h1, h2⟩ := sample_speeds
  exact ⟨U, (C23_hll3_used_branch 2 (by norm_num) 0 U U hU hU _ _ _ h1 h2 (by norm_num) (by norm_num)).1⟩

/-- Two states with different velocities in z meet the hypotheses of `C22_three_dimensions_partial`. -/
example : ∃ L R : Cons 3, L ≠ R ∧ inner (entropyVariables (7 / 5) R - entropyVariables (7 / 5) L) (tecno1 3 (7 / 5) 1 L R).1 =
    R.2.1 1 - L.2.1 1 - (tecno1 3 (7 / 5) 1 L R).1.1 * (R.1 / pressure (7 / 5) R * velocity R 2 ^ 2 - L.1 / pressure (7 / 5) L * velocity L 2 ^ 2) / 2 := by
  have hL := (C19_round_trip (7 / 5) (by norm_num) (⟨2, ![-3, 1, 2], 5⟩ : Prim 3) (by norm_num) (by norm_num)).2
  have hR := (C19_round_trip (7 / 5) (by norm_num) (⟨1, ![4, 4, 0], 1⟩ : Prim 3) (by norm_num) (by norm_num)).2
  have hne : toCons (7 / 5) (⟨2, ![-3, 1, 2], 5⟩ : Prim 3) ≠ toCons (7 / 5) (⟨1, ![4, 4, 0], 1⟩ : Prim 3) := fun h => by simpa [toCons] using congrArg Prod.fst h
  exact ⟨_, _, hne, C22_three_dimensions_partial (7 / 5) (by norm_num) 1 (by decide) _ _ hL hR hne⟩

end Verif.Props
