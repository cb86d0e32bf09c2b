import Verif.SymmetrySchemes
import Verif.SymmetryExamples

/-!
Schemes that do not depend on the unit of the values: what they do with all values multiplied by a number.
-/

namespace Verif
namespace Symmetry
open Integrator Simulator NetFlux

/-- Multiplication by `a`. -/
noncomputable def times (V : Type) [AddCommGroup V] [Module ℝ V] (a : ℝ) : V →ₗ[ℝ] V := a • LinearMap.id

theorem times_apply {V : Type} [AddCommGroup V] [Module ℝ V] (a : ℝ) (v : V) : times V a v = a • v := rfl

/-! ### Reconstructions -/

section
open Weno Eno
variable {m : Nat} {ind : Fin m} {a : ℝ}

theorem sign_times (ha : 0 < a) (x : ℝ) : Limiter.sign (a * x) = Limiter.sign x := by
  unfold Limiter.sign
  rcases lt_trichotomy x 0 with h | h | h
  · have : a * x < 0 := mul_neg_of_pos_of_neg ha h
    rw [if_neg (by linarith), if_neg (by linarith), if_neg (by linarith), if_neg (by linarith)]
  · subst h; simp
  · rw [if_pos h, if_pos (mul_pos ha h)]

theorem minmod_times (ha : 0 < a) (x y : ℝ) : Limiter.minmod (a * x) (a * y) = a * Limiter.minmod x y := by
  unfold Limiter.minmod
  simp only [sign_times ha, abs_mul, abs_of_pos ha]
  rw [← mul_min_of_nonneg _ _ ha.le]
  split_ifs <;> ring

theorem minmod3_times (ha : 0 < a) (x y z : ℝ) : Limiter.minmod3 (a * x) (a * y) (a * z) = a * Limiter.minmod3 x y z := by
  unfold Limiter.minmod3
  simp only [sign_times ha, abs_mul, abs_of_pos ha]
  rw [← mul_min_of_nonneg _ _ ha.le, ← mul_min_of_nonneg _ _ ha.le]
  split_ifs <;> ring

theorem mm_times (ha : 0 < a) (l c r : ℝ) : Limiter.mm (a * l) (a * c) (a * r) = (a * (Limiter.mm l c r).1, a * (Limiter.mm l c r).2) := by
  simp only [Limiter.mm, ← mul_sub, minmod_times ha]
  ext <;> ring

theorem mc_times (ha : 0 < a) (l c r : ℝ) : Limiter.mc (a * l) (a * c) (a * r) = (a * (Limiter.mc l c r).1, a * (Limiter.mc l c r).2) := by
  simp only [Limiter.mc, ← mul_sub, mul_left_comm 2 a, mul_div_assoc, minmod3_times ha]
  ext <;> ring

theorem fdiff_times (a : ℝ) (l : Nat) (f : Int → ℝ) : ∀ i, fdiff l (fun o => a * f o) i = a * fdiff l f i := by
  induction l with
  | zero => intro i; rfl
  | succ l ih => intro i; simp only [fdiff, ih]; ring

theorem shiftOf_times (ha : a ≠ 0) (k : Nat) (f : Int → ℝ) : shiftOf k (fun o => a * f o) = shiftOf k f := by
  simp only [shiftOf, fdiff_times, abs_mul, mul_lt_mul_iff_right₀ (abs_pos.2 ha)]

theorem eno_times {k : Nat} (h2 : 2 ≤ k) (h4 : k ≤ 4) (ha : a ≠ 0) (d e : Nat) : ReconKeep (enoRecon k ind) (mixed (fun _ => a) id) d e := by
  refine line_keep (eno_local h2 h4 ind).1 (eno_local h2 h4 ind).2 (fun f => ?_) (fun f => ?_) d e <;>
    simp only [value_mixed] <;> simp only [mixed, id, shiftOf_times ha]

/-- The reconstructions without a constant that has a unit. -/
inductive Unitless (ind : Fin m) : Recon (Vec m) → Prop where
  | mm : Unitless ind mmRecon
  | mc : Unitless ind mcRecon
  | eno {k : Nat} : 2 ≤ k → k ≤ 4 → Unitless ind (enoRecon k ind)

theorem unitless_times {r : Recon (Vec m)} (h : Unitless ind r) (ha : 0 < a) (d e : Nat) : ReconKeep r (mixed (fun _ => a) id) d e := by
  cases h with
  | mm =>
    refine line_keep (local3 fun l c r i => (Limiter.mm (l i) (c i) (r i)).1) (local3 fun l c r i => (Limiter.mm (l i) (c i) (r i)).2) (fun f => funext fun i => ?_) (fun f => funext fun i => ?_) d e <;>
      simp only [mixed, mm_times ha]
  | mc =>
    refine line_keep (local3 fun l c r i => (Limiter.mc (l i) (c i) (r i)).1) (local3 fun l c r i => (Limiter.mc (l i) (c i) (r i)).2) (fun f => funext fun i => ?_) (fun f => funext fun i => ?_) d e <;>
      simp only [mixed, mc_times ha]
  | eno h2 h4 => exact eno_times h2 h4 ha.ne' d e

end

/-! ### One variable -/

section

theorem times_scalar (a x : ℝ) : scalarVec (times ℝ a x) = mixed (fun _ => a) id (scalarVec x) := by
  funext i
  rfl

/-- The reconstructions of a scalar equation without a constant that has a unit. -/
inductive ScalarUnitless : Recon ℝ → Prop where
  | none : ScalarUnitless CudaRecon.noRecon
  | line {r : Recon (Eno.Vec 1)} : Unitless 0 r → ScalarUnitless (via scalarVec r)

/-- The reconstructions of a scalar equation that treat both signs alike. -/
inductive ScalarSigned : Recon ℝ → Prop where
  | even {r : Recon ℝ} : ScalarEven r → ScalarSigned r
  | eno {k : Nat} : 2 ≤ k → k ≤ 4 → ScalarSigned (via scalarVec (Weno.enoRecon k 0))

theorem scalar_fair {r : Recon ℝ} {a : ℝ} (hr : ∀ d, ReconKeep r (times ℝ a) d d) {F : ℝ → ℝ → ℝ × ℝ} (hF : ∀ l r, F (a * l) (a * r) = (a * (F l r).1, (F l r).2)) (dims : Nat) :
    Fair r (ScalarRun.twoPoint F) (times ℝ a) dims id (fun _ => false) := by
  refine fair_of (F := fun _ => F) (fun d _ => ?_) (fun d _ => ?_)
  · rw [if_neg (by simp)]
    exact hr d
  · rw [if_neg (by simp)]
    intro l r
    exact hF l r

theorem scalarUnitless_times {r : Recon ℝ} (h : ScalarUnitless r) {a : ℝ} (ha : 0 < a) (d : Nat) : ReconKeep r (times ℝ a) d d := by
  cases h with
  | none => exact none_keep _ d d
  | line h => exact via_keep (times_scalar a) (unitless_times h ha d d)

theorem scalarSigned_times {r : Recon ℝ} (h : ScalarSigned r) (d : Nat) : ReconKeep r (times ℝ (-1)) d d := by
  cases h with
  | even h =>
    cases h with
    | none => exact none_keep _ d d
    | line h => exact via_keep (times_scalar (-1)) (even_keep h (fun _ => Or.inr rfl) rfl d d)
  | eno h2 h4 => exact via_keep (times_scalar (-1)) (eno_times h2 h4 (by norm_num) d d)

theorem linear_times {a : ℝ} (ha : 0 < a) (name : String) (F : Flux.Selected) (hsel : Flux.select .linear name = some F) (l r : ℝ) :
    F.fn [a * l, a * r] = (a * (F.fn [l, r]).1, (F.fn [l, r]).2) := by
  unfold Flux.select at hsel
  split at hsel <;> simp_all only [reduceCtorEq, Option.some.injEq] <;> subst hsel <;>
    refine Prod.ext ?_ rfl <;> simp only [Flux.two, Flux.central, Flux.rusanov, Flux.linearRoe, Flux.upwind, Flux.linear]
  · ring
  · ring
  · rw [mul_max_of_nonneg _ _ ha.le, mul_zero]

end

/-! ### The Euler equations -/

section
open Euler EulerFlux
variable {m : Nat} {γ a : ℝ}

theorem times_vec (a : ℝ) (U : Cons m) : eulerVec m (times (Cons m) a U) = mixed (fun _ => a) id (eulerVec m U) := by
  funext i
  simp only [mixed, id]
  refine Fin.cases ?_ (fun j => ?_) i
  · rfl
  · refine Fin.lastCases ?_ (fun j => ?_) j
    · simp [eulerVec, times_apply]
    · simp [eulerVec, times_apply]

/-- The reconstructions of the conserved variables without a constant that has a unit. -/
inductive EulerUnitless (m : Nat) : Recon (Cons m) → Prop where
  | none : EulerUnitless m CudaRecon.noRecon
  | line {r : Recon (Eno.Vec (m + 2))} : Unitless 0 r → EulerUnitless m (via (eulerVec m) r)

theorem eulerUnitless_times {r : Recon (Cons m)} (h : EulerUnitless m r) (ha : 0 < a) (d : Nat) : ReconKeep r (times (Cons m) a) d d := by
  cases h with
  | none => exact none_keep _ d d
  | line h => exact via_keep (times_vec a) (unitless_times h ha d d)

theorem rho_times (U : Cons m) : (a • U).1 = a * U.1 := rfl
theorem m_times (U : Cons m) (i : Fin m) : (a • U).2.1 i = a * U.2.1 i := rfl
theorem E_times (U : Cons m) : (a • U).2.2 = a * U.2.2 := rfl

theorem velocity_times (ha : 0 < a) (U : Cons m) : velocity (a • U) = velocity U := by
  funext i
  simp only [velocity, Cons.m, Cons.rho, m_times, rho_times, mul_div_mul_left _ _ ha.ne']

theorem pressure_times (ha : 0 < a) (U : Cons m) : pressure γ (a • U) = a * pressure γ U := by
  have hd : dot (a • U).2.1 (a • U).2.1 = a * (a * dot U.2.1 U.2.1) := by
    simp only [dot, m_times, Finset.mul_sum]
    exact Finset.sum_congr rfl fun i _ => by ring
  simp only [pressure, Cons.E, Cons.m, Cons.rho, E_times, rho_times, hd]
  rw [mul_left_comm 0.5 a, mul_div_mul_left _ _ ha.ne']
  ring

theorem obeys_times (ha : 0 < a) (U : Cons m) : obeysConstraints γ (a • U) ↔ obeysConstraints γ U := by
  simp only [obeysConstraints, Cons.rho, rho_times, pressure_times ha, gt_iff_lt, mul_pos_iff_of_pos_left ha]

theorem sound_times (ha : 0 < a) (U : Cons m) : soundSpeed γ (a • U) = soundSpeed γ U := by
  simp only [soundSpeed, Cons.rho, rho_times, pressure_times ha]
  rw [mul_left_comm γ a, mul_div_mul_left _ _ ha.ne']

theorem wave_times (ha : 0 < a) (d : Fin m) (U : Cons m) : waveSpeed γ d (a • U) = waveSpeed γ d U := by
  simp only [waveSpeed, Cons.rho, rho_times, pressure_times ha, velocity_times ha]
  rw [mul_left_comm γ a, mul_div_mul_left _ _ ha.ne']

theorem flux_times (ha : 0 < a) (d : Fin m) (U : Cons m) : flux γ d (a • U) = a • flux γ d U := by
  simp only [flux, velocity_times ha, pressure_times ha]
  refine Prod.ext rfl (Prod.ext (funext fun i => ?_) ?_)
  · show velocity U d * (a * U.2.1 i) + (if i = d then a * pressure γ U else 0) = a * (velocity U d * U.2.1 i + if i = d then pressure γ U else 0)
    split_ifs <;> ring
  · show (a * U.2.2 + a * pressure γ U) * velocity U d = a * ((U.2.2 + pressure γ U) * velocity U d)
    ring

theorem meanVelocity_times (ha : 0 < a) (d : Fin m) (L R : Cons m) : meanVelocity d (a • L) (a • R) = meanVelocity d L R := by
  have hs : Real.sqrt a ≠ 0 := (Real.sqrt_pos.2 ha).ne'
  simp only [meanVelocity, velocity_times ha, Cons.rho, rho_times, Real.sqrt_mul ha.le, mul_assoc, ← mul_add]
  rw [mul_div_mul_left _ _ hs]

theorem meanPressure_times (ha : 0 < a) (L R : Cons m) : meanPressure γ (a • L) (a • R) = a * meanPressure γ L R := by
  have hs : Real.sqrt a ≠ 0 := (Real.sqrt_pos.2 ha).ne'
  simp only [meanPressure, pressure_times ha, Cons.rho, rho_times, Real.sqrt_mul ha.le, ← mul_add]
  rw [show ∀ p q x y s : ℝ, a * p * (s * x) + a * q * (s * y) = s * (a * (p * x + q * y)) from fun _ _ _ _ _ => by ring, mul_div_mul_left _ _ hs, mul_div_assoc]

theorem meanSound_times (ha : 0 < a) (L R : Cons m) : meanSound γ (a • L) (a • R) = meanSound γ L R := by
  simp only [meanSound, meanPressure_times ha, Cons.rho, rho_times, ← mul_add]
  rw [mul_left_comm γ a, mul_div_assoc a (L.1 + R.1), mul_div_mul_left _ _ ha.ne']

theorem speeds_times (ha : 0 < a) (d : Fin m) (L R : Cons m) : hllSpeeds γ d (a • L) (a • R) = hllSpeeds γ d L R := by
  simp only [hllSpeeds, velocity_times ha, sound_times ha, meanVelocity_times ha, meanSound_times ha]

theorem speeds3_times (ha : 0 < a) (d : Fin m) (L R : Cons m) : hll3Speeds γ d (a • L) (a • R) = hll3Speeds γ d L R := by
  simp only [hll3Speeds, velocity_times ha, sound_times ha, meanVelocity_times ha, meanSound_times ha]

/-- A flux that is multiplied by `a` with the states. -/
def Follows (F : Fin m → Cons m → Cons m → Cons m × ℝ) (a : ℝ) : Prop := ∀ d L R, F d (a • L) (a • R) = (a • (F d L R).1, (F d L R).2)

theorem central_times (ha : 0 < a) : Follows (m := m) (central γ) a := fun d L R => by
  simp only [central, flux_times ha, wave_times ha, ← smul_add, smul_comm a]

theorem hll_times (ha : 0 < a) : Follows (m := m) (hll γ) a := fun d L R => by
  simp only [hll, speeds_times ha, flux_times ha]
  refine Prod.ext ?_ rfl
  simp only []
  split_ifs
  · simp
  · rfl
  · rfl
  · module

theorem hll3_times (ha : 0 < a) : Follows (m := m) (hll3 γ) a := fun d L R => by
  have haa : hll3aa γ d (a • L) (a • R) = a * hll3aa γ d L R := by
    simp only [hll3aa, velocity_times ha, speeds3_times ha, Cons.rho, rho_times]
    ring
  have hsm : hll3sm γ d (a • L) (a • R) = hll3sm γ d L R := by
    simp only [hll3sm, velocity_times ha, speeds3_times ha, Cons.m, m_times, pressure_times ha, haa]
    rw [← mul_div_mul_left _ (hll3aa γ d L R) ha.ne']
    congr 1
    ring
  have hus : hll3us γ d (a • L) (a • R) = hll3us γ d L R := by
    funext i
    simp only [hll3us, hsm, flux_times ha, Cons.m, m_times, speeds3_times ha, haa]
    split_ifs
    · rfl
    · rw [← mul_div_mul_left _ (hll3aa γ d L R) ha.ne']
      congr 1
      ring
  have hmid : ∀ (U : Cons m) (sm s : ℝ) (us : Fin m → ℝ), hll3Middle γ d sm us (a • U) s = a • hll3Middle γ d sm us U s := by
    intro U sm s us
    simp only [hll3Middle, velocity_times ha, pressure_times ha, Cons.rho, rho_times, Cons.E, E_times]
    refine Prod.ext ?_ (Prod.ext (funext fun i => ?_) ?_)
    · simp only [rho_times]; ring
    · simp only [m_times]; ring
    · simp only [E_times]; ring
  simp only [hll3, speeds3_times ha, hsm, hus, hmid, flux_times ha]
  refine Prod.ext ?_ rfl
  simp only []
  split_ifs
  · simp
  · rfl
  · rfl
  · module
  · module

theorem euler_times_fair {r : Recon (Cons m)} (hr : EulerUnitless m r) (ha : 0 < a) {F : Fin m → Cons m → Cons m → Cons m × ℝ} (hF : Follows F a) {dims : Nat} (hd : dims ≤ m) :
    Fair r (EulerRun.twoPoint (lift F)) (times (Cons m) a) dims id (fun _ => false) := by
  refine fair_of (fun d hd' => ?_) (fun d hd' => ?_)
  · rw [if_neg (by simp)]
    exact eulerUnitless_times hr ha d
  · rw [if_neg (by simp)]
    have h1 : d < m := by omega
    intro L R
    simp only [lift, dif_pos h1, id]
    exact hF ⟨d, h1⟩ L R

end

/-! ### A run with WENO -/

section
open Eno Weno

/-- `WENO2` for one variable. -/
noncomputable def wenoTwo : Recon ℝ := via scalarVec (weno2Recon 0)

theorem wenoTwo_val (d : Nat) (l c r : ℝ) : wenoTwo.rf d [l, c, r] = 0.5 * ((w2Right l c r).1 * r + (3 * (w2Right l c r).2 + (w2Right l c r).1) * c - (w2Right l c r).2 * l) := by
  have e0 : ∀ (x : ℝ) (i : Fin 1), (scalarVec x : Fin 1 → ℝ) i = x := fun _ _ => rfl
  have es : ∀ v : Vec 1, scalarVec.symm v = v 0 := fun _ => rfl
  simp [wenoTwo, via, weno2Recon, lineRecon, ofList, es, e0, weno2Right]

theorem wenoTwo_fits (F : ℝ → ℝ → ℝ × ℝ) : Fits wenoTwo (ScalarRun.twoPoint F) 2 where
  k_pos := by decide
  k_le := by decide
  offs_abs := by simp [wenoTwo, via, weno2Recon, lineRecon]
  whole_zero := by simp [wenoTwo, via, weno2Recon, lineRecon]
  fl_offs := by simp [ScalarRun.twoPoint]
  fl_near := by simp [ScalarRun.twoPoint, wenoTwo, via, weno2Recon, lineRecon]

/-- The flux of the faces to the left and right of the peak. -/
theorem wenoTwo_face (a : ℝ) (x : Int) (hx : x = 2 ∨ x = 3) :
    (face wenoTwo (ScalarRun.twoPoint Flux.upwind) (Step.extend .periodic ⟨7, 1, 1⟩ ⟨2, 0, 0⟩ 2 1 (fun p : Step.Cells ⟨7, 1, 1⟩ ⟨2, 0, 0⟩ => peak a p)) 0 ⟨x, 0, 0⟩).1 =
      if x = 2 then 0.5 * ((w2Right 0 0 a).1 * a) else 0.5 * ((3 * (w2Right 0 a 0).2 + (w2Right 0 a 0).1) * a) := by
  have hoffs : wenoTwo.offs = [-1, 0, 1] := by decide
  rw [face_line]
  have hs : ∀ o : Int, (⟨x, 0, 0⟩ + NetFlux.step 0 o : I3) = ⟨x + o, 0, 0⟩ := fun o => by ext <;> simp [NetFlux.step]
  rcases hx with rfl | rfl <;>
    simp [line, ScalarRun.twoPoint, hoffs, hs, wenoTwo_val, peak_extend, Flux.upwind, Flux.linear]

/-- One step of the linear equation. -/
theorem wenoTwo_step (a : ℝ) : ∃ s' u',
    (start (plain 1 2 wenoTwo (ScalarRun.twoPoint Flux.upwind) ⟨7, 1, 1⟩ ⟨2, 0, 0⟩ ⟨1, 0, 0⟩ workEno (1 / 2) (1 / 2)) (peak a) [0] () >>=
      run (plain 1 2 wenoTwo (ScalarRun.twoPoint Flux.upwind) ⟨7, 1, 1⟩ ⟨2, 0, 0⟩ ⟨1, 0, 0⟩ workEno (1 / 2) (1 / 2)) 1) = .ok (some s') ∧ s'.vols[0]? = some u' ∧
    u' ⟨3, 0, 0⟩ = a + 1 / 2 * (0.5 * ((w2Right 0 0 a).1 * a) - 0.5 * ((3 * (w2Right 0 a 0).2 + (w2Right 0 a 0).1) * a)) := by
  obtain ⟨S, h1, h2, h3⟩ := plain_step layoutEno (wenoTwo_fits Flux.upwind) (by decide) (by decide) sizedEno (peak a)
  have sp : ∀ (u : I3 → ℝ) q, (face wenoTwo (ScalarRun.twoPoint Flux.upwind) u 0 q).2 = 1 := fun u q => by
    simp [face_line, line, ScalarRun.twoPoint, Flux.upwind, Flux.twoPointSpeed, Flux.linear]
  have hS : S 0 = 1 := by
    refine (h1 0 (by decide)).unique ⟨Or.inr ⟨⟨2, 0, 0⟩, by unfold IsFace; decide, (sp _ _).symm⟩, ?_⟩
    rintro x (rfl | ⟨q, hq, rfl⟩)
    · norm_num
    · exact (sp _ _).le
  have e : S 0 + S 1 + S 2 = 1 := by rw [hS, h2 1 (by decide), h2 2 (by decide)]; norm_num
  rw [e] at h3
  obtain ⟨s', u', g1, g2, g3⟩ := h3 (1 / 2) (1 / 2) (by norm_num) (by norm_num) (by norm_num)
  refine ⟨s', u', g1, g2, ?_⟩
  rw [g3 ⟨3, 0, 0⟩ (by decide)]
  simp only [net, List.range_succ, List.range_zero, List.nil_append, List.map_cons, List.map_nil, List.sum_cons, List.sum_nil,
    show (⟨3, 0, 0⟩ - I3.dir 0 : I3) = ⟨2, 0, 0⟩ from rfl, wenoTwo_face a 2 (.inl rfl), wenoTwo_face a 3 (.inr rfl)]
  simp [peak]

end

end Symmetry
end Verif
