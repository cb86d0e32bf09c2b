import Verif.EntropyTotals
import Mathlib.Analysis.Complex.ExponentialBounds

/-!
Property theorems C89: the TeCNO schemes and the total entropy.
-/

namespace Verif.Props.EntropyRun
open Verif NetFlux Diffusion EulerRun TecnoScheme
open Verif.Props (FaceLocal SignProperty SizedState)

/-- Total entropy of the interior cells. -/
noncomputable def totalEntropy {N : Nat} (η : Vec N → ℝ) (n G : I3) (u : I3 → Vec N) : ℝ := total n G fun p => η (u p)

/-- The equations, with number of variables, number of space dimensions, two-point flux, what the diffusion operator sees of them, entropy, and the set of admissible states:
Burgers' equation in up to three dimensions with the logarithmic entropy and states strictly between 0 and 2, and the Euler equations in one and in two dimensions with entropy
`-ρ s / (γ - 1)` and states of positive density and pressure. -/
inductive Treated : (N dims : Nat) → (Nat → Vec N → Vec N → Vec N × ℝ) → Equation N → (Vec N → ℝ) → (Vec N → Prop) → Prop
  | burgers (dims : Nat) : Treated 1 dims burgersBase burgers (fun U => -Real.log (2 - U 0) - Real.log (U 0)) (fun U => 0 < U 0 ∧ U 0 < 2)
  | euler1 (γ : ℝ) : 1 < γ → Treated 3 1 (euler1Base γ) (euler1 γ) (fun U => entropy γ (Euler.ofVec1 U)) (fun U => Euler.obeysConstraints γ (Euler.ofVec1 U))
  | euler2 (γ : ℝ) : 1 < γ → Treated 4 2 (euler2Base γ) (euler2 γ) (fun U => entropy γ (Euler.ofVec2 U)) (fun U => Euler.obeysConstraints γ (Euler.ofVec2 U))

theorem dot1 (U V : Euler.Cons 1) : toVec1 U ⬝ᵥ toVec1 V = inner U V := by
  simp [toVec1, inner, dotProduct, Fin.sum_univ_succ]; ring

theorem dot2 (U V : Euler.Cons 2) : toVec2 U ⬝ᵥ toVec2 V = inner U V := by
  simp [toVec2, inner, dotProduct, Fin.sum_univ_succ]; ring

theorem to_of1 (w : Vec 3) : toVec1 (Euler.ofVec1 w) = w := by
  funext i; fin_cases i <;> rfl

theorem to_of2 (w : Vec 4) : toVec2 (Euler.ofVec2 w) = w := by
  funext i; fin_cases i <;> rfl

theorem toVec1_sub (U V : Euler.Cons 1) : toVec1 U - toVec1 V = toVec1 (U - V) := by
  funext i; fin_cases i <;> rfl

theorem toVec2_sub (U V : Euler.Cons 2) : toVec2 U - toVec2 V = toVec2 (U - V) := by
  funext i; fin_cases i <;> rfl

theorem ofVec1_line (U W : Vec 3) (t : ℝ) : Euler.ofVec1 (U + t • W) = Euler.ofVec1 U + t • Euler.ofVec1 W := by
  refine Prod.ext rfl (Prod.ext (funext fun i => ?_) rfl)
  fin_cases i; rfl

theorem ofVec2_line (U W : Vec 4) (t : ℝ) : Euler.ofVec2 (U + t • W) = Euler.ofVec2 U + t • Euler.ofVec2 W := by
  refine Prod.ext rfl (Prod.ext (funext fun i => ?_) rfl)
  fin_cases i <;> rfl

theorem treated_conserves {N dims : Nat} {F : Nat → Vec N → Vec N → Vec N × ℝ} {eq : Equation N} {η : Vec N → ℝ} {ok : Vec N → Prop} (h : Treated N dims F eq η ok) :
    Conserves dims F eq.entVar ok := by
  cases h with
  | burgers =>
    refine ⟨fun _ U => Flux.entropyPotential (U 0), fun d _ l r hl hr => ?_⟩
    have := (C17_entropy_conservative (l 0) (r 0) hl hr).1
    simpa [dotProduct, burgers, burgersBase] using this
  | euler1 γ hγ =>
    refine ⟨fun _ U => (Euler.ofVec1 U).2.1 0, fun d hd l r hl hr => ?_⟩
    have := C22_one_dimension γ hγ _ _ hl hr
    change (toVec1 _ - toVec1 _) ⬝ᵥ toVec1 _ = _
    rw [toVec1_sub, dot1]
    exact this
  | euler2 γ hγ =>
    refine ⟨fun d U => if h : d < 2 then (Euler.ofVec2 U).2.1 ⟨d, h⟩ else 0, fun d hd l r hl hr => ?_⟩
    have := C22_two_dimensions γ hγ ⟨d, hd⟩ _ _ hl hr
    simp only [euler2Base, dif_pos hd]
    change (toVec2 _ - toVec2 _) ⬝ᵥ toVec2 _ = _
    rw [toVec2_sub, dot2]
    exact this

theorem treated_gradient {N dims : Nat} {F : Nat → Vec N → Vec N → Vec N × ℝ} {eq : Equation N} {η : Vec N → ℝ} {ok : Vec N → Prop} (h : Treated N dims F eq η ok)
    (U W : Vec N) (hU : ok U) : HasDerivAt (fun t : ℝ => η (U + t • W)) (eq.entVar U ⬝ᵥ W) 0 := by
  cases h with
  | burgers =>
    have hl : HasDerivAt (fun t : ℝ => (U + t • W) 0) (W 0) 0 := by
      simpa using ((hasDerivAt_id (0 : ℝ)).mul_const (W 0)).const_add (U 0)
    have e0 : (U + (0 : ℝ) • W) 0 = U 0 := by simp
    have a := (hl.const_sub 2).log (by rw [e0]; linarith [hU.2])
    have b := hl.log (by rw [e0]; exact hU.1.ne')
    refine (a.neg.sub b).congr_deriv ?_
    rw [e0]
    simp only [dotProduct, burgers, Flux.entropyVariable, Finset.univ_unique, Fin.default_eq_zero, Finset.sum_singleton]
    ring
  | euler1 γ hγ =>
    have := (C20_entropy_pair γ hγ _ hU (Euler.ofVec1 W) 0).1
    rw [← dot1, to_of1] at this
    simp only [ofVec1_line]
    exact this
  | euler2 γ hγ =>
    have := (C20_entropy_pair γ hγ _ hU (Euler.ofVec2 W) 0).1
    rw [← dot2, to_of2] at this
    simp only [ofVec2_line]
    exact this

/-- The solver's numerical fluxes built from the two-point flux `F`: `tecno1`, with at least one ghost cell, and `tecno4`, with at least two. -/
inductive TecnoFlux {N : Nat} (F : Nat → Vec N → Vec N → Vec N × ℝ) (g : Nat) : FluxFn (Vec N) ℝ → Prop
  | tecno1 : 1 ≤ g → TecnoFlux F g (twoPoint F)
  | tecno4 : 2 ≤ g → TecnoFlux F g (fourPoint F)

theorem TecnoFlux.is {N : Nat} {F : Nat → Vec N → Vec N → Vec N × ℝ} {g : Nat} {fl : FluxFn (Vec N) ℝ} (h : TecnoFlux F g fl) : IsFlux F g fl := by
  cases h with
  | tecno1 h => exact .two h
  | tecno4 h => exact .four h

section
variable {N dims : Nat} {F : Nat → Vec N → Vec N → Vec N × ℝ} {eq : Equation N} {η : Vec N → ℝ} {ok : Vec N → Prop}

theorem after_boundary {n G active : I3} {g : Nat} (hL : Layout n G active dims g) (hN : ∀ d < dims, 3 * G.get d ≤ n.get d) (hpos : 0 < dims) {fl : FluxFn (Vec N) ℝ}
    (hf : Fits CudaRecon.noRecon fl g) {work : NetFlux.State (Vec N) ℝ} (hwork : Sized n work) (u : I3 → Vec N) (hu : ∀ p, IsInterior n G p → ok (u p)) :
    ∃ v, Step.cpuBoundary .periodic n g dims u = .ok v ∧ (∀ p, IsInterior n G p → v p = u p) ∧ (∀ d < dims, PeriodicIn n G d v) ∧ ∀ p, inSize n p = true → ok (v p) := by
  obtain ⟨v, e1, e2, e3⟩ := (Step.sound (K := ℝ) (b := .periodic) (r := CudaRecon.noRecon) hL hf hN hpos hwork).bc_ok u
  have hv : ∀ p, IsInterior n G p → v p = u p := fun p hp => congrFun e2 ⟨p, hp⟩
  refine ⟨v, e1, hv, fun d hd p hp hp' => periodic_of_ready hL e3 hd p hp hp', fun p hp => ?_⟩
  obtain ⟨w, hw⟩ := e3
  obtain ⟨q, hq⟩ := ScalarRun.extend_mem (b := .periodic) hL hN (w := w) hp
  have : w q = v q.1 := by rw [hw _ (Step.interior_inSize hL q.2), Step.extend_interior hL w q.2]
  rw [hw p hp, hq, this, hv _ q.2]
  exact hu _ q.2

/-- C89, the fluxes. Full statement: with periodic boundary conditions, every flux `tecno1`, `tecno4`, `tecno6` leaves the total entropy unchanged to first order in time: filling the ghost
cells and computing the right hand side succeeds, and along this right hand side the derivative of the total entropy is zero. Proved for `tecno1` and `tecno4` of Burgers' equation and of the
Euler equations in one and two dimensions, with the reconstruction `none`. It fails for `tecno6` (`C89_fails_for_tecno6`); in three dimensions the two-point flux of the Euler equations is not
entropy conservative (C22); other reconstructions feed the fluxes with values the identity says nothing about. -/
theorem C89_entropy_conserved_partial (hT : Treated N dims F eq η ok) (n G active : I3) (g : Nat) (hL : Layout n G active dims g) (hN : ∀ d < dims, 3 * G.get d ≤ n.get d)
    (hpos : 0 < dims) (fl : FluxFn (Vec N) ℝ) (hfl : TecnoFlux F g fl) (work : NetFlux.State (Vec N) ℝ) (hwork : Sized n work) (u out : I3 → Vec N)
    (hu : ∀ p, IsInterior n G p → ok (u p)) :
    ∃ v s, Step.cpuBoundary .periodic n g dims u = .ok v ∧ Step.cpuSystem dims CudaRecon.noRecon fl n G active work v out = .ok s ∧
      HasDerivAt (fun t : ℝ => totalEntropy η n G fun p => u p + t • s.2.1 p) 0 0 := by
  obtain ⟨v, e1, e2, e3, e4⟩ := after_boundary (ok := ok) hL hN hpos hfl.is.fits hwork u hu
  obtain ⟨s, f1, f2, f3, -⟩ := Step.cpuSystem_ok (K := ℝ) hL hfl.is.fits hN hpos hwork v out
  refine ⟨v, s, e1, f1, ?_⟩
  have h := net_conserves hL (treated_conserves hT) hfl.is e3 e4
  have : total n G (fun p => eq.entVar (u p) ⬝ᵥ s.2.1 p) = 0 := by
    rw [← h]
    exact total_congr fun p hp => by rw [f3 p hp, e2 p hp]
  have hd := total_hasDerivAt (t := 0) fun p hp => treated_gradient hT (u p) (s.2.1 p) (hu p hp)
  rw [this] at hd
  exact hd

/-- C89, with the diffusion operator `tecnoroe` or `tecnorusanov`: the total entropy does not grow to first order in time. Proved for the same fluxes and equations, a reconstruction of the
operator that is local and has the sign property, and at least `r + 2` ghost cells (compare C24 and C66). -/
theorem C89_entropy_dissipated_partial (hT : Treated N dims F eq η ok) (n G active : I3) (g : Nat) (hL : Layout n G active dims g) (hN : ∀ d < dims, 3 * G.get d ≤ n.get d)
    (hpos : 0 < dims) (fl : FluxFn (Vec N) ℝ) (hfl : TecnoFlux F g fl) (k : Kind) (rec : TecnoRec N) (r : Nat) (hrec : ∀ d < dims, FaceLocal rec d r ∧ SignProperty rec d r)
    (hr : r + 2 ≤ g) (work : NetFlux.State (Vec N) ℝ) (hwork : Sized n work) (dwork : Diffusion.State N) (hdwork : SizedState n dwork) (u out : I3 → Vec N)
    (hu : ∀ p, IsInterior n G p → ok (u p)) :
    ∃ v s, Step.cpuBoundary .periodic n g dims u = .ok v ∧ diffusiveSystem eq k rec dims fl n G active work dwork v out = .ok s ∧
      ∃ rate ≤ 0, HasDerivAt (fun t : ℝ => totalEntropy η n G fun p => u p + t • s.2.1 p) rate 0 := by
  obtain ⟨v, e1, e2, e3, e4⟩ := after_boundary (ok := ok) hL hN hpos hfl.is.fits hwork u hu
  obtain ⟨s, f1, f2, f3, -⟩ := Step.cpuSystem_ok (K := ℝ) hL hfl.is.fits hN hpos hwork v out
  have hdl := hL.dims_le
  have hG : ∀ d < dims, (r : Int) + 2 ≤ G.get d := fun d hd => by rw [hL.gst d (by omega), if_pos hd]; exact_mod_cast hr
  obtain ⟨d1, d2, d3, d4, d5⟩ := hdwork
  obtain ⟨t, g1, g2⟩ := diffusion_dissipates eq k rec hdl hrec hG (layout_pos hL) (u := field n v) rfl e3 (s := { dwork with out := field n s.2.1 }) ⟨d1, d2, d3, d4, rfl⟩
  refine ⟨v, (v, t.out.val, s.2.2), e1, by simp only [diffusiveSystem, f1, Res.ok_bind, g1, Res.pure_eq], _, ?_, total_hasDerivAt fun p hp => treated_gradient hT _ _ (hu p hp)⟩
  have h := net_conserves hL (treated_conserves hT) hfl.is e3 e4
  have e : total n G (fun p => eq.entVar (u p) ⬝ᵥ t.out.val p) = total n G (fun p => eq.entVar ((field n v).val p) ⬝ᵥ t.out.val p) :=
    total_congr fun p hp => by rw [← e2 p hp]; rfl
  change total n G (fun p => eq.entVar (u p) ⬝ᵥ t.out.val p) ≤ 0
  rw [e]
  refine le_trans g2 (le_of_eq ?_)
  rw [← h]
  exact total_congr fun p hp => by rw [← f3 p hp]; rfl

end

/-! ### Examples -/

/-- Buffers of the size of a volume. -/
def exWork (N : Nat) (n : I3) : NetFlux.State (Vec N) ℝ := ⟨field n fun _ => 0, field n fun _ => 0, field n fun _ => 0, field n fun _ => 0, fun _ => 0⟩
/-- as above, for the diffusion operator -/
def exDwork (N : Nat) (n : I3) : Diffusion.State N := ⟨field n fun _ => 0, field n fun _ => 0, field n fun _ => 0, field n fun _ => 0, field n fun _ => 0⟩

/-- Burgers' equation on six cells with values 1/2 and 3/2, flux `tecno4`, operator `tecnoroe`. -/
example : ∃ v s, Step.cpuBoundary .periodic ⟨10, 1, 1⟩ 2 1 exU = .ok v ∧
    diffusiveSystem burgers .roe noRec 1 (fourPoint burgersBase) ⟨10, 1, 1⟩ ⟨2, 0, 0⟩ ⟨1, 0, 0⟩ (exWork 1 ⟨10, 1, 1⟩) (exDwork 1 ⟨10, 1, 1⟩) v 0 = .ok s ∧
    ∃ rate ≤ 0, HasDerivAt (fun t : ℝ => totalEntropy (fun U => -Real.log (2 - U 0) - Real.log (U 0)) ⟨10, 1, 1⟩ ⟨2, 0, 0⟩ fun p => exU p + t • s.2.1 p) rate 0 :=
  C89_entropy_dissipated_partial (.burgers 1) ⟨10, 1, 1⟩ ⟨2, 0, 0⟩ ⟨1, 0, 0⟩ 2 ⟨by decide, by decide, by decide, by decide⟩ (by decide) (by decide) _ (.tecno4 le_rfl) .roe noRec 0
    (fun d hd => ⟨noRec_faceLocal d (by omega), noRec_signProperty d (by omega)⟩) le_rfl _ ⟨rfl, rfl, rfl, rfl⟩ _ ⟨rfl, rfl, rfl, rfl, rfl⟩ exU 0
    (fun p _ => by unfold exU; split_ifs <;> norm_num)

/-- Gas of density 1 and pressure 1, moving with velocity (1, 0) in some cells and resting in the others. -/
noncomputable def exGas : I3 → Vec 4 := fun p => if p.x = 3 ∧ p.y = 2 then toVec2 (Euler.toCons (7 / 5) ⟨1, ![1, 0], 1⟩) else toVec2 (Euler.toCons (7 / 5) ⟨1, ![0, 0], 1⟩)

theorem of_to2 (U : Euler.Cons 2) : Euler.ofVec2 (toVec2 U) = U := by
  refine Prod.ext rfl (Prod.ext (funext fun i => ?_) rfl)
  fin_cases i <;> rfl

/-- The Euler equations in two dimensions with flux `tecno4`. -/
example : ∃ v s, Step.cpuBoundary .periodic ⟨7, 6, 1⟩ 2 2 exGas = .ok v ∧
    Step.cpuSystem 2 CudaRecon.noRecon (fourPoint (euler2Base (7 / 5))) ⟨7, 6, 1⟩ ⟨2, 2, 0⟩ ⟨1, 1, 0⟩ (exWork 4 ⟨7, 6, 1⟩) v 0 = .ok s ∧
    HasDerivAt (fun t : ℝ => totalEntropy (fun U => entropy (7 / 5) (Euler.ofVec2 U)) ⟨7, 6, 1⟩ ⟨2, 2, 0⟩ fun p => exGas p + t • s.2.1 p) 0 0 :=
  C89_entropy_conserved_partial (.euler2 (7 / 5) (by norm_num)) ⟨7, 6, 1⟩ ⟨2, 2, 0⟩ ⟨1, 1, 0⟩ 2 ⟨by decide, by decide, by decide, by decide⟩ (by decide) (by decide) _ (.tecno4 le_rfl)
    _ ⟨rfl, rfl, rfl, rfl⟩ exGas 0 (fun p _ => by
      unfold exGas
      split_ifs <;> rw [of_to2] <;> exact (C19_round_trip (7 / 5) (by norm_num) _ (by norm_num) (by norm_num)).2)

/-! ### The sixth order flux -/

/-- Seven cells with the values 1/2, 1/2, 3/2, 1, 1/2, 3/2, 3/2, periodically continued. -/
noncomputable def ex6 : I3 → Vec 1 := fun p _ => if p.x % 7 = 6 then 1 else if p.x % 7 = 0 ∨ p.x % 7 = 3 ∨ p.x % 7 = 4 then 1 / 2 else 3 / 2

theorem fits6 : Fits CudaRecon.noRecon (sixPoint burgersBase) 3 where
  k_pos := le_refl 1
  k_le := by simp [CudaRecon.noRecon]
  offs_abs := by simp [CudaRecon.noRecon]
  whole_zero := by simp [CudaRecon.noRecon]
  fl_offs := by simp [sixPoint, Flux.stencil6, Flux.vec6]
  fl_near := by simp [CudaRecon.noRecon]

theorem face6 (u : I3 → Vec 1) (x : Int) :
    (face CudaRecon.noRecon (sixPoint burgersBase) u 0 ⟨x, 0, 0⟩).1 0 =
      3 / 2 * ((burgersBase 0 (u ⟨x, 0, 0⟩) (u ⟨x + 1, 0, 0⟩)).1 0) -
      3 / 10 * ((burgersBase 0 (u ⟨x - 1, 0, 0⟩) (u ⟨x + 1, 0, 0⟩)).1 0 + (burgersBase 0 (u ⟨x, 0, 0⟩) (u ⟨x + 2, 0, 0⟩)).1 0) +
      1 / 30 * ((burgersBase 0 (u ⟨x - 2, 0, 0⟩) (u ⟨x + 1, 0, 0⟩)).1 0 + (burgersBase 0 (u ⟨x - 1, 0, 0⟩) (u ⟨x + 2, 0, 0⟩)).1 0 + (burgersBase 0 (u ⟨x, 0, 0⟩) (u ⟨x, 0, 0⟩)).1 0) := by
  have e : ∀ x o : Int, (⟨x, 0, 0⟩ + step 0 o : I3) = ⟨x + o, 0, 0⟩ := fun x o => by simp [step]; rfl
  simp only [face, CudaRecon.noRecon, sixPoint, Flux.stencil6, Flux.vec6, Recon.lval, e, Flux.combined6, List.map_cons, List.map_nil, add_zero, List.headD_cons, ← sub_eq_add_neg,
    Pi.add_apply, Pi.sub_apply, Pi.smul_apply, smul_eq_mul]

/-- The values of the two-point flux that occur, in terms of the entropy potential. -/
theorem values6 : ∃ h t : ℝ, 8 / 3 < t ∧
    (∀ l r : Vec 1, l 0 = 1 / 2 → r 0 = 1 / 2 → (burgersBase 0 l r).1 0 = 1 / 8) ∧ (∀ l r : Vec 1, l 0 = 1 → r 0 = 1 → (burgersBase 0 l r).1 0 = 1 / 2) ∧
    (∀ l r : Vec 1, l 0 = 3 / 2 → r 0 = 3 / 2 → (burgersBase 0 l r).1 0 = 9 / 8) ∧
    (∀ l r : Vec 1, l 0 = 1 / 2 → r 0 = 1 → (burgersBase 0 l r).1 0 = (2 - h) * 3 / 4) ∧ (∀ l r : Vec 1, l 0 = 1 → r 0 = 1 / 2 → (burgersBase 0 l r).1 0 = (2 - h) * 3 / 4) ∧
    (∀ l r : Vec 1, l 0 = 1 / 2 → r 0 = 3 / 2 → (burgersBase 0 l r).1 0 = (t - h) * 3 / 8) ∧ (∀ l r : Vec 1, l 0 = 3 / 2 → r 0 = 1 / 2 → (burgersBase 0 l r).1 0 = (t - h) * 3 / 8) ∧
    (∀ l r : Vec 1, l 0 = 1 → r 0 = 3 / 2 → (burgersBase 0 l r).1 0 = (t - 2) * 3 / 4) ∧ (∀ l r : Vec 1, l 0 = 3 / 2 → r 0 = 1 → (burgersBase 0 l r).1 0 = (t - 2) * 3 / 4) := by
  have h1 : Flux.entropyPotential 1 = 2 := by norm_num [Flux.entropyPotential, Flux.entropyVariable]
  have ht : 8 / 3 < Flux.entropyPotential (3 / 2) := by
    have : Real.log (2 - 3 / 2) = -Real.log 2 := by rw [← Real.log_inv]; norm_num
    have := Real.log_two_lt_d9
    norm_num [Flux.entropyPotential, Flux.entropyVariable] at *
    linarith
  have v0 : Flux.entropyVariable (1 / 2) = -4 / 3 := by norm_num [Flux.entropyVariable]
  have v1 : Flux.entropyVariable 1 = 0 := by norm_num [Flux.entropyVariable]
  have v2 : Flux.entropyVariable (3 / 2) = 4 / 3 := by norm_num [Flux.entropyVariable]
  refine ⟨Flux.entropyPotential (1 / 2), Flux.entropyPotential (3 / 2), ht, ?_, ?_, ?_, ?_, ?_, ?_, ?_, ?_, ?_⟩ <;> intro l r hl hr <;>
    simp only [burgersBase, Flux.entropyConservative, hl, hr] <;> norm_num [Flux.burgers, h1, v0, v1, v2] <;> ring

/-- C89 is false for the flux `tecno6`: the last of the six values it is called with is that of the wrong cell (see C18), and for these data the total entropy grows, although everything else is as
in `C89_entropy_conserved_partial`. -/
theorem C89_fails_for_tecno6 :
    (∀ p, 0 < ex6 p 0 ∧ ex6 p 0 < 2) ∧
    ∃ v s, Step.cpuBoundary .periodic ⟨13, 1, 1⟩ 3 1 ex6 = .ok v ∧
      Step.cpuSystem 1 CudaRecon.noRecon (sixPoint burgersBase) ⟨13, 1, 1⟩ ⟨3, 0, 0⟩ ⟨1, 0, 0⟩ (exWork 1 ⟨13, 1, 1⟩) v 0 = .ok s ∧
      ∃ rate > 0, HasDerivAt (fun t : ℝ => totalEntropy (fun U => -Real.log (2 - U 0) - Real.log (U 0)) ⟨13, 1, 1⟩ ⟨3, 0, 0⟩ fun p => ex6 p + t • s.2.1 p) rate 0 := by
  have hL : Layout ⟨13, 1, 1⟩ ⟨3, 0, 0⟩ ⟨1, 0, 0⟩ 1 3 := ⟨by decide, by decide, by decide, by decide⟩
  have hok : ∀ p, 0 < ex6 p 0 ∧ ex6 p 0 < 2 := fun p => by unfold ex6; split_ifs <;> norm_num
  refine ⟨hok, ?_⟩
  obtain ⟨v, e1, e2, e3, e4⟩ := after_boundary (ok := fun U : Vec 1 => 0 < U 0 ∧ U 0 < 2) hL (by decide) (by decide) fits6 (work := exWork 1 ⟨13, 1, 1⟩) ⟨rfl, rfl, rfl, rfl⟩ ex6
    (fun p _ => hok p)
  obtain ⟨s, f1, f2, f3, -⟩ := Step.cpuSystem_ok (K := ℝ) hL fits6 (by decide) (by decide) (work := exWork 1 ⟨13, 1, 1⟩) ⟨rfl, rfl, rfl, rfl⟩ v 0
  refine ⟨v, s, e1, f1, _, ?_, total_hasDerivAt fun p hp => treated_gradient (.burgers 1) _ _ (hok p)⟩
  have hv : ∀ p, inSize ⟨13, 1, 1⟩ p = true → v p = ex6 p := by
    intro p hp
    have hper := fun p => e3 0 (by decide) p
    have hst : ∀ p : I3, (p + step 0 ((⟨13, 1, 1⟩ : I3).get 0 - 2 * (⟨3, 0, 0⟩ : I3).get 0) : I3) = ⟨p.x + 7, p.y, p.z⟩ := fun p => by ext <;> simp [step, I3.get]
    have hin : ∀ q : I3, 3 ≤ q.x → q.x < 10 → q.y = 0 → q.z = 0 → v q = ex6 q := fun q a b c d => e2 q (by
      intro e he; interval_cases e <;> simp [I3.get] <;> omega)
    have h6 : ∀ x y z y' z' : Int, ex6 ⟨x + 7, y, z⟩ = ex6 ⟨x, y', z'⟩ := fun x y z y' z' => by funext i; simp only [ex6, Int.add_emod_right]
    obtain ⟨x, y, z⟩ := p
    have hp' := inSize_iff.1 hp
    simp only at hp'
    rcases lt_or_ge x 3 with h | h
    · have := hper ⟨x, y, z⟩ hp (by rw [hst, inSize_iff]; simp only; omega)
      rw [hst] at this
      rw [← this, hin _ (by simp only; omega) (by simp only; omega) (by simp only; omega) (by simp only; omega)]
      exact h6 _ _ _ _ _
    · rcases lt_or_ge x 10 with h' | h'
      · exact hin ⟨x, y, z⟩ h h' (by change y = 0; omega) (by change z = 0; omega)
      · have := hper ⟨x - 7, y, z⟩ (by rw [inSize_iff]; simp only; omega) (by rw [hst, inSize_iff]; simp only; omega)
        rw [hst] at this
        simp only [sub_add_cancel] at this
        rw [this, hin _ (by simp only; omega) (by simp only; omega) (by simp only; omega) (by simp only; omega), ← h6 (x - 7) y z, sub_add_cancel]
  have hnet : ∀ x : Int, 3 ≤ x → x < 10 → s.2.1 ⟨x, 0, 0⟩ 0 =
      (face CudaRecon.noRecon (sixPoint burgersBase) ex6 0 ⟨x - 1, 0, 0⟩).1 0 - (face CudaRecon.noRecon (sixPoint burgersBase) ex6 0 ⟨x, 0, 0⟩).1 0 := by
    intro x h1 h2
    have hi : IsInterior ⟨13, 1, 1⟩ ⟨3, 0, 0⟩ ⟨x, 0, 0⟩ := by intro e he; interval_cases e <;> simp [I3.get] <;> omega
    rw [f3 _ hi, Step.net_congr_full hL fits6 hv hi]
    have e : (⟨x, 0, 0⟩ - I3.dir 0 : I3) = ⟨x - 1, 0, 0⟩ := by ext <;> simp [I3.dir]
    simp [net, e]
  have hsum : total ⟨13, 1, 1⟩ ⟨3, 0, 0⟩ (fun p => burgers.entVar (ex6 p) ⬝ᵥ s.2.1 p) = ∑ x ∈ Finset.Ico (3 : Int) 10, Flux.entropyVariable (ex6 ⟨x, 0, 0⟩ 0) *
      ((face CudaRecon.noRecon (sixPoint burgersBase) ex6 0 ⟨x - 1, 0, 0⟩).1 0 - (face CudaRecon.noRecon (sixPoint burgersBase) ex6 0 ⟨x, 0, 0⟩).1 0) := by
    have i1 : Finset.Ico (0 : Int) 1 = {0} := rfl
    simp only [total, sub_zero, i1, Finset.sum_singleton, dotProduct, burgers, Finset.univ_unique, Fin.default_eq_zero]
    refine Finset.sum_congr rfl fun x hx => ?_
    rw [Finset.mem_Ico] at hx
    rw [hnet x hx.1 (by simpa using hx.2)]
  change 0 < total ⟨13, 1, 1⟩ ⟨3, 0, 0⟩ (fun p => burgers.entVar (ex6 p) ⬝ᵥ s.2.1 p)
  rw [hsum]
  obtain ⟨h, t, ht, b1, b2, b3, b4, b5, b6, b7, b8, b9⟩ := values6
  have w : ∀ x : Int, 0 ≤ x → x ≤ 12 → ex6 ⟨x, 0, 0⟩ 0 = if x = 6 then 1 else if x = 0 ∨ x = 3 ∨ x = 4 ∨ x = 7 ∨ x = 10 ∨ x = 11 then 1 / 2 else 3 / 2 := by
    intro x h1 h2
    interval_cases x <;> simp [ex6]
  have v0 : Flux.entropyVariable (1 / 2) = -4 / 3 := by norm_num [Flux.entropyVariable]
  have v1 : Flux.entropyVariable 1 = 0 := by norm_num [Flux.entropyVariable]
  have v2 : Flux.entropyVariable (3 / 2) = 4 / 3 := by norm_num [Flux.entropyVariable]
  have i2 : Finset.Ico (3 : Int) 10 = {3, 4, 5, 6, 7, 8, 9} := rfl
  have w0 := w 0 (by decide) (by decide); have w1 := w 1 (by decide) (by decide); have w2 := w 2 (by decide) (by decide); have w3 := w 3 (by decide) (by decide)
  have w4 := w 4 (by decide) (by decide); have w5 := w 5 (by decide) (by decide); have w6 := w 6 (by decide) (by decide); have w7 := w 7 (by decide) (by decide)
  have w8 := w 8 (by decide) (by decide); have w9 := w 9 (by decide) (by decide); have w10 := w 10 (by decide) (by decide); have w11 := w 11 (by decide) (by decide)
  norm_num at w0 w1 w2 w3 w4 w5 w6 w7 w8 w9 w10 w11
  rw [i2]
  norm_num [face6, w0, w1, w2, w3, w4, w5, w6, w7, w8, w9, w10, w11, b1, b2, b3, b4, b5, b6, b7, b8, b9, v0, v1, v2]
  linarith

end Verif.Props.EntropyRun
