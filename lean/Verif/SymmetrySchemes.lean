import Verif.Symmetry
import Verif.Weno
import Verif.EulerRun
import Verif.LimitedRun

/-!
Numerical fluxes and reconstructions that behave alike under reflections and exchanges of axes.
-/

namespace Verif
namespace Symmetry
open Integrator Simulator NetFlux

section
variable {V : Type} [AddCommGroup V] [Module ℝ V]

/-- A reconstruction does with transformed values in direction `d` what it does in direction `e` with the values. -/
def ReconKeep (r : Recon V) (T : V → V) (d e : Nat) : Prop :=
  ∀ f : Int → V, r.lf d (r.offs.map fun o => T (f o)) = T (r.lf e (r.offs.map f)) ∧ r.rf d (r.offs.map fun o => T (f o)) = T (r.rf e (r.offs.map f))

/-- With transformed values in opposite order a reconstruction exchanges left and right values. -/
def ReconFlip (r : Recon V) (T : V → V) (d e : Nat) : Prop :=
  ∀ f : Int → V, r.lf d (r.offs.map fun o => T (f (-o))) = T (r.rf e (r.offs.map f)) ∧ r.rf d (r.offs.map fun o => T (f (-o))) = T (r.lf e (r.offs.map f))

/-- The flux of transformed values is the transformed flux, with the same wave speed. -/
def FluxKeep (F : Nat → V → V → V × ℝ) (T : V → V) (d e : Nat) : Prop := ∀ l r, F d (T l) (T r) = (T (F e l r).1, (F e l r).2)

/-- The flux of transformed and exchanged values is the transformed flux with the opposite sign, with the same wave speed. -/
def FluxFlip (F : Nat → V → V → V × ℝ) (T : V → V) (d e : Nat) : Prop := ∀ l r, F d (T r) (T l) = (-T (F e l r).1, (F e l r).2)

omit [Module ℝ V] in
theorem lineKeep_of {r : Recon V} {F : Nat → V → V → V × ℝ} {T : V → V} {d e : Nat} (hr : ReconKeep r T d e) (hF : FluxKeep F T d e) : LineKeep r (EulerRun.twoPoint F) T d e := by
  intro a
  simp only [line, EulerRun.twoPoint, List.map_cons, List.map_nil, List.headD_cons]
  rw [(hr fun o => a (0 + o)).2, (hr fun o => a (1 + o)).1, hF]

omit [Module ℝ V] in
theorem lineFlip_of {r : Recon V} {F : Nat → V → V → V × ℝ} {T : V → V} {d e : Nat} (hr : ReconFlip r T d e) (hF : FluxFlip F T d e) : LineFlip r (EulerRun.twoPoint F) T d e := by
  intro a
  simp only [line, EulerRun.twoPoint, List.map_cons, List.map_nil, List.headD_cons]
  have h0 := (hr a).2
  have h1 := (hr fun o => a (o - 1)).1
  simp only [zero_add, show ∀ o : Int, -(1 + o) = -o - 1 from fun o => by omega, show ∀ o : Int, 1 + o - 1 = o from fun o => by omega]
  rw [h0, h1, hF]

omit [Module ℝ V] in
theorem fair_of {r : Recon V} {F : Nat → V → V → V × ℝ} {T : V → V} {dims : Nat} {π : Nat → Nat} {flip : Nat → Bool}
    (hr : ∀ d < dims, if flip d then ReconFlip r T d (π d) else ReconKeep r T d (π d)) (hF : ∀ d < dims, if flip d then FluxFlip F T d (π d) else FluxKeep F T d (π d)) :
    Fair r (EulerRun.twoPoint F) T dims π flip := by
  intro d hd
  have h1 := hr d hd
  have h2 := hF d hd
  split_ifs at h1 h2 ⊢
  · exact lineFlip_of h1 h2
  · exact lineKeep_of h1 h2

/-! ### Reconstructions -/

omit [Module ℝ V] in
theorem none_keep (T : V → V) (d e : Nat) : ReconKeep CudaRecon.noRecon T d e := fun f => by simp [CudaRecon.noRecon]
omit [Module ℝ V] in
theorem none_flip (T : V → V) (d e : Nat) : ReconFlip CudaRecon.noRecon T d e := fun f => by simp [CudaRecon.noRecon]

omit [Module ℝ V] in
theorem ofList_map (w : Nat) (h : Int → V) (o : Int) (h1 : -w ≤ o) (h2 : o ≤ w) : Weno.ofList w ((irange (-w) (w + 1)).map h) o = h o := by
  have := Weno.ofList_line w 0 (fun p : I3 => h p.x) 0 o h1 h2
  simpa [Eno.line, NetFlux.step] using this

omit [Module ℝ V] in
theorem line_keep {kind : ReconKind} {k w : Nat} {lf rf : (Int → V) → V} (hl : Weno.Local w lf) (hr : Weno.Local w rf) {T : V → V}
    (h1 : ∀ f, lf (fun o => T (f o)) = T (lf f)) (h2 : ∀ f, rf (fun o => T (f o)) = T (rf f)) (d e : Nat) : ReconKeep (Weno.lineRecon kind k w lf rf) T d e := by
  intro f
  simp only [Weno.lineRecon]
  rw [hl _ _ (ofList_map w f), hr _ _ (ofList_map w f), hl _ _ (ofList_map w fun o => T (f o)), hr _ _ (ofList_map w fun o => T (f o)), h1, h2]
  exact ⟨rfl, rfl⟩

omit [Module ℝ V] in
theorem line_flip {kind : ReconKind} {k w : Nat} {lf rf : (Int → V) → V} (hl : Weno.Local w lf) (hr : Weno.Local w rf) {T : V → V}
    (h1 : ∀ f, lf (fun o => T (f (-o))) = T (rf f)) (h2 : ∀ f, rf (fun o => T (f (-o))) = T (lf f)) (d e : Nat) : ReconFlip (Weno.lineRecon kind k w lf rf) T d e := by
  intro f
  simp only [Weno.lineRecon]
  rw [hl _ _ (ofList_map w f), hr _ _ (ofList_map w f), hl _ _ (ofList_map w fun o => T (f (-o))), hr _ _ (ofList_map w fun o => T (f (-o))), h1, h2]
  exact ⟨rfl, rfl⟩

end

/-! ### Reconstructions of several variables -/

section
open Weno Eno
variable {m : Nat}

/-- A map of the variables: variable `i` of the result is variable `τ i` with the sign `ε i`. -/
def mixed (ε : Fin m → ℝ) (τ : Fin m → Fin m) (v : Vec m) : Vec m := fun i => ε i * v (τ i)

theorem value_mixed (k r s : Nat) (ε : Fin m → ℝ) (τ : Fin m → Fin m) (f : Int → Vec m) : value k r s (fun o => mixed ε τ (f o)) = mixed ε τ (value k r s f) := by
  funext i
  simp only [value_apply, mixed]
  rw [← List.sum_map_mul_left]
  congr 1
  refine List.map_congr_left fun cj _ => ?_
  ring

theorem beta_neg {k : Nat} (i : Fin k) (f : Int → ℝ) : beta k i (fun o => -f o) = beta k i f := by
  match k, i with
  | 0, i => exact i.elim0
  | 1, i => rfl
  | 2, i => fin_cases i <;> simp [beta] <;> ring
  | 3, i => fin_cases i <;> simp [beta] <;> ring
  | _ + 4, i => rfl

theorem beta_sign {k : Nat} (i : Fin k) (f : Int → ℝ) {ε : ℝ} (hε : ε = 1 ∨ ε = -1) : beta k i (fun o => ε * f o) = beta k i f := by
  rcases hε with rfl | rfl
  · simp
  · simpa using beta_neg i f

theorem beta_flip {k : Nat} (i : Fin k) (f : Int → ℝ) : beta k i (fun o => f (-o)) = beta k i.rev f := by
  match k, i with
  | 0, i => exact i.elim0
  | 1, i => rfl
  | 2, i => fin_cases i <;> simp [beta, Fin.rev] <;> ring
  | 3, i => fin_cases i <;> simp [beta, Fin.rev] <;> ring
  | _ + 4, i => rfl

theorem value_flip {k : Nat} (h2 : 2 ≤ k) (h3 : k ≤ 3) (s : Fin k) (f : Int → Vec m) : value k s s (fun o => f (-o)) = value k (s.rev + 1) s.rev f := by
  funext i
  rw [value_apply, value_apply]
  interval_cases k <;> fin_cases s <;> simp [table, Fin.rev] <;> ring

theorem alpha_flip {k : Nat} (f : Int → ℝ) (i : Fin k) : alphaLeft k (fun o => f (-o)) i = alphaRight k f i.rev := by
  simp only [alphaLeft, alphaRight, beta_flip]

theorem weno_flip {k : Nat} (h2 : 2 ≤ k) (h3 : k ≤ 3) (ind : Fin m) (f : Int → Vec m) : wenoLeft k ind (fun o => f (-o)) = wenoRight k ind f := by
  unfold wenoLeft wenoRight
  simp only [alpha_flip fun o => f o ind, value_flip h2 h3]
  rw [show ∑ x : Fin k, alphaRight k (fun o => f o ind) x.rev = ∑ x, alphaRight k (fun o => f o ind) x from Equiv.sum_comp Fin.revPerm _]
  exact Equiv.sum_comp Fin.revPerm fun s : Fin k => (alphaRight k (fun o => f o ind) s / ∑ i, alphaRight k (fun o => f o ind) i) • value k (s + 1) s f

theorem weno_mixed_left (k : Nat) {ind : Fin m} {ε : Fin m → ℝ} {τ : Fin m → Fin m} (hε : ε ind = 1 ∨ ε ind = -1) (hτ : τ ind = ind) (f : Int → Vec m) :
    wenoLeft k ind (fun o => mixed ε τ (f o)) = mixed ε τ (wenoLeft k ind f) := by
  unfold wenoLeft alphaLeft
  simp only [value_mixed, show ∀ o, mixed ε τ (f o) ind = ε ind * f o ind from fun o => by simp only [mixed, hτ], beta_sign _ _ hε]
  funext i
  simp only [Finset.sum_apply, Pi.smul_apply, smul_eq_mul, mixed, Finset.mul_sum]
  exact Finset.sum_congr rfl fun s _ => by ring

theorem weno_mixed_right (k : Nat) {ind : Fin m} {ε : Fin m → ℝ} {τ : Fin m → Fin m} (hε : ε ind = 1 ∨ ε ind = -1) (hτ : τ ind = ind) (f : Int → Vec m) :
    wenoRight k ind (fun o => mixed ε τ (f o)) = mixed ε τ (wenoRight k ind f) := by
  unfold wenoRight alphaRight
  simp only [value_mixed, show ∀ o, mixed ε τ (f o) ind = ε ind * f o ind from fun o => by simp only [mixed, hτ], beta_sign _ _ hε]
  funext i
  simp only [Finset.sum_apply, Pi.smul_apply, smul_eq_mul, mixed, Finset.mul_sum]
  exact Finset.sum_congr rfl fun s _ => by ring

theorem w2_flip (l c r : ℝ) : w2Left r c l = ((w2Right l c r).2, (w2Right l c r).1) := by
  simp only [w2Left, w2Right, show (l - c) * (l - c) = (c - l) * (c - l) by ring, show (c - r) * (c - r) = (r - c) * (r - c) by ring]
  rw [add_comm (1 / _)]

theorem w2Left_sign (l c r : ℝ) {ε : ℝ} (hε : ε = 1 ∨ ε = -1) : w2Left (ε * l) (ε * c) (ε * r) = w2Left l c r := by
  rcases hε with rfl | rfl
  · simp
  · simp only [w2Left, show (-1 * r - -1 * c) * (-1 * r - -1 * c) = (r - c) * (r - c) by ring, show (-1 * c - -1 * l) * (-1 * c - -1 * l) = (c - l) * (c - l) by ring]

theorem w2Right_sign (l c r : ℝ) {ε : ℝ} (hε : ε = 1 ∨ ε = -1) : w2Right (ε * l) (ε * c) (ε * r) = w2Right l c r := by
  rcases hε with rfl | rfl
  · simp
  · simp only [w2Right, show (-1 * r - -1 * c) * (-1 * r - -1 * c) = (r - c) * (r - c) by ring, show (-1 * c - -1 * l) * (-1 * c - -1 * l) = (c - l) * (c - l) by ring]

theorem weno2_mixed_left {ind : Fin m} {ε : Fin m → ℝ} {τ : Fin m → Fin m} (hε : ε ind = 1 ∨ ε ind = -1) (hτ : τ ind = ind) (f : Int → Vec m) :
    weno2Left ind (fun o => mixed ε τ (f o)) = mixed ε τ (weno2Left ind f) := by
  funext i
  simp only [weno2Left, mixed, hτ, w2Left_sign _ _ _ hε]
  ring

theorem weno2_mixed_right {ind : Fin m} {ε : Fin m → ℝ} {τ : Fin m → Fin m} (hε : ε ind = 1 ∨ ε ind = -1) (hτ : τ ind = ind) (f : Int → Vec m) :
    weno2Right ind (fun o => mixed ε τ (f o)) = mixed ε τ (weno2Right ind f) := by
  funext i
  simp only [weno2Right, mixed, hτ, w2Right_sign _ _ _ hε]
  ring

theorem weno2_flip (ind : Fin m) (f : Int → Vec m) : weno2Left ind (fun o => f (-o)) = weno2Right ind f := by
  funext i
  simp only [weno2Left, weno2Right, neg_neg, neg_zero, w2_flip]

theorem sign_neg (a : ℝ) : Limiter.sign (-a) = -Limiter.sign a := by
  unfold Limiter.sign
  rcases lt_trichotomy a 0 with h | h | h
  · rw [if_pos (by linarith), if_neg (by linarith), if_neg (by linarith)]; ring
  · subst h; simp
  · rw [if_neg (by linarith), if_neg (by linarith), if_pos (by linarith)]

theorem minmod_neg (a b : ℝ) : Limiter.minmod (-a) (-b) = -Limiter.minmod a b := by
  unfold Limiter.minmod
  simp only [sign_neg, neg_inj, abs_neg]
  split_ifs <;> ring

theorem minmod_comm (a b : ℝ) : Limiter.minmod a b = Limiter.minmod b a := by
  unfold Limiter.minmod
  by_cases h : Limiter.sign a = Limiter.sign b
  · rw [if_pos h, if_pos h.symm, h, min_comm]
  · rw [if_neg h, if_neg (Ne.symm h)]

theorem minmod3_neg (a b c : ℝ) : Limiter.minmod3 (-a) (-b) (-c) = -Limiter.minmod3 a b c := by
  unfold Limiter.minmod3
  simp only [sign_neg, neg_inj, abs_neg]
  split_ifs <;> ring

theorem minmod3_comm (a b c : ℝ) : Limiter.minmod3 a b c = Limiter.minmod3 c b a := by
  unfold Limiter.minmod3
  by_cases h : Limiter.sign a = Limiter.sign b ∧ Limiter.sign b = Limiter.sign c
  · rw [if_pos h, if_pos ⟨h.2.symm, h.1.symm⟩, h.1, h.2]
    congr 1
    rw [min_comm |b|, ← min_assoc, min_comm |a|, min_assoc, min_comm |a|]
  · rw [if_neg h, if_neg fun h' => h ⟨h'.2.symm, h'.1.symm⟩]

/-- A reconstruction of one variable from three cells that is symmetric. -/
structure Even3 (rec : ℝ → ℝ → ℝ → ℝ × ℝ) : Prop where
  neg : ∀ l c r, rec (-l) (-c) (-r) = (-(rec l c r).1, -(rec l c r).2)
  flip : ∀ l c r, rec r c l = ((rec l c r).2, (rec l c r).1)

theorem mm_even : Even3 Limiter.mm where
  neg l c r := by
    simp only [Limiter.mm, show -r - -c = -(r - c) by ring, show -c - -l = -(c - l) by ring, minmod_neg]
    ext <;> simp <;> ring
  flip l c r := by
    have : Limiter.minmod (l - c) (c - r) = -Limiter.minmod (r - c) (c - l) := by rw [← minmod_neg, minmod_comm]; congr 1 <;> ring
    simp only [Limiter.mm, this]
    ext <;> simp <;> ring

theorem mc_even : Even3 Limiter.mc where
  neg l c r := by
    simp only [Limiter.mc, show 2 * (-r - -c) = -(2 * (r - c)) by ring, show (-r - -l) / 2 = -((r - l) / 2) by ring, show 2 * (-c - -l) = -(2 * (c - l)) by ring, minmod3_neg]
    ext <;> simp <;> ring
  flip l c r := by
    have : Limiter.minmod3 (2 * (l - c)) ((l - r) / 2) (2 * (c - r)) = -Limiter.minmod3 (2 * (r - c)) ((r - l) / 2) (2 * (c - l)) := by
      rw [← minmod3_neg, minmod3_comm]; congr 1 <;> ring
    simp only [Limiter.mc, this]
    ext <;> simp <;> ring

variable {ind : Fin m} {ε : Fin m → ℝ} {τ : Fin m → Fin m}

/-- The reconstructions that are symmetric, for `m` variables with the weights taken from variable `ind`. -/
inductive Even (ind : Fin m) : Recon (Vec m) → Prop where
  | mm : Even ind mmRecon
  | mc : Even ind mcRecon
  | weno2 : Even ind (weno2Recon ind)
  | wenoTwo : Even ind (wenoRecon 2 ind)
  | wenoThree : Even ind (wenoRecon 3 ind)

theorem local3 {V W : Type} (F : V → V → V → W) : Weno.Local 1 (fun f : Int → V => F (f (-1)) (f 0) (f 1)) := by
  intro f g h
  simp only [h (-1) (by omega) (by omega), h 0 (by omega) (by omega), h 1 (by omega) (by omega)]

theorem even3_sign {rec : ℝ → ℝ → ℝ → ℝ × ℝ} (h : Even3 rec) {ε : ℝ} (hε : ε = 1 ∨ ε = -1) (l c r : ℝ) : rec (ε * l) (ε * c) (ε * r) = (ε * (rec l c r).1, ε * (rec l c r).2) := by
  rcases hε with rfl | rfl
  · simp
  · simp [h.neg]

theorem even_keep {r : Recon (Vec m)} (h : Even ind r) (hε : ∀ i, ε i = 1 ∨ ε i = -1) (hτ : τ ind = ind) (d e : Nat) : ReconKeep r (mixed ε τ) d e := by
  cases h with
  | mm =>
    refine line_keep (local3 fun l c r i => (Limiter.mm (l i) (c i) (r i)).1) (local3 fun l c r i => (Limiter.mm (l i) (c i) (r i)).2) (fun f => funext fun i => ?_) (fun f => funext fun i => ?_) d e <;>
      simp only [mixed, even3_sign mm_even (hε i)]
  | mc =>
    refine line_keep (local3 fun l c r i => (Limiter.mc (l i) (c i) (r i)).1) (local3 fun l c r i => (Limiter.mc (l i) (c i) (r i)).2) (fun f => funext fun i => ?_) (fun f => funext fun i => ?_) d e <;>
      simp only [mixed, even3_sign mc_even (hε i)]
  | weno2 => exact line_keep (weno2Left_local ind) (weno2Right_local ind) (weno2_mixed_left (hε ind) hτ) (weno2_mixed_right (hε ind) hτ) d e
  | wenoTwo => exact line_keep (wenoLeft_local (by omega) (by omega) ind) (wenoRight_local (by omega) (by omega) ind) (weno_mixed_left 2 (hε ind) hτ) (weno_mixed_right 2 (hε ind) hτ) d e
  | wenoThree => exact line_keep (wenoLeft_local (by omega) (by omega) ind) (wenoRight_local (by omega) (by omega) ind) (weno_mixed_left 3 (hε ind) hτ) (weno_mixed_right 3 (hε ind) hτ) d e

theorem even_flip {r : Recon (Vec m)} (h : Even ind r) (hε : ∀ i, ε i = 1 ∨ ε i = -1) (hτ : τ ind = ind) (d e : Nat) : ReconFlip r (mixed ε τ) d e := by
  have back : ∀ {lf rf : (Int → Vec m) → Vec m}, (∀ f, lf (fun o => f (-o)) = rf f) → ∀ f, rf (fun o => f (-o)) = lf f := by
    intro lf rf h f
    rw [← h fun o => f (-o)]
    simp only [neg_neg]
  cases h with
  | mm =>
    refine line_flip (local3 fun l c r i => (Limiter.mm (l i) (c i) (r i)).1) (local3 fun l c r i => (Limiter.mm (l i) (c i) (r i)).2) (fun f => funext fun i => ?_) (fun f => funext fun i => ?_) d e <;>
      simp only [mixed, even3_sign mm_even (hε i), neg_neg, neg_zero, mm_even.flip (f (-1) (τ i))]
  | mc =>
    refine line_flip (local3 fun l c r i => (Limiter.mc (l i) (c i) (r i)).1) (local3 fun l c r i => (Limiter.mc (l i) (c i) (r i)).2) (fun f => funext fun i => ?_) (fun f => funext fun i => ?_) d e <;>
      simp only [mixed, even3_sign mc_even (hε i), neg_neg, neg_zero, mc_even.flip (f (-1) (τ i))]
  | weno2 =>
    exact line_flip (weno2Left_local ind) (weno2Right_local ind) (fun f => by rw [weno2_mixed_left (hε ind) hτ fun o => f (-o), weno2_flip])
      (fun f => by rw [weno2_mixed_right (hε ind) hτ fun o => f (-o), back (weno2_flip ind)]) d e
  | wenoTwo =>
    exact line_flip (wenoLeft_local (by omega) (by omega) ind) (wenoRight_local (by omega) (by omega) ind) (fun f => by rw [weno_mixed_left 2 (hε ind) hτ fun o => f (-o), weno_flip (by omega) (by omega)])
      (fun f => by rw [weno_mixed_right 2 (hε ind) hτ fun o => f (-o), back (weno_flip (by omega) (by omega) ind)]) d e
  | wenoThree =>
    exact line_flip (wenoLeft_local (by omega) (by omega) ind) (wenoRight_local (by omega) (by omega) ind) (fun f => by rw [weno_mixed_left 3 (hε ind) hτ fun o => f (-o), weno_flip (by omega) (by omega)])
      (fun f => by rw [weno_mixed_right 3 (hε ind) hτ fun o => f (-o), back (weno_flip (by omega) (by omega) ind)]) d e

theorem eno_keep {k : Nat} (h2 : 2 ≤ k) (h4 : k ≤ 4) (hε : ε ind = 1) (hτ : τ ind = ind) (d e : Nat) : ReconKeep (enoRecon k ind) (mixed ε τ) d e := by
  have key : ∀ (f : Int → Vec m) o, mixed ε τ (f o) ind = f o ind := fun f o => by simp only [mixed, hε, hτ, one_mul]
  refine line_keep (eno_local h2 h4 ind).1 (eno_local h2 h4 ind).2 (fun f => ?_) (fun f => ?_) d e <;> simp only [key, value_mixed]

/-! ### The variables of an equation as a vector -/

/-- A reconstruction of a vector of variables, for states given in another form. The reconstructions work on the variables of a volume by their index (alsfvm/src/reconstruction/ENOCPU.cpp:119-185,
alsfvm/include/alsfvm/reconstruction/MC.hpp:38-49). -/
def via {V : Type} (e : V ≃ Vec m) (r : Recon (Vec m)) : Recon V :=
  ⟨r.kind, r.k, r.offs, fun d vals => e.symm (r.lf d (vals.map e)), fun d vals => e.symm (r.rf d (vals.map e))⟩

theorem via_keep {V : Type} [AddCommGroup V] {e : V ≃ Vec m} {r : Recon (Vec m)} {T : V → V} {T' : Vec m → Vec m} (hT : ∀ x, e (T x) = T' (e x)) {d d' : Nat} (h : ReconKeep r T' d d') :
    ReconKeep (via e r) T d d' := by
  intro f
  have hT' : ∀ y, e.symm (T' y) = T (e.symm y) := fun y => by rw [Equiv.symm_apply_eq, hT, Equiv.apply_symm_apply]
  simp only [via, List.map_map, Function.comp_def, hT]
  rw [(h fun o => e (f o)).1, (h fun o => e (f o)).2, hT', hT']
  exact ⟨rfl, rfl⟩

theorem via_flip {V : Type} [AddCommGroup V] {e : V ≃ Vec m} {r : Recon (Vec m)} {T : V → V} {T' : Vec m → Vec m} (hT : ∀ x, e (T x) = T' (e x)) {d d' : Nat} (h : ReconFlip r T' d d') :
    ReconFlip (via e r) T d d' := by
  intro f
  have hT' : ∀ y, e.symm (T' y) = T (e.symm y) := fun y => by rw [Equiv.symm_apply_eq, hT, Equiv.apply_symm_apply]
  simp only [via, List.map_map, Function.comp_def, hT]
  rw [(h fun o => e (f o)).1, (h fun o => e (f o)).2, hT', hT']
  exact ⟨rfl, rfl⟩

/-- The only variable of a scalar equation (alsfvm/src/equation/burgers/Burgers.cpp:22). -/
def scalarVec : ℝ ≃ Vec 1 := (Equiv.funUnique (Fin 1) ℝ).symm

/-- The conserved variables of the Euler equations in their order: density, momentum, energy (alsfvm/src/equation/euler/Euler.cpp:24-32, 47-54, 68-74). -/
def eulerVec (m : Nat) : Euler.Cons m ≃ Vec (m + 2) where
  toFun U := Fin.cons U.1 (Fin.snoc U.2.1 U.2.2 : Fin (m + 1) → ℝ)
  invFun v := (v 0, fun i => v i.castSucc.succ, v (Fin.last (m + 1)))
  left_inv U := by
    refine Prod.ext rfl (Prod.ext (funext fun i => ?_) ?_)
    · simp only [Fin.cons_succ, Fin.snoc_castSucc]
    · simp only [← Fin.succ_last, Fin.cons_succ, Fin.snoc_last]
  right_inv v := by
    funext i
    refine Fin.cases rfl (fun j => ?_) i
    simp only [Fin.cons_succ]
    refine Fin.lastCases ?_ (fun k => ?_) j
    · rw [Fin.snoc_last, Fin.succ_last]
    · rw [Fin.snoc_castSucc]

end

/-! ### The Euler equations -/

section
open Euler EulerFlux
variable {m : Nat} {ε : Fin m → ℝ} {τ : Equiv.Perm (Fin m)} {γ : ℝ}

/-- A map of the momentum: component `i` of the result is component `τ i` with the sign `ε i`. -/
def signed (ε : Fin m → ℝ) (τ : Equiv.Perm (Fin m)) : Cons m →ₗ[ℝ] Cons m where
  toFun U := (U.1, fun i => ε i * U.2.1 (τ i), U.2.2)
  map_add' U W := by ext <;> simp; ring
  map_smul' a U := by ext <;> simp; ring

theorem signed_vec (ε : Fin m → ℝ) (τ : Equiv.Perm (Fin m)) (U : Cons m) :
    eulerVec m (signed ε τ U) = mixed (Fin.cons 1 (Fin.snoc ε 1 : Fin (m + 1) → ℝ)) (Fin.cons 0 (Fin.snoc (fun i => (τ i).castSucc.succ) (Fin.last (m + 1)) : Fin (m + 1) → Fin (m + 2)))
      (eulerVec m U) := by
  funext i
  refine Fin.cases ?_ (fun j => ?_) i
  · simp [eulerVec, signed, mixed]
  · refine Fin.lastCases ?_ (fun k => ?_) j
    · have : (Fin.last (m + 1)) = (Fin.last m).succ := rfl
      simp only [eulerVec, signed, mixed, Equiv.coe_fn_mk, Fin.cons_succ, Fin.snoc_last, LinearMap.coe_mk, AddHom.coe_mk, this, one_mul]
    · simp only [eulerVec, signed, mixed, Equiv.coe_fn_mk, Fin.cons_succ, Fin.snoc_castSucc, LinearMap.coe_mk, AddHom.coe_mk]

/-- Signs are one or minus one. -/
def Signs (ε : Fin m → ℝ) : Prop := ∀ i, ε i = 1 ∨ ε i = -1

theorem Signs.sq (hε : Signs ε) (i : Fin m) : ε i * ε i = 1 := by rcases hε i with h | h <;> rw [h] <;> norm_num
theorem Signs.abs (hε : Signs ε) (i : Fin m) : |ε i| = 1 := by rcases hε i with h | h <;> rw [h] <;> norm_num

theorem signs_vec (hε : Signs ε) (i : Fin (m + 2)) : (Fin.cons 1 (Fin.snoc ε 1 : Fin (m + 1) → ℝ) : Fin (m + 2) → ℝ) i = 1 ∨ (Fin.cons 1 (Fin.snoc ε 1 : Fin (m + 1) → ℝ) : Fin (m + 2) → ℝ) i = -1 := by
  refine Fin.cases (Or.inl rfl) (fun j => ?_) i
  rw [Fin.cons_succ]
  refine Fin.lastCases (Or.inl (by rw [Fin.snoc_last])) (fun k => ?_) j
  rw [Fin.snoc_castSucc]
  exact hε k

theorem dot_signed (hε : Signs ε) (τ : Equiv.Perm (Fin m)) (a b : Fin m → ℝ) : dot (fun i => ε i * a (τ i)) (fun i => ε i * b (τ i)) = dot a b := by
  unfold dot
  rw [← Equiv.sum_comp τ fun i => a i * b i]
  exact Finset.sum_congr rfl fun i _ => by linear_combination (a (τ i) * b (τ i)) * hε.sq i

theorem pressure_signed (hε : Signs ε) (τ : Equiv.Perm (Fin m)) (γ : ℝ) (U : Cons m) : pressure γ (signed ε τ U) = pressure γ U := by
  simp only [pressure, signed, LinearMap.coe_mk, AddHom.coe_mk, dot_signed hε]

theorem velocity_signed (ε : Fin m → ℝ) (τ : Equiv.Perm (Fin m)) (U : Cons m) (i : Fin m) : velocity (signed ε τ U) i = ε i * velocity U (τ i) := by
  exact mul_div_assoc _ _ _

theorem rho_signed (ε : Fin m → ℝ) (τ : Equiv.Perm (Fin m)) (U : Cons m) : (signed ε τ U).1 = U.1 := rfl

theorem sound_signed (hε : Signs ε) (τ : Equiv.Perm (Fin m)) (γ : ℝ) (U : Cons m) : soundSpeed γ (signed ε τ U) = soundSpeed γ U := by
  simp only [soundSpeed, pressure_signed hε, Cons.rho, rho_signed]

theorem wave_signed (hε : Signs ε) (τ : Equiv.Perm (Fin m)) (γ : ℝ) (U : Cons m) (d : Fin m) : waveSpeed γ d (signed ε τ U) = waveSpeed γ (τ d) U := by
  simp only [waveSpeed, velocity_signed, abs_mul, hε.abs, one_mul, pressure_signed hε, Cons.rho, rho_signed]

theorem flux_signed (hε : Signs ε) (τ : Equiv.Perm (Fin m)) (γ : ℝ) (U : Cons m) (d : Fin m) : flux γ d (signed ε τ U) = ε d • signed ε τ (flux γ (τ d) U) := by
  have hs := hε.sq
  simp only [flux, velocity_signed, pressure_signed hε]
  refine Prod.ext rfl (Prod.ext (funext fun i => ?_) ?_)
  · show ε d * velocity U (τ d) * (ε i * U.2.1 (τ i)) + (if i = d then pressure γ U else 0) =
      ε d * (ε i * (velocity U (τ d) * U.2.1 (τ i) + if τ i = τ d then pressure γ U else 0))
    simp only [EmbeddingLike.apply_eq_iff_eq]
    split_ifs with h
    · subst h
      linear_combination (-pressure γ U) * hs i
    · ring
  · show (U.2.2 + pressure γ U) * (ε d * velocity U (τ d)) = ε d * ((U.2.2 + pressure γ U) * velocity U (τ d))
    ring

theorem meanPressure_signed (hε : Signs ε) (τ : Equiv.Perm (Fin m)) (γ : ℝ) (L R : Cons m) : meanPressure γ (signed ε τ L) (signed ε τ R) = meanPressure γ L R := by
  simp only [meanPressure, pressure_signed hε, Cons.rho, rho_signed]

theorem meanSound_signed (hε : Signs ε) (τ : Equiv.Perm (Fin m)) (γ : ℝ) (L R : Cons m) : meanSound γ (signed ε τ L) (signed ε τ R) = meanSound γ L R := by
  simp only [meanSound, meanPressure_signed hε, Cons.rho, rho_signed]

theorem meanVelocity_signed (ε : Fin m → ℝ) (τ : Equiv.Perm (Fin m)) (d : Fin m) (L R : Cons m) : meanVelocity d (signed ε τ L) (signed ε τ R) = ε d * meanVelocity (τ d) L R := by
  simp only [meanVelocity, velocity_signed, Cons.rho, rho_signed]
  ring

theorem meanVelocity_comm (d : Fin m) (L R : Cons m) : meanVelocity d R L = meanVelocity d L R := by
  simp only [meanVelocity]
  rw [add_comm, add_comm (Real.sqrt R.rho)]

theorem meanSound_comm (γ : ℝ) (L R : Cons m) : meanSound γ R L = meanSound γ L R := by
  simp only [meanSound, meanPressure]
  rw [add_comm, add_comm (Real.sqrt R.rho), add_comm R.rho]

theorem speeds_keep (hε : Signs ε) (d : Fin m) (hd : ε d = 1) (L R : Cons m) : hllSpeeds γ d (signed ε τ L) (signed ε τ R) = hllSpeeds γ (τ d) L R := by
  simp only [hllSpeeds, velocity_signed, sound_signed hε, meanVelocity_signed, meanSound_signed hε, hd, one_mul]

theorem speeds_flip (hε : Signs ε) (d : Fin m) (hd : ε d = -1) (L R : Cons m) :
    hllSpeeds γ d (signed ε τ R) (signed ε τ L) = (-(hllSpeeds γ (τ d) L R).2, -(hllSpeeds γ (τ d) L R).1) := by
  simp only [hllSpeeds, velocity_signed, sound_signed hε, meanVelocity_signed, meanSound_signed hε, hd, meanVelocity_comm _ L R, meanSound_comm _ L R, ← min_neg_neg, ← max_neg_neg]
  ext <;> simp only [] <;> congr 1 <;> ring

theorem speeds3_keep (hε : Signs ε) (d : Fin m) (hd : ε d = 1) (L R : Cons m) : hll3Speeds γ d (signed ε τ L) (signed ε τ R) = hll3Speeds γ (τ d) L R := by
  simp only [hll3Speeds, velocity_signed, sound_signed hε, meanVelocity_signed, meanSound_signed hε, hd, one_mul]

theorem speeds3_flip (hε : Signs ε) (d : Fin m) (hd : ε d = -1) (L R : Cons m) :
    hll3Speeds γ d (signed ε τ R) (signed ε τ L) = (-(hll3Speeds γ (τ d) L R).2, -(hll3Speeds γ (τ d) L R).1) := by
  simp only [hll3Speeds, velocity_signed, sound_signed hε, meanVelocity_signed, meanSound_signed hε, hd, meanVelocity_comm _ L R, meanSound_comm _ L R, ← min_neg_neg, ← max_neg_neg,
    show -1 * velocity R (τ d) - -1 * velocity L (τ d) = velocity L (τ d) - velocity R (τ d) by ring]
  ext <;> simp only [] <;> congr 1 <;> ring

/-- In the way of `FluxKeep` and `FluxFlip`, for a flux with directions of the equation. -/
def Keeps (F : Fin m → Cons m → Cons m → Cons m × ℝ) (ε : Fin m → ℝ) (τ : Equiv.Perm (Fin m)) (d : Fin m) : Prop :=
  ∀ L R, F d (signed ε τ L) (signed ε τ R) = (signed ε τ (F (τ d) L R).1, (F (τ d) L R).2)
/-- see `Keeps` -/
def Flips (F : Fin m → Cons m → Cons m → Cons m × ℝ) (ε : Fin m → ℝ) (τ : Equiv.Perm (Fin m)) (d : Fin m) : Prop :=
  ∀ L R, F d (signed ε τ R) (signed ε τ L) = (-signed ε τ (F (τ d) L R).1, (F (τ d) L R).2)

theorem central_keeps (hε : Signs ε) (d : Fin m) (hd : ε d = 1) : Keeps (central γ) ε τ d := by
  intro L R
  simp only [central, flux_signed hε, wave_signed hε, hd, one_smul, map_smul, map_add]

theorem central_flips (hε : Signs ε) (d : Fin m) (hd : ε d = -1) : Flips (central γ) ε τ d := by
  intro L R
  simp only [central, flux_signed hε, wave_signed hε, hd, neg_smul, one_smul, map_smul, map_add, max_comm (waveSpeed γ (τ d) R)]
  refine Prod.ext ?_ rfl
  simp only []
  rw [← neg_add, smul_neg, add_comm]

theorem hll_keeps (hε : Signs ε) (d : Fin m) (hd : ε d = 1) : Keeps (hll γ) ε τ d := by
  intro L R
  simp only [hll, speeds_keep hε d hd, flux_signed hε, hd, one_smul, ← map_smul, ← map_add, ← map_sub]
  refine Prod.ext ?_ rfl
  simp only []
  split_ifs <;> simp

theorem hll_flips_of (hε : Signs ε) (d : Fin m) (hd : ε d = -1) (L R : Cons m) (h1 : (hllSpeeds γ (τ d) L R).1 ≠ 0) (h2 : (hllSpeeds γ (τ d) L R).2 ≠ 0) (h3 : (hllSpeeds γ (τ d) L R).1 ≤ (hllSpeeds γ (τ d) L R).2) :
    hll γ d (signed ε τ R) (signed ε τ L) = (-signed ε τ (hll γ (τ d) L R).1, (hll γ (τ d) L R).2) := by
  simp only [hll, speeds_flip hε d hd, flux_signed hε, hd]
  generalize (hllSpeeds γ (τ d) L R).1 = a at *
  generalize (hllSpeeds γ (τ d) L R).2 = b at *
  refine Prod.ext ?_ (by simp only [abs_neg]; rw [max_comm])
  simp only [neg_eq_zero, if_neg h1, if_neg h2]
  rcases lt_or_gt_of_ne h1 with ha | ha <;> rcases lt_or_gt_of_ne h2 with hb | hb
  · rw [if_pos (by linarith), if_neg (by linarith), if_pos hb]; simp
  · rw [if_neg (by linarith), if_neg (by linarith), if_neg (by linarith), if_neg (by linarith)]
    simp only [map_smul, map_add, map_sub, neg_smul, one_smul]
    rw [show -a - -b = b - a by ring]
    module
  · linarith
  · rw [if_neg (by linarith), if_pos (by linarith), if_pos ha]; simp

theorem hll3_keeps (hε : Signs ε) (d : Fin m) (hd : ε d = 1) : Keeps (hll3 γ) ε τ d := by
  intro L R
  have haa : hll3aa γ d (signed ε τ L) (signed ε τ R) = hll3aa γ (τ d) L R := by
    simp only [hll3aa, velocity_signed, speeds3_keep hε d hd, hd, one_mul, Cons.rho, rho_signed]
  have hm : ∀ U : Cons m, ∀ i, (signed ε τ U).2.1 i = ε i * U.2.1 (τ i) := fun U i => rfl
  have hsm : hll3sm γ d (signed ε τ L) (signed ε τ R) = hll3sm γ (τ d) L R := by
    simp only [hll3sm, velocity_signed, speeds3_keep hε d hd, hd, one_mul, Cons.m, hm, pressure_signed hε, haa]
  have hus : hll3us γ d (signed ε τ L) (signed ε τ R) = fun i => ε i * hll3us γ (τ d) L R (τ i) := by
    funext i
    simp only [hll3us, hsm, flux_signed hε, hd, one_smul, Cons.m, hm, speeds3_keep hε d hd, haa, EmbeddingLike.apply_eq_iff_eq]
    split_ifs with h
    · rw [h, hd, one_mul]
    · ring
  have hmid : ∀ (U : Cons m) (s : ℝ), hll3Middle γ d (hll3sm γ (τ d) L R) (fun i => ε i * hll3us γ (τ d) L R (τ i)) (signed ε τ U) s =
      signed ε τ (hll3Middle γ (τ d) (hll3sm γ (τ d) L R) (hll3us γ (τ d) L R) U s) := by
    intro U s
    simp only [hll3Middle, velocity_signed, hd, one_mul, pressure_signed hε, Cons.rho, rho_signed, Cons.E]
    refine Prod.ext rfl (Prod.ext (funext fun i => ?_) rfl)
    simp only [signed, LinearMap.coe_mk, AddHom.coe_mk]
    ring
  simp only [hll3, speeds3_keep hε d hd, hsm, hus, hmid, flux_signed hε, hd, one_smul, ← map_smul, ← map_add, ← map_sub]
  refine Prod.ext ?_ rfl
  simp only []
  split_ifs <;> simp

/-! ### The entropy conservative flux -/

theorem bar_comm (l r : ℝ) : bar r l = bar l r := by simp only [bar, add_comm]

theorem ln_comm (l r : ℝ) : ln r l = ln l r := by
  unfold ln
  by_cases h : r - l = 0 ∨ Real.log r - Real.log l = 0
  · rw [if_pos h, if_pos (h.imp (fun h => by linarith) fun h => by linarith)]
  · rw [if_neg h, if_neg fun h' => h (h'.imp (fun h => by linarith) fun h => by linarith), ← neg_div_neg_eq, neg_sub, neg_sub]

theorem divLn_comm (l r F : ℝ) : divLn r l F = divLn l r F := by simp only [divLn, ln_comm l r]

theorem divLn_neg (l r F : ℝ) : divLn l r (-F) = -divLn l r F := by
  unfold divLn
  split_ifs <;> ring

theorem zFirst_signed (hε : Signs ε) (τ : Equiv.Perm (Fin m)) (γ : ℝ) (U : Cons m) : zFirst γ (signed ε τ U) = zFirst γ U := by
  simp only [zFirst, pressure_signed hε, Cons.rho, rho_signed]

theorem zLast_signed (hε : Signs ε) (τ : Equiv.Perm (Fin m)) (γ : ℝ) (U : Cons m) : zLast γ (signed ε τ U) = zLast γ U := by
  simp only [zLast, pressure_signed hε, Cons.rho, rho_signed]

theorem zVel_signed (hε : Signs ε) (τ : Equiv.Perm (Fin m)) (γ : ℝ) (U : Cons m) (i : Fin m) : zVel γ (signed ε τ U) i = ε i * zVel γ U (τ i) := by
  simp only [zVel, pressure_signed hε, velocity_signed, Cons.rho, rho_signed]
  ring

theorem bar_mul (a l r : ℝ) : bar (a * l) (a * r) = a * bar l r := by simp only [bar]; ring

theorem signed_inj (hε : Signs ε) (τ : Equiv.Perm (Fin m)) {L R : Cons m} : signed ε τ L = signed ε τ R ↔ L = R := by
  refine ⟨fun h => ?_, fun h => by rw [h]⟩
  have h1 : L.1 = R.1 := by have := congrArg (fun U : Cons m => U.1) h; exact this
  have h2 : L.2.2 = R.2.2 := by have := congrArg (fun U : Cons m => U.2.2) h; exact this
  refine Prod.ext h1 (Prod.ext (funext fun i => ?_) h2)
  have h3 : ε (τ.symm i) * L.2.1 (τ (τ.symm i)) = ε (τ.symm i) * R.2.1 (τ (τ.symm i)) := by have := congrArg (fun U : Cons m => U.2.1 (τ.symm i)) h; exact this
  have h4 := hε.sq (τ.symm i)
  rw [Equiv.apply_symm_apply] at h3
  have := congrArg (ε (τ.symm i) * ·) h3
  simpa only [← mul_assoc, h4, one_mul] using this

theorem tecnoSpeed_keep (hε : Signs ε) (d : Fin m) (hd : ε d = 1) (L R : Cons m) : tecnoSpeed γ d (signed ε τ L) (signed ε τ R) = tecnoSpeed γ (τ d) L R := by
  simp only [tecnoSpeed, speeds3_keep hε d hd]

theorem tecnoSpeed_flip (hε : Signs ε) (d : Fin m) (hd : ε d = -1) (L R : Cons m) : tecnoSpeed γ d (signed ε τ R) (signed ε τ L) = tecnoSpeed γ (τ d) L R := by
  simp only [tecnoSpeed, speeds3_flip hε d hd, abs_neg, max_comm]

theorem signed_mk (ε : Fin m → ℝ) (τ : Equiv.Perm (Fin m)) (a : ℝ) (v : Fin m → ℝ) (b : ℝ) : signed ε τ (a, v, b) = (a, fun i => ε i * v (τ i), b) := rfl

theorem tecno1_flips (ε : Fin 1 → ℝ) (hε : Signs ε) (d : Fin 1) (hd : ε d = -1) : Flips (tecno1 1 γ) ε 1 d := by
  intro L R
  have h0 : d = 0 := Subsingleton.elim _ _
  subst h0
  simp only [tecno1, tecno1D, tecnoSpeed_flip hε 0 hd, signed_inj hε, zFirst_signed hε, zLast_signed hε, zVel_signed hε, Equiv.Perm.coe_one, id, bar_mul, hd, flux_signed hε,
    bar_comm (zFirst γ L), bar_comm (zLast γ L), bar_comm (zVel γ L 0), ln_comm (zLast γ L), divLn_comm (zFirst γ L)]
  refine Prod.ext ?_ rfl
  simp only []
  by_cases h : L = R
  · subst h
    simp
  · rw [if_neg h, if_neg (Ne.symm h), signed_mk]
    simp only [neg_mul, one_mul, divLn_neg]
    refine Prod.ext rfl (Prod.ext (funext fun i => ?_) ?_)
    · fin_cases i
      simp [hd]
      ring
    · simp only [Prod.snd_neg]
      generalize (1.0 : ℝ) = one
      ring

theorem tecno1_keeps (ε : Fin 1 → ℝ) (d : Fin 1) (hd : ε d = 1) : Keeps (tecno1 1 γ) ε 1 d := by
  have h1 : ∀ U : Cons 1, signed ε 1 U = U := by
    intro U
    have : ∀ i, ε i = 1 := fun i => by rw [Subsingleton.elim i d, hd]
    refine Prod.ext rfl (Prod.ext (funext fun i => ?_) rfl)
    show ε i * U.2.1 i = U.2.1 i
    rw [this, one_mul]
  intro L R
  simp only [h1]
  rfl

theorem tecno2_keeps (ε : Fin 2 → ℝ) (hε : Signs ε) (d : Fin 2) (hd : ε d = 1) : Keeps (tecno1 2 γ) ε 1 d := by
  intro L R
  simp only [tecno1, tecno2D, tecnoSpeed_keep hε d hd, signed_inj hε, zFirst_signed hε, zLast_signed hε, zVel_signed hε, Equiv.Perm.coe_one, id, bar_mul, flux_signed hε, hd, one_smul]
  refine Prod.ext ?_ rfl
  simp only []
  by_cases h : L = R
  · rw [if_pos h, if_pos h]
  · rw [if_neg h, if_neg h]
    generalize (1.0 : ℝ) = one
    fin_cases d
    · replace hd : ε 0 = 1 := hd
      simp only [Fin.zero_eta, if_true]
      rw [signed_mk]
      rcases hε 1 with e | e <;> simp only [hd, e, one_mul, neg_mul]
      all_goals
        refine Prod.ext ?_ (Prod.ext (funext fun i => ?_) ?_)
        · simp
        · fin_cases i <;> simp [hd, e] <;> ring
        · first
          | rfl
          | ring
    · replace hd : ε 1 = 1 := hd
      simp only [Fin.mk_one, one_ne_zero, if_false]
      rw [signed_mk]
      rcases hε 0 with e | e <;> simp only [hd, e, one_mul, neg_mul]
      all_goals
        refine Prod.ext ?_ (Prod.ext (funext fun i => ?_) ?_)
        · simp
        · fin_cases i <;> simp [hd, e] <;> ring
        · first
          | rfl
          | ring

theorem tecno2_flips (ε : Fin 2 → ℝ) (hε : Signs ε) (d : Fin 2) (hd : ε d = -1) : Flips (tecno1 2 γ) ε 1 d := by
  intro L R
  simp only [tecno1, tecno2D, tecnoSpeed_flip hε d hd, signed_inj hε, zFirst_signed hε, zLast_signed hε, zVel_signed hε, Equiv.Perm.coe_one, id, bar_mul, flux_signed hε, hd,
    bar_comm (zFirst γ L), bar_comm (zLast γ L), bar_comm (zVel γ L 0), bar_comm (zVel γ L 1), ln_comm (zLast γ L), divLn_comm (zFirst γ L)]
  refine Prod.ext ?_ rfl
  simp only []
  by_cases h : L = R
  · subst h
    simp
  · rw [if_neg h, if_neg (Ne.symm h)]
    generalize (1.0 : ℝ) = one
    fin_cases d
    · replace hd : ε 0 = -1 := hd
      simp only [Fin.zero_eta, if_true]
      rw [signed_mk]
      rcases hε 1 with e | e <;> simp only [hd, e, one_mul, neg_mul, divLn_neg]
      all_goals
        refine Prod.ext ?_ (Prod.ext (funext fun i => ?_) ?_)
        · simp
        · fin_cases i <;> simp [hd, e] <;> ring
        · simp only [Prod.snd_neg]
          ring
    · replace hd : ε 1 = -1 := hd
      simp only [Fin.mk_one, one_ne_zero, if_false]
      rw [signed_mk]
      rcases hε 0 with e | e <;> simp only [hd, e, one_mul, neg_mul, divLn_neg]
      all_goals
        refine Prod.ext ?_ (Prod.ext (funext fun i => ?_) ?_)
        · simp
        · fin_cases i <;> simp [hd, e] <;> ring
        · simp only [Prod.snd_neg]
          ring

theorem tecno3_keeps (ε : Fin 3 → ℝ) (hε : Signs ε) (d : Fin 3) (hd : ε d = 1) : Keeps (tecno1 3 γ) ε 1 d := by
  intro L R
  simp only [tecno1, tecno3D, tecnoSpeed_keep hε d hd, signed_inj hε, zFirst_signed hε, zLast_signed hε, zVel_signed hε, Equiv.Perm.coe_one, id, bar_mul, flux_signed hε, hd, one_smul]
  refine Prod.ext ?_ rfl
  simp only []
  by_cases h : L = R
  · rw [if_pos h, if_pos h]
  · rw [if_neg h, if_neg h]
    generalize (1.0 : ℝ) = one
    fin_cases d
    · replace hd : ε 0 = 1 := hd
      simp only [Fin.zero_eta, if_true]
      rw [signed_mk]
      rcases hε 1 with e | e <;> simp only [hd, e, one_mul, neg_mul]
      all_goals
        refine Prod.ext ?_ (Prod.ext (funext fun i => ?_) ?_)
        · simp
        · fin_cases i <;> simp [hd, e] <;> ring
        · first
          | rfl
          | ring
    · replace hd : ε 1 = 1 := hd
      simp only [Fin.mk_one, one_ne_zero, if_true, if_false]
      rw [signed_mk]
      rcases hε 0 with e | e <;> simp only [hd, e, one_mul, neg_mul]
      all_goals
        refine Prod.ext ?_ (Prod.ext (funext fun i => ?_) ?_)
        · simp
        · fin_cases i <;> simp [hd, e] <;> ring
        · first
          | rfl
          | ring
    · replace hd : ε 2 = 1 := hd
      simp [map_zero]

theorem tecno3_flips (ε : Fin 3 → ℝ) (hε : Signs ε) (d : Fin 3) (hd : ε d = -1) : Flips (tecno1 3 γ) ε 1 d := by
  intro L R
  simp only [tecno1, tecno3D, tecnoSpeed_flip hε d hd, signed_inj hε, zFirst_signed hε, zLast_signed hε, zVel_signed hε, Equiv.Perm.coe_one, id, bar_mul, flux_signed hε, hd,
    bar_comm (zFirst γ L), bar_comm (zLast γ L), bar_comm (zVel γ L 0), bar_comm (zVel γ L 1), ln_comm (zLast γ L), divLn_comm (zFirst γ L)]
  refine Prod.ext ?_ rfl
  simp only []
  by_cases h : L = R
  · subst h
    simp
  · rw [if_neg h, if_neg (Ne.symm h)]
    generalize (1.0 : ℝ) = one
    fin_cases d
    · replace hd : ε 0 = -1 := hd
      simp only [Fin.zero_eta, if_true]
      rw [signed_mk]
      rcases hε 1 with e | e <;> simp only [hd, e, one_mul, neg_mul, divLn_neg]
      all_goals
        refine Prod.ext ?_ (Prod.ext (funext fun i => ?_) ?_)
        · simp
        · fin_cases i <;> simp [hd, e] <;> ring
        · simp only [Prod.snd_neg]
          ring
    · replace hd : ε 1 = -1 := hd
      simp only [Fin.mk_one, one_ne_zero, if_true, if_false]
      rw [signed_mk]
      rcases hε 0 with e | e <;> simp only [hd, e, one_mul, neg_mul, divLn_neg]
      all_goals
        refine Prod.ext ?_ (Prod.ext (funext fun i => ?_) ?_)
        · simp
        · fin_cases i <;> simp [hd, e] <;> ring
        · simp only [Prod.snd_neg]
          ring
    · replace hd : ε 2 = -1 := hd
      simp [map_zero]

theorem tecno2_swaps (d : Fin 2) : Keeps (tecno1 2 γ) (fun _ => 1) (Equiv.swap 0 1) d := by
  have hε : Signs (fun _ : Fin 2 => (1 : ℝ)) := fun _ => Or.inl rfl
  intro L R
  simp only [tecno1, tecno2D, tecnoSpeed_keep hε d rfl, signed_inj hε, zFirst_signed hε, zLast_signed hε, zVel_signed hε, Equiv.swap_apply_left, Equiv.swap_apply_right, one_mul, flux_signed hε, one_smul]
  refine Prod.ext ?_ rfl
  simp only []
  by_cases h : L = R
  · rw [if_pos h, if_pos h]
  · rw [if_neg h, if_neg h]
    generalize (1.0 : ℝ) = one
    fin_cases d
    · simp only [Fin.zero_eta, if_true, Equiv.swap_apply_left, one_ne_zero, if_false]
      rw [signed_mk]
      refine Prod.ext rfl (Prod.ext (funext fun i => ?_) ?_)
      · fin_cases i <;> simp
      · simp only []
        ring
    · simp only [Fin.mk_one, if_true, Equiv.swap_apply_right, one_ne_zero, if_false]
      rw [signed_mk]
      refine Prod.ext rfl (Prod.ext (funext fun i => ?_) ?_)
      · fin_cases i <;> simp
      · simp only []
        ring

/-! ### WENOF2 -/

/-- The primitive variables under the map of the momentum. -/
def primSigned (ε : Fin m → ℝ) (τ : Equiv.Perm (Fin m)) (P : Prim m) : Prim m := ⟨P.rho, fun i => ε i * P.u (τ i), P.p⟩

theorem toPrim_signed (hε : Signs ε) (τ : Equiv.Perm (Fin m)) (γ : ℝ) (U : Cons m) : toPrim γ (signed ε τ U) = primSigned ε τ (toPrim γ U) := by
  refine Prim.ext rfl (funext fun i => ?_) ?_
  · exact velocity_signed ε τ U i
  · exact pressure_signed hε τ γ U

theorem toCons_signed (hε : Signs ε) (τ : Equiv.Perm (Fin m)) (γ : ℝ) (P : Prim m) : toCons γ (primSigned ε τ P) = signed ε τ (toCons γ P) := by
  refine Prod.ext rfl (Prod.ext (funext fun i => ?_) ?_)
  · show P.rho * (ε i * P.u (τ i)) = ε i * (P.rho * P.u (τ i))
    ring
  · show P.p / (γ - 1) + 0.5 * P.rho * dot (fun i => ε i * P.u (τ i)) (fun i => ε i * P.u (τ i)) = P.p / (γ - 1) + 0.5 * P.rho * dot P.u P.u
    rw [dot_signed hε]

theorem slopeF_signed (w : ℝ × ℝ) (l c r : Prim m) : Weno.slopeF w (primSigned ε τ l) (primSigned ε τ c) (primSigned ε τ r) = primSigned ε τ (Weno.slopeF w l c r) := by
  refine Prim.ext rfl (funext fun i => ?_) rfl
  simp only [Weno.slopeF, primSigned]
  ring

theorem scaleF_signed (hε : Signs ε) (c d : Prim m) : Weno.scaleF γ (primSigned ε τ c) (primSigned ε τ d) = Weno.scaleF γ c d := by
  simp only [Weno.scaleF, primSigned, dot_signed hε]

theorem wenoF2_signed (hε : Signs ε) (l c r : Cons m) :
    Weno.wenoF2 γ (signed ε τ l) (signed ε τ c) (signed ε τ r) = (signed ε τ (Weno.wenoF2 γ l c r).1, signed ε τ (Weno.wenoF2 γ l c r).2) := by
  simp only [Weno.wenoF2, toPrim_signed hε, slopeF_signed, scaleF_signed hε, Cons.rho, rho_signed, ← toCons_signed hε]
  refine Prod.ext ?_ ?_ <;> simp only [] <;> congr 1 <;> refine Prim.ext rfl (funext fun i => ?_) rfl <;> simp only [primSigned] <;> ring

theorem wenoF2_keep (hε : Signs ε) (τ : Equiv.Perm (Fin m)) (d e : Nat) : ReconKeep (Weno.wenoF2Recon γ) (signed ε τ) d e :=
  line_keep (Weno.wenoF2_local γ).1 (Weno.wenoF2_local γ).2 (fun f => by rw [wenoF2_signed hε]) (fun f => by rw [wenoF2_signed hε]) d e

end

/-! ### Schemes for the Euler equations -/

section
open Euler EulerFlux
variable {m : Nat} {γ : ℝ}

/-- The reconstructions of the conserved variables that are symmetric; the weights are taken from the density. -/
inductive EulerEven (m : Nat) : Recon (Cons m) → Prop where
  | none : EulerEven m CudaRecon.noRecon
  | line {r : Recon (Eno.Vec (m + 2))} : Even 0 r → EulerEven m (via (eulerVec m) r)

theorem eulerEven_keep {r : Recon (Cons m)} (h : EulerEven m r) {ε : Fin m → ℝ} (hε : Signs ε) (τ : Equiv.Perm (Fin m)) (d e : Nat) : ReconKeep r (signed ε τ) d e := by
  cases h with
  | none => exact none_keep _ d e
  | line h => exact via_keep (signed_vec ε τ) (even_keep h (signs_vec hε) rfl d e)

theorem eulerEven_flip {r : Recon (Cons m)} (h : EulerEven m r) {ε : Fin m → ℝ} (hε : Signs ε) (τ : Equiv.Perm (Fin m)) (d e : Nat) : ReconFlip r (signed ε τ) d e := by
  cases h with
  | none => exact none_flip _ d e
  | line h => exact via_flip (signed_vec ε τ) (even_flip h (signs_vec hε) rfl d e)

theorem euler_eno_keep {k : Nat} (h2 : 2 ≤ k) (h4 : k ≤ 4) (ε : Fin m → ℝ) (τ : Equiv.Perm (Fin m)) (d e : Nat) : ReconKeep (via (eulerVec m) (Weno.enoRecon k 0)) (signed ε τ) d e :=
  via_keep (signed_vec ε τ) (eno_keep h2 h4 rfl rfl d e)

/-- A flux for the directions of the equation as a flux for all directions. -/
def lift (F : Fin m → Cons m → Cons m → Cons m × ℝ) (d : Nat) (L R : Cons m) : Cons m × ℝ := if h : d < m then F ⟨d, h⟩ L R else 0

/-- The signs of a reflection. -/
def mirrorSigns (m : Nat) (M : Nat → Bool) (i : Fin m) : ℝ := if M i then -1 else 1

theorem mirrorSigns_ok (m : Nat) (M : Nat → Bool) : Signs (mirrorSigns m M) := fun i => by
  unfold mirrorSigns
  split_ifs
  · exact Or.inr rfl
  · exact Or.inl rfl

theorem mirror_fair {r : Recon (Cons m)} (hr : EulerEven m r) {F : Fin m → Cons m → Cons m → Cons m × ℝ} (M : Nat → Bool)
    (hk : ∀ d, mirrorSigns m M d = 1 → Keeps F (mirrorSigns m M) 1 d) (hf : ∀ d, mirrorSigns m M d = -1 → Flips F (mirrorSigns m M) 1 d) {dims : Nat} (hd : dims ≤ m) :
    Fair r (EulerRun.twoPoint (lift F)) (signed (mirrorSigns m M) 1) dims id M := by
  refine fair_of (fun d hd' => ?_) (fun d hd' => ?_)
  · split_ifs
    · exact eulerEven_flip hr (mirrorSigns_ok m M) 1 d d
    · exact eulerEven_keep hr (mirrorSigns_ok m M) 1 d d
  · have h1 : d < m := by omega
    split_ifs with h
    · intro L R
      simp only [lift, dif_pos h1, id]
      exact hf ⟨d, h1⟩ (if_pos h) L R
    · intro L R
      simp only [lift, dif_pos h1, id]
      exact hk ⟨d, h1⟩ (if_neg h) L R

theorem swap_exch {i j d : Nat} (hi : i < m) (hj : j < m) (hd : d < m) (he : exch i j d < m) : Equiv.swap (⟨i, hi⟩ : Fin m) ⟨j, hj⟩ ⟨d, hd⟩ = ⟨exch i j d, he⟩ := by
  rw [Equiv.swap_apply_def]
  simp only [Fin.mk.injEq, exch]
  split_ifs <;> rfl

theorem exchange_fair {r : Recon (Cons m)} {i j : Nat} (hi : i < m) (hj : j < m) (hr : ∀ d e, ReconKeep r (signed (fun _ => 1) (Equiv.swap (⟨i, hi⟩ : Fin m) ⟨j, hj⟩)) d e)
    {F : Fin m → Cons m → Cons m → Cons m × ℝ} (hF : ∀ d, Keeps F (fun _ => 1) (Equiv.swap (⟨i, hi⟩ : Fin m) ⟨j, hj⟩) d) {dims : Nat} (hd : dims ≤ m) :
    Fair r (EulerRun.twoPoint (lift F)) (signed (fun _ => 1) (Equiv.swap (⟨i, hi⟩ : Fin m) ⟨j, hj⟩)) dims (exch i j) (fun _ => false) := by
  refine fair_of (fun d hd' => ?_) (fun d hd' => ?_)
  · rw [if_neg (by simp)]
    exact hr d _
  · rw [if_neg (by simp)]
    have h1 : d < m := by omega
    have h2 : exch i j d < m := (exch_lt hi hj d).2 h1
    intro L R
    simp only [lift, dif_pos h1, dif_pos h2, ← swap_exch hi hj h1 h2]
    exact hF ⟨d, h1⟩ L R

end

/-! ### Schemes for Burgers' equation -/

section

/-- The change of sign. -/
def opposite : ℝ →ₗ[ℝ] ℝ := -LinearMap.id

theorem opposite_vec (x : ℝ) : scalarVec (opposite x) = mixed (fun _ => -1) id (scalarVec x) := by
  funext i
  simp [scalarVec, opposite, mixed]

/-- The reconstructions of a single variable that are symmetric. -/
inductive ScalarEven : Recon ℝ → Prop where
  | none : ScalarEven CudaRecon.noRecon
  | line {r : Recon (Eno.Vec 1)} : Even 0 r → ScalarEven (via scalarVec r)

theorem scalarEven_flip {r : Recon ℝ} (h : ScalarEven r) (d e : Nat) : ReconFlip r opposite d e := by
  cases h with
  | none => exact none_flip _ d e
  | line h => exact via_flip opposite_vec (even_flip h (fun _ => Or.inr rfl) rfl d e)

/-- A flux for Burgers' equation that does not distinguish left and right. -/
def Unhanded (F : ℝ → ℝ → ℝ × ℝ) : Prop := ∀ l r, F (-r) (-l) = F l r

theorem burgers_speed (l r : ℝ) : Flux.twoPointSpeed Flux.burgers (-r) (-l) = Flux.twoPointSpeed Flux.burgers l r := by
  simp only [Flux.twoPointSpeed, Flux.burgers, abs_neg, max_comm]

theorem burgers_flux (u : ℝ) : Flux.burgers.flux (-u) = Flux.burgers.flux u := by simp only [Flux.burgers]; ring

theorem unhanded_central : Unhanded (Flux.central Flux.burgers) := fun l r => by
  simp only [Flux.central, burgers_speed, burgers_flux, add_comm]

theorem unhanded_rusanov : Unhanded (Flux.rusanov Flux.burgers) := fun l r => by
  simp only [Flux.rusanov, burgers_speed, burgers_flux]
  refine Prod.ext ?_ rfl
  simp only [Flux.burgers, abs_neg, max_comm |r|]
  ring

theorem max_neg_zero (a : ℝ) : max (-a) 0 = -min a 0 := by rw [← neg_zero, max_neg_neg, neg_zero]
theorem min_neg_zero (a : ℝ) : min (-a) 0 = -max a 0 := by rw [← neg_zero, min_neg_neg, neg_zero]

theorem unhanded_godunov : Unhanded (Flux.godunov Flux.burgers) := fun l r => by
  simp only [Flux.godunov, burgers_speed, max_neg_zero, min_neg_zero, burgers_flux, max_comm]

theorem unhanded_roe : Unhanded Flux.burgersRoe := fun l r => by
  simp only [Flux.burgersRoe, burgers_speed, max_neg_zero, min_neg_zero, burgers_flux, neg_neg]
  refine Prod.ext ?_ rfl
  simp only []
  rcases lt_trichotomy l (-r) with h | h | h
  · rw [if_pos (by linarith), if_neg (by linarith)]
  · rw [if_pos (by linarith), if_pos (by linarith), h, max_neg_zero, burgers_flux]
  · rw [if_neg (by linarith), if_pos (by linarith)]

theorem burgers_fair {r : Recon ℝ} (hr : ScalarEven r) {F : ℝ → ℝ → ℝ × ℝ} (hF : Unhanded F) (dims : Nat) : Fair r (ScalarRun.twoPoint F) opposite dims id (fun _ => true) := by
  refine fair_of (F := fun _ => F) (fun d _ => ?_) (fun d _ => ?_)
  · rw [if_pos rfl]
    exact scalarEven_flip hr d d
  · rw [if_pos rfl]
    intro l r
    simp [opposite, hF l r]

end

end Symmetry
end Verif
