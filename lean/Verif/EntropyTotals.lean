import Verif.EulerRun
import Verif.DiffusionTotals
import Verif.Props.Flux
import Verif.Props.EulerFlux
import Verif.Props.Diffusion

/-!
Model of the TeCNO schemes as the solver assembles them (numerical fluxes `tecno1`, `tecno4`, `tecno6` of Burgers' equation and of the Euler equations on state vectors,
`ConservedSystem` with a diffusion operator) and the helper lemmas for C89.
-/

namespace Verif
namespace TecnoScheme
open NetFlux Diffusion EulerRun
open Verif.Props (PeriodicIn SizedState FaceLocal SignProperty)

variable {N : Nat}

/-! ### Model -/

/-- The two-point flux behind `tecno1`, `tecno4` and `tecno6` of Burgers' equation (alsfvm/include/alsfvm/numflux/ScalarEntropyConservativeFlux.hpp:39-59, see `Verif.Flux`) on states with one
component. -/
noncomputable def burgersBase : Nat → Vec 1 → Vec 1 → Vec 1 × ℝ := fun _ l r =>
  (fun _ => (Flux.entropyConservative Flux.burgers (l 0) (r 0)).1, (Flux.entropyConservative Flux.burgers (l 0) (r 0)).2)

/-- The components of a state of the one dimensional Euler equations, in the order of the volumes (alsfvm/include/alsfvm/equation/euler/ConservedVariables.hpp:30-120). -/
def toVec1 (U : Euler.Cons 1) : Vec 3 := ![U.1, U.2.1 0, U.2.2]
/-- as above, two dimensions -/
def toVec2 (U : Euler.Cons 2) : Vec 4 := ![U.1, U.2.1 0, U.2.1 1, U.2.2]

/-- `euler::Tecno1<1>` (alsfvm/include/alsfvm/numflux/euler/Tecno1.hpp:40-110, see `Verif.EulerFlux` for the exact lines) on state vectors. -/
noncomputable def euler1Base (γ : ℝ) : Nat → Vec 3 → Vec 3 → Vec 3 × ℝ := fun _ l r =>
  (toVec1 (EulerFlux.tecno1 1 γ 0 (Euler.ofVec1 l) (Euler.ofVec1 r)).1, (EulerFlux.tecno1 1 γ 0 (Euler.ofVec1 l) (Euler.ofVec1 r)).2)

/-- `euler::Tecno1<2>` on state vectors; the directions are 0 and 1. -/
noncomputable def euler2Base (γ : ℝ) : Nat → Vec 4 → Vec 4 → Vec 4 × ℝ := fun d l r =>
  if h : d < 2 then (toVec2 (EulerFlux.tecno1 2 γ ⟨d, h⟩ (Euler.ofVec2 l) (Euler.ofVec2 r)).1, (EulerFlux.tecno1 2 γ ⟨d, h⟩ (Euler.ofVec2 l) (Euler.ofVec2 r)).2) else 0

/-- The two dimensional Euler equations as the diffusion operator sees them (alsfvm/include/alsfvm/equation/euler/Euler.hpp, see `Verif.Euler`). -/
noncomputable def euler2 (γ : ℝ) : Equation 4 where
  eigMat d U := if h : d < 2 then Euler.eigenVectors2 γ ⟨d, h⟩ (Euler.ofVec2 U) else 0
  eigVal d U := if h : d < 2 then Euler.eigenValues2 γ ⟨d, h⟩ (Euler.ofVec2 U) else 0
  entVar U := toVec2 (Euler.entropyVariables γ (Euler.ofVec2 U))

/-- A four-point flux as the solver calls it (numflux_util.hpp:96-116): it takes the left values at the stencil (TecnoCombined4.hpp:41-71). -/
noncomputable def fourPoint (F : Nat → Vec N → Vec N → Vec N × ℝ) : FluxFn (Vec N) ℝ :=
  ⟨Flux.stencil4, [], fun d l _ => match l with | [a, b, c, e] => Flux.combined4 (F d) a b c e | _ => 0⟩

/-- A six-point flux as the solver calls it (numflux_util.hpp:120-142, TecnoCombined6.hpp:41-75). -/
noncomputable def sixPoint (F : Nat → Vec N → Vec N → Vec N × ℝ) : FluxFn (Vec N) ℝ :=
  ⟨Flux.stencil6, [], fun d l _ => match l with | [a, b, c, e, f, g] => Flux.combined6 (F d) a b c e f g | _ => 0⟩

/-- `ConservedSystem::operator()` with a diffusion operator (alsfvm/src/simulator/ConservedSystem.cpp:31-103, the call of the operator in line 102): the operator adds to the output of the
numerical flux. `dwork` are the work volumes of the operator, left over from earlier calls. -/
noncomputable def diffusiveSystem (eq : Equation N) (k : Kind) (rec : TecnoRec N) (dims : Nat) (fl : FluxFn (Vec N) ℝ) (n G active : I3) (work : NetFlux.State (Vec N) ℝ)
    (dwork : Diffusion.State N) : Integrator.System (I3 → Vec N) ℝ := fun u out => do
  let s ← Step.cpuSystem dims CudaRecon.noRecon fl n G active work u out
  let t ← applyDiffusion eq k rec dims n (field n u) { dwork with out := field n s.2.1 }
  pure (u, t.out.val, s.2.2)

/-! ### Lemmas -/

theorem total_shift {n G : I3} (hpos : ∀ e < 3, 0 ≤ G.get e ∧ G.get e ≤ n.get e - G.get e) {d : Nat} (hd : d < 3) (H : I3 → ℝ) (k : Nat)
    (hH : ∀ j < k, ∀ q, q.get d = G.get d - 1 - j → (∀ e < 3, e ≠ d → G.get e ≤ q.get e ∧ q.get e < n.get e - G.get e) →
      H q = H (q + step d (n.get d - 2 * G.get d))) :
    total n G (fun p => H (p - step d k) - H p) = 0 := by
  have hb : G.x ≤ n.x - G.x ∧ G.y ≤ n.y - G.y ∧ G.z ≤ n.z - G.z := by
    have h0 := hpos 0 (by decide); have h1 := hpos 1 (by decide); have h2 := hpos 2 (by decide)
    simp [I3.get] at h0 h1 h2
    omega
  induction k with
  | zero =>
    have e : ∀ p : I3, p - step d ((0 : Nat) : Int) = p := fun p => by ext <;> simp [step]
    simp only [total, e, sub_self, Finset.sum_const_zero]
  | succ k ih =>
    have e : ∀ p : I3, H (p - step d ((k + 1 : Nat) : Int)) - H p = (H (p - I3.dir d - step d k) - H (p - step d k)) + (H (p - step d k) - H p) := by
      intro p
      have : p - step d ((k + 1 : Nat) : Int) = p - I3.dir d - step d k := by
        rw [dir_eq_step]
        ext <;> simp only [I3.sub_x, I3.sub_y, I3.sub_z, step] <;> push_cast <;> split_ifs <;> ring
      rw [this]; ring
    simp only [e]
    rw [total_add, ih fun j hj => hH j (by omega), add_zero, total_difference hb hd (fun q => H (q - step d k)), netInflow_eq_zero hd]
    intro q hq hq'
    obtain ⟨g1, g2⟩ := get_geom hd q (-(k : Int))
    rw [sub_step, hH k (by omega) _ (by rw [g1, hq]; ring) (fun e he hne => by rw [g2 e he hne]; exact hq' e he hne), sub_step]
    congr 1
    ext <;> simp only [I3.add_x, I3.add_y, I3.add_z] <;> ring

/-- An entropy conservative flux between cells `k` apart does not contribute to the total entropy. -/
theorem total_pairs {n G : I3} (hpos : ∀ e < 3, 0 ≤ G.get e ∧ G.get e ≤ n.get e - G.get e) {d : Nat} (hd : d < 3) {k : Nat} (hk : (k : Int) ≤ G.get d)
    {u : I3 → Vec N} (hper : PeriodicIn n G d u) {v : Vec N → Vec N} {ψ : Vec N → ℝ} {T : Vec N → Vec N → Vec N} {ok : Vec N → Prop}
    (hok : ∀ p, inSize n p = true → ok (u p)) (hid : ∀ l r, ok l → ok r → (v r - v l) ⬝ᵥ T l r = ψ r - ψ l) :
    total n G (fun p => v (u p) ⬝ᵥ (T (u (p - step d k)) (u p) - T (u p) (u (p + step d k)))) = 0 := by
  set H : I3 → ℝ := fun q => v (u (q + step d k)) ⬝ᵥ T (u q) (u (q + step d k)) - ψ (u (q + step d k)) with hH
  have e : total n G (fun p => v (u p) ⬝ᵥ (T (u (p - step d k)) (u p) - T (u p) (u (p + step d k)))) = total n G (fun p => H (p - step d k) - H p) := by
    refine total_congr fun p hp => ?_
    have e1 : p - step d k + step d k = p := by ext <;> simp
    have hin : ∀ q : I3, (∀ e < 3, 0 ≤ q.get e ∧ q.get e < n.get e) → inSize n q = true := fun q h => by rw [inSize_get]; exact h
    have i1 : inSize n p = true := hin p fun e he => by have := hp e he; have := hpos e he; omega
    have i2 : inSize n (p + step d k) = true := hin _ fun e he => by
      have h1 := hp e he; have h2 := hpos e he
      by_cases hne : e = d
      · subst hne; rw [(get_geom hd p _).1]; omega
      · rw [(get_geom hd p _).2 e he hne]; omega
    have := hid _ _ (hok _ i1) (hok _ i2)
    simp only [hH, e1, dotProduct_sub, sub_dotProduct] at this ⊢
    linarith
  rw [e]
  refine total_shift hpos hd H k fun j hj q hq hq' => ?_
  have hcell : ∀ o : Int, 0 ≤ o → o ≤ k → u (q + step d (n.get d - 2 * G.get d) + step d o) = u (q + step d o) := by
    intro o h1 h2
    have e : q + step d (n.get d - 2 * G.get d) + step d o = (q + step d o) + step d (n.get d - 2 * G.get d) := by
      ext <;> simp only [I3.add_x, I3.add_y, I3.add_z] <;> ring
    rw [e]
    have hp0 := hpos d hd
    refine hper _ ?_ ?_ <;> rw [inSize_get] <;> intro e he <;> have hpe := hpos e he <;> by_cases hne : e = d
    · subst hne; rw [(get_geom hd q o).1]; omega
    · rw [(get_geom hd q o).2 e he hne]; have := hq' e he hne; omega
    · subst hne; rw [(get_geom hd _ _).1, (get_geom hd _ _).1]; omega
    · rw [(get_geom hd _ _).2 e he hne, (get_geom hd _ _).2 e he hne]; have := hq' e he hne; omega
  have e0 : ∀ p : I3, p + step d 0 = p := fun p => by ext <;> simp [step]
  have h0 := hcell 0 (le_refl 0) (by omega)
  have hk := hcell k (by omega) (le_refl _)
  rw [e0, e0] at h0
  simp only [hH, h0, hk]

theorem fits4 (F : Nat → Vec N → Vec N → Vec N × ℝ) {g : Nat} (hg : 2 ≤ g) : Fits CudaRecon.noRecon (fourPoint F) g where
  k_pos := le_refl 1
  k_le := by simp [CudaRecon.noRecon]; omega
  offs_abs := by simp [CudaRecon.noRecon]
  whole_zero := by simp [CudaRecon.noRecon]
  fl_offs := by simp [fourPoint, Flux.stencil4]; omega
  fl_near := by simp [CudaRecon.noRecon]

theorem face4 (F : Nat → Vec N → Vec N → Vec N × ℝ) (u : I3 → Vec N) (d : Nat) (q : I3) :
    face CudaRecon.noRecon (fourPoint F) u d q = Flux.combined4 (F d) (u (q - step d 1)) (u q) (u (q + step d 1)) (u (q + step d 2)) := by
  have e0 : ∀ p : I3, p + step d 0 = p := fun p => by ext <;> simp [step]
  have e1 : q + step d (-1) = q - step d 1 := by rw [sub_step]
  simp [face, CudaRecon.noRecon, fourPoint, Flux.stencil4, Recon.lval, e0, e1]

/-- What the entropy conservative flux of an equation has to satisfy. -/
structure Conserves (dims : Nat) (F : Nat → Vec N → Vec N → Vec N × ℝ) (v : Vec N → Vec N) (ok : Vec N → Prop) : Prop where
  ex : ∃ ψ : Nat → Vec N → ℝ, ∀ d < dims, ∀ l r, ok l → ok r → (v r - v l) ⬝ᵥ (F d l r).1 = ψ d r - ψ d l

/-- The fluxes treated: the two-point flux and the four-point combination, with the ghost cells they need. -/
inductive IsFlux (F : Nat → Vec N → Vec N → Vec N × ℝ) (g : Nat) : FluxFn (Vec N) ℝ → Prop
  | two : 1 ≤ g → IsFlux F g (twoPoint F)
  | four : 2 ≤ g → IsFlux F g (fourPoint F)

theorem IsFlux.fits {F : Nat → Vec N → Vec N → Vec N × ℝ} {g : Nat} {fl : FluxFn (Vec N) ℝ} (h : IsFlux F g fl) : Fits CudaRecon.noRecon fl g := by
  cases h with
  | two h => exact EulerRun.fits F h
  | four h => exact fits4 F h

theorem layout_pos {n G active : I3} {dims g : Nat} (hL : Layout n G active dims g) : ∀ e < 3, 0 ≤ G.get e ∧ G.get e ≤ n.get e - G.get e := by
  intro e he
  have h1 := hL.gst e he; have h2 := hL.size e he
  split_ifs at h1 <;> omega

theorem total_smul (n G : I3) (c : ℝ) (f : I3 → ℝ) : total n G (fun p => c * f p) = c * total n G f := by
  simp only [total, Finset.mul_sum]

theorem net_conserves {n G active : I3} {dims g : Nat} (hL : Layout n G active dims g) {F : Nat → Vec N → Vec N → Vec N × ℝ} {v : Vec N → Vec N} {ok : Vec N → Prop}
    (hc : Conserves dims F v ok) {fl : FluxFn (Vec N) ℝ} (hfl : IsFlux F g fl) {u : I3 → Vec N} (hper : ∀ d < dims, PeriodicIn n G d u)
    (hok : ∀ p, inSize n p = true → ok (u p)) :
    total n G (fun p => v (u p) ⬝ᵥ net dims CudaRecon.noRecon fl u p) = 0 := by
  obtain ⟨ψ, hψ⟩ := hc
  have hpos := layout_pos hL
  have e : total n G (fun p => v (u p) ⬝ᵥ net dims CudaRecon.noRecon fl u p) =
      total n G (fun p => ((List.range dims).map fun d => v (u p) ⬝ᵥ ((face CudaRecon.noRecon fl u d (p - I3.dir d)).1 - (face CudaRecon.noRecon fl u d p).1)).sum) := by
    refine total_congr fun p _ => ?_
    change v (u p) ⬝ᵥ ((List.range dims).map fun d => (face CudaRecon.noRecon fl u d (p - I3.dir d)).1 - (face CudaRecon.noRecon fl u d p).1).sum = _
    induction (List.range dims) with
    | nil => simp
    | cons a l ih => simp only [List.map_cons, List.sum_cons, dotProduct_add, ih]
  rw [e, total_list_sum (f := fun d p => v (u p) ⬝ᵥ ((face CudaRecon.noRecon fl u d (p - I3.dir d)).1 - (face CudaRecon.noRecon fl u d p).1))]
  refine List.sum_eq_zero fun x hx => ?_
  obtain ⟨d, hd, rfl⟩ := List.mem_map.1 hx
  have hdd : d < dims := by simpa using hd
  have hdl := hL.dims_le
  have hd3 : d < 3 := by omega
  have hGd : G.get d = g := by rw [hL.gst d hd3, if_pos hdd]
  have key := fun k (hk : k ≤ g) => total_pairs (k := k) hpos hd3 (by rw [hGd]; exact_mod_cast hk) (hper d hdd) (T := fun l r => (F d l r).1) hok (hψ d hdd)
  have back : ∀ p : I3, p - step d 1 + step d 1 = p := fun p => by ext <;> simp
  have back2 : ∀ p : I3, p - step d 1 + step d 2 = p + step d 1 := fun p => by rw [sub_step]; ext <;> simp [step] <;> split_ifs <;> ring
  have back3 : ∀ p : I3, p - step d 1 - step d 1 = p - step d 2 := fun p => by ext <;> simp [step] <;> split_ifs <;> ring
  cases hfl with
  | two h =>
    have := key 1 h
    simp only [face_eq F u hd3, dir_eq_step, back]
    simpa using this
  | four h =>
    have k1 := key 1 (by omega)
    have k2 := key 2 h
    simp only [face4 F u d, dir_eq_step, back, back2, back3, Flux.combined4]
    have e2 : (fun p => v (u p) ⬝ᵥ ((4 / 3 : ℝ) • (F d (u (p - step d 1)) (u p)).1 - (1 / 6 : ℝ) • ((F d (u (p - step d 2)) (u p)).1 + (F d (u (p - step d 1)) (u (p + step d 1))).1) -
        ((4 / 3 : ℝ) • (F d (u p) (u (p + step d 1))).1 - (1 / 6 : ℝ) • ((F d (u (p - step d 1)) (u (p + step d 1))).1 + (F d (u p) (u (p + step d 2))).1)))) =
        fun p => 4 / 3 * (v (u p) ⬝ᵥ ((F d (u (p - step d 1)) (u p)).1 - (F d (u p) (u (p + step d 1))).1)) +
          (-1 / 6) * (v (u p) ⬝ᵥ ((F d (u (p - step d 2)) (u p)).1 - (F d (u p) (u (p + step d 2))).1)) := by
      funext p
      simp only [dotProduct_sub, dotProduct_add, dotProduct_smul, smul_eq_mul]
      ring
    rw [e2, total_add, total_smul, total_smul]
    simp only [Nat.cast_one, Nat.cast_ofNat] at k1 k2
    rw [k1, k2]; ring

/-- Volumes whose ghost cells are those of the periodic boundary condition repeat with the period of the interior. -/
theorem periodic_of_ready {V : Type} [AddCommGroup V] {n G active : I3} {dims g : Nat} (hL : Layout n G active dims g) {u : I3 → V}
    (hr : Step.Ready .periodic n G g dims u) {d : Nat} (hd : d < dims) (p : I3) (hp : inSize n p = true) (hp' : inSize n (p + step d (n.get d - 2 * G.get d)) = true) :
    u (p + step d (n.get d - 2 * G.get d)) = u p := by
  obtain ⟨w, hw⟩ := hr
  have hdl := hL.dims_le
  have hd3 : d < 3 := by omega
  rw [hw _ hp, hw _ hp']
  unfold Step.extend
  have e : Boundary.ghostSource .periodic g (n - G - G) dims (fun _ => false) (p + step d (n.get d - 2 * G.get d)) =
      Boundary.ghostSource .periodic g (n - G - G) dims (fun _ => false) p := by
    have key : ∀ e < 3, e < dims → Boundary.image .periodic g ((n - G - G).get e) ((p + step d (n.get d - 2 * G.get d)).get e) =
        Boundary.image .periodic g ((n - G - G).get e) (p.get e) := by
      intro e he _
      by_cases hne : e = d
      · subst hne
        rw [(get_geom hd3 p _).1]
        have : (n - G - G).get e = n.get e - 2 * G.get e := by unfold I3.get; split_ifs <;> simp <;> ring
        rw [this]
        exact Boundary.wrap_add_period
      · rw [(get_geom hd3 p _).2 e he hne]
    have other : ∀ e < 3, ¬ e < dims → (p + step d (n.get d - 2 * G.get d)).get e = p.get e := fun e he h => (get_geom hd3 p _).2 e he (by omega)
    have k0 := key 0 (by decide); have k1 := key 1 (by decide); have k2 := key 2 (by decide)
    have o0 := other 0 (by decide); have o1 := other 1 (by decide); have o2 := other 2 (by decide)
    clear key other hp' hp hw
    generalize p + step d (n.get d - 2 * G.get d) = q at *
    simp only [I3.get, if_true, if_false, one_ne_zero, OfNat.ofNat_ne_zero, OfNat.ofNat_ne_one] at k0 k1 k2 o0 o1 o2
    ext <;> simp only [Boundary.ghostSource, Boundary.imageDir] <;> split_ifs with h h' <;> simp_all
  rw [e]

theorem total_hasDerivAt {n G : I3} {f : I3 → ℝ → ℝ} {f' : I3 → ℝ} {t : ℝ} (h : ∀ p, IsInterior n G p → HasDerivAt (f p) (f' p) t) :
    HasDerivAt (fun t => total n G fun p => f p t) (total n G f') t := by
  unfold total
  refine HasDerivAt.fun_sum fun z hz => HasDerivAt.fun_sum fun y hy => HasDerivAt.fun_sum fun x hx => h _ ?_
  simp only [Finset.mem_Ico] at hx hy hz
  intro d hd
  interval_cases d <;> simp [I3.get] <;> omega

/-- All directions of the diffusion operator together. -/
theorem diffusion_dissipates (eq : Equation N) (k : Kind) (rec : TecnoRec N) {dims r : Nat} (hdims : dims ≤ 3) (hrec : ∀ d < dims, FaceLocal rec d r ∧ SignProperty rec d r) {n G : I3}
    (hG : ∀ d < dims, (r : Int) + 2 ≤ G.get d) (hpos : ∀ e < 3, 0 ≤ G.get e ∧ G.get e ≤ n.get e - G.get e) {u : Arr I3 (Vec N)} (hu : u.inb = inSize n)
    (hper : ∀ d < dims, PeriodicIn n G d u.val) {s : Diffusion.State N} (hs : SizedState n s) :
    ∃ s', applyDiffusion eq k rec dims n u s = .ok s' ∧
      total n G (fun p => eq.entVar (u.val p) ⬝ᵥ s'.out.val p) ≤ total n G (fun p => eq.entVar (u.val p) ⬝ᵥ s.out.val p) := by
  have key := foldlM_inv (applyDirection eq k rec n u) (List.range dims) s
    (fun _ s' => SizedState n s' ∧ total n G (fun p => eq.entVar (u.val p) ⬝ᵥ s'.out.val p) ≤ total n G (fun p => eq.entVar (u.val p) ⬝ᵥ s.out.val p)) ⟨hs, le_refl _⟩ ?_
  · obtain ⟨s', h1, _, h2⟩ := key
    exact ⟨s', h1, h2⟩
  · rintro pre d post s' hl ⟨h1, h2⟩
    have hd : d < dims := by
      have : d ∈ List.range dims := by rw [hl]; simp
      simpa using this
    obtain ⟨s'', lr, k1, k2, -⟩ := Verif.Props.direction_flux eq k rec (by omega : d < 3) (hrec d hd).1 (hG d hd) hpos hu (hper d hd) h1
    obtain ⟨s3, l1, l2⟩ := Verif.Props.C24_entropy_not_produced eq k rec d r (by omega) (hrec d hd).1 (hrec d hd).2 n G (hG d hd) hpos u hu (hper d hd) s' h1
    obtain rfl : s3 = s'' := by rw [l1] at k1; exact Except.ok.inj k1
    refine ⟨s3, k1, k2, le_trans ?_ h2⟩
    have e : total n G (fun p => eq.entVar (u.val p) ⬝ᵥ s3.out.val p) = total n G (fun p => eq.entVar (u.val p) ⬝ᵥ s'.out.val p) +
        total n G (fun p => ∑ i, eq.entVar (u.val p) i * (s3.out.val p i - s'.out.val p i)) := by
      rw [← total_add]
      refine total_congr fun p _ => ?_
      simp only [dotProduct, ← Finset.sum_add_distrib]
      exact Finset.sum_congr rfl fun i _ => by ring
    rw [e]
    linarith

end TecnoScheme
end Verif
