import Verif.WholeRun
import Verif.Punctual
import Verif.CudaRecon
import Verif.Props.Integrator
import Verif.Props.Flux
import Mathlib.Data.Fintype.Order
import Mathlib.Tactic.Linarith
import Mathlib.Tactic.Positivity

/-! Helper lemmas about runs of scalar equations with a flux of two states: bounds on the solution. -/

namespace Verif
namespace ScalarRun
open Integrator Simulator NetFlux WholeRun Flux

/-- A numerical flux of two states (alsfvm/include/alsfvm/numflux/numflux_util.hpp:63-92): it takes the right value of the left cell and the left value of the right cell. The flux is
the same in all directions (alsfvm/include/alsfvm/equation/burgers/Burgers.hpp:158-164 and the other scalar equations). -/
def twoPoint (F : ℝ → ℝ → ℝ × ℝ) : FluxFn ℝ ℝ := ⟨[1], [0], fun _ l r => F (r.headD 0) (l.headD 0)⟩

theorem face_eq (F : ℝ → ℝ → ℝ × ℝ) (u : I3 → ℝ) {d : Nat} (hd : d < 3) (q : I3) : face CudaRecon.noRecon (twoPoint F) u d q = F (u q) (u (q + I3.dir d)) := by
  have e0 : ∀ p : I3, p + step d 0 = p := fun p => by ext <;> simp [step]
  have e1 : step d 1 = I3.dir d := by interval_cases d <;> rfl
  simp [face, CudaRecon.noRecon, twoPoint, Recon.rval, Recon.lval, e0, e1]

/-- Flux differences in incremental form, with coefficients that are not negative and add up to at most the wave speed, for states between `m` and `M`. -/
def Incremental (f : ℝ → ℝ) (F : ℝ → ℝ → ℝ × ℝ) (m M : ℝ) : Prop :=
  ∀ l r, m ≤ l → l ≤ M → m ≤ r → r ≤ M → ∃ C D, 0 ≤ C ∧ 0 ≤ D ∧ C + D ≤ (F l r).2 ∧ (F l r).1 = f l - C * (r - l) ∧ (F l r).1 = f r - D * (r - l)

/-- A monotone flux, for states between `m` and `M`: non-decreasing in the left state and non-increasing in the right state. -/
structure MonotoneFlux (F : ℝ → ℝ → ℝ × ℝ) (m M : ℝ) : Prop where
  left : ∀ l l' r, m ≤ l → l ≤ l' → l' ≤ M → m ≤ r → r ≤ M → (F l r).1 ≤ (F l' r).1
  right : ∀ l r r', m ≤ l → l ≤ M → m ≤ r → r ≤ r' → r' ≤ M → (F l r').1 ≤ (F l r).1

/-- Two fluxes at states between `m` and `M`. -/
theorem flux_difference {f : ℝ → ℝ} {F : ℝ → ℝ → ℝ × ℝ} {m M : ℝ} (hF : Incremental f F m M) (hM : MonotoneFlux F m M) {S : ℝ}
    (hS : ∀ l r, m ≤ l → l ≤ M → m ≤ r → r ≤ M → (F l r).2 ≤ S) {x y z : ℝ} (hx : m ≤ x ∧ x ≤ M) (hy : m ≤ y ∧ y ≤ M) (hz : m ≤ z ∧ z ≤ M) :
    S * (m - y) ≤ (F x y).1 - (F y z).1 ∧ (F x y).1 - (F y z).1 ≤ S * (M - y) := by
  have spread : ∀ a c, m ≤ a → a ≤ c → c ≤ M → (F c a).1 - (F a c).1 ≤ S * (c - a) := by
    intro a c h1 h2 h3
    obtain ⟨C, D, -, -, s1, i1, i2⟩ := hF a c h1 (h2.trans h3) (h1.trans h2) h3
    obtain ⟨C', D', -, -, s2, i1', i2'⟩ := hF c a (h1.trans h2) h3 h1 (h2.trans h3)
    have t1 := hS a c h1 (h2.trans h3) (h1.trans h2) h3
    have t2 := hS c a (h1.trans h2) h3 h1 (h2.trans h3)
    nlinarith [mul_le_mul_of_nonneg_right (s1.trans t1) (sub_nonneg.2 h2), mul_le_mul_of_nonneg_right (s2.trans t2) (sub_nonneg.2 h2)]
  have mM : m ≤ M := hy.1.trans hy.2
  have a1 := hM.left m x y le_rfl hx.1 hx.2 hy.1 hy.2
  have a2 := hM.left x M y hx.1 hx.2 le_rfl hy.1 hy.2
  have a3 := hM.right y m z hy.1 hy.2 le_rfl hz.1 hz.2
  have a4 := hM.right y z M hy.1 hy.2 hz.1 hz.2 le_rfl
  have s1 := spread y M hy.1 hy.2 le_rfl
  have s2 := spread m y le_rfl hy.1 hy.2
  constructor <;> linarith

variable {b : BC} {n G active : I3} {g dims : Nat} {σ : Type}

theorem fits (F : ℝ → ℝ → ℝ × ℝ) (hg : 1 ≤ g) : Fits CudaRecon.noRecon (twoPoint F) g where
  k_pos := le_refl 1
  k_le := hg
  offs_abs := by simp [CudaRecon.noRecon]
  whole_zero := by simp [CudaRecon.noRecon]
  fl_offs := by simp [twoPoint]; omega
  fl_near := by simp [CudaRecon.noRecon]

theorem extend_mem {V : Type} [AddCommGroup V] (hL : Layout n G active dims g) (hN : ∀ d < dims, 3 * G.get d ≤ n.get d) {w : Step.Cells n G → V} {q : I3} (hq : inSize n q = true) :
    ∃ p, Step.extend b n G g dims w q = w p := by
  rw [Step.extend, dif_pos (Step.ghostSource_interior hL hN hq)]
  exact ⟨_, rfl⟩

theorem neighbours_inSize (hL : Layout n G active dims g) (hg : 1 ≤ g) {p : I3} (hp : IsInterior n G p) {d : Nat} (hd : d < dims) :
    inSize n (p + I3.dir d) = true ∧ inSize n (p - I3.dir d) = true := by
  have hdl := hL.dims_le
  have h : ∀ e < 3, G.get e ≤ p.get e ∧ p.get e < n.get e - G.get e ∧ 0 ≤ G.get e ∧ (e = d → 1 ≤ G.get e) := fun e he => by
    have h1 := hp e he; have h2 := hL.gst e he
    refine ⟨h1.1, h1.2, by split_ifs at h2 <;> omega, fun hed => ?_⟩
    subst hed
    rw [if_pos hd] at h2
    omega
  have h0 := h 0 (by decide); have h1 := h 1 (by decide); have h2 := h 2 (by decide)
  simp [I3.get] at h0 h1 h2
  rw [inSize_iff, inSize_iff]
  simp only [I3.dir, I3.add_x, I3.add_y, I3.add_z, I3.sub_x, I3.sub_y, I3.sub_z]
  have : d = 0 ∨ d = 1 ∨ d = 2 := by omega
  rcases this with rfl | rfl | rfl <;> simp at h0 h1 h2 ⊢ <;> omega

/-- One forward Euler step keeps all values between `m` and `M`. -/
theorem euler_bounds (hL : Layout n G active dims g) (hN : ∀ d < dims, 3 * G.get d ≤ n.get d) (hg : 1 ≤ g) {f : ℝ → ℝ} {F : ℝ → ℝ → ℝ × ℝ} {m M : ℝ}
    (hF : Incremental f F m M) (hM : MonotoneFlux F m M) (S : ℝ) (hS : ∀ l r, m ≤ l → l ≤ M → m ≤ r → r ≤ M → (F l r).2 ≤ S) {κ : ℝ} (hκ : 0 ≤ κ) (hcfl : κ * (dims * S) ≤ 1)
    (w : Step.Cells n G → ℝ) (hw : ∀ p, m ≤ w p ∧ w p ≤ M) (p : Step.Cells n G) :
    m ≤ w p + κ * Step.rhs b dims CudaRecon.noRecon (twoPoint F) n G g w p ∧ w p + κ * Step.rhs b dims CudaRecon.noRecon (twoPoint F) n G g w p ≤ M := by
  have hdl := hL.dims_le
  set u := Step.extend b n G g dims w with hu
  have hup : u p = w p := Step.extend_interior hL w p.2
  have hrhs : Step.rhs b dims CudaRecon.noRecon (twoPoint F) n G g w p =
      ((List.range dims).map fun d => (face CudaRecon.noRecon (twoPoint F) u d (p.1 - I3.dir d)).1 - (face CudaRecon.noRecon (twoPoint F) u d p).1).sum := rfl
  have hterm : ∀ d < dims, S * (m - w p) ≤ (face CudaRecon.noRecon (twoPoint F) u d (p.1 - I3.dir d)).1 - (face CudaRecon.noRecon (twoPoint F) u d p).1 ∧
      (face CudaRecon.noRecon (twoPoint F) u d (p.1 - I3.dir d)).1 - (face CudaRecon.noRecon (twoPoint F) u d p).1 ≤ S * (M - w p) := by
    intro d hd
    obtain ⟨n1, n2⟩ := neighbours_inSize hL hg p.2 hd
    obtain ⟨p1, e1⟩ := extend_mem (b := b) hL hN (w := w) n1
    obtain ⟨p2, e2⟩ := extend_mem (b := b) hL hN (w := w) n2
    have hback : p.1 - I3.dir d + I3.dir d = p.1 := by ext <;> simp
    rw [face_eq F u (by omega), face_eq F u (by omega), hback, hup, hu, e1, e2]
    exact flux_difference hF hM hS (hw p2) (hw p) (hw p1)
  have hsum : ∀ (l : List Nat) (t : Nat → ℝ) (lo hi : ℝ), (∀ d ∈ l, lo ≤ t d ∧ t d ≤ hi) → l.length * lo ≤ (l.map t).sum ∧ (l.map t).sum ≤ l.length * hi := by
    intro l t lo hi
    induction l with
    | nil => simp
    | cons d l ih =>
      intro h
      have h1 := h d (by simp)
      have h2 := ih fun d hd => h d (by simp [hd])
      simp only [List.map_cons, List.sum_cons, List.length_cons]
      push_cast
      constructor <;> linarith
  obtain ⟨b1, b2⟩ := hsum (List.range dims) _ _ _ fun d hd => hterm d (by simpa using hd)
  rw [← hrhs, List.length_range] at b1 b2
  have a1 := hw p
  have k1 := mul_le_mul_of_nonneg_left b1 hκ
  have k2 := mul_le_mul_of_nonneg_left b2 hκ
  constructor
  · nlinarith [mul_le_mul_of_nonneg_right hcfl (sub_nonneg.2 a1.1)]
  · nlinarith [mul_le_mul_of_nonneg_right hcfl (sub_nonneg.2 a1.2)]

/-- The strong stability preserving schemes stay in every convex set that forward Euler stays in; the classical scheme of order four does so for linear right hand sides. -/
theorem textbook_convex {W : Type} [AddCommGroup W] [Module ℝ W] (k : Kind) (A : Set W) (hA : Convex ℝ A) (L : W → W) (hk : k = .rungeKutta4 → IsLinearMap ℝ L) (h : ℝ)
    (heuler : ∀ w ∈ A, w + h • L w ∈ A) (w : W) (hw : w ∈ A) : textbook k L h w ∈ A := by
  cases k with
  | forwardEuler => exact heuler w hw
  | rungeKutta2 => exact hA hw (heuler _ (heuler w hw)) (by norm_num) (by norm_num) (by norm_num)
  | rungeKutta3 =>
    refine hA hw (heuler _ ?_) (by norm_num) (by norm_num) (by norm_num)
    exact hA hw (heuler _ (heuler w hw)) (by norm_num) (by norm_num) (by norm_num)
  | rungeKutta4 =>
    obtain ⟨M, rfl⟩ : ∃ M : W →ₗ[ℝ] W, L = M := ⟨(hk rfl).mk' L, rfl⟩
    have e1 := heuler w hw
    have e2 := heuler _ e1
    have e4 := heuler _ (heuler _ e2)
    have e : textbook .rungeKutta4 M h w = (3 / 8 : ℝ) • w + (5 / 8 : ℝ) • ((8 / 15 : ℝ) • (w + h • M w) + (7 / 15 : ℝ) • ((6 / 7 : ℝ) • (w + h • M w + h • M (w + h • M w)) +
        (1 / 7 : ℝ) • (w + h • M w + h • M (w + h • M w) + h • M (w + h • M w + h • M (w + h • M w)) +
          h • M (w + h • M w + h • M (w + h • M w) + h • M (w + h • M w + h • M (w + h • M w)))))) := by
      simp only [textbook, map_add, map_smul]
      module
    rw [e]
    refine hA hw (hA e1 (hA e2 e4 ?_ ?_ ?_) ?_ ?_ ?_) ?_ ?_ ?_ <;> norm_num

instance : Finite (Step.Cells n G) := by
  have : {p | IsInterior n G p} ⊆ {p | p ∈ box (G + 0) (n - G + 0)} := fun p hp => isInterior_iff.1 hp
  exact Set.Finite.to_subtype ((List.finite_toSet _).subset this)

theorem cells_nonempty (hL : Layout n G active dims g) : Nonempty (Step.Cells n G) := by
  refine ⟨⟨G, fun d hd => ?_⟩⟩
  have := hL.size d hd
  omega

/-- The wave speeds bound those at every face, and are not negative. -/
theorem waves_bound {V : Type} [AddCommGroup V] [Module ℝ V] (hL : Layout n G active dims g) (hN : ∀ d < dims, 3 * G.get d ≤ n.get d) (hpos : 0 < dims) {r : Recon V} {fl : FluxFn V ℝ}
    (hf : Fits r fl g) {work : NetFlux.State V ℝ} (hw : Sized n work) (w : Step.Cells n G → V) :
    (∀ k, 0 ≤ Step.waves b dims r fl n G active g work w k) ∧
      ∀ k < dims, ∀ q, IsFace n G 0 0 k q → (face r fl (Step.extend b n G g dims w) k q).2 ≤ Step.waves b dims r fl n G active g work w k := by
  obtain ⟨s, e1, -, -, e4, e5⟩ := Step.cpuSystem_ok hL hf hN hpos hw (Step.extend b n G g dims w) 0
  have e : Step.waves b dims r fl n G active g work w = s.2.2 := by simp only [Step.waves, e1]
  rw [e]
  refine ⟨fun k => ?_, fun k hk q hq => (e4 k hk).2 (Or.inr ⟨q, hq, rfl⟩)⟩
  by_cases hk : k < dims
  · exact (e4 k hk).2 (Or.inl rfl)
  · rw [e5 k (by omega)]

theorem isFace_of_interior {p : I3} (hp : IsInterior n G p) (k : Nat) : IsFace n G 0 0 k p := by
  rw [isInterior_iff] at hp
  simp only [InRegion, IsFace, mem_box, I3.add_x, I3.add_y, I3.add_z, I3.sub_x, I3.sub_y, I3.sub_z, I3.zero_x, I3.zero_y, I3.zero_z, I3.dir] at hp ⊢
  split_ifs <;> omega

/-- What the bounds need from the flux on an interval of states: incremental form, monotone, and a wave speed that is the larger one of the speeds of the two states, where the speed of a
state is at most that of one of the ends of any interval it lies in. -/
structure Bounding (f : ℝ → ℝ) (speed : ℝ → ℝ) (F : ℝ → ℝ → ℝ × ℝ) (m M : ℝ) : Prop where
  incremental : Incremental f F m M
  monotone : MonotoneFlux F m M
  wave : ∀ l r, (F l r).2 = max (speed l) (speed r)
  quasi : ∀ a x c, m ≤ a → a ≤ x → x ≤ c → c ≤ M → speed x ≤ max (speed a) (speed c)

theorem Bounding.mono {f speed : ℝ → ℝ} {F : ℝ → ℝ → ℝ × ℝ} {m M m' M' : ℝ} (h : Bounding f speed F m M) (h1 : m ≤ m') (h2 : M' ≤ M) : Bounding f speed F m' M' :=
  ⟨fun l r a1 a2 a3 a4 => h.incremental l r (h1.trans a1) (a2.trans h2) (h1.trans a3) (a4.trans h2),
    ⟨fun l l' r a1 a2 a3 a4 a5 => h.monotone.left l l' r (h1.trans a1) a2 (a3.trans h2) (h1.trans a4) (a5.trans h2),
      fun l r r' a1 a2 a3 a4 a5 => h.monotone.right l r r' (h1.trans a1) (a2.trans h2) (h1.trans a3) a4 (a5.trans h2)⟩, h.wave,
    fun a x c a1 a2 a3 a4 => h.quasi a x c (h1.trans a1) a2 a3 (a4.trans h2)⟩

/-- With any time step that is not negative and obeys the CFL condition for the wave speeds at its start, the Euler steps a scheme is made of satisfy a CFL condition for all
states in the range of the values at the start. -/
theorem step_range (hL : Layout n G active dims g) (hN : ∀ d < dims, 3 * G.get d ≤ n.get d) (hpos : 0 < dims) (hg : 1 ≤ g) {f speed : ℝ → ℝ} {F : ℝ → ℝ → ℝ × ℝ} {m M : ℝ}
    (hF : Bounding f speed F m M) {work : NetFlux.State ℝ ℝ} (hwork : Sized n work) (len : Nat → ℝ) (hlen : ∀ d, 0 ≤ len d) (hlen0 : 0 < len 0)
    (hcube : ∀ d < dims, len d = len 0) {dt : ℝ} (hdt : 0 ≤ dt) (w : Step.Cells n G → ℝ)
    (hcfl : dt * Props.cflSum (Step.waves b dims CudaRecon.noRecon (twoPoint F) n G active g work w) len ≤ 1) (hw : ∀ p, m ≤ w p ∧ w p ≤ M) :
    ∃ m' M' S, m ≤ m' ∧ M' ≤ M ∧ (∀ p, m' ≤ w p ∧ w p ≤ M') ∧ (∀ l r, m' ≤ l → l ≤ M' → m' ≤ r → r ≤ M' → (F l r).2 ≤ S) ∧ dt / len 0 * (dims * S) ≤ 1 := by
  have hdl := hL.dims_le
  have := cells_nonempty hL
  obtain ⟨pm, hpm⟩ := Finite.exists_min w
  obtain ⟨pM, hpM⟩ := Finite.exists_max w
  obtain ⟨v1, v2⟩ := waves_bound (b := b) hL hN hpos (fits F hg) hwork w
  set ws := Step.waves b dims CudaRecon.noRecon (twoPoint F) n G active g work w with hws
  have hB := hF.mono (hw pm).1 (hw pM).2
  set S := max (speed (w pm)) (speed (w pM)) with hS
  have hSbound : ∀ l r, w pm ≤ l → l ≤ w pM → w pm ≤ r → r ≤ w pM → (F l r).2 ≤ S := by
    intro l r a1 a2 a3 a4
    rw [hF.wave]
    exact max_le (hB.quasi _ _ _ le_rfl a1 a2 le_rfl) (hB.quasi _ _ _ le_rfl a3 a4 le_rfl)
  have hSws : ∀ d < dims, S ≤ ws d := by
    intro d hd
    have key : ∀ p : Step.Cells n G, speed (w p) ≤ ws d := fun p => by
      refine le_trans ?_ (v2 d hd p.1 (isFace_of_interior p.2 d))
      rw [face_eq F _ (by omega), hF.wave, Step.extend_interior hL w p.2]
      exact le_max_left _ _
    exact max_le (key pm) (key pM)
  have hsum : (dims : ℝ) * (S / len 0) ≤ Props.cflSum ws len := by
    have h1 : (dims : ℝ) * (S / len 0) = ∑ d ∈ Finset.range dims, S / len 0 := by simp
    rw [h1]
    unfold Props.cflSum
    calc ∑ d ∈ Finset.range dims, S / len 0 ≤ ∑ d ∈ Finset.range dims, ws d / len d := Finset.sum_le_sum fun d hd => by
          have hd' : d < dims := by simpa using hd
          rw [hcube d hd']
          exact div_le_div_of_nonneg_right (hSws d hd') hlen0.le
      _ ≤ _ := Finset.sum_le_sum_of_subset_of_nonneg (fun d hd => by
          have hd' : d < dims := by simpa using hd
          simp only [Finset.mem_filter, Finset.mem_range]
          exact ⟨by omega, by rw [hcube d hd']; exact hlen0.ne'⟩) fun d _ _ => div_nonneg (v1 d) (hlen d)
  have hκ : dt / len 0 * (dims * S) ≤ 1 := by
    have h1 : dt * ((dims : ℝ) * (S / len 0)) ≤ 1 := (mul_le_mul_of_nonneg_left hsum hdt).trans hcfl
    have h2 : dt / len 0 * (dims * S) = dt * ((dims : ℝ) * (S / len 0)) := by ring
    rw [h2]; exact h1
  exact ⟨w pm, w pM, S, (hw pm).1, (hw pM).2, fun p => ⟨hpm p, hpM p⟩, hSbound, hκ⟩

theorem convex_bounds (m M : ℝ) : Convex ℝ {v : Step.Cells n G → ℝ | ∀ p, m ≤ v p ∧ v p ≤ M} := by
  intro x hx y hy a c ha hc hac p
  have h1 := hx p; have h2 := hy p
  obtain rfl : c = 1 - a := by linarith
  simp only [Pi.add_apply, Pi.smul_apply, smul_eq_mul]
  constructor
  · nlinarith [mul_le_mul_of_nonneg_left h1.1 ha, mul_le_mul_of_nonneg_left h2.1 hc]
  · nlinarith [mul_le_mul_of_nonneg_left h1.2 ha, mul_le_mul_of_nonneg_left h2.2 hc]

/-- Fluxes that are linear functions of the two states. -/
def LinearFlux (F : ℝ → ℝ → ℝ × ℝ) : Prop := ∃ a c : ℝ, ∀ l r, (F l r).1 = a * l + c * r

theorem rhs_linear (hL : Layout n G active dims g) {F : ℝ → ℝ → ℝ × ℝ} (hF : LinearFlux F) (κ : ℝ) :
    IsLinearMap ℝ fun w : Step.Cells n G → ℝ => κ • Step.rhs b dims CudaRecon.noRecon (twoPoint F) n G g w := by
  obtain ⟨a, c, hF⟩ := hF
  have hdl := hL.dims_le
  have hadd : ∀ (x y : Step.Cells n G → ℝ) q, Step.extend b n G g dims (x + y) q = Step.extend b n G g dims x q + Step.extend b n G g dims y q := fun x y q => by
    unfold Step.extend; split_ifs <;> simp
  have hsmul : ∀ (t : ℝ) (x : Step.Cells n G → ℝ) q, Step.extend b n G g dims (t • x) q = t * Step.extend b n G g dims x q := fun t x q => by
    unfold Step.extend; split_ifs <;> simp
  have hnet : ∀ (u : I3 → ℝ) p, net dims CudaRecon.noRecon (twoPoint F) u p =
      ((List.range dims).map fun d => (a * u (p - I3.dir d) + c * u (p - I3.dir d + I3.dir d)) - (a * u p + c * u (p + I3.dir d))).sum := fun u p => by
    unfold net
    congr 1
    refine List.map_congr_left fun d hd => ?_
    have hd' : d < dims := by simpa using hd
    rw [face_eq F u (by omega), face_eq F u (by omega), hF, hF]
  refine ⟨fun x y => ?_, fun t x => ?_⟩
  · rw [← smul_add]
    congr 1
    funext p
    simp only [Step.rhs, Pi.add_apply, hnet, hadd]
    rw [← List.sum_map_add]
    congr 1
    exact List.map_congr_left fun d _ => by ring
  · rw [smul_comm]
    congr 1
    funext p
    simp only [Step.rhs, Pi.smul_apply, smul_eq_mul, hnet, hsmul]
    rw [← List.sum_map_mul_left]
    congr 1
    exact List.map_congr_left fun d _ => by ring

/-- A convex set that all Euler steps with a small enough time step stay in (on states with values between `m` and `M`) is kept by a whole step of a strong stability preserving scheme, and of the classical scheme of order four
if the flux is linear. -/
theorem step_convex (hL : Layout n G active dims g) (hN : ∀ d < dims, 3 * G.get d ≤ n.get d) (hpos : 0 < dims) (hg : 1 ≤ g) {f speed : ℝ → ℝ} {F : ℝ → ℝ → ℝ × ℝ} {m M : ℝ}
    (hF : Bounding f speed F m M) {work : NetFlux.State ℝ ℝ} (hwork : Sized n work) (k : Kind) (hk : k = .rungeKutta4 → LinearFlux F) (len : Nat → ℝ) (hlen : ∀ d, 0 ≤ len d) (hlen0 : 0 < len 0)
    (hcube : ∀ d < dims, len d = len 0) {dt : ℝ} (hdt : 0 ≤ dt) (A : Set (Step.Cells n G → ℝ)) (hA : Convex ℝ A)
    (hE : ∀ S κ : ℝ, 0 ≤ κ → κ * (dims * S) ≤ 1 → ∀ m' M', m ≤ m' → M' ≤ M → (∀ l r, m' ≤ l → l ≤ M' → m' ≤ r → r ≤ M' → (F l r).2 ≤ S) →
      ∀ v ∈ A, (∀ p, m' ≤ v p ∧ v p ≤ M') → v + κ • Step.rhs b dims CudaRecon.noRecon (twoPoint F) n G g v ∈ A) (w : Step.Cells n G → ℝ)
    (hcfl : dt * Props.cflSum (Step.waves b dims CudaRecon.noRecon (twoPoint F) n G active g work w) len ≤ 1) (hw : ∀ p, m ≤ w p ∧ w p ≤ M) (hwA : w ∈ A) :
    textbook k (fun w => (1 / len 0) • Step.rhs b dims CudaRecon.noRecon (twoPoint F) n G g w) dt w ∈ A ∩ {v | ∀ p, m ≤ v p ∧ v p ≤ M} := by
  obtain ⟨m', M', S, h1, h2, h3, h4, h5⟩ := step_range hL hN hpos hg hF hwork len hlen hlen0 hcube hdt w hcfl hw
  have hκ := div_nonneg hdt hlen0.le
  have key := textbook_convex k _ (hA.inter (convex_bounds m' M')) (fun w => (1 / len 0) • Step.rhs b dims CudaRecon.noRecon (twoPoint F) n G g w) (fun h => rhs_linear hL (hk h) _) dt (fun v hv => by
    have e : v + dt • (1 / len 0) • Step.rhs b dims CudaRecon.noRecon (twoPoint F) n G g v = v + (dt / len 0) • Step.rhs b dims CudaRecon.noRecon (twoPoint F) n G g v := by
      rw [smul_smul]; congr 2; ring
    rw [e]
    exact ⟨hE S _ hκ h5 m' M' h1 h2 h4 v hv.1 hv.2, fun p => euler_bounds (b := b) hL hN hg (hF.mono h1 h2).incremental (hF.mono h1 h2).monotone S h4 hκ h5 v hv.2 p⟩) w ⟨hwA, h3⟩
  exact ⟨key.1, fun p => ⟨h1.trans (key.2 p).1, (key.2 p).2.trans h2⟩⟩

/-- A whole step of a strong stability preserving scheme, and of the classical scheme of order four if the flux is linear, keeps the bounds, with any time step that is not negative and obeys the CFL condition for the wave speeds at its start. -/
theorem step_bounds (hL : Layout n G active dims g) (hN : ∀ d < dims, 3 * G.get d ≤ n.get d) (hpos : 0 < dims) (hg : 1 ≤ g) {f speed : ℝ → ℝ} {F : ℝ → ℝ → ℝ × ℝ} {m M : ℝ}
    (hF : Bounding f speed F m M) {work : NetFlux.State ℝ ℝ} (hwork : Sized n work) (k : Kind) (hk : k = .rungeKutta4 → LinearFlux F) (len : Nat → ℝ) (hlen : ∀ d, 0 ≤ len d) (hlen0 : 0 < len 0)
    (hcube : ∀ d < dims, len d = len 0) {dt : ℝ} (hdt : 0 ≤ dt) (w : Step.Cells n G → ℝ)
    (hcfl : dt * Props.cflSum (Step.waves b dims CudaRecon.noRecon (twoPoint F) n G active g work w) len ≤ 1) (hw : ∀ p, m ≤ w p ∧ w p ≤ M) :
    ∀ p, m ≤ textbook k (fun w => (1 / len 0) • Step.rhs b dims CudaRecon.noRecon (twoPoint F) n G g w) dt w p ∧
      textbook k (fun w => (1 / len 0) • Step.rhs b dims CudaRecon.noRecon (twoPoint F) n G g w) dt w p ≤ M := by
  exact (step_convex hL hN hpos hg hF hwork k hk len hlen hlen0 hcube hdt Set.univ convex_univ (fun _ _ _ _ _ _ _ _ _ _ _ _ => Set.mem_univ _) w hcfl hw
    (Set.mem_univ _)).2

theorem waves_nonneg {V : Type} [AddCommGroup V] [Module ℝ V] (hL : Layout n G active dims g) (hN : ∀ d < dims, 3 * G.get d ≤ n.get d) (hpos : 0 < dims) {r : Recon V} {fl : FluxFn V ℝ}
    (hf : Fits r fl g) {work : NetFlux.State V ℝ} (hw : Sized n work) (w : Step.Cells n G → V) : ∀ k, 0 ≤ Step.waves b dims r fl n G active g work w k :=
  (waves_bound hL hN hpos hf hw w).1

/-! ### The fluxes -/

theorem rusanov_burgers (m M : ℝ) : Bounding burgers.flux burgers.speed (rusanov burgers) m M where
  incremental l r _ _ _ _ := by
    set a := max |l| |r| with ha
    have h1 : |l| ≤ a := le_max_left _ _
    have h2 : |r| ≤ a := le_max_right _ _
    rw [abs_le] at h1 h2
    refine ⟨(a - (l + r) / 2) / 2, (a + (l + r) / 2) / 2, by linarith, by linarith, ?_, ?_, ?_⟩
    · change _ ≤ a; linarith
    · simp only [rusanov, burgers, ← ha]; ring
    · simp only [rusanov, burgers, ← ha]; ring
  monotone := ⟨fun l l' r _ h _ _ _ => Props.C16_rusanov_monotone.1 l l' r h, fun l r r' _ _ _ h _ => Props.C16_rusanov_monotone.2.1 l r r' h⟩
  wave _ _ := rfl
  quasi a x c _ h1 h2 _ := abs_le_max_abs_abs h1 h2

theorem godunov_burgers (m M : ℝ) : Bounding burgers.flux burgers.speed (godunov burgers) m M where
  incremental l r _ _ _ _ := by
    have hw : (godunov burgers l r).2 = max |l| |r| := rfl
    rw [hw]
    have h1 : |l| ≤ max |l| |r| := le_max_left _ _
    have h2 : |r| ≤ max |l| |r| := le_max_right _ _
    have h0 : 0 ≤ max |l| |r| := (abs_nonneg l).trans h1
    generalize max |l| |r| = a at *
    rw [abs_le] at h1 h2
    simp only [godunov, burgers]
    rcases le_total 0 l with hl | hl <;> rcases le_total 0 r with hr | hr
    · rw [max_eq_left hl, min_eq_right hr, max_eq_left (by nlinarith)]
      exact ⟨0, (l + r) / 2, le_rfl, by linarith, by linarith, by ring, by ring⟩
    · rw [max_eq_left hl, min_eq_left hr]
      rcases le_total (-r) l with h | h
      · rw [max_eq_left (by nlinarith)]
        exact ⟨0, (l + r) / 2, le_rfl, by linarith, by linarith, by ring, by ring⟩
      · rw [max_eq_right (by nlinarith)]
        exact ⟨-(l + r) / 2, 0, by linarith, le_rfl, by linarith, by ring, by ring⟩
    · rw [max_eq_right hl, min_eq_right hr]
      simp only [mul_zero, zero_div, max_self]
      rcases eq_or_lt_of_le (hl.trans hr) with h | h
      · obtain rfl : l = 0 := by linarith
        obtain rfl : r = 0 := by linarith
        exact ⟨0, 0, le_rfl, le_rfl, by simpa using h0, by simp, by simp⟩
      · have hpos : 0 < r - l := by linarith
        have hl2 := mul_self_nonneg l
        have hr2 := mul_self_nonneg r
        refine ⟨l * l / (2 * (r - l)), r * r / (2 * (r - l)), div_nonneg hl2 (by linarith), div_nonneg hr2 (by linarith), ?_, ?_, ?_⟩
        · rw [← add_div, div_le_iff₀ (by linarith)]; nlinarith
        · field_simp; ring
        · field_simp; ring
    · rw [max_eq_right hl, min_eq_left hr, max_eq_right (by rw [mul_zero, zero_div]; nlinarith)]
      exact ⟨-(l + r) / 2, 0, by linarith, le_rfl, by linarith, by ring, by ring⟩
  monotone := ⟨fun l l' r _ h _ _ _ => Props.C15_monotone.1 l l' r h, fun l r r' _ _ _ h _ => Props.C15_monotone.2.1 l r r' h⟩
  wave _ _ := rfl
  quasi a x c _ h1 h2 _ := abs_le_max_abs_abs h1 h2

theorem burgersRoe_eq (l r : ℝ) : burgersRoe l r = godunov burgers l r := by
  simp only [burgersRoe, godunov, burgers]
  congr 1
  rcases le_total 0 l with hl | hl <;> rcases le_total 0 r with hr | hr
  · rw [if_pos (by linarith), max_eq_left hl, min_eq_right hr, max_eq_left (by nlinarith)]
  · rw [max_eq_left hl, min_eq_left hr]
    split_ifs with h
    · rw [max_eq_left (by nlinarith)]
    · rw [max_eq_right (by nlinarith)]
  · rw [max_eq_right hl, min_eq_right hr]
    split_ifs <;> simp
  · rw [max_eq_right hl, min_eq_left hr, max_eq_right (by rw [mul_zero, zero_div]; nlinarith)]
    split_ifs with h
    · have h1 : r = 0 := by linarith
      rw [h1]
    · rfl

theorem roe_burgers (m M : ℝ) : Bounding burgers.flux burgers.speed burgersRoe m M := by
  have : burgersRoe = godunov burgers := by funext l r; exact burgersRoe_eq l r
  rw [this]
  exact godunov_burgers m M

theorem upwind_linear (m M : ℝ) : Bounding linear.flux linear.speed upwind m M where
  incremental l r _ _ _ _ := by
    have hw : (upwind l r).2 = 1 := by simp [upwind, twoPointSpeed, linear]
    rw [hw]
    exact ⟨0, 1, le_rfl, zero_le_one, by simp, by simp [upwind, linear], by simp [upwind, linear]⟩
  monotone := ⟨fun l l' r _ h _ _ _ => by simpa [upwind, linear] using h, fun l r r' _ _ _ _ _ => by simp [upwind, linear]⟩
  wave _ _ := rfl
  quasi a x c _ _ _ _ := le_max_left _ _

theorem rusanov_linear (m M : ℝ) : Bounding linear.flux linear.speed (rusanov linear) m M where
  incremental l r _ _ _ _ := by
    have hw : (rusanov linear l r).2 = 1 := by simp [rusanov, twoPointSpeed, linear]
    rw [hw]
    refine ⟨0, 1, le_rfl, zero_le_one, by simp, ?_, ?_⟩ <;> · simp [rusanov, linear]; ring
  monotone := by
    have e : ∀ l r : ℝ, (rusanov linear l r).1 = l := fun l r => by simp [rusanov, linear]; ring
    exact ⟨fun l l' r _ h _ _ _ => by rw [e, e]; exact h, fun l r r' _ _ _ _ _ => by rw [e, e]⟩
  wave _ _ := rfl
  quasi a x c _ _ _ _ := le_max_left _ _

theorem linearRoe_eq (l r : ℝ) : (linearRoe l r).1 = max l 0 := by
  simp [linearRoe, linear]

/-- The Roe flux of the linear equation is that of the equation with flux `max u 0`. -/
theorem roe_linear (m M : ℝ) : Bounding (fun u => max u 0) linear.speed linearRoe m M where
  incremental l r _ _ _ _ := by
    have hw : (linearRoe l r).2 = 1 := by simp [linearRoe, twoPointSpeed, linear]
    rw [hw, linearRoe_eq]
    rcases eq_or_ne l r with h | h
    · subst h
      exact ⟨0, 0, le_rfl, le_rfl, by simp, by simp, by simp⟩
    · have hne : r - l ≠ 0 := sub_ne_zero.2 (Ne.symm h)
      refine ⟨0, (max r 0 - max l 0) / (r - l), le_rfl, ?_, ?_, by ring, by field_simp; ring⟩
      · rcases lt_or_gt_of_ne h with h' | h'
        · exact div_nonneg (sub_nonneg.2 (max_le_max_right 0 h'.le)) (by linarith)
        · exact div_nonneg_of_nonpos (sub_nonpos.2 (max_le_max_right 0 h'.le)) (by linarith)
      · rw [zero_add]
        rcases lt_or_gt_of_ne h with h' | h'
        · rw [div_le_one (by linarith)]
          rcases le_total 0 l with a | a <;> rcases le_total 0 r with c | c <;> simp [*] <;> linarith
        · rw [div_le_one_of_neg (by linarith)]
          rcases le_total 0 l with a | a <;> rcases le_total 0 r with c | c <;> simp [*] <;> linarith
  monotone := ⟨fun l l' r _ h _ _ _ => by rw [linearRoe_eq, linearRoe_eq]; exact max_le_max_right 0 h, fun l r r' _ _ _ _ _ => by rw [linearRoe_eq, linearRoe_eq]⟩
  wave _ _ := rfl
  quasi a x c _ _ _ _ := le_max_left _ _

theorem cubic_quasi (a x c : ℝ) (h1 : a ≤ x) (h2 : x ≤ c) : cubic.speed x ≤ max (cubic.speed a) (cubic.speed c) := by
  simp only [cubic, abs_mul]
  rcases le_total 0 x with h | h
  · refine le_max_of_le_right (mul_self_le_mul_self (abs_nonneg _) ?_)
    rw [abs_of_nonneg h, abs_of_nonneg (h.trans h2)]; exact h2
  · refine le_max_of_le_left (mul_self_le_mul_self (abs_nonneg _) ?_)
    rw [abs_of_nonpos h, abs_of_nonpos (h1.trans h)]; linarith

theorem rusanov_cubic_eq (l r : ℝ) : (rusanov cubic l r).1 = (l ^ 3 + r ^ 3) / 6 - max (l ^ 2) (r ^ 2) * (r - l) / 2 := by
  have hv : (rusanov cubic l r).1 = 0.5 * (l * l * l / 3 + r * r * r / 3) - 0.5 * max |l * l| |r * r| * (r - l) := rfl
  rw [hv, abs_mul_self, abs_mul_self, ← pow_two, ← pow_two]
  ring

theorem rusanov_cubic_left {l l' : ℝ} (h : l ≤ l') (r : ℝ) : (rusanov cubic l r).1 ≤ (rusanov cubic l' r).1 := by
  have inner : ∀ x y : ℝ, x ^ 2 ≤ r ^ 2 → y ^ 2 ≤ r ^ 2 → x ≤ y → (rusanov cubic x r).1 ≤ (rusanov cubic y r).1 := by
    intro x y hx hy hxy
    rw [rusanov_cubic_eq, rusanov_cubic_eq, max_eq_right hx, max_eq_right hy]
    nlinarith [mul_nonneg (sub_nonneg.2 hxy) (sq_nonneg (x + y)), mul_nonneg (sub_nonneg.2 hxy) (sq_nonneg x), mul_nonneg (sub_nonneg.2 hxy) (sq_nonneg y),
      mul_nonneg (sub_nonneg.2 hxy) (sq_nonneg r)]
  have outer : ∀ x y : ℝ, r ^ 2 ≤ x ^ 2 → r ^ 2 ≤ y ^ 2 → 0 ≤ x * y → x ≤ y → (rusanov cubic x r).1 ≤ (rusanov cubic y r).1 := by
    intro x y hx hy hs hxy
    rw [rusanov_cubic_eq, rusanov_cubic_eq, max_eq_left hx, max_eq_left hy]
    have h1 : 0 ≤ (x + y) * (x + y - r) := by
      have hxy2 : r ^ 2 ≤ (x + y) ^ 2 := by nlinarith [sq_nonneg y]
      nlinarith [sq_nonneg (x + y - r)]
    have h2 : 0 ≤ 2 / 3 * (x ^ 2 + x * y + y ^ 2) - r / 2 * (x + y) := by nlinarith [sq_nonneg (x - y)]
    nlinarith [mul_nonneg (sub_nonneg.2 hxy) h2]
  have ha : |r| ^ 2 = r ^ 2 := sq_abs r
  have hr := abs_nonneg r
  have sq_out : ∀ x : ℝ, |r| ≤ x ∨ x ≤ -|r| → r ^ 2 ≤ x ^ 2 := fun x hx => by rw [← ha]; rcases hx with h | h <;> nlinarith
  have sq_in : ∀ x : ℝ, -|r| ≤ x → x ≤ |r| → x ^ 2 ≤ r ^ 2 := fun x h1 h2 => by rw [← ha]; nlinarith
  have low : ∀ x y : ℝ, x ≤ y → y ≤ -|r| → (rusanov cubic x r).1 ≤ (rusanov cubic y r).1 := fun x y h1 h2 =>
    outer x y (sq_out x (Or.inr (h1.trans h2))) (sq_out y (Or.inr h2)) (mul_nonneg_of_nonpos_of_nonpos (by linarith) (by linarith)) h1
  have mid : ∀ x y : ℝ, x ≤ y → -|r| ≤ x → y ≤ |r| → (rusanov cubic x r).1 ≤ (rusanov cubic y r).1 := fun x y h1 h2 h3 =>
    inner x y (sq_in x h2 (h1.trans h3)) (sq_in y (h2.trans h1) h3) h1
  have high : ∀ x y : ℝ, x ≤ y → |r| ≤ x → (rusanov cubic x r).1 ≤ (rusanov cubic y r).1 := fun x y h1 h2 =>
    outer x y (sq_out x (Or.inl h2)) (sq_out y (Or.inl (h2.trans h1))) (mul_nonneg (by linarith) (by linarith)) h1
  rcases le_total l' (-|r|) with c1 | c1
  · exact low l l' h c1
  rcases le_total |r| l with c2 | c2
  · exact high l l' h c2
  have lowPart : (rusanov cubic l r).1 ≤ (rusanov cubic (max l (-|r|)) r).1 := by
    rcases le_total l (-|r|) with c | c
    · rw [max_eq_right c]; exact low l _ c le_rfl
    · rw [max_eq_left c]
  have highPart : (rusanov cubic (min l' |r|) r).1 ≤ (rusanov cubic l' r).1 := by
    rcases le_total l' |r| with c | c
    · rw [min_eq_left c]
    · rw [min_eq_right c]; exact high _ l' c le_rfl
  refine lowPart.trans (le_trans (mid _ _ ?_ (le_max_right _ _) (min_le_right _ _)) highPart)
  exact max_le (le_min h c2) (le_min c1 (by linarith))

theorem rusanov_cubic_right {r r' : ℝ} (h : r ≤ r') (l : ℝ) : (rusanov cubic l r').1 ≤ (rusanov cubic l r).1 := by
  have inner : ∀ x y : ℝ, x ^ 2 ≤ l ^ 2 → y ^ 2 ≤ l ^ 2 → x ≤ y → (rusanov cubic l y).1 ≤ (rusanov cubic l x).1 := by
    intro x y hx hy hxy
    rw [rusanov_cubic_eq, rusanov_cubic_eq, max_eq_left hx, max_eq_left hy]
    nlinarith [mul_nonneg (sub_nonneg.2 hxy) (sq_nonneg (x - y)), mul_nonneg (sub_nonneg.2 hxy) (sub_nonneg.2 hx), mul_nonneg (sub_nonneg.2 hxy) (sub_nonneg.2 hy)]
  have outer : ∀ x y : ℝ, l ^ 2 ≤ x ^ 2 → l ^ 2 ≤ y ^ 2 → 0 ≤ x * y → x ≤ y → (rusanov cubic l y).1 ≤ (rusanov cubic l x).1 := by
    intro x y hx hy hs hxy
    rw [rusanov_cubic_eq, rusanov_cubic_eq, max_eq_right hx, max_eq_right hy]
    have h1 : (x + y) * l ≤ (2 / 3) * (x ^ 2 + x * y + y ^ 2) := by
      have : 2 * l ^ 2 ≤ x ^ 2 + y ^ 2 := by linarith
      have h3 : ((x + y) * l) ^ 2 ≤ ((2 / 3) * (x ^ 2 + x * y + y ^ 2)) ^ 2 := by
        have h4 : ((x + y) * l) ^ 2 ≤ (x + y) ^ 2 * min (x ^ 2) (y ^ 2) := by
          rw [mul_pow]; exact mul_le_mul_of_nonneg_left (le_min hx hy) (sq_nonneg _)
        refine h4.trans ?_
        rcases le_total (x ^ 2) (y ^ 2) with c | c
        · rw [min_eq_left c]
          nlinarith [mul_nonneg hs (sub_nonneg.2 c), mul_nonneg hs hs, sq_nonneg (x * y - x ^ 2), mul_nonneg (sub_nonneg.2 c) (sub_nonneg.2 c), mul_nonneg (sub_nonneg.2 c) (sq_nonneg x),
            mul_nonneg hs (sq_nonneg x), sq_nonneg (x ^ 2 - y ^ 2), sq_nonneg (y ^ 2 - x * y)]
        · rw [min_eq_right c]
          nlinarith [mul_nonneg hs (sub_nonneg.2 c), mul_nonneg hs hs, sq_nonneg (x * y - y ^ 2), mul_nonneg (sub_nonneg.2 c) (sub_nonneg.2 c), mul_nonneg (sub_nonneg.2 c) (sq_nonneg y),
            mul_nonneg hs (sq_nonneg y), sq_nonneg (x ^ 2 - y ^ 2), sq_nonneg (x ^ 2 - x * y)]
      exact le_of_sq_le_sq h3 (by nlinarith [sq_nonneg x, sq_nonneg y])
    nlinarith [mul_nonneg (sub_nonneg.2 hxy) (sub_nonneg.2 h1)]
  have ha : |l| ^ 2 = l ^ 2 := sq_abs l
  have hr := abs_nonneg l
  have sq_out : ∀ x : ℝ, |l| ≤ x ∨ x ≤ -|l| → l ^ 2 ≤ x ^ 2 := fun x hx => by rw [← ha]; rcases hx with h | h <;> nlinarith
  have sq_in : ∀ x : ℝ, -|l| ≤ x → x ≤ |l| → x ^ 2 ≤ l ^ 2 := fun x h1 h2 => by rw [← ha]; nlinarith
  have low : ∀ x y : ℝ, x ≤ y → y ≤ -|l| → (rusanov cubic l y).1 ≤ (rusanov cubic l x).1 := fun x y h1 h2 =>
    outer x y (sq_out x (Or.inr (h1.trans h2))) (sq_out y (Or.inr h2)) (mul_nonneg_of_nonpos_of_nonpos (by linarith) (by linarith)) h1
  have mid : ∀ x y : ℝ, x ≤ y → -|l| ≤ x → y ≤ |l| → (rusanov cubic l y).1 ≤ (rusanov cubic l x).1 := fun x y h1 h2 h3 =>
    inner x y (sq_in x h2 (h1.trans h3)) (sq_in y (h2.trans h1) h3) h1
  have high : ∀ x y : ℝ, x ≤ y → |l| ≤ x → (rusanov cubic l y).1 ≤ (rusanov cubic l x).1 := fun x y h1 h2 =>
    outer x y (sq_out x (Or.inl h2)) (sq_out y (Or.inl (h2.trans h1))) (mul_nonneg (by linarith) (by linarith)) h1
  rcases le_total r' (-|l|) with c1 | c1
  · exact low r r' h c1
  rcases le_total |l| r with c2 | c2
  · exact high r r' h c2
  have lowPart : (rusanov cubic l (max r (-|l|))).1 ≤ (rusanov cubic l r).1 := by
    rcases le_total r (-|l|) with c | c
    · rw [max_eq_right c]; exact low r _ c le_rfl
    · rw [max_eq_left c]
  have highPart : (rusanov cubic l r').1 ≤ (rusanov cubic l (min r' |l|)).1 := by
    rcases le_total r' |l| with c | c
    · rw [min_eq_left c]
    · rw [min_eq_right c]; exact high _ r' c le_rfl
  refine highPart.trans (le_trans (mid _ _ ?_ (le_max_right _ _) (min_le_right _ _)) lowPart)
  exact max_le (le_min h c2) (le_min c1 (by linarith))

theorem rusanov_cubic (m M : ℝ) : Bounding cubic.flux cubic.speed (rusanov cubic) m M where
  incremental l r _ _ _ _ := by
    have hw : (rusanov cubic l r).2 = max |l * l| |r * r| := rfl
    have hv : (rusanov cubic l r).1 = 0.5 * (l * l * l / 3 + r * r * r / 3) - 0.5 * max |l * l| |r * r| * (r - l) := rfl
    rw [hw, hv]
    have h1 : l * l ≤ max |l * l| |r * r| := (le_abs_self _).trans (le_max_left _ _)
    have h2 : r * r ≤ max |l * l| |r * r| := (le_abs_self _).trans (le_max_right _ _)
    generalize max |l * l| |r * r| = a at *
    refine ⟨(a - (l * l + l * r + r * r) / 3) / 2, (a + (l * l + l * r + r * r) / 3) / 2, ?_, ?_, ?_, ?_, ?_⟩
    · nlinarith [sq_nonneg (l - r)]
    · nlinarith [sq_nonneg (l + r), sq_nonneg l, sq_nonneg r]
    · linarith
    · simp only [cubic]; ring
    · simp only [cubic]; ring
  monotone := ⟨fun _ _ r _ h _ _ _ => rusanov_cubic_left h r, fun l _ _ _ _ _ h _ => rusanov_cubic_right h l⟩
  wave _ _ := rfl
  quasi a x c _ h1 h2 _ := cubic_quasi a x c h1 h2

theorem cubicRoe_eq (l r : ℝ) : (cubicRoe l r).1 = l * l * l / 3 := by
  simp only [cubicRoe, cubic]
  split_ifs with h1 h2 h2
  · rfl
  · exfalso
    apply h2
    have hne : l - r ≠ 0 := sub_ne_zero.2 h1
    have e : (l * l * l / 3 - r * r * r / 3) / (l - r) = (l * l + l * r + r * r) / 3 := by field_simp; ring
    rw [e]
    nlinarith [sq_nonneg (l + r), sq_nonneg l, sq_nonneg r]
  · rfl
  · exfalso
    apply h2
    exact mul_self_nonneg l

theorem roe_cubic (m M : ℝ) : Bounding cubic.flux cubic.speed cubicRoe m M where
  incremental l r _ _ _ _ := by
    have hw : (cubicRoe l r).2 = max |l * l| |r * r| := rfl
    rw [hw, cubicRoe_eq]
    have h1 : l * l ≤ max |l * l| |r * r| := (le_abs_self _).trans (le_max_left _ _)
    have h2 : r * r ≤ max |l * l| |r * r| := (le_abs_self _).trans (le_max_right _ _)
    generalize max |l * l| |r * r| = a at *
    refine ⟨0, (l * l + l * r + r * r) / 3, le_rfl, ?_, ?_, ?_, ?_⟩
    · nlinarith [sq_nonneg (l + r), sq_nonneg l, sq_nonneg r]
    · nlinarith [sq_nonneg (l - r)]
    · simp only [cubic]; ring
    · simp only [cubic]; ring
  monotone := ⟨fun l l' r _ h _ _ _ => by
      rw [cubicRoe_eq, cubicRoe_eq]
      nlinarith [mul_nonneg (sub_nonneg.2 h) (sq_nonneg (l + l')), mul_nonneg (sub_nonneg.2 h) (sq_nonneg l), mul_nonneg (sub_nonneg.2 h) (sq_nonneg l')],
    fun l r r' _ _ _ _ _ => by rw [cubicRoe_eq, cubicRoe_eq]⟩
  wave _ _ := rfl
  quasi a x c _ h1 h2 _ := cubic_quasi a x c h1 h2

end ScalarRun
end Verif
