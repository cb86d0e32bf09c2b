import Verif.ScalarRun
import Verif.Props.Limiter

/-! Helper lemmas about runs of scalar equations with a limited second order reconstruction. -/

namespace Verif
namespace LimitedRun
open Integrator Simulator NetFlux ScalarRun

/-- A reconstruction from the cell and its two neighbours (alsfvm/src/reconstruction/ReconstructionCPU.cpp:38-102 with MC.hpp:28-55 or MM.hpp:28-53): `rec left middle right` gives the left and
the right value of the cell; two ghost cells. -/
def limited (rec : ℝ → ℝ → ℝ → ℝ × ℝ) : Recon ℝ :=
  ⟨.region, 2, [-1, 0, 1], fun _ v => (rec (v.getD 0 0) (v.getD 1 0) (v.getD 2 0)).1, fun _ v => (rec (v.getD 0 0) (v.getD 1 0) (v.getD 2 0)).2⟩

variable {b : BC} {n G active : I3} {g dims : Nat} {rec : ℝ → ℝ → ℝ → ℝ × ℝ} {F : ℝ → ℝ → ℝ × ℝ}

theorem fits (rec : ℝ → ℝ → ℝ → ℝ × ℝ) (F : ℝ → ℝ → ℝ × ℝ) (hg : 2 ≤ g) : Fits (limited rec) (twoPoint F) g where
  k_pos := by simp [limited]
  k_le := hg
  offs_abs := by simp [limited]
  whole_zero := by simp [limited]
  fl_offs := by simp [twoPoint]; omega
  fl_near := by simp [twoPoint, limited]; omega

theorem face_eq (u : I3 → ℝ) {d : Nat} (hd : d < 3) (q : I3) : face (limited rec) (twoPoint F) u d q =
    F (rec (u (q - I3.dir d)) (u q) (u (q + I3.dir d))).2 (rec (u q) (u (q + I3.dir d)) (u (q + I3.dir d + I3.dir d))).1 := by
  have e0 : ∀ p : I3, p + step d 0 = p := fun p => by ext <;> simp [step]
  have e1 : step d 1 = I3.dir d := by interval_cases d <;> rfl
  have e2 : ∀ p : I3, p + step d (-1) = p - I3.dir d := fun p => by interval_cases d <;> (ext <;> simp [step, I3.dir]) <;> ring
  have e3 : q + I3.dir d - I3.dir d = q := by ext <;> simp
  simp only [face, limited, twoPoint, Recon.rval, Recon.lval, List.map_cons, List.map_nil, e0, e1, e2, e3, List.headD_cons, List.getD_cons_zero, List.getD_cons_succ]

theorem rec_bounds (hrec : Props.NoNewExtrema rec) {m M l c r : ℝ} (hl : m ≤ l ∧ l ≤ M) (hc : m ≤ c ∧ c ≤ M) (hr : m ≤ r ∧ r ≤ M) :
    (m ≤ (rec l c r).1 ∧ (rec l c r).1 ≤ M) ∧ (m ≤ (rec l c r).2 ∧ (rec l c r).2 ≤ M) ∧ (rec l c r).1 + (rec l c r).2 = 2 * c := by
  have h1 := hrec.left l c r
  have h2 := hrec.right l c r
  have h3 := hrec.average l c r
  rw [Set.mem_uIcc] at h1 h2
  refine ⟨?_, ?_, by linarith⟩
  · rcases h1 with h | h <;> constructor <;> linarith [h.1, h.2, hl.1, hl.2, hc.1, hc.2]
  · rcases h2 with h | h <;> constructor <;> linarith [h.1, h.2, hr.1, hr.2, hc.1, hc.2]

theorem neighbours_inSize (hL : Layout n G active dims g) (hg : 2 ≤ g) {p : I3} (hp : IsInterior n G p) {d : Nat} (hd : d < dims) :
    inSize n (p + I3.dir d) = true ∧ inSize n (p - I3.dir d) = true ∧ inSize n (p + I3.dir d + I3.dir d) = true ∧ inSize n (p - I3.dir d - I3.dir d) = true ∧ inSize n p = true := by
  have hdl := hL.dims_le
  have h : ∀ e < 3, G.get e ≤ p.get e ∧ p.get e < n.get e - G.get e ∧ 0 ≤ G.get e ∧ (e = d → 2 ≤ G.get e) := fun e he => by
    have h1 := hp e he; have h2 := hL.gst e he
    refine ⟨h1.1, h1.2, by split_ifs at h2 <;> omega, fun hed => ?_⟩
    subst hed
    rw [if_pos hd] at h2
    omega
  have h0 := h 0 (by decide); have h1 := h 1 (by decide); have h2 := h 2 (by decide)
  simp [I3.get] at h0 h1 h2
  simp only [inSize_iff]
  simp only [I3.dir, I3.add_x, I3.add_y, I3.add_z, I3.sub_x, I3.sub_y, I3.sub_z]
  have : d = 0 ∨ d = 1 ∨ d = 2 := by omega
  rcases this with rfl | rfl | rfl <;> simp at h0 h1 h2 ⊢ <;> omega

/-- One forward Euler step keeps all values between `m` and `M`. -/
theorem euler_bounds (hL : Layout n G active dims g) (hN : ∀ d < dims, 3 * G.get d ≤ n.get d) (hg : 2 ≤ g) (hrec : Props.NoNewExtrema rec) {f : ℝ → ℝ} {m M : ℝ}
    (hF : Incremental f F m M) (hM : MonotoneFlux F m M) (S : ℝ) (hS : ∀ l r, m ≤ l → l ≤ M → m ≤ r → r ≤ M → (F l r).2 ≤ S) {κ : ℝ} (hκ : 0 ≤ κ) (hcfl : κ * (dims * (2 * S)) ≤ 1)
    (w : Step.Cells n G → ℝ) (hw : ∀ p, m ≤ w p ∧ w p ≤ M) (p : Step.Cells n G) :
    m ≤ w p + κ * Step.rhs b dims (limited rec) (twoPoint F) n G g w p ∧ w p + κ * Step.rhs b dims (limited rec) (twoPoint F) n G g w p ≤ M := by
  have hdl := hL.dims_le
  set u := Step.extend b n G g dims w with hu
  have hup : u p = w p := Step.extend_interior hL w p.2
  have hrhs : Step.rhs b dims (limited rec) (twoPoint F) n G g w p =
      ((List.range dims).map fun d => (face (limited rec) (twoPoint F) u d (p.1 - I3.dir d)).1 - (face (limited rec) (twoPoint F) u d p).1).sum := rfl
  have hub : ∀ q, inSize n q = true → m ≤ u q ∧ u q ≤ M := fun q hq => by
    obtain ⟨p1, e1⟩ := extend_mem (b := b) hL hN (w := w) hq
    rw [hu, e1]; exact hw p1
  have hterm : ∀ d < dims, 2 * S * (m - w p) ≤ (face (limited rec) (twoPoint F) u d (p.1 - I3.dir d)).1 - (face (limited rec) (twoPoint F) u d p).1 ∧
      (face (limited rec) (twoPoint F) u d (p.1 - I3.dir d)).1 - (face (limited rec) (twoPoint F) u d p).1 ≤ 2 * S * (M - w p) := by
    intro d hd
    obtain ⟨n1, n2, n3, n4, n5⟩ := neighbours_inSize hL hg p.2 hd
    have hback : p.1 - I3.dir d + I3.dir d = p.1 := by ext <;> simp
    rw [face_eq u (by omega), face_eq u (by omega), hback]
    have b0 := hub _ n5; have b1 := hub _ n1; have b2 := hub _ n2; have b3 := hub _ n3; have b4 := hub _ n4
    obtain ⟨-, a1, -⟩ := rec_bounds hrec b4 b2 b0
    obtain ⟨a2, a3, a4⟩ := rec_bounds hrec b2 b0 b1
    obtain ⟨a5, -, -⟩ := rec_bounds hrec b0 b1 b3
    obtain ⟨g1, g2⟩ := flux_difference hF hM hS a1 a2 a3
    obtain ⟨g3, g4⟩ := flux_difference hF hM hS a2 a3 a5
    rw [hup] at a4 g1 g2 g3 g4 ⊢
    generalize (rec (u (p.1 - I3.dir d)) (w p) (u (p.1 + I3.dir d))).1 = y at *
    generalize (rec (u (p.1 - I3.dir d)) (w p) (u (p.1 + I3.dir d))).2 = z at *
    have e1 : 2 * S * (m - w p) = S * (m - y) + S * (m - z) := by linear_combination S * a4
    have e2 : 2 * S * (M - w p) = S * (M - y) + S * (M - z) := by linear_combination S * a4
    constructor <;> linarith
  have hsum : ∀ (l : List Nat) (t : Nat → ℝ) (lo hi : ℝ), (∀ d ∈ l, lo ≤ t d ∧ t d ≤ hi) → l.length * lo ≤ (l.map t).sum ∧ (l.map t).sum ≤ l.length * hi := by
    intro l t lo hi
    induction l with
    | nil => simp
    | cons d l ih =>
      intro h
      have h1 := h d (by simp)
      have h2 := ih fun d hd => h d (by simp [hd])
      simp only [List.map_cons, List.sum_cons, List.length_cons]
      push_cast
      constructor <;> linarith
  obtain ⟨b1, b2⟩ := hsum (List.range dims) _ _ _ fun d hd => hterm d (by simpa using hd)
  rw [← hrhs, List.length_range] at b1 b2
  have a1 := hw p
  have k1 := mul_le_mul_of_nonneg_left b1 hκ
  have k2 := mul_le_mul_of_nonneg_left b2 hκ
  constructor
  · nlinarith [mul_le_mul_of_nonneg_right hcfl (sub_nonneg.2 a1.1)]
  · nlinarith [mul_le_mul_of_nonneg_right hcfl (sub_nonneg.2 a1.2)]

/-- A whole step of a strong stability preserving scheme keeps the bounds, with any time step that is not negative and obeys the CFL condition with the CFL number 1/2. -/
theorem step_bounds (hL : Layout n G active dims g) (hN : ∀ d < dims, 3 * G.get d ≤ n.get d) (hpos : 0 < dims) (hg : 2 ≤ g) (hrec : Props.NoNewExtrema rec) {f speed : ℝ → ℝ}
    {m M : ℝ} (hF : Bounding f speed F m M) {work : NetFlux.State ℝ ℝ} (hwork : Sized n work) (k : Kind) (hk : k ≠ .rungeKutta4) (len : Nat → ℝ) (hlen : ∀ d, 0 ≤ len d)
    (hlen0 : 0 < len 0) (hcube : ∀ d < dims, len d = len 0) {dt : ℝ} (hdt : 0 ≤ dt) (w : Step.Cells n G → ℝ)
    (hcfl : dt * Props.cflSum (Step.waves b dims (limited rec) (twoPoint F) n G active g work w) len ≤ 1 / 2) (hw : ∀ p, m ≤ w p ∧ w p ≤ M) :
    ∀ p, m ≤ textbook k (fun w => (1 / len 0) • Step.rhs b dims (limited rec) (twoPoint F) n G g w) dt w p ∧
      textbook k (fun w => (1 / len 0) • Step.rhs b dims (limited rec) (twoPoint F) n G g w) dt w p ≤ M := by
  have hdl := hL.dims_le
  have := cells_nonempty hL
  obtain ⟨pm, hpm⟩ := Finite.exists_min w
  obtain ⟨pM, hpM⟩ := Finite.exists_max w
  obtain ⟨v1, v2⟩ := waves_bound (b := b) hL hN hpos (fits rec F hg) hwork w
  set ws := Step.waves b dims (limited rec) (twoPoint F) n G active g work w with hws
  have hB := hF.mono (hw pm).1 (hw pM).2
  set S := max (speed (w pm)) (speed (w pM)) with hS
  have hSbound : ∀ l r, w pm ≤ l → l ≤ w pM → w pm ≤ r → r ≤ w pM → (F l r).2 ≤ S := by
    intro l r a1 a2 a3 a4
    rw [hF.wave]
    exact max_le (hB.quasi _ _ _ le_rfl a1 a2 le_rfl) (hB.quasi _ _ _ le_rfl a3 a4 le_rfl)
  have hub : ∀ q, inSize n q = true → w pm ≤ Step.extend b n G g dims w q ∧ Step.extend b n G g dims w q ≤ w pM := fun q hq => by
    obtain ⟨p1, e1⟩ := extend_mem (b := b) hL hN (w := w) hq
    rw [e1]; exact ⟨hpm p1, hpM p1⟩
  have hSws : ∀ d < dims, S ≤ ws d := by
    intro d hd
    have key : ∀ p : Step.Cells n G, (p = pm ∨ p = pM) → speed (w p) ≤ ws d := fun p hp => by
      refine le_trans ?_ (v2 d hd p.1 (isFace_of_interior p.2 d))
      obtain ⟨n1, n2, -, -, -⟩ := neighbours_inSize hL hg p.2 hd
      have b1 := hub _ n1; have b2 := hub _ n2
      rw [face_eq _ (by omega), hF.wave, Step.extend_interior hL w p.2, hrec.flat (Step.extend b n G g dims w (p.1 - I3.dir d)) (w p)
        (Step.extend b n G g dims w (p.1 + I3.dir d)) (by rcases hp with rfl | rfl <;> [right; left] <;> constructor <;> linarith [b1.1, b1.2, b2.1, b2.2])]
      exact le_max_left _ _
    exact max_le (key pm (Or.inl rfl)) (key pM (Or.inr rfl))
  have hsum : (dims : ℝ) * (S / len 0) ≤ Props.cflSum ws len := by
    have h1 : (dims : ℝ) * (S / len 0) = ∑ d ∈ Finset.range dims, S / len 0 := by simp
    rw [h1]
    unfold Props.cflSum
    calc ∑ d ∈ Finset.range dims, S / len 0 ≤ ∑ d ∈ Finset.range dims, ws d / len d := Finset.sum_le_sum fun d hd => by
          have hd' : d < dims := by simpa using hd
          rw [hcube d hd']
          exact div_le_div_of_nonneg_right (hSws d hd') hlen0.le
      _ ≤ _ := Finset.sum_le_sum_of_subset_of_nonneg (fun d hd => by
          have hd' : d < dims := by simpa using hd
          simp only [Finset.mem_filter, Finset.mem_range]
          exact ⟨by omega, by rw [hcube d hd']; exact hlen0.ne'⟩) fun d _ _ => div_nonneg (v1 d) (hlen d)
  have hκ : dt / len 0 * (dims * (2 * S)) ≤ 1 := by
    have h1 : dt * ((dims : ℝ) * (S / len 0)) ≤ 1 / 2 := (mul_le_mul_of_nonneg_left hsum hdt).trans hcfl
    have h2 : dt / len 0 * (dims * (2 * S)) = 2 * (dt * ((dims : ℝ) * (S / len 0))) := by ring
    rw [h2]; linarith
  have key := textbook_convex k _ (convex_bounds (w pm) (w pM)) (fun w => (1 / len 0) • Step.rhs b dims (limited rec) (twoPoint F) n G g w) (fun h => absurd h hk) dt (fun v hv p => by
    have := euler_bounds (b := b) hL hN hg hrec hB.incremental hB.monotone S hSbound (div_nonneg hdt hlen0.le) hκ v hv p
    have e : (v + dt • (1 / len 0) • Step.rhs b dims (limited rec) (twoPoint F) n G g v) p = v p + dt / len 0 * Step.rhs b dims (limited rec) (twoPoint F) n G g v p := by
      simp only [Pi.add_apply, Pi.smul_apply, smul_eq_mul]; ring
    rw [e]; exact this) w (fun p => ⟨hpm p, hpM p⟩)
  exact fun p => ⟨(hw pm).1.trans (key p).1, (key p).2.trans (hw pM).2⟩

end LimitedRun
end Verif
