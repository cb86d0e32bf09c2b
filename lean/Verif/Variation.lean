import Verif.ScalarRun
import Mathlib.Tactic.Linarith

/-! Helper lemmas about the variation of a run in one dimension. -/

namespace Verif
namespace Variation
open Integrator Simulator NetFlux ScalarRun

theorem sum_succ {a b : ℤ} (hab : a ≤ b) (f : ℤ → ℝ) : ∑ x ∈ Finset.Ico a b, f (x + 1) = ∑ x ∈ Finset.Ico a b, f x + f b - f a := by
  induction b, hab using Int.leInduction with
  | base => simp
  | succ b hab ih =>
    have e : Finset.Ico a (b + 1) = insert b (Finset.Ico a b) := by ext x; simp only [Finset.mem_Ico, Finset.mem_insert]; omega
    rw [e, Finset.sum_insert (by simp), Finset.sum_insert (by simp), ih]
    ring

/-- One Euler step in incremental form: the variation does not grow, up to what happens at the two ends. -/
theorem harten {a b : ℤ} (hab : a ≤ b) (v v' C D : ℤ → ℝ) (hC : ∀ x, 0 ≤ C x) (hD : ∀ x, 0 ≤ D x) (hCD : ∀ x, C x + D x ≤ 1)
    (hv : ∀ x, a ≤ x → x ≤ b → v' x = v x + C x * (v (x + 1) - v x) - D (x - 1) * (v x - v (x - 1))) :
    ∑ x ∈ Finset.Ico a b, |v' (x + 1) - v' x| ≤ ∑ x ∈ Finset.Ico a b, |v (x + 1) - v x| +
      (C b * |v (b + 1) - v b| - C a * |v (a + 1) - v a|) + (D (a - 1) * |v a - v (a - 1)| - D (b - 1) * |v b - v (b - 1)|) := by
  have h1 : ∀ x ∈ Finset.Ico a b, |v' (x + 1) - v' x| ≤ (1 - C x - D x) * |v (x + 1) - v x| + C (x + 1) * |v (x + 1 + 1) - v (x + 1)| + D (x - 1) * |v x - v (x - 1)| := by
    intro x hx
    rw [Finset.mem_Ico] at hx
    rw [hv x hx.1 (by omega), hv (x + 1) (by omega) (by omega)]
    have e : x + 1 - 1 = x := by ring
    rw [e]
    have e2 : v (x + 1) + C (x + 1) * (v (x + 1 + 1) - v (x + 1)) - D x * (v (x + 1) - v x) - (v x + C x * (v (x + 1) - v x) - D (x - 1) * (v x - v (x - 1))) =
        (1 - C x - D x) * (v (x + 1) - v x) + C (x + 1) * (v (x + 1 + 1) - v (x + 1)) + D (x - 1) * (v x - v (x - 1)) := by ring
    rw [e2]
    refine (abs_add_three _ _ _).trans ?_
    rw [abs_mul, abs_mul, abs_mul, abs_of_nonneg (hC (x + 1)), abs_of_nonneg (hD (x - 1)), abs_of_nonneg (by linarith [hCD x] : 0 ≤ 1 - C x - D x)]
  refine (Finset.sum_le_sum h1).trans ?_
  rw [Finset.sum_add_distrib, Finset.sum_add_distrib, sum_succ hab fun x => C x * |v (x + 1) - v x|]
  have h2 := sum_succ hab fun x => D (x - 1) * |v x - v (x - 1)|
  simp only [show ∀ x : ℤ, x + 1 - 1 = x from fun x => by ring] at h2
  have h3 : ∑ x ∈ Finset.Ico a b, (1 - C x - D x) * |v (x + 1) - v x| =
      ∑ x ∈ Finset.Ico a b, |v (x + 1) - v x| - ∑ x ∈ Finset.Ico a b, C x * |v (x + 1) - v x| - ∑ x ∈ Finset.Ico a b, D x * |v (x + 1) - v x| := by
    rw [← Finset.sum_sub_distrib, ← Finset.sum_sub_distrib]
    exact Finset.sum_congr rfl fun x _ => by ring
  rw [h3]
  linarith

/-- The one dimensional grid of `N` cells with `g` ghost cells on both sides. -/
abbrev size (N g : Nat) : I3 := ⟨N + 2 * g, 1, 1⟩
/-- The widths of its ghost layers. -/
abbrev ghosts (g : Nat) : I3 := ⟨g, 0, 0⟩

theorem layout {N g : Nat} (hN : 1 ≤ N) : Layout (size N g) (ghosts g) ⟨1, 0, 0⟩ 1 g where
  dims_le := by decide
  act := by decide
  gst d hd := by interval_cases d <;> rfl
  size d hd := by interval_cases d <;> simp [I3.get] <;> omega

/-- The `i`-th cell. -/
def cell {N g : Nat} (i : ℤ) (h0 : 0 ≤ i) (h1 : i < N) : Step.Cells (size N g) (ghosts g) :=
  ⟨⟨g + i, 0, 0⟩, fun d hd => by interval_cases d <;> simp [I3.get] <;> omega⟩

/-- Index of the cell the boundary condition continues with. -/
def source (b : BC) (N : Nat) (i : ℤ) : ℤ :=
  match b with
  | .periodic => i % N
  | .neumann => max 0 (min i (N - 1))

theorem source_bounds (b : BC) {N : Nat} (hN : 1 ≤ N) (i : ℤ) : 0 ≤ source b N i ∧ source b N i < N := by
  cases b
  · simp only [source]; omega
  · exact ⟨Int.emod_nonneg _ (by omega), Int.emod_lt_of_pos _ (by omega)⟩

theorem source_inside (b : BC) {N : Nat} {i : ℤ} (h0 : 0 ≤ i) (h1 : i < N) : source b N i = i := by
  cases b
  · simp only [source]; omega
  · exact Int.emod_eq_of_lt h0 h1

/-- Cell values continued to all integers. -/
def values {N g : Nat} (b : BC) (hN : 1 ≤ N) (w : Step.Cells (size N g) (ghosts g) → ℝ) (i : ℤ) : ℝ :=
  w (cell (source b N i) (source_bounds b hN i).1 (source_bounds b hN i).2)

theorem cell_congr {N g : Nat} {i j : ℤ} (h : i = j) (h0 : 0 ≤ i) (h1 : i < N) (h2 : 0 ≤ j) (h3 : j < N) : cell (g := g) i h0 h1 = cell j h2 h3 := by subst h; rfl

theorem extend_values {N g : Nat} (b : BC) (hN : 1 ≤ N) (hgN : g ≤ N) (hg : 1 ≤ g) (w : Step.Cells (size N g) (ghosts g) → ℝ) {i : ℤ} (h0 : -1 ≤ i) (h1 : i ≤ N) :
    Step.extend b (size N g) (ghosts g) g 1 w ⟨g + i, 0, 0⟩ = values b hN w i := by
  have e : Boundary.ghostSource b g (size N g - ghosts g - ghosts g) 1 (fun _ => false) ⟨g + i, 0, 0⟩ = ⟨g + source b N i, 0, 0⟩ := by
    have hsz : (size N g - ghosts g - ghosts g).x = N := by simp [I3.sub_x]; ring
    simp only [Boundary.ghostSource, hsz, Boundary.imageDir]
    ext <;> simp
    cases b
    · simp only [Boundary.image, Boundary.mirror, source]; split_ifs <;> omega
    · simp only [Boundary.image, Boundary.wrap, source]
      rw [add_sub_cancel_left]
  have hb := source_bounds b hN i
  have hi : IsInterior (size N g) (ghosts g) ⟨g + source b N i, 0, 0⟩ := (cell (g := g) _ hb.1 hb.2).2
  rw [Step.extend, dif_pos (by rw [e]; exact hi)]
  unfold values cell
  congr 1
  exact Subtype.ext e

/-- Sum of the jumps between neighbouring cells; with periodic boundaries the last cell has the first one as neighbour. -/
def variation (b : BC) (N g : Nat) (u : I3 → ℝ) : ℝ :=
  ∑ i ∈ Finset.range (N - 1), |u ⟨g + i + 1, 0, 0⟩ - u ⟨g + i, 0, 0⟩| +
    match b with
    | .periodic => |u ⟨g, 0, 0⟩ - u ⟨g + N - 1, 0, 0⟩|
    | .neumann => 0

/-- The last face to be counted. -/
def last (b : BC) (N : Nat) : ℤ :=
  match b with
  | .periodic => N
  | .neumann => N - 1

theorem variation_eq {N g : Nat} (b : BC) (hN : 1 ≤ N) (w : Step.Cells (size N g) (ghosts g) → ℝ) (u : I3 → ℝ)
    (hu : ∀ p : Step.Cells (size N g) (ghosts g), u p = w p) :
    variation b N g u = ∑ x ∈ Finset.Ico 0 (last b N), |values b hN w (x + 1) - values b hN w x| := by
  have hv : ∀ i : ℤ, (h0 : 0 ≤ i) → (h1 : i < N) → values b hN w i = u ⟨g + i, 0, 0⟩ := by
    intro i h0 h1
    rw [values, cell_congr (source_inside b h0 h1) _ _ h0 h1]
    exact (hu (cell i h0 h1)).symm
  have hmain : ∑ i ∈ Finset.range (N - 1), |u ⟨g + i + 1, 0, 0⟩ - u ⟨g + i, 0, 0⟩| = ∑ x ∈ Finset.Ico (0 : ℤ) (N - 1), |values b hN w (x + 1) - values b hN w x| := by
    refine Finset.sum_nbij (fun i : ℕ => (i : ℤ)) (by intro i hi; simp at hi ⊢; omega) (by intro i _ j _ h; simpa using h)
      (by intro x hx; simp at hx ⊢; exact ⟨x.toNat, by omega, by omega⟩) ?_
    intro i hi
    simp at hi
    rw [hv (i + 1) (by omega) (by omega), hv i (by omega) (by omega), add_assoc]
  unfold variation
  rw [hmain]
  cases b with
  | neumann => simp [last]
  | periodic =>
    have e : Finset.Ico (0 : ℤ) (last .periodic N) = insert ((N : ℤ) - 1) (Finset.Ico 0 ((N : ℤ) - 1)) := by ext x; simp only [last, Finset.mem_Ico, Finset.mem_insert]; omega
    rw [e, Finset.sum_insert (by simp), add_comm]
    congr 1
    have h1 : values .periodic hN w ((N : ℤ) - 1 + 1) = u ⟨g, 0, 0⟩ := by
      have h2 := hv 0 le_rfl (by omega)
      rw [add_zero] at h2
      rw [← h2, values, values]
      congr 1
      exact cell_congr (by simp [source]) _ _ _ _
    rw [h1, hv (N - 1) (by omega) (by omega), add_sub_assoc]

theorem values_step {N g : Nat} (b : BC) (hN : 1 ≤ N) (hgN : g ≤ N) (hg : 1 ≤ g) (F : ℝ → ℝ → ℝ × ℝ) (w : Step.Cells (size N g) (ghosts g) → ℝ) (κ : ℝ) {i : ℤ} (h0 : 0 ≤ i) (h1 : i < N) :
    (w + κ • Step.rhs b 1 CudaRecon.noRecon (twoPoint F) (size N g) (ghosts g) g w) (cell i h0 h1) =
      values b hN w i + κ * ((F (values b hN w (i - 1)) (values b hN w i)).1 - (F (values b hN w i) (values b hN w (i + 1))).1) := by
  have e0 : w (cell i h0 h1) = values b hN w i := by rw [values, cell_congr (source_inside b h0 h1) _ _ h0 h1]
  have e1 : (⟨g + i, 0, 0⟩ - I3.dir 0 : I3) = ⟨g + (i - 1), 0, 0⟩ := by ext <;> simp [I3.dir]; ring
  have e2 : (⟨g + (i - 1), 0, 0⟩ + I3.dir 0 : I3) = ⟨g + i, 0, 0⟩ := by ext <;> simp [I3.dir]; ring
  have e3 : (⟨g + i, 0, 0⟩ + I3.dir 0 : I3) = ⟨g + (i + 1), 0, 0⟩ := by ext <;> simp [I3.dir]; ring
  have e4 : Step.rhs b 1 CudaRecon.noRecon (twoPoint F) (size N g) (ghosts g) g w (cell i h0 h1) =
      (F (values b hN w (i - 1)) (values b hN w i)).1 - (F (values b hN w i) (values b hN w (i + 1))).1 := by
    change net 1 CudaRecon.noRecon (twoPoint F) (Step.extend b (size N g) (ghosts g) g 1 w) ⟨g + i, 0, 0⟩ = _
    simp only [net, List.range_succ, List.range_zero, List.nil_append, List.map_cons, List.map_nil, List.sum_cons, List.sum_nil, e1, add_zero]
    rw [face_eq F _ (by decide), face_eq F _ (by decide), e2, e3, extend_values b hN hgN hg w (by omega) (by omega), extend_values b hN hgN hg w (by omega) (by omega),
      extend_values b hN hgN hg w (by omega) (by omega)]
  simp only [Pi.add_apply, Pi.smul_apply, smul_eq_mul, e0, e4]

/-- One Euler step does not increase the variation. -/
theorem euler_variation {N g : Nat} (b : BC) (hN : 1 ≤ N) (hgN : g ≤ N) (hg : 1 ≤ g) {f : ℝ → ℝ} {F : ℝ → ℝ → ℝ × ℝ} {m M : ℝ} (hF : Incremental f F m M) (S : ℝ)
    (hS : ∀ l r, m ≤ l → l ≤ M → m ≤ r → r ≤ M → (F l r).2 ≤ S) {κ : ℝ} (hκ : 0 ≤ κ) (hcfl : κ * S ≤ 1) (w : Step.Cells (size N g) (ghosts g) → ℝ)
    (hw : ∀ p, m ≤ w p ∧ w p ≤ M) (w' : Step.Cells (size N g) (ghosts g) → ℝ) (hw' : w' = w + κ • Step.rhs b 1 CudaRecon.noRecon (twoPoint F) (size N g) (ghosts g) g w) :
    ∑ x ∈ Finset.Ico 0 (last b N), |values b hN w' (x + 1) - values b hN w' x| ≤ ∑ x ∈ Finset.Ico 0 (last b N), |values b hN w (x + 1) - values b hN w x| := by
  have hval : ∀ x, m ≤ values b hN w x ∧ values b hN w x ≤ M := fun x => hw _
  have hex : ∀ x : ℤ, ∃ CD : ℝ × ℝ, 0 ≤ CD.1 ∧ 0 ≤ CD.2 ∧ CD.1 + CD.2 ≤ S ∧
      (F (values b hN w x) (values b hN w (x + 1))).1 = f (values b hN w x) - CD.1 * (values b hN w (x + 1) - values b hN w x) ∧
      (F (values b hN w x) (values b hN w (x + 1))).1 = f (values b hN w (x + 1)) - CD.2 * (values b hN w (x + 1) - values b hN w x) := by
    intro x
    obtain ⟨C, D, c1, d1, c2, i1, i2⟩ := hF (values b hN w x) (values b hN w (x + 1)) (hval _).1 (hval _).2 (hval _).1 (hval _).2
    have hs := hS (values b hN w x) (values b hN w (x + 1)) (hval _).1 (hval _).2 (hval _).1 (hval _).2
    exact ⟨(C, D), c1, d1, c2.trans hs, i1, i2⟩
  choose CD k1 k3 k2 k5 k6 using hex
  have hstep : ∀ CD : ℤ → ℝ × ℝ,
      (∀ x, (F (values b hN w x) (values b hN w (x + 1))).1 = f (values b hN w x) - (CD x).1 * (values b hN w (x + 1) - values b hN w x)) →
      (∀ x, (F (values b hN w x) (values b hN w (x + 1))).1 = f (values b hN w (x + 1)) - (CD x).2 * (values b hN w (x + 1) - values b hN w x)) →
      ∀ x : ℤ, 0 ≤ x → x < N → values b hN w' x =
      values b hN w x + (κ * (CD x).1) * (values b hN w (x + 1) - values b hN w x) - (κ * (CD (x - 1)).2) * (values b hN w x - values b hN w (x - 1)) := by
    intro CD k5 k6 x h0 h1
    have e0 : values b hN w' x = w' (cell x h0 h1) := by rw [values, cell_congr (source_inside b h0 h1) _ _ h0 h1]
    rw [e0, hw', values_step b hN hgN hg F w κ h0 h1]
    have h6 := k6 (x - 1)
    rw [sub_add_cancel] at h6
    rw [h6, k5 x]
    ring
  have hCD : ∀ x, κ * (CD x).1 + κ * (CD x).2 ≤ 1 := fun x => by nlinarith [mul_le_mul_of_nonneg_left (k2 x) hκ]
  have hC0 : ∀ x, 0 ≤ κ * (CD x).1 := fun x => mul_nonneg hκ (k1 x)
  have hD0 : ∀ x, 0 ≤ κ * (CD x).2 := fun x => mul_nonneg hκ (k3 x)
  cases b with
  | neumann =>
    have key := harten (a := 0) (b := N - 1) (by omega) (values .neumann hN w) (values .neumann hN w') (fun x => κ * (CD x).1) (fun x => κ * (CD x).2) hC0 hD0 hCD
      (fun x a1 a2 => hstep CD k5 k6 x a1 (by omega))
    have z1 : values .neumann hN w ((N : ℤ) - 1 + 1) = values .neumann hN w ((N : ℤ) - 1) := by
      unfold values; congr 1; exact cell_congr (by simp only [source]; omega) _ _ _ _
    have z2 : values .neumann hN w (0 - 1) = values .neumann hN w 0 := by
      unfold values; congr 1; exact cell_congr (by simp only [source]; omega) _ _ _ _
    rw [z1, z2, sub_self, sub_self, abs_zero] at key
    have p1 := mul_nonneg (hC0 0) (abs_nonneg (values .neumann hN w (0 + 1) - values .neumann hN w 0))
    have p2 := mul_nonneg (hD0 (N - 1 - 1)) (abs_nonneg (values .neumann hN w ((N : ℤ) - 1) - values .neumann hN w ((N : ℤ) - 1 - 1)))
    change ∑ x ∈ Finset.Ico 0 ((N : ℤ) - 1), _ ≤ ∑ x ∈ Finset.Ico 0 ((N : ℤ) - 1), _
    linarith
  | periodic =>
    have hper : ∀ (v : Step.Cells (size N g) (ghosts g) → ℝ) (x y : ℤ), x % N = y % N → values .periodic hN v x = values .periodic hN v y := by
      intro v x y h
      unfold values; congr 1; exact cell_congr h _ _ _ _
    have hNp : (0 : ℤ) < N := by omega
    have hmod : ∀ x : ℤ, values .periodic hN w (x % N) = values .periodic hN w x ∧ values .periodic hN w (x % N + 1) = values .periodic hN w (x + 1) := fun x =>
      ⟨hper w _ _ (by simp), hper w _ _ (by simp)⟩
    have k5' : ∀ x, (F (values .periodic hN w x) (values .periodic hN w (x + 1))).1 =
        f (values .periodic hN w x) - (CD (x % N)).1 * (values .periodic hN w (x + 1) - values .periodic hN w x) := fun x => by
      have := k5 (x % N); rwa [(hmod x).1, (hmod x).2] at this
    have k6' : ∀ x, (F (values .periodic hN w x) (values .periodic hN w (x + 1))).1 =
        f (values .periodic hN w (x + 1)) - (CD (x % N)).2 * (values .periodic hN w (x + 1) - values .periodic hN w x) := fun x => by
      have := k6 (x % N); rwa [(hmod x).1, (hmod x).2] at this
    have hsame : ∀ x y : ℤ, x % N = y % N → values .periodic hN w x = values .periodic hN w y ∧ values .periodic hN w (x + 1) = values .periodic hN w (y + 1) ∧
        values .periodic hN w (x - 1) = values .periodic hN w (y - 1) ∧ CD (x % N) = CD (y % N) ∧ CD ((x - 1) % N) = CD ((y - 1) % N) := fun x y h => by
      have h1 : (x + 1) % (N : ℤ) = (y + 1) % N := by rw [Int.add_emod, h, ← Int.add_emod]
      have h2 : (x - 1) % (N : ℤ) = (y - 1) % N := by rw [Int.sub_emod, h, ← Int.sub_emod]
      exact ⟨hper w _ _ h, hper w _ _ h1, hper w _ _ h2, by rw [h], by rw [h2]⟩
    have key := harten (a := 0) (b := N) (by omega) (values .periodic hN w) (values .periodic hN w') (fun x => κ * (CD (x % N)).1) (fun x => κ * (CD (x % N)).2)
      (fun x => hC0 _) (fun x => hD0 _) (fun x => hCD _) (fun x a1 a2 => by
        by_cases hx : x < N
        · exact hstep (fun x => CD (x % N)) k5' k6' x a1 hx
        · obtain rfl : x = N := by omega
          obtain ⟨s1, s2, s3, s4, s5⟩ := hsame N 0 (by simp)
          rw [s1, s2, s3, s4, s5, hper w' N 0 (by simp)]
          exact hstep (fun x => CD (x % N)) k5' k6' 0 le_rfl (by omega))
    obtain ⟨s1, s2, s3, s4, s5⟩ := hsame N 0 (by simp)
    simp only [s1, s2, s3, s4, s5] at key
    change ∑ x ∈ Finset.Ico 0 (N : ℤ), _ ≤ ∑ x ∈ Finset.Ico 0 (N : ℤ), _
    linarith

theorem convex_variation {N g : Nat} (b : BC) (hN : 1 ≤ N) (T : ℝ) :
    Convex ℝ {w : Step.Cells (size N g) (ghosts g) → ℝ | ∑ x ∈ Finset.Ico 0 (last b N), |values b hN w (x + 1) - values b hN w x| ≤ T} := by
  intro v hv w hw a c ha hc hac
  simp only [Set.mem_ofPred_eq] at hv hw ⊢
  have h1 : ∀ x ∈ Finset.Ico 0 (last b N), |values b hN (a • v + c • w) (x + 1) - values b hN (a • v + c • w) x| ≤
      a * |values b hN v (x + 1) - values b hN v x| + c * |values b hN w (x + 1) - values b hN w x| := by
    intro x _
    have e : values b hN (a • v + c • w) (x + 1) - values b hN (a • v + c • w) x =
        a * (values b hN v (x + 1) - values b hN v x) + c * (values b hN w (x + 1) - values b hN w x) := by
      simp only [values, Pi.add_apply, Pi.smul_apply, smul_eq_mul]; ring
    rw [e]
    refine (abs_add_le _ _).trans ?_
    rw [abs_mul, abs_mul, abs_of_nonneg ha, abs_of_nonneg hc]
  refine (Finset.sum_le_sum h1).trans ?_
  rw [Finset.sum_add_distrib, ← Finset.mul_sum, ← Finset.mul_sum]
  have e : T = a * T + c * T := by rw [← add_mul, hac, one_mul]
  rw [e]
  exact add_le_add (mul_le_mul_of_nonneg_left hv ha) (mul_le_mul_of_nonneg_left hw hc)

end Variation
end Verif
