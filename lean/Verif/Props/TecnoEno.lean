import Verif.TecnoEno
import Verif.Props.Diffusion
import Mathlib.Tactic.FinCases

/-!
C66: sign property of the ENO reconstruction of the scaled entropy variables. `SignProperty` (in `Verif.DiffusionTotals`) says that at every face with `r` faces
on each side the reconstructed jump and the original jump have a non-negative product in every component. It holds for order 2 in the first direction and
fails for orders 3 and 4, and for order 2 in the other two directions, however far from the edge of the volume the face is.
-/

namespace Verif.Props
open Verif NetFlux Diffusion TecnoEno
variable {N : Nat}

/-- Order 2: the values of a cell. -/
theorem cellVal_two (D : Nat → Int → ℝ) (i j : Int) (c r : ℝ) :
    cellVal 2 D i j c r = (c - (if |D 0 j| < |D 0 i| then D 0 (i - 1) else D 0 i) / 2, r + (if |D 0 j| < |D 0 i| then D 0 (i - 1) else D 0 i) / 2) := by
  unfold cellVal
  by_cases h : |D 0 j| < |D 0 i| <;> simp [h, weighted, wCur, Eno.table, List.range_succ] <;> constructor <;> ring

theorem valid_zero {d : Nat} (hd : d < 3) {n q : I3} (h : Written d n q) : Valid n d 0 q := by
  rw [written_get hd] at h
  intro e he
  by_cases hne : e = d
  · subst hne; have := h.1; simp only [if_true]; push_cast; omega
  · have := h.2 e he hne; simp only [if_neg hne]; omega

theorem main_of_window {d : Nat} (hd : d < 3) {n q : I3} {a : Int} (ha : 0 ≤ a) (h : FaceWindow n d a q) :
    q ∈ box (step d a) (n - step d a) ∧ q + I3.dir d ∈ box (step d a) (n - step d a) := by
  rw [faceWindow_get hd] at h
  constructor <;> rw [main_get hd] <;> intro e he
  · by_cases hne : e = d
    · subst hne; simp only [if_true]; omega
    · have := h.2 e he hne; simp only [if_neg hne]; omega
  · rw [get_add_dir hd q he]
    by_cases hne : e = d
    · subst hne; simp only [if_true]; omega
    · have := h.2 e he hne; simp only [if_neg hne]; omega

theorem add_dir_sub (d : Nat) (q : I3) : q + I3.dir d - I3.dir d = q := by
  ext <;> simp

/-- Order 2, first direction: the reconstructed jump at a face from the jumps at the face itself and its two neighbours. -/
noncomputable def jump2 (a b c : ℝ) : ℝ := b - ((if |a| < |b| then a else b) + (if |b| < |c| then b else c)) / 2

theorem jump2_sign (a b c : ℝ) : 0 ≤ jump2 a b c * b := by
  have h1 : (if |a| < |b| then a else b) * b ≤ b * b := by
    split_ifs with h
    · calc a * b ≤ |a * b| := le_abs_self _
        _ = |a| * |b| := abs_mul _ _
        _ ≤ |b| * |b| := by gcongr
        _ = b * b := abs_mul_abs_self b
    · exact le_rfl
  have h2 : (if |b| < |c| then b else c) * b ≤ b * b := by
    split_ifs with h
    · exact le_rfl
    · calc c * b ≤ |c * b| := le_abs_self _
        _ = |c| * |b| := abs_mul _ _
        _ ≤ |b| * |b| := mul_le_mul_of_nonneg_right (not_lt.1 h) (abs_nonneg b)
        _ = b * b := abs_mul_abs_self b
  unfold jump2
  linarith

theorem eno2_jump (dd0 : Nat → I3 → Nat → Int → ℝ) {n : I3} (hn : 1 ≤ n.get 0) {entL entR left right : Arr I3 (Vec N)}
    (hL : entL.inb = inSize n) (hR : entR.inb = inSize n) (hl : left.inb = inSize n) (hr : right.inb = inSize n) :
    ∃ s, (enoRec 2 dd0).perform 0 n entL entR left right = .ok s ∧ s.1.inb = inSize n ∧ s.2.inb = inSize n ∧
      ∀ q, FaceWindow n 0 1 q → ∀ i, (s.1.val (q + I3.dir 0) - s.2.val q) i =
        jump2 (entL.val q i - entR.val (q - I3.dir 0) i) (entL.val (q + I3.dir 0) i - entR.val q i)
          (entL.val (q + I3.dir 0 + I3.dir 0) i - entR.val (q + I3.dir 0) i) := by
  obtain ⟨s, e1, e2, e3, e4⟩ := perform_ok (N := N) (k := 2) (d := 0) (by decide) le_rfl (by decide) dd0 (n := n) (by norm_num; exact hn) hL hR hl hr
  refine ⟨s, e1, e2, e3, fun q hq i => ?_⟩
  obtain ⟨D, hD, hv⟩ := e4 i
  have hd : (0 : Nat) < 3 := by decide
  obtain ⟨m1, m2⟩ := main_of_window hd (by decide) hq
  have w0 := hq.written (r := 1) hd
  have wm : Written 0 n (q - I3.dir 0) := by rw [dir_eq_step]; exact hq.1
  have wp : Written 0 n (q + I3.dir 0) := by rw [dir_eq_step]; exact hq.2
  have v0 := hD 0 (by decide) q (valid_zero hd w0)
  have vm := hD 0 (by decide) _ (valid_zero hd wm)
  have vp := hD 0 (by decide) _ (valid_zero hd wp)
  have ix : ∀ p : I3, idx n p - 1 = idx n (p - I3.dir 0) := fun p => by simp [idx, I3.dir]; ring
  have sa : q - I3.dir 0 + I3.dir 0 = q := by ext <;> simp
  have r1 := (hv q m1).2
  have r2 := (hv _ m2).1
  rw [cellVal_two] at r1 r2
  simp only [ix, add_dir_sub] at r1 r2
  simp only [DD, sa] at v0 vm vp
  rw [v0, vm] at r1
  rw [v0, vp] at r2
  change s.1.val (q + I3.dir 0) i - s.2.val q i = _
  rw [r1, r2]
  unfold jump2
  ring

/-- The jump of the order 2 reconstruction in the first direction depends on the faces at most one away. -/
theorem eno2_faceLocal (dd0 : Nat → I3 → Nat → Int → ℝ) : FaceLocal (enoRec 2 dd0 : TecnoRec N) 0 1 := by
  refine ⟨fun f i => jump2 ((f (-1)).1 i - (f (-1)).2 i) ((f 0).1 i - (f 0).2 i) ((f 1).1 i - (f 1).2 i), fun f f' h => ?_, ?_⟩
  · beta_reduce
    rw [h (-1) (by simp) (by norm_num), h 0 (by simp) (by norm_num), h 1 (by simp) (by norm_num)]
  · intro n entL entR left right hn h1 h2 h3 h4
    obtain ⟨s, e1, e2, e3, e4⟩ := eno2_jump dd0 (by exact_mod_cast hn) h1 h2 h3 h4
    refine ⟨s, e1, e2, e3, fun q hq => ?_⟩
    funext i
    rw [e4 q hq i]
    have a : q + I3.dir 0 + step 0 (-1) = q := by ext <;> simp [step, I3.dir]
    have b : q + step 0 (-1) = q - I3.dir 0 := by ext <;> simp [step, I3.dir]; ring
    have c : ∀ p : I3, p + step 0 1 = p + I3.dir 0 := fun p => by rw [dir_eq_step]
    have e : ∀ p : I3, p + step 0 0 = p := fun p => by ext <;> simp [step]
    simp only [a, b, c, e]

/-- C66 for order 2 and the first direction, for all data, all volume sizes and all leftover contents of the difference arrays. Missing: the same statement for
orders 3 and 4 and for the second and third direction, both false (below). -/
theorem C66_sign_property_partial (dd0 : Nat → I3 → Nat → Int → ℝ) : SignProperty (enoRec 2 dd0 : TecnoRec N) 0 1 := by
  intro n entL entR left right hn h1 h2 h3 h4
  obtain ⟨s, e1, e2, e3, e4⟩ := eno2_jump dd0 (by exact_mod_cast hn) h1 h2 h3 h4
  refine ⟨s, e1, e2, e3, fun q hq i => ?_⟩
  rw [e4 q hq i]
  exact jump2_sign _ _ _

example (e : I3 → Vec 3) : ∃ s, (enoRec 2 (fun _ _ _ _ => 0)).perform 0 ⟨8, 1, 1⟩ (field ⟨8, 1, 1⟩ e) (field ⟨8, 1, 1⟩ e) (field ⟨8, 1, 1⟩ e) (field ⟨8, 1, 1⟩ e) = .ok s :=
  (C66_sign_property_partial (fun _ _ _ _ => 0) ⟨8, 1, 1⟩ (field ⟨8, 1, 1⟩ e) (field ⟨8, 1, 1⟩ e) (field ⟨8, 1, 1⟩ e) (field ⟨8, 1, 1⟩ e) (by decide) rfl rfl rfl rfl).imp
    fun _ h => h.1

/-- In one space dimension the diffusion operator with the order 2 reconstruction conserves the total of every variable and produces no entropy, provided there are
three ghost cells. Missing: the number of ghost cells the code asks for with this reconstruction, which is two. -/
theorem C66_diffusion_with_order_two_partial (eq : Equation N) (k : Kind) (dd0 : Nat → I3 → Nat → Int → ℝ) (n G : I3) (hG : 3 ≤ G.get 0)
    (hpos : ∀ e < 3, 0 ≤ G.get e ∧ G.get e ≤ n.get e - G.get e) (u : Arr I3 (Vec N)) (hu : u.inb = inSize n) (hper : PeriodicIn n G 0 u.val)
    (s : Diffusion.State N) (hs : SizedState n s) :
    (∃ s', applyDiffusion eq k (enoRec 2 dd0) 1 n u s = .ok s' ∧ total n G s'.out.val = total n G s.out.val) ∧
    (∃ s', applyDirection eq k (enoRec 2 dd0) n u s 0 = .ok s' ∧
      total n G (fun p => ∑ i, eq.entVar (u.val p) i * (s'.out.val p i - s.out.val p i)) ≤ 0) := by
  constructor
  · refine C24_conservative_partial eq k _ 1 1 (by decide) (fun d hd => ?_) n G (fun d hd => ?_) hpos u hu (fun d hd => ?_) s hs <;> obtain rfl : d = 0 := by omega
    · exact eno2_faceLocal dd0
    · norm_num; exact hG
    · exact hper
  · exact C24_entropy_not_produced eq k _ 0 1 (by decide) (eno2_faceLocal dd0) (C66_sign_property_partial dd0) n G (by norm_num; exact hG) hpos u hu hper s hs

example (s : I3 → Vec 1) : ∃ s', applyDiffusion burgers .rusanov (enoRec 2 fun _ _ _ _ => 0) 1 ⟨10, 1, 1⟩ (field ⟨10, 1, 1⟩ fun q => ![if q.x % 4 = 0 then 1 else 0])
    ⟨field ⟨10, 1, 1⟩ s, field ⟨10, 1, 1⟩ s, field ⟨10, 1, 1⟩ s, field ⟨10, 1, 1⟩ s, field ⟨10, 1, 1⟩ s⟩ = .ok s' ∧
    total ⟨10, 1, 1⟩ ⟨3, 0, 0⟩ s'.out.val = total ⟨10, 1, 1⟩ ⟨3, 0, 0⟩ s :=
  (C66_diffusion_with_order_two_partial burgers .rusanov (fun _ _ _ _ => 0) ⟨10, 1, 1⟩ ⟨3, 0, 0⟩ (by decide) (by decide) _ rfl
    (by intro q hq; simp [PeriodicIn, field, step, I3.get]) _ ⟨rfl, rfl, rfl, rfl, rfl⟩).1

/-- Applying the reconstruction to one scalar field used for both inputs and both outputs. -/
theorem eno_run {k d : Nat} (hd : d < 3) (hk : 2 ≤ k) (hk4 : k ≤ 4) (dd0 : Nat → I3 → Nat → Int → ℝ) {n : I3} {r : Nat} (hn : (k : Int) - 1 ≤ n.get d) (hr : (r : Int) ≤ n.get d) (u : I3 → ℝ)
    (h : SignProperty (enoRec k dd0 : TecnoRec 1) d r) :
    ∃ D : Nat → Int → ℝ, (∀ l < k - 1, ∀ q, Valid n d l q → D l (idx n q) = DD d u u l q) ∧
      ∀ q, q ∈ box (step d ((k : Int) - 1)) (n - step d ((k : Int) - 1)) → q + I3.dir d ∈ box (step d ((k : Int) - 1)) (n - step d ((k : Int) - 1)) → FaceWindow n d r q →
        0 ≤ ((cellVal k D (idx n (q + I3.dir d)) (idx n q) (u (q + I3.dir d)) (u (q + I3.dir d))).1 - (cellVal k D (idx n q) (idx n (q - I3.dir d)) (u q) (u q)).2) *
          (u (q + I3.dir d) - u q) := by
  obtain ⟨s, e1, e2, e3, e4⟩ := perform_ok (N := 1) hd hk hk4 dd0 hn (leftIn := field n fun q _ => u q) (rightIn := field n fun q _ => u q) (left := field n fun q _ => u q)
    (right := field n fun q _ => u q) rfl rfl rfl rfl
  obtain ⟨s', f1, -, -, f4⟩ := h n (field n fun q _ => u q) (field n fun q _ => u q) (field n fun q _ => u q) (field n fun q _ => u q) hr rfl rfl rfl rfl
  obtain rfl : s = s' := by rw [e1] at f1; exact Except.ok.inj f1
  obtain ⟨D, hD, hv⟩ := e4 0
  refine ⟨D, hD, fun q m1 m2 hq => ?_⟩
  have := f4 q hq 0
  simp only [Pi.sub_apply, (hv q m1).2, (hv _ m2).1, add_dir_sub] at this
  exact this

/-- A pattern on the first axis, moved `r` cells away from the edge. -/
def shifted (r : Nat) (l : List ℝ) (q : I3) : ℝ := l.getD (q.x - r).toNat 0

/-- Differences of the pattern. -/
def listDD (l : List ℝ) : Nat → Nat → ℝ
  | 0, a => l.getD (a + 1) 0 - l.getD a 0
  | m + 1, a => listDD l m (a + 1) - listDD l m a

theorem shifted_at (r : Nat) (l : List ℝ) (i : Nat) : shifted r l ⟨r + i, 0, 0⟩ = l.getD i 0 := by
  unfold shifted; congr; simp

theorem dir_zero_add (a : Int) : (⟨a, 0, 0⟩ : I3) + I3.dir 0 = ⟨a + 1, 0, 0⟩ := by ext <;> simp [I3.dir]

theorem dd_shifted (r : Nat) (l : List ℝ) (m a : Nat) : DD 0 (shifted r l) (shifted r l) m ⟨r + a, 0, 0⟩ = listDD l m a := by
  induction m generalizing a with
  | zero =>
    have := shifted_at r l (a + 1)
    push_cast [← add_assoc] at this
    rw [DD, dir_zero_add, this, shifted_at, listDD]
  | succ m ih =>
    have := ih (a + 1)
    push_cast [← add_assoc] at this
    rw [DD, dir_zero_add, this, ih, listDD]

theorem eno_pattern {k : Nat} (hk : 2 ≤ k) (hk4 : k ≤ 4) (dd0 : Nat → I3 → Nat → Int → ℝ) (r : Nat) (l : List ℝ) (c : Nat) (hc : (k : Int) - 1 ≤ c) (hc' : c ≤ 6)
    (h : SignProperty (enoRec k dd0 : TecnoRec 1) 0 r) :
    ∃ E : Nat → Int → ℝ, (∀ m < k - 1, ∀ a : Nat, m ≤ a → a ≤ 8 → E m a = listDD l m a) ∧
      0 ≤ ((cellVal k E (c + 1) c (l.getD (c + 1) 0) (l.getD (c + 1) 0)).1 - (cellVal k E c (c - 1) (l.getD c 0) (l.getD c 0)).2) * (l.getD (c + 1) 0 - l.getD c 0) := by
  obtain ⟨D, hD, hv⟩ := eno_run (d := 0) (by decide) hk hk4 dd0 (n := ⟨2 * r + 20, 1, 1⟩) (r := r) (by simp [I3.get]; omega) (by simp [I3.get]; omega) (shifted r l) h
  have ix : ∀ a : Int, idx ⟨2 * r + 20, 1, 1⟩ ⟨a, 0, 0⟩ = a := fun a => by simp [idx]
  refine ⟨fun m i => D m (r + i), fun m hm a h1 h2 => ?_, ?_⟩
  · rw [← dd_shifted r l m a, ← hD m hm ⟨r + a, 0, 0⟩ ?_, ix]
    intro e he
    interval_cases e <;> simp [I3.get] <;> omega
  · have := hv ⟨r + c, 0, 0⟩ ?_ ?_ ?_
    · have s1 := shifted_at r l (c + 1)
      push_cast [← add_assoc] at s1
      have ds : (⟨r + c, 0, 0⟩ : I3) - I3.dir 0 = ⟨r + c - 1, 0, 0⟩ := by ext <;> simp [I3.dir]
      rw [dir_zero_add, ds, ix, ix, ix, s1, shifted_at] at this
      simpa only [cellVal, add_assoc, add_sub_assoc] using this
    · rw [main_get (by decide)]
      intro e he
      interval_cases e <;> simp [I3.get] <;> omega
    · rw [main_get (by decide), dir_zero_add]
      intro e he
      interval_cases e <;> simp [I3.get] <;> omega
    · clear hv hD h
      rw [faceWindow_get (by decide)]
      refine ⟨by simp [I3.get]; omega, fun e he hne => ?_⟩
      interval_cases e <;> simp_all [I3.get]

/-- C66 fails for order 3, however many faces `r` are required on each side of the face. Cell values 0, -3, -6, -5, -7, -5: between the third and the fourth the jump
is 1, the reconstructed jump -7/6. -/
theorem C66_fails_for_order_three (dd0 : Nat → I3 → Nat → Int → ℝ) (r : Nat) : ¬ SignProperty (enoRec 3 dd0 : TecnoRec 1) 0 r := by
  intro h
  obtain ⟨E, hE, hv⟩ := eno_pattern (k := 3) (by decide) (by decide) dd0 r [0, -3, -6, -5, -7, -5] 2 (by decide) (by decide) h
  have a0 := hE 0 (by decide) 0 (by decide) (by decide)
  have a1 := hE 0 (by decide) 1 (by decide) (by decide)
  have a2 := hE 0 (by decide) 2 (by decide) (by decide)
  have a3 := hE 0 (by decide) 3 (by decide) (by decide)
  have a4 := hE 0 (by decide) 4 (by decide) (by decide)
  have b1 := hE 1 (by decide) 1 (by decide) (by decide)
  have b2 := hE 1 (by decide) 2 (by decide) (by decide)
  have b3 := hE 1 (by decide) 3 (by decide) (by decide)
  norm_num [listDD] at a0 a1 a2 a3 a4 b1 b2 b3
  norm_num [cellVal, List.range_succ, a0, a1, a2, a3, a4, b1, b2, b3, weighted, wCur, Eno.table, abs_of_neg, show Int.toNat 2 = 2 from rfl] at hv

/-- C66 fails for order 4. Cell values 0, -3, -6, -9, -8, -11, -14, -12: between the fourth and the fifth the jump is 1, the reconstructed jump -1. -/
theorem C66_fails_for_order_four (dd0 : Nat → I3 → Nat → Int → ℝ) (r : Nat) : ¬ SignProperty (enoRec 4 dd0 : TecnoRec 1) 0 r := by
  intro h
  obtain ⟨E, hE, hv⟩ := eno_pattern (k := 4) (by decide) (by decide) dd0 r [0, -3, -6, -9, -8, -11, -14, -12] 3 (by decide) (by decide) h
  have a0 := hE 0 (by decide) 0 (by decide) (by decide)
  have a1 := hE 0 (by decide) 1 (by decide) (by decide)
  have a2 := hE 0 (by decide) 2 (by decide) (by decide)
  have a3 := hE 0 (by decide) 3 (by decide) (by decide)
  have a4 := hE 0 (by decide) 4 (by decide) (by decide)
  have a5 := hE 0 (by decide) 5 (by decide) (by decide)
  have a6 := hE 0 (by decide) 6 (by decide) (by decide)
  have b2 := hE 1 (by decide) 2 (by decide) (by decide)
  have b3 := hE 1 (by decide) 3 (by decide) (by decide)
  have b4 := hE 1 (by decide) 4 (by decide) (by decide)
  have c2 := hE 2 (by decide) 2 (by decide) (by decide)
  have c3 := hE 2 (by decide) 3 (by decide) (by decide)
  have c4 := hE 2 (by decide) 4 (by decide) (by decide)
  norm_num [listDD] at a0 a1 a2 a3 a4 a5 a6 b2 b3 b4 c2 c3 c4
  norm_num [cellVal, List.range_succ, a0, a1, a2, a3, a4, a5, a6, b2, b3, b4, c2, c3, c4, weighted, wCur, Eno.table, abs_of_neg, show Int.toNat 2 = 2 from rfl] at hv

/-- C66 fails for order 2 in the second and third direction: the differences to the left are read one cell away in the first direction. Two columns of cells in
direction `d`, one jumping from 0 to 1 and the other at the same place from 0 to 100: the reconstructed jump of the first is -49. -/
theorem C66_fails_in_other_directions (dd0 : Nat → I3 → Nat → Int → ℝ) (r d : Nat) (hd : d = 1 ∨ d = 2) : ¬ SignProperty (enoRec 2 dd0 : TecnoRec 1) d r := by
  intro h
  rcases hd with rfl | rfl
  · obtain ⟨D, hD, hv⟩ := eno_run (k := 2) (d := 1) (by decide) (by decide) (by decide) dd0 (n := ⟨2, 2 * r + 20, 1⟩) (r := r) (by simp [I3.get]; omega) (by simp [I3.get]; omega)
      (fun q => if q.y ≤ r + 2 then 0 else if q.x = 0 then 100 else 1) h
    have := hv ⟨1, r + 2, 0⟩ ?_ ?_ ?_
    · have dr : ∀ a b : Int, (⟨a, b, 0⟩ : I3) + I3.dir 1 = ⟨a, b + 1, 0⟩ := fun a b => by ext <;> simp [I3.dir]
      have ds : ∀ a b : Int, (⟨a, b, 0⟩ : I3) - I3.dir 1 = ⟨a, b - 1, 0⟩ := fun a b => by ext <;> simp [I3.dir]
      have va : ∀ (x : Int) (b : Nat), 0 ≤ x → x < 2 → b ≤ 8 → Valid ⟨2, 2 * r + 20, 1⟩ 1 0 ⟨x, r + b, 0⟩ := fun x b h1 h2 h3 e he => by
        interval_cases e <;> simp [I3.get] <;> omega
      have a1 := hD 0 (by decide) _ (va 1 1 (by decide) (by decide) (by decide))
      have a2 := hD 0 (by decide) _ (va 1 2 (by decide) (by decide) (by decide))
      have a3 := hD 0 (by decide) _ (va 1 3 (by decide) (by decide) (by decide))
      have a4 := hD 0 (by decide) _ (va 0 2 (by decide) (by decide) (by decide))
      have ix : idx ⟨2, 2 * r + 20, 1⟩ ⟨1, r + 2, 0⟩ - 1 = idx ⟨2, 2 * r + 20, 1⟩ ⟨0, r + 2, 0⟩ := by simp [idx]
      have e1 : (r : Int) + 2 - 1 = r + 1 := by ring
      have e2 : (r : Int) + 2 + 1 = r + 3 := by ring
      simp only [DD, dr] at a1 a2 a3 a4
      norm_num [add_assoc] at a1 a2 a3 a4
      simp only [cellVal_two, dr, ds, ix, e1, e2, a1, a2, a3, a4] at this
      norm_num at this
    · rw [main_get (by decide)]
      intro e he
      interval_cases e <;> simp [I3.get] <;> omega
    · rw [main_get (by decide)]
      intro e he
      interval_cases e <;> simp [I3.get, I3.dir] <;> omega
    · clear hv hD h
      rw [faceWindow_get (by decide)]
      refine ⟨by simp [I3.get]; omega, fun e he hne => ?_⟩
      interval_cases e <;> simp_all [I3.get]
  · obtain ⟨D, hD, hv⟩ := eno_run (k := 2) (d := 2) (by decide) (by decide) (by decide) dd0 (n := ⟨2, 1, 2 * r + 20⟩) (r := r) (by simp [I3.get]; omega) (by simp [I3.get]; omega)
      (fun q => if q.z ≤ r + 2 then 0 else if q.x = 0 then 100 else 1) h
    have := hv ⟨1, 0, r + 2⟩ ?_ ?_ ?_
    · have dr : ∀ a b : Int, (⟨a, 0, b⟩ : I3) + I3.dir 2 = ⟨a, 0, b + 1⟩ := fun a b => by ext <;> simp [I3.dir]
      have ds : ∀ a b : Int, (⟨a, 0, b⟩ : I3) - I3.dir 2 = ⟨a, 0, b - 1⟩ := fun a b => by ext <;> simp [I3.dir]
      have va : ∀ (x : Int) (b : Nat), 0 ≤ x → x < 2 → b ≤ 8 → Valid ⟨2, 1, 2 * r + 20⟩ 2 0 ⟨x, 0, r + b⟩ := fun x b h1 h2 h3 e he => by
        interval_cases e <;> simp [I3.get] <;> omega
      have a1 := hD 0 (by decide) _ (va 1 1 (by decide) (by decide) (by decide))
      have a2 := hD 0 (by decide) _ (va 1 2 (by decide) (by decide) (by decide))
      have a3 := hD 0 (by decide) _ (va 1 3 (by decide) (by decide) (by decide))
      have a4 := hD 0 (by decide) _ (va 0 2 (by decide) (by decide) (by decide))
      have ix : idx ⟨2, 1, 2 * r + 20⟩ ⟨1, 0, r + 2⟩ - 1 = idx ⟨2, 1, 2 * r + 20⟩ ⟨0, 0, r + 2⟩ := by simp [idx]
      have e1 : (r : Int) + 2 - 1 = r + 1 := by ring
      have e2 : (r : Int) + 2 + 1 = r + 3 := by ring
      simp only [DD, dr] at a1 a2 a3 a4
      norm_num [add_assoc] at a1 a2 a3 a4
      simp only [cellVal_two, dr, ds, ix, e1, e2, a1, a2, a3, a4] at this
      norm_num at this
    · rw [main_get (by decide)]
      intro e he
      interval_cases e <;> simp [I3.get] <;> omega
    · rw [main_get (by decide)]
      intro e he
      interval_cases e <;> simp [I3.get, I3.dir] <;> omega
    · clear hv hD h
      rw [faceWindow_get (by decide)]
      refine ⟨by simp [I3.get]; omega, fun e he hne => ?_⟩
      interval_cases e <;> simp_all [I3.get]

end Verif.Props
