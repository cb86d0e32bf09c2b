import Verif.Diffusion

/-!
Specification vocabulary for C24 (what it means for a reconstruction to be local and to have the sign property, periodic ghost cells) and the
lemma that the diffusion fluxes at faces one period apart agree. Nothing here models code.
-/

namespace Verif.Props
open Verif NetFlux Diffusion
variable {N : Nat}

/-- All work volumes have the size of the conserved volume. -/
def SizedState (n : I3) (s : Diffusion.State N) : Prop :=
  s.left.inb = inSize n ∧ s.right.inb = inSize n ∧ s.entL.inb = inSize n ∧ s.entR.inb = inSize n ∧ s.out.inb = inSize n

/-- The operator computes the entropy variables of all faces within `r` of the face `q` (all faces of a grid line except the last). -/
def FaceWindow (n : I3) (d : Nat) (r : Int) (q : I3) : Prop := Written d n (q - step d r) ∧ Written d n (q + step d r)

theorem faceWindow_get {d : Nat} (hd : d < 3) {n q : I3} {r : Int} : FaceWindow n d r q ↔ (0 ≤ q.get d - r ∧ 0 ≤ q.get d + r ∧ q.get d - r + 2 < n.get d ∧ q.get d + r + 2 < n.get d) ∧
    ∀ e < 3, e ≠ d → 0 ≤ q.get e ∧ q.get e < n.get e := by
  unfold FaceWindow
  rw [sub_step, written_get hd, written_get hd, (get_geom hd q _).1, (get_geom hd q _).1]
  constructor
  · rintro ⟨⟨a, b⟩, ⟨c, -⟩⟩
    refine ⟨by omega, fun e he hne => ?_⟩
    have := b e he hne
    rwa [(get_geom hd q _).2 e he hne] at this
  · rintro ⟨a, b⟩
    refine ⟨⟨by omega, fun e he hne => ?_⟩, ⟨by omega, fun e he hne => ?_⟩⟩ <;> rw [(get_geom hd q _).2 e he hne] <;> exact b e he hne

theorem FaceWindow.written {d r : Nat} (hd : d < 3) {n q : I3} (h : FaceWindow n d r q) : Written d n q := by
  rw [faceWindow_get hd] at h
  rw [written_get hd]
  exact ⟨by omega, h.2⟩

theorem written_inSize {d : Nat} (hd : d < 3) {n q : I3} (h : Written d n q) : inSize n q = true ∧ inSize n (q + I3.dir d) = true := by
  rw [written_get hd] at h
  obtain ⟨a, b⟩ := h
  rw [dir_eq_step]
  constructor <;> rw [inSize_get] <;> intro e he <;> by_cases hne : e = d
  · subst hne; omega
  · exact b e he hne
  · subst hne; rw [(get_geom hd q _).1]; omega
  · rw [(get_geom hd q _).2 e he hne]; exact b e he hne

/-- The reconstruction runs on volumes with at least `r` cells in the direction, and the jump it returns at a face is a fixed function of the data at the faces at most `r`
away. -/
def FaceLocal (rec : TecnoRec N) (d r : Nat) : Prop :=
  ∃ φ : (Int → Vec N × Vec N) → Vec N, (∀ f f' : Int → Vec N × Vec N, (∀ o : Int, -r ≤ o → o ≤ r → f o = f' o) → φ f = φ f') ∧
    ∀ n (entL entR left right : Arr I3 (Vec N)), (r : Int) ≤ n.get d → entL.inb = inSize n → entR.inb = inSize n → left.inb = inSize n → right.inb = inSize n →
      ∃ s, rec.perform d n entL entR left right = .ok s ∧ s.1.inb = inSize n ∧ s.2.inb = inSize n ∧
        ∀ q, FaceWindow n d r q → s.1.val (q + I3.dir d) - s.2.val q = φ fun o => (entL.val (q + I3.dir d + step d o), entR.val (q + step d o))

/-- The sign property: at every face (with `r` faces on each side) each component of the reconstructed jump has the sign of the original
jump (or is zero). -/
def SignProperty (rec : TecnoRec N) (d r : Nat) : Prop :=
  ∀ n (entL entR left right : Arr I3 (Vec N)), (r : Int) ≤ n.get d → entL.inb = inSize n → entR.inb = inSize n → left.inb = inSize n → right.inb = inSize n →
    ∃ s, rec.perform d n entL entR left right = .ok s ∧ s.1.inb = inSize n ∧ s.2.inb = inSize n ∧
      ∀ q, FaceWindow n d r q → ∀ i, 0 ≤ (s.1.val (q + I3.dir d) - s.2.val q) i * (entL.val (q + I3.dir d) - entR.val q) i

/-- Periodic ghost cells in one direction: cells one period apart have equal values. -/
def PeriodicIn (n G : I3) (d : Nat) (u : I3 → Vec N) : Prop :=
  ∀ p, inSize n p = true → inSize n (p + step d (n.get d - 2 * G.get d)) = true → u (p + step d (n.get d - 2 * G.get d)) = u p

theorem direction_flux (eq : Equation N) (k : Kind) (rec : TecnoRec N) {d r : Nat} (hd : d < 3) (hrec : FaceLocal rec d r) {n G : I3}
    (hG : (r : Int) + 2 ≤ G.get d) (hpos : ∀ e < 3, 0 ≤ G.get e ∧ G.get e ≤ n.get e - G.get e) {u : Arr I3 (Vec N)} (hu : u.inb = inSize n)
    (hper : PeriodicIn n G d u.val) {s : Diffusion.State N} (hs : SizedState n s) :
    ∃ s' lr, applyDirection eq k rec n u s d = .ok s' ∧ SizedState n s' ∧
      (∃ e, scaleLoop eq d n u s.entL s.entR = .ok e ∧ rec.perform d n e.1 e.2 s.left s.right = .ok lr) ∧
      (∀ p, IsInterior n G p → s'.out.val p = s.out.val p +
        (faceValue eq k d u.val lr.1.val lr.2.val p - faceValue eq k d u.val lr.1.val lr.2.val (p - I3.dir d))) ∧
      (∀ q, q.get d = G.get d - 1 → (∀ e < 3, e ≠ d → G.get e ≤ q.get e ∧ q.get e < n.get e - G.get e) →
        faceValue eq k d u.val lr.1.val lr.2.val q = faceValue eq k d u.val lr.1.val lr.2.val (q + step d (n.get d - 2 * G.get d))) := by
  obtain ⟨s1, s2, s3, s4, s5⟩ := hs
  obtain ⟨φ, hφ, hrec⟩ := hrec
  obtain ⟨e, a1, a2, a3, a4, _⟩ := scaleLoop_ok eq hd hu s3 s4
  obtain ⟨lr, b1, b2, b3, b4⟩ := hrec n e.1 e.2 s.left s.right (by have := hpos d hd; omega) a2 a3 s1 s2
  obtain ⟨o, c1, c2, c3⟩ := addLoop_ok eq k (d := d) hu b2 b3 s5
  refine ⟨⟨lr.1, lr.2, e.1, e.2, o⟩, lr, ?_, ⟨b2, b3, a2, a3, c2⟩, ⟨e, a1, b1⟩, fun p hp => c3 p ?_, fun q hq hq' => ?_⟩
  · simp only [applyDirection, a1, b1, c1, Res.ok_bind, Res.pure_eq]
  · have h := hp d hd
    have h' : Written d n (p - I3.dir d) := by
      rw [written_get hd, dir_eq_step, sub_step]
      obtain ⟨g1, g2⟩ := get_geom hd p (-1)
      refine ⟨by omega, fun e he hne => ?_⟩
      have := hp e he; have := hpos e he; have := g2 e he hne
      omega
    have e : p - I3.dir d + I3.dir d = p := by ext <;> simp
    rw [Written, e] at h'
    exact h'
  · -- the two faces one period apart
    have hp0 := hpos d hd
    have hcell : ∀ o : Int, -r ≤ o → o ≤ r + 1 → inSize n (q + step d o) = true ∧ inSize n (q + step d (n.get d - 2 * G.get d) + step d o) = true := by
      intro o h1 h2
      constructor <;> rw [inSize_get] <;> intro e he <;> have hpe := hpos e he <;> by_cases hne : e = d
      · subst hne; rw [(get_geom hd q o).1]; omega
      · rw [(get_geom hd q o).2 e he hne]; have := hq' e he hne; omega
      · subst hne; rw [(get_geom hd _ o).1, (get_geom hd _ _).1]; omega
      · rw [(get_geom hd _ o).2 e he hne, (get_geom hd _ _).2 e he hne]; have := hq' e he hne; omega
    have hwr : ∀ o : Int, -r ≤ o → o ≤ r → Written d n (q + step d o) ∧ Written d n (q + step d (n.get d - 2 * G.get d) + step d o) := by
      intro o h1 h2
      constructor <;> rw [written_get hd] <;> refine ⟨?_, fun e he hne => ?_⟩
      · rw [(get_geom hd q o).1]; omega
      · have hpe := hpos e he; rw [(get_geom hd q o).2 e he hne]; have := hq' e he hne; omega
      · rw [(get_geom hd _ o).1, (get_geom hd _ _).1]; omega
      · have hpe := hpos e he; rw [(get_geom hd _ o).2 e he hne, (get_geom hd _ _).2 e he hne]; have := hq' e he hne; omega
    have hu' : ∀ o : Int, -r ≤ o → o ≤ r + 1 → u.val (q + step d (n.get d - 2 * G.get d) + step d o) = u.val (q + step d o) := by
      intro o h1 h2
      have e : q + step d (n.get d - 2 * G.get d) + step d o = (q + step d o) + step d (n.get d - 2 * G.get d) := by
        ext <;> simp only [I3.add_x, I3.add_y, I3.add_z] <;> ring
      rw [e]
      exact hper _ (hcell o h1 h2).1 (by rw [← e]; exact (hcell o h1 h2).2)
    have e0 : ∀ p : I3, p + step d 0 = p := fun p => by ext <;> simp [step]
    have swap : ∀ (p : I3) (o : Int), p + I3.dir d + step d o = p + step d o + I3.dir d := fun p o => by
      ext <;> simp only [I3.add_x, I3.add_y, I3.add_z] <;> ring
    have succ : ∀ (p : I3) (o : Int), p + step d o + I3.dir d = p + step d (o + 1) := fun p o => by
      ext <;> simp [step, I3.dir] <;> split_ifs <;> ring
    have w1 : FaceWindow n d r q := ⟨by rw [sub_step]; exact (hwr (-r) (by omega) (by omega)).1, (hwr r (by omega) (by omega)).1⟩
    have w2 : FaceWindow n d r (q + step d (n.get d - 2 * G.get d)) :=
      ⟨by rw [sub_step]; exact (hwr (-r) (by omega) (by omega)).2, (hwr r (by omega) (by omega)).2⟩
    have hJ : lr.1.val (q + I3.dir d) - lr.2.val q =
        lr.1.val (q + step d (n.get d - 2 * G.get d) + I3.dir d) - lr.2.val (q + step d (n.get d - 2 * G.get d)) := by
      rw [b4 _ w1, b4 _ w2]
      refine hφ _ _ fun o h1 h2 => ?_
      obtain ⟨x1, x2⟩ := hwr o h1 h2
      rw [swap, swap, (a4 _ x1).1, (a4 _ x1).2, (a4 _ x2).1, (a4 _ x2).2, succ, succ, hu' o h1 (by omega), hu' (o + 1) (by omega) (by omega)]
    have y0 := hu' 0 (by omega) (by omega)
    have y1 := hu' 1 (by omega) (by omega)
    rw [e0, e0] at y0
    rw [← dir_eq_step] at y1
    simp only [faceValue, hJ, y0, y1]

end Verif.Props
