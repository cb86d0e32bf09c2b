import Verif.EnoLemmas

/-!
Property theorems C26 and C27: the ENO reconstruction.

Vocabulary: `n` total size of the volumes, `start`/`stop` the requested region (`start ≥ 0 ≥ stop`, added to the first and last index), `active` 1 in the
directions in which the volume extends. `Reconstructed k d active n start stop q`: the cell `q` is one the call has to fill. `cellAverage p a b` is
the average of the polynomial over `[a, b]`.
-/

namespace Verif.Props
open Verif NetFlux Eno
variable {m : Nat}

/-- The cells filled by a call: `k` cells away from the ends in the other directions, one less in the direction itself. -/
def Reconstructed (k d : Nat) (active n start stop q : I3) : Prop :=
  ∀ e < 3, active.get e * (k - (if e = d then 1 else 0)) + start.get e ≤ q.get e ∧
    q.get e < n.get e - active.get e * (k - (if e = d then 1 else 0)) + stop.get e

/-- The buffers of the reconstruction have the size of the volume. -/
def EnoSized (n : I3) (s : Eno.State m) : Prop := (∀ j, (s.dd j).inb = inSize n) ∧ s.left.inb = inSize n ∧ s.right.inb = inSize n

theorem reconstructed_iff {k d : Nat} {active n start stop q : I3} :
    Reconstructed k d active n start stop q ↔ q ∈ box (mainLo k d active start) (mainHi k d active n stop) := by
  rw [box_get]
  refine forall₂_congr fun e he => ?_
  rw [mainLo_get _ _ _ _ he, mainHi_get _ _ _ _ _ he]

/-- C26, memory. For orders 2 to 4 the reconstruction succeeds although only the cells of the region itself (`start ≤ p < n + stop`, in particular nothing
outside the ghost layer) may be read, whatever the divided difference arrays held before. -/
theorem C26_stays_in_bounds (k d : Nat) (hk : 2 ≤ k) (hk4 : k ≤ 4) (ind : Fin m) (active n start stop : I3) (hg : Geo k d active start stop)
    (u : Arr I3 (Vec m)) (hu : ∀ p, u.inb p = true ↔ ∀ e < 3, start.get e ≤ p.get e ∧ p.get e < n.get e + stop.get e)
    (s : Eno.State m) (hs : EnoSized n s) : ∃ s', perform k d ind active n start stop u s = .ok s' ∧ EnoSized n s' := by
  obtain ⟨s', h1, h2, h3, h4, _⟩ := perform_ok hg hk hk4 ind (fun p hp => (hu p).2 hp) hs.1 hs.2.1 hs.2.2
  exact ⟨s', h1, h2, h3, h4⟩

/-- C26, stencil. The two face values of a cell are fixed linear combinations of the same `k` consecutive cells along the direction, and the cell is one
of them. -/
theorem C26_stencil_contains_cell (k d : Nat) (hk : 2 ≤ k) (hk4 : k ≤ 4) (ind : Fin m) (active n start stop : I3) (hg : Geo k d active start stop)
    (u : Arr I3 (Vec m)) (hu : u.inb = inSize n) (s : Eno.State m) (hs : EnoSized n s) :
    ∃ s', perform k d ind active n start stop u s = .ok s' ∧ ∀ q, Reconstructed k d active n start stop q →
      ∃ shift : Nat, shift < k ∧ ∃ cl cr : Fin k → ℝ, s'.left.val q = ∑ j, cl j • u.val (q + step d (j - shift)) ∧
        s'.right.val q = ∑ j, cr j • u.val (q + step d (j - shift)) := by
  obtain ⟨s', h1, h2, h3, h4, h5, _⟩ := perform_ok hg hk hk4 ind (u := u) (fun p hp => by
    rw [hu, Diffusion.inSize_get]; intro e he; have := hp e he; have := hg.start e he; have := hg.stop e he; omega) hs.1 hs.2.1 hs.2.2
  refine ⟨s', h1, fun q hq => ?_⟩
  obtain ⟨v1, v2⟩ := h5 q (reconstructed_iff.1 hq)
  have hsh := shiftOf_le k fun o => line d u.val q o ind
  obtain ⟨cl, hcl⟩ := value_sum (m := m) (r := shiftOf k fun o => line d u.val q o ind) (s := shiftOf k fun o => line d u.val q o ind)
    (by omega : 1 ≤ k) hk4 (by omega)
  obtain ⟨cr, hcr⟩ := value_sum (m := m) (r := (shiftOf k fun o => line d u.val q o ind) + 1) (s := shiftOf k fun o => line d u.val q o ind)
    (by omega : 1 ≤ k) hk4 (by omega)
  exact ⟨shiftOf k fun o => line d u.val q o ind, by omega, cl, cr, by rw [v1, hcl]; rfl, by rw [v2, hcr]; rfl⟩

/-- C26, exactness. If a variable holds the cell averages of a polynomial of degree below `k` around a cell (in the `k - 1` cells on either side, cells of
width `h`, the cell itself being `[x0, x0 + h]`), its two face values are the values of the polynomial at the faces, whichever stencil the indicator
variable selects. Partial: the property names the orders 1 to 4, order 1 does not work at all (`C26_order_one_is_undefined`). -/
theorem C26_exact_on_polynomials_partial (k d : Nat) (hk : 2 ≤ k) (hk4 : k ≤ 4) (ind : Fin m) (active n start stop : I3) (hg : Geo k d active start stop)
    (u : Arr I3 (Vec m)) (hu : u.inb = inSize n) (s : Eno.State m) (hs : EnoSized n s) :
    ∃ s', perform k d ind active n start stop u s = .ok s' ∧ ∀ q, Reconstructed k d active n start stop q →
      ∀ (i : Fin m) (p : Polynomial ℝ) (x0 h : ℝ), h ≠ 0 → p.natDegree < k →
        (∀ o : Int, -((k : Int) - 1) ≤ o → o ≤ (k : Int) - 1 → u.val (q + step d o) i = cellAverage p (x0 + o * h) (x0 + (o + 1) * h)) →
        s'.left.val q i = p.eval x0 ∧ s'.right.val q i = p.eval (x0 + h) := by
  obtain ⟨s', h1, h2, h3, h4, h5, _⟩ := perform_ok hg hk hk4 ind (u := u) (fun p hp => by
    rw [hu, Diffusion.inSize_get]; intro e he; have := hp e he; have := hg.start e he; have := hg.stop e he; omega) hs.1 hs.2.1 hs.2.2
  refine ⟨s', h1, fun q hq i p x0 h hh hp hdata => ?_⟩
  obtain ⟨v1, v2⟩ := h5 q (reconstructed_iff.1 hq)
  have hsh := shiftOf_le k fun o => line d u.val q o ind
  rw [v1, v2]
  exact value_exact (by omega) hk4 hsh p hp x0 h hh _ i fun o o1 o2 => hdata o (by omega) (by omega)

/-- C26 for order 1 (instantiated at the end of ENOCPU.cpp, but not offered by the factory): the behaviour is undefined, since the object has no divided
difference array. -/
theorem C26_order_one_is_undefined (d : Nat) (ind : Fin m) (active n start stop : I3) (u : Arr I3 (Vec m)) (s : Eno.State m) :
    perform 1 d ind active n start stop u s = .error .ub := rfl

/-- Buffers for the examples. -/
noncomputable def exEno (n : I3) : Eno.State 1 := ⟨fun _ => field n fun _ => 7, field n fun _ _ => 0, field n fun _ _ => 0⟩

theorem exEno_sized (n : I3) : EnoSized n (exEno n) := ⟨fun _ => rfl, rfl, rfl⟩

theorem exGeo (k : Nat) : Geo k 0 ⟨1, 0, 0⟩ 0 0 := ⟨by decide, by decide, rfl, by decide, by decide⟩

/-- A cell in the middle of a one dimensional volume with cell averages of `x ^ 2`: the reconstruction of order 3 gives `9` and `16`. -/
example : ∃ s', perform 3 0 (0 : Fin 1) ⟨1, 0, 0⟩ ⟨9, 1, 1⟩ 0 0
      (field ⟨9, 1, 1⟩ fun p _ => cellAverage (Polynomial.X ^ 2) p.x (p.x + 1)) (exEno ⟨9, 1, 1⟩) = .ok s' ∧
    s'.left.val ⟨3, 0, 0⟩ 0 = 9 ∧ s'.right.val ⟨3, 0, 0⟩ 0 = 16 := by
  obtain ⟨s', h1, h2⟩ := C26_exact_on_polynomials_partial 3 0 (by decide) (by decide) (0 : Fin 1) ⟨1, 0, 0⟩ ⟨9, 1, 1⟩ 0 0 (exGeo 3)
    (field ⟨9, 1, 1⟩ fun p _ => cellAverage (Polynomial.X ^ 2) p.x (p.x + 1)) rfl (exEno ⟨9, 1, 1⟩) (exEno_sized _)
  obtain ⟨a, b⟩ := h2 ⟨3, 0, 0⟩ (by unfold Reconstructed; decide) 0 (Polynomial.X ^ 2) 3 1 one_ne_zero (by simp) (fun o o1 o2 => by
    simp only [field, I3.add_x, step, if_true]
    congr 1 <;> push_cast <;> ring)
  refine ⟨s', h1, ?_, ?_⟩
  · rw [a]; simp; norm_num
  · rw [b]; simp; norm_num

/-- Only the interior of the region is readable. -/
example : ∃ s', perform 4 0 (0 : Fin 1) ⟨1, 0, 0⟩ ⟨20, 1, 1⟩ ⟨4, 0, 0⟩ ⟨-4, 0, 0⟩
    { inb := fun p => decide (4 ≤ p.x ∧ p.x < 16 ∧ p.y = 0 ∧ p.z = 0), val := fun p _ => p.x } (exEno ⟨20, 1, 1⟩) = .ok s' :=
  (C26_stays_in_bounds 4 0 (by decide) (by decide) (0 : Fin 1) ⟨1, 0, 0⟩ ⟨20, 1, 1⟩ ⟨4, 0, 0⟩ ⟨-4, 0, 0⟩ ⟨by decide, by decide, rfl, by decide, by decide⟩ _
    (by
      intro p
      simp only [decide_eq_true_eq]
      constructor
      · rintro h e he; interval_cases e <;> simp [I3.get] <;> omega
      · intro h
        have h0 := h 0 (by decide); have h1 := h 1 (by decide); have h2 := h 2 (by decide)
        simp [I3.get] at h0 h1 h2
        omega) _ (exEno_sized _)).imp fun _ h => h.1

/-- Full statement of C27 for one order: if the indicator variable is constant on some stencil of `k` consecutive cells containing the cell, both face
values are that constant. -/
def AvoidsJumps (k : Nat) (shifts : Nat → Prop) : Prop :=
  ∀ (m : Nat) (ind : Fin m) (d : Nat) (active n start stop : I3), Geo k d active start stop → ∀ (u : Arr I3 (Vec m)), u.inb = inSize n →
    ∀ s, EnoSized n s → ∃ s', perform k d ind active n start stop u s = .ok s' ∧ ∀ q, Reconstructed k d active n start stop q →
      ∀ (shift : Nat) (c : ℝ), shift < k → shifts shift → (∀ j : Nat, j < k → u.val (q + step d (j - shift)) ind = c) →
        s'.left.val q ind = c ∧ s'.right.val q ind = c

theorem avoids_of {k : Nat} (hk : 2 ≤ k) (hk4 : k ≤ 4) {shifts : Nat → Prop}
    (h : ∀ (f : Int → ℝ) (shift : Nat) (c : ℝ), shift < k → shifts shift → (∀ j : Nat, j < k → f (j - shift) = c) →
      ∀ o : Int, -(shiftOf k f) ≤ o → o ≤ (k : Int) - 1 - shiftOf k f → f o = c) : AvoidsJumps k shifts := by
  intro m ind d active n start stop hg u hu s hs
  obtain ⟨s', h1, h2, h3, h4, h5, _⟩ := perform_ok hg hk hk4 ind (u := u) (fun p hp => by
    rw [hu, Diffusion.inSize_get]; intro e he; have := hp e he; have := hg.start e he; have := hg.stop e he; omega) hs.1 hs.2.1 hs.2.2
  refine ⟨s', h1, fun q hq shift c hs1 hs2 hdata => ?_⟩
  obtain ⟨v1, v2⟩ := h5 q (reconstructed_iff.1 hq)
  have hsh := shiftOf_le k fun o => line d u.val q o ind
  have := h (fun o => line d u.val q o ind) shift c hs1 hs2 hdata
  rw [v1, v2]
  exact ⟨value_const (by omega) hk4 (by omega) _ ind c this, value_const (by omega) hk4 (by omega) _ ind c this⟩

/-- C27 for order 2: all stencils. -/
theorem C27_order_two : AvoidsJumps 2 fun _ => True := by
  refine avoids_of le_rfl (by decide) fun f shift c h1 _ hf => ?_
  interval_cases shift
  · have a := hf 0 (by decide); have b := hf 1 (by decide)
    rw [shiftOf_right_const 2 f c fun o o1 o2 => by
      have : o = 0 ∨ o = 1 := by omega
      rcases this with rfl | rfl
      · simpa using a
      · simpa using b]
    intro o o1 o2
    have : o = 0 ∨ o = 1 := by omega
    rcases this with rfl | rfl
    · simpa using a
    · simpa using b
  · have a := hf 0 (by decide); have b := hf 1 (by decide)
    refine shiftOf_central_const le_rfl (by decide) f c fun o o1 o2 => ?_
    have : o = -1 ∨ o = 0 := by omega
    rcases this with rfl | rfl
    · simpa using a
    · simpa using b

/-- C27 for orders 3 and 4, only for constant stencils reaching at most one cell to the left. Missing: the stencils reaching further to the left, for which
the statement is false (`C27_fails_at_a_step`). -/
theorem C27_higher_orders_partial (k : Nat) (hk : 3 ≤ k) (hk4 : k ≤ 4) : AvoidsJumps k fun shift => shift ≤ 1 := by
  refine avoids_of (by omega) hk4 fun f shift c h1 hs hf => ?_
  interval_cases shift
  · have hf' : ∀ o : Int, 0 ≤ o → o ≤ (k : Int) - 1 → f o = c := by
      intro o o1 o2
      have := hf o.toNat (by omega)
      rwa [show ((o.toNat : Int) - ((0 : Nat) : Int)) = o by omega] at this
    rw [shiftOf_right_const k f c hf']
    intro o o1 o2
    exact hf' o (by omega) (by omega)
  · refine shiftOf_central_const (by omega) hk4 f c fun o o1 o2 => ?_
    have := hf (o + 1).toNat (by omega)
    rwa [show (((o + 1).toNat : Int) - ((1 : Nat) : Int)) = o by omega] at this

/-- C27 fails for orders 3 and 4: at a step (0 up to and including the cell, 1 to the right of it) the cell and its left neighbours are constant, but the left
face value is `-1/6` for order 3 and `-1/3` for order 4. The cause is that higher divided differences are always compared around the cell instead of
around the stencil selected so far. -/
theorem C27_fails_at_a_step :
    (∃ s', perform 3 0 (0 : Fin 1) ⟨1, 0, 0⟩ ⟨9, 1, 1⟩ 0 0 (field ⟨9, 1, 1⟩ fun p _ => if p.x ≤ 4 then 0 else 1) (exEno ⟨9, 1, 1⟩) = .ok s' ∧
      s'.left.val ⟨4, 0, 0⟩ 0 = -1 / 6) ∧
    (∃ s', perform 4 0 (0 : Fin 1) ⟨1, 0, 0⟩ ⟨9, 1, 1⟩ 0 0 (field ⟨9, 1, 1⟩ fun p _ => if p.x ≤ 4 then 0 else 1) (exEno ⟨9, 1, 1⟩) = .ok s' ∧
      s'.left.val ⟨4, 0, 0⟩ 0 = -1 / 3) ∧
    ¬ AvoidsJumps 3 (fun _ => True) ∧ ¬ AvoidsJumps 4 (fun _ => True) := by
  have hin : ∀ p : I3, (∀ e < 3, (0 : I3).get e ≤ p.get e ∧ p.get e < (⟨9, 1, 1⟩ : I3).get e + (0 : I3).get e) →
      (field ⟨9, 1, 1⟩ fun p (_ : Fin 1) => if p.x ≤ 4 then (0 : ℝ) else 1).inb p = true := by
    intro p hp
    show inSize ⟨9, 1, 1⟩ p = true
    rw [Diffusion.inSize_get]
    intro e he
    have := hp e he
    interval_cases e <;> simp [I3.get] at this ⊢ <;> omega
  have h3 : ∃ s', perform 3 0 (0 : Fin 1) ⟨1, 0, 0⟩ ⟨9, 1, 1⟩ 0 0 (field ⟨9, 1, 1⟩ fun p _ => if p.x ≤ 4 then 0 else 1) (exEno ⟨9, 1, 1⟩) = .ok s' ∧
      s'.left.val ⟨4, 0, 0⟩ 0 = -1 / 6 := by
    obtain ⟨s', h1, _, _, _, h5, _⟩ := perform_ok (exGeo 3) (by decide) (by decide) (0 : Fin 1) hin (exEno_sized ⟨9, 1, 1⟩).1 (exEno_sized ⟨9, 1, 1⟩).2.1
      (exEno_sized ⟨9, 1, 1⟩).2.2
    refine ⟨s', h1, ?_⟩
    rw [(h5 ⟨4, 0, 0⟩ (by decide)).1]
    have hs : shiftOf 3 (fun o => line 0 (field ⟨9, 1, 1⟩ fun p (_ : Fin 1) => if p.x ≤ 4 then (0 : ℝ) else 1).val ⟨4, 0, 0⟩ o 0) = 1 := by
      norm_num [shiftOf, List.range_succ, fdiff, line, field, step]
    rw [hs, value_apply]
    norm_num [table, line, field, step, List.zipIdx_cons]
  have h4 : ∃ s', perform 4 0 (0 : Fin 1) ⟨1, 0, 0⟩ ⟨9, 1, 1⟩ 0 0 (field ⟨9, 1, 1⟩ fun p _ => if p.x ≤ 4 then 0 else 1) (exEno ⟨9, 1, 1⟩) = .ok s' ∧
      s'.left.val ⟨4, 0, 0⟩ 0 = -1 / 3 := by
    obtain ⟨s', h1, _, _, _, h5, _⟩ := perform_ok (exGeo 4) (by decide) (by decide) (0 : Fin 1) hin (exEno_sized ⟨9, 1, 1⟩).1 (exEno_sized ⟨9, 1, 1⟩).2.1
      (exEno_sized ⟨9, 1, 1⟩).2.2
    refine ⟨s', h1, ?_⟩
    rw [(h5 ⟨4, 0, 0⟩ (by decide)).1]
    have hs : shiftOf 4 (fun o => line 0 (field ⟨9, 1, 1⟩ fun p (_ : Fin 1) => if p.x ≤ 4 then (0 : ℝ) else 1).val ⟨4, 0, 0⟩ o 0) = 1 := by
      norm_num [shiftOf, List.range_succ, fdiff, line, field, step]
    rw [hs, value_apply]
    norm_num [table, line, field, step, List.zipIdx_cons]
  refine ⟨h3, h4, fun h => ?_, fun h => ?_⟩
  · obtain ⟨s, a1, a2⟩ := h3
    obtain ⟨s', b1, b2⟩ := h 1 0 0 ⟨1, 0, 0⟩ ⟨9, 1, 1⟩ 0 0 (exGeo 3) (field ⟨9, 1, 1⟩ fun p _ => if p.x ≤ 4 then 0 else 1) rfl (exEno _) (exEno_sized _)
    rw [a1] at b1
    obtain rfl := Except.ok.inj b1
    have := (b2 ⟨4, 0, 0⟩ (by unfold Reconstructed; decide) 2 0 (by decide) trivial (fun j hj => by
      interval_cases j <;> norm_num [field, step])).1
    rw [a2] at this; norm_num at this
  · obtain ⟨s, a1, a2⟩ := h4
    obtain ⟨s', b1, b2⟩ := h 1 0 0 ⟨1, 0, 0⟩ ⟨9, 1, 1⟩ 0 0 (exGeo 4) (field ⟨9, 1, 1⟩ fun p _ => if p.x ≤ 4 then 0 else 1) rfl (exEno _) (exEno_sized _)
    rw [a1] at b1
    obtain rfl := Except.ok.inj b1
    have := (b2 ⟨4, 0, 0⟩ (by unfold Reconstructed; decide) 3 0 (by decide) trivial (fun j hj => by
      interval_cases j <;> norm_num [field, step])).1
    rw [a2] at this; norm_num at this

/-- A step to the right of the cell, order 2: both face values are 0. -/
example : ∃ s', perform 2 0 (0 : Fin 1) ⟨1, 0, 0⟩ ⟨9, 1, 1⟩ 0 0 (field ⟨9, 1, 1⟩ fun p _ => if p.x ≤ 4 then 0 else 1) (exEno ⟨9, 1, 1⟩) = .ok s' ∧
    s'.left.val ⟨4, 0, 0⟩ 0 = 0 ∧ s'.right.val ⟨4, 0, 0⟩ 0 = 0 := by
  obtain ⟨s', b1, b2⟩ := C27_order_two 1 0 0 ⟨1, 0, 0⟩ ⟨9, 1, 1⟩ 0 0 (exGeo 2) (field ⟨9, 1, 1⟩ fun p _ => if p.x ≤ 4 then 0 else 1) rfl (exEno _)
    (exEno_sized _)
  exact ⟨s', b1, b2 ⟨4, 0, 0⟩ (by unfold Reconstructed; decide) 1 0 (by decide) trivial (fun j hj => by interval_cases j <;> norm_num [field, step])⟩

/-- A step to the left of the cell, order 4: both face values are 1. -/
example : ∃ s', perform 4 0 (0 : Fin 1) ⟨1, 0, 0⟩ ⟨9, 1, 1⟩ 0 0 (field ⟨9, 1, 1⟩ fun p _ => if p.x ≤ 3 then 0 else 1) (exEno ⟨9, 1, 1⟩) = .ok s' ∧
    s'.left.val ⟨4, 0, 0⟩ 0 = 1 ∧ s'.right.val ⟨4, 0, 0⟩ 0 = 1 := by
  obtain ⟨s', b1, b2⟩ := C27_higher_orders_partial 4 (by decide) (by decide) 1 0 0 ⟨1, 0, 0⟩ ⟨9, 1, 1⟩ 0 0 (exGeo 4)
    (field ⟨9, 1, 1⟩ fun p _ => if p.x ≤ 3 then 0 else 1) rfl (exEno _) (exEno_sized _)
  exact ⟨s', b1, b2 ⟨4, 0, 0⟩ (by unfold Reconstructed; decide) 0 1 (by decide) (by decide) (fun j hj => by interval_cases j <;> norm_num [field, step])⟩

example := C26_stencil_contains_cell 3 0 (by decide) (by decide) (0 : Fin 1) ⟨1, 0, 0⟩ ⟨9, 1, 1⟩ 0 0 (exGeo 3) (field ⟨9, 1, 1⟩ fun p _ => (p.x : ℝ) ^ 2) rfl (exEno ⟨9, 1, 1⟩) (exEno_sized _)

end Verif.Props
