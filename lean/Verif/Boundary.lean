import Verif.Basic
import Mathlib.Tactic.IntervalCases

/-!
Model of the boundary conditions: alsfvm/src/boundary/BoundaryCPU.cpp, alsfvm/include/alsfvm/boundary/Neumann.hpp, Periodic.hpp and
ValueAtBoundary.hpp.
-/

namespace Verif

/-- The two boundary conditions a grid can ask `BoundaryCPU` for (BoundaryCPU.cpp:123-124). -/
inductive BC where
  | neumann
  | periodic
  deriving DecidableEq, Repr

namespace Boundary
variable {α : Type}

/-- 0/1 value of the flags `xDir`, `yDir`, `zDir` (BoundaryCPU.cpp:68-70). -/
def flag (d e : Nat) : Int := if d = e then 1 else 0

/-- `sign` (Neumann.hpp:28, Periodic.hpp:32). -/
def sign (top : Bool) : Int := if top then -1 else 1

/-- The ghost cell written (Neumann.hpp:29-31, Periodic.hpp:36-38). The `size_t` arithmetic of Neumann wraps around to the same
value. -/
def target (d : Nat) (top : Bool) (c : I3) (k : Int) : I3 :=
  ⟨c.x - sign top * k * flag d 0, c.y - sign top * k * flag d 1, c.z - sign top * k * flag d 2⟩

/-- The cell read (Neumann.hpp:32-34, Periodic.hpp:33-41). `n` is the size of the memory area including ghost cells. -/
def source (bc : BC) (n : I3) (g : Nat) (d : Nat) (top : Bool) (c : I3) (k : Int) : I3 :=
  match bc with
  | .neumann => ⟨c.x + sign top * (k - 1) * flag d 0, c.y + sign top * (k - 1) * flag d 1, c.z + sign top * (k - 1) * flag d 2⟩
  | .periodic =>
    ⟨c.x + sign top * (-k + (n.x - 2 * g)) * flag d 0, c.y + sign top * (-k + (n.y - 2 * g)) * flag d 1,
     c.z + sign top * (-k + (n.z - 2 * g)) * flag d 2⟩

/-- First cell of the loops of one side (BoundaryCPU.cpp:72-85). -/
def sideStart (n : I3) (g : Nat) (d : Nat) (top : Bool) : I3 :=
  ⟨if d = 0 then (if top then n.x - g - 1 else g) else 0, if d = 1 then (if top then n.y - g - 1 else g) else 0,
   if d = 2 then (if top then n.z - g - 1 else g) else 0⟩

/-- End of the loops of one side (BoundaryCPU.cpp:75-88). -/
def sideEnd (n : I3) (g : Nat) (d : Nat) (top : Bool) : I3 :=
  let s := sideStart n g d top
  ⟨if d = 0 then s.x + 1 else n.x, if d = 1 then s.y + 1 else n.y, if d = 2 then s.z + 1 else n.z⟩

/-- Body of the loops over x, y, z: the loop over `ghostCell` (BoundaryCPU.cpp:94-97). -/
def applyCell (bc : BC) (n : I3) (g : Nat) (d : Nat) (top : Bool) (a : Arr I3 α) (c : I3) : Res (Arr I3 α) :=
  (irange 1 (g + 1)).foldlM (fun b k => do
    let v ← b.rd (source bc n g d top c k)
    b.wr (target d top c k) v) a

/-- One side of one variable (BoundaryCPU.cpp:68-100). -/
def applySide (bc : BC) (n : I3) (g : Nat) (d : Nat) (top : Bool) (a : Arr I3 α) : Res (Arr I3 α) :=
  (box (sideStart n g d top) (sideEnd n g d top)).foldlM (applyCell bc n g d top) a

/-- Both sides of one direction; sides handled by message passing are skipped (BoundaryCPU.cpp:59-103). `mpi side` stands for
`grid.getBoundaryCondition(side) == MPI_BC`. -/
def applyDir (bc : BC) (n : I3) (g : Nat) (mpi : Nat → Bool) (a : Arr I3 α) (d : Nat) : Res (Arr I3 α) :=
  [false, true].foldlM (fun b top =>
    if mpi (2 * d + if top then 1 else 0) then pure b else applySide bc n g d top b) a

/-- `applyBoundary` for a volume given as one area per variable, all of size `n` (BoundaryCPU.cpp:31-106). -/
def apply (bc : BC) (n : I3) (g dims : Nat) (mpi : Nat → Bool) (areas : List (Arr I3 α)) : Res (List (Arr I3 α)) :=
  if n.x < 2 * g ∨ (1 < dims ∧ n.y < 2 * g) ∨ (2 < dims ∧ n.z < 2 * g) then .error .thrown
  else areas.mapM fun a => (List.range dims).foldlM (applyDir bc n g mpi) a

/-! ### Helper lemmas -/

theorem pairwise_lt_irange (a b : Int) : (irange a b).Pairwise (· < ·) := by
  unfold irange
  rw [List.pairwise_map]
  exact List.pairwise_lt_range.imp (by intro i j h; omega)

theorem irange_prefix {a b i : Int} {pre post : List Int} (h : irange a b = pre ++ i :: post) (j : Int) :
    j ∈ pre ↔ a ≤ j ∧ j < i := by
  have hp := pairwise_lt_irange a b
  rw [h, List.pairwise_append] at hp
  obtain ⟨_, h2, h3⟩ := hp
  have hi : i ∈ irange a b := by simp [h]
  simp only [mem_irange] at hi
  constructor
  · intro hj
    have : j ∈ irange a b := by simp [h, hj]
    simp only [mem_irange] at this
    exact ⟨this.1, h3 j hj i (by simp)⟩
  · rintro ⟨h4, h5⟩
    have : j ∈ irange a b := by simp only [mem_irange]; omega
    rw [h] at this
    rcases List.mem_append.1 this with h6 | h6
    · exact h6
    · rcases List.mem_cons.1 h6 with h7 | h7
      · omega
      · have := (List.pairwise_cons.1 h2).1 j h7; omega

theorem get_set_self (p : I3) (d : Nat) (t : Int) : (p.set d t).get d = t := by
  unfold I3.set I3.get; split_ifs <;> simp_all

theorem set_set (p : I3) (d : Nat) (s t : Int) : (p.set d s).set d t = p.set d t := by
  unfold I3.set; split_ifs <;> rfl

theorem set_get (p : I3) (d : Nat) : p.set d (p.get d) = p := by
  unfold I3.set I3.get; split_ifs <;> rfl

/-- Target and source stay on the grid line through `c`. -/
theorem target_eq {d : Nat} (hd : d < 3) (top : Bool) (c : I3) (k : Int) :
    target d top c k = c.set d (c.get d - sign top * k) := by
  unfold target I3.set I3.get flag
  interval_cases d <;> simp

/-- Coordinate read, as a function of the coordinate of the edge cell. -/
def srcCoord (bc : BC) (N : Int) (top : Bool) (c k : Int) : Int :=
  match bc with
  | .neumann => c + sign top * (k - 1)
  | .periodic => c + sign top * (-k + N)

theorem source_eq {bc : BC} {n : I3} {g d : Nat} (hd : d < 3) (top : Bool) (c : I3) (k : Int) :
    source bc n g d top c k = c.set d (srcCoord bc (n.get d - 2 * g) top (c.get d) k) := by
  unfold source I3.set I3.get flag srcCoord
  cases bc <;> interval_cases d <;> simp

/-- Wrap a coordinate into the interior `[g, g+N)` (specification of periodic ghost cells). -/
def wrap (g N c : Int) : Int := g + (c - g) % N

/-- Mirror a coordinate at the nearest edge of the interior `[g, g+N)` (specification of Neumann ghost cells). -/
def mirror (g N c : Int) : Int := if c < g then 2 * g - 1 - c else if g + N ≤ c then 2 * (g + N) - 1 - c else c

/-- The interior coordinate a ghost cell takes its value from (specification). -/
def image (bc : BC) (g N c : Int) : Int :=
  match bc with
  | .neumann => mirror g N c
  | .periodic => wrap g N c

/-- Is coordinate `c` in the ghost layer of this side? -/
def inGhost (g N : Int) (top : Bool) (c : Int) : Prop := if top then g + N ≤ c ∧ c < N + 2 * g else 0 ≤ c ∧ c < g

instance (g N : Int) (top : Bool) (c : Int) : Decidable (inGhost g N top c) := by unfold inGhost; infer_instance

/-- Coordinate of the edge cell of a side. -/
def edge (g N : Int) (top : Bool) : Int := if top then N + g - 1 else g

theorem wrap_interior {g N c : Int} (h : g ≤ c) (h' : c < g + N) : wrap g N c = c := by
  unfold wrap; rw [Int.emod_eq_of_lt (by omega) (by omega)]; omega

theorem mirror_interior {g N c : Int} (h : g ≤ c) (h' : c < g + N) : mirror g N c = c := by
  unfold mirror; split_ifs <;> omega

theorem image_interior {bc : BC} {g N c : Int} (h : g ≤ c) (h' : c < g + N) : image bc g N c = c := by
  cases bc
  · exact mirror_interior h h'
  · exact wrap_interior h h'

theorem wrap_add_period {g N c : Int} : wrap g N (c + N) = wrap g N c := by
  unfold wrap
  have : c + N - g = (c - g) + N := by ring
  rw [this, Int.add_emod_right]

theorem inGhost_iff {g N : Int} {top : Bool} {c : Int} :
    inGhost g N top c ↔ ∃ k, 1 ≤ k ∧ k ≤ g ∧ c = edge g N top - sign top * k := by
  unfold inGhost edge sign
  cases top
  · simp only [Bool.false_eq_true, if_false]
    exact ⟨fun h => ⟨g - c, by omega, by omega, by omega⟩, fun ⟨k, h⟩ => by omega⟩
  · simp only [if_true]
    exact ⟨fun h => ⟨c - (N + g - 1), by omega, by omega, by omega⟩, fun ⟨k, h⟩ => by omega⟩

/-- What the loop over ghost cells needs: every read is either of a cell not written by the loop, or of a ghost cell written earlier. -/
theorem coord_step {bc : BC} {g N : Int} (hN : 1 ≤ N) {top : Bool} {k : Int} (hk : 1 ≤ k) (hk' : k ≤ g) :
    let t := edge g N top - sign top * k
    let s := srcCoord bc N top (edge g N top) k
    (0 ≤ s ∧ s < N + 2 * g) ∧ (0 ≤ t ∧ t < N + 2 * g) ∧
    ((image bc g N t = s ∧ ¬ inGhost g N top s) ∨
     (∃ k', 1 ≤ k' ∧ k' < k ∧ edge g N top - sign top * k' = s ∧ image bc g N s = image bc g N t)) := by
  intro t s
  cases bc
  · simp only [t, s, srcCoord, image, mirror, edge, sign, inGhost]
    cases top
    · simp only [Bool.false_eq_true, if_false]
      refine ⟨by omega, by omega, Or.inl ⟨?_, by omega⟩⟩
      rw [if_pos (by omega)]; omega
    · simp only [if_true]
      refine ⟨by omega, by omega, Or.inl ⟨?_, by omega⟩⟩
      rw [if_neg (by omega), if_pos (by omega)]; omega
  · simp only [t, s, srcCoord, image, edge, sign, inGhost]
    cases top
    · simp only [Bool.false_eq_true, if_false]
      refine ⟨by omega, by omega, ?_⟩
      by_cases h : k ≤ N
      · left
        refine ⟨?_, by omega⟩
        have := wrap_interior (g := g) (N := N) (c := g - 1 * k + N) (by omega) (by omega)
        rw [wrap_add_period] at this
        rw [this]; omega
      · right
        refine ⟨k - N, by omega, by omega, by omega, ?_⟩
        have : g + 1 * (-k + N) = (g - 1 * k) + N := by ring
        rw [this, wrap_add_period]
    · simp only [if_true]
      refine ⟨by omega, by omega, ?_⟩
      by_cases h : k ≤ N
      · left
        refine ⟨?_, by omega⟩
        have := wrap_interior (g := g) (N := N) (c := N + g - 1 - (-1) * k - N) (by omega) (by omega)
        rw [← wrap_add_period, show N + g - 1 - (-1) * k - N + N = N + g - 1 - (-1) * k by ring] at this
        rw [this]; omega
      · right
        refine ⟨k - N, by omega, by omega, by omega, ?_⟩
        have : N + g - 1 - (-1) * k = (N + g - 1 + -1 * (-k + N)) + N := by ring
        rw [this, wrap_add_period]

/-- Is `p` an allocated cell? -/
theorem inSize_set {n c : I3} {d : Nat} (hd : d < 3) (hc : inSize n c = true) {t : Int} (h0 : 0 ≤ t) (h1 : t < n.get d) :
    inSize n (c.set d t) = true := by
  simp only [inSize_iff] at hc ⊢
  unfold I3.set; unfold I3.get at h1
  interval_cases d <;> simp_all

/-- The loop over ghost cells for one edge cell: sets the ghost cells on the grid line through the cell, nothing else. -/
theorem applyCell_ok {bc : BC} {n : I3} {g d : Nat} {top : Bool} {N : Int} (hd : d < 3) (hn : n.get d = N + 2 * g) (hN : 1 ≤ N)
    (a : Arr I3 α) (ha : a.inb = inSize n) {c : I3} (hc : inSize n c = true)
    (hce : c.get d = edge g N top) :
    ∃ a', applyCell bc n g d top a c = .ok a' ∧ a'.inb = inSize n ∧
      (∀ t, inGhost g N top t → a'.val (c.set d t) = a.val (c.set d (image bc g N t))) ∧
      ∀ p, (∀ t, inGhost g N top t → p ≠ c.set d t) → a'.val p = a.val p := by
  have key := foldlM_inv (fun (b : Arr I3 α) k => do
    let v ← b.rd (source bc n g d top c k)
    b.wr (target d top c k) v) (irange 1 (g + 1)) a
    (fun pre b => b.inb = inSize n ∧
      (∀ k ∈ pre, b.val (target d top c k) = a.val (c.set d (image bc g N (edge g N top - sign top * k)))) ∧
      ∀ p, (∀ k ∈ pre, p ≠ target d top c k) → b.val p = a.val p)
    ⟨ha, by simp, by simp⟩ ?_
  · obtain ⟨a', h1, h2, h3, h4⟩ := key
    refine ⟨a', h1, h2, ?_, ?_⟩
    · intro t ht
      obtain ⟨k, hk1, hk2, rfl⟩ := inGhost_iff.1 ht
      have := h3 k (by simp only [mem_irange]; omega)
      rwa [target_eq hd, hce] at this
    · intro p hp
      refine h4 p fun k hk => ?_
      simp only [mem_irange] at hk
      rw [target_eq hd, hce]
      exact hp _ (inGhost_iff.2 ⟨k, by omega, by omega, rfl⟩)
  · rintro pre k post b hl ⟨hb, hpre, hq⟩
    have hk : k ∈ irange 1 ((g : Int) + 1) := by simp [hl]
    simp only [mem_irange] at hk
    obtain ⟨⟨hs0, hs1⟩, ⟨ht0, ht1⟩, hor⟩ := coord_step (bc := bc) (g := g) (N := N) hN (top := top) (k := k) (by omega) (by omega)
    have hsin : b.inb (source bc n g d top c k) = true := by
      rw [hb, source_eq hd, hce, show n.get d - 2 * (g : Int) = N by omega]
      exact inSize_set hd hc hs0 (by omega)
    have htin : b.inb (target d top c k) = true := by
      rw [hb, target_eq hd, hce]
      exact inSize_set hd hc ht0 (by omega)
    have hval : b.val (source bc n g d top c k) = a.val (c.set d (image bc g N (edge g N top - sign top * k))) := by
      rw [source_eq hd, hce, show n.get d - 2 * (g : Int) = N by omega]
      rcases hor with ⟨h1, h2⟩ | ⟨k', h1, h2, h3, h4⟩
      · rw [h1]
        refine hq _ fun j hj hcon => h2 ?_
        have hj' := (irange_prefix hl j).1 hj
        rw [target_eq hd, hce] at hcon
        have := congrArg (fun q => I3.get q d) hcon
        simp only [get_set_self] at this
        exact inGhost_iff.2 ⟨j, by omega, by omega, this⟩
      · have := hpre k' ((irange_prefix hl k').2 ⟨h1, h2⟩)
        rw [target_eq hd, hce, h3] at this
        rw [this, h4]
    have hne : ∀ j ∈ pre, target d top c j ≠ target d top c k := by
      intro j hj hcon
      have hj' := (irange_prefix hl j).1 hj
      rw [target_eq hd, target_eq hd] at hcon
      have := congrArg (fun q => I3.get q d) hcon
      simp only [get_set_self] at this
      unfold sign at this; cases top <;> simp at this <;> omega
    refine ⟨{ b with val := Function.update b.val (target d top c k) (b.val (source bc n g d top c k)) }, ?_, hb, ?_, ?_⟩
    · simp only [Arr.rd_ok hsin, Res.ok_bind, Arr.wr_ok htin]
    · intro j hj
      rcases List.mem_append.1 hj with hj | hj
      · simp only [Function.update_of_ne (hne j hj), hpre j hj]
      · have : j = k := by simpa using hj
        subst this
        simp only [Function.update_self, hval]
    · intro p hp
      have h1 := hp k (by simp)
      simp only [Function.update_of_ne h1]
      exact hq p fun j hj => hp j (by simp [hj])

theorem mem_side {n : I3} {g d : Nat} {top : Bool} {N : Int} (hd : d < 3) (hn : n.get d = N + 2 * g) (hN : 1 ≤ N) (c : I3) :
    c ∈ box (sideStart n g d top) (sideEnd n g d top) ↔ inSize n c = true ∧ c.get d = edge g N top := by
  simp only [mem_box, inSize_iff, sideEnd, sideStart, edge]
  unfold I3.get at hn ⊢
  interval_cases d <;> cases top <;> simp at hn ⊢ <;> omega

/-- One side: every ghost cell of the side takes the value of its image, nothing else changes. -/
theorem applySide_ok {bc : BC} {n : I3} {g d : Nat} {top : Bool} {N : Int} (hd : d < 3) (hn : n.get d = N + 2 * g) (hN : 1 ≤ N)
    (a : Arr I3 α) (ha : a.inb = inSize n) :
    ∃ a', applySide bc n g d top a = .ok a' ∧ a'.inb = inSize n ∧
      (∀ p, inSize n p = true → a'.val p = if inGhost g N top (p.get d) then a.val (p.set d (image bc g N (p.get d))) else a.val p) ∧
      ∀ p, inSize n p = false → a'.val p = a.val p := by
  have hmem := fun c => mem_side (top := top) hd hn hN c
  have key := foldlM_inv (applyCell bc n g d top) (box (sideStart n g d top) (sideEnd n g d top)) a
    (fun pre b => b.inb = inSize n ∧
      (∀ c ∈ pre, ∀ t, inGhost g N top t → b.val (c.set d t) = a.val (c.set d (image bc g N t))) ∧
      ∀ p, (∀ c ∈ pre, ∀ t, inGhost g N top t → p ≠ c.set d t) → b.val p = a.val p)
    ⟨ha, by simp, by simp⟩ ?_
  · obtain ⟨a', h1, h2, h3, h4⟩ := key
    refine ⟨a', h1, h2, ?_, ?_⟩
    swap
    · intro p hp
      refine h4 p fun c hc t ht hcon => ?_
      obtain ⟨hc1, _⟩ := (hmem c).1 hc
      have : inSize n (c.set d t) = true := by
        refine inSize_set hd hc1 ?_ ?_ <;> · unfold inGhost at ht; split_ifs at ht <;> omega
      rw [← hcon, hp] at this; cases this
    intro p hp
    split_ifs with hgh
    · have hedge : inSize n (p.set d (edge g N top)) = true := by
        refine inSize_set hd hp ?_ ?_
        · unfold edge; split_ifs <;> omega
        · unfold edge; split_ifs <;> omega
      have := h3 (p.set d (edge g N top)) ((hmem _).2 ⟨hedge, get_set_self _ _ _⟩) _ hgh
      rwa [set_set, set_get, set_set] at this
    · refine h4 p fun c hc t ht hcon => hgh ?_
      rw [hcon, get_set_self]; exact ht
  · rintro pre c post b hl ⟨hb, hpre, hq⟩
    obtain ⟨hc1, hc2⟩ := (hmem c).1 (by simp [hl])
    obtain ⟨b', h1, h2, h3, h4⟩ := applyCell_ok (top := top) hd hn hN b hb hc1 hc2
    have hdiff : ∀ c' ∈ pre, ∀ s t, c'.set d s ≠ c.set d t := by
      intro c' hc' s t hcon
      have hnd := nodup_box (sideStart n g d top) (sideEnd n g d top)
      rw [hl, List.nodup_append] at hnd
      refine hnd.2.2 c' hc' c (by simp) ?_
      obtain ⟨_, he⟩ := (hmem c').1 (by simp [hl, hc'])
      rw [← set_get c' d, ← set_get c d, he, hc2, ← set_set c' d s, hcon, set_set]
    refine ⟨b', h1, h2, ?_, ?_⟩
    · intro c' hc' t ht
      rcases List.mem_append.1 hc' with hc' | hc'
      · rw [h4 _ (fun t' _ hcon => hdiff c' hc' t t' hcon)]
        exact hpre c' hc' t ht
      · have : c' = c := by simpa using hc'
        subst this
        rw [h3 t ht]
        refine hq _ fun c' hc' t' _ hcon => hdiff c' hc' _ _ hcon.symm
    · intro p hp
      rw [h4 p (fun t ht => hp c (by simp) t ht)]
      exact hq p fun c' hc' t ht => hp c' (by simp [hc']) t ht

/-- Coordinate a cell takes its value from when both sides of a direction have been treated; sides handled by message passing keep
their ghost cells (specification). -/
def imageDir (bc : BC) (g N : Int) (mpiLow mpiHigh : Bool) (c : Int) : Int :=
  if (c < g ∧ mpiLow = true) ∨ (g + N ≤ c ∧ mpiHigh = true) then c else image bc g N c

theorem image_bounds {bc : BC} {g N c : Int} (hN : 1 ≤ N) (hg : bc = .neumann → g ≤ N) (h0 : 0 ≤ c) (h1 : c < N + 2 * g) :
    g ≤ image bc g N c ∧ image bc g N c < g + N := by
  cases bc
  · have := hg rfl
    simp only [image, mirror]; split_ifs <;> omega
  · simp only [image, wrap]
    have h5 := Int.emod_nonneg (c - g) (show N ≠ 0 by omega)
    have h6 := Int.emod_lt_of_pos (c - g) (show 0 < N by omega)
    omega

theorem inSize_get {n p : I3} {d : Nat} (h : inSize n p = true) : 0 ≤ p.get d ∧ p.get d < n.get d := by
  simp only [inSize_iff] at h
  unfold I3.get; split_ifs <;> omega

theorem applyDir_ok {bc : BC} {n : I3} {g d : Nat} {mpi : Nat → Bool} {N : Int} (hd : d < 3) (hn : n.get d = N + 2 * g) (hN : 1 ≤ N)
    (hg : bc = .neumann → (g : Int) ≤ N) (a : Arr I3 α) (ha : a.inb = inSize n) :
    ∃ a', applyDir bc n g mpi a d = .ok a' ∧ a'.inb = inSize n ∧
      ∀ p, inSize n p = true →
        a'.val p = a.val (p.set d (imageDir bc g N (mpi (2 * d)) (mpi (2 * d + 1)) (p.get d))) := by
  have step : ∀ (top skip : Bool) (a : Arr I3 α), a.inb = inSize n →
      ∃ a', (if skip = true then (pure a : Res (Arr I3 α)) else applySide bc n g d top a) = .ok a' ∧ a'.inb = inSize n ∧
        ∀ p, inSize n p = true → a'.val p =
          if skip = false ∧ inGhost g N top (p.get d) then a.val (p.set d (image bc g N (p.get d))) else a.val p := by
    intro top skip a ha
    cases skip
    · obtain ⟨a', h1, h2, h3, _⟩ := applySide_ok (top := top) hd hn hN a ha
      exact ⟨a', by simpa using h1, h2, by simpa using h3⟩
    · exact ⟨a, by simp, ha, by simp⟩
  obtain ⟨a1, h1, h2, h3⟩ := step false (mpi (2 * d)) a ha
  obtain ⟨a2, h4, h5, h6⟩ := step true (mpi (2 * d + 1)) a1 h2
  refine ⟨a2, ?_, h5, ?_⟩
  · simp only [applyDir, List.foldlM_cons, List.foldlM_nil, Bool.false_eq_true, if_false, if_true, add_zero]
    rw [h1]; simp only [Res.ok_bind]; rw [h4]; rfl
  · intro p hp
    have hb := inSize_get (d := d) hp
    have hib := image_bounds (bc := bc) (g := g) (N := N) (c := p.get d) hN hg hb.1 (by omega)
    have hin : inSize n (p.set d (image bc g N (p.get d))) = true := inSize_set hd hp (by omega) (by omega)
    rw [h6 p hp, h3 p hp, h3 _ hin, get_set_self, set_set]
    unfold imageDir
    generalize hc : p.get d = c at *
    generalize mpi (2 * d) = l at *
    generalize mpi (2 * d + 1) = u at *
    have hself : p.set d c = p := by rw [← hc, set_get]
    have hng : ¬ inGhost g N false (image bc g N c) := by unfold inGhost; simp; omega
    have e1 : inGhost g N true c ↔ g + N ≤ c := by unfold inGhost; simp; omega
    have e2 : inGhost g N false c ↔ c < g := by unfold inGhost; simp; omega
    simp only [hng, e1, e2, and_false, if_false]
    by_cases hlo : c < g
    · have : ¬ (g + N ≤ c) := by omega
      cases l <;> cases u <;> simp [hlo, this, hself]
    · by_cases hhi : g + N ≤ c
      · cases l <;> cases u <;> simp [hlo, hhi, hself]
      · have hi := image_interior (bc := bc) (g := g) (N := N) (c := c) (by omega) (by omega)
        simp [hlo, hhi, hi, hself]

/-- The interior cell (or message-passing ghost cell) every cell takes its value from when all active directions have been treated
(specification). -/
def ghostSource (bc : BC) (g : Int) (N : I3) (dims : Nat) (mpi : Nat → Bool) (p : I3) : I3 :=
  ⟨if 0 < dims then imageDir bc g N.x (mpi 0) (mpi 1) p.x else p.x,
   if 1 < dims then imageDir bc g N.y (mpi 2) (mpi 3) p.y else p.y,
   if 2 < dims then imageDir bc g N.z (mpi 4) (mpi 5) p.z else p.z⟩

theorem imageDir_bounds {bc : BC} {g N c : Int} {l u : Bool} (hN : 1 ≤ N) (hg : bc = .neumann → g ≤ N) (h0 : 0 ≤ c)
    (h1 : c < N + 2 * g) (hg0 : 0 ≤ g) : 0 ≤ imageDir bc g N l u c ∧ imageDir bc g N l u c < N + 2 * g := by
  have := image_bounds (bc := bc) (g := g) (N := N) (c := c) hN hg h0 h1
  unfold imageDir; split_ifs <;> omega

theorem mapM_forall₂ {β γ : Type} (f : β → Res γ) (R : β → γ → Prop) (l : List β) (h : ∀ a ∈ l, ∃ b, f a = .ok b ∧ R a b) :
    ∃ l', l.mapM f = .ok l' ∧ List.Forall₂ R l l' := by
  induction l with
  | nil => exact ⟨[], by simp, .nil⟩
  | cons a l ih =>
    obtain ⟨b, h1, h2⟩ := h a (by simp)
    obtain ⟨l', h3, h4⟩ := ih fun a ha => h a (by simp [ha])
    exact ⟨b :: l', by simp [h1, h3], .cons h2 h4⟩

/-- All directions and variables. -/
theorem apply_ok {bc : BC} {n N : I3} {g dims : Nat} {mpi : Nat → Bool} (hdim : dims ≤ 3) (hn : ∀ d < dims, n.get d = N.get d + 2 * g)
    (hN : ∀ d < dims, 1 ≤ N.get d) (hpos : 0 < dims) (hg : bc = .neumann → ∀ d < dims, (g : Int) ≤ N.get d)
    (areas : List (Arr I3 α)) (ha : ∀ a ∈ areas, a.inb = inSize n) :
    ∃ areas', apply bc n g dims mpi areas = .ok areas' ∧
      List.Forall₂ (fun a a' => a'.inb = inSize n ∧
        ∀ p, inSize n p = true → a'.val p = a.val (ghostSource bc g N dims mpi p)) areas areas' := by
  have hguard : ¬ (n.x < 2 * (g : Int) ∨ (1 < dims ∧ n.y < 2 * (g : Int)) ∨ (2 < dims ∧ n.z < 2 * (g : Int))) := by
    rintro (h | ⟨h, h'⟩ | ⟨h, h'⟩)
    · have := hn 0 hpos; have := hN 0 hpos; simp [I3.get] at *; omega
    · have := hn 1 h; have := hN 1 h; simp [I3.get] at *; omega
    · have := hn 2 h; have := hN 2 h; simp [I3.get] at *; omega
  simp only [apply, hguard, if_false]
  refine mapM_forall₂ _ _ _ fun a hmem => ?_
  have dirs : ∀ m ≤ dims, ∃ a', (List.range m).foldlM (applyDir bc n g mpi) a = .ok a' ∧ a'.inb = inSize n ∧
      ∀ p, inSize n p = true → a'.val p = a.val (ghostSource bc g N m mpi p) := by
    intro m
    induction m with
    | zero => intro _; exact ⟨a, by simp, ha a hmem, fun p _ => by simp [ghostSource]⟩
    | succ m ih =>
      intro hm
      obtain ⟨a1, h1, h2, h3⟩ := ih (by omega)
      obtain ⟨a2, h4, h5, h6⟩ := applyDir_ok (bc := bc) (n := n) (g := g) (d := m) (mpi := mpi) (N := N.get m) (by omega)
        (hn m (by omega)) (hN m (by omega)) (fun h => hg h m (by omega)) a1 h2
      refine ⟨a2, by simp [List.range_succ, List.foldlM_append, h1, h4], h5, ?_⟩
      intro p hp
      have hb := inSize_get (d := m) hp
      have hnm := hn m (by omega)
      have hib := imageDir_bounds (bc := bc) (g := g) (N := N.get m) (c := p.get m) (l := mpi (2 * m)) (u := mpi (2 * m + 1))
        (hN m (by omega)) (fun h => hg h m (by omega)) hb.1 (by omega) (by omega)
      rw [h6 p hp, h3 _ (inSize_set (by omega) hp hib.1 (by omega))]
      congr 1
      have : m = 0 ∨ m = 1 ∨ m = 2 := by omega
      rcases this with rfl | rfl | rfl <;> simp [ghostSource, I3.set, I3.get]
  obtain ⟨a', h1, h2, h3⟩ := dirs dims le_rfl
  exact ⟨a', h1, h2, h3⟩

/-! ### Offset lookups -/

/-- `makePositive` (ValueAtBoundary.hpp:43-50). A loop that never ends and has no side effects is undefined behaviour. -/
def makePositive (position N : Int) : Res Int :=
  if position < 0 then
    if 0 < N then makePositive (position + N) N else .error .ub
  else .ok position
termination_by (-position).toNat
decreasing_by omega

/-- C++ `a % b` on `int`: truncated remainder, undefined for a zero divisor. -/
def cmod (a b : Int) : Res Int := if b = 0 then .error .ub else .ok (Int.tmod a b)

/-- `ValueAtBoundary<PERIODIC>::getValueAtBoundary` (ValueAtBoundary.hpp:20-58). -/
def valuePeriodic (view : Arr I3 α) (pos N g : I3) : Res α := do
  let px ← makePositive pos.x N.x
  let py ← makePositive pos.y N.y
  let pz ← makePositive pos.z N.z
  let mx ← cmod px N.x
  let my ← cmod py N.y
  let mz ← cmod pz N.z
  view.rd (⟨mx, my, mz⟩ + g)

/-- `ValueAtBoundary<NEUMANN>::getValueAtBoundary` (ValueAtBoundary.hpp:63-96). -/
def valueNeumann (view : Arr I3 α) (pos N g : I3) : Res α :=
  view.rd (⟨max 0 (min pos.x (N.x - 1)), max 0 (min pos.y (N.y - 1)), max 0 (min pos.z (N.z - 1))⟩ + g)

theorem makePositive_ok (position N : Int) (hN : 0 < N) :
    ∃ q, makePositive position N = .ok q ∧ 0 ≤ q ∧ q % N = position % N := by
  induction position using makePositive.induct (N := N) with
  | case1 position h1 h2 ih =>
    obtain ⟨q, h, h3, h4⟩ := ih
    rw [makePositive, if_pos h1, if_pos h2]
    exact ⟨q, h, h3, by rw [h4, Int.add_emod_right]⟩
  | case2 position h1 h2 => omega
  | case3 position h1 =>
    rw [makePositive, if_neg h1]
    exact ⟨position, rfl, by omega, rfl⟩

end Boundary
end Verif
