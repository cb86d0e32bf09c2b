import Verif.Boundary
import Verif.Gpu

/-!
Model of the boundary conditions on the graphics card: alsfvm/src/boundary/BoundaryCUDA.cu. The place of a memory access is the cell
of the memory area of one variable.
-/

namespace Verif.CudaBoundary
open Gpu Boundary
variable {α : Type}

/-- The loop over the ghost cells in one thread (BoundaryCUDA.cu:56-59): `applyBoundary` reads one cell and writes another
(Neumann.hpp:35-37, Periodic.hpp:42-44). -/
def copies (src tgt : Int → I3) : List Int → Prog I3 α
  | [] => .done
  | k :: ks => .read (src k) fun v => .write (tgt k) v (copies src tgt ks)

/-- `numberOfXCells`, `numberOfYCells`, `numberOfZCells` of a side (BoundaryCUDA.cu:65-67). -/
def cells (n : I3) (d e : Nat) : Nat := if d = e then 1 else (n.get e).toNat

/-- `size` (BoundaryCUDA.cu:77). -/
def sideSize (n : I3) (d : Nat) : Nat := cells n d 0 * cells n d 1 * cells n d 2

/-- The edge cell thread `i` starts from (BoundaryCUDA.cu:41-54). `internalNumberOfXCells` is `nx - 2 g - 1`
(BoundaryCUDA.cu:69-74); where that is negative the `size_t` value wraps around, but then it is either multiplied by zero or the
preconditions of the theorems fail. -/
def edgeCell (n : I3) (g d : Nat) (top : Bool) (i : Nat) : I3 :=
  let t : Int := if top then 1 else 0
  let x : Int := if d = 0 then 0 else (i % cells n d 0 : Nat)
  let y : Int := if d = 1 then 0 else (i / cells n d 0 % cells n d 1 : Nat)
  let z : Int := if d = 2 then 0 else min (i / (cells n d 0 * cells n d 1) : Nat) ((cells n d 2 : Int) - 1)
  ⟨x + flag d 0 * (g + (n.x - 2 * g - 1) * t), y + flag d 1 * (g + (n.y - 2 * g - 1) * t),
   z + flag d 2 * (g + (n.z - 2 * g - 1) * t)⟩

/-- `applyBoundaryConditionsDevice` (BoundaryCUDA.cu:26-60). The guard lets the thread with the number `size` through. -/
def sideKernel (bc : BC) (n : I3) (g d : Nat) (top : Bool) (i : Nat) : Prog I3 α :=
  if sideSize n d < i then .done
  else copies (source bc n g d top (edgeCell n g d top i)) (target d top (edgeCell n g d top i)) (irange 1 (g + 1))

/-- `applyBoundaryConditions` for one side (BoundaryCUDA.cu:62-87). -/
def sideLaunch (bc : BC) (n : I3) (g d : Nat) (top : Bool) : Launch I3 α :=
  ⟨threadCount (sideSize n d) 1024, sideKernel bc n g d top⟩

/-- The launches for the two sides of a direction; sides handled by message passing are skipped (for instance
BoundaryCUDA.cu:94-102). -/
def dirLaunches (bc : BC) (n : I3) (g : Nat) (mpi : Nat → Bool) (d : Nat) : List (Launch I3 α) :=
  (if mpi (2 * d) then [] else [sideLaunch bc n g d false]) ++ (if mpi (2 * d + 1) then [] else [sideLaunch bc n g d true])

/-- `callApplyBoundaryConditions` for one variable (BoundaryCUDA.cu:89-127). `n` is the size including ghost cells. There is no check
that the area has room for the ghost cells. -/
def launches (bc : BC) (n : I3) (g : Nat) (mpi : Nat → Bool) : List (Launch I3 α) :=
  dirLaunches bc n g mpi 0 ++ (if 1 < n.y then dirLaunches bc n g mpi 1 else []) ++
    (if 1 < n.z then dirLaunches bc n g mpi 2 else [])

/-! ### Helper lemmas -/

theorem cells_pos {n : I3} {d e : Nat} (hn : 0 < n.x ∧ 0 < n.y ∧ 0 < n.z) : 0 < cells n d e := by
  unfold cells I3.get; split_ifs <;> omega

/-- The threads that do something work on edge cells of the side. -/
theorem edgeCell_mem {n : I3} {g d : Nat} {top : Bool} {N : Int} (hd : d < 3) (hn : n.get d = N + 2 * g) (hN : 1 ≤ N)
    (hpos : 0 < n.x ∧ 0 < n.y ∧ 0 < n.z) (i : Nat) :
    inSize n (edgeCell n g d top i) = true ∧ (edgeCell n g d top i).get d = edge g N top := by
  have c0 := cells_pos (n := n) (d := d) (e := 0) hpos
  have c1 := cells_pos (n := n) (d := d) (e := 1) hpos
  have c2 := cells_pos (n := n) (d := d) (e := 2) hpos
  have m0 := Nat.mod_lt i c0
  have m1 := Nat.mod_lt (i / cells n d 0) c1
  generalize hq0 : i % cells n d 0 = q0 at m0
  generalize hq1 : i / cells n d 0 % cells n d 1 = q1 at m1
  generalize hq2 : i / (cells n d 0 * cells n d 1) = q2
  unfold edgeCell
  simp only [hq0, hq1, hq2, inSize_iff]
  unfold cells at m0 m1 c2 ⊢
  unfold I3.get at m0 m1 c2 hn ⊢
  unfold flag edge
  interval_cases d <;> cases top <;> simp at m0 m1 c2 hn ⊢ <;> omega

/-- Every edge cell of the side has a thread. -/
theorem edgeCell_surj {n : I3} {g d : Nat} {top : Bool} {N : Int} (hd : d < 3) (hn : n.get d = N + 2 * g)
    {c : I3} (hc : inSize n c = true) (hce : c.get d = edge g N top) :
    ∃ i < sideSize n d, edgeCell n g d top i = c := by
  have hc0 : inSize ⟨cells n d 0, cells n d 1, cells n d 2⟩ (c.set d 0) = true := by
    simp only [inSize_iff] at hc ⊢
    unfold cells I3.set I3.get
    interval_cases d <;> simp <;> omega
  refine ⟨encode (cells n d 0) (cells n d 1) (c.set d 0), encode_lt hc0, ?_⟩
  have hdec := decode_encode hc0
  generalize encode (cells n d 0) (cells n d 1) (c.set d 0) = i at hdec
  unfold decode at hdec
  have e0 := congrArg I3.x hdec
  have e1 := congrArg I3.y hdec
  have e2 := congrArg I3.z hdec
  simp only at e0 e1 e2
  simp only [inSize_iff] at hc hc0
  unfold edgeCell
  rw [e0, e1, e2]
  unfold I3.set at hc0 ⊢
  unfold I3.get at hn hce
  unfold flag edge at *
  cases c
  interval_cases d <;> cases top <;> simp at hc hc0 hn hce ⊢ <;> omega

/-- The ghost cells a thread writes. -/
def touches (g : Nat) (N : Int) (n : I3) (d : Nat) (top : Bool) (i : Nat) (p : I3) : Prop :=
  i ≤ sideSize n d ∧ inGhost g N top (p.get d) ∧ p.set d (edge g N top) = edgeCell n g d top i

theorem sideKernel_fits {bc : BC} {n : I3} {g d : Nat} {top : Bool} {N : Int} (hd : d < 3) (hn : n.get d = N + 2 * g) (hN : 1 ≤ N)
    (hpos : 0 < n.x ∧ 0 < n.y ∧ 0 < n.z) (a : Arr I3 α) (ha : a.inb = inSize n) (T i : Nat) :
    Fits T (touches g N n d top) a (fun p => a.val (p.set d (image bc g N (p.get d)))) i (fun _ => False)
      (sideKernel bc n g d top i) := by
  unfold sideKernel
  split_ifs with hi
  · refine Fits.done fun l hl => ?_
    exact absurd hl.1 (by omega)
  obtain ⟨hc, hce⟩ := edgeCell_mem (top := top) hd hn hN hpos i
  generalize hcell : edgeCell n g d top i = c at hc hce
  have main : ∀ (post pre : List Int), irange 1 ((g : Int) + 1) = pre ++ post →
      Fits T (touches g N n d top) a (fun p => a.val (p.set d (image bc g N (p.get d)))) i (fun p => ∃ k ∈ pre, p = target d top c k)
        (copies (source bc n g d top c) (target d top c) post) := by
    intro post
    induction post with
    | nil =>
      intro pre hpre
      refine Fits.done fun p hp => ?_
      obtain ⟨_, h1, h2⟩ := hp
      obtain ⟨k, hk1, hk2, hk⟩ := inGhost_iff.1 h1
      refine ⟨k, ?_, ?_⟩
      · rw [List.append_nil] at hpre; rw [← hpre]; simp only [mem_irange]; omega
      · rw [target_eq hd, hce, ← hk, ← hcell, ← h2, set_set, set_get]
    | cons k post ih =>
      intro pre hpre
      have hk : k ∈ irange 1 ((g : Int) + 1) := by simp [hpre]
      simp only [mem_irange] at hk
      obtain ⟨⟨hs0, hs1⟩, ⟨ht0, ht1⟩, hor⟩ := coord_step (bc := bc) (g := g) (N := N) hN (top := top) (k := k) (by omega) (by omega)
      have hgh : inGhost g N top (edge g N top - sign top * k) := inGhost_iff.2 ⟨k, by omega, by omega, rfl⟩
      have htouch : touches g N n d top i (target d top c k) := by
        refine ⟨by omega, ?_, ?_⟩
        · rw [target_eq hd, get_set_self, hce]; exact hgh
        · rw [target_eq hd, set_set, hcell, ← hce, set_get]
      have hsin : a.inb (source bc n g d top c k) = true := by
        rw [ha, source_eq hd, hce, show n.get d - 2 * (g : Int) = N by omega]
        exact inSize_set hd hc hs0 (by omega)
      have htin : a.inb (target d top c k) = true := by
        rw [ha, target_eq hd, hce]
        exact inSize_set hd hc ht0 (by omega)
      have hrest : ∀ v, v = a.val ((target d top c k).set d (image bc g N ((target d top c k).get d))) →
          Fits T (touches g N n d top) a (fun p => a.val (p.set d (image bc g N (p.get d)))) i
            (fun p => ∃ k ∈ pre, p = target d top c k)
            (.write (target d top c k) v (copies (source bc n g d top c) (target d top c) post)) := by
        intro v hv
        refine Fits.write htin htouch hv ?_
        have := ih (pre ++ [k]) (by simp [hpre])
        refine cast ?_ this
        congr 1
        funext p
        simp [or_and_right, exists_or]
      have htv : (target d top c k).set d (image bc g N ((target d top c k).get d))
          = c.set d (image bc g N (edge g N top - sign top * k)) := by
        rw [target_eq hd, set_set, get_set_self, hce]
      have hsv : source bc n g d top c k = c.set d (srcCoord bc N top (edge g N top) k) := by
        rw [source_eq hd, hce, show n.get d - 2 * (g : Int) = N by omega]
      unfold copies
      rcases hor with ⟨h1, h2⟩ | ⟨k', h1, h2, h3, h4⟩
      · refine Fits.readOld hsin ?_ ?_ (hrest _ ?_)
        · rintro ⟨j, hj, hcon⟩
          have hj' := (irange_prefix hpre j).1 hj
          rw [hsv, target_eq hd, hce] at hcon
          have := congrArg (fun q => I3.get q d) hcon
          simp only [get_set_self] at this
          exact h2 (inGhost_iff.2 ⟨j, by omega, by omega, this⟩)
        · intro j _ hj
          have := hj.2.1
          rw [hsv, get_set_self] at this
          exact absurd this h2
        · rw [htv, hsv, h1]
      · refine Fits.readNew hsin ⟨k', (irange_prefix hpre k').2 ⟨h1, h2⟩, ?_⟩ (hrest _ ?_)
        · rw [hsv, target_eq hd, hce, h3]
        · rw [htv, hsv, set_set, get_set_self, h4]
  have := main (irange 1 ((g : Int) + 1)) [] rfl
  refine cast ?_ this
  congr 1
  funext p; simp

/-- One side on the graphics card has the same result as on the processor. -/
theorem sideLaunch_ok {bc : BC} {n : I3} {g d : Nat} {top : Bool} {N : Int} (hd : d < 3) (hn : n.get d = N + 2 * g) (hN : 1 ≤ N)
    (hpos : 0 < n.x ∧ 0 < n.y ∧ 0 < n.z) (a : Arr I3 α) (ha : a.inb = inSize n) :
    ∃ a', applySide bc n g d top a = .ok a' ∧ a'.inb = inSize n ∧ yields (sideLaunch bc n g d top) a a' := by
  obtain ⟨a', h1, h2, h3, h4⟩ := applySide_ok (bc := bc) (top := top) hd hn hN a ha
  refine ⟨a', h1, h2, ?_⟩
  have hin : ∀ i p, touches g N n d top i p → inSize n p = true := by
    rintro i p ⟨_, hp1, hp2⟩
    have hc := (edgeCell_mem (top := top) hd hn hN hpos i).1
    rw [← hp2] at hc
    have := inSize_set hd hc (t := p.get d) ?_ ?_
    · rwa [set_set, set_get] at this
    all_goals unfold inGhost at hp1; split_ifs at hp1 <;> omega
  refine yields_of_fits (touch := touches g N n d top) (F := fun p => a.val (p.set d (image bc g N (p.get d)))) ?_ ?_ ?_ ?_
  · intro i _
    exact sideKernel_fits hd hn hN hpos a ha _ i
  · rw [h2, ha]
  · intro i _ p hp
    rw [h3 p (hin i p hp), if_pos hp.2.1]
  · intro p hp
    by_cases hpin : inSize n p = true
    · rw [h3 p hpin]
      split_ifs with hgh
      · exfalso
        have hedge : inSize n (p.set d (edge g N top)) = true := by
          refine inSize_set hd hpin ?_ ?_
          · unfold edge; split_ifs <;> omega
          · unfold edge; split_ifs <;> omega
        obtain ⟨i, hi, hci⟩ := edgeCell_surj (top := top) hd hn hedge (get_set_self _ _ _)
        exact hp i (lt_of_lt_of_le hi (threadCount_ge (by norm_num))) ⟨by omega, hgh, hci.symm⟩
      · rfl
    · exact h4 p (Bool.eq_false_iff.2 hpin)

/-- Both sides of a direction. -/
theorem dirLaunches_ok {bc : BC} {n : I3} {g d : Nat} {mpi : Nat → Bool} {N : Int} (hd : d < 3) (hn : n.get d = N + 2 * g)
    (hN : 1 ≤ N) (hpos : 0 < n.x ∧ 0 < n.y ∧ 0 < n.z) (a : Arr I3 α) (ha : a.inb = inSize n) :
    ∃ a', applyDir bc n g mpi a d = .ok a' ∧ a'.inb = inSize n ∧ yieldsAll (dirLaunches bc n g mpi d) a a' := by
  have step : ∀ (top skip : Bool) (a : Arr I3 α), a.inb = inSize n →
      ∃ a', (if skip = true then (pure a : Res (Arr I3 α)) else applySide bc n g d top a) = .ok a' ∧ a'.inb = inSize n ∧
        yieldsAll (if skip = true then [] else [sideLaunch bc n g d top]) a a' := by
    intro top skip a ha
    cases skip
    · obtain ⟨a', h1, h2, h3⟩ := sideLaunch_ok (bc := bc) (top := top) hd hn hN hpos a ha
      exact ⟨a', by simpa using h1, h2, by simpa [yieldsAll] using h3⟩
    · exact ⟨a, by simp, ha, by simp [yieldsAll]⟩
  obtain ⟨a1, h1, h2, h3⟩ := step false (mpi (2 * d)) a ha
  obtain ⟨a2, h4, h5, h6⟩ := step true (mpi (2 * d + 1)) a1 h2
  refine ⟨a2, ?_, h5, yieldsAll_append h3 h6⟩
  unfold applyDir
  simp only [List.foldlM_cons, List.foldlM_nil, Bool.false_eq_true, if_false, if_true, Nat.add_zero]
  rw [h1, Res.ok_bind, h4]
  rfl

end Verif.CudaBoundary
