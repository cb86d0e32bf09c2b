import Verif.CellComputer
import Verif.Boundary
import Mathlib.Tactic.IntervalCases

/-! C64, C68: admissibility check, maximal wave speed, cell by cell conversions. -/

namespace Verif.Props
open Verif Iterate CellComputer

/-- Finite: a number, neither NaN nor infinite. -/
def IsFinite (x : Fl) : Prop := ∃ r, x = .fin r

/-- A state is admissible: its variables and extra variables are finite and it satisfies the constraint of the equation. -/
def Admissible (eq : Equation) (cell : List Fl) : Prop := (∀ x ∈ cell, IsFinite x) ∧ (∀ x ∈ eq.extra cell, IsFinite x) ∧ eq.constraint cell (eq.extra cell) = true

/-- The state in a cell. -/
def stateAt (total : I3) (areas : List (Arr Nat Fl)) (c : I3) : List Fl := areas.map fun a => a.val (cellIndex total c)

/-- A volume of `total` cells in memory: at least one cell in each direction, not more than memory can hold, and all areas of that size. -/
structure IsVolume (total : I3) (areas : List (Arr Nat Fl)) : Prop where
  pos : 1 ≤ total.x ∧ 1 ≤ total.y ∧ 1 ≤ total.z
  fits : total.x * total.y * total.z < 2 ^ 64
  areas : ∀ a ∈ areas, ∀ i : Nat, a.inb i = true ↔ (i : Int) < total.x * total.y * total.z

/-- Every ghost cell holds the state of an interior cell. -/
def GhostsAreCopies (total ghosts : I3) (areas : List (Arr Nat Fl)) : Prop :=
  ∀ c, InBlock total c → ∃ c', InBlock total c' ∧ (ghosts.x ≤ c'.x ∧ c'.x < total.x - ghosts.x) ∧ (ghosts.y ≤ c'.y ∧ c'.y < total.y - ghosts.y) ∧
    (ghosts.z ≤ c'.z ∧ c'.z < total.z - ghosts.z) ∧ stateAt total areas c = stateAt total areas c'

/-- The interior cells. -/
def InteriorCell (total ghosts c : I3) : Prop :=
  (ghosts.x ≤ c.x ∧ c.x < total.x - ghosts.x) ∧ (ghosts.y ≤ c.y ∧ c.y < total.y - ghosts.y) ∧ (ghosts.z ≤ c.z ∧ c.z < total.z - ghosts.z)

theorem bad_iff (x : Fl) : x.bad = false ↔ IsFinite x := by
  cases x <;> simp [Fl.bad, IsFinite]

theorem foldl_bad (l : List Fl) (b : Bool) : l.foldl (fun (obeys : Bool) (x : Fl) => if x.bad then false else obeys) b = true ↔ b = true ∧ ∀ x ∈ l, IsFinite x := by
  induction l generalizing b with
  | nil => simp
  | cons x l ih =>
    rw [List.foldl_cons, ih]
    by_cases h : x.bad = true
    · have : ¬ IsFinite x := fun hf => by rw [← bad_iff] at hf; simp [h] at hf
      simp [h, this]
    · have h' : x.bad = false := by simpa using h
      have : IsFinite x := (bad_iff x).1 h'
      simp [h', this]

theorem readCell_ok {total : I3} {areas : List (Arr Nat Fl)} (h : ∀ a ∈ areas, ∀ i : Nat, a.inb i = true ↔ (i : Int) < total.x * total.y * total.z) {c : I3} (hc : InBlock total c) :
    readCell areas (cellIndex total c) = .ok (stateAt total areas c) := by
  unfold readCell stateAt
  have hlt := cellIndex_lt hc
  induction areas with
  | nil => rfl
  | cons a l ih =>
    rw [List.mapM_cons, Arr.rd_ok ((h a (by simp) _).2 hlt), Res.ok_bind, ih fun b hb => h b (by simp [hb])]
    rfl

theorem mapM_length {α β : Type} {f : α → Res β} {l : List α} {r : List β} (h : l.mapM f = .ok r) : r.length = l.length := by
  induction l generalizing r with
  | nil => cases h; rfl
  | cons a l ih =>
    rw [List.mapM_cons] at h
    rcases ha : f a with e | b
    · rw [ha] at h; exact absurd h (by simp)
    · rw [ha, Res.ok_bind] at h
      rcases hl : l.mapM f with e | bs
      · rw [hl] at h; exact absurd h (by simp)
      · rw [hl, Res.ok_bind] at h
        cases h
        simp [ih hl]

theorem cellIndices_eq {total : I3} (hpos : 1 ≤ total.x ∧ 1 ≤ total.y ∧ 1 ≤ total.z) (hfits : total.x * total.y * total.z < 2 ^ 64) :
    cellIndices total 0 0 = (box 0 total).map (cellIndex total) := by
  have hp := le_prod hpos
  have e : total - 0 = total := by ext <;> simp
  rw [cellIndices, e, sizeBox_eq]
  · refine List.map_congr_left fun c hc => sizeIndex_eq hfits ?_
    simpa only [mem_box, InBlock, I3.zero_x, I3.zero_y, I3.zero_z] using hc
  · simp [Iterate.Small]
  · refine ⟨⟨?_, ?_⟩, ⟨?_, ?_⟩, ?_, ?_⟩ <;> omega

theorem forEachCell_eq {σ : Type} {total : I3} {areas : List (Arr Nat Fl)} (h : IsVolume total areas) {size : Nat} (hsize : areas.length = size) (f : σ → List Fl → Nat → σ) (s : σ) :
    forEachCell size total areas (fun s cell i => .ok (f s cell i)) s = .ok ((box 0 total).foldl (fun s c => f s (stateAt total areas c) (cellIndex total c)) s) := by
  rw [forEachCell, if_neg (by simpa using hsize), cellIndices_eq h.pos h.fits, List.foldlM_map]
  have key : ∀ l : List I3, (∀ c ∈ l, InBlock total c) → ∀ s, l.foldlM (fun s c => do
      let cell ← readCell areas (cellIndex total c)
      (.ok (f s cell (cellIndex total c)) : Res σ)) s = .ok (l.foldl (fun s c => f s (stateAt total areas c) (cellIndex total c)) s) := by
    intro l
    induction l with
    | nil => intro _ s; rfl
    | cons c l ih =>
      intro hl s
      rw [List.foldlM_cons, readCell_ok h.areas (hl c (by simp)), Res.ok_bind, Res.ok_bind, ih fun c hc => hl c (by simp [hc])]
      rfl
  refine key _ (fun c hc => ?_) s
  simpa only [mem_box, InBlock, I3.zero_x, I3.zero_y, I3.zero_z] using hc

/-- C64, the check. It succeeds exactly when all cells, ghost cells included, are admissible. -/
theorem check_all_cells (eq : Equation) (total : I3) (areas : List (Arr Nat Fl)) (h : IsVolume total areas) (hsize : areas.length = eq.size) :
    ∃ b, obeysConstraints eq total areas = .ok b ∧ (b = true ↔ ∀ c, InBlock total c → Admissible eq (stateAt total areas c)) := by
  refine ⟨_, forEachCell_eq h hsize (fun (obeys : Bool) (cell : List Fl) (_ : Nat) => if !eq.constraint cell (eq.extra cell) then false else
    (eq.extra cell).foldl (fun (obeys : Bool) (x : Fl) => if x.bad then false else obeys) (cell.foldl (fun (obeys : Bool) (x : Fl) => if x.bad then false else obeys) obeys)) true, ?_⟩
  have key : ∀ (l : List I3) (b : Bool), l.foldl (fun obeys c => if !eq.constraint (stateAt total areas c) (eq.extra (stateAt total areas c)) then false else
      (eq.extra (stateAt total areas c)).foldl (fun (obeys : Bool) (x : Fl) => if x.bad then false else obeys)
        ((stateAt total areas c).foldl (fun (obeys : Bool) (x : Fl) => if x.bad then false else obeys) obeys)) b = true ↔
      b = true ∧ ∀ c ∈ l, Admissible eq (stateAt total areas c) := by
    intro l
    induction l with
    | nil => intro b; simp
    | cons c l ih =>
      intro b
      rw [List.foldl_cons, ih]
      have : (if !eq.constraint (stateAt total areas c) (eq.extra (stateAt total areas c)) then false else
          (eq.extra (stateAt total areas c)).foldl (fun (obeys : Bool) (x : Fl) => if x.bad then false else obeys)
            ((stateAt total areas c).foldl (fun (obeys : Bool) (x : Fl) => if x.bad then false else obeys) b)) = true ↔ b = true ∧ Admissible eq (stateAt total areas c) := by
        by_cases hc : eq.constraint (stateAt total areas c) (eq.extra (stateAt total areas c)) = true
        · simp only [hc, Bool.not_true, Bool.false_eq_true, if_false]
          rw [foldl_bad, foldl_bad]
          simp only [Admissible, hc, and_true]
          exact and_assoc
        · simp [hc, Admissible]
      rw [this]
      simp only [List.mem_cons, forall_eq_or_imp, and_assoc]
  rw [key]
  simp only [true_and]
  refine forall_congr' fun c => ?_
  simp only [mem_box, InBlock, I3.zero_x, I3.zero_y, I3.zero_z]

/-- C64, the check, when every ghost cell holds the state of an interior cell (as after boundary conditions, `C64_ghosts_after_boundary_conditions`): it succeeds exactly when every
interior cell is admissible. Without that hypothesis the statement is false (`C64_fails_for_bad_ghost_cells`). -/
theorem C64_check_partial (eq : Equation) (total ghosts : I3) (areas : List (Arr Nat Fl)) (h : IsVolume total areas) (hsize : areas.length = eq.size)
    (hg : 0 ≤ ghosts.x ∧ 0 ≤ ghosts.y ∧ 0 ≤ ghosts.z) (hghosts : GhostsAreCopies total ghosts areas) :
    ∃ b, obeysConstraints eq total areas = .ok b ∧ (b = true ↔ ∀ c, InteriorCell total ghosts c → Admissible eq (stateAt total areas c)) := by
  obtain ⟨b, h1, h2⟩ := check_all_cells eq total areas h hsize
  refine ⟨b, h1, h2.trans ⟨fun ha c hc => ha c ?_, fun ha c hc => ?_⟩⟩
  · obtain ⟨c1, c2, c3⟩ := hc
    refine ⟨⟨?_, ?_⟩, ⟨?_, ?_⟩, ?_, ?_⟩ <;> omega
  · obtain ⟨c', -, i1, i2, i3, e⟩ := hghosts c hc
    rw [e]
    exact ha c' ⟨i1, i2, i3⟩

/-- A volume of one variable with three cells, the outer two being ghost cells. -/
noncomputable def threeCells (l m r : Fl) : List (Arr Nat Fl) := [flat 3 fun i => if i = 0 then l else if i = 1 then m else r]

theorem threeCells_volume (l m r : Fl) : IsVolume ⟨3, 1, 1⟩ (threeCells l m r) := by
  refine ⟨by decide, by decide, ?_⟩
  intro a ha i
  have : a = flat 3 fun i => if i = 0 then l else if i = 1 then m else r := by simpa [threeCells] using ha
  subst this
  simp [flat]

theorem threeCells_block {c : I3} (hc : InBlock ⟨3, 1, 1⟩ c) : c = ⟨0, 0, 0⟩ ∨ c = ⟨1, 0, 0⟩ ∨ c = ⟨2, 0, 0⟩ := by
  obtain ⟨⟨h1, h2⟩, ⟨h3, h4⟩, h5, h6⟩ := hc
  obtain ⟨x, y, z⟩ := c
  simp only [I3.mk.injEq] at *
  omega

example : IsVolume ⟨3, 1, 1⟩ (threeCells (.fin 2) (.fin 2) (.fin 2)) ∧ GhostsAreCopies ⟨3, 1, 1⟩ ⟨1, 0, 0⟩ (threeCells (.fin 2) (.fin 2) (.fin 2)) := by
  refine ⟨threeCells_volume _ _ _, fun c hc => ⟨⟨1, 0, 0⟩, by unfold InBlock; decide, by decide, by decide, by decide, ?_⟩⟩
  rcases threeCells_block hc with rfl | rfl | rfl <;> simp [stateAt, threeCells, flat]

/-- C64 fails when a ghost cell is inadmissible: Burgers' equation, all interior cells admissible, and the check reports a violation. -/
theorem C64_fails_for_bad_ghost_cells :
    ∃ areas, IsVolume ⟨3, 1, 1⟩ areas ∧ (∀ c, InteriorCell ⟨3, 1, 1⟩ ⟨1, 0, 0⟩ c → Admissible (scalar Flux.burgers) (stateAt ⟨3, 1, 1⟩ areas c)) ∧
      obeysConstraints (scalar Flux.burgers) ⟨3, 1, 1⟩ areas = .ok false := by
  refine ⟨threeCells .nan (.fin 1) (.fin 1), threeCells_volume _ _ _, ?_, ?_⟩
  · rintro c ⟨⟨h1, h2⟩, ⟨h3, h4⟩, h5, h6⟩
    have : c = ⟨1, 0, 0⟩ := by
      obtain ⟨x, y, z⟩ := c
      simp only [I3.mk.injEq] at *
      omega
    subst this
    refine ⟨?_, ?_, ?_⟩
    · simp [stateAt, threeCells, cellIndex, calculateIndex, flat, IsFinite]
    · simp [scalar]
    · simp [scalar, scalarConstraint, stateAt, threeCells, cellIndex, calculateIndex, flat, Fl.lt]
  · obtain ⟨b, h1, h2⟩ := check_all_cells (scalar Flux.burgers) ⟨3, 1, 1⟩ (threeCells .nan (.fin 1) (.fin 1)) (threeCells_volume _ _ _) rfl
    rw [h1]
    cases b
    · rfl
    · have := (h2.1 rfl ⟨0, 0, 0⟩ (by unfold InBlock; decide)).1 .nan (by simp [stateAt, threeCells, cellIndex, calculateIndex, flat])
      obtain ⟨r, hr⟩ := this
      exact absurd hr (by simp)

/-- C64: after the boundary conditions have been applied on one process, every ghost cell holds the state of an interior cell, so that the check is about the interior cells. `coords`
are the variables by coordinates, as in the model of the boundary conditions. -/
theorem C64_ghosts_after_boundary_conditions {bc : BC} {total N : I3} {g dims : Nat} (hdim : dims ≤ 3) (hpos : 0 < dims) (hn : ∀ d < dims, total.get d = N.get d + 2 * g)
    (hflat : ∀ d < 3, dims ≤ d → total.get d = 1) (hN : ∀ d < dims, 1 ≤ N.get d) (hg : bc = .neumann → ∀ d < dims, (g : Int) ≤ N.get d)
    (before after : List (Arr I3 Fl)) (hb : ∀ a ∈ before, a.inb = inSize total) (hafter : Boundary.apply bc total g dims (fun _ => false) before = .ok after)
    (areas : List (Arr Nat Fl)) (hareas : List.Forall₂ (fun (a : Arr Nat Fl) (b : Arr I3 Fl) => ∀ c, InBlock total c → a.val (cellIndex total c) = b.val c) areas after) :
    GhostsAreCopies total ⟨g, if 1 < dims then g else 0, if 2 < dims then g else 0⟩ areas := by
  obtain ⟨after', h1, h2⟩ := Boundary.apply_ok (mpi := fun _ => false) hdim hn hN hpos hg before hb
  rw [hafter] at h1
  cases h1
  have key : ∀ c, InBlock total c → InBlock total (Boundary.ghostSource bc g N dims (fun _ => false) c) ∧
      InteriorCell total ⟨g, if 1 < dims then g else 0, if 2 < dims then g else 0⟩ (Boundary.ghostSource bc g N dims (fun _ => false) c) ∧
      Boundary.ghostSource bc g N dims (fun _ => false) (Boundary.ghostSource bc g N dims (fun _ => false) c) = Boundary.ghostSource bc g N dims (fun _ => false) c := by
    intro c hc
    have hself : ∀ (N c : Int), (g : Int) ≤ c → c < g + N → Boundary.image bc g N c = c := by
      intro N c h0 h1
      cases bc
      · simp only [Boundary.image, Boundary.mirror]; split_ifs <;> omega
      · simp only [Boundary.image, Boundary.wrap]
        rw [Int.emod_eq_of_lt (by omega) (by omega)]; omega
    have bx : ∀ d (hd : d < dims), ∀ v : Int, 0 ≤ v → v < total.get d → (g : Int) ≤ Boundary.image bc g (N.get d) v ∧ Boundary.image bc g (N.get d) v < g + N.get d :=
      fun d hd v h0 h1 => Boundary.image_bounds (hN d hd) (fun h => hg h d hd) h0 (by rw [← hn d hd]; exact h1)
    obtain ⟨⟨x0, x1⟩, ⟨y0, y1⟩, z0, z1⟩ := hc
    have e0 := hn 0 hpos
    have b0 := bx 0 hpos c.x x0 (by simpa [I3.get] using x1)
    simp only [I3.get, if_true] at e0 b0
    have s0 := hself _ _ b0.1 b0.2
    have hy : 1 < dims → (total.y = N.y + 2 * g ∧ (g : Int) ≤ Boundary.image bc g N.y c.y ∧ Boundary.image bc g N.y c.y < g + N.y) := by
      intro h
      exact ⟨by simpa [I3.get] using hn 1 h, by simpa [I3.get] using bx 1 h c.y y0 (by simpa [I3.get] using y1)⟩
    have hz : 2 < dims → (total.z = N.z + 2 * g ∧ (g : Int) ≤ Boundary.image bc g N.z c.z ∧ Boundary.image bc g N.z c.z < g + N.z) := by
      intro h
      exact ⟨by simpa [I3.get] using hn 2 h, by simpa [I3.get] using bx 2 h c.z z0 (by simpa [I3.get] using z1)⟩
    simp only [Boundary.ghostSource, Boundary.imageDir, InteriorCell, InBlock, Bool.false_eq_true, false_and, or_self, if_false, and_false, hpos, if_true]
    refine ⟨⟨⟨by omega, by omega⟩, ?_, ?_⟩, ⟨⟨by omega, by omega⟩, ?_, ?_⟩, ?_⟩
    · by_cases h : 1 < dims
      · have := hy h; simp only [h, if_true]; omega
      · simp only [h, if_false]; omega
    · by_cases h : 2 < dims
      · have := hz h; simp only [h, if_true]; omega
      · simp only [h, if_false]; omega
    · by_cases h : 1 < dims
      · have := hy h; simp only [h, if_true]; omega
      · simp only [h, if_false]; omega
    · by_cases h : 2 < dims
      · have := hz h; simp only [h, if_true]; omega
      · simp only [h, if_false]; omega
    · ext
      · simp only; exact s0
      · by_cases h : 1 < dims
        · simp only [h, if_true]; exact hself _ _ (hy h).2.1 (hy h).2.2
        · simp only [h, if_false]
      · by_cases h : 2 < dims
        · simp only [h, if_true]; exact hself _ _ (hz h).2.1 (hz h).2.2
        · simp only [h, if_false]
  have hin : ∀ c, InBlock total c → inSize total c = true := fun c hc => inSize_iff.2 ⟨hc.1.1, hc.1.2, hc.2.1.1, hc.2.1.2, hc.2.2.1, hc.2.2.2⟩
  intro c hc
  obtain ⟨k1, ⟨k2, k3, k4⟩, k5⟩ := key c hc
  refine ⟨_, k1, k2, k3, k4, ?_⟩
  unfold stateAt
  clear hafter hb
  induction hareas generalizing before with
  | nil => rfl
  | cons ha _ ih =>
    rcases h2 with _ | ⟨hba, hrest⟩
    rw [List.map_cons, List.map_cons, ih _ hrest, ha c hc, ha _ k1, hba.2 c (hin c hc), hba.2 _ (hin _ k1), k5]

example : ∃ (before after : List (Arr I3 Fl)), before.length = 1 ∧ (∀ a ∈ before, a.inb = inSize ⟨5, 1, 1⟩) ∧ Boundary.apply .periodic ⟨5, 1, 1⟩ 1 1 (fun _ => false) before = .ok after := by
  obtain ⟨after, h, -⟩ := Boundary.apply_ok (bc := .periodic) (n := ⟨5, 1, 1⟩) (N := ⟨3, 1, 1⟩) (g := 1) (dims := 1) (mpi := fun _ => false) (by omega)
    (fun d hd => by interval_cases d; simp [I3.get]) (fun d hd => by interval_cases d; simp [I3.get]) (by omega) (by simp) [⟨inSize ⟨5, 1, 1⟩, fun _ => Fl.fin 0⟩] (by simp)
  exact ⟨_, after, rfl, by simp, h⟩

/-- The state of an Euler cell in memory: density, momenta, energy. -/
def encode {n : Nat} (U : Euler.Cons n) : List Fl := .fin U.rho :: (List.ofFn fun i => .fin (U.m i)) ++ [.fin U.E]

/-- C64, what admissible means for the scalar equations: the value is a number. -/
theorem C64_scalar_admissible (e : Flux.ScalarEq) (u : Fl) : Admissible (scalar e) [u] ↔ ∃ x, u = .fin x := by
  constructor
  · rintro ⟨h, -, -⟩; exact h u (by simp)
  · rintro ⟨x, rfl⟩
    exact ⟨by simp [IsFinite], by simp [scalar], by simp [scalar, scalarConstraint, Fl.lt]⟩

theorem dotFl_fin (l : List ℝ) (s : ℝ) : (l.map Fl.fin).foldl (fun s x => Fl.add s (Fl.mul x x)) (.fin s) = .fin (s + (l.map fun x => x * x).sum) := by
  induction l generalizing s with
  | nil => simp
  | cons x l ih =>
    rw [List.map_cons, List.foldl_cons, show Fl.add (.fin s) (Fl.mul (.fin x) (.fin x)) = .fin (s + x * x) from rfl, ih, List.map_cons, List.sum_cons, add_assoc]

theorem eulerExtra_encode {n : Nat} (γ : ℝ) (U : Euler.Cons n) (h : U.rho ≠ 0) :
    eulerExtra γ n (encode U) = .fin (Euler.pressure γ U) :: List.ofFn fun i => .fin (Euler.velocity U i) := by
  have hm : (List.ofFn fun i => Fl.fin (U.m i)) = (List.ofFn U.m).map Fl.fin := by rw [List.map_ofFn]; rfl
  have hd : dotFl ((List.ofFn U.m).map Fl.fin) = .fin (Euler.dot U.m U.m) := by
    rw [dotFl, dotFl_fin, zero_add, List.map_ofFn, List.sum_ofFn]; rfl
  have htake : ((List.ofFn U.m).map Fl.fin ++ [Fl.fin U.E]).take n = (List.ofFn U.m).map Fl.fin := by
    rw [List.take_left' (by simp)]
  have hdrop : ((List.ofFn U.m).map Fl.fin ++ [Fl.fin U.E]).drop n = [Fl.fin U.E] := by
    rw [List.drop_left' (by simp)]
  rw [encode, hm, List.cons_append, eulerExtra]
  simp only [htake, hdrop, hd, List.headD_cons]
  simp only [Fl.mul, Fl.div, h, if_false, Fl.sub, Fl.neg, Fl.add, List.map_map, List.map_ofFn]
  congr 1
  congr 1
  funext i
  simp [Fl.div, h, Euler.velocity]

/-- C64, what admissible means for the Euler equations: all variables are numbers, and density and pressure are positive. -/
theorem C64_euler_admissible {n : Nat} (γ : ℝ) (cell : List Fl) (hlen : cell.length = n + 2) :
    Admissible (euler γ n) cell ↔ ∃ U : Euler.Cons n, cell = encode U ∧ 0 < U.rho ∧ 0 < Euler.pressure γ U := by
  constructor
  · rintro ⟨hfin, -, hcon⟩
    choose! val hval using hfin
    have hcell : cell = (cell.map val).map Fl.fin := by
      rw [List.map_map]
      conv_lhs => rw [← List.map_id cell]
      exact List.map_congr_left fun x hx => hval x hx
    generalize hvs : cell.map val = vs at hcell
    have hl : vs.length = n + 2 := by rw [← hvs, List.length_map, hlen]
    let U : Euler.Cons n := (vs[0], fun i => vs[i.val + 1], vs[n + 1])
    have hU : cell = encode U := by
      rw [hcell]
      apply List.ext_getElem
      · simp [encode, hl]
      · intro i h1 h2
        rcases i with _ | i
        · simp [encode, U, Euler.Cons.rho]
        · simp only [encode, List.cons_append, List.getElem_cons_succ, List.getElem_map]
          by_cases hi : i < n
          · rw [List.getElem_append_left (by simpa using hi)]
            simp [U, Euler.Cons.m]
          · have : i = n := by simp [hl] at h1; omega
            subst this
            rw [List.getElem_append_right (by simp)]
            simp [U, Euler.Cons.E]
    refine ⟨U, hU, ?_⟩
    have hpos : 0 < U.rho := by
      rw [hU] at hcon
      simp only [euler] at hcon
      rw [encode, List.cons_append, eulerExtra] at hcon
      simp only [Bool.and_eq_true, Fl.lt, decide_eq_true_eq] at hcon
      exact hcon.1.2
    refine ⟨hpos, ?_⟩
    rw [hU] at hcon
    simp only [euler, eulerExtra_encode γ U hpos.ne'] at hcon
    simp only [encode, List.cons_append, Bool.and_eq_true, Fl.lt, decide_eq_true_eq] at hcon
    exact hcon.2
  · rintro ⟨U, rfl, hr, hp⟩
    refine ⟨?_, ?_, ?_⟩
    · intro x hx
      simp only [encode, List.cons_append, List.mem_cons, List.mem_append, List.mem_ofFn, List.not_mem_nil, or_false] at hx
      rcases hx with rfl | ⟨i, rfl⟩ | rfl <;> exact ⟨_, rfl⟩
    · intro x hx
      simp only [euler, eulerExtra_encode γ U hr.ne', List.mem_cons, List.mem_ofFn] at hx
      rcases hx with rfl | ⟨i, rfl⟩ <;> exact ⟨_, rfl⟩
    · simp only [euler, eulerExtra_encode γ U hr.ne']
      simp [encode, Fl.lt, Fl.bad, hr, hp]

example : ∃ U : Euler.Cons 2, 0 < U.rho ∧ 0 < Euler.pressure 1.4 U := ⟨(1, ![1, 0], 3), by norm_num [Euler.pressure, Euler.dot, Euler.Cons.m, Euler.Cons.rho, Euler.Cons.E]⟩

/-! ### Maximal wave speed -/

theorem max_fin (m w : ℝ) : Fl.max (.fin m) (.fin w) = .fin (max m w) := by
  unfold Fl.max Fl.lt
  by_cases h : m < w
  · simp [h, max_eq_right h.le]
  · simp [h, max_eq_left (not_lt.1 h)]

/-- C64, the maximal wave speed, when every ghost cell holds the state of an interior cell and all wave speeds are nonnegative numbers: it bounds the wave speed of every interior cell
and is that of one of them. A wave speed that is not a number is ignored (`C64_max_wave_speed_ignores_nan`). -/
theorem C64_max_wave_speed_partial (eq : Equation) (total ghosts : I3) (areas : List (Arr Nat Fl)) (direction : Nat) (hd : direction < 3) (h : IsVolume total areas) (hsize : areas.length = eq.size)
    (hg : 0 ≤ ghosts.x ∧ 0 ≤ ghosts.y ∧ 0 ≤ ghosts.z) (hghosts : GhostsAreCopies total ghosts areas)
    (speed : I3 → ℝ) (hspeed : ∀ c, InteriorCell total ghosts c → 0 ≤ speed c ∧ eq.speed direction (stateAt total areas c) (eq.extra (stateAt total areas c)) = .fin (speed c)) :
    ∃ m, maxWaveSpeed eq total areas direction = .ok (.fin m) ∧ (∀ c, InteriorCell total ghosts c → speed c ≤ m) ∧ ∃ c, InteriorCell total ghosts c ∧ speed c = m := by
  have hint : ∀ c, InBlock total c → ∃ c', InteriorCell total ghosts c' ∧ stateAt total areas c = stateAt total areas c' := fun c hc => by
    obtain ⟨c', -, i1, i2, i3, e⟩ := hghosts c hc
    exact ⟨c', ⟨i1, i2, i3⟩, e⟩
  have key : ∀ (l : List I3), (∀ c ∈ l, InBlock total c) → ∀ m : ℝ, 0 ≤ m →
      ∃ m', l.foldl (fun m c => if direction < 3 then Fl.max m (eq.speed direction (stateAt total areas c) (eq.extra (stateAt total areas c))) else m) (.fin m) = .fin m' ∧ m ≤ m' ∧
        (∀ c ∈ l, ∀ w, eq.speed direction (stateAt total areas c) (eq.extra (stateAt total areas c)) = .fin w → w ≤ m') ∧
        (m' = m ∨ ∃ c, InteriorCell total ghosts c ∧ speed c = m') := by
    intro l
    induction l with
    | nil => intro _ m _; exact ⟨m, rfl, le_rfl, by simp, .inl rfl⟩
    | cons c l ih =>
      intro hl m hm
      obtain ⟨c', hc', e⟩ := hint c (hl c (by simp))
      obtain ⟨s0, s1⟩ := hspeed c' hc'
      obtain ⟨m', r1, r2, r3, r4⟩ := ih (fun c hc => hl c (by simp [hc])) (max m (speed c')) (le_max_of_le_left hm)
      refine ⟨m', ?_, (le_max_left _ _).trans r2, ?_, ?_⟩
      · rw [List.foldl_cons, if_pos hd, e, s1, max_fin]
        exact r1
      · intro c1 hc1 w hw
        rcases List.mem_cons.1 hc1 with rfl | hc1
        · rw [e, s1] at hw
          cases hw
          exact (le_max_right _ _).trans r2
        · exact r3 c1 hc1 w hw
      · rcases r4 with r4 | r4
        · rcases max_choice m (speed c') with hmax | hmax
          · exact .inl (r4.trans hmax)
          · exact .inr ⟨c', hc', (r4.trans hmax).symm⟩
        · exact .inr r4
  have hmem : ∀ c ∈ box 0 total, InBlock total c := fun c hc => by simpa only [mem_box, InBlock, I3.zero_x, I3.zero_y, I3.zero_z] using hc
  obtain ⟨m, r1, r2, r3, r4⟩ := key (box 0 total) hmem 0 le_rfl
  have hblock : ∀ c, InteriorCell total ghosts c → InBlock total c := fun c hc => by
    obtain ⟨c1, c2, c3⟩ := hc
    refine ⟨⟨?_, ?_⟩, ⟨?_, ?_⟩, ?_, ?_⟩ <;> omega
  have hbound : ∀ c, InteriorCell total ghosts c → speed c ≤ m := fun c hc => by
    refine r3 c ?_ _ (hspeed c hc).2
    have := hblock c hc
    simpa only [mem_box, InBlock, I3.zero_x, I3.zero_y, I3.zero_z] using this
  refine ⟨m, ?_, hbound, ?_⟩
  · rw [maxWaveSpeed, forEachCell_eq h hsize (fun m cell _ => if direction < 3 then Fl.max m (eq.speed direction cell (eq.extra cell)) else m), r1]
  · rcases r4 with r4 | r4
    · obtain ⟨c, hc, -⟩ := hint 0 (by have := h.pos; simp only [InBlock, I3.zero_x, I3.zero_y, I3.zero_z]; omega)
      refine ⟨c, hc, le_antisymm (hbound c hc) ?_⟩
      rw [r4]
      exact (hspeed c hc).1
    · exact r4

/-- A volume with the same value everywhere. -/
example : ∀ c, InteriorCell ⟨3, 1, 1⟩ ⟨1, 0, 0⟩ c → (0 : ℝ) ≤ 2 ∧
    (scalar Flux.burgers).speed 0 (stateAt ⟨3, 1, 1⟩ (threeCells (.fin 2) (.fin 2) (.fin 2)) c) [] = .fin 2 := by
  intro c _
  simp [stateAt, threeCells, flat, scalar, Flux.burgers]

/-- C64 for the Euler equations: if the check succeeds, the maximal wave speed bounds `|u| + c` in every interior cell and is attained in one. -/
theorem C64_euler_max_wave_speed {n : Nat} (γ : ℝ) (total ghosts : I3) (areas : List (Arr Nat Fl)) (d : Fin n) (hn : n ≤ 3) (h : IsVolume total areas) (hsize : areas.length = n + 2)
    (hγ : 0 ≤ γ) (hg : 0 ≤ ghosts.x ∧ 0 ≤ ghosts.y ∧ 0 ≤ ghosts.z) (hghosts : GhostsAreCopies total ghosts areas) (U : I3 → Euler.Cons n)
    (hU : ∀ c, InteriorCell total ghosts c → stateAt total areas c = encode (U c)) (hcheck : obeysConstraints (euler γ n) total areas = .ok true) :
    ∃ m, maxWaveSpeed (euler γ n) total areas d = .ok (.fin m) ∧ (∀ c, InteriorCell total ghosts c → Euler.waveSpeed γ d (U c) ≤ m) ∧
      ∃ c, InteriorCell total ghosts c ∧ Euler.waveSpeed γ d (U c) = m := by
  obtain ⟨b, h1, h2⟩ := C64_check_partial (euler γ n) total ghosts areas h hsize hg hghosts
  rw [hcheck] at h1
  cases h1
  refine C64_max_wave_speed_partial (euler γ n) total ghosts areas d (by omega) h hsize hg hghosts (fun c => Euler.waveSpeed γ d (U c)) fun c hc => ?_
  have ha := (h2.1 rfl) c hc
  rw [hU c hc] at ha ⊢
  obtain ⟨V, hV, hr, hp⟩ := (C64_euler_admissible γ (encode (U c)) (by simp [encode])).1 ha
  have hr' : 0 < (U c).rho ∧ 0 < Euler.pressure γ (U c) := by
    have e1 : (U c).rho = V.rho := by
      have := congrArg List.head? hV
      simpa [encode] using this
    have e2 : (U c).m = V.m ∧ (U c).E = V.E := by
      have : (List.ofFn fun i => Fl.fin ((U c).m i)) ++ [Fl.fin (U c).E] = (List.ofFn fun i => Fl.fin (V.m i)) ++ [Fl.fin V.E] := by
        simpa [encode, e1] using hV
      obtain ⟨p1, p2⟩ := List.append_inj this (by simp)
      refine ⟨funext fun i => ?_, by simpa using p2⟩
      have := congrFun (List.ofFn_injective p1) i
      simpa using this
    have : U c = V := by
      refine Prod.ext e1 (Prod.ext e2.1 e2.2)
    rw [this]
    exact ⟨hr, hp⟩
  refine ⟨add_nonneg (abs_nonneg _) (Real.sqrt_nonneg _), ?_⟩
  simp only [euler, eulerExtra_encode γ (U c) hr'.1.ne']
  have hnn : ¬ γ * Euler.pressure γ (U c) / (U c).rho < 0 := not_lt.2 (div_nonneg (mul_nonneg hγ hr'.2.le) hr'.1.le)
  simp [encode, Fl.mul, Fl.div, hr'.1.ne', Fl.sqrt, hnn, Fl.abs, Fl.add, Euler.waveSpeed]

/-- C64 fails for the maximal wave speed when a wave speed is not a number: it is ignored, and the result does not show that something is wrong. -/
theorem C64_max_wave_speed_ignores_nan : maxWaveSpeed (scalar Flux.burgers) ⟨3, 1, 1⟩ (threeCells .nan .nan .nan) 0 = .ok (.fin 0) := by
  rw [maxWaveSpeed, forEachCell_eq (size := (scalar Flux.burgers).size) (threeCells_volume .nan .nan .nan) rfl (fun m cell _ => if 0 < 3 then Fl.max m ((scalar Flux.burgers).speed 0 cell ((scalar Flux.burgers).extra cell)) else m)]
  have : box 0 ⟨3, 1, 1⟩ = [⟨0, 0, 0⟩, ⟨1, 0, 0⟩, ⟨2, 0, 0⟩] := by decide
  rw [this]
  simp [stateAt, threeCells, cellIndex, calculateIndex, flat, scalar, Fl.max, Fl.lt]

/-! ### C68 -/

/-- C68. A cell by cell conversion (conserved to extra variables, primitive to conserved variables) stores in every cell, ghost cells included, the converted state of that cell. -/
theorem C68_converts_every_cell (total : I3) (f : List Fl → List Fl) (input out : List (Arr Nat Fl)) (hin : IsVolume total input) (hout : IsVolume total out)
    (hf : ∀ cell : List Fl, cell.length = input.length → (f cell).length = out.length) :
    ∃ out', transformVolume input.length out.length total f input out = .ok out' ∧ IsVolume total out' ∧ out'.length = out.length ∧
      ∀ c, InBlock total c → stateAt total out' c = f (stateAt total input c) := by
  have hmem : ∀ c, c ∈ box 0 total ↔ InBlock total c := fun c => by simp only [mem_box, InBlock, I3.zero_x, I3.zero_y, I3.zero_z]
  have hlen : ∀ c, (f (stateAt total input c)).length = out.length := fun c => hf _ (by simp [stateAt])
  obtain ⟨out', h1, h2, h3⟩ := fill_loop (cellIndex total) (fun c => f (stateAt total input c)) out (box 0 total) (nodup_box _ _)
    (fun c hc c' hc' e => cellIndex_inj ((hmem c).1 hc) ((hmem c').1 hc') e) (fun c _ => hlen c) (fun a ha c hc => (hout.areas a ha _).2 (cellIndex_lt ((hmem c).1 hc)))
  have key : ∀ l : List I3, (∀ c ∈ l, InBlock total c) → ∀ s : List (Arr Nat Fl), s.length = out.length →
      l.foldlM (fun s c => do
        let cell ← readCell input (cellIndex total c)
        (s.zip (f cell)).mapM fun av => av.1.wr (cellIndex total c) av.2) s =
      l.foldlM (fun (s : List (Arr Nat Fl)) c => if (f (stateAt total input c)).length = s.length then (s.zip (f (stateAt total input c))).mapM fun av => av.1.wr (cellIndex total c) av.2
        else .error .thrown) s := by
    intro l
    induction l with
    | nil => intro _ s _; rfl
    | cons c l ih =>
      intro hl s hs
      rw [List.foldlM_cons, List.foldlM_cons, readCell_ok hin.areas (hl c (by simp)), Res.ok_bind, if_pos (by rw [hlen, hs])]
      rcases hr : (s.zip (f (stateAt total input c))).mapM fun av => av.1.wr (cellIndex total c) av.2 with e | s'
      · rw [hr]; rfl
      · rw [hr, Res.ok_bind, Res.ok_bind]
        refine ih (fun c hc => hl c (by simp [hc])) s' ?_
        have := mapM_length hr
        rw [this, List.length_zip, hlen, hs, min_self]
  refine ⟨out', ?_, ⟨hout.pos, hout.fits, ?_⟩, h2, ?_⟩
  · rw [transformVolume, if_neg (by simp), if_neg (by simp), cellIndices_eq hin.pos hin.fits, List.foldlM_map, key _ (fun c hc => (hmem c).1 hc) out rfl, h1]
  · intro a ha i
    obtain ⟨v, hv⟩ := List.mem_iff_getElem?.1 ha
    have hvlt : v < out.length := by rw [← h2]; exact (List.getElem?_eq_some_iff.1 hv).1
    rw [(h3 v a _ (List.getElem?_eq_getElem hvlt) hv).1]
    exact hout.areas _ (List.getElem_mem hvlt) i
  · intro c hc
    apply List.ext_getElem?
    intro v
    by_cases hv : v < out.length
    · have hv' : v < out'.length := by rw [h2]; exact hv
      have := (h3 v out'[v] _ (List.getElem?_eq_getElem hv) (List.getElem?_eq_getElem hv')).2.1 c ((hmem c).2 hc)
      rw [this, stateAt, List.getElem?_map, List.getElem?_eq_getElem hv']
      rfl
    · rw [List.getElem?_eq_none (by simp [stateAt, h2]; omega), List.getElem?_eq_none (by rw [hlen]; omega)]

example : IsVolume ⟨3, 1, 1⟩ (threeCells (.fin 1) .nan (.inf true)) ∧ ∀ cell : List Fl, cell.length = 1 → (cell.map Fl.neg).length = 1 :=
  ⟨threeCells_volume _ _ _, fun cell h => by simpa using h⟩

/-- Gas moving with velocity one in all cells: the hypotheses of the theorem on the wave speed of the Euler equations hold. -/
example : ∃ m, maxWaveSpeed (euler 1.4 1) ⟨3, 1, 1⟩ (threeCells (.fin 1) (.fin 1) (.fin 1) ++ threeCells (.fin 1) (.fin 1) (.fin 1) ++ threeCells (.fin 3) (.fin 3) (.fin 3)) 0 = .ok (.fin m) ∧
    Euler.waveSpeed 1.4 0 ((1, ![1], 3) : Euler.Cons 1) = m := by
  have hv : IsVolume ⟨3, 1, 1⟩ (threeCells (.fin 1) (.fin 1) (.fin 1) ++ threeCells (.fin 1) (.fin 1) (.fin 1) ++ threeCells (.fin 3) (.fin 3) (.fin 3)) := by
    refine ⟨by decide, by decide, fun a ha i => ?_⟩
    simp only [List.mem_append] at ha
    rcases ha with (ha | ha) | ha <;> exact (threeCells_volume _ _ _).areas a ha i
  have hs : ∀ c, InBlock ⟨3, 1, 1⟩ c → stateAt ⟨3, 1, 1⟩ (threeCells (.fin 1) (.fin 1) (.fin 1) ++ threeCells (.fin 1) (.fin 1) (.fin 1) ++ threeCells (.fin 3) (.fin 3) (.fin 3)) c =
      encode ((1, ![1], 3) : Euler.Cons 1) := fun c hc => by
    rcases threeCells_block hc with rfl | rfl | rfl <;> simp [stateAt, threeCells, flat, encode, Euler.Cons.rho, Euler.Cons.m, Euler.Cons.E]
  have hi : ∀ c, InteriorCell ⟨3, 1, 1⟩ ⟨1, 0, 0⟩ c → InBlock ⟨3, 1, 1⟩ c := fun c hc => by
    obtain ⟨h1, h2, h3⟩ := hc
    refine ⟨?_, ?_, ?_⟩ <;> simp at h1 h2 h3 ⊢ <;> omega
  have hg : GhostsAreCopies ⟨3, 1, 1⟩ ⟨1, 0, 0⟩ (threeCells (.fin 1) (.fin 1) (.fin 1) ++ threeCells (.fin 1) (.fin 1) (.fin 1) ++ threeCells (.fin 3) (.fin 3) (.fin 3)) := fun c hc =>
    ⟨⟨1, 0, 0⟩, by unfold InBlock; decide, by decide, by decide, by decide, by rw [hs c hc, hs _ (by unfold InBlock; decide)]⟩
  obtain ⟨b, h1, h2⟩ := C64_check_partial (euler 1.4 1) ⟨3, 1, 1⟩ ⟨1, 0, 0⟩ _ hv rfl (by decide) hg
  have hb : b = true := h2.2 fun c hc => by
    rw [hs c (hi c hc)]
    exact (C64_euler_admissible _ _ rfl).2 ⟨_, rfl, by norm_num [Euler.pressure, Euler.dot, Euler.Cons.m, Euler.Cons.rho, Euler.Cons.E]⟩
  subst hb
  obtain ⟨m, h3, -, c, -, h4⟩ := C64_euler_max_wave_speed (n := 1) 1.4 ⟨3, 1, 1⟩ ⟨1, 0, 0⟩ _ 0 (by decide) hv rfl (by norm_num) (by decide) hg (fun _ => (1, ![1], 3)) (fun c hc => hs c (hi c hc)) h1
  exact ⟨m, h3, h4⟩

end Verif.Props
