import Verif.Plotting
import Mathlib.Data.List.Nodup
import Mathlib.Data.List.Range
import Mathlib.Logic.Function.Basic

/-! Helper lemmas for C112. -/

namespace Verif.Plotting
variable {B : Type}

/-- The files of row `i`, in the order of the script. -/
def rowFiles (c : String) (n ts i : Nat) : List Name := (List.range n).reverse.map fun j => ⟨c, j, i, ts⟩

/-- What the script makes of row `i`. -/
def rowPicture (picture : Nat → Nat → B) (n i : Nat) : List B := (List.range n).reverse.map fun j => picture j i

theorem beside_single (l : List B) (h : l ≠ []) : beside (l.map fun b => [[b]]) = [l] := by
  induction l with
  | nil => exact absurd rfl h
  | cons b l ih =>
    rcases l with _ | ⟨b', l⟩
    · rfl
    · have := ih (by simp)
      simp only [List.map_cons] at this ⊢
      rw [beside, this]
      · rfl
      · simp

theorem filterMap_some {f : Name → Option (Picture B)} {l : List Name} {g : Name → Picture B} (h : ∀ n ∈ l, f n = some (g n)) : l.filterMap f = l.map g := by
  induction l with
  | nil => rfl
  | cons n l ih => rw [List.filterMap_cons, h n (by simp), List.map_cons, ih fun m hm => h m (by simp [hm])]

theorem combineRow_ok (c : String) (n ts : Nat) (hn : 0 < n) (picture : Nat → Nat → B) (s : Disk B × List Name × List Name) (i : Nat) (h : ∀ j < n, s.1 ⟨c, j, i, ts⟩ = some [[picture j i]]) :
    combineRow c n ts s i = (Function.update s.1 ⟨c, 0, i, ts⟩ (some [rowPicture picture n i]), s.2.1 ++ [⟨c, 0, i, ts⟩], s.2.2 ++ rowFiles c n ts i) := by
  have h1 : (rowFiles c n ts i).filterMap s.1 = (rowPicture picture n i).map fun b => [[b]] := by
    rw [filterMap_some (g := fun m => [[picture m.x i]])]
    · simp [rowFiles, rowPicture]
    · intro m hm
      obtain ⟨j, hj, rfl⟩ := List.mem_map.1 hm
      exact h j (by simpa using hj)
  have h2 : rowPicture picture n i ≠ [] := by
    simp [rowPicture]; omega
  unfold combineRow
  simp only [combineImages]
  rw [show ((List.range n).reverse.map fun j => (⟨c, j, i, ts⟩ : Name)) = rowFiles c n ts i from rfl, h1, if_neg (by simpa using h2), if_pos trivial, beside_single _ h2]

theorem rows_ok (c : String) (n ts : Nat) (hn : 0 < n) (picture : Nat → Nat → B) (is : List Nat) (hnd : is.Nodup) (s : Disk B × List Name × List Name)
    (h : ∀ i ∈ is, ∀ j < n, s.1 ⟨c, j, i, ts⟩ = some [[picture j i]]) :
    ∃ d, is.foldl (combineRow c n ts) s = (d, s.2.1 ++ is.map (fun i => (⟨c, 0, i, ts⟩ : Name)), s.2.2 ++ is.flatMap (rowFiles c n ts)) ∧
      (∀ i ∈ is, d ⟨c, 0, i, ts⟩ = some [rowPicture picture n i]) ∧ ∀ m, (∀ i ∈ is, m ≠ ⟨c, 0, i, ts⟩) → d m = s.1 m := by
  induction is generalizing s with
  | nil => exact ⟨s.1, by simp, by simp, fun _ _ => rfl⟩
  | cons i is ih =>
    obtain ⟨hi, hnd⟩ := List.nodup_cons.1 hnd
    rw [List.foldl_cons, combineRow_ok c n ts hn picture s i (h i (by simp))]
    obtain ⟨d, h1, h2, h3⟩ := ih hnd (Function.update s.1 ⟨c, 0, i, ts⟩ (some [rowPicture picture n i]), s.2.1 ++ [⟨c, 0, i, ts⟩], s.2.2 ++ rowFiles c n ts i) (by
      intro k hk j hj
      have : (⟨c, j, k, ts⟩ : Name) ≠ ⟨c, 0, i, ts⟩ := by
        intro e
        simp only [Name.mk.injEq] at e
        exact hi (e.2.2.1 ▸ hk)
      dsimp only
      rw [Function.update_of_ne this]
      exact h k (by simp [hk]) j hj)
    refine ⟨d, by rw [h1]; simp, ?_, ?_⟩
    · intro k hk
      rcases List.mem_cons.1 hk with rfl | hk
      · rw [h3 _ (by
          intro i' hi' e
          simp only [Name.mk.injEq] at e
          exact hi (e.2.2.1 ▸ hi'))]
        exact Function.update_self ..
      · exact h2 k hk
    · intro m hm
      rw [h3 m fun k hk => hm k (by simp [hk])]
      exact Function.update_of_ne (hm i (by simp)) ..

/-- Deleting files that exist. -/
theorem delete_ok (l : List Name) (hl : l.Nodup) (d : Disk B) (td : List Name) (h : ∀ n ∈ l, (d n).isSome) :
    ∃ d', l.foldl deleteFile ⟨d, td, false⟩ = ⟨d', td, false⟩ ∧ ∀ m, d' m = if m ∈ l then none else d m := by
  induction l generalizing d with
  | nil => exact ⟨d, rfl, by simp⟩
  | cons n l ih =>
    obtain ⟨hn, hl⟩ := List.nodup_cons.1 hl
    obtain ⟨p, hp⟩ := Option.isSome_iff_exists.1 (h n (by simp))
    have hstep : deleteFile ⟨d, td, false⟩ n = ⟨Function.update d n none, td, false⟩ := by simp [deleteFile, hp]
    obtain ⟨d', h1, h2⟩ := ih hl (Function.update d n none) fun m hm => by
      have : m ≠ n := fun e => hn (e ▸ hm)
      rw [Function.update_of_ne this]
      exact h m (by simp [hm])
    refine ⟨d', by rw [List.foldl_cons, hstep, h1], fun m => ?_⟩
    rw [h2]
    by_cases e : m = n
    · subst e; simp
    · simp [e]

theorem delete_raised (l : List Name) (o : Outcome B) (h : o.raised = true) : l.foldl deleteFile o = o := by
  induction l with
  | nil => rfl
  | cons n l ih => rw [List.foldl_cons, show deleteFile o n = o by simp [deleteFile, h], ih]

theorem maps_raised (l : List String) (nx ny ts : Nat) (o : Outcome B) (h : o.raised = true) : l.foldl (combineMap nx ny ts) o = o := by
  induction l with
  | nil => rfl
  | cons n l ih => rw [List.foldl_cons, show combineMap nx ny ts o n = o by simp [combineMap, h], ih]

/-- All files of a colour map in the order of the script. -/
def allFiles (c : String) (nx ny ts : Nat) : List Name := (List.range ny).reverse.flatMap (rowFiles c nx ts)

theorem mem_allFiles {c : String} {nx ny ts : Nat} {m : Name} : m ∈ allFiles c nx ny ts ↔ m.cmap = c ∧ m.x < nx ∧ m.y < ny ∧ m.t = ts := by
  obtain ⟨a, x, y, t⟩ := m
  simp only [allFiles, rowFiles, List.mem_flatMap, List.mem_reverse, List.mem_range, List.mem_map, Name.mk.injEq]
  constructor
  · rintro ⟨i, hi, j, hj, rfl, rfl, rfl, rfl⟩
    exact ⟨rfl, hj, hi, rfl⟩
  · rintro ⟨rfl, h1, h2, rfl⟩
    exact ⟨y, h2, x, h1, rfl, rfl, rfl, rfl⟩

theorem allFiles_nodup (c : String) (nx ny ts : Nat) : (allFiles c nx ny ts).Nodup := by
  unfold allFiles
  rw [List.nodup_flatMap]
  refine ⟨fun i _ => ?_, ?_⟩
  · exact (List.nodup_reverse.2 List.nodup_range).map fun a b e => by simpa using e
  · refine (List.nodup_reverse.2 List.nodup_range).imp fun {a b} hab => ?_
    rw [Function.onFun, List.disjoint_left]
    intro m hm hm'
    obtain ⟨j, -, rfl⟩ := List.mem_map.1 hm
    obtain ⟨k, -, e⟩ := List.mem_map.1 hm'
    simp only [Name.mk.injEq] at e
    exact hab e.2.2.1.symm

/-- The files after the pictures of a colour map were combined, before deleting. -/
theorem combine_ok (c : String) (nx ny ts : Nat) (hx : 0 < nx) (hy : 0 < ny) (picture : Nat → Nat → B) (d : Disk B) (td : List Name)
    (h : ∀ i < ny, ∀ j < nx, d ⟨c, j, i, ts⟩ = some [[picture j i]]) :
    ∃ d', combineMap nx ny ts ⟨d, td, false⟩ c = ((td ++ allFiles c nx ny ts).erase ⟨c, 0, 0, ts⟩).foldl deleteFile ⟨d', (td ++ allFiles c nx ny ts).erase ⟨c, 0, 0, ts⟩, false⟩ ∧
      d' ⟨c, 0, 0, ts⟩ = some ((List.range ny).reverse.map (rowPicture picture nx)) ∧ (∀ m, m.cmap = c → m.x < nx → m.y < ny → m.t = ts → (d' m).isSome) ∧
      ∀ m, m.cmap ≠ c ∨ m.x ≠ 0 ∨ ¬m.y < ny ∨ m.t ≠ ts → d' m = d m := by
  obtain ⟨d1, h1, h2, h3⟩ := rows_ok c nx ts hx picture (List.range ny).reverse (List.nodup_reverse.2 List.nodup_range) (d, [], td) (by
    intro i hi j hj
    exact h i (by simpa using hi) j hj)
  have hfm : ((List.range ny).reverse.map fun i => (⟨c, 0, i, ts⟩ : Name)).filterMap d1 = (List.range ny).reverse.map fun i => [rowPicture picture nx i] := by
    rw [filterMap_some (g := fun m => [rowPicture picture nx m.y])]
    · simp
    · intro m hm
      obtain ⟨i, hi, rfl⟩ := List.mem_map.1 hm
      exact h2 i hi
  have hne : ((List.range ny).reverse.map fun i => [rowPicture picture nx i]) ≠ [] := by simp; omega
  refine ⟨Function.update d1 ⟨c, 0, 0, ts⟩ (some ((List.range ny).reverse.map (rowPicture picture nx))), ?_, Function.update_self .., ?_, ?_⟩
  · have hmem : (⟨c, 0, 0, ts⟩ : Name) ∈ td ++ allFiles c nx ny ts := List.mem_append_right _ (mem_allFiles.2 ⟨rfl, hx, hy, rfl⟩)
    unfold combineMap
    simp only [Bool.false_eq_true, if_false, h1, List.nil_append]
    rw [show (List.range ny).reverse.flatMap (rowFiles c nx ts) = allFiles c nx ny ts from rfl, if_pos hmem]
    unfold combineImages
    rw [hfm, if_neg (by simpa using hne), if_neg (by decide)]
    have : ((List.range ny).reverse.map fun i => [rowPicture picture nx i]).flatten = (List.range ny).reverse.map (rowPicture picture nx) := by
      generalize (List.range ny).reverse = l
      induction l with
      | nil => rfl
      | cons a l ih => rw [List.map_cons, List.flatten_cons, ih]; rfl
    rw [this]
  · intro m e1 hmx hmy e2
    by_cases e : m = ⟨c, 0, 0, ts⟩
    · rw [e, Function.update_self]; rfl
    · rw [Function.update_of_ne e]
      obtain ⟨a, x, y, t⟩ := m
      subst e1 e2
      by_cases hx0 : x = 0
      · subst hx0
        rw [h2 y (by simpa using hmy)]; rfl
      · rw [h3 _ (by intro i _ e; simp only [Name.mk.injEq] at e; exact hx0 e.2.1)]
        exact Option.isSome_iff_exists.2 ⟨_, h y hmy x hmx⟩
  · intro m hm
    rw [Function.update_of_ne (by rintro rfl; rcases hm with h | h | h | h <;> simp_all), h3]
    intro i hi e
    subst e
    have : i < ny := by simpa using hi
    rcases hm with h | h | h | h <;> simp_all

/-- The files after all processes have stored their pictures. -/
theorem write_ok (cs : List String) (nx ny gx gy ts : Nat) (picture : String → B) (d : Disk B) (m : Name) :
    write cs nx ny gx gy ts picture d m = if m.cmap ∈ cs ∧ m.x = gx / nx ∧ m.y = gy / ny ∧ m.t = ts then some [[picture m.cmap]] else d m := by
  unfold write
  induction cs generalizing d with
  | nil => simp
  | cons c cs ih =>
    rw [List.foldl_cons, ih]
    obtain ⟨a, x, y, t⟩ := m
    by_cases h1 : x = gx / nx ∧ y = gy / ny ∧ t = ts
    · obtain ⟨rfl, rfl, rfl⟩ := h1
      by_cases h2 : a ∈ cs
      · simp [h2]
      · by_cases h3 : a = c
        · subst h3; simp [h2]
        · have : (⟨a, gx / nx, gy / ny, t⟩ : Name) ≠ ⟨c, gx / nx, gy / ny, t⟩ := by intro e; simp only [Name.mk.injEq] at e; exact h3 e.1
          simp [h2, h3]
    · have : (⟨a, x, y, t⟩ : Name) ≠ ⟨c, gx / nx, gy / ny, ts⟩ := by intro e; simp only [Name.mk.injEq] at e; exact h1 e.2
      rw [if_neg fun e => h1 e.2, if_neg fun e => h1 e.2, Function.update_of_ne this]

theorem writes_ok (cs : List String) (nx ny ts : Nat) (hnx : 0 < nx) (hny : 0 < ny) (picture : String → Nat → Nat → B) (order : List (Nat × Nat)) (d : Disk B) (m : Name) :
    order.foldl (fun d p => write cs nx ny (p.1 * nx) (p.2 * ny) ts (fun c => picture c p.1 p.2) d) d m =
      if m.cmap ∈ cs ∧ (m.x, m.y) ∈ order ∧ m.t = ts then some [[picture m.cmap m.x m.y]] else d m := by
  induction order generalizing d with
  | nil => simp
  | cons p order ih =>
    rw [List.foldl_cons, ih, write_ok, Nat.mul_div_cancel _ hnx, Nat.mul_div_cancel _ hny]
    obtain ⟨a, x, y, t⟩ := m
    obtain ⟨px, py⟩ := p
    by_cases h1 : a ∈ cs ∧ t = ts
    · obtain ⟨h1, rfl⟩ := h1
      by_cases h2 : (x, y) ∈ order
      · simp [h1, h2]
      · by_cases h3 : x = px ∧ y = py
        · obtain ⟨rfl, rfl⟩ := h3
          simp [h1, h2]
        · simp [h1, h2, h3]
    · rw [if_neg fun e => h1 ⟨e.1, e.2.2⟩, if_neg fun e => h1 ⟨e.1, e.2.2.2⟩, if_neg fun e => h1 ⟨e.1, e.2.2⟩]

end Verif.Plotting
