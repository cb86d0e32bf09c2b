import Verif.PlottingLemmas

/-! C112: the picture of the example that plots. -/

namespace Verif.Props.Plotting
open Verif Verif.Plotting
variable {B : Type}

/-- The picture shows the whole domain of `px` times `py` parts: the first coordinate grows to the right and the second one upwards, as in the pictures of the parts. -/
def Shows (p : Picture B) (px py : Nat) (part : Nat → Nat → B) : Prop :=
  p.length = py ∧ ∀ a < py, ∃ row, p[a]? = some row ∧ row.length = px ∧ ∀ b < px, row[b]? = some (part b (py - 1 - a))

/-- All processes of the domain write, in any order. -/
def Everyone (order : List (Nat × Nat)) (px py : Nat) : Prop := ∀ p, p ∈ order ↔ p.1 < px ∧ p.2 < py

/-- The files before the first colour map. -/
theorem start {cs : List String} {nx ny px py ts : Nat} (hnx : 0 < nx) (hny : 0 < ny) {order : List (Nat × Nat)} (ho : Everyone order px py) (picture : String → Nat → Nat → B) (disk : Disk B) :
    ∃ d, output cs nx ny px py ts order picture disk = cs.foldl (combineMap px py ts) ⟨d, [], false⟩ ∧
      (∀ c ∈ cs, ∀ i < py, ∀ j < px, d ⟨c, j, i, ts⟩ = some [[picture c j i]]) ∧ ∀ m, ¬(m.cmap ∈ cs ∧ m.x < px ∧ m.y < py ∧ m.t = ts) → d m = disk m := by
  refine ⟨_, by rw [output, Nat.mul_div_cancel _ hnx, Nat.mul_div_cancel _ hny, afterMPISync], fun c hc i hi j hj => ?_, fun m hm => ?_⟩
  · rw [writes_ok _ _ _ _ hnx hny, if_pos ⟨hc, (ho (j, i)).2 ⟨hj, hi⟩, rfl⟩]
  · rw [writes_ok _ _ _ _ hnx hny, if_neg]
    rintro ⟨h1, h2, h3⟩
    obtain ⟨h4, h5⟩ := (ho _).1 h2
    exact hm ⟨h1, h4, h5, h3⟩

theorem picture_eq (part : Nat → Nat → B) (px py : Nat) {a b : Nat} (ha : a < py) (hb : b < px) :
    ∃ row, ((List.range py).reverse.map (rowPicture part px))[a]? = some row ∧ row.length = px ∧ row[b]? = some (part (px - 1 - b) (py - 1 - a)) := by
  refine ⟨rowPicture part px (py - 1 - a), ?_, by simp [rowPicture], ?_⟩
  · rw [List.getElem?_map, List.getElem?_reverse (by simpa using ha), List.length_range, List.getElem?_range (by omega)]
    rfl
  · rw [rowPicture, List.getElem?_map, List.getElem?_reverse (by simpa using hb), List.length_range, List.getElem?_range (by omega)]
    rfl

/-- C112, partial. On one process every colour map has its picture, nothing else is changed, and no exception is raised. Missing: several processes, see `C112_raises`, `C112_first_picture` and
`C112_fails_for_columns`. -/
theorem C112_one_process_partial (cs : List String) (nx ny ts : Nat) (hnx : 0 < nx) (hny : 0 < ny) (order : List (Nat × Nat)) (ho : Everyone order 1 1) (picture : String → Nat → Nat → B)
    (disk : Disk B) :
    (output cs nx ny 1 1 ts order picture disk).raised = false ∧ (∀ c ∈ cs, ∃ p, (output cs nx ny 1 1 ts order picture disk).disk ⟨c, 0, 0, ts⟩ = some p ∧ Shows p 1 1 (picture c)) ∧
    ∀ m, ¬(m.cmap ∈ cs ∧ m.x = 0 ∧ m.y = 0 ∧ m.t = ts) → (output cs nx ny 1 1 ts order picture disk).disk m = disk m := by
  obtain ⟨d, h1, h2, h3⟩ := start (cs := cs) (ts := ts) hnx hny ho picture disk
  have main : ∀ l : List String, (∀ c ∈ l, c ∈ cs) → l.foldl (combineMap 1 1 ts) ⟨d, [], false⟩ = ⟨d, [], false⟩ := by
    intro l
    induction l with
    | nil => intro _; rfl
    | cons c l ih =>
      intro hl
      have hd := h2 c (hl c (by simp)) 0 (by omega) 0 (by omega)
      have hstep : combineMap 1 1 ts ⟨d, [], false⟩ c = ⟨d, [], false⟩ := by
        simp [combineMap, combineRow, combineImages, hd, beside]
      rw [List.foldl_cons, hstep]
      exact ih fun c hc => hl c (by simp [hc])
  rw [h1, main cs fun _ h => h]
  refine ⟨rfl, fun c hc => ⟨[[picture c 0 0]], h2 c hc 0 (by omega) 0 (by omega), rfl, fun a ha => ?_⟩, fun m hm => h3 m fun e => hm ⟨e.1, by omega, by omega, e.2.2.2⟩⟩
  obtain rfl : a = 0 := by omega
  refine ⟨_, rfl, rfl, fun b hb => ?_⟩
  obtain rfl : b = 0 := by omega
  rfl

/-- The state after the first colour map. -/
theorem after_first {c : String} {px py ts : Nat} (hpx : 0 < px) (hpy : 0 < py) (part : Nat → Nat → B) (d : Disk B) (h : ∀ i < py, ∀ j < px, d ⟨c, j, i, ts⟩ = some [[part j i]]) :
    ∃ d', combineMap px py ts ⟨d, [], false⟩ c = ⟨d', (allFiles c px py ts).erase ⟨c, 0, 0, ts⟩, false⟩ ∧ d' ⟨c, 0, 0, ts⟩ = some ((List.range py).reverse.map (rowPicture part px)) ∧
      (∀ m ∈ (allFiles c px py ts).erase ⟨c, 0, 0, ts⟩, d' m = none) ∧ ∀ m, m.cmap ≠ c → d' m = d m := by
  obtain ⟨d1, h1, h2, h3, h4⟩ := combine_ok c px py ts hpx hpy part d [] h
  rw [List.nil_append] at h1
  have hnd := allFiles_nodup c px py ts
  obtain ⟨d2, h5, h6⟩ := delete_ok ((allFiles c px py ts).erase ⟨c, 0, 0, ts⟩) (hnd.erase _) d1 ((allFiles c px py ts).erase ⟨c, 0, 0, ts⟩) (by
    intro m hm
    obtain ⟨e1, e2, e3, e4⟩ := mem_allFiles.1 (List.mem_of_mem_erase hm)
    exact h3 m e1 e2 e3 e4)
  refine ⟨d2, by rw [h1, h5], ?_, fun m hm => by rw [h6, if_pos hm], fun m hm => ?_⟩
  · rw [h6, if_neg (hnd.not_mem_erase), h2]
  · rw [h6, if_neg fun e => hm (mem_allFiles.1 (List.mem_of_mem_erase e)).1, h4 m (.inl hm)]

/-- C112 on several processes: with two colour maps an exception is raised, since the list of the files to be deleted is not emptied after the first one; the first picture is the only one, and it has the parts at
the mirrored columns. -/
theorem C112_raises (c c' : String) (cs : List String) (hcs : c ≠ c') (nx ny px py ts : Nat) (hnx : 0 < nx) (hny : 0 < ny) (hpx : 0 < px) (hpy : 0 < py) (hp : 1 < px * py)
    (order : List (Nat × Nat)) (ho : Everyone order px py) (picture : String → Nat → Nat → B) (disk : Disk B) :
    (output (c :: c' :: cs) nx ny px py ts order picture disk).raised = true ∧
    ∃ p, (output (c :: c' :: cs) nx ny px py ts order picture disk).disk ⟨c, 0, 0, ts⟩ = some p ∧ p.length = py ∧
      ∀ a < py, ∀ b < px, ∃ row, p[a]? = some row ∧ row.length = px ∧ row[b]? = some (picture c (px - 1 - b) (py - 1 - a)) := by
  obtain ⟨d, h1, h2, -⟩ := start (cs := c :: c' :: cs) (ts := ts) hnx hny ho picture disk
  obtain ⟨d1, e1, e2, e3, e4⟩ := after_first hpx hpy (picture c) d (h2 c (by simp))
  obtain ⟨d2, f1, f2, f3, f4⟩ := combine_ok c' px py ts hpx hpy (picture c') d1 ((allFiles c px py ts).erase ⟨c, 0, 0, ts⟩) (by
    intro i hi j hj
    rw [e4 _ (by simpa using Ne.symm hcs)]
    exact h2 c' (by simp) i hi j hj)
  have hnot : (⟨c', 0, 0, ts⟩ : Name) ∉ (allFiles c px py ts).erase ⟨c, 0, 0, ts⟩ := fun e => hcs (mem_allFiles.1 (List.mem_of_mem_erase e)).1.symm
  obtain ⟨f, l, hfl⟩ : ∃ f l, (allFiles c px py ts).erase ⟨c, 0, 0, ts⟩ = f :: l := by
    cases e : (allFiles c px py ts).erase ⟨c, 0, 0, ts⟩ with
    | cons f l => exact ⟨f, l, rfl⟩
    | nil =>
      exfalso
      have hmem : ∀ m : Name, m ≠ ⟨c, 0, 0, ts⟩ → m ∉ allFiles c px py ts := fun m hm hm' => by
        have := (List.mem_erase_of_ne hm).2 hm'
        rw [e] at this
        simp at this
      by_cases hx1 : 1 < px
      · exact hmem ⟨c, 1, 0, ts⟩ (by simp) (mem_allFiles.2 ⟨rfl, hx1, hpy, rfl⟩)
      · have hy1 : 1 < py := by
          obtain rfl : px = 1 := by omega
          omega
        exact hmem ⟨c, 0, 1, ts⟩ (by simp) (mem_allFiles.2 ⟨rfl, hpx, hy1, rfl⟩)
  have hnone : d2 f = none := by
    have hf : f ∈ (allFiles c px py ts).erase ⟨c, 0, 0, ts⟩ := by rw [hfl]; simp
    rw [f4 f (.inl fun e => hcs (((mem_allFiles.1 (List.mem_of_mem_erase hf)).1).symm.trans e)), e3 f hf]
  have hkeep : d2 ⟨c, 0, 0, ts⟩ = some ((List.range py).reverse.map (rowPicture (picture c) px)) := by rw [f4 _ (.inl hcs), e2]
  have hfin : ∃ td, output (c :: c' :: cs) nx ny px py ts order picture disk = ⟨d2, td, true⟩ := by
    rw [h1, List.foldl_cons, e1, List.foldl_cons, f1, List.erase_append_right _ hnot, hfl, List.cons_append, List.foldl_cons]
    have : ∀ td, deleteFile ⟨d2, td, false⟩ f = ⟨d2, td, true⟩ := fun td => by simp [deleteFile, hnone]
    rw [this, delete_raised _ _ rfl, maps_raised _ _ _ _ _ rfl]
    exact ⟨_, rfl⟩
  obtain ⟨td, hfin⟩ := hfin
  rw [hfin]
  exact ⟨rfl, _, hkeep, by simp, fun a ha b hb => picture_eq (picture c) px py ha hb⟩

/-- C112, partial: with one column of processes the first picture is right. -/
theorem C112_one_column_partial (c c' : String) (cs : List String) (hcs : c ≠ c') (nx ny py ts : Nat) (hnx : 0 < nx) (hny : 0 < ny) (hpy : 1 < py) (order : List (Nat × Nat))
    (ho : Everyone order 1 py) (picture : String → Nat → Nat → B) (disk : Disk B) :
    ∃ p, (output (c :: c' :: cs) nx ny 1 py ts order picture disk).disk ⟨c, 0, 0, ts⟩ = some p ∧ Shows p 1 py (picture c) := by
  obtain ⟨-, p, h1, h2, h3⟩ := C112_raises c c' cs hcs nx ny 1 py ts hnx hny one_pos (by omega) (by omega) order ho picture disk
  refine ⟨p, h1, h2, fun a ha => ?_⟩
  obtain ⟨row, e1, e2, -⟩ := h3 a ha 0 one_pos
  refine ⟨row, e1, e2, fun b hb => ?_⟩
  obtain ⟨row', e3, -, e4⟩ := h3 a ha b hb
  cases e1.symm.trans e3
  obtain rfl : b = 0 := by omega
  exact e4

/-- C112 is false for every number of columns above one, if the parts do not look alike: the first picture does not show the domain. -/
theorem C112_fails_for_columns (c c' : String) (cs : List String) (hcs : c ≠ c') (nx ny px py ts : Nat) (hnx : 0 < nx) (hny : 0 < ny) (hpx : 1 < px) (hpy : 0 < py) (order : List (Nat × Nat))
    (ho : Everyone order px py) (picture : String → Nat → Nat → B) (hpic : picture c 0 0 ≠ picture c (px - 1) 0) (disk : Disk B) :
    ¬∃ p, (output (c :: c' :: cs) nx ny px py ts order picture disk).disk ⟨c, 0, 0, ts⟩ = some p ∧ Shows p px py (picture c) := by
  rintro ⟨p, h1, -, h3⟩
  obtain ⟨-, p', g1, -, g3⟩ := C112_raises c c' cs hcs nx ny px py ts hnx hny (by omega) hpy (by nlinarith) order ho picture disk
  cases h1.symm.trans g1
  obtain ⟨row, e1, -, e2⟩ := h3 (py - 1) (by omega)
  obtain ⟨row', e3, -, e4⟩ := g3 (py - 1) (by omega) 0 (by omega)
  cases e1.symm.trans e3
  have := (e2 0 (by omega)).symm.trans e4
  simp only [Nat.sub_self, Nat.sub_zero, Option.some.injEq] at this
  exact hpic this

/-- Processes of a domain in some order. -/
theorem exOrder (px py : Nat) : Everyone ((List.range px).flatMap fun x => (List.range py).map fun y => (x, y)) px py := by
  rintro ⟨x, y⟩
  simp

/-- One process; and the 64 times 64 cells of the example on four processes, where an exception is raised and the first picture is wrong. -/
example (disk : Disk (String × Nat × Nat)) (order : List (Nat × Nat)) (h : Everyone order 2 2) :
    (output colormaps 64 64 1 1 0 [(0, 0)] (fun c x y => (c, x, y)) disk).raised = false ∧
    (output ("PuRd" :: "jet" :: ["rainbow", "viridis"]) 32 32 2 2 0 order (fun c x y => (c, x, y)) disk).raised = true ∧
    ¬∃ p, (output ("PuRd" :: "jet" :: ["rainbow", "viridis"]) 32 32 2 2 0 order (fun c x y => (c, x, y)) disk).disk ⟨"PuRd", 0, 0, 0⟩ = some p ∧
      Shows p 2 2 ((fun c x y => (c, x, y)) "PuRd") := by
  refine ⟨(C112_one_process_partial colormaps 64 64 0 (by decide) (by decide) [(0, 0)] (by rintro ⟨x, y⟩; simp) (fun c x y => (c, x, y)) disk).1, ?_, ?_⟩
  · exact (C112_raises "PuRd" "jet" ["rainbow", "viridis"] (by decide) 32 32 2 2 0 (by decide) (by decide) (by decide) (by decide) (by decide) order h (fun c x y => (c, x, y)) disk).1
  · exact C112_fails_for_columns "PuRd" "jet" ["rainbow", "viridis"] (by decide) 32 32 2 2 0 (by decide) (by decide) (by decide) (by decide) order h (fun c x y => (c, x, y)) (by simp) disk

/-- Two processes above each other; `exOrder` shows that there is such an order. -/
example (disk : Disk (String × Nat × Nat)) (order : List (Nat × Nat)) (h : Everyone order 1 2) :
    ∃ p, (output ("PuRd" :: "jet" :: ["rainbow", "viridis"]) 64 32 1 2 7 order (fun c x y => (c, x, y)) disk).disk ⟨"PuRd", 0, 0, 7⟩ = some p ∧ Shows p 1 2 ((fun c x y => (c, x, y)) "PuRd") :=
  C112_one_column_partial "PuRd" "jet" ["rainbow", "viridis"] (by decide) 64 32 2 7 (by decide) (by decide) (by decide) order h (fun c x y => (c, x, y)) disk

end Verif.Props.Plotting
