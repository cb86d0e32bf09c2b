import Verif.SetupSpec
import Verif.FactoriesLemmas
import Mathlib.Data.List.Forall2
import Mathlib.Tactic.FieldSimp

/-!
Lemmas for C85: each reader agrees with what the file says, and does not run into undefined behaviour.
-/

namespace Verif.Setup
open Params Factories
variable {K F : Type}

theorem bind_iff {α β : Type} {x : Res α} {f : α → Res β} {b : β} : (x >>= f) = .ok b ↔ ∃ a, x = .ok a ∧ f a = .ok b := by
  cases x <;> simp

/-- No undefined behaviour. -/
def Safe {α : Type} (x : Res α) : Prop := x ≠ .error .ub

theorem safe_ok {α : Type} (a : α) : Safe (.ok a : Res α) := by simp [Safe]
theorem safe_thrown {α : Type} : Safe (.error .thrown : Res α) := by simp [Safe]

theorem Safe.bind {α β : Type} {x : Res α} {f : α → Res β} (hx : Safe x) (hf : ∀ a, x = .ok a → Safe (f a)) : Safe (x >>= f) := by
  cases x with
  | error e => simpa [Safe] using hx
  | ok a => exact hf a rfl

theorem safe_ite {α : Type} {c : Prop} [Decidable c] {x y : Res α} (hx : c → Safe x) (hy : ¬ c → Safe y) : Safe (if c then x else y) := by
  split
  · exact hx ‹_›
  · exact hy ‹_›

theorem safe_map {α β : Type} {x : Res α} (f : α → β) (hx : Safe x) : Safe (x.map f) := by
  cases x <;> simp_all [Safe, Except.map]

theorem safe_convert {α : Type} (f : Str → Option α) (s : Str) : Safe (convert f s) := by unfold convert; cases f s <;> simp [Safe]

theorem safe_mapM {α β : Type} {f : α → Res β} (h : ∀ a, Safe (f a)) : ∀ l : List α, Safe (l.mapM f)
  | [] => by simpa using safe_ok _
  | a :: l => by
    rw [List.mapM_cons]
    exact (h a).bind fun _ _ => (safe_mapM h l).bind fun _ _ => by simpa using safe_ok _

theorem safe_foldlM {α β : Type} {f : β → α → Res β} (h : ∀ b a, Safe (f b a)) : ∀ (l : List α) (b : β), Safe (l.foldlM f b)
  | [], b => by simpa using safe_ok _
  | a :: l, b => by
    rw [List.foldlM_cons]
    exact (h b a).bind fun _ _ => safe_foldlM h l _

theorem ofList_iff {s : Str} {t : String} : String.ofList s = t ↔ s = t.toList := by
  constructor
  · rintro rfl; simp
  · rintro rfl; simp

/-! ### Finding nodes -/

theorem find_iff {t : Tree} {k : String} {c : Tree} : find k.toList t = some c ↔ First t k c := by
  unfold find First
  generalize t.children = l
  induction l with
  | nil => simp
  | cons p l ih =>
    by_cases h : p.1 = k.toList
    · constructor
      · intro e
        simp [h] at e
        exact ⟨[], l, by rw [← e, ← h]; rfl, by simp⟩
      · rintro ⟨b, a, e, hb⟩
        cases b with
        | nil => simp only [List.nil_append, List.cons.injEq] at e; simp [e.1]
        | cons q b =>
          simp only [List.cons_append, List.cons.injEq] at e
          exact absurd (e.1 ▸ h) (hb q (by simp))
    · rw [List.find?_cons_of_neg (by simpa using h), ih]
      constructor
      · rintro ⟨b, a, e, hb⟩
        refine ⟨p :: b, a, by rw [e]; rfl, ?_⟩
        intro q hq
        rcases List.mem_cons.1 hq with rfl | hq
        · exact h
        · exact hb q hq
      · rintro ⟨b, a, e, hb⟩
        cases b with
        | nil => simp only [List.nil_append, List.cons.injEq] at e; exact absurd (by rw [e.1]) h
        | cons q b =>
          simp only [List.cons_append, List.cons.injEq] at e
          exact ⟨b, a, e.2, fun q hq => hb q (by simp [hq])⟩

theorem find_none {t : Tree} {k : String} : find k.toList t = none ↔ Absent t k := by
  unfold find Absent
  simp

theorem has_iff {t : Tree} {k : String} : has k t = true ↔ ∃ c, First t k c := by
  simp only [has, Option.isSome_iff_exists, find_iff]

theorem has_not {t : Tree} {k : String} : ¬ has k t = true ↔ Absent t k := by
  rw [← find_none]; unfold has; simp

theorem absent_iff {t : Tree} {k : String} : Absent t k ↔ ¬ ∃ c, First t k c := by rw [← has_not, has_iff]

theorem First.unique {t : Tree} {k : String} {c d : Tree} (h : First t k c) (h' : First t k d) : c = d := by
  rw [← find_iff] at h h'
  rw [h] at h'
  exact Option.some.inj h'

theorem child_iff {t : Tree} {path : List String} {c : Tree} : child path t = .ok c ↔ At t path c := by
  unfold child
  induction path generalizing t with
  | nil => simp only [List.map_nil, walk, At, Except.ok.injEq]; exact eq_comm
  | cons k ks ih =>
    simp only [List.map_cons, walk, At]
    cases h : find k.toList t with
    | none =>
      simp only [reduceCtorEq, false_iff]
      rintro ⟨d, hd, -⟩
      rw [← find_iff, h] at hd
      cases hd
    | some d =>
      simp only
      rw [ih]
      constructor
      · intro hc; exact ⟨d, find_iff.1 h, hc⟩
      · rintro ⟨d', hd', hc⟩
        rw [← find_iff, h] at hd'
        cases hd'
        exact hc

theorem at_one {t : Tree} {k : String} {c : Tree} : At t [k] c ↔ First t k c := by simp [At]

theorem At.unique {t : Tree} {path : List String} {c d : Tree} (h : At t path c) (h' : At t path d) : c = d := by
  rw [← child_iff] at h h'
  rw [h] at h'
  exact Except.ok.inj h'

theorem safe_child (path : List String) (t : Tree) : Safe (child path t) := by
  unfold child
  induction path generalizing t with
  | nil => exact safe_ok _
  | cons k ks ih =>
    simp only [List.map_cons, walk]
    cases find k.toList t with
    | none => exact safe_thrown
    | some d => exact ih d

theorem text_iff {t : Tree} {path : List String} {s : Str} : text path t = .ok s ↔ Says t path s := by
  unfold text Says
  simp only [← child_iff]
  cases child path t <;> simp [Except.map]

theorem safe_text (path : List String) (t : Tree) : Safe (text path t) := safe_map _ (safe_child path t)

theorem Says.unique {t : Tree} {path : List String} {a b : Str} (h : Says t path a) (h' : Says t path b) : a = b := by
  rw [← text_iff] at h h'
  rw [h] at h'
  exact Except.ok.inj h'

theorem convert_iff {α : Type} {f : Str → Option α} {s : Str} {x : α} : convert f s = .ok x ↔ f s = some x := by
  unfold convert
  cases f s <;> simp

theorem get_iff {α : Type} {f : Str → Option α} {path : List String} {t : Tree} {x : α} : get f path t = .ok x ↔ Value f t path x := by
  unfold get Value
  simp only [bind_iff, text_iff, convert_iff]

theorem safe_get {α : Type} (f : Str → Option α) (path : List String) (t : Tree) : Safe (get f path t) :=
  (safe_text path t).bind fun _ _ => safe_convert f _

theorem Value.unique {α : Type} {f : Str → Option α} {path : List String} {t : Tree} {x y : α} (h : Value f t path x) (h' : Value f t path y) : x = y := by
  rw [← get_iff] at h h'
  rw [h] at h'
  exact Except.ok.inj h'

theorem says_cons {t : Tree} {k : String} {ks : List String} {s : Str} : Says t (k :: ks) s ↔ ∃ c, First t k c ∧ Says c ks s := by
  unfold Says
  simp only [At]
  constructor
  · rintro ⟨c, ⟨d, h1, h2⟩, h3⟩; exact ⟨d, h1, c, h2, h3⟩
  · rintro ⟨d, h1, c, h2, h3⟩; exact ⟨c, ⟨d, h1, h2⟩, h3⟩

theorem value_cons {α : Type} {f : Str → Option α} {t : Tree} {k : String} {ks : List String} {x : α} : Value f t (k :: ks) x ↔ ∃ c, First t k c ∧ Value f c ks x := by
  unfold Value
  simp only [says_cons (k := k)]
  constructor
  · rintro ⟨s, ⟨c, h1, h2⟩, h3⟩; exact ⟨c, h1, s, h2, h3⟩
  · rintro ⟨c, h1, s, h2, h3⟩; exact ⟨s, ⟨c, h1, h2⟩, h3⟩

/-! ### Trimming -/

theorem trim_iff {s r : Str} : trim s = r ↔ Trimmed s r := by
  have hd : ∀ l : Str, ∀ c, (l.dropWhile isSpace).head? = some c → isSpace c = false := by
    intro l c h
    have := List.head?_dropWhile_not isSpace l
    rw [h] at this
    simpa using this
  have ht : ∀ l : Str, ∀ c ∈ l.takeWhile isSpace, isSpace c = true := by
    intro l
    induction l with
    | nil => simp
    | cons d l ih =>
      intro c hc
      by_cases h : isSpace d = true
      · rw [List.takeWhile_cons, if_pos h] at hc
        rcases List.mem_cons.1 hc with rfl | hc
        · exact h
        · exact ih c hc
      · rw [List.takeWhile_cons, if_neg h] at hc; simp at hc
  have hdrop : ∀ a l : Str, (∀ c ∈ a, isSpace c = true) → (∀ c, l.head? = some c → isSpace c = false) → (a ++ l).dropWhile isSpace = l := by
    intro a l ha hl
    induction a with
    | nil => cases l with
      | nil => rfl
      | cons c l => simp [hl c rfl]
    | cons c a ih => simp only [List.cons_append, List.dropWhile_cons, ha c (by simp), if_true]; exact ih fun c hc => ha c (by simp [hc])
  unfold trim
  constructor
  · rintro rfl
    refine ⟨s.takeWhile isSpace, ((s.dropWhile isSpace).reverse.takeWhile isSpace).reverse, ?_, ?_, ?_, ?_⟩
    · rw [List.append_assoc, ← List.reverse_append, List.takeWhile_append_dropWhile, List.reverse_reverse, List.takeWhile_append_dropWhile]
    · intro c hc
      rcases List.mem_append.1 hc with hc | hc
      · exact ht _ c hc
      · exact ht _ c (List.mem_reverse.1 hc)
    · intro c hc
      apply hd s c
      set l := s.dropWhile isSpace with hl
      have e : l = ((l.reverse.dropWhile isSpace).reverse) ++ (l.reverse.takeWhile isSpace).reverse := by
        rw [← List.reverse_append, List.takeWhile_append_dropWhile, List.reverse_reverse]
      rw [e, List.head?_append, hc]; rfl
    · intro c hc
      rw [List.getLast?_reverse] at hc
      exact hd _ c hc
  · rintro ⟨a, b, rfl, hab, h1, h2⟩
    cases r with
    | nil =>
      have := hdrop (a ++ b) [] hab (by simp)
      rw [List.append_nil] at this ⊢
      rw [this]
      rfl
    | cons c r =>
      have e1 : (a ++ c :: r ++ b).dropWhile isSpace = c :: r ++ b := by
        rw [List.append_assoc]
        exact hdrop a _ (fun x hx => hab x (by simp [hx])) (by intro x hx; exact h1 x (by simpa using hx))
      rw [e1, List.reverse_append, hdrop _ _ (fun x hx => hab x (by simp at hx; simp [hx])) (by intro x hx; rw [List.head?_reverse] at hx; exact h2 x hx), List.reverse_reverse]

/-! ### Files -/

theorem take_iff {d : Str} : d.take 5 = "load:".toList ↔ ∃ name, d = "load:".toList ++ name := by
  constructor
  · intro h; exact ⟨d.drop 5, by rw [← h, List.take_append_drop]⟩
  · rintro ⟨name, rfl⟩; exact List.take_left' rfl

theorem drop_load (name : Str) : ("load:".toList ++ name).drop 5 = name := List.drop_left' rfl

mutual
theorem loadNode_iff (load : Str → Option Str) : ∀ t t' : Tree, loadNode load t = .ok t' ↔ Filled load t t'
  | .node d [], t' => by
    rw [loadNode]
    constructor
    · intro h
      split at h
      · rename_i h5
        obtain ⟨name, rfl⟩ := take_iff.1 h5
        obtain ⟨x, hx, h⟩ := bind_iff.1 h
        cases h
        rw [convert_iff, drop_load] at hx
        exact .file hx
      · rename_i h5
        cases h
        exact .text fun name e => h5 (take_iff.2 ⟨name, e⟩)
    · intro h
      cases h with
      | file h =>
        rw [if_pos (take_iff.2 ⟨_, rfl⟩), drop_load, convert_iff.2 h]; rfl
      | text h => rw [if_neg fun e => by obtain ⟨n, e⟩ := take_iff.1 e; exact h n e]
      | inner h _ => exact absurd rfl h
  | .node d (p :: ps), t' => by
    rw [loadNode]
    constructor
    · intro h
      obtain ⟨q, hq, h⟩ := bind_iff.1 h
      obtain ⟨qs, hqs, h⟩ := bind_iff.1 h
      cases h
      exact .inner (by simp) ((loadChildren_iff load (p :: ps) (q :: qs)).1 (by rw [loadChildren, hq, Res.ok_bind, hqs]; rfl))
    · intro h
      cases h with
      | inner _ h =>
        have := (loadChildren_iff load (p :: ps) _).2 h
        rw [loadChildren] at this
        obtain ⟨q, hq, this⟩ := bind_iff.1 this
        obtain ⟨qs, hqs, this⟩ := bind_iff.1 this
        cases this
        rw [hq, Res.ok_bind, hqs]; rfl
theorem loadChildren_iff (load : Str → Option Str) : ∀ c c' : List (Str × Tree), loadChildren load c = .ok c' ↔ FilledAll load c c'
  | [], c' => by
    rw [loadChildren]
    constructor
    · intro h; cases h; exact .nil
    · intro h; cases h; rfl
  | (k, t) :: ps, c' => by
    rw [loadChildren, loadPair]
    constructor
    · intro h
      obtain ⟨q, hq, h⟩ := bind_iff.1 h
      obtain ⟨t', ht', hq⟩ := bind_iff.1 hq
      obtain ⟨qs, hqs, h⟩ := bind_iff.1 h
      cases h; cases hq
      exact .cons ((loadNode_iff load t _).1 ht') ((loadChildren_iff load ps _).1 hqs)
    · intro h
      cases h with
      | cons h1 h2 => rw [(loadNode_iff load t _).2 h1, Res.ok_bind, Res.ok_bind, (loadChildren_iff load ps _).2 h2]; rfl
end

mutual
theorem safe_loadNode (load : Str → Option Str) : ∀ t : Tree, Safe (loadNode load t)
  | .node d [] => by
    rw [loadNode]
    exact safe_ite (fun _ => (safe_convert _ _).bind fun _ _ => safe_ok _) fun _ => safe_ok _
  | .node d ((k, t) :: ps) => by
    rw [loadNode, loadPair]
    exact ((safe_loadNode load t).bind fun _ _ => safe_ok _).bind fun _ _ => (safe_loadChildren load ps).bind fun _ _ => safe_ok _
theorem safe_loadChildren (load : Str → Option Str) : ∀ c : List (Str × Tree), Safe (loadChildren load c)
  | [] => by rw [loadChildren]; exact safe_ok _
  | (k, t) :: ps => by
    rw [loadChildren, loadPair]
    exact ((safe_loadNode load t).bind fun _ _ => safe_ok _).bind fun _ _ => (safe_loadChildren load ps).bind fun _ _ => safe_ok _
end

/-! ### The grid -/

theorem split_word {w : Str} (h : ∀ x ∈ w, x ≠ ' ' ∧ x ≠ '\t') : split w = [w] := by
  induction w with
  | nil => rfl
  | cons c w ih =>
    have := h c (by simp)
    rw [split, if_neg (by simp [blank, this]), ih fun x hx => h x (by simp [hx])]

theorem split_append {w : Str} (h : ∀ x ∈ w, x ≠ ' ' ∧ x ≠ '\t') {c : Char} (hc : c = ' ' ∨ c = '\t') (rest : Str) : split (w ++ c :: rest) = w :: split rest := by
  induction w with
  | nil => rw [List.nil_append, split, if_pos (by rcases hc with rfl | rfl <;> rfl)]
  | cons d w ih =>
    have := h d (by simp)
    rw [List.cons_append, split, if_neg (by simp [blank, this]), ih fun x hx => h x (by simp [hx])]

theorem split_cases (s : Str) : ((∀ x ∈ s, x ≠ ' ' ∧ x ≠ '\t') ∧ split s = [s]) ∨
    ∃ w c rest, s = w ++ c :: rest ∧ (∀ x ∈ w, x ≠ ' ' ∧ x ≠ '\t') ∧ (c = ' ' ∨ c = '\t') ∧ split s = w :: split rest := by
  by_cases h : ∀ x ∈ s, x ≠ ' ' ∧ x ≠ '\t'
  · exact .inl ⟨h, split_word h⟩
  · right
    induction s with
    | nil => exact absurd (by simp) h
    | cons c s ih =>
      by_cases hc : c = ' ' ∨ c = '\t'
      · exact ⟨[], c, s, rfl, by simp, hc, by simpa using split_append (w := []) (by simp) hc s⟩
      · obtain ⟨w, d, rest, rfl, hw, hd, hs⟩ := ih fun h' => h fun x hx => by
          rcases List.mem_cons.1 hx with rfl | hx
          · exact not_or.1 hc
          · exact h' x hx
        have hw' : ∀ x ∈ c :: w, x ≠ ' ' ∧ x ≠ '\t' := fun x hx => by
          rcases List.mem_cons.1 hx with rfl | hx
          · exact not_or.1 hc
          · exact hw x hx
        exact ⟨c :: w, d, rest, rfl, hw', hd, split_append hw' hd rest⟩

theorem token_iff {α : Type} {f : Str → Option α} {ws : List Str} {i : Nat} {x : α} : token f ws i = .ok x ↔ ∃ w, ws[i]? = some w ∧ f w = some x := by
  unfold token
  cases ws[i]? <;> simp [convert_iff]

theorem parseVector_iff {α : Type} {f : Str → Option α} {s : Str} {v : α × α × α} : parseVector f s = .ok v ↔ Three f s v.1 v.2.1 v.2.2 := by
  obtain ⟨a, b, c⟩ := v
  have hS : parseVector f s = .ok (a, b, c) ↔ ∃ w1 w2 w3 more, split s = w1 :: w2 :: w3 :: more ∧ f w1 = some a ∧ f w2 = some b ∧ f w3 = some c := by
    unfold parseVector
    simp only [bind_iff, token_iff]
    constructor
    · rintro ⟨_, ⟨w1, h1, e1⟩, _, ⟨w2, h2, e2⟩, _, ⟨w3, h3, e3⟩, h⟩
      cases h
      rcases hs : split s with _ | ⟨u1, _ | ⟨u2, _ | ⟨u3, more⟩⟩⟩ <;> rw [hs] at h1 h2 h3 <;> simp at h1 h2 h3
      subst h1 h2 h3
      exact ⟨u1, u2, u3, more, rfl, e1, e2, e3⟩
    · rintro ⟨w1, w2, w3, more, hs, e1, e2, e3⟩
      rw [hs]
      exact ⟨a, ⟨w1, rfl, e1⟩, b, ⟨w2, rfl, e2⟩, c, ⟨w3, rfl, e3⟩, rfl⟩
  rw [hS]
  constructor
  · rintro ⟨w1, w2, w3, more, hs, e1, e2, e3⟩
    rcases split_cases s with ⟨-, h⟩ | ⟨v1, c1, r1, rfl, hv1, hc1, h⟩
    · rw [h] at hs; cases hs
    obtain ⟨rfl, hs1⟩ := List.cons.inj (h.symm.trans hs)
    rcases split_cases r1 with ⟨-, h'⟩ | ⟨v2, c2, r2, rfl, hv2, hc2, h'⟩
    · rw [h'] at hs1; cases hs1
    obtain ⟨rfl, hs2⟩ := List.cons.inj (h'.symm.trans hs1)
    rcases split_cases r2 with ⟨hw, h''⟩ | ⟨v3, c3, r3, rfl, hv3, hc3, h''⟩
    · rw [h''] at hs2; cases hs2
      exact ⟨v1, v2, w3, c1, c2, [], by simp, by simpa using fun x hx => by rcases hx with hx | hx | hx <;> [exact hv1 x hx; exact hv2 x hx; exact hw x hx], hc1, hc2, .inl rfl, e1, e2, e3⟩
    · obtain ⟨rfl, hs3⟩ := List.cons.inj (h''.symm.trans hs2)
      exact ⟨v1, v2, v3, c1, c2, c3 :: r3, by simp, by simpa using fun x hx => by rcases hx with hx | hx | hx <;> [exact hv1 x hx; exact hv2 x hx; exact hv3 x hx], hc1, hc2,
        .inr ⟨c3, r3, rfl, hc3⟩, e1, e2, e3⟩
  · rintro ⟨w1, w2, w3, c1, c2, rest, rfl, hw, hc1, hc2, hr, e1, e2, e3⟩
    have g1 : ∀ x ∈ w1, x ≠ ' ' ∧ x ≠ '\t' := fun x hx => hw x (by simp [hx])
    have g2 : ∀ x ∈ w2, x ≠ ' ' ∧ x ≠ '\t' := fun x hx => hw x (by simp [hx])
    have g3 : ∀ x ∈ w3, x ≠ ' ' ∧ x ≠ '\t' := fun x hx => hw x (by simp [hx])
    have e : w1 ++ c1 :: w2 ++ c2 :: w3 ++ rest = w1 ++ c1 :: (w2 ++ c2 :: (w3 ++ rest)) := by simp
    rw [e, split_append g1 hc1, split_append g2 hc2]
    rcases hr with rfl | ⟨c3, more, rfl, hc3⟩
    · rw [List.append_nil, split_word g3]; exact ⟨w1, w2, w3, [], rfl, e1, e2, e3⟩
    · rw [split_append g3 hc3]; exact ⟨w1, w2, w3, _, rfl, e1, e2, e3⟩

theorem safe_parseVector {α : Type} {f : Str → Option α} {s : Str} (h : 3 ≤ (split s).length) : Safe (parseVector f s) := by
  have ht : ∀ i, i < 3 → Safe (token f (split s) i) := by
    intro i hi
    unfold token
    rw [List.getElem?_eq_getElem (by omega)]
    exact safe_convert _ _
  exact (ht 0 (by omega)).bind fun _ _ => (ht 1 (by omega)).bind fun _ _ => (ht 2 (by omega)).bind fun _ _ => safe_ok _

/-- The number of words is one more than the number of separators. -/
theorem split_length (s : Str) : (split s).length = (s.filter blank).length + 1 := by
  induction s with
  | nil => rfl
  | cons c s ih =>
    rw [split]
    by_cases h : blank c = true
    · rw [if_pos h, List.length_cons, ih, List.filter_cons_of_pos h, List.length_cons]
    · rw [if_neg h, List.filter_cons_of_neg h]
      cases hs : split s with
      | nil => rw [hs] at ih; simp at ih
      | cons w ws => rw [hs] at ih; simpa using ih

/-! ### Lists of entries -/

theorem mapM_iff {α β : Type} {f : α → Res β} : ∀ {l : List α} {ys : List β}, l.mapM f = .ok ys ↔ List.Forall₂ (fun a y => f a = .ok y) l ys
  | [], ys => by simp [eq_comm]
  | a :: l, ys => by
    rw [List.mapM_cons]
    simp only [bind_iff, mapM_iff, Res.pure_eq]
    constructor
    · rintro ⟨y, hy, zs, hz, h⟩; cases h; exact .cons hy hz
    · intro h
      cases h with
      | cons h1 h2 => exact ⟨_, h1, _, h2, rfl⟩

theorem text_cons {t c : Tree} {k : String} (h : First t k c) (ks : List String) : text (k :: ks) t = text ks c := by
  unfold text child
  simp only [List.map_cons, walk, find_iff.2 h]

theorem get_cons {α : Type} {f : Str → Option α} {t c : Tree} {k : String} (h : First t k c) (ks : List String) : get f (k :: ks) t = get f ks c := by
  unfold get
  rw [text_cons h]

theorem child_one {t c : Tree} {k : String} (h : First t k c) : child [k] t = .ok c := child_iff.2 (at_one.2 h)

theorem addParameter_iff {p : Str × List K} {ps qs : List (Str × List K)} : addParameter ps p = .ok qs ↔ p.1 ∉ ps.map Prod.fst ∧ qs = ps ++ [p] := by
  unfold addParameter
  split
  · simp_all
  · rename_i h
    simp only [Except.ok.injEq, h, not_false_eq_true, true_and]
    exact eq_comm

theorem safe_addParameter (p : Str × List K) (ps : List (Str × List K)) : Safe (addParameter ps p) := by
  unfold addParameter
  exact safe_ite (fun _ => safe_thrown) fun _ => safe_ok _

theorem foldlM_add {α : Type} {g : α → Res (Str × List K)} : ∀ {l : List α} {ps qs : List (Str × List K)}, (ps.map Prod.fst).Nodup →
    (l.foldlM (fun ps a => do addParameter ps (← g a)) ps = .ok qs ↔ (qs.map Prod.fst).Nodup ∧ ∃ rs, List.Forall₂ (fun a r => g a = .ok r) l rs ∧ qs = ps ++ rs)
  | [], ps, qs, hps => by
    simp only [List.foldlM_nil, Res.pure_eq, Except.ok.injEq]
    constructor
    · rintro rfl; exact ⟨hps, [], .nil, by simp⟩
    · rintro ⟨-, rs, h, rfl⟩; cases h; simp
  | a :: l, ps, qs, hps => by
    rw [List.foldlM_cons]
    simp only [bind_iff, addParameter_iff]
    constructor
    · rintro ⟨_, ⟨r, hr, hn, rfl⟩, h⟩
      have hps' : ((ps ++ [r]).map Prod.fst).Nodup := by
        rw [List.map_append]
        exact List.nodup_append.2 ⟨hps, by simp, by intro x hx y hy e; simp at hy; subst hy; exact hn (e ▸ hx)⟩
      obtain ⟨h1, rs, h2, rfl⟩ := (foldlM_add hps').1 h
      exact ⟨h1, r :: rs, .cons hr h2, by simp⟩
    · rintro ⟨h1, rs, h2, rfl⟩
      cases h2 with
      | @cons _ r _ rs hr h2 =>
        have e : ps ++ r :: rs = ps ++ [r] ++ rs := by simp
        have hn : r.1 ∉ ps.map Prod.fst := by
          rw [List.map_append] at h1
          intro h
          exact (List.nodup_append.1 h1).2.2 _ h _ (by simp) rfl
        have hps' : ((ps ++ [r]).map Prod.fst).Nodup := by
          rw [e, List.map_append] at h1
          exact (List.nodup_append.1 h1).1
        exact ⟨_, ⟨r, hr, hn, rfl⟩, (foldlM_add hps').2 ⟨h1, rs, h2, e⟩⟩

/-- Reading the entries of an optional node. -/
theorem entries_iff {α : Type} {t : Tree} {k : String} {f : List (Str × Tree) → Res α} {x0 x : α} (h0 : f [] = .ok x0) :
    ((if has k t = true then do f (← child [k] t).children else .ok x0 : Res α) = .ok x) ↔ ∃ l, Entries t k l ∧ f l = .ok x := by
  by_cases h : has k t = true
  · obtain ⟨c, hc⟩ := has_iff.1 h
    rw [if_pos h, child_one hc, Res.ok_bind]
    constructor
    · intro hx; exact ⟨c.children, .inl ⟨c, hc, rfl⟩, hx⟩
    · rintro ⟨l, ⟨d, hd, rfl⟩ | ⟨ha, -⟩, hx⟩
      · rw [hc.unique hd]; exact hx
      · exact absurd ⟨c, hc⟩ (absent_iff.1 ha)
  · rw [if_neg h]
    have ha := has_not.1 h
    constructor
    · intro hx; exact ⟨[], .inr ⟨ha, rfl⟩, by rw [h0, hx]⟩
    · rintro ⟨l, ⟨d, hd, rfl⟩ | ⟨-, rfl⟩, hx⟩
      · exact absurd ⟨d, hd⟩ (absent_iff.1 ha)
      · rw [← h0, hx]

/-! ### The parts of the file -/

theorem createGrid_iff {conv : Conv K} {fvm : Tree} {g : GridObj K} : createGrid conv fvm = .ok g ↔ GridMeant conv fvm g := by
  have hb : ∀ b : Str, ∀ p : Bool, ((if b = "periodic".toList then .ok true else if b = "neumann".toList then .ok false else .error .thrown : Res Bool) = .ok p) ↔
      (b = "periodic".toList ∧ p = true ∨ b = "neumann".toList ∧ p = false) := by
    intro b p
    by_cases h1 : b = "periodic".toList
    · subst h1
      rw [if_pos rfl]
      simp [eq_comm]
    · rw [if_neg h1]
      by_cases h2 : b = "neumann".toList
      · subst h2; simp [eq_comm]
      · rw [if_neg h2]; simp only [reduceCtorEq, h1, h2, false_and, or_self]
  unfold createGrid
  simp only [bind_iff, text_iff, parseVector_iff, child_iff, at_one, hb]
  constructor
  · rintro ⟨n, hn, s1, h1, s2, h2, s3, h3, a, ha, b, hb, c, hc, bd, hbd, p, hp, h⟩
    cases h
    refine ⟨⟨s1, says_cons.2 ⟨n, hn, h1⟩, ha⟩, ⟨s2, says_cons.2 ⟨n, hn, h2⟩, hb⟩, ⟨s3, says_cons.2 ⟨n, hn, h3⟩, hc⟩, ?_⟩
    rcases hp with ⟨rfl, rfl⟩ | ⟨rfl, rfl⟩
    · exact .inl ⟨hbd, rfl⟩
    · exact .inr ⟨hbd, rfl⟩
  · rintro ⟨⟨s1, h1, ha⟩, ⟨s2, h2, hb⟩, ⟨s3, h3, hc⟩, hp⟩
    obtain ⟨n, hn, h1⟩ := says_cons.1 h1
    obtain ⟨n', hn', h2⟩ := says_cons.1 h2
    obtain ⟨n'', hn'', h3⟩ := says_cons.1 h3
    obtain rfl := hn.unique hn'
    obtain rfl := hn.unique hn''
    refine ⟨n, hn, s1, h1, s2, h2, s3, h3, (_, _, _), ha, (_, _, _), hb, (_, _, _), hc, ?_⟩
    rcases hp with ⟨hp, hq⟩ | ⟨hp, hq⟩
    · exact ⟨_, hp, true, .inl ⟨rfl, rfl⟩, by rw [← hq]⟩
    · exact ⟨_, hp, false, .inr ⟨rfl, rfl⟩, by rw [← hq]⟩

theorem word_iff {t : Tree} {path : List String} {r : Str} : (do .ok (trim (← text path t)) : Res Str) = .ok r ↔ Word t path r := by
  simp only [bind_iff, text_iff, Except.ok.injEq, trim_iff, Word]

theorem Word.unique {t : Tree} {path : List String} {a b : Str} (h : Word t path a) (h' : Word t path b) : a = b := by
  rw [← word_iff] at h h'
  rw [h] at h'
  exact Except.ok.inj h'

theorem readReconstruction_iff {fvm : Tree} {r : Str} : readReconstruction fvm = .ok r ↔ Word fvm ["reconstruction"] r := word_iff

theorem readCFLNumber_iff [Field K] {conv : Conv K} {fvm : Tree} {r : Str} (hr : Word fvm ["reconstruction"] r) {x : K} :
    readCFLNumber conv fvm = .ok x ↔ ∃ t, Says fvm ["cfl"] t ∧ if t = "auto".toList then x = (if r = "none".toList then 9 / 10 else 475 / 1000) else conv.realText t = some x := by
  unfold readCFLNumber
  simp only [bind_iff, text_iff, readReconstruction_iff.2 hr, Res.ok_bind]
  refine exists_congr fun t => and_congr_right fun _ => ?_
  split
  · split <;> simp [eq_comm]
  · exact convert_iff

theorem readIntegrator_iff {fvm : Tree} {r : Str} (hr : Word fvm ["reconstruction"] r) {x : Str} :
    readIntegrator fvm = .ok x ↔ ∃ t, Says fvm ["integrator"] t ∧
      x = if t = "auto".toList then (if r = "none".toList then "forwardeuler".toList else "rungekutta2".toList) else t := by
  unfold readIntegrator
  simp only [bind_iff, text_iff, readReconstruction_iff.2 hr, Res.ok_bind]
  refine exists_congr fun t => and_congr_right fun _ => ?_
  split
  · split <;> simp [eq_comm]
  · simp [eq_comm]

theorem readDiffusion_iff {fvm : Tree} {x : Str × Str} : readDiffusion fvm = .ok x ↔
    (∃ d, First fvm "diffusion" d ∧ Word d ["name"] x.1 ∧ Word d ["reconstruction"] x.2) ∨ (Absent fvm "diffusion" ∧ x = ("none".toList, "none".toList)) := by
  unfold readDiffusion
  by_cases h : has "diffusion" fvm = true
  · obtain ⟨d, hd⟩ := has_iff.1 h
    rw [if_pos h, text_cons hd, text_cons hd]
    simp only [bind_iff, text_iff, Except.ok.injEq]
    constructor
    · rintro ⟨a, ha, b, hb, rfl⟩; exact .inl ⟨d, hd, ⟨a, ha, trim_iff.1 rfl⟩, b, hb, trim_iff.1 rfl⟩
    · rintro (⟨d', hd', ⟨a, ha, ha'⟩, b, hb, hb'⟩ | ⟨ha, -⟩)
      · obtain rfl := hd.unique hd'
        exact ⟨a, ha, b, hb, by rw [trim_iff.2 ha', trim_iff.2 hb']⟩
      · exact absurd ⟨d, hd⟩ (absent_iff.1 ha)
  · rw [if_neg h]
    have ha := has_not.1 h
    constructor
    · intro hx; cases hx; exact .inr ⟨ha, rfl⟩
    · rintro (⟨d, hd, -⟩ | ⟨-, rfl⟩)
      · exact absurd ⟨d, hd⟩ (absent_iff.1 ha)
      · rfl

theorem readGamma_iff {conv : Conv K} {fvm : Tree} {e : Str} (he : Says fvm ["equation"] e) {x : Option K} : readGamma conv fvm = .ok x ↔
    (∃ g eqs, String.ofList e ∈ ["euler1", "euler2", "euler3"] ∧ First fvm "equationParameters" eqs ∧ Value conv.real eqs ["gamma"] g ∧ x = some g) ∨
    ((String.ofList e ∉ ["euler1", "euler2", "euler3"] ∨ Absent fvm "equationParameters") ∧ x = none) := by
  have hm : (e = "euler1".toList ∨ e = "euler2".toList ∨ e = "euler3".toList) ↔ String.ofList e ∈ ["euler1", "euler2", "euler3"] := by
    simp only [List.mem_cons, List.not_mem_nil, or_false, ofList_iff]
  unfold readGamma
  by_cases h : has "equationParameters" fvm = true
  · obtain ⟨d, hd⟩ := has_iff.1 h
    rw [if_pos h, text_iff.2 he, Res.ok_bind, get_cons hd]
    by_cases h1 : e = "euler1".toList ∨ e = "euler2".toList ∨ e = "euler3".toList
    · rw [if_pos h1]
      simp only [bind_iff, get_iff]
      constructor
      · rintro ⟨g, hg, hx⟩; cases hx; exact .inl ⟨g, d, hm.1 h1, hd, hg, rfl⟩
      · rintro (⟨g, d', -, hd', hg, rfl⟩ | ⟨h2 | h2, -⟩)
        · obtain rfl := hd.unique hd'; exact ⟨g, hg, rfl⟩
        · exact absurd (hm.1 h1) h2
        · exact absurd ⟨d, hd⟩ (absent_iff.1 h2)
    · rw [if_neg h1]
      constructor
      · intro hx; cases hx; exact .inr ⟨.inl fun h => h1 (hm.2 h), rfl⟩
      · rintro (⟨g, d', h2, -⟩ | ⟨-, rfl⟩)
        · exact absurd (hm.2 h2) h1
        · rfl
  · rw [if_neg h]
    have ha := has_not.1 h
    constructor
    · intro hx; cases hx; exact .inr ⟨.inr ha, rfl⟩
    · rintro (⟨g, d, -, hd, -⟩ | ⟨-, rfl⟩)
      · exact absurd ⟨d, hd⟩ (absent_iff.1 ha)
      · rfl

theorem readParameter_iff {conv : Conv K} {node : Tree} {p : Str × List K} : readParameter conv node = .ok p ↔ ParameterMeant conv node p := by
  obtain ⟨n, v⟩ := p
  have hf : ∀ l : List (Str × Tree), (l.filter fun p => iequals p.1 "value".toList) = l.filter fun c => c.1.map Char.toLower = "value".toList := by
    intro l
    apply List.filter_congr
    intro c _
    have : "value".toList.map Char.toLower = "value".toList := by decide
    rw [iequals, this, beq_eq_decide]
  have hm : ∀ (xs : List K) (length : Int), fillValues length xs = .ok v ↔ (∃ x, xs = [x] ∧ 0 ≤ length ∧ v = List.replicate length.toNat x) ∨ (xs.length ≠ 1 ∧ v = xs) := by
    intro xs length
    match xs with
    | [] => simp [fillValues, eq_comm]
    | [x] =>
      rw [fillValues]
      split
      · simp only [reduceCtorEq, false_iff]
        rintro (⟨y, -, h, -⟩ | ⟨h, -⟩)
        · omega
        · simp at h
      · rename_i h
        simp only [Except.ok.injEq]
        constructor
        · rintro rfl; exact .inl ⟨x, rfl, by omega, rfl⟩
        · rintro (⟨y, hy, -, rfl⟩ | ⟨h, -⟩)
          · cases hy; rfl
          · simp at h
    | x :: y :: l => simp [fillValues, eq_comm]
  unfold readParameter ParameterMeant
  simp only [bind_iff, text_iff, get_iff]
  constructor
  · rintro ⟨name, hname, length, hl, h⟩
    split at h
    · rename_i h1
      simp only [bind_iff, get_iff] at h
      obtain ⟨x, hx, h⟩ := h
      cases h
      exact ⟨hname, length, hl, .inl ⟨h1, x, hx, rfl⟩⟩
    · rename_i h1
      simp only [bind_iff, child_iff, at_one, mapM_iff, convert_iff] at h
      obtain ⟨vs, hvs, xs, hxs, v', h, e⟩ := h
      cases e
      exact ⟨hname, length, hl, .inr ⟨h1, vs, xs, hvs, by rw [← hf]; exact hxs, (hm _ _).1 h⟩⟩
  · rintro ⟨hname, length, hl, ⟨h1, x, hx, hv⟩ | ⟨h1, vs, xs, hvs, hxs, h⟩⟩
    · refine ⟨n, hname, length, hl, ?_⟩
      rw [if_pos h1]
      simp only [bind_iff, get_iff]
      exact ⟨x, hx, by rw [hv]⟩
    · refine ⟨n, hname, length, hl, ?_⟩
      rw [if_neg h1]
      simp only [bind_iff, child_iff, at_one, mapM_iff, convert_iff]
      exact ⟨vs, hvs, xs, by rw [hf]; exact hxs, v, (hm _ _).2 h, rfl⟩

theorem safe_readParameter (conv : Conv K) (node : Tree) : Safe (readParameter conv node) := by
  unfold readParameter
  refine (safe_text _ _).bind fun _ _ => (safe_get _ _ _).bind fun length _ => safe_ite (fun _ => (safe_get _ _ _).bind fun _ _ => safe_ok _) fun _ => ?_
  refine (safe_child _ _).bind fun _ _ => (safe_mapM (fun _ => safe_convert _ _) _).bind fun xs _ => Safe.bind ?_ fun _ _ => safe_ok _
  match xs with
  | [] => exact safe_ok _
  | [x] => exact safe_ite (fun _ => safe_thrown) fun _ => safe_ok _
  | x :: y :: l => exact safe_ok _

theorem forall₂_map {α β : Type} {f : α → β} : ∀ {l : List α} {rs : List β}, List.Forall₂ (fun a r => (.ok (f a) : Res β) = .ok r) l rs ↔ rs = l.map f
  | [], rs => by simp
  | a :: l, rs => by
    constructor
    · intro h
      cases h with
      | cons h1 h2 => cases h1; rw [forall₂_map.1 h2]; rfl
    · rintro rfl; exact .cons rfl (forall₂_map.2 rfl)

theorem readParameters_iff {conv : Conv K} {fvm : Tree} {ps : List (Str × List K)} : readParameters conv fvm = .ok ps ↔ ParametersMeant conv fvm ps := by
  have h1 : ∀ qs, ((if has "equationParameters" fvm = true then do
      (← child ["equationParameters"] fvm).children.foldlM (fun ps p => addParameter ps (p.1, [conv.atof p.2.data])) [] else .ok [] : Res (List (Str × List K))) = .ok qs) ↔
      ∃ eqs, Entries fvm "equationParameters" eqs ∧ (qs.map Prod.fst).Nodup ∧ qs = eqs.map fun c => (c.1, [conv.atof c.2.data]) := by
    intro qs
    rw [entries_iff (f := fun l => l.foldlM (fun ps p => addParameter ps (p.1, [conv.atof p.2.data])) []) (by rfl)]
    refine exists_congr fun eqs => and_congr_right fun _ => ?_
    refine (foldlM_add (g := fun p : Str × Tree => .ok (p.1, [conv.atof p.2.data])) (by simp)).trans (and_congr_right fun _ => ?_)
    simp only [forall₂_map, List.nil_append]
    constructor
    · rintro ⟨rs, rfl, rfl⟩; rfl
    · rintro rfl; exact ⟨_, rfl, rfl⟩
  have h2 : ∀ initial qs, (qs.map Prod.fst).Nodup → (((if has "parameters" initial = true then do
      (← child ["parameters"] initial).children.foldlM (fun ps p => do addParameter ps (← readParameter conv p.2)) qs else .ok qs : Res (List (Str × List K))) = .ok ps) ↔
      ∃ inits, Entries initial "parameters" inits ∧ (ps.map Prod.fst).Nodup ∧ ∃ rs, List.Forall₂ (fun (c : Str × Tree) p => ParameterMeant conv c.2 p) inits rs ∧ ps = qs ++ rs) := by
    intro initial qs hqs
    rw [entries_iff (f := fun l => l.foldlM (fun ps p => do addParameter ps (← readParameter conv p.2)) qs) (by rfl)]
    refine exists_congr fun eqs => and_congr_right fun _ => ?_
    refine (foldlM_add (g := fun p : Str × Tree => readParameter conv p.2) hqs).trans (and_congr_right fun _ => ?_)
    simp only [readParameter_iff]
  unfold readParameters ParametersMeant
  rw [bind_iff]
  constructor
  · rintro ⟨qs, hq, h⟩
    obtain ⟨eqs, he, hn, rfl⟩ := (h1 qs).1 hq
    obtain ⟨initial, hi, h⟩ := bind_iff.1 h
    obtain ⟨inits, hE, hN, rs, hrs, rfl⟩ := (h2 initial _ hn).1 h
    exact ⟨hN, eqs, initial, inits, rs, he, at_one.1 (child_iff.1 hi), hE, hrs, rfl⟩
  · rintro ⟨hN, eqs, initial, inits, rs, he, hi, hE, hrs, rfl⟩
    have hn : ((eqs.map fun c => (c.1, [conv.atof c.2.data])).map Prod.fst).Nodup := by
      rw [List.map_append] at hN
      exact (List.nodup_append.1 hN).1
    exact ⟨_, (h1 _).2 ⟨eqs, he, hn, rfl⟩, bind_iff.2 ⟨initial, child_one hi, (h2 initial _ hn).2 ⟨inits, hE, hN, rs, hrs, rfl⟩⟩⟩

theorem safe_readParameters (conv : Conv K) (fvm : Tree) : Safe (readParameters conv fvm) := by
  unfold readParameters
  refine (safe_ite (fun _ => (safe_child _ _).bind fun _ _ => safe_foldlM (fun _ _ => safe_addParameter _ _) _ _) fun _ => safe_ok _).bind fun ps _ =>
    (safe_child _ _).bind fun _ _ => safe_ite (fun _ => (safe_child _ _).bind fun _ _ => safe_foldlM (fun _ _ => (safe_readParameter _ _).bind fun _ _ => safe_addParameter _ _) _ _)
      fun _ => safe_ok _

theorem createInitialData_iff {conv : Conv K} {load : Str → Option Str} {fvm : Tree} {x : Str × List (Str × List K)} : createInitialData conv load fvm = .ok x ↔
    (∃ file, Says fvm ["initialData", "python"] file ∧ load file = some x.1) ∧ ParametersMeant conv fvm x.2 := by
  unfold createInitialData
  simp only [bind_iff, child_iff, at_one, ← readParameters_iff]
  constructor
  · rintro ⟨node, hn, h⟩
    split at h
    · simp only [bind_iff, text_iff, convert_iff] at h
      obtain ⟨file, hfile, prog, hp, ps, hps, h⟩ := h
      cases h
      exact ⟨⟨file, says_cons.2 ⟨node, hn, hfile⟩, hp⟩, hps⟩
    · cases h
  · rintro ⟨⟨file, hfile, hp⟩, hps⟩
    obtain ⟨node, hn, hfile⟩ := says_cons.1 hfile
    refine ⟨node, hn, ?_⟩
    obtain ⟨c, hc, -⟩ := says_cons.1 hfile
    rw [if_pos (has_iff.2 ⟨c, hc⟩)]
    simp only [bind_iff, text_iff, convert_iff]
    exact ⟨file, hfile, _, hp, _, hps, rfl⟩

theorem safe_createInitialData (conv : Conv K) (load : Str → Option Str) (fvm : Tree) : Safe (createInitialData conv load fvm) := by
  unfold createInitialData
  exact (safe_child _ _).bind fun _ _ => safe_ite (fun _ => (safe_text _ _).bind fun _ _ => (safe_convert _ _).bind fun _ _ => (safe_readParameters _ _).bind fun _ _ => safe_ok _)
    fun _ => safe_thrown

end Verif.Setup
