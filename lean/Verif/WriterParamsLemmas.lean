import Verif.WriterParams
import Verif.PluginLemmas
import Mathlib.Data.Nat.Digits.Defs

/-! Helper lemmas for C111. -/

namespace Verif.WriterParams
open Params

/-- The value of a child. -/
def value (key : Str) (t : Tree) : Option Str := (find key t).map Tree.data

/-- No name has a dot or is empty. -/
def Plain (t : Tree) : Prop := ∀ p ∈ t.children, p.1 ≠ [] ∧ '.' ∉ p.1

theorem item_setItem (d : List (Str × Str)) (k key v : Str) : item k (setItem d key v) = if k = key then some v else item k d := by
  unfold setItem
  split_ifs with h h1 h1
  · subst h1
    induction d with
    | nil => simp at h
    | cons p ps ih =>
      by_cases hp : p.1 = k
      · simp [item, hp]
      · have : k ∈ ps.map Prod.fst := by
          rcases List.mem_cons.1 h with h | h
          · exact absurd h.symm hp
          · exact h
        have := ih this
        simp only [item, List.map_cons, if_neg hp] at this ⊢
        rw [List.find?_cons_of_neg (by simpa using hp)]
        exact this
  · clear h
    induction d with
    | nil => rfl
    | cons p ps ih =>
      simp only [item, List.map_cons] at ih ⊢
      by_cases hp : p.1 = key
      · rw [if_pos hp, List.find?_cons_of_neg (by simpa using Ne.symm h1), List.find?_cons_of_neg (by simpa [hp] using Ne.symm h1)]
        exact ih
      · rw [if_neg hp]
        by_cases hk : p.1 = k
        · simp [hk]
        · rw [List.find?_cons_of_neg (by simpa using hk), List.find?_cons_of_neg (by simpa using hk)]
          exact ih
  · subst h1
    have h0 : d.find? (fun p => p.1 == k) = none := by
      rw [List.find?_eq_none]
      intro p hp e
      exact h (List.mem_map.2 ⟨p, hp, by simpa using e⟩)
    simp [item, List.find?_append, h0]
  · simp [item, List.find?_append, Ne.symm h1]

/-- The dictionary has the first value of every name. -/
theorem dictionary_ok (t : Tree) (h : Plain t) : ∃ d, dictionary t = .ok d ∧ ∀ key, item key d = value key t := by
  have hget : ∀ p ∈ t.children, ∃ v, getString p.1 t = .ok v ∧ value p.1 t = some v := by
    intro p hp
    have hs : (find p.1 t).isSome := by
      rw [find, Option.isSome_map, List.find?_isSome]
      exact ⟨p, hp, by simp⟩
    obtain ⟨c, hc⟩ := Option.isSome_iff_exists.1 hs
    refine ⟨c.data, ?_, by rw [value, hc]; rfl⟩
    rw [getString, getData, Plugin.fragments_plain (h p hp).1 (h p hp).2, walk, hc]
    rfl
  have main : ∀ (l : List (Str × Tree)) (d0 : List (Str × Str)), (∀ p ∈ l, p ∈ t.children) → ∃ d, (l.map Prod.fst).foldlM (fun d key => do
      let value ← getString key t
      .ok (setItem d key value)) d0 = .ok d ∧ ∀ key, item key d = if key ∈ l.map Prod.fst then value key t else item key d0 := by
    intro l
    induction l with
    | nil => intro d0 _; exact ⟨d0, rfl, by simp⟩
    | cons p ps ih =>
      intro d0 hl
      obtain ⟨v, hv, hv'⟩ := hget p (hl p (by simp))
      obtain ⟨d, hd, hi⟩ := ih (setItem d0 p.1 v) fun q hq => hl q (by simp [hq])
      refine ⟨d, by simp only [List.map_cons, List.foldlM_cons, hv, Res.ok_bind]; exact hd, fun key => ?_⟩
      rw [hi, item_setItem]
      by_cases h1 : key = p.1
      · subst h1; simp [hv']
      · simp only [List.map_cons, List.mem_cons, h1, false_or, if_false]
  obtain ⟨d, hd, hi⟩ := main t.children [] fun _ h => h
  refine ⟨d, hd, fun key => ?_⟩
  rw [hi]
  split_ifs with hk
  · rfl
  · have : find key t = none := by
      rw [find, Option.map_eq_none_iff, List.find?_eq_none]
      intro p hp e
      exact hk (List.mem_map.2 ⟨p, hp, by simpa using e⟩)
    rw [value, this]
    rfl

theorem find_updateChild (k name : Str) (f : Tree → Tree) (d : Str) (c : List (Str × Tree)) :
    find k (.node d (updateChild name f c)) = if k = name then some (f ((find name (.node d c)).getD (.node [] []))) else find k (.node d c) := by
  induction c with
  | nil =>
    by_cases h : k = name
    · simp [updateChild, find, Tree.children, h]
    · simp [updateChild, find, Tree.children, h, Ne.symm h]
  | cons p ps ih =>
    simp only [find, Tree.children, updateChild] at ih ⊢
    by_cases hp : p.1 = name
    · by_cases h : k = name
      · simp [hp, h]
      · simp [hp, h, Ne.symm h]
    · have hb : (p.1 == name) = false := by simpa using hp
      simp only [hb, Bool.false_eq_true, if_false, List.find?_cons]
      by_cases hk : p.1 = k
      · have : k ≠ name := fun e => hp (hk.trans e)
        simp [hk, this]
      · have hb' : (p.1 == k) = false := by simpa using hk
        simp only [hb']
        exact ih

theorem value_add (k name v : Str) (t : Tree) (hne : name ≠ []) (hdot : '.' ∉ name) : value k (addString name v t) = if k = name then some v else value k t := by
  obtain ⟨d, c⟩ := t
  rw [value, addString, Plugin.fragments_plain hne hdot, putAt, find_updateChild]
  split_ifs with h
  · generalize (find name (.node d c)).getD (.node [] []) = t
    obtain ⟨d', c'⟩ := t
    rfl
  · rfl

theorem plain_add {name : Str} (v : Str) {t : Tree} (hne : name ≠ []) (hdot : '.' ∉ name) (h : Plain t) : Plain (addString name v t) := by
  obtain ⟨d, c⟩ := t
  rw [addString, Plugin.fragments_plain hne hdot, putAt]
  simp only [Plain, Tree.children] at h ⊢
  induction c with
  | nil => simpa [updateChild] using ⟨hne, hdot⟩
  | cons p ps ih =>
    intro q hq
    rw [updateChild] at hq
    split_ifs at hq with hp
    · rcases List.mem_cons.1 hq with rfl | hq
      · exact ⟨hne, hdot⟩
      · exact h q (by simp [hq])
    · rcases List.mem_cons.1 hq with rfl | hq
      · exact h q (by simp)
      · exact ih (fun q hq => h q (by simp [hq])) q hq

theorem int_decimal (i : Int) : int (decimal i) = .ok i := by
  have hd : ∀ c ∈ Nat.toDigits 10 i.natAbs, c.isDigit = true := fun c hc => Nat.isDigit_of_mem_toDigits (by decide) (by decide) hc
  have hn : Nat.toDigits 10 i.natAbs ≠ [] := Nat.toDigits_ne_nil
  unfold int decimal
  by_cases h : i < 0
  · rw [if_pos h]
    simp only [List.head?_cons, show (some '-' == some '-') = true from rfl, if_true, List.drop_one, List.tail_cons]
    rw [if_pos ⟨hn, List.all_eq_true.2 hd⟩, Nat.ofDigitChars_ten_toDigits]
    congr 1
    omega
  · rw [if_neg h]
    have h0 : ((Nat.toDigits 10 i.natAbs).head? == some '-') = false := by
      cases e : Nat.toDigits 10 i.natAbs with
      | nil => rfl
      | cons c l =>
        have := hd c (by rw [e]; simp)
        have : c ≠ '-' := by rintro rfl; exact absurd this (by decide)
        simpa using this
    simp only [h0, Bool.false_eq_true, if_false]
    rw [if_pos ⟨hn, List.all_eq_true.2 hd⟩, Nat.ofDigitChars_ten_toDigits]
    congr 1
    omega

theorem words_word (w s : Str) (pre : Str) (h : ∀ c ∈ w, space c = false) : words pre (w ++ s) = words (pre ++ w) s := by
  induction w generalizing pre with
  | nil => simp
  | cons c w ih =>
    rw [List.cons_append, words, h c (by simp)]
    simp only [Bool.false_eq_true, if_false]
    rw [ih _ fun d hd => h d (by simp [hd]), List.append_assoc]
    rfl

theorem words_join (ws : List Str) (h : ∀ w ∈ ws, w ≠ [] ∧ ∀ c ∈ w, space c = false) : words [] (join ws) = ws := by
  induction ws with
  | nil => rfl
  | cons w ws ih =>
    obtain ⟨h1, h2⟩ := h w (by simp)
    have ih := ih fun w' hw' => h w' (by simp [hw'])
    rcases ws with _ | ⟨v, ws⟩
    · have := words_word w [] [] h2
      rw [List.append_nil, List.nil_append] at this
      rw [join, this, words, if_neg h1]
    · rw [join, words_word _ _ _ h2, List.nil_append, words, if_pos (by rfl), if_neg h1, ih]
      exact List.cons_ne_nil _ _

end Verif.WriterParams
