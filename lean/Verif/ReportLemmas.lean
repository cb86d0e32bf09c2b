import Verif.Report
import Verif.ReportSpec
import Verif.PluginLemmas
import Mathlib.Data.List.Induction

/-! Lemmas for the report of a run. -/

namespace Verif
namespace Report
open Params ReportSpec

/-! ### The cache -/

theorem mem_insertKey {k v : Str} {c : Cache} {p : Str × Str} : p ∈ insertKey k v c ↔ p = (k, v) ∨ p ∈ c := by
  induction c with
  | nil => simp [insertKey]
  | cons q c ih =>
    rw [insertKey]
    split
    · simp only [List.mem_cons, ih]
      tauto
    · simp

theorem nodup_insertKey {k v : Str} {c : Cache} (hc : (c.map (·.1)).Nodup) (hk : k ∉ c.map (·.1)) : ((insertKey k v c).map (·.1)).Nodup := by
  induction c with
  | nil => simp [insertKey]
  | cons q c ih =>
    simp only [List.map_cons, List.nodup_cons, List.mem_cons, not_or] at hc hk
    rw [insertKey]
    split
    · simp only [List.map_cons, List.nodup_cons]
      refine ⟨?_, ih hc.2 hk.2⟩
      intro h
      obtain ⟨p, hp, e⟩ := List.mem_map.1 h
      rcases mem_insertKey.1 hp with rfl | hp
      · exact hk.1 e
      · exact hc.1 (List.mem_map.2 ⟨p, hp, e⟩)
    · simp only [List.map_cons, List.nodup_cons, List.mem_cons, not_or]
      exact ⟨hk, hc⟩

theorem find_key {c : Cache} (hc : (c.map (·.1)).Nodup) {k v : Str} (h : (k, v) ∈ c) : c.find? (fun p => p.1 == k) = some (k, v) := by
  induction c with
  | nil => simp at h
  | cons q c ih =>
    simp only [List.map_cons, List.nodup_cons] at hc
    rcases List.mem_cons.1 h with rfl | h
    · simp
    · have hne : q.1 ≠ k := fun e => hc.1 (List.mem_map.2 ⟨_, h, e.symm⟩)
      rw [List.find?_cons_of_neg (by simpa using hne)]
      exact ih hc.2 h

theorem find_key_none {c : Cache} {k : Str} (h : k ∉ c.map (·.1)) : c.find? (fun p => p.1 == k) = none := by
  rw [List.find?_eq_none]
  intro p hp
  have : p.1 ≠ k := fun e => h (List.mem_map.2 ⟨p, hp, e⟩)
  simpa using this

theorem loadAll_append (full : Str → Str) (a b : List (Disk × Str)) (c : Cache) :
    loadAll full (a ++ b) c = ((loadAll full a c).1 ++ (loadAll full b (loadAll full a c).2).1, (loadAll full b (loadAll full a c).2).2) := by
  induction a generalizing c with
  | nil => simp [loadAll]
  | cons l a ih => simp [loadAll, ih]

/-- The loads as the model takes them. -/
def toPairs (loads : List Load) : List (Disk × Str) := loads.map fun l => (l.disk, l.path)

theorem firstText_append_of_none {full : Str → Str} {loads : List Load} {l : Load} {p x : Str} (h : full l.path ≠ full p ∨ l.disk (full p) = none) :
    FirstText full (loads ++ [l]) p x ↔ FirstText full loads p x := by
  constructor
  · rintro ⟨b, l', a, e, h1, h2, h3⟩
    rcases List.eq_nil_or_concat a with rfl | ⟨a', z, rfl⟩
    · have := List.append_inj' e rfl
      obtain rfl : l = l' := by simpa using this.2
      rcases h with h | h
      · exact absurd h1 h
      · rw [h] at h2
        simp at h2
    · have e' : loads ++ [l] = (b ++ l' :: a') ++ [z] := by simpa using e
      exact ⟨b, l', a', (List.append_inj' e' rfl).1, h1, h2, h3⟩
  · rintro ⟨b, l', a, e, h1, h2, h3⟩
    exact ⟨b, l', a ++ [l], by simp [e], h1, h2, h3⟩

/-- After any loads the cache has distinct keys, and holds exactly the first texts. -/
theorem cache_spec (full : Str → Str) (loads : List Load) :
    let c := (loadAll full (toPairs loads) []).2
    (c.map (·.1)).Nodup ∧ (∀ p ∈ c, ∃ l ∈ loads, full l.path = p.1) ∧ ∀ p x, (full p, x) ∈ c ↔ FirstText full loads p x := by
  induction loads using List.reverseRecOn with
  | nil =>
    refine ⟨by simp [toPairs, loadAll], by simp [toPairs, loadAll], fun p x => ?_⟩
    simp only [toPairs, List.map_nil, loadAll, List.not_mem_nil, false_iff]
    rintro ⟨b, l, a, e, -⟩
    simp at e
  | append_singleton loads l ih =>
    have e : (loadAll full (toPairs (loads ++ [l])) []).2 = (loadTextFile full l.disk l.path (loadAll full (toPairs loads) []).2).2 := by
      rw [toPairs, List.map_append, ← toPairs, loadAll_append]
      simp [loadAll]
    rw [e]
    generalize (loadAll full (toPairs loads) []).2 = c at ih ⊢
    obtain ⟨h1, h2, h3⟩ := ih
    by_cases hk : full l.path ∈ c.map (·.1)
    · obtain ⟨q, hq, eq⟩ := List.mem_map.1 hk
      have hq' : (full l.path, q.2) ∈ c := by rw [← eq]; exact hq
      have hl : (loadTextFile full l.disk l.path c).2 = c := by rw [loadTextFile, find_key h1 hq']
      rw [hl]
      refine ⟨h1, fun p hp => ?_, fun p x => ?_⟩
      · obtain ⟨m, hm, e⟩ := h2 p hp
        exact ⟨m, by simp [hm], e⟩
      · rw [h3]
        constructor
        · rintro ⟨b, l', a, e, g⟩
          exact ⟨b, l', a ++ [l], by simp [e], g⟩
        · rintro ⟨b, l', a, e, g1, g2, g3⟩
          rcases List.eq_nil_or_concat a with rfl | ⟨a', z, rfl⟩
          · have e' := List.append_inj' e rfl
            obtain rfl : l = l' := by simpa using e'.2
            have hb : loads = b := e'.1
            obtain ⟨b', m, a', f, f1, f2, f3⟩ := (h3 l.path q.2).1 hq'
            have hm : m ∈ b := by rw [← hb, f]; simp
            rw [g1] at f1 f2
            rw [g3 m hm f1] at f2
            simp at f2
          · have e' : loads ++ [l] = (b ++ l' :: a') ++ [z] := by simpa using e
            exact ⟨b, l', a', (List.append_inj' e' rfl).1, g1, g2, g3⟩
    · cases hd : l.disk (full l.path) with
      | none =>
        have hl : (loadTextFile full l.disk l.path c).2 = c := by rw [loadTextFile, find_key_none hk, hd]
        rw [hl]
        refine ⟨h1, fun p hp => ?_, fun p x => ?_⟩
        · obtain ⟨m, hm, e⟩ := h2 p hp
          exact ⟨m, by simp [hm], e⟩
        · rw [h3, firstText_append_of_none]
          by_cases he : full l.path = full p
          · right
            rw [← he, hd]
          · exact .inl he
      | some text =>
        have hl : (loadTextFile full l.disk l.path c).2 = insertKey (full l.path) text c := by rw [loadTextFile, find_key_none hk, hd]
        rw [hl]
        refine ⟨nodup_insertKey h1 hk, fun p hp => ?_, fun p x => ?_⟩
        · rcases mem_insertKey.1 hp with rfl | hp
          · exact ⟨l, by simp, rfl⟩
          · obtain ⟨m, hm, e⟩ := h2 p hp
            exact ⟨m, by simp [hm], e⟩
        · rw [mem_insertKey]
          by_cases he : full l.path = full p
          · have hk' : ∀ y, (full p, y) ∉ c := fun y hy => hk (List.mem_map.2 ⟨_, hy, he.symm⟩)
            have hno : ∀ b ∈ loads, full b.path = full p → b.disk (full p) = none := by
              by_contra hcon
              push Not at hcon
              obtain ⟨b, hb, hb1, hb2⟩ := hcon
              obtain ⟨y, hy⟩ := Option.ne_none_iff_exists'.1 hb2
              -- the first such load
              have : ∃ y, FirstText full loads p y := by
                clear * - hb hb1 hy
                induction loads with
                | nil => simp at hb
                | cons m loads ih =>
                  by_cases hm : full m.path = full p ∧ m.disk (full p) ≠ none
                  · obtain ⟨z, hz⟩ := Option.ne_none_iff_exists'.1 hm.2
                    exact ⟨z, [], m, loads, rfl, hm.1, hz, by simp⟩
                  · rcases List.mem_cons.1 hb with rfl | hb
                    · exact absurd ⟨hb1, by rw [hy]; simp⟩ hm
                    · obtain ⟨z, b', l', a', e, g1, g2, g3⟩ := ih hb
                      refine ⟨z, m :: b', l', a', by simp [e], g1, g2, ?_⟩
                      intro n hn
                      rcases List.mem_cons.1 hn with rfl | hn
                      · intro hn'
                        by_contra hne
                        exact hm ⟨hn', hne⟩
                      · exact g3 n hn
              obtain ⟨y, hy⟩ := this
              exact hk' y ((h3 p y).2 hy)
            constructor
            · rintro (h | h)
              · obtain ⟨-, rfl⟩ := Prod.mk.inj h
                exact ⟨loads, l, [], rfl, he, by rw [← he, hd], hno⟩
              · exact absurd h (hk' x)
            · rintro ⟨b, l', a, e, g1, g2, g3⟩
              rcases List.eq_nil_or_concat a with rfl | ⟨a', z, rfl⟩
              · have e' := List.append_inj' e rfl
                obtain rfl : l = l' := by simpa using e'.2
                rw [← he, hd] at g2
                left
                rw [he, Option.some.inj g2]
              · have e' : loads ++ [l] = (b ++ l' :: a') ++ [z] := by simpa using e
                have hm : l' ∈ loads := by rw [(List.append_inj' e' rfl).1]; simp
                rw [hno l' hm g1] at g2
                simp at g2
          · rw [firstText_append_of_none (.inl he), ← h3]
            constructor
            · rintro (h | h)
              · exact absurd (Prod.mk.inj h).1.symm he
              · exact h
            · exact .inr

/-- What a load gives: the text already in the cache, or the text on the disk. -/
theorem load_result (full : Str → Str) (loads : List Load) (l : Load) (x : Str) :
    (loadTextFile full l.disk l.path (loadAll full (toPairs loads) []).2).1 = .ok x ↔ FirstText full (loads ++ [l]) l.path x := by
  have h := cache_spec full loads
  have h' := cache_spec full (loads ++ [l])
  have e : (loadAll full (toPairs (loads ++ [l])) []).2 = (loadTextFile full l.disk l.path (loadAll full (toPairs loads) []).2).2 := by
    rw [toPairs, List.map_append, ← toPairs, loadAll_append]
    simp [loadAll]
  rw [e] at h'
  generalize (loadAll full (toPairs loads) []).2 = c at h h'
  rw [← h'.2.2]
  by_cases hk : full l.path ∈ c.map (·.1)
  · obtain ⟨q, hq, eq⟩ := List.mem_map.1 hk
    have hq' : (full l.path, q.2) ∈ c := by rw [← eq]; exact hq
    rw [loadTextFile, find_key h.1 hq']
    constructor
    · intro hx
      injection hx with hx
      subst hx
      exact hq'
    · intro hx
      have h1 := find_key h.1 hq'
      rw [find_key h.1 hx] at h1
      rw [(Prod.mk.inj (Option.some.inj h1)).2]
  · cases hd : l.disk (full l.path) with
    | none =>
      rw [loadTextFile, find_key_none hk, hd]
      simp only [reduceCtorEq, false_iff]
      exact fun hx => hk (List.mem_map.2 ⟨_, hx, rfl⟩)
    | some text =>
      rw [loadTextFile, find_key_none hk, hd]
      simp only [mem_insertKey]
      constructor
      · intro hx
        injection hx with hx
        subst hx
        exact .inl rfl
      · rintro (hx | hx)
        · rw [(Prod.mk.inj hx).2]
        · exact absurd (List.mem_map.2 ⟨_, hx, rfl⟩) hk

/-! ### Names -/

/-- One letter of a name. -/
def spell (x : Char) : Str := if x = '/' then "_dash_".toList else if x = '.' then "_DOT_".toList else [x]

theorem escape_eq (s : Str) : escape s = s.flatMap spell := by
  rw [escape, replaceAll, replaceAll, List.flatMap_assoc]
  congr 1
  funext x
  rw [spell]
  by_cases h1 : x = '/'
  · simp [h1]
  · by_cases h2 : x = '.'
    · simp [h2]
    · simp [h1, h2]

theorem spell_plain {x : Char} (h1 : x ≠ '/') (h2 : x ≠ '.') : spell x = [x] := by simp [spell, h1, h2]

theorem spell_slash : spell '/' = ['_', 'd', 'a', 's', 'h', '_'] := by decide

theorem spell_dot : spell '.' = ['_', 'D', 'O', 'T', '_'] := by decide

theorem dot_not_mem_escape (s : Str) : '.' ∉ escape s := by
  rw [escape_eq]
  intro h
  obtain ⟨x, -, hx⟩ := List.mem_flatMap.1 h
  by_cases h1 : x = '/'
  · rw [h1, spell_slash] at hx
    exact absurd hx (by decide)
  · by_cases h2 : x = '.'
    · rw [h2, spell_dot] at hx
      exact absurd hx (by decide)
    · rw [spell_plain h1 h2] at hx
      simp only [List.mem_singleton] at hx
      exact h2 hx.symm

/-- A letter other than the underscore at the front of a spelled name is the first letter of the name. -/
theorem front {t : Str} {x : Char} {r : Str} (hx : x ≠ '_') (h : t.flatMap spell = x :: r) : ∃ t', t = x :: t' ∧ t'.flatMap spell = r := by
  rcases t with _ | ⟨y, t⟩
  · simp at h
  · rw [List.flatMap_cons] at h
    by_cases h1 : y = '/'
    · rw [h1, spell_slash] at h
      injection h with h _
      exact absurd h.symm hx
    · by_cases h2 : y = '.'
      · rw [h2, spell_dot] at h
        injection h with h _
        exact absurd h.symm hx
      · rw [spell_plain h1 h2] at h
        injection h with h h'
        exact ⟨t, by rw [h], h'⟩

theorem front_all {w : Str} (hw : ∀ x ∈ w, x ≠ '_') {t r : Str} (h : t.flatMap spell = w ++ r) : ∃ t', t = w ++ t' := by
  induction w generalizing t with
  | nil => exact ⟨t, rfl⟩
  | cons x w ih =>
    obtain ⟨t', rfl, h'⟩ := front (hw x (by simp)) h
    obtain ⟨t'', rfl⟩ := ih (fun y hy => hw y (by simp [hy])) h'
    exact ⟨t'', rfl⟩

theorem unambiguous_tail {x : Char} {s : Str} (h : Unambiguous (x :: s)) : Unambiguous s :=
  ⟨fun g => h.1 (List.infix_cons g), fun g => h.2 (List.infix_cons g)⟩

theorem not_slash_plain {t s : Str} {y : Char} (ht : Unambiguous (y :: t)) (h1 : y ≠ '/') (h2 : y ≠ '.')
    (h : ('/' :: s).flatMap spell = (y :: t).flatMap spell) : False := by
  rw [List.flatMap_cons, List.flatMap_cons, spell_slash, spell_plain h1 h2] at h
  injection h with ha hb
  obtain ⟨t', rfl⟩ := front_all (w := ['d', 'a', 's', 'h']) (by decide) (t := t) (r := '_' :: s.flatMap spell) (by simpa using hb.symm)
  refine ht.1 ⟨[], t', ?_⟩
  rw [← ha]
  rfl

theorem not_dot_plain {t s : Str} {y : Char} (ht : Unambiguous (y :: t)) (h1 : y ≠ '/') (h2 : y ≠ '.')
    (h : ('.' :: s).flatMap spell = (y :: t).flatMap spell) : False := by
  rw [List.flatMap_cons, List.flatMap_cons, spell_dot, spell_plain h1 h2] at h
  injection h with ha hb
  obtain ⟨t', rfl⟩ := front_all (w := ['D', 'O', 'T']) (by decide) (t := t) (r := '_' :: s.flatMap spell) (by simpa using hb.symm)
  refine ht.2 ⟨[], t', ?_⟩
  rw [← ha]
  rfl

theorem not_slash_dot {t s : Str} (h : ('/' :: s).flatMap spell = ('.' :: t).flatMap spell) : False := by
  rw [List.flatMap_cons, List.flatMap_cons, spell_slash, spell_dot] at h
  simp at h

theorem spell_injective {s t : Str} (hs : Unambiguous s) (ht : Unambiguous t) (h : s.flatMap spell = t.flatMap spell) : s = t := by
  induction s generalizing t with
  | nil =>
    rcases t with _ | ⟨y, t⟩
    · rfl
    · rw [List.flatMap_nil, List.flatMap_cons] at h
      have : spell y ≠ [] := by
        rw [spell]
        split
        · decide
        · split
          · decide
          · simp
      exact absurd (List.append_eq_nil_iff.1 h.symm).1 this
  | cons x s ih =>
    rcases t with _ | ⟨y, t⟩
    · rw [List.flatMap_nil, List.flatMap_cons] at h
      have : spell x ≠ [] := by
        rw [spell]
        split
        · decide
        · split
          · decide
          · simp
      exact absurd (List.append_eq_nil_iff.1 h).1 this
    · have key : x = y := by
        by_cases x1 : x = '/'
        · subst x1
          by_cases y1 : y = '/'
          · exact y1.symm
          · by_cases y2 : y = '.'
            · subst y2
              exact (not_slash_dot h).elim
            · exact (not_slash_plain ht y1 y2 h).elim
        · by_cases x2 : x = '.'
          · subst x2
            by_cases y1 : y = '/'
            · subst y1
              exact (not_slash_dot h.symm).elim
            · by_cases y2 : y = '.'
              · exact y2.symm
              · exact (not_dot_plain ht y1 y2 h).elim
          · by_cases y1 : y = '/'
            · subst y1
              exact (not_slash_plain hs x1 x2 h.symm).elim
            · by_cases y2 : y = '.'
              · subst y2
                exact (not_dot_plain hs x1 x2 h.symm).elim
              · rw [List.flatMap_cons, List.flatMap_cons, spell_plain x1 x2, spell_plain y1 y2] at h
                exact (List.cons.inj h).1
      subst key
      rw [List.flatMap_cons, List.flatMap_cons] at h
      rw [ih (unambiguous_tail hs) (unambiguous_tail ht) (List.append_cancel_left h)]

theorem attributeName_eq (s : Str) : attributeName s = "alsvinn_report.loadedTextFiles.".toList ++ escape s := by
  rw [escape_eq]
  rfl

/-! ### Paths -/

theorem fragments_cons {a b : Str} (hne : a ≠ []) (hdot : '.' ∉ a) : fragments (a ++ '.' :: b) = a :: fragments b := by
  rcases a with _ | ⟨c, cs⟩
  · exact absurd rfl hne
  · have h0 : ∀ x ∈ c :: cs, decide (x ≠ '.') = true := fun x hx => decide_eq_true fun e : x = '.' => hdot (e ▸ hx)
    have h1 : (c :: cs ++ '.' :: b).takeWhile (· ≠ '.') = c :: cs := by
      rw [List.takeWhile_append_of_pos h0]
      simp
    have h2 : (c :: cs ++ '.' :: b).dropWhile (· ≠ '.') = '.' :: b := by
      rw [List.dropWhile_append_of_pos h0]
      simp
    rw [List.cons_append] at h1 h2 ⊢
    rw [fragments, h1, h2]
    rfl

theorem fragments_report {k : Str} (hne : k ≠ []) (hdot : '.' ∉ k) : fragments ("report.".toList ++ k) = ["report".toList, k] := by
  have : "report.".toList ++ k = "report".toList ++ '.' :: k := rfl
  rw [this, fragments_cons (by decide) (by decide), Plugin.fragments_plain hne hdot]

theorem fragments_file {k : Str} (hne : k ≠ []) (hdot : '.' ∉ k) :
    fragments ("report.loadedTextFiles.".toList ++ k) = ["report".toList, "loadedTextFiles".toList, k] := by
  have : "report.loadedTextFiles.".toList ++ k = "report".toList ++ '.' :: ("loadedTextFiles".toList ++ '.' :: k) := rfl
  rw [this, fragments_cons (by decide) (by decide), fragments_cons (by decide) (by decide), Plugin.fragments_plain hne hdot]

/-! ### The tree of the report -/

/-- The key of the loaded files. -/
abbrev files : Str := "loadedTextFiles".toList

/-- The loaded files as they stand in the report. -/
def leaves (l : List (Str × Str)) : List (Str × Tree) := l.map fun p => (p.1, .node p.2 [])

/-- The report holds exactly these files, and no key has a dot. -/
structure Holds (l : List (Str × Str)) (r : Tree) : Prop where
  files : (r.children.filter fun p => p.1 == files) = if l = [] then [] else [(files, .node [] (leaves l))]
  dots : ∀ p ∈ r.children, '.' ∉ p.1

theorem filter_updateChild_ne {k k' : Str} (h : k ≠ k') (f : Tree → Tree) (c : List (Str × Tree)) :
    ((updateChild k f c).filter fun p => p.1 == k') = c.filter fun p => p.1 == k' := by
  induction c with
  | nil => simp [updateChild, h]
  | cons p c ih =>
    rw [updateChild]
    split
    · rename_i hp
      have hp : p.1 = k := by simpa using hp
      rw [List.filter_cons_of_neg (by simpa using h), List.filter_cons_of_neg (by simpa [hp] using h)]
    · rw [List.filter_cons, List.filter_cons, ih]

theorem filter_updateChild_self (k : Str) (f : Tree → Tree) (c : List (Str × Tree)) :
    ((updateChild k f c).filter fun p => p.1 == k) = updateChild k f (c.filter fun p => p.1 == k) := by
  induction c with
  | nil => simp [updateChild]
  | cons p c ih =>
    rw [updateChild]
    split
    · rename_i hp
      rw [List.filter_cons_of_pos (by simp), List.filter_cons_of_pos (by exact hp), updateChild, if_pos hp]
    · rename_i hp
      have hf : ∀ q, ((p :: q).filter fun p => p.1 == k) = q.filter fun p => p.1 == k := fun q => List.filter_cons_of_neg hp
      rw [hf, hf, ih]

theorem dots_updateChild {k : Str} (hk : '.' ∉ k) (f : Tree → Tree) {c : List (Str × Tree)} (hc : ∀ p ∈ c, '.' ∉ p.1) :
    ∀ p ∈ updateChild k f c, '.' ∉ p.1 := by
  induction c with
  | nil => simpa [updateChild] using hk
  | cons q c ih =>
    rw [updateChild]
    split
    · intro p hp
      rcases List.mem_cons.1 hp with rfl | hp
      · exact hk
      · exact hc p (by simp [hp])
    · intro p hp
      rcases List.mem_cons.1 hp with rfl | hp
      · exact hc p (by simp)
      · exact ih (fun p hp => hc p (by simp [hp])) p hp

theorem updateChild_new {k : Str} (f : Tree → Tree) {c : List (Str × Tree)} (h : k ∉ c.map (·.1)) : updateChild k f c = c ++ [(k, f (.node [] []))] := by
  induction c with
  | nil => rfl
  | cons p c ih =>
    simp only [List.map_cons, List.mem_cons, not_or] at h
    rw [updateChild, if_neg (by simpa using fun e => h.1 e.symm), ih h.2]
    rfl

/-- The tree is a report that holds these files. -/
def Top (l : List (Str × Str)) (t : Tree) : Prop := ∃ d r, t = .node d [("report".toList, r)] ∧ Holds l r

theorem put_top {l : List (Str × Str)} {t : Tree} (h : Top l t) (info : String → Str) {k : String} (h1 : k.toList ≠ []) (h2 : '.' ∉ k.toList) (h3 : k.toList ≠ files) :
    Top l (put info t k) := by
  obtain ⟨d, r, rfl, hr⟩ := h
  rcases r with ⟨e, c⟩
  refine ⟨d, .node e (updateChild k.toList (putAt [] (info k)) c), ?_, ?_, ?_⟩
  · rw [put, addString, fragments_report h1 h2, putAt, updateChild, if_pos (by simp), putAt]
  · rw [Tree.children, filter_updateChild_ne h3]
    exact hr.files
  · exact dots_updateChild h2 _ hr.dots

theorem put_first (info : String → Str) {k : String} (h1 : k.toList ≠ []) (h2 : '.' ∉ k.toList) (h3 : k.toList ≠ files) : Top [] (put info (.node [] []) k) := by
  refine ⟨[], .node [] (updateChild k.toList (putAt [] (info k)) []), ?_, ?_, ?_⟩
  · rw [put, addString, fragments_report h1 h2, putAt, updateChild, putAt]
  · rw [Tree.children, filter_updateChild_ne h3]
    simp
  · exact dots_updateChild h2 _ (by simp)

theorem puts_top {l : List (Str × Str)} (info : String → Str) {ks : List String} (hks : ∀ k ∈ ks, k.toList ≠ [] ∧ '.' ∉ k.toList ∧ k.toList ≠ files) {t : Tree} (h : Top l t) :
    Top l (ks.foldl (put info) t) := by
  induction ks generalizing t with
  | nil => exact h
  | cons k ks ih =>
    obtain ⟨h1, h2, h3⟩ := hks k (by simp)
    exact ih (fun k hk => hks k (by simp [hk])) (put_top h info h1 h2 h3)

theorem addChild_top {l : List (Str × Str)} {t : Tree} (h : Top l t) {k : String} (h2 : '.' ∉ k.toList) (h3 : k.toList ≠ files) (sub : Tree) : Top l (addChild k sub t) := by
  obtain ⟨d, r, rfl, hr⟩ := h
  rcases r with ⟨e, c⟩
  refine ⟨d, .node e (c ++ [(k.toList, sub)]), ?_, ?_, ?_⟩
  · rw [addChild, updateChild, if_pos (by simp)]
    rfl
  · have := hr.files
    rw [Tree.children] at this ⊢
    rw [List.filter_append, this, List.filter_cons_of_neg (by simpa using h3)]
    simp
  · intro p hp
    rcases List.mem_append.1 hp with hp | hp
    · exact hr.dots p hp
    · rw [List.mem_singleton.1 hp]
      exact h2

theorem file_top {l : List (Str × Str)} {t : Tree} (h : Top l t) {k text : Str} (h1 : k ≠ []) (h2 : '.' ∉ k) (hk : k ∉ l.map (·.1)) :
    Top (l ++ [(k, text)]) (addString ("report.loadedTextFiles.".toList ++ k) text t) := by
  obtain ⟨d, r, rfl, hr⟩ := h
  rcases r with ⟨e, c⟩
  refine ⟨d, .node e (updateChild files (putAt [k] text) c), ?_, ?_, ?_⟩
  · rw [addString, fragments_file h1 h2, putAt, updateChild, if_pos (by simp), putAt]
  · have := hr.files
    rw [Tree.children] at this ⊢
    rw [filter_updateChild_self, this]
    by_cases hl : l = []
    · subst hl
      simp [updateChild, putAt, leaves]
    · have hk' : k ∉ (leaves l).map (·.1) := by
        rw [leaves, List.map_map]
        exact hk
      rw [if_neg hl, if_neg (by simp), updateChild, if_pos (by simp), putAt, updateChild_new _ hk']
      simp [leaves, putAt]
  · exact dots_updateChild (by decide) _ hr.dots

theorem escape_ne_nil {s : Str} (h : ∃ q, s = '/' :: q) : escape s ≠ [] := by
  obtain ⟨q, rfl⟩ := h
  rw [escape_eq, List.flatMap_cons, spell_slash]
  simp

theorem files_top {full : Str → Str} (hfull : FullNames full) (disk : Disk) {c : Cache} (hn : (c.map (·.1)).Nodup) (hf : ∀ p ∈ c, ∃ q, full q = p.1)
    (hu : ∀ p ∈ c, Unambiguous p.1) {b : Cache} {rest : Cache} (hb : b ++ rest = c) {t : Tree} (h : Top (b.map fun p => (escape p.1, p.2)) t) :
    ∃ t', (loadedFiles rest).foldlM (putFile full disk c) t = .ok t' ∧ Top (c.map fun p => (escape p.1, p.2)) t' := by
  induction rest generalizing b t with
  | nil =>
    rw [List.append_nil] at hb
    subst hb
    exact ⟨t, rfl, h⟩
  | cons p rest ih =>
    have hp : p ∈ c := by rw [← hb]; simp
    obtain ⟨q, hq⟩ := hf p hp
    have e : full p.1 = p.1 := by rw [← hq, hfull.again]
    have hload : (loadTextFile full disk p.1 c).1 = .ok p.2 := by
      rw [loadTextFile, e, find_key hn (v := p.2) hp]
    have hnew : escape p.1 ∉ (b.map fun p => (escape p.1, p.2)).map (·.1) := by
      intro hmem
      rw [List.map_map] at hmem
      obtain ⟨p', hp', e'⟩ := List.mem_map.1 hmem
      have e'' : p'.1 = p.1 := by
        refine spell_injective (hu p' (by rw [← hb]; simp [hp'])) (hu p hp) ?_
        rw [← escape_eq, ← escape_eq]
        exact e'
      rw [← hb, List.map_append, List.map_cons, List.nodup_append] at hn
      exact hn.2.2 p'.1 (List.mem_map.2 ⟨p', hp', rfl⟩) p.1 (by simp) e''
    have hstep : putFile full disk c t p.1 = .ok (addString ("report.loadedTextFiles.".toList ++ escape p.1) p.2 t) := by
      rw [putFile, hload]
      rfl
    obtain ⟨t', h1, h2⟩ := ih (b := b ++ [p]) (by simp [hb])
      (t := addString ("report.loadedTextFiles.".toList ++ escape p.1) p.2 t) (by
        rw [List.map_append]
        exact file_top h (escape_ne_nil (by rw [← hq]; exact hfull.slash q)) (dot_not_mem_escape _) hnew)
    refine ⟨t', ?_, h2⟩
    rw [loadedFiles, List.map_cons, List.foldlM_cons, hstep, Res.ok_bind]
    exact h1

theorem report_top {full : Str → Str} (hfull : FullNames full) (disk : Disk) (info : String → Str) (boost : Tree) (cuda : Option Tree) {c : Cache} (hn : (c.map (·.1)).Nodup)
    (hf : ∀ p ∈ c, ∃ q, full q = p.1) (hu : ∀ p ∈ c, Unambiguous p.1) :
    ∃ t, makeBasicReport full disk info boost cuda c = .ok t ∧ Top (c.map fun p => (escape p.1, p.2)) t := by
  have h1 : Top [] (entries1.foldl (put info) (.node [] [])) := by
    rw [entries1, List.foldl_cons]
    exact puts_top info (by decide) (put_first info (by decide) (by decide) (by decide))
  have h2 := addChild_top h1 (k := "boost") (by decide) (by decide) boost
  have h3 := puts_top info (ks := entries2) (by decide) h2
  have h4 : Top [] (match cuda with
    | none => entries2.foldl (put info) (addChild "boost" boost (entries1.foldl (put info) (.node [] [])))
    | some p => addChild "cudaProperties" p (entries2.foldl (put info) (addChild "boost" boost (entries1.foldl (put info) (.node [] []))))) := by
    cases cuda with
    | none => exact h3
    | some p => exact addChild_top h3 (by decide) (by decide) p
  have h5 := puts_top info (ks := entries3) (by decide) h4
  obtain ⟨t', e, h6⟩ := files_top hfull disk hn hf hu (b := []) (rest := c) rfl h5
  refine ⟨entries4.foldl (put info) t', ?_, puts_top info (by decide) h6⟩
  simp only [makeBasicReport]
  cases cuda with
  | none =>
    simp only at e
    rw [e, Res.ok_bind]
    rfl
  | some p =>
    simp only at e
    rw [e, Res.ok_bind]
    rfl

/-! ### Attributes -/

theorem writeAttributes_leaf (base d : Str) : writeAttributes base (.node d []) = [(base, d)] := by
  rw [writeAttributes]
  simp

theorem writeAttributes_node (base d : Str) {c : List (Str × Tree)} (h : c ≠ []) :
    writeAttributes base (.node d c) = c.flatMap fun p => writeAttributes (base ++ '.' :: p.1) p.2 := by
  rw [writeAttributes, if_neg (by simpa using h)]
  conv_rhs => rw [← List.attach_map_subtype_val c]
  rw [List.flatMap_map]

/-- Every attribute has the given name, or this name with a dot and more. -/
theorem names (base : Str) (t : Tree) : ∀ q ∈ writeAttributes base t, ∃ r, q.1 = base ++ r ∧ (r = [] ∨ ∃ r', r = '.' :: r') := by
  match t with
  | .node d c =>
    intro q hq
    by_cases hc : c = []
    · subst hc
      rw [writeAttributes_leaf] at hq
      rw [List.mem_singleton.1 hq]
      exact ⟨[], by simp, .inl rfl⟩
    · rw [writeAttributes_node _ _ hc] at hq
      obtain ⟨p, hp, hq⟩ := List.mem_flatMap.1 hq
      have := List.sizeOf_lt_of_mem hp
      have h2 : sizeOf p.2 < sizeOf p := by
        rcases p with ⟨a, b⟩
        simp only [Prod.mk.sizeOf_spec]
        omega
      obtain ⟨r, e, -⟩ := names (base ++ '.' :: p.1) p.2 q hq
      exact ⟨'.' :: p.1 ++ r, by rw [e]; simp, .inr ⟨_, rfl⟩⟩
termination_by sizeOf t
decreasing_by
  simp only [Tree.node.sizeOf_spec]
  omega

/-- The first key of a name. -/
theorem first_key {k k' r r' : Str} (hk : '.' ∉ k) (hk' : '.' ∉ k') (hr : r = [] ∨ ∃ s, r = '.' :: s) (hr' : r' = [] ∨ ∃ s, r' = '.' :: s) (h : k ++ r = k' ++ r') :
    k = k' ∧ r = r' := by
  have tw : ∀ (a b : Str), '.' ∉ a → (b = [] ∨ ∃ s, b = '.' :: s) → (a ++ b).takeWhile (· ≠ '.') = a := by
    intro a b ha hb
    have h0 : ∀ x ∈ a, decide (x ≠ '.') = true := fun x hx => decide_eq_true fun e : x = '.' => ha (e ▸ hx)
    rw [List.takeWhile_append_of_pos h0]
    rcases hb with rfl | ⟨s, rfl⟩ <;> simp
  have e := tw k r hk hr
  rw [h, tw k' r' hk' hr'] at e
  subst e
  exact ⟨rfl, List.append_cancel_left h⟩

theorem attr_append_left {a b : List (Str × Str)} {n : Str} (h : ∀ q ∈ b, q.1 ≠ n) : attr (a ++ b) n = attr a n := by
  have : b.filter (fun p => p.1 == n) = [] := by
    rw [List.filter_eq_nil_iff]
    intro q hq
    simpa using h q hq
  rw [attr, attr, List.filter_append, this, List.append_nil]

theorem attr_none {a : List (Str × Str)} {n : Str} (h : ∀ q ∈ a, q.1 ≠ n) : attr a n = none := by
  have := attr_append_left (a := []) h
  simpa [attr] using this

/-- Only the children with the right key matter for a name. -/
theorem attr_children (base : Str) {c : List (Str × Tree)} (hc : ∀ p ∈ c, '.' ∉ p.1) {k r : Str} (hk : '.' ∉ k) (hr : r = [] ∨ ∃ s, r = '.' :: s) :
    attr (c.flatMap fun p => writeAttributes (base ++ '.' :: p.1) p.2) (base ++ '.' :: (k ++ r)) =
      attr ((c.filter fun p => p.1 == k).flatMap fun p => writeAttributes (base ++ '.' :: p.1) p.2) (base ++ '.' :: (k ++ r)) := by
  rw [attr, attr]
  congr 2
  induction c with
  | nil => rfl
  | cons p c ih =>
    rw [List.flatMap_cons, List.filter_append, ih fun p hp => hc p (by simp [hp])]
    by_cases hp : p.1 = k
    · rw [List.filter_cons_of_pos (by simpa using hp), List.flatMap_cons, List.filter_append]
    · rw [List.filter_cons_of_neg (by simpa using hp)]
      have : (writeAttributes (base ++ '.' :: p.1) p.2).filter (fun q => q.1 == base ++ '.' :: (k ++ r)) = [] := by
        rw [List.filter_eq_nil_iff]
        intro q hq
        obtain ⟨r', e, hr'⟩ := names _ _ q hq
        have : q.1 ≠ base ++ '.' :: (k ++ r) := by
          rw [e]
          intro g
          rw [List.append_assoc] at g
          have g := List.append_cancel_left g
          rw [List.cons_append] at g
          exact hp (first_key (hc p (by simp)) hk hr' hr (List.cons.inj g).2).1
        simpa using this
      rw [this, List.nil_append]

theorem leaves_attributes (base : Str) (l : List (Str × Str)) :
    ((leaves l).flatMap fun p => writeAttributes (base ++ '.' :: p.1) p.2) = l.map fun p => (base ++ '.' :: p.1, p.2) := by
  induction l with
  | nil => rfl
  | cons p l ih =>
    rw [leaves, List.map_cons, List.flatMap_cons, writeAttributes_leaf, List.map_cons]
    exact congrArg _ ih

/-- The attribute of a file in a list of files with distinct names. -/
theorem attr_of_list {base : Str} {l : List (Str × Str)} (hl : (l.map (·.1)).Nodup) {n x : Str} :
    attr (l.map fun p => (base ++ '.' :: p.1, p.2)) (base ++ '.' :: n) = some x ↔ (n, x) ∈ l := by
  have inj : ∀ a b : Str, base ++ '.' :: a = base ++ '.' :: b ↔ a = b := by
    intro a b
    simp
  have e : ((l.map fun p => (base ++ '.' :: p.1, p.2)).filter fun p => p.1 == base ++ '.' :: n).map (·.2) = (l.filter fun p => p.1 == n).map (·.2) := by
    induction l with
    | nil => rfl
    | cons p l ih =>
      simp only [List.map_cons, List.nodup_cons] at hl
      rw [List.map_cons]
      by_cases hp : p.1 = n
      · rw [List.filter_cons_of_pos (by simpa using hp), List.filter_cons_of_pos (by simpa using hp), List.map_cons, List.map_cons, ih hl.2]
      · rw [List.filter_cons_of_neg (by simpa using hp), List.filter_cons_of_neg (by simpa using hp), ih hl.2]
  rw [attr, e]
  clear e
  induction l with
  | nil => simp
  | cons p l ih =>
    simp only [List.map_cons, List.nodup_cons] at hl
    by_cases hp : p.1 = n
    · have hnil : l.filter (fun p => p.1 == n) = [] := by
        rw [List.filter_eq_nil_iff]
        intro q hq
        have : q.1 ≠ n := fun e => hl.1 (List.mem_map.2 ⟨q, hq, e.trans hp.symm⟩)
        simpa using this
      rw [List.filter_cons_of_pos (by simpa using hp), hnil]
      have hn : (n, x) ∉ l := fun h => hl.1 (List.mem_map.2 ⟨_, h, hp.symm⟩)
      simp only [List.map_cons, List.map_nil, List.getLast?_singleton, Option.some.injEq, List.mem_cons, hn, or_false]
      constructor
      · intro h
        rw [← hp, ← h]
      · intro h
        rw [← h]
    · rw [List.filter_cons_of_neg (by simpa using hp)]
      refine (ih hl.2).trans ?_
      simp only [List.mem_cons]
      constructor
      · exact .inr
      · rintro (h | h)
        · exact absurd (by rw [← h]) hp
        · exact h

theorem holds_attr {l : List (Str × Str)} {r : Tree} (h : Holds l r) (hl : (l.map (·.1)).Nodup) (n x : Str) :
    attr (writeAttributes "alsvinn_report".toList r) ("alsvinn_report.loadedTextFiles.".toList ++ n) = some x ↔ (n, x) ∈ l := by
  rcases r with ⟨d, c⟩
  have e0 : "alsvinn_report.loadedTextFiles.".toList ++ n = "alsvinn_report".toList ++ '.' :: (files ++ '.' :: n) := rfl
  rw [e0]
  by_cases hc : c = []
  · subst hc
    have := h.files
    simp only [Tree.children, List.filter_nil] at this
    have hl0 : l = [] := by
      by_contra hne
      rw [if_neg hne] at this
      simp at this
    rw [writeAttributes_leaf, attr_none (by
      intro q hq
      rw [List.mem_singleton.1 hq]
      simp), hl0]
    simp
  · have hd := h.dots
    have hf := h.files
    rw [Tree.children] at hd hf
    rw [writeAttributes_node _ _ hc, attr_children _ hd (by decide) (.inr ⟨n, rfl⟩), hf]
    by_cases hl0 : l = []
    · subst hl0
      simp [attr]
    · have hne : leaves l ≠ [] := by simpa [leaves] using hl0
      rw [if_neg hl0, List.flatMap_singleton, writeAttributes_node _ _ hne, leaves_attributes]
      have e1 : "alsvinn_report".toList ++ '.' :: (files ++ '.' :: n) = ("alsvinn_report".toList ++ '.' :: files) ++ '.' :: n := by simp
      rw [e1]
      exact attr_of_list hl

theorem extra_names {attributes : List (Str × Tree)} (h : ∀ a ∈ attributes, ¬ "alsvinn_report".toList <+: a.1 ∧ ¬ a.1 <+: "alsvinn_report".toList) (n : Str) :
    ∀ q ∈ attributes.flatMap (fun a => writeAttributes a.1 a.2), q.1 ≠ "alsvinn_report.loadedTextFiles.".toList ++ n := by
  intro q hq e
  obtain ⟨a, ha, hq⟩ := List.mem_flatMap.1 hq
  obtain ⟨r, e', -⟩ := names _ _ q hq
  have h1 : a.1 <+: "alsvinn_report.loadedTextFiles.".toList ++ n := ⟨r, by rw [← e', e]⟩
  have h2 : "alsvinn_report".toList <+: "alsvinn_report.loadedTextFiles.".toList ++ n := ⟨".loadedTextFiles.".toList ++ n, rfl⟩
  rcases List.prefix_or_prefix_of_prefix h1 h2 with g | g
  · exact (h a ha).2 g
  · exact (h a ha).1 g

/-! ### Configurations -/

theorem dotted_cons (base k : Str) (ks : List Str) : dotted base (k :: ks) = dotted (base ++ '.' :: k) ks := by
  simp [dotted]

theorem filter_one {c : List (Str × Tree)} (hn : (c.map (·.1)).Nodup) {k : Str} {t : Tree} (h : (k, t) ∈ c) : (c.filter fun p => p.1 == k) = [(k, t)] := by
  induction c with
  | nil => simp at h
  | cons p c ih =>
    simp only [List.map_cons, List.nodup_cons] at hn
    rcases List.mem_cons.1 h with rfl | h
    · rw [List.filter_cons_of_pos (by simp)]
      congr 1
      rw [List.filter_eq_nil_iff]
      intro q hq
      have : q.1 ≠ k := fun e => hn.1 (List.mem_map.2 ⟨q, hq, e⟩)
      simpa using this
    · have hp : p.1 ≠ k := fun e => hn.1 (List.mem_map.2 ⟨_, h, e.symm⟩)
      rw [List.filter_cons_of_neg (by simpa using hp)]
      exact ih hn.2 h

theorem attr_leaf {t : Tree} {ks : List Str} {x : Str} (h : Leaf t ks x) (hd : Distinct t) (base : Str) : attr (writeAttributes base t) (dotted base ks) = some x := by
  induction h generalizing base with
  | here =>
    rw [writeAttributes_leaf]
    simp [attr, dotted]
  | @inside d c k t ks x hm hl ih =>
    cases hd with
    | node hn hdots hsub =>
      have e : dotted base (k :: ks) = base ++ '.' :: (k ++ ks.flatMap fun k => '.' :: k) := by simp [dotted]
      have hr : (ks.flatMap fun k => '.' :: k) = [] ∨ ∃ s, (ks.flatMap fun k => '.' :: k) = '.' :: s := by
        rcases ks with _ | ⟨a, ks⟩
        · exact .inl rfl
        · exact .inr ⟨_, rfl⟩
      have hc : c ≠ [] := List.ne_nil_of_mem hm
      rw [writeAttributes_node _ _ hc, e, attr_children _ hdots (hdots _ hm) hr, filter_one hn hm, List.flatMap_singleton, ← e, dotted_cons]
      exact ih (hsub _ hm) _

end Report
end Verif
