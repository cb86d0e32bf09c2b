import Verif.PyConfigSpec

/-! Helper lemmas for C95. -/

namespace Verif.PyConfig

variable {canon : Text → Text}

/-- Reading one element gives a value which, written again, says the same. -/
def Ok (canon : Text → Text) (c : Node) : Prop := ∃ tag cs v, c = .elem tag cs ∧ valueOf c = .ok v ∧ content canon (write tag v) = content canon c

theorem elements_text (s : Text) (r : List Node) : elements canon (.text s :: r) = elements canon r := by
  rw [elements]; intro _ _ h; exact nomatch h

theorem content_elements {tag : Text} {cs : List Node} (h : ∀ c ∈ cs, c.isBlank ∨ c.isElem) : content canon (.elem tag cs) = .elem tag (elements canon cs) := by
  rw [content]
  have : cs.find? (fun c => c.isText && !c.isBlank) = none := by
    rw [List.find?_eq_none]
    intro c hc
    rcases h c hc with h | h
    · simp [h]
    · cases c <;> simp_all [Node.isElem, Node.isText]
  rw [this]

theorem write_elem (tag : Text) (v : Val) : ∃ cs, write tag v = .elem tag cs := by cases v <;> simp only [write] <;> exact ⟨_, rfl⟩

theorem writeDict_elems : ∀ (d : List (Text × Val)), ∀ c ∈ writeDict d, c.isBlank ∨ c.isElem
  | [], _, h => by simp [writeDict] at h
  | (k, v) :: d, c, h => by
    rw [writeDict, List.mem_cons] at h
    rcases h with rfl | h
    · obtain ⟨cs, h⟩ := write_elem k v; rw [h]; exact .inr rfl
    · exact writeDict_elems d c h

theorem writeItems_elems (t : Text) : ∀ (d : List Val), ∀ c ∈ writeItems t d, c.isBlank ∨ c.isElem
  | [], _, h => by simp [writeItems] at h
  | v :: d, c, h => by
    rw [writeItems, List.mem_cons] at h
    rcases h with rfl | h
    · obtain ⟨cs, h⟩ := write_elem t v; rw [h]; exact .inr rfl
    · exact writeItems_elems t d c h

theorem elements_cons_write (tag : Text) (v : Val) (r : List Node) : elements canon (write tag v :: r) = content canon (write tag v) :: elements canon r := by
  obtain ⟨cs, h⟩ := write_elem tag v
  rw [h, elements]

theorem content_dict (tag : Text) (d : Dict) : content canon (write tag (.dict d)) = .elem tag (elements canon (writeDict d)) := by
  rw [write, content_elements (writeDict_elems d)]

theorem writeDict_append : ∀ (d e : List (Text × Val)), writeDict (d ++ e) = writeDict d ++ writeDict e
  | [], e => by simp [writeDict]
  | (k, v) :: d, e => by simp [writeDict, writeDict_append d e]

theorem set_new : ∀ {d : Dict} {k : Text} {v : Val}, k ∉ d.map Prod.fst → Dict.set d k v = d ++ [(k, v)]
  | [], _, _, _ => rfl
  | (k', w) :: d, k, v, h => by
    rw [List.map_cons, List.mem_cons, not_or] at h
    rw [Dict.set, if_neg (fun hh : k' = k => h.1 hh.symm), set_new h.2]
    rfl

theorem readValues_ok : ∀ {cs : List Node} {d : Dict}, (∀ c ∈ cs, c.isBlank ∨ c.isElem) → (∀ c ∈ cs, c.isElem → Ok canon c) → (tags cs).Nodup →
    (∀ t ∈ tags cs, t ∉ d.map Prod.fst) → ∃ e, readValues cs d = .ok (d ++ e) ∧ elements canon (writeDict e) = elements canon cs ∧ e.map Prod.fst = tags cs
  | [], d, _, _, _, _ => ⟨[], by simp [readValues], by simp [writeDict, elements], rfl⟩
  | .text s :: cs, d, h1, h2, h3, h4 => by
    simp only [tags] at h3 h4
    obtain ⟨e, he, he', he''⟩ := readValues_ok (d := d) (fun c hc => h1 c (by simp [hc])) (fun c hc => h2 c (by simp [hc])) h3 h4
    exact ⟨e, by rw [readValues, he], by rw [elements_text]; exact he', he''⟩
  | .comment s :: cs, d, h1, _, _, _ => by
    have := h1 _ (List.mem_cons_self)
    simp [Node.isBlank, Node.isElem] at this
  | .elem tag ds :: cs, d, h1, h2, h3, h4 => by
    simp only [tags, List.nodup_cons, List.mem_cons, forall_eq_or_imp] at h3 h4
    obtain ⟨t', cs', v, h5, h6, h7⟩ := h2 _ List.mem_cons_self rfl
    obtain ⟨rfl, rfl⟩ := Node.elem.inj h5
    have h8 : ∀ t ∈ tags cs, t ∉ (d ++ [(tag, v)]).map Prod.fst := by
      intro t ht
      rw [List.map_append, List.mem_append, not_or]
      refine ⟨h4.2 t ht, ?_⟩
      simp only [List.map_cons, List.map_nil, List.mem_singleton]
      rintro rfl
      exact h3.1 ht
    obtain ⟨e, he, he', he''⟩ := readValues_ok (fun c hc => h1 c (by simp [hc])) (fun c hc => h2 c (by simp [hc])) h3.2 h8
    refine ⟨(tag, v) :: e, ?_, ?_, ?_⟩
    · rw [readValues, h6, Res.ok_bind, set_new h4.1, he]
      simp
    · rw [writeDict, elements_cons_write, h7, he', elements]
    · rw [List.map_cons, he'', tags]

theorem readValues_record {cs : List Node} (h1 : ∀ c ∈ cs, c.isBlank ∨ c.isElem) (h2 : ∀ c ∈ cs, c.isElem → Ok canon c) (h3 : (tags cs).Nodup) :
    ∃ d, readValues cs [] = .ok d ∧ elements canon (writeDict d) = elements canon cs ∧ d.map Prod.fst = tags cs := by
  obtain ⟨e, he, he', he''⟩ := readValues_ok (d := []) h1 h2 h3 (by simp)
  exact ⟨e, by simpa using he, he', he''⟩

theorem no_text {cs : List Node} (h : ∀ c ∈ cs, c.isBlank ∨ c.isElem) : cs.any Node.isComment = false ∧ (cs.any fun c => c.isText && !c.isBlank) = false := by
  constructor
  · rw [List.any_eq_false]
    intro c hc
    rcases h c hc with h | h <;> cases c <;> simp_all [Node.isElem, Node.isComment, Node.isBlank]
  · rw [List.any_eq_false]
    intro c hc
    rcases h c hc with h | h <;> cases c <;> simp_all [Node.isElem, Node.isText]

theorem blank_content {tag : Text} {cs : List Node} (h : ∀ c ∈ cs, c.isBlank ∨ c.isElem) (ht : cs.all Node.isText) : content canon (.elem tag cs) = .elem tag [] := by
  rw [content_elements h]
  congr 1
  clear h
  induction cs with
  | nil => rw [elements]
  | cons c cs ih =>
    rw [List.all_cons, Bool.and_eq_true] at ht
    cases c with
    | text s => rw [elements_text]; exact ih ht.2
    | comment s => simp [Node.isText] at ht
    | elem t ds => simp [Node.isText] at ht

theorem content_text {tag s : Text} (hs : strip s ≠ []) : content canon (.elem tag [.text s]) = .elem tag [.text (canon s)] := by
  rw [content]
  have : (strip s).isEmpty = false := by cases h : strip s <;> simp_all
  simp [Node.isText, Node.isBlank, this]

theorem dropWhile_fixed : ∀ {l : Text}, (∀ c ∈ l.head?, Char.isWhitespace c = false) → l.dropWhile Char.isWhitespace = l
  | [], _ => rfl
  | c :: l, h => by rw [List.dropWhile_cons, if_neg (by simp [h c (by simp)])]

theorem head_dropWhile (l : Text) : ∀ c ∈ (l.dropWhile Char.isWhitespace).head?, Char.isWhitespace c = false := by
  intro c hc
  have := List.head?_dropWhile_not Char.isWhitespace l
  rw [hc] at this
  simpa using this

theorem strip_strip (s : Text) : strip (strip s) = strip s := by
  unfold strip
  set a := s.dropWhile Char.isWhitespace with ha
  have hh : ∀ c ∈ a.head?, Char.isWhitespace c = false := head_dropWhile s
  set b := (a.reverse.dropWhile Char.isWhitespace).reverse with hb
  have hpre : b <+: a := by
    rw [hb, ← List.reverse_suffix, List.reverse_reverse]
    exact List.dropWhile_suffix _
  have : b.dropWhile Char.isWhitespace = b := by
    apply dropWhile_fixed
    intro c hc
    obtain ⟨t, ht⟩ := hpre
    apply hh c
    cases hbb : b with
    | nil => rw [hbb] at hc; cases hc
    | cons x l => rw [hbb] at hc ht; rw [← ht]; exact hc
  rw [this, hb, List.reverse_reverse, dropWhile_fixed (head_dropWhile _)]

/-- The value of one element of a list. -/
def itemVal (children : List Node) : Res Val := if children.all Node.isText then firstText children else (readValues children []).map .dict

theorem itemsOf_elem (t : Text) (ds cs : List Node) : itemsOf (.elem t ds :: cs) = (itemVal ds).bind fun v => (itemsOf cs).bind fun rest => .ok (v :: rest) := by
  rw [itemsOf]; rfl

theorem itemsOf_ok {t : Text} : ∀ {cs : List Node}, (∀ c ∈ cs, c.isBlank ∨ c.isElem) → (∀ t' ∈ tags cs, t' = t) →
    (∀ t' ds, .elem t' ds ∈ cs → ∃ v, itemVal ds = .ok v ∧ content canon (write t v) = content canon (.elem t ds)) →
      ∃ l, itemsOf cs = .ok l ∧ elements canon (writeItems t l) = elements canon cs
  | [], _, _, _ => ⟨[], by rw [itemsOf], by rw [writeItems]⟩
  | .text s :: cs, h1, h2, h3 => by
    obtain ⟨l, hl, hl'⟩ := itemsOf_ok (cs := cs) (fun c hc => h1 c (by simp [hc])) (fun t' ht => h2 t' ht) (fun t' ds h => h3 t' ds (by simp [h]))
    exact ⟨l, by rw [itemsOf, hl], by rw [elements_text, hl']⟩
  | .comment s :: cs, h1, _, _ => by
    have := h1 _ (List.mem_cons_self)
    simp [Node.isBlank, Node.isElem] at this
  | .elem t' ds :: cs, h1, h2, h3 => by
    obtain ⟨l, hl, hl'⟩ := itemsOf_ok (cs := cs) (fun c hc => h1 c (by simp [hc])) (fun t' ht => h2 t' (by simp [tags, ht])) (fun t' ds h => h3 t' ds (by simp [h]))
    obtain rfl := h2 t' (by simp [tags])
    obtain ⟨v, hv, hv'⟩ := h3 t' ds List.mem_cons_self
    refine ⟨v :: l, ?_, ?_⟩
    · rw [itemsOf_elem, hv, hl]; rfl
    · rw [writeItems, elements_cons_write, hl', hv', elements]

theorem good_ok (hc : ∀ s, canon (strip s) = canon s) {c : Node} (h : Good c) : Ok canon c := by
  induction h with
  | @leaf tag s hs =>
    have h1 : (strip s).isEmpty = false := by cases h : strip s <;> simp_all
    refine ⟨tag, _, .str (strip s), rfl, ?_, ?_⟩
    · rw [valueOf]
      simp [Node.isComment, Node.isText, Node.isBlank, h1]
    · rw [write, content_text (by rwa [strip_strip]), content_text hs, hc]
  | @record tag cs h1 h2 h3 ih =>
    obtain ⟨d, hd, hd', -⟩ := readValues_record h1 ih h3
    refine ⟨tag, cs, .dict d, rfl, ?_, ?_⟩
    · rw [valueOf, (no_text h1).1, (no_text h1).2, hd]
      simp [h3, pure, Except.pure]
    · rw [content_dict, hd', content_elements h1]
  | @list tag cs h1 h2 h3 h4 h5 ih =>
    obtain ⟨l, hl, hl'⟩ := itemsOf_ok (canon := canon) (t := tag.dropLast) h1 h4 (by
      intro t ds hmem
      have hg := h2 _ hmem rfl
      obtain ⟨hne, hn⟩ := h5 t ds hmem
      have hblank : ∀ {es : List Node}, (∀ c ∈ es, c.isBlank ∨ c.isElem) → es ≠ [] → es.all Node.isText → ∃ v, itemVal es = .ok v ∧
          content canon (write tag.dropLast v) = content canon (.elem tag.dropLast es) := by
        intro es he hes ht
        match es, hes with
        | .text s :: r, _ =>
          refine ⟨.str s, by rw [itemVal, if_pos ht]; rfl, ?_⟩
          rw [blank_content he ht, write, blank_content (by intro c hc; exact he c (by simp_all)) (by simp [Node.isText])]
        | .comment s :: r, _ => simp [Node.isText] at ht
        | .elem _ _ :: r, _ => simp [Node.isText] at ht
      obtain ⟨t', ds', v, h6, h7, h8⟩ := ih _ hmem rfl
      obtain ⟨rfl, rfl⟩ := Node.elem.inj h6
      cases hg with
      | @leaf _ s hs => exact ⟨.str s, by simp [itemVal, Node.isText, firstText], by rw [write]⟩
      | record g1 g2 g3 =>
        by_cases ht : ds.all Node.isText
        · exact hblank g1 hne ht
        · rw [valueOf, (no_text g1).1, (no_text g1).2] at h7
          simp only [Bool.false_eq_true, if_false, hn, if_true] at h7
          cases hr : readValues ds [] with
          | error x => rw [hr] at h7; cases h7
          | ok d =>
            rw [hr] at h7
            obtain rfl : Val.dict d = v := Except.ok.inj h7
            refine ⟨.dict d, by rw [itemVal, if_neg ht, hr]; rfl, ?_⟩
            rw [content_dict] at h8 ⊢
            rw [content_elements g1] at h8 ⊢
            rw [(Node.elem.inj h8).2]
      | list g1 g2 g3 => exact absurd hn g3)
    refine ⟨tag, cs, .list l, rfl, ?_, ?_⟩
    · rw [valueOf, (no_text h1).1, (no_text h1).2, hl]
      simp [h3, pure, Except.pure]
    · rw [write, content_elements (writeItems_elems _ _), hl', content_elements h1]

/-! ### Dictionaries -/

/-- The keys of a dictionary. -/
abbrev Keys (d : Dict) : List Text := d.map Prod.fst

theorem get_of_mem : ∀ {d : Dict} {k : Text} {v : Val}, (Keys d).Nodup → (k, v) ∈ d → d.get k = .ok v
  | (k', w) :: d, k, v, hn, h => by
    rw [Keys, List.map_cons, List.nodup_cons] at hn
    rw [Dict.get]
    rcases List.mem_cons.1 h with h | h
    · obtain ⟨rfl, rfl⟩ := Prod.mk.inj h; simp
    · rw [if_neg, get_of_mem hn.2 h]
      rintro rfl
      exact hn.1 (List.mem_map.2 ⟨_, h, rfl⟩)

theorem keys_set : ∀ {d : Dict} {k : Text} {v : Val}, k ∈ Keys d → Keys (d.set k v) = Keys d
  | [], _, _, h => by simp at h
  | (k', w) :: d, k, v, h => by
    rw [Dict.set]
    split_ifs with hk
    · rfl
    · rw [Keys, List.map_cons, List.mem_cons] at h
      rcases h with h | h
      · exact absurd h.symm hk
      · rw [Keys, List.map_cons, show List.map Prod.fst (Dict.set d k v) = _ from keys_set h]; rfl

theorem mem_set : ∀ {d : Dict} {k k' : Text} {v v' : Val}, (Keys d).Nodup → k ∈ Keys d → ((k', v') ∈ d.set k v ↔ (k' = k ∧ v' = v) ∨ (k' ≠ k ∧ (k', v') ∈ d))
  | [], _, _, _, _, _, h => by simp at h
  | (a, w) :: d, k, k', v, v', hn, h => by
    rw [Keys, List.map_cons, List.nodup_cons] at hn
    rw [Dict.set]
    by_cases hk : a = k
    · subst hk
      simp only [if_true, List.mem_cons, Prod.mk.injEq]
      constructor
      · rintro (⟨rfl, rfl⟩ | h')
        · exact .inl ⟨rfl, rfl⟩
        · refine .inr ⟨?_, .inr h'⟩
          rintro rfl
          exact hn.1 (List.mem_map.2 ⟨_, h', rfl⟩)
      · rintro (⟨rfl, rfl⟩ | ⟨h1, ⟨rfl, rfl⟩ | h'⟩)
        · exact .inl ⟨rfl, rfl⟩
        · exact absurd rfl h1
        · exact .inr h'
    · rw [if_neg hk]
      rw [Keys, List.map_cons, List.mem_cons] at h
      have h : k ∈ Keys d := by
        rcases h with h | h
        · exact absurd h.symm hk
        · exact h
      simp only [List.mem_cons, Prod.mk.injEq, mem_set hn.2 h]
      constructor
      · rintro (⟨rfl, rfl⟩ | ⟨rfl, rfl⟩ | ⟨h1, h2⟩)
        · exact .inr ⟨hk, .inl ⟨rfl, rfl⟩⟩
        · exact .inl ⟨rfl, rfl⟩
        · exact .inr ⟨h1, .inr h2⟩
      · rintro (⟨rfl, rfl⟩ | ⟨h1, ⟨rfl, rfl⟩ | h2⟩)
        · exact .inr (.inl ⟨rfl, rfl⟩)
        · exact .inl ⟨rfl, rfl⟩
        · exact .inr (.inr ⟨h1, h2⟩)

theorem writeDict_congr : ∀ {d e : Dict}, (Keys d).Nodup → Keys e = Keys d → (∀ k v w, (k, v) ∈ d → (k, w) ∈ e → content canon (write k w) = content canon (write k v)) →
    elements canon (writeDict e) = elements canon (writeDict d)
  | [], [], _, _, _ => rfl
  | [], _ :: _, _, h, _ => by simp at h
  | _ :: _, [], _, h, _ => by simp at h
  | (k, v) :: d, (k', w) :: e, hn, hk, h => by
    rw [Keys, List.map_cons, List.nodup_cons] at hn
    rw [Keys, Keys, List.map_cons, List.map_cons] at hk
    obtain ⟨h1, h2⟩ := List.cons.inj hk
    obtain rfl : k' = k := h1
    rw [writeDict, writeDict, elements_cons_write, elements_cons_write, h k' v w (by simp) (by simp),
      writeDict_congr hn.2 h2 fun a b c hb hc => h a b c (by simp [hb]) (by simp [hc])]

/-- What reading gives for the children of an element. -/
theorem readValues_mem : ∀ {cs : List Node} {d e : Dict}, readValues cs d = .ok e → (tags cs).Nodup → (∀ t ∈ tags cs, t ∉ Keys d) →
    (∀ p ∈ d, p ∈ e) ∧ ∀ k ds, .elem k ds ∈ cs → ∃ v, valueOf (.elem k ds) = .ok v ∧ (k, v) ∈ e
  | [], d, e, h, _, _ => by
    rw [readValues] at h
    cases h
    exact ⟨fun p h => h, by simp⟩
  | .text s :: cs, d, e, h, hn, hd => by
    rw [readValues] at h
    obtain ⟨h1, h2⟩ := readValues_mem h hn hd
    refine ⟨h1, fun k ds hm => ?_⟩
    rcases List.mem_cons.1 hm with hm | hm
    · cases hm
    · exact h2 k ds hm
  | .comment s :: cs, d, e, h, _, _ => by rw [readValues] at h; cases h
  | .elem t ts :: cs, d, e, h, hn, hd => by
    rw [readValues] at h
    simp only [tags, List.nodup_cons, List.mem_cons, forall_eq_or_imp] at hn hd
    cases hv : valueOf (.elem t ts) with
    | error x => rw [hv] at h; cases h
    | ok v =>
      rw [hv, Res.ok_bind, set_new hd.1] at h
      obtain ⟨h1, h2⟩ := readValues_mem h hn.2 (by
        intro t' ht
        rw [Keys, List.map_append, List.mem_append, not_or]
        refine ⟨hd.2 t' ht, ?_⟩
        simp only [List.map_cons, List.map_nil, List.mem_singleton]
        rintro rfl
        exact hn.1 ht)
      refine ⟨fun p hp => h1 p (by simp [hp]), fun k ds hm => ?_⟩
      rcases List.mem_cons.1 hm with hm | hm
      · obtain ⟨rfl, rfl⟩ := Node.elem.inj hm
        exact ⟨v, hv, h1 _ (by simp)⟩
      · exact h2 k ds hm

/-- An element with an element inside whose name is not that of the elements of a list. -/
theorem good_record {tag t : Text} {cs ds : List Node} (h : Good (.elem tag cs)) (hm : .elem t ds ∈ cs) (ht : t ≠ tag.dropLast) :
    (∀ c ∈ cs, c.isBlank ∨ c.isElem) ∧ (∀ c ∈ cs, c.isElem → Good c) ∧ (tags cs).Nodup := by
  have htags : ∀ {l : List Node}, .elem t ds ∈ l → t ∈ tags l := by
    intro l
    induction l with
    | nil => simp
    | cons c l ih =>
      intro hh
      rcases List.mem_cons.1 hh with rfl | hl
      · simp [tags]
      · have := ih hl
        cases c <;> simp [tags, this]
  cases h with
  | leaf _ => simp at hm
  | record h1 h2 h3 => exact ⟨h1, h2, h3⟩
  | list h1 h2 h3 h4 => exact absurd (h4 t (htags hm)) ht

/-- The dictionary of such an element. -/
theorem good_dict (hc : ∀ s, canon (strip s) = canon s) {tag t : Text} {cs ds : List Node} (h : Good (.elem tag cs)) (hm : .elem t ds ∈ cs) (ht : t ≠ tag.dropLast) :
    ∃ d : Dict, readValues cs [] = .ok d ∧ valueOf (.elem tag cs) = .ok (.dict d) ∧ (Keys d).Nodup ∧ elements canon (writeDict d) = elements canon cs ∧
      content canon (.elem tag cs) = .elem tag (elements canon cs) ∧
      ∀ k ds, .elem k ds ∈ cs → ∃ v, valueOf (.elem k ds) = .ok v ∧ (k, v) ∈ d := by
  obtain ⟨h1, h2, h3⟩ := good_record h hm ht
  obtain ⟨d, hd, hd', hd''⟩ := readValues_record (canon := canon) h1 (fun c hc' hc'' => good_ok hc (h2 c hc' hc'')) h3
  refine ⟨d, hd, ?_, by rw [Keys, hd'']; exact h3, hd', content_elements h1, (readValues_mem hd h3 (by simp)).2⟩
  rw [valueOf, (no_text h1).1, (no_text h1).2, hd]
  simp [h3, pure, Except.pure]

theorem valueOf_leaf {tag s : Text} (hs : strip s ≠ []) : valueOf (.elem tag [.text s]) = .ok (.str (strip s)) := by
  have h1 : (strip s).isEmpty = false := by cases h : strip s <;> simp_all
  rw [valueOf]
  simp [Node.isComment, Node.isText, Node.isBlank, h1]

theorem getText_of_mem {d : Dict} {k s : Text} (hn : (Keys d).Nodup) (h : (k, .str s) ∈ d) : d.getText k = .ok s := by
  unfold Dict.getText; rw [get_of_mem hn h]; rfl

theorem getDict_of_mem {d e : Dict} {k : Text} (hn : (Keys d).Nodup) (h : (k, .dict e) ∈ d) : d.getDict k = .ok e := by
  unfold Dict.getDict; rw [get_of_mem hn h]; rfl

theorem three_strip {conv : Text → Option Text} {canon : Text → Text} {s : Text} (h : Three conv canon s) : strip s ≠ [] := by
  obtain ⟨a, b, c, a', b', c', h, -⟩ := h
  intro hs
  rw [hs] at h
  simp [split] at h

theorem makeNumbers_three {conv : Text → Option Text} {canon : Text → Text} {s : Text} (h : Three conv canon s) :
    ∃ a b c : Text, makeNumbers conv (strip s) = .ok (.list [.str a, .str b, .str c]) ∧ canon (a ++ ' ' :: b ++ ' ' :: c) = canon s := by
  obtain ⟨a, b, c, a', b', c', h, ha, hb, hc, hd⟩ := h
  refine ⟨a', b', c', ?_, hd⟩
  unfold makeNumbers
  rw [strip_strip, h]
  simp only [List.mapM_cons, List.mapM_nil, ha, hb, hc]
  rfl

theorem makeNumbers_one {conv : Text → Option Text} {canon : Text → Text} {s : Text} (h : One conv canon s) :
    ∃ a : Text, makeNumbers conv (strip s) = .ok (.str a) ∧ canon a = canon s := by
  obtain ⟨a, a', h, ha, hd⟩ := h
  refine ⟨a', ?_, hd⟩
  unfold makeNumbers
  rw [strip_strip, h]
  simp only [List.mapM_cons, List.mapM_nil, ha]
  rfl

theorem content_str (hc : Canon canon) (k : Text) {s s' : Text} (h : canon s' = canon s) (hs : strip s ≠ []) : content canon (write k (.str s')) = content canon (write k (.str (strip s))) := by
  have h1 : strip s' ≠ [] := fun hh => hs ((hc.blank s).1 (h ▸ (hc.blank s').2 hh))
  rw [write, write, content_text h1, content_text (by rwa [strip_strip]), hc.strip, h]

theorem makeString_ok {d : Dict} {k a b c : Text} (hn : (Keys d).Nodup) (h : (k, .list [.str a, .str b, .str c]) ∈ d) :
    makeString d k = .ok (d.set k (.str (a ++ ' ' :: b ++ ' ' :: c))) := by
  unfold makeString; rw [get_of_mem hn h]; rfl

theorem mem_keys {d : Dict} {k : Text} {v : Val} (h : (k, v) ∈ d) : k ∈ Keys d := List.mem_map.2 ⟨_, h, rfl⟩

theorem mem_unique {d : Dict} {k : Text} {v w : Val} (hn : (Keys d).Nodup) (hv : (k, v) ∈ d) (hw : (k, w) ∈ d) : v = w :=
  Except.ok.inj ((get_of_mem hn hv).symm.trans (get_of_mem hn hw))

theorem readUq_ok (hc : Canon canon) {config u : List Node} (hu : firstNamed uqTag config = some (.elem uqTag u)) (hg : Good (.elem uqTag u)) (hp : HasParameters u) :
    ∃ d, readUq config = .ok d ∧ content canon (write uqTag (.dict d)) = content canon (.elem uqTag u) := by
  obtain ⟨p, t, ds, hp, ht⟩ := hp
  obtain ⟨d, h1, h2, h3, h4, h5, h6⟩ := good_dict hc.strip hg hp (by decide)
  obtain ⟨v, hv, hv'⟩ := h6 _ _ hp
  have hgp : Good (.elem parametersTag p) := (good_record hg hp (by decide)).2.1 _ hp rfl
  obtain ⟨t', ds', v', e1, e2, e3⟩ := good_ok (canon := canon) hc.strip hgp
  obtain ⟨rfl, rfl⟩ := Node.elem.inj e1
  obtain rfl : v = v' := Except.ok.inj (hv.symm.trans e2)
  have hne : content canon (.elem parametersTag p) ≠ .elem parametersTag [] := by
    have hb : ∀ c ∈ p, c.isBlank ∨ c.isElem := by
      cases hgp with
      | leaf _ => simp at ht
      | record h _ _ => exact h
      | list h _ _ _ _ => exact h
    rw [content_elements hb]
    have : ∀ {l : List Node}, .elem t ds ∈ l → elements canon l ≠ [] := by
      intro l
      induction l with
      | nil => simp
      | cons c l ih =>
        intro hh
        cases c with
        | elem a b => rw [elements]; simp
        | text s =>
          rw [elements_text]
          exact ih (by simpa using hh)
        | comment s =>
          have : elements canon (.comment s :: l) = elements canon l := by rw [elements]; intro _ _ h; exact nomatch h
          rw [this]
          exact ih (by simpa using hh)
    intro hh
    exact this ht (Node.elem.inj hh).2
  have hv0 : v.isEmpty = false := by
    cases hx : v.isEmpty with
    | false => rfl
    | true =>
      refine absurd ?_ hne
      rw [← e3]
      cases v with
      | str s =>
        obtain rfl : s = [] := by simpa [Val.isEmpty] using hx
        rw [write, blank_content (by simp [Node.isBlank, strip]) (by simp [Node.isText])]
      | dict l =>
        obtain rfl : l = [] := by simpa [Val.isEmpty] using hx
        rw [content_dict, writeDict, elements]
      | list l =>
        obtain rfl : l = [] := by simpa [Val.isEmpty] using hx
        rw [write, content_elements (writeItems_elems _ _), writeItems, elements]
  refine ⟨d, ?_, by rw [content_dict, h4, h5]⟩
  simp only [readUq, hu, h1, Res.ok_bind, get_of_mem h3 hv', hv0]
  rfl

theorem adjust_ok (hc : Canon canon) {float int : Text → Option Text} {f : List Node} (hg : Good (.elem fvmTag f)) (E : Entries float int canon f) (uq : Dict) :
    ∃ d d' out, readValues f [] = .ok d ∧ adjust float int d = .ok d' ∧ writtenFile ⟨d', uq, d'⟩ = .ok [write fvmTag (.dict out), write uqTag (.dict uq)] ∧
      content canon (write fvmTag (.dict out)) = content canon (.elem fvmTag f) := by
  obtain ⟨d, d1, d2, d3, d4, d5, d6⟩ := good_dict hc.strip hg E.grid (by decide)
  have hgf := (good_record hg E.grid (by decide)).2.1
  -- the grid
  obtain ⟨gd, g1, g2, g3, g4, g5, g6⟩ := good_dict hc.strip (hgf _ E.grid rfl) E.lower_mem (by decide)
  obtain ⟨gv, hgv, hgm⟩ := d6 _ _ E.grid
  obtain rfl : Val.dict gd = gv := Except.ok.inj (g2.symm.trans hgv)
  have leafMem : ∀ {cs : List Node} {e : Dict}, (∀ k ds, .elem k ds ∈ cs → ∃ v, valueOf (.elem k ds) = .ok v ∧ (k, v) ∈ e) →
      ∀ {k s : Text}, leaf k s ∈ cs → strip s ≠ [] → (k, Val.str (strip s)) ∈ e := by
    intro cs e h k s hm hs
    obtain ⟨v, hv, hv'⟩ := h _ _ hm
    rw [valueOf_leaf hs] at hv
    exact Except.ok.inj hv ▸ hv'
  have hlow := leafMem g6 E.lower_mem (three_strip E.lower_three)
  have hup := leafMem g6 E.upper_mem (three_strip E.upper_three)
  have hdim := leafMem g6 E.dim_mem (three_strip E.dim_three)
  have htime := leafMem d6 E.time_mem E.time_text
  have hname := leafMem d6 E.name_mem E.name_text
  obtain ⟨la, lb, lc, l1, l2⟩ := makeNumbers_three E.lower_three
  obtain ⟨ua, ub, uc, u1, u2⟩ := makeNumbers_three E.upper_three
  obtain ⟨na, nb, nc, n1, n2⟩ := makeNumbers_three E.dim_three
  obtain ⟨ta, t1, t2⟩ := makeNumbers_one E.time_one
  -- the initial data
  obtain ⟨id, i1, i2, i3, i4, i5, i6⟩ := good_dict hc.strip (hgf _ E.init rfl) E.python_mem (by decide)
  obtain ⟨iv, hiv, him⟩ := d6 _ _ E.init
  obtain rfl : Val.dict id = iv := Except.ok.inj (i2.symm.trans hiv)
  have hpy := leafMem i6 E.python_mem E.python_text
  -- the grid after the conversions
  set gA := Dict.set gd lowerCornerTag (.list [.str la, .str lb, .str lc]) with hgA
  have kA : Keys gA = Keys gd := keys_set (mem_keys hlow)
  have mA : ∀ k v, (k, v) ∈ gA ↔ _ := fun k v => mem_set g3 (mem_keys hlow)
  have hupA : (upperCornerTag, Val.str (strip E.upper)) ∈ gA := (mA _ _).2 (.inr ⟨by decide, hup⟩)
  set gB := Dict.set gA upperCornerTag (.list [.str ua, .str ub, .str uc]) with hgB
  have nA : (Keys gA).Nodup := kA ▸ g3
  have kB : Keys gB = Keys gd := (keys_set (mem_keys hupA)).trans kA
  have mB : ∀ k v, (k, v) ∈ gB ↔ _ := fun k v => mem_set nA (mem_keys hupA)
  have hdimB : (dimensionTag, Val.str (strip E.dim)) ∈ gB := (mB _ _).2 (.inr ⟨by decide, (mA _ _).2 (.inr ⟨by decide, hdim⟩)⟩)
  set gC := Dict.set gB dimensionTag (.list [.str na, .str nb, .str nc]) with hgC
  have nB : (Keys gB).Nodup := kB ▸ g3
  have kC : Keys gC = Keys gd := (keys_set (mem_keys hdimB)).trans kB
  have mC : ∀ k v, (k, v) ∈ gC ↔ _ := fun k v => mem_set nB (mem_keys hdimB)
  have nC : (Keys gC).Nodup := kC ▸ g3
  -- the section after the conversions
  set dA := Dict.set d gridTag (.dict gC) with hdA
  have kdA : Keys dA = Keys d := keys_set (mem_keys hgm)
  have ndA : (Keys dA).Nodup := kdA ▸ d3
  have mdA : ∀ k v, (k, v) ∈ dA ↔ _ := fun k v => mem_set d3 (mem_keys hgm)
  have htimeA : (endTimeTag, Val.str (strip E.time)) ∈ dA := (mdA _ _).2 (.inr ⟨by decide, htime⟩)
  set dB := Dict.set dA endTimeTag (.str ta) with hdB
  have kdB : Keys dB = Keys d := (keys_set (mem_keys htimeA)).trans kdA
  have ndB : (Keys dB).Nodup := kdB ▸ d3
  have mdB : ∀ k v, (k, v) ∈ dB ↔ _ := fun k v => mem_set ndA (mem_keys htimeA)
  have hadj : adjust float int d = .ok dB := by
    simp only [adjust, getDict_of_mem d3 hgm, getText_of_mem g3 hlow, l1, Res.ok_bind, ← hgA, getText_of_mem nA hupA, u1, ← hgB, getText_of_mem nB hdimB, n1, ← hgC,
      ← hdA, getText_of_mem ndA htimeA, t1]
    rfl
  -- writing
  have hnameB : (nameTag, Val.str (strip E.name)) ∈ dB := (mdB _ _).2 (.inr ⟨by decide, (mdA _ _).2 (.inr ⟨by decide, hname⟩)⟩)
  have hgridB : (gridTag, Val.dict gC) ∈ dB := (mdB _ _).2 (.inr ⟨by decide, (mdA _ _).2 (.inl ⟨rfl, rfl⟩)⟩)
  have hlowC : (lowerCornerTag, Val.list [.str la, .str lb, .str lc]) ∈ gC :=
    (mC _ _).2 (.inr ⟨by decide, (mB _ _).2 (.inr ⟨by decide, (mA _ _).2 (.inl ⟨rfl, rfl⟩)⟩)⟩)
  set gD := Dict.set gC lowerCornerTag (.str (la ++ ' ' :: lb ++ ' ' :: lc)) with hgD
  have kD : Keys gD = Keys gd := (keys_set (mem_keys hlowC)).trans kC
  have nD : (Keys gD).Nodup := kD ▸ g3
  have mD : ∀ k v, (k, v) ∈ gD ↔ _ := fun k v => mem_set nC (mem_keys hlowC)
  have hupD : (upperCornerTag, Val.list [.str ua, .str ub, .str uc]) ∈ gD :=
    (mD _ _).2 (.inr ⟨by decide, (mC _ _).2 (.inr ⟨by decide, (mB _ _).2 (.inl ⟨rfl, rfl⟩)⟩)⟩)
  set gE := Dict.set gD upperCornerTag (.str (ua ++ ' ' :: ub ++ ' ' :: uc)) with hgE
  have kE : Keys gE = Keys gd := (keys_set (mem_keys hupD)).trans kD
  have nE : (Keys gE).Nodup := kE ▸ g3
  have mE : ∀ k v, (k, v) ∈ gE ↔ _ := fun k v => mem_set nD (mem_keys hupD)
  have hdimE : (dimensionTag, Val.list [.str na, .str nb, .str nc]) ∈ gE :=
    (mE _ _).2 (.inr ⟨by decide, (mD _ _).2 (.inr ⟨by decide, (mC _ _).2 (.inl ⟨rfl, rfl⟩)⟩)⟩)
  set gF := Dict.set gE dimensionTag (.str (na ++ ' ' :: nb ++ ' ' :: nc)) with hgF
  have kF : Keys gF = Keys gd := (keys_set (mem_keys hdimE)).trans kE
  have mF : ∀ k v, (k, v) ∈ gF ↔ _ := fun k v => mem_set nE (mem_keys hdimE)
  set dC := Dict.set dB gridTag (.dict gF) with hdC
  have kdC : Keys dC = Keys d := (keys_set (mem_keys hgridB)).trans kdB
  have ndC : (Keys dC).Nodup := kdC ▸ d3
  have mdC : ∀ k v, (k, v) ∈ dC ↔ _ := fun k v => mem_set ndB (mem_keys hgridB)
  have hinitC : (initialDataTag, Val.dict id) ∈ dC :=
    (mdC _ _).2 (.inr ⟨by decide, (mdB _ _).2 (.inr ⟨by decide, (mdA _ _).2 (.inr ⟨by decide, him⟩)⟩)⟩)
  -- the same grid
  have hsameGrid : content canon (write gridTag (.dict gF)) = content canon (write gridTag (.dict gd)) := by
    rw [content_dict, content_dict, writeDict_congr g3 kF]
    intro k v w hv hw
    rw [mF, mE, mD, mC, mB, mA] at hw
    rcases hw with ⟨rfl, rfl⟩ | ⟨k1, ⟨rfl, rfl⟩ | ⟨k2, ⟨rfl, rfl⟩ | ⟨k3, ⟨rfl, -⟩ | ⟨-, ⟨rfl, -⟩ | ⟨-, ⟨rfl, -⟩ | ⟨-, hw⟩⟩⟩⟩⟩⟩
    · rw [mem_unique g3 hv hdim]; exact content_str hc _ n2 (three_strip E.dim_three)
    · rw [mem_unique g3 hv hup]; exact content_str hc _ u2 (three_strip E.upper_three)
    · rw [mem_unique g3 hv hlow]; exact content_str hc _ l2 (three_strip E.lower_three)
    · exact absurd rfl k1
    · exact absurd rfl k2
    · exact absurd rfl k3
    · rw [mem_unique g3 hv hw]
  -- the same initial data
  set newPy := strip E.name ++ ".py".toList with hnewPy
  have hsameInit : content canon (write initialDataTag (.dict (Dict.set id pythonTag (.str newPy)))) = content canon (write initialDataTag (.dict id)) := by
    rw [content_dict, content_dict, writeDict_congr i3 (keys_set (mem_keys hpy))]
    intro k v w hv hw
    rw [mem_set i3 (mem_keys hpy)] at hw
    rcases hw with ⟨rfl, rfl⟩ | ⟨-, hw⟩
    · rw [mem_unique i3 hv hpy]; exact content_str hc _ E.copy E.python_text
    · rw [mem_unique i3 hv hw]
  have base : ∀ k v w, (k, v) ∈ d → (k, w) ∈ dC → content canon (write k w) = content canon (write k v) := by
    intro k v w hv hw
    rw [mdC, mdB, mdA] at hw
    rcases hw with ⟨rfl, rfl⟩ | ⟨k1, ⟨rfl, rfl⟩ | ⟨k2, ⟨rfl, -⟩ | ⟨-, hw⟩⟩⟩
    · rw [mem_unique d3 hv hgm]; exact hsameGrid
    · rw [mem_unique d3 hv htime]; exact content_str hc _ t2 E.time_text
    · exact absurd rfl k1
    · rw [mem_unique d3 hv hw]
  have hwrite : writtenFile ⟨dB, uq, dB⟩ = .ok [write fvmTag (.dict (if strip E.python ≠ newPy then dC.set initialDataTag (.dict (id.set pythonTag (.str newPy))) else dC)),
      write uqTag (.dict uq)] := by
    simp only [writtenFile, getText_of_mem ndB hnameB, getDict_of_mem ndB hgridB, Res.ok_bind, makeString_ok nC hlowC, ← hgD, makeString_ok nD hupD, ← hgE, makeString_ok nE hdimE,
      ← hgF, ← hdC, getDict_of_mem ndC hinitC, getText_of_mem i3 hpy, ← hnewPy]
    rfl
  refine ⟨d, dB, _, d1, hadj, hwrite, ?_⟩
  rw [d5]
  split_ifs
  · rw [content_dict, ← d4]
    congr 1
    refine writeDict_congr d3 ((keys_set (mem_keys hinitC)).trans kdC) fun k v w hv hw => ?_
    rw [mem_set ndC (mem_keys hinitC)] at hw
    rcases hw with ⟨rfl, rfl⟩ | ⟨-, hw⟩
    · rw [mem_unique d3 hv him]; exact hsameInit
    · exact base k v w hv hw
  · rw [content_dict, ← d4]
    congr 1
    exact writeDict_congr d3 kdC base

end Verif.PyConfig
