import Verif.NewClass

/-! Helper lemmas about the script that adds a class. -/

namespace Verif.NewClass
open Verif.Params (Str)

theorem parts_ne_nil : ∀ s : Str, parts s ≠ []
  | [] => by simp [parts]
  | [c] => by simp [parts]
  | c :: c' :: r => by
    rw [parts]
    split_ifs
    · simp
    · split <;> simp

theorem parts_of_plain : ∀ n : Str, ':' ∉ n → parts n = [n]
  | [], _ => rfl
  | [c], _ => rfl
  | c :: c' :: r, h => by
    have hc : c ≠ ':' := fun e => h (by simp [e])
    rw [parts, if_neg (by simp [hc]), parts_of_plain (c' :: r) (fun e => h (by simp at e ⊢; tauto))]

theorem parts_append : ∀ (n r : Str), ':' ∉ n → parts (n ++ ':' :: ':' :: r) = n :: parts r
  | [], r, _ => by rw [List.nil_append, parts, if_pos ⟨rfl, rfl⟩]
  | c :: n, r, h => by
    have hc : c ≠ ':' := fun e => h (by simp [e])
    have ih := parts_append n r fun e => h (by simp [e])
    obtain ⟨x, y, e⟩ : ∃ x y, n ++ ':' :: ':' :: r = x :: y := by cases n <;> simp
    rw [List.cons_append, e, parts, if_neg (by simp [hc]), ← e, ih]

/-- Names joined by `::`. -/
def qualified : List Str → Str
  | [] => []
  | [n] => n
  | n :: m :: r => n ++ ':' :: ':' :: qualified (m :: r)

theorem parts_qualified : ∀ names : List Str, names ≠ [] → (∀ n ∈ names, ':' ∉ n) → parts (qualified names) = names
  | [], h, _ => absurd rfl h
  | [n], _, h => parts_of_plain n (h n (by simp))
  | n :: m :: r, _, h => by
    rw [qualified, parts_append _ _ (h n (by simp)), parts_qualified (m :: r) (by simp) fun k hk => h k (by simp at hk ⊢; tauto)]

theorem slashes_of_plain : ∀ n : Str, '/' ∉ n → slashes n = [n]
  | [], _ => rfl
  | c :: r, h => by
    have hc : c ≠ '/' := fun e => h (by simp [e])
    rw [slashes, if_neg hc, slashes_of_plain r fun e => h (by simp [e])]

theorem slashes_append : ∀ (n r : Str), '/' ∉ n → slashes (n ++ '/' :: r) = n :: slashes r
  | [], r, _ => by rw [List.nil_append, slashes, if_pos rfl]
  | c :: n, r, h => by
    have hc : c ≠ '/' := fun e => h (by simp [e])
    rw [List.cons_append, slashes, if_neg hc, slashes_append n r fun e => h (by simp [e])]

theorem follow_cons (n : Str) (r : List Str) : follow (n :: r) = n ++ '/' :: follow r := by simp [follow]

theorem follow_append (a b : List Str) : follow (a ++ b) = follow a ++ follow b := by simp [follow]

theorem slashes_follow : ∀ (l : List Str) (s : Str), (∀ n ∈ l, '/' ∉ n) → slashes (follow l ++ s) = l ++ slashes s
  | [], s, _ => by simp [follow]
  | n :: r, s, h => by
    rw [follow_cons, List.append_assoc, List.cons_append, slashes_append _ _ (h n (by simp)), slashes_follow r s fun k hk => h k (by simp [hk]), List.cons_append]

/-- Names without slashes that are not empty. -/
def Named (l : List Str) : Prop := ∀ n ∈ l, n ≠ [] ∧ '/' ∉ n

theorem filter_named {l : List Str} (h : Named l) : l.filter (· ≠ []) = l :=
  List.filter_eq_self.2 fun n hn => by simpa using (h n hn).1

theorem place_follow {l : List Str} (h : Named l) : place (follow l) = l := by
  have := slashes_follow l [] fun n hn => (h n hn).2
  rw [List.append_nil] at this
  rw [place, this, List.filter_append, filter_named h]
  simp [slashes]

theorem place_follow_append {l : List Str} {s : Str} (h : Named l) (hs : s ≠ []) (hs' : '/' ∉ s) : place (follow l ++ s) = l ++ [s] := by
  rw [place, slashes_follow l s fun n hn => (h n hn).2, slashes_of_plain s hs', List.filter_append, filter_named h]
  simp [hs]

theorem dropLast_follow (l : List Str) (last s : Str) : (s ++ follow (l ++ [last])).dropLast = s ++ follow l ++ last := by
  have : s ++ follow (l ++ [last]) = (s ++ follow l ++ last) ++ ['/'] := by simp [follow]
  rw [this, List.dropLast_concat]

theorem follow_include (l : List Str) : "include/".toList ++ follow l = follow ("include".toList :: l) := by
  rw [follow_cons]; rfl

theorem follow_src (l : List Str) : "src/".toList ++ follow l = follow ("src".toList :: l) := by
  rw [follow_cons]; rfl

/-! ### Parts of the script -/

/-- Nothing that is there is changed. -/
def Keeps (a : Act) : Prop := ∀ d p n, d p = some n → (a d).1 p = some n

/-- No file is made. -/
def NoFile (a : Act) : Prop := ∀ d p, (a d).1 p = d p ∨ (d p = none ∧ (a d).1 p = some .dir)

theorem NoFile.keeps {a : Act} (h : NoFile a) : Keeps a := fun d p n e => by
  rcases h d p with e1 | ⟨e1, -⟩
  · rw [e1, e]
  · rw [e] at e1; cases e1

theorem Keeps.andThen {a b : Act} (ha : Keeps a) (hb : Keeps b) : Keeps (a.andThen b) := fun d p n e => by
  rw [Act.andThen]
  split_ifs
  · exact hb _ _ _ (ha _ _ _ e)
  · exact ha _ _ _ e

theorem NoFile.andThen {a b : Act} (ha : NoFile a) (hb : NoFile b) : NoFile (a.andThen b) := fun d p => by
  rw [Act.andThen]
  split_ifs
  · rcases hb (a d).1 p with h | ⟨h1, h2⟩
    · rw [h]; exact ha d p
    · rcases ha d p with h | ⟨h, h'⟩
      · exact .inr ⟨by rw [← h, h1], h2⟩
      · rw [h1] at h'; cases h'
  · exact ha d p

theorem createDirectory_noFile (p : List Str) : NoFile (createDirectory p) := fun d q => by
  rw [createDirectory]
  split_ifs with h
  · by_cases e : q = p
    · subst e; exact .inr ⟨h.1, by simp [put]⟩
    · exact .inl (by simp [put, e])
  · exact .inl rfl

theorem ensure_noFile (p : List Str) : NoFile (ensure p) := fun d q => by
  rw [ensure]
  split_ifs
  · exact .inl rfl
  · exact createDirectory_noFile p d q

theorem ensureAll_noFile : ∀ (full : Str) (l : List Str), NoFile (ensureAll full l)
  | _, [] => fun _ _ => .inl rfl
  | _, _ :: r => NoFile.andThen (ensure_noFile _) (ensureAll_noFile _ r)

/-- The result of `writeToFile`: what was there is still there, and a new file has the name and the text. -/
theorem writeToFile_cases (filename text : Str) (d : Disk) (p : List Str) :
    (writeToFile filename text d).1 p = d p ∨ (d p = none ∧ ((writeToFile filename text d).1 p = some .dir ∨ (p = place filename ∧ (writeToFile filename text d).1 p = some (.file text)))) := by
  rw [writeToFile]
  split_ifs with h0
  · exact .inl rfl
  · rw [not_not] at h0
    rw [Act.andThen]
    have hn := ensureAll_noFile [] (slashes filename).dropLast d
    set d1 := ensureAll [] (slashes filename).dropLast d with hd1
    have base : d1.1 p = d p ∨ (d p = none ∧ (d1.1 p = some .dir ∨ (p = place filename ∧ d1.1 p = some (.file text)))) := by
      rcases hn p with h | ⟨h, h'⟩
      · exact .inl h
      · exact .inr ⟨h, .inl h'⟩
    split_ifs
    · rw [openWrite]
      split_ifs
      · by_cases e : p = place filename
        · subst e; exact .inr ⟨h0, .inr ⟨rfl, by simp [put]⟩⟩
        · simpa [put, e] using base
      · exact base
    · exact base

theorem writeToFile_keeps (filename text : Str) : Keeps (writeToFile filename text) := fun d p n e => by
  rcases writeToFile_cases filename text d p with h | ⟨h, -⟩
  · rw [h, e]
  · rw [e] at h; cases h

theorem isDir_iff {d : Disk} {p : List Str} : isDir d p = true ↔ p = [] ∨ d p = some .dir := by simp [isDir]

/-- The directories that are missing are made. -/
theorem ensureAll_ok : ∀ (l q : List Str) (d : Disk), Named (q ++ l) → isDir d q = true → (∀ k ≤ l.length, ∀ t, d (q ++ l.take k) ≠ some (.file t)) →
    (ensureAll (follow q) l d).2 = true ∧ isDir (ensureAll (follow q) l d).1 (q ++ l) = true ∧
      ∀ p, (ensureAll (follow q) l d).1 p = d p ∨ (d p = none ∧ (ensureAll (follow q) l d).1 p = some .dir ∧ ∃ k, k ≤ l.length ∧ p = q ++ l.take k)
  | [], q, d, _, hq, _ => ⟨rfl, by rw [List.append_nil]; exact hq, fun _ => .inl rfl⟩
  | n :: r, q, d, hn, hq, hd => by
    have hq1 : Named (q ++ [n]) := fun k hk => hn k (by simp at hk ⊢; tauto)
    have e : follow q ++ n ++ ['/'] = follow (q ++ [n]) := by simp [follow]
    have h1 : ∀ t, d (q ++ [n]) ≠ some (.file t) := by simpa using hd 1 (by simp)
    -- the first directory
    have step : (ensure (q ++ [n]) d).2 = true ∧ isDir (ensure (q ++ [n]) d).1 (q ++ [n]) = true ∧
        ∀ p, (ensure (q ++ [n]) d).1 p = d p ∨ (d p = none ∧ (ensure (q ++ [n]) d).1 p = some .dir ∧ p = q ++ [n]) := by
      rw [ensure]
      split_ifs with h
      · exact ⟨rfl, h, fun _ => .inl rfl⟩
      · have hnone : d (q ++ [n]) = none := by
          match hh : d (q ++ [n]) with
          | none => rfl
          | some (.file t) => exact absurd hh (h1 t)
          | some .dir => exact absurd (isDir_iff.2 (.inr hh)) h
        rw [createDirectory, if_pos ⟨hnone, by rw [List.dropLast_concat]; exact hq⟩]
        refine ⟨rfl, isDir_iff.2 (.inr (by simp [put])), fun p => ?_⟩
        by_cases ep : p = q ++ [n]
        · subst ep; exact .inr ⟨hnone, by simp [put], rfl⟩
        · exact .inl (by simp [put, ep])
    obtain ⟨s1, s2, s3⟩ := step
    obtain ⟨t1, t2, t3⟩ := ensureAll_ok r (q ++ [n]) (ensure (q ++ [n]) d).1 (by simpa using hn) s2 (fun k hk t ht => by
      have hd' := hd (k + 1) (by simpa using hk) t
      rw [List.take_succ_cons] at hd'
      rw [List.append_assoc, List.singleton_append] at ht
      rcases s3 (q ++ n :: r.take k) with h | ⟨-, h, -⟩
      · rw [h] at ht; exact hd' ht
      · rw [h] at ht; cases ht)
    rw [ensureAll, e, place_follow hq1, Act.andThen, if_pos s1]
    rw [List.append_assoc, List.singleton_append] at t2
    refine ⟨t1, t2, fun p => ?_⟩
    rcases t3 p with h | ⟨h, h', k, hk, rfl⟩
    · rcases s3 p with g | ⟨g, g', rfl⟩
      · exact .inl (h.trans g)
      · exact .inr ⟨g, h.trans g', 1, by simp, by simp⟩
    · refine .inr ⟨?_, h', k + 1, by simpa using hk, by simp⟩
      rcases s3 (q ++ [n] ++ r.take k) with g | ⟨-, g, -⟩
      · rw [← g]; exact h
      · rw [g] at h; cases h

/-- A file in directories that are there or can be made. -/
theorem writeToFile_ok {dirs : List Str} {name : Str} (text : Str) {d : Disk} (hn : Named dirs) (h0 : name ≠ []) (h1 : '/' ∉ name) (hfree : d (dirs ++ [name]) = none)
    (hdirs : ∀ k ≤ dirs.length, ∀ t, d (dirs.take k) ≠ some (.file t)) :
    (writeToFile (follow dirs ++ name) text d).2 = true ∧ (writeToFile (follow dirs ++ name) text d).1 (dirs ++ [name]) = some (.file text) ∧
      ∀ p, p ≠ dirs ++ [name] → (writeToFile (follow dirs ++ name) text d).1 p = d p ∨
        (d p = none ∧ (writeToFile (follow dirs ++ name) text d).1 p = some .dir ∧ ∃ k, k ≤ dirs.length ∧ p = dirs.take k) := by
  obtain ⟨e1, e2, e3⟩ := ensureAll_ok dirs [] d (by simpa using hn) (by simp [isDir]) (by simpa using hdirs)
  have hs : (slashes (follow dirs ++ name)).dropLast = dirs := by rw [slashes_follow _ _ fun n hn' => (hn n hn').2, slashes_of_plain _ h1, List.dropLast_concat]
  rw [show follow [] = [] from rfl] at e1 e2 e3
  simp only [List.nil_append] at e2 e3
  have hfree' : (ensureAll [] dirs d).1 (dirs ++ [name]) = none := by
    rcases e3 (dirs ++ [name]) with h | ⟨-, -, k, hk, h⟩
    · rw [h, hfree]
    · have := congrArg List.length h
      simp at this
      omega
  rw [writeToFile, place_follow_append hn h0 h1, if_neg (by simpa using hfree), hs, Act.andThen, if_pos e1, openWrite,
    if_pos ⟨by simp [isDir, hfree'], by rw [List.dropLast_concat]; exact e2⟩]
  refine ⟨rfl, by simp [put], fun p hp => ?_⟩
  simp only [put, if_neg hp]
  exact e3 p

/-! ### The line with `#include` -/

theorem append_slash : ∀ (w n a b : Str), '/' ∉ w → '/' ∉ n → w ++ '/' :: a = n ++ '/' :: b → w = n
  | [], [], _, _, _, _, _ => rfl
  | [], c :: n, a, b, _, hn, h => by simp at h; exact absurd (List.mem_cons.2 (.inl h.1)) hn
  | c :: w, [], a, b, hw, _, h => by simp at h; exact absurd (List.mem_cons.2 (.inl h.1.symm)) hw
  | c :: w, c' :: n, a, b, hw, hn, h => by
    simp only [List.cons_append, List.cons.injEq] at h
    rw [h.1, append_slash w n a b (fun e => hw (by simp [e])) (fun e => hn (by simp [e])) h.2]

theorem remove_first (s : Str) : remove "include/".toList 0 ("include/".toList ++ s) = remove "include/".toList 0 s := by
  change remove "include/".toList 0 ('i' :: 'n' :: 'c' :: 'l' :: 'u' :: 'd' :: 'e' :: '/' :: s) = _
  rw [remove, if_pos (by rw [List.isPrefixOf_iff_prefix]; exact ⟨s, rfl⟩)]
  rfl

theorem remove_name : ∀ (n rest : Str), '/' ∉ n → ¬ "include".toList <:+ n → remove "include/".toList 0 (n ++ '/' :: rest) = n ++ '/' :: remove "include/".toList 0 rest
  | [], rest, _, _ => by
    rw [List.nil_append, remove, if_neg]
    · rfl
    · rw [List.isPrefixOf_iff_prefix]
      rintro ⟨t, h⟩
      have h' : 'i' :: ("nclude/".toList ++ t) = '/' :: rest := h
      exact absurd (List.cons.inj h').1 (by decide)
  | c :: n, rest, h1, h2 => by
    rw [List.cons_append, remove, if_neg, remove_name n rest (fun e => h1 (by simp [e])) fun e => h2 (e.trans (List.suffix_cons _ _)), List.cons_append]
    rw [List.isPrefixOf_iff_prefix]
    rintro ⟨t, h⟩
    have : "include".toList ++ '/' :: t = (c :: n) ++ '/' :: rest := h
    have := append_slash _ _ _ _ (by decide) h1 this
    exact h2 (this ▸ List.suffix_refl _)

theorem remove_plain : ∀ n : Str, '/' ∉ n → remove "include/".toList 0 n = n
  | [], _ => rfl
  | c :: n, h => by
    rw [remove, if_neg, remove_plain n fun e => h (by simp [e])]
    rw [List.isPrefixOf_iff_prefix]
    rintro ⟨t, e⟩
    apply h
    rw [← e]
    simp

theorem remove_follow : ∀ (l : List Str) (s : Str), (∀ n ∈ l, '/' ∉ n ∧ ¬ "include".toList <:+ n) → '/' ∉ s → remove "include/".toList 0 (follow l ++ s) = follow l ++ s
  | [], s, _, hs => by simpa [follow] using remove_plain s hs
  | n :: r, s, h, hs => by
    rw [follow_cons, List.append_assoc, List.cons_append, remove_name n _ (h n (by simp)).1 (h n (by simp)).2, remove_follow r s (fun k hk => h k (by simp [hk])) hs]

/-! ### Names of the files -/

theorem split_last {names : List Str} (h : names ≠ []) : ∃ l last, names = l ++ [last] := ⟨names.dropLast, names.getLast h, (List.dropLast_append_getLast h).symm⟩

theorem headerFile_eq {l : List Str} {last : Str} (h : ∀ n ∈ l ++ [last], ':' ∉ n) : headerFile (qualified (l ++ [last])) = follow ("include".toList :: l) ++ (last ++ ".hpp".toList) := by
  rw [headerFile, parts_qualified _ (by simp) h, dropLast_follow, follow_include, List.append_assoc]

theorem sourceFile_eq {first : Str} {l : List Str} {last : Str} (h : ∀ n ∈ first :: l ++ [last], ':' ∉ n) :
    sourceFile (qualified (first :: l ++ [last])) = follow ("src".toList :: l) ++ (last ++ ".cpp".toList) := by
  rw [sourceFile, parts_qualified _ (by simp) h, List.cons_append, List.tail_cons, dropLast_follow, follow_src, List.append_assoc]

end Verif.NewClass
