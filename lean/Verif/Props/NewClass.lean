import Verif.NewClassLemmas

/-! C114: the script that adds a class to a library. -/

namespace Verif.Props.NewClass
open Verif.Params (Str)
open Verif.NewClass

/-- A name as C++ has them, as far as it matters here: not empty, without colons, slashes and braces. -/
def Identifier (n : Str) : Prop := n ≠ [] ∧ ∀ c ∈ n, c ≠ ':' ∧ c ≠ '/' ∧ c ≠ '{' ∧ c ≠ '}'

/-- Names with something between them. -/
def joined (between : Str) : List Str → Str
  | [] => []
  | [n] => n
  | n :: m :: r => n ++ between ++ joined between (m :: r)

/-- The argument of the script asks for the class `name` in the namespaces `path` of the library: with the name of the library in front, or without it. -/
def AsksFor (lib : Str) (path : List Str) (name arg : Str) : Prop :=
  arg = joined "::".toList (lib :: path ++ [name]) ∨ (arg = joined "::".toList (path ++ [name]) ∧ ¬ lib <+: arg)

/-- Braces are properly nested. -/
inductive Nested : Str → Prop where
  | text (s : Str) (h : ∀ c ∈ s, c ≠ '{' ∧ c ≠ '}') : Nested s
  | append (a b : Str) : Nested a → Nested b → Nested (a ++ b)
  | braces (s : Str) : Nested s → Nested ('{' :: s ++ ['}'])

theorem joined_qualified : ∀ l : List Str, joined "::".toList l = qualified l
  | [] => rfl
  | [_] => rfl
  | n :: m :: r => by rw [joined, qualified, joined_qualified (m :: r), List.append_assoc]; rfl

theorem Identifier.colon {n : Str} (h : Identifier n) : ':' ∉ n := fun e => (h.2 _ e).1 rfl
theorem Identifier.slash {n : Str} (h : Identifier n) : '/' ∉ n := fun e => (h.2 _ e).2.1 rfl
theorem Identifier.text {n : Str} (h : Identifier n) : Nested n := .text _ fun c hc => (h.2 c hc).2.2

theorem className_eq {lib : Str} {path : List Str} {name arg : Str} (h : AsksFor lib path name arg) : className lib arg = qualified (lib :: path ++ [name]) := by
  rcases h with rfl | ⟨rfl, h⟩
  · have : lib <+: joined "::".toList (lib :: path ++ [name]) := by
      cases path
      · simp only [List.cons_append, List.nil_append, joined]; rw [List.append_assoc]; exact List.prefix_append _ _
      · simp only [List.cons_append, joined]; rw [List.append_assoc]; exact List.prefix_append _ _
    rw [className, if_pos (List.isPrefixOf_iff_prefix.2 this), joined_qualified]
  · rw [className, if_neg (by rwa [List.isPrefixOf_iff_prefix]), joined_qualified]
    cases path
    · simp only [List.nil_append, List.cons_append, qualified]; rw [List.append_assoc]; rfl
    · simp only [List.cons_append, qualified]; rw [List.append_assoc]; rfl

theorem identifiers {lib : Str} {path : List Str} {name : Str} (hlib : Identifier lib) (hpath : ∀ n ∈ path, Identifier n) (hname : Identifier name) :
    ∀ n ∈ lib :: path ++ [name], Identifier n := by
  intro n hn
  simp only [List.cons_append, List.mem_cons, List.mem_append, List.not_mem_nil, or_false] at hn
  rcases hn with rfl | h | rfl
  · exact hlib
  · exact hpath n h
  · exact hname

/-- C114. Whatever the argument of the script is and whatever is on the disk: what was there is still there afterwards, and no file is overwritten, also if the script ends with an exception. -/
theorem C114_nothing_lost (lib arg : Str) (d : Disk) (p : List Str) (n : Node) (h : d p = some n) : (makeClass lib arg d).1 p = some n :=
  Keeps.andThen (writeToFile_keeps _ _) (writeToFile_keeps _ _) d p n h

/-- C114. If the names are identifiers, the two files are not there and none of the directories they belong to is a file, then the script ends without an exception; the header of the class
`lib::path::name` is `include/lib/path/name.hpp` and its source `src/path/name.cpp`; and nothing else is new but directories. -/
theorem C114_creates (lib : Str) (path : List Str) (name arg : Str) (hlib : Identifier lib) (hpath : ∀ n ∈ path, Identifier n) (hname : Identifier name) (harg : AsksFor lib path name arg)
    (d : Disk) (hfree1 : d ("include".toList :: lib :: path ++ [name ++ ".hpp".toList]) = none) (hfree2 : d ("src".toList :: path ++ [name ++ ".cpp".toList]) = none)
    (hdirs : ∀ q, (q <+: "include".toList :: lib :: path ∨ q <+: "src".toList :: path) → ∀ t, d q ≠ some (.file t)) :
    ∃ d' header source, makeClass lib arg d = (d', true) ∧ d' ("include".toList :: lib :: path ++ [name ++ ".hpp".toList]) = some (.file header) ∧
      d' ("src".toList :: path ++ [name ++ ".cpp".toList]) = some (.file source) ∧
      header = headerText (joined "::".toList (lib :: path ++ [name])) ∧ source = sourceText (joined "::".toList (lib :: path ++ [name])) ∧
      ∀ p, p ≠ "include".toList :: lib :: path ++ [name ++ ".hpp".toList] → p ≠ "src".toList :: path ++ [name ++ ".cpp".toList] → d' p = d p ∨ (d p = none ∧ d' p = some .dir) := by
  have hids := identifiers hlib hpath hname
  have hcol : ∀ n ∈ lib :: path ++ [name], ':' ∉ n := fun n hn => (hids n hn).colon
  have hnamed : Named path := fun n hn => ⟨(hpath n hn).1, (hpath n hn).slash⟩
  have hn1 : Named ("include".toList :: lib :: path) := by
    intro n hn
    simp only [List.mem_cons] at hn
    rcases hn with rfl | rfl | hn
    · exact ⟨by decide, by decide⟩
    · exact ⟨hlib.1, hlib.slash⟩
    · exact hnamed n hn
  have hn2 : Named ("src".toList :: path) := by
    intro n hn
    simp only [List.mem_cons] at hn
    rcases hn with rfl | hn
    · exact ⟨by decide, by decide⟩
    · exact hnamed n hn
  have hne : ∀ e : Str, name ++ e ≠ [] := fun e h => hname.1 (List.append_eq_nil_iff.1 h).1
  have hsl : ∀ e : Str, '/' ∉ e → '/' ∉ name ++ e := fun e he h => by
    rcases List.mem_append.1 h with h | h
    · exact hname.slash h
    · exact he h
  have hsrc : ("src".toList : Str) ≠ "include".toList := by decide
  obtain ⟨a1, a2, a3⟩ := writeToFile_ok (headerText (qualified (lib :: path ++ [name]))) (d := d) hn1 (hne ".hpp".toList) (hsl _ (by decide)) hfree1
    (fun k _ t => hdirs _ (.inl (List.take_prefix _ _)) t)
  rw [← headerFile_eq (l := lib :: path) hcol] at a1 a2 a3
  set d1 := writeToFile (headerFile (qualified (lib :: path ++ [name]))) (headerText (qualified (lib :: path ++ [name]))) d with hd1
  -- places below `src` are as before
  have same : ∀ q, d1.1 ("src".toList :: q) = d ("src".toList :: q) := fun q => by
    rcases a3 ("src".toList :: q) (fun h => hsrc (List.cons.inj h).1) with h | ⟨-, -, k, -, h⟩
    · exact h
    · cases k with
      | zero => simp at h
      | succ k => rw [List.take_succ_cons] at h; exact absurd (List.cons.inj h).1 hsrc
  obtain ⟨b1, b2, b3⟩ := writeToFile_ok (sourceText (qualified (lib :: path ++ [name]))) (d := d1.1) hn2 (hne ".cpp".toList) (hsl _ (by decide)) (by rw [List.cons_append, same]; exact hfree2)
    (fun k hk t => by
      cases k with
      | zero =>
        rcases a3 [] (by simp) with h | ⟨-, h, -⟩
        · rw [List.take_zero, h]; exact hdirs [] (.inl (List.nil_prefix)) t
        · rw [List.take_zero, h]; simp
      | succ k => rw [List.take_succ_cons, same]; exact hdirs _ (.inr ⟨path.drop k, by simp⟩) t)
  rw [← sourceFile_eq (first := lib) hcol] at b1 b2 b3
  refine ⟨_, _, _, ?_, ?_, b2, by rw [joined_qualified], by rw [joined_qualified], fun p h1 h2 => ?_⟩
  · rw [makeClass, className_eq harg]
    simp only [Act.andThen, ← hd1, a1, if_true]
    exact Prod.ext rfl b1
  · rw [writeToFile_keeps _ _ _ _ _ a2]
  · rcases b3 p h2 with h | ⟨h, h', -⟩
    · rcases a3 p h1 with g | ⟨g, g', -⟩
      · exact .inl (h.trans g)
      · exact .inr ⟨g, h.trans g'⟩
    · rcases a3 p h1 with g | ⟨-, g, -⟩
      · exact .inr ⟨g ▸ h, h'⟩
      · rw [g] at h; cases h

theorem nested_texts (l : List Str) (hl : ∀ n ∈ l, Identifier n) : (∀ s, Nested s → Nested (openings l ++ s ++ l.reverse.flatMap fun n => "} // namespace ".toList ++ n ++ ['\n'])) ∧
    ∀ s, Nested s → Nested (openings l ++ s ++ l.flatMap fun _ => "}\n".toList) := by
  induction l with
  | nil => exact ⟨fun s hs => by simpa [openings] using hs, fun s hs => by simpa [openings] using hs⟩
  | cons n l ih =>
    obtain ⟨i1, i2⟩ := ih fun k hk => hl k (by simp [hk])
    have hn := hl n (by simp)
    have wrap : ∀ s tail : Str, Nested s → Nested tail → Nested ("namespace ".toList ++ n ++ " ".toList ++ ('{' :: (" ".toList ++ s) ++ ['}']) ++ tail) := fun s tail h1 h2 =>
      .append _ _ (.append _ _ (.append _ _ (.append _ _ (.text _ (by decide)) hn.text) (.text _ (by decide))) (.braces _ (.append _ _ (.text _ (by decide)) h1))) h2
    have e : ∀ x : Str, openings (n :: l) ++ x = "namespace ".toList ++ n ++ " ".toList ++ ('{' :: (" ".toList ++ (openings l ++ x))) := fun x => by
      have : openings (n :: l) = "namespace ".toList ++ n ++ " { ".toList ++ openings l := by rw [openings, List.flatMap_cons]; rfl
      rw [this, show " { ".toList = " ".toList ++ ('{' :: " ".toList) from rfl]
      simp only [List.append_assoc, List.cons_append]
    constructor
    · intro s hs
      have h := wrap _ (" // namespace ".toList ++ n ++ ['\n']) (i1 s hs) (.append _ _ (.append _ _ (.text _ (by decide)) hn.text) (.text _ (by decide)))
      convert h using 1
      rw [List.append_assoc, e, List.reverse_cons, List.flatMap_append, List.flatMap_singleton, show "} // namespace ".toList = '}' :: " // namespace ".toList from rfl]
      simp only [List.append_assoc, List.cons_append, List.nil_append]
    · intro s hs
      have h := wrap _ ['\n'] (i2 s hs) (.text _ (by decide))
      convert h using 1
      have c : ∀ k : List Str, ((n :: k).flatMap fun _ => "}\n".toList) = (k.flatMap fun _ => "}\n".toList) ++ "}\n".toList := fun k => by
        induction k with
        | nil => rfl
        | cons m k ih => rw [List.flatMap_cons] at ih ⊢; rw [List.flatMap_cons, List.append_assoc, ← ih]
      rw [List.append_assoc, e, c, show "}\n".toList = '}' :: ['\n'] from rfl]
      simp only [List.append_assoc, List.cons_append, List.nil_append]

theorem nested_header {l : List Str} {name s0 s1 s2 s3 s4 s5 a b : Str} (hl : ∀ n ∈ l, Identifier n) (hname : Identifier name) (t0 : Nested s0) (t1 : Nested s1) (t2 : Nested s2)
    (t3 : Nested s3) (t4 : Nested s4) (t5 : Nested s5) (ha : a = s3 ++ ['{']) (hb : b = s4 ++ '}' :: s5) :
    Nested (s0 ++ openings l ++ s1 ++ s2 ++ name ++ a ++ b ++ l.reverse.flatMap fun n => "} // namespace ".toList ++ n ++ ['\n']) := by
  subst ha hb
  have hm : Nested (s1 ++ s2 ++ name ++ s3 ++ ('{' :: s4 ++ ['}']) ++ s5) :=
    .append _ _ (.append _ _ (.append _ _ (.append _ _ (.append _ _ t1 t2) hname.text) t3) (.braces _ t4)) t5
  have := Nested.append s0 _ t0 ((nested_texts l hl).1 _ hm)
  simpa only [List.append_assoc, List.cons_append, List.nil_append] using this

theorem nested_source {l : List Str} {s0 s1 s2 s3 : Str} (hl : ∀ n ∈ l, Identifier n) (t0 : Nested s0) (t1 : Nested s1) (t2 : Nested s2) (t3 : Nested s3) :
    Nested (s0 ++ s1 ++ s2 ++ s3 ++ openings l ++ s3 ++ l.flatMap fun _ => "}\n".toList) := by
  have := Nested.append _ _ (.append _ _ (.append _ _ (.append _ _ t0 t1) t2) t3) ((nested_texts l hl).2 _ t3)
  simpa only [List.append_assoc] using this

theorem prefix_source {s0 s1 s2 s3 a f name x y : Str} (ha : a = s1 ++ s2 ++ ['\n']) (h3 : s3 = ['\n', '\n']) : s0 ++ (f ++ name) ++ a <+: s0 ++ (f ++ (name ++ s1)) ++ s2 ++ s3 ++ x ++ s3 ++ y := by
  subst ha h3
  refine ⟨['\n'] ++ (x ++ (['\n', '\n'] ++ y)), ?_⟩
  simp only [List.append_assoc, List.cons_append, List.nil_append]

theorem parts_joined {lib : Str} {path : List Str} {name : Str} (hlib : Identifier lib) (hpath : ∀ n ∈ path, Identifier n) (hname : Identifier name) :
    parts (joined "::".toList (lib :: path ++ [name])) = lib :: path ++ [name] := by
  rw [joined_qualified, parts_qualified _ (by simp) fun n hn => (identifiers hlib hpath hname n hn).colon]

/-- C114. The braces of both files are properly nested: every namespace is closed, the inner ones first, after the class. -/
theorem C114_nested (lib : Str) (path : List Str) (name : Str) (hlib : Identifier lib) (hpath : ∀ n ∈ path, Identifier n) (hname : Identifier name) :
    Nested (headerText (joined "::".toList (lib :: path ++ [name]))) ∧ Nested (sourceText (joined "::".toList (lib :: path ++ [name]))) := by
  have hids := identifiers hlib hpath hname
  have hdl : (lib :: path ++ [name]).dropLast = lib :: path := List.dropLast_concat
  have hl' : ∀ n ∈ lib :: path, Identifier n := fun n hn => hids n (by simp at hn ⊢; tauto)
  constructor
  · unfold headerText
    rw [parts_joined hlib hpath hname, hdl, show (lib :: path ++ [name]).getLastD [] = name by rw [List.getLastD_eq_getLast?, List.getLast?_concat]; rfl]
    exact nested_header (s3 := " ".toList) (s4 := "\n    public:\n\n    ".toList) (s5 := ";\n".toList) hl' hname (.text _ (by decide +kernel)) (.text _ (by decide +kernel))
      (.text _ (by decide +kernel)) (.text _ (by decide +kernel)) (.text _ (by decide +kernel)) (.text _ (by decide +kernel)) (by decide +kernel) (by decide +kernel)
  · unfold sourceText
    rw [parts_joined hlib hpath hname, hdl]
    have hrem : ∀ (k : Nat) (s : Str), (∀ c ∈ s, c ≠ '{' ∧ c ≠ '}') → ∀ c ∈ remove "include/".toList k s, c ≠ '{' ∧ c ≠ '}' := by
      intro k s
      induction s generalizing k with
      | nil => intro _ c hc; cases k <;> simp [remove] at hc
      | cons x r ih =>
        intro h c hc
        have hr : ∀ c ∈ r, c ≠ '{' ∧ c ≠ '}' := fun c hc => h c (by simp [hc])
        cases k with
        | succ k => rw [remove] at hc; exact ih k hr c hc
        | zero =>
          rw [remove] at hc
          split_ifs at hc
          · exact ih _ hr c hc
          · rcases List.mem_cons.1 hc with rfl | hc
            · exact h c (by simp)
            · exact ih 0 hr c hc
    have hfile : ∀ c ∈ headerFile (joined "::".toList (lib :: path ++ [name])), c ≠ '{' ∧ c ≠ '}' := by
      have hf : ∀ l : List Str, (∀ n ∈ l, Identifier n) → ∀ c ∈ follow l, c ≠ '{' ∧ c ≠ '}' := by
        intro l hl c hc
        rw [follow, List.mem_flatMap] at hc
        obtain ⟨n, hn, hc⟩ := hc
        rcases List.mem_append.1 hc with hc | hc
        · exact ((hl n hn).2 c hc).2.2
        · rw [List.mem_singleton] at hc; subst hc; decide
      rw [joined_qualified, headerFile_eq (l := lib :: path) fun n hn => (hids n hn).colon]
      intro c hc
      rw [follow_cons] at hc
      simp only [List.mem_append, List.mem_cons] at hc
      rcases hc with (hc | rfl | hc) | hc | hc
      · exact (show ∀ c ∈ "include".toList, c ≠ '{' ∧ c ≠ '}' by decide) c hc
      · decide
      · exact hf (lib :: path) (fun n hn => hids n (by simp at hn ⊢; tauto)) c hc
      · exact (hname.2 c hc).2.2
      · exact (show ∀ c ∈ ".hpp".toList, c ≠ '{' ∧ c ≠ '}' by decide) c hc
    exact nested_source hl' (.text _ (by decide +kernel)) (.text _ (hrem 0 _ hfile)) (.text _ (by decide +kernel)) (.text _ (by decide +kernel))

/-- A text inside namespaces, each closed with a comment that names it. -/
def wrapped (body : Str) : List Str → Str
  | [] => body
  | n :: r => "namespace ".toList ++ n ++ " { ".toList ++ wrapped body r ++ "} // namespace ".toList ++ n ++ ['\n']

/-- C114. The header is the class inside its namespaces; the comment at the end of each of them names it. -/
theorem C114_header_text (lib : Str) (path : List Str) (name : Str) (hlib : Identifier lib) (hpath : ∀ n ∈ path, Identifier n) (hname : Identifier name) :
    headerText (joined "::".toList (lib :: path ++ [name])) =
      "#pragma once\n\n".toList ++ wrapped ("\n\n".toList ++ "    class ".toList ++ name ++ " {".toList ++ "\n    public:\n\n    };\n".toList) (lib :: path) := by
  have key : ∀ (body : Str) (l : List Str), wrapped body l = openings l ++ body ++ l.reverse.flatMap fun n => "} // namespace ".toList ++ n ++ ['\n'] := by
    intro body l
    induction l with
    | nil =>
      show body = [] ++ body ++ []
      rw [List.nil_append, List.append_nil]
    | cons n l ih =>
      have unfolded : wrapped body (n :: l) = "namespace ".toList ++ n ++ " { ".toList ++ wrapped body l ++ "} // namespace ".toList ++ n ++ ['\n'] := rfl
      have : openings (n :: l) = "namespace ".toList ++ n ++ " { ".toList ++ openings l := by rw [openings, List.flatMap_cons]; rfl
      rw [unfolded, ih, this, List.reverse_cons, List.flatMap_append, List.flatMap_singleton]
      simp only [List.append_assoc]
  rw [key]
  unfold headerText
  rw [parts_joined hlib hpath hname, show (lib :: path ++ [name]).dropLast = lib :: path from List.dropLast_concat,
    show (lib :: path ++ [name]).getLastD [] = name by rw [List.getLastD_eq_getLast?, List.getLast?_concat]; rfl]
  simp only [List.append_assoc]

/-- The header of `alsfvm::Foo`. -/
example : headerText "alsfvm::Foo".toList = "#pragma once\n\nnamespace alsfvm { \n\n    class Foo {\n    public:\n\n    };\n} // namespace alsfvm\n".toList := by
  refine (C114_header_text "alsfvm".toList [] "Foo".toList ⟨by decide, by decide⟩ (by simp) ⟨by decide, by decide⟩).trans ?_
  decide +kernel

/-- C114, partial. The source begins with the line that includes its header by its place below `include`. Missing: namespaces whose names end in `include` (false, see
`C114_include_lost`). -/
theorem C114_includes_header_partial (lib : Str) (path : List Str) (name : Str) (hlib : Identifier lib) (hpath : ∀ n ∈ path, Identifier n) (hname : Identifier name)
    (hinc : ∀ n ∈ lib :: path, ¬ "include".toList <:+ n) :
    "#include \"".toList ++ joined ['/'] (lib :: path ++ [name]) ++ ".hpp\"\n".toList <+: sourceText (joined "::".toList (lib :: path ++ [name])) := by
  have hids := identifiers hlib hpath hname
  have hj : ∀ l : List Str, joined ['/'] (l ++ [name]) = follow l ++ name := by
    intro l
    induction l with
    | nil => rfl
    | cons n r ih =>
      rw [follow_cons, List.append_assoc, List.cons_append, List.cons_append, ← ih]
      cases r <;> simp [joined]
  have hfile : remove "include/".toList 0 (headerFile (joined "::".toList (lib :: path ++ [name]))) = follow (lib :: path) ++ (name ++ ".hpp".toList) := by
    rw [joined_qualified, headerFile_eq (l := lib :: path) fun n hn => (hids n hn).colon, ← follow_include, List.append_assoc, remove_first]
    refine remove_follow _ _ (fun n hn => ⟨(hids n (by simp at hn ⊢; tauto)).slash, hinc n hn⟩) fun h => ?_
    rcases List.mem_append.1 h with h | h
    · exact hname.slash h
    · exact absurd h (by decide)
  unfold sourceText
  rw [hfile, hj]
  exact prefix_source (by decide +kernel) (by decide +kernel)

/-- C114. Different classes of a library have different headers and different sources. -/
theorem C114_distinct (path path' : List Str) (name name' : Str) (ext : Str) (first : List Str) (h : (path, name) ≠ (path', name')) :
    first ++ path ++ [name ++ ext] ≠ first ++ path' ++ [name' ++ ext] := by
  intro e
  obtain ⟨e1, e2⟩ := List.append_inj' e rfl
  rw [List.append_cancel_left_eq] at e1
  rw [List.cons.injEq, List.append_cancel_right_eq] at e2
  exact h (Prod.ext e1 e2.1)

/-! ### Where it goes wrong -/

/-- The source of a class in a namespace called `include` includes a header that is not the one that was written: all occurrences of `include/` are taken out of the name of the file. -/
theorem C114_include_lost :
    place (headerFile "alsfvm::include::Foo".toList) = ["include".toList, "alsfvm".toList, "include".toList, "Foo.hpp".toList] ∧
      "#include \"alsfvm/Foo.hpp\"\n".toList <+: sourceText "alsfvm::include::Foo".toList := by
  refine ⟨by decide +kernel, ?_⟩
  rw [← List.isPrefixOf_iff_prefix]
  decide +kernel

/-- A disk with one file. -/
def only (p : List Str) (text : Str) : Disk := fun q =>
  if q = p then some (.file text) else if q ≠ [] ∧ q.isPrefixOf p then some .dir else none

/-- The script is not all or nothing: if the source is there but the header is not, it ends with an exception and leaves a new header behind. -/
theorem C114_half_done : (makeClass "alsfvm".toList "Foo".toList (only ["src".toList, "Foo.cpp".toList] [])).2 = false ∧
    (makeClass "alsfvm".toList "Foo".toList (only ["src".toList, "Foo.cpp".toList] [])).1 ["include".toList, "alsfvm".toList, "Foo.hpp".toList] =
      some (.file (headerText "alsfvm::Foo".toList)) := by
  constructor <;> decide +kernel

/-- A class whose name begins with that of the library is not put into the library: its source is the file `src.cpp` beside the directory of sources, and two such classes have the same
source file. -/
theorem C114_name_begins_with_library :
    sourceFile (className "alsfvm".toList "alsfvmFoo".toList) = "src.cpp".toList ∧ sourceFile (className "alsfvm".toList "alsfvmBar".toList) = "src.cpp".toList ∧
      headerFile (className "alsfvm".toList "alsfvmFoo".toList) = "include/alsfvmFoo.hpp".toList := by
  refine ⟨?_, ?_, ?_⟩ <;> decide +kernel

/-! ### Examples -/

theorem exIdentifier {n : Str} (h0 : n ≠ []) (h : ∀ c ∈ n, c ≠ ':' ∧ c ≠ '/' ∧ c ≠ '{' ∧ c ≠ '}') : Identifier n := ⟨h0, h⟩

/-- The hypotheses of `C114_creates` hold for the class `alsfvm::numflux::Roe` and a disk with another class; `C114_nothing_lost` then keeps that one. -/
example : ∃ d', makeClass "alsfvm".toList "numflux::Roe".toList (only ["src".toList, "Foo.cpp".toList] "int".toList) = (d', true) ∧
    (∃ t, d' ["src".toList, "numflux".toList, "Roe.cpp".toList] = some (.file t)) ∧ d' ["src".toList, "Foo.cpp".toList] = some (.file "int".toList) := by
  obtain ⟨d', h, s, h1, -, h3, -⟩ := C114_creates "alsfvm".toList ["numflux".toList] "Roe".toList "numflux::Roe".toList ⟨by decide, by decide⟩
    (by intro n hn; rw [List.mem_singleton] at hn; subst hn; exact ⟨by decide, by decide⟩) ⟨by decide, by decide⟩ (.inr ⟨by decide, by decide⟩)
    (only ["src".toList, "Foo.cpp".toList] "int".toList) (by decide) (by decide) (by
      intro q hq t ht
      have : q = ["src".toList, "Foo.cpp".toList] := by
        by_contra hne
        simp only [only, if_neg hne] at ht
        split_ifs at ht
        cases ht
      subst this
      revert hq
      decide)
  refine ⟨d', h1, ⟨s, h3⟩, ?_⟩
  have := C114_nothing_lost "alsfvm".toList "numflux::Roe".toList (only ["src".toList, "Foo.cpp".toList] "int".toList) ["src".toList, "Foo.cpp".toList] (.file "int".toList) (by decide)
  rw [h1] at this
  exact this

/-- The hypotheses of `C114_includes_header_partial` and `C114_nested` hold for the class `alsfvm::numflux::Roe`. -/
example : "#include \"alsfvm/numflux/Roe.hpp\"\n".toList <+: sourceText "alsfvm::numflux::Roe".toList ∧ Nested (headerText "alsfvm::numflux::Roe".toList) := by
  have h1 : Identifier "alsfvm".toList := ⟨by decide, by decide⟩
  have h2 : ∀ n ∈ ["numflux".toList], Identifier n := by intro n hn; rw [List.mem_singleton] at hn; subst hn; exact ⟨by decide, by decide⟩
  have h3 : Identifier "Roe".toList := ⟨by decide, by decide⟩
  exact ⟨C114_includes_header_partial _ _ _ h1 h2 h3 (by decide), (C114_nested _ _ _ h1 h2 h3).1⟩

/-- `alsfvm::a::B` and `alsfvm::B` have different headers. -/
example : ["include".toList, "alsfvm".toList] ++ ["a".toList] ++ ["B".toList ++ ".hpp".toList] ≠ ["include".toList, "alsfvm".toList] ++ [] ++ ["B".toList ++ ".hpp".toList] :=
  C114_distinct _ _ _ _ _ _ (by decide)

end Verif.Props.NewClass
