import Verif.PyConfigLemmas

/-!
C95: a run started from Python on a configuration file uses what the file says.

The specification is `Verif/PyConfigSpec.lean`: `content` is what an element says, `Good` describes the files the dictionaries of the driver can hold.
-/

namespace Verif.Props.PyConfig
open Verif.PyConfig

/-- Reading one element and writing it again: for every element the dictionaries can hold, reading succeeds, and the element written for the result says the same. -/
theorem C95_round_trip (canon : Text → Text) (hc : Canon canon) (tag : Text) (cs : List Node) (h : Good (.elem tag cs)) :
    ∃ v, valueOf (.elem tag cs) = .ok v ∧ content canon (write tag v) = content canon (.elem tag cs) := by
  obtain ⟨t, ds, v, h1, h2, h3⟩ := good_ok hc.strip h
  obtain ⟨rfl, rfl⟩ := Node.elem.inj h1
  exact ⟨v, h2, h3⟩

/-- A file as the examples of the program have them: spread over lines, with one parameter and two functionals. -/
def exFvm : List Node :=
  [.text "\n ".toList, leaf nameTag "\n kh\n ".toList,
    .elem gridTag [leaf lowerCornerTag "0 0 0".toList, .text "\n ".toList, leaf upperCornerTag "1 1 0".toList, leaf dimensionTag "256 256 1".toList],
    leaf endTimeTag " 2 ".toList,
    .elem initialDataTag [leaf pythonTag "kh.py".toList,
      .elem parametersTag [.elem "parameter".toList [leaf nameTag "a".toList, .elem "values".toList [leaf "value".toList "0".toList]]]],
    .elem "functionals".toList [.elem "functional".toList [leaf nameTag "bv".toList], .text " ".toList, .elem "functional".toList [leaf nameTag "identity".toList]]]

/-- Conversion that accepts every word and prints it as it was. -/
def exConv (w : Text) : Option Text := if w.isEmpty then none else some w

theorem exLeaf (tag s : String) (h : strip s.toList ≠ []) : Good (leaf tag.toList s.toList) := .leaf h

theorem exGood : Good (.elem fvmTag exFvm) := by
  have hval : Good (.elem "values".toList [leaf "value".toList "0".toList]) := .record (by decide) (by
    intro c hc _; rw [List.mem_singleton] at hc; subst hc; exact .leaf (by decide)) (by decide)
  have hpar : Good (.elem "parameter".toList [leaf nameTag "a".toList, .elem "values".toList [leaf "value".toList "0".toList]]) := .record (by decide) (by
    intro c hc _
    simp only [List.mem_cons, List.not_mem_nil, or_false] at hc
    rcases hc with rfl | rfl
    · exact .leaf (by decide)
    · exact hval) (by decide)
  have hpars : Good (.elem parametersTag [.elem "parameter".toList [leaf nameTag "a".toList, .elem "values".toList [leaf "value".toList "0".toList]]]) := .record (by decide) (by
    intro c hc _; rw [List.mem_singleton] at hc; subst hc; exact hpar) (by decide)
  have hfun : ∀ s : String, strip s.toList ≠ [] → Good (.elem "functional".toList [leaf nameTag s.toList]) := fun s hs => .record (by simp [Node.isElem]) (by
    intro c hc _; rw [List.mem_singleton] at hc; subst hc; exact .leaf hs) (by simp [tags])
  refine .record (by decide) ?_ (by decide)
  intro c hc he
  simp only [exFvm, List.mem_cons, List.not_mem_nil, or_false] at hc
  rcases hc with rfl | rfl | rfl | rfl | rfl | rfl
  · cases he
  · exact .leaf (by decide)
  · refine .record (by decide) ?_ (by decide)
    intro c hc he
    simp only [List.mem_cons, List.not_mem_nil, or_false] at hc
    rcases hc with rfl | rfl | rfl | rfl
    · exact .leaf (by decide)
    · cases he
    · exact .leaf (by decide)
    · exact .leaf (by decide)
  · exact .leaf (by decide)
  · refine .record (by decide) ?_ (by decide)
    intro c hc he
    simp only [List.mem_cons, List.not_mem_nil, or_false] at hc
    rcases hc with rfl | rfl
    · exact .leaf (by decide)
    · exact hpars
  · refine .list (by decide) ?_ (by decide) (by decide) ?_
    · intro c hc he
      simp only [List.mem_cons, List.not_mem_nil, or_false] at hc
      rcases hc with rfl | rfl | rfl
      · exact hfun _ (by decide)
      · cases he
      · exact hfun _ (by decide)
    · intro t ds h
      simp only [List.mem_cons, List.not_mem_nil, or_false, Node.elem.injEq, reduceCtorEq, false_or] at h
      rcases h with ⟨-, rfl⟩ | ⟨-, rfl⟩ <;> exact ⟨by simp, by decide⟩

example : Good (.elem fvmTag exFvm) := exGood

theorem exCanon : Canon strip := ⟨strip_strip, fun _ => Iff.rfl⟩

example : Canon strip := exCanon

/-- Reading a file and running it unchanged: for every file whose section `fvm` (and `uq`, if present) the dictionaries can hold, that has the entries the driver uses, and that has parameters in the section `uq`,
reading succeeds and the file written for the run says in both sections what the file that was read says. Numbers in the grid and the end time may be printed differently, and the file
of the initial data may be named after the run: `canon` is any map that identifies these texts.

Missing: files with comments, with repeated elements of other names or inside the sections, with empty elements of lists, and without parameters in the section `uq`: for these reading fails or something is lost (below). -/
theorem C95_run_partial (canon : Text → Text) (hc : Canon canon) (float int : Text → Option Text) (config f : List Node) (hf : firstNamed fvmTag config = some (.elem fvmTag f))
    (hg : Good (.elem fvmTag f)) (entries : Entries float int canon f) (u : List Node)
    (hu : (firstNamed uqTag config = some (.elem uqTag u) ∧ Good (.elem uqTag u) ∧ HasParameters u) ∨ (firstNamed uqTag config = none ∧ u = [])) :
    ∃ o out, construct float int (some config) none = .ok o ∧ writtenFile o = .ok out ∧
      elements canon out = [content canon (.elem fvmTag f), content canon (.elem uqTag u)] := by
  have huq : ∃ d, readUq config = .ok d ∧ content canon (write uqTag (.dict d)) = content canon (.elem uqTag u) := by
    rcases hu with ⟨h1, h2, h3⟩ | ⟨h1, rfl⟩
    · exact readUq_ok hc h1 h2 h3
    · refine ⟨[], by simp [readUq, h1], ?_⟩
      rw [write, writeDict]
  obtain ⟨uq, hq, hq'⟩ := huq
  obtain ⟨d, d', out, h1, h2, h3, h4⟩ := adjust_ok hc hg entries uq
  refine ⟨⟨d', uq, d'⟩, _, ?_, h3, ?_⟩
  · simp only [construct, readXml, hf, hq, Res.ok_bind, h1, h2]
    rfl
  · rw [elements_cons_write, elements_cons_write, h4, hq', elements]

/-- The example file has all the entries. -/
def exEntries : Entries exConv exConv strip exFvm where
  g := _
  grid := .tail _ (.tail _ (.head _))
  lower := _
  lower_mem := .head _
  lower_three := ⟨['0'], ['0'], ['0'], ['0'], ['0'], ['0'], by decide⟩
  upper := _
  upper_mem := .tail _ (.tail _ (.head _))
  upper_three := ⟨['1'], ['1'], ['0'], ['1'], ['1'], ['0'], by decide⟩
  dim := _
  dim_mem := .tail _ (.tail _ (.tail _ (.head _)))
  dim_three := ⟨"256".toList, "256".toList, ['1'], "256".toList, "256".toList, ['1'], by decide⟩
  time := _
  time_mem := .tail _ (.tail _ (.tail _ (.head _)))
  time_text := by decide
  time_one := ⟨['2'], ['2'], by decide⟩
  name := _
  name_mem := .tail _ (.head _)
  name_text := by decide
  i := _
  init := .tail _ (.tail _ (.tail _ (.tail _ (.head _))))
  python := _
  python_mem := .head _
  python_text := by decide
  copy := by decide

example : firstNamed fvmTag [.elem fvmTag exFvm] = some (.elem fvmTag exFvm) ∧ firstNamed uqTag [.elem fvmTag exFvm] = none := ⟨rfl, rfl⟩

/-- A section `uq` with parameters. -/
example : HasParameters [.elem parametersTag [.elem "parameter".toList [leaf nameTag "a".toList]]] := ⟨_, _, _, .head _, .head _⟩

/-! ### Files that are not used as they are -/

/-- A comment anywhere among the children of an element makes reading fail. -/
theorem C95_comments (tag : Text) (before after : List Node) (s : Text) : valueOf (.elem tag (before ++ .comment s :: after)) = .error .thrown := by
  rw [valueOf]
  have : (before ++ .comment s :: after).any Node.isComment = true := by simp [Node.isComment]
  rw [this]; rfl

/-- A section `uq` whose parameters are empty or missing makes reading fail, although the driver means to take the parameters of the initial data: they have not been read at this point. -/
theorem C95_uq_without_parameters (float int : Text → Option Text) (config u : List Node) (hu : firstNamed uqTag config = some (.elem uqTag u))
    (d : Dict) (hd : readValues u [] = .ok d) (h : d.get parametersTag = .error .thrown ∨ ∃ v, d.get parametersTag = .ok v ∧ v.isEmpty) :
    construct float int (some config) none = .error .thrown := by
  have : readUq config = .error .thrown := by
    simp only [readUq, hu, hd, Res.ok_bind]
    rcases h with h | ⟨v, h, hv⟩
    · rw [h]; rfl
    · rw [h, Res.ok_bind, if_pos hv]; rfl
  simp only [construct, readXml]
  split
  · rw [this]; rfl
  · rfl

/-- Parameters of the initial data are there, but an empty section of the uncertainty's parameters is not filled with them. -/
example : readValues [.elem parametersTag [.text " ".toList]] [] = .ok [(parametersTag, .dict [])] ∧ Val.isEmpty (.dict []) := by
  refine ⟨?_, rfl⟩
  simp [readValues, valueOf, Node.isComment, Node.isText, Node.isBlank, strip, tags, Dict.set, pure, Except.pure]

/-- Repeated elements are renamed: an element with two texts of any name is written with the name of the element around without its last letter. -/
theorem C95_renames (canon : Text → Text) (tag t a b : Text) (ha : strip a ≠ []) (hb : strip b ≠ []) (ht : t ≠ tag.dropLast) :
    ∃ v, valueOf (.elem tag [leaf t a, leaf t b]) = .ok v ∧ content canon (write tag v) = .elem tag [leaf tag.dropLast (canon a), leaf tag.dropLast (canon b)] ∧
      content canon (write tag v) ≠ content canon (.elem tag [leaf t a, leaf t b]) := by
  have h1 : valueOf (.elem tag [leaf t a, leaf t b]) = .ok (.list [.str a, .str b]) := by
    rw [valueOf]
    simp [Node.isComment, Node.isText, tags, firstText, itemsOf, Except.bind, pure, Except.pure, bind]
  have h2 : content canon (write tag (.list [.str a, .str b])) = .elem tag [leaf tag.dropLast (canon a), leaf tag.dropLast (canon b)] := by
    rw [write, content_elements (writeItems_elems _ _), writeItems, writeItems, writeItems, elements_cons_write, elements_cons_write, elements, write, write, content_text ha, content_text hb]
  refine ⟨_, h1, h2, ?_⟩
  rw [h2, content_elements (by simp [Node.isElem])]
  simp only [elements, content_text ha, content_text hb]
  intro hh
  have := (List.cons.inj (Node.elem.inj hh).2).1
  exact ht (Node.elem.inj this).1.symm

example : "functional".toList ≠ "writers".toList.dropLast ∧ strip "1".toList ≠ [] := by decide

/-- Of elements with the same name in a section only the last one is kept (the program itself uses the first one of them). -/
theorem C95_repeated (k a b : Text) (ha : strip a ≠ []) (hb : strip b ≠ []) : readValues [leaf k a, leaf k b] [] = .ok [(k, .str (strip b))] := by
  rw [readValues, valueOf_leaf ha, Res.ok_bind, readValues, valueOf_leaf hb, Res.ok_bind, readValues]
  simp [Dict.set]

example : strip " netcdf ".toList ≠ [] ∧ strip "hdf5".toList ≠ [] := by decide

/-- Among repeated elements an empty one makes reading fail. -/
theorem C95_empty_item (tag t : Text) (cs : List Node) (h : ∀ c ∈ cs, c.isBlank ∨ c.isElem) (hn : t ∈ tags cs) : valueOf (.elem tag (.elem t [] :: cs)) = .error .thrown := by
  have h' : ∀ c ∈ Node.elem t [] :: cs, c.isBlank ∨ c.isElem := by
    intro c hc
    rcases List.mem_cons.1 hc with rfl | hc
    · exact .inr rfl
    · exact h c hc
  rw [valueOf, (no_text h').1, (no_text h').2, itemsOf_elem]
  simp [tags, hn, itemVal, firstText, Except.bind, bind]

example : (∀ c ∈ [leaf "stat".toList "a".toList], c.isBlank ∨ c.isElem) ∧ "stat".toList ∈ tags [leaf "stat".toList "a".toList] := by decide

/-- A configuration given as a dictionary is never run: the file to run is made of other, empty settings, and making it fails. -/
theorem C95_configuration_not_run (float int : Text → Option Text) (configuration : Dict) :
    ∃ o, construct float int none (some configuration) = .ok o ∧ o.fvm = configuration ∧ writtenFile o = .error .thrown := by
  refine ⟨_, rfl, rfl, ?_⟩
  unfold writtenFile
  cases h : Dict.getText configuration nameTag with
  | ok s => rfl
  | error e =>
    refine congrArg Except.error ?_
    unfold Dict.getText at h
    cases hg : configuration.get nameTag with
    | ok v => rw [hg] at h; cases v <;> cases h <;> rfl
    | error e' =>
      have : ∀ d : Dict, ∀ k e', d.get k = .error e' → e' = .thrown := by
        intro d
        induction d with
        | nil => intro k e' h; cases h; rfl
        | cons p d ih =>
          intro k e' h
          rw [Dict.get] at h
          split_ifs at h
          exact ih k e' h
      obtain rfl := this _ _ _ hg
      rw [hg] at h
      cases h
      rfl

end Verif.Props.PyConfig
