import Verif.ReportLemmas
import Mathlib.Data.List.Infix

/-!
C101: the attributes of an output file hold the text of every file the run has read, as the run has used it, and the entries of the configuration.
-/

namespace Verif
namespace Props.Report
open Verif.Report ReportSpec Params

/-- C101: what a program gets when it loads a file is the text that this file had when it was first loaded with success, no matter how the file has changed since; if there was none yet the
load reports an error. -/
theorem C101_loads (full : Str → Str) (before : List Load) (l : Load) (after : List Load) (x : Str) :
    (loadAll full ((before ++ l :: after).map fun l => (l.disk, l.path)) []).1[before.length]? = some (.ok x) ↔ FirstText full (before ++ [l]) l.path x := by
  have hlen : ∀ (a : List (Disk × Str)) (c : Cache), (loadAll full a c).1.length = a.length := by
    intro a
    induction a with
    | nil => simp [loadAll]
    | cons p a ih => simp [loadAll, ih]
  rw [← load_result, List.map_append, loadAll_append, List.getElem?_append_right (by simp [hlen])]
  simp only [hlen, List.length_map, Nat.sub_self, List.map_cons, loadAll, List.getElem?_cons_zero, Option.some.injEq]
  rfl

example : FirstText id [⟨fun _ => none, "/a".toList⟩, ⟨fun _ => some "1".toList, "/a".toList⟩, ⟨fun _ => some "2".toList, "/a".toList⟩] "/a".toList "1".toList :=
  ⟨[⟨fun _ => none, "/a".toList⟩], ⟨fun _ => some "1".toList, "/a".toList⟩, [⟨fun _ => some "2".toList, "/a".toList⟩], rfl, rfl, rfl, by simp⟩

/-- C101, for files whose names have no part `_dash` or `_DOT`: whatever the entries about the machine are, the report can be made, and the attribute of a file is the text that the program
got when it read this file, and there is no attribute for a file that was not read. For other names the attributes may be lost, see `C101_fails_for_similar_names`. -/
theorem C101_attributes_partial {full : Str → Str} (hfull : FullNames full) (loads : List Load) (hu : ∀ l ∈ loads, Unambiguous (full l.path)) (disk : Str → Option Str)
    (info : String → Str) (boost : Tree) (cuda : Option Tree) (attributes : List (Str × Tree))
    (ha : ∀ a ∈ attributes, ¬ "alsvinn_report".toList <+: a.1 ∧ ¬ a.1 <+: "alsvinn_report".toList) :
    ∃ calls, fileAttributes full disk info boost cuda (loadAll full (loads.map fun l => (l.disk, l.path)) []).2 attributes = .ok calls ∧
      ∀ p, Unambiguous (full p) → ∀ x, attr calls (attributeName (full p)) = some x ↔ FirstText full loads p x := by
  obtain ⟨hn, hf, hs⟩ := cache_spec full loads
  have hf' : ∀ p ∈ (loadAll full (toPairs loads) []).2, ∃ q, full q = p.1 := fun p hp => by
    obtain ⟨l, -, e⟩ := hf p hp
    exact ⟨_, e⟩
  have hu' : ∀ p ∈ (loadAll full (toPairs loads) []).2, Unambiguous p.1 := fun p hp => by
    obtain ⟨l, hl, e⟩ := hf p hp
    rw [← e]
    exact hu l hl
  obtain ⟨t, e, d, r, rfl, hr⟩ := report_top hfull disk info boost cuda hn hf' hu'
  change ∃ calls, fileAttributes full disk info boost cuda (loadAll full (toPairs loads) []).2 attributes = .ok calls ∧ _
  refine ⟨writeAttributes "alsvinn_report".toList r ++ attributes.flatMap fun a => writeAttributes a.1 a.2, ?_, fun p hp x => ?_⟩
  · rw [fileAttributes, e, Res.ok_bind]
    rfl
  · rw [attr_append_left (by rw [attributeName_eq]; exact extra_names ha _), attributeName_eq, holds_attr hr, ← hs]
    · constructor
      · intro h
        obtain ⟨q, hq, e⟩ := List.mem_map.1 h
        obtain ⟨e1, e2⟩ := Prod.mk.inj e
        have e3 : q.1 = full p := spell_injective (hu' q hq) hp (by rw [← escape_eq, ← escape_eq]; exact e1)
        rw [← e3, ← e2]
        exact hq
      · intro h
        exact List.mem_map.2 ⟨_, h, rfl⟩
    · rw [List.map_map]
      rw [List.nodup_map_iff_inj_on]
      · intro q hq q' hq' e
        have e1 : q.1 = q'.1 := spell_injective (hu' q hq) (hu' q' hq') (by rw [← escape_eq, ← escape_eq]; exact e)
        exact List.inj_on_of_nodup_map hn hq hq' e1
      · exact List.Nodup.of_map _ hn

/-- Full names for the examples: a slash is put before names that have none. -/
def slash : Str → Str
  | '/' :: q => '/' :: q
  | p => '/' :: p

theorem slash_full : FullNames slash := by
  constructor
  · intro p
    unfold slash
    split <;> exact ⟨_, rfl⟩
  · intro p
    conv_lhs => arg 1; unfold slash
    split
    · rename_i q
      rfl
    · rename_i p' h
      rw [slash]
      unfold slash
      split
      · rename_i q
        exact absurd rfl (h q)
      · rfl

example : Unambiguous (slash "sod/sod.xml".toList) ∧ Unambiguous (slash "/home/me/sod_shock.py".toList) ∧
    attributeName (slash "sod/sod.xml".toList) = "alsvinn_report.loadedTextFiles._dash_sod_dash_sod_DOT_xml".toList :=
  ⟨⟨by decide +kernel, by decide +kernel⟩, ⟨by decide +kernel, by decide +kernel⟩, by decide +kernel⟩

/-- C101 in one sentence: each text that a load gives to the program is the attribute of the file it was loaded from, under the same conditions. -/
theorem C101_text_used_partial {full : Str → Str} (hfull : FullNames full) (before : List Load) (l : Load) (after : List Load)
    (hu : ∀ m ∈ before ++ l :: after, Unambiguous (full m.path)) (disk : Str → Option Str) (info : String → Str) (boost : Tree) (cuda : Option Tree) (attributes : List (Str × Tree))
    (ha : ∀ a ∈ attributes, ¬ "alsvinn_report".toList <+: a.1 ∧ ¬ a.1 <+: "alsvinn_report".toList) {x : Str}
    (hx : (loadAll full ((before ++ l :: after).map fun l => (l.disk, l.path)) []).1[before.length]? = some (.ok x)) :
    ∃ calls, fileAttributes full disk info boost cuda (loadAll full ((before ++ l :: after).map fun l => (l.disk, l.path)) []).2 attributes = .ok calls ∧
      attr calls (attributeName (full l.path)) = some x := by
  obtain ⟨calls, h1, h2⟩ := C101_attributes_partial hfull (before ++ l :: after) hu disk info boost cuda attributes ha
  refine ⟨calls, h1, (h2 l.path (hu l (by simp)) x).2 ?_⟩
  obtain ⟨b, m, a, e, g1, g2, g3⟩ := (C101_loads full before l after x).1 hx
  exact ⟨b, m, a ++ after, by
    have : before ++ l :: after = (before ++ [l]) ++ after := by simp
    rw [this, e]
    simp, g1, g2, g3⟩

example : (loadAll slash ([⟨fun _ => some "2".toList, "a.xml".toList⟩, ⟨fun _ => some "3".toList, "/a.xml".toList⟩].map fun l : Load => (l.disk, l.path)) []).1[1]? = some (.ok "2".toList) := by
  decide +kernel

/-- C101 fails for names that look like a name spelled out: after reading `/data/a.py` and `/data/a_DOT_py` there is no output file with both texts, whatever the rest of the report is. -/
theorem C101_fails_for_similar_names :
    ∃ loads : List Load, (∀ x, FirstText slash loads "/data/a.py".toList x ↔ x = "1".toList) ∧ (∀ x, FirstText slash loads "/data/a_DOT_py".toList x ↔ x = "2".toList) ∧
      ∀ (disk : Str → Option Str) (info : String → Str) (boost : Tree) (cuda : Option Tree) (attributes : List (Str × Tree)),
        ¬ ∃ calls, fileAttributes slash disk info boost cuda (loadAll slash (loads.map fun l => (l.disk, l.path)) []).2 attributes = .ok calls ∧
          ∀ p x, FirstText slash loads p x → attr calls (attributeName (slash p)) = some x := by
  let d : Str → Option Str := fun n => if n = "/data/a.py".toList then some "1".toList else if n = "/data/a_DOT_py".toList then some "2".toList else none
  have hs1 : slash "/data/a.py".toList = "/data/a.py".toList := rfl
  have hs2 : slash "/data/a_DOT_py".toList = "/data/a_DOT_py".toList := rfl
  have hd1 : d "/data/a.py".toList = some "1".toList := by decide
  have hd2 : d "/data/a_DOT_py".toList = some "2".toList := by decide
  have first : ∀ {p y x : Str}, d (slash p) = some y → FirstText slash [⟨d, "/data/a.py".toList⟩, ⟨d, "/data/a_DOT_py".toList⟩] p x → x = y := by
    rintro p y x hy ⟨b, l, a, e, g1, g2, -⟩
    have hl : l ∈ ([⟨d, "/data/a.py".toList⟩, ⟨d, "/data/a_DOT_py".toList⟩] : List Load) := by rw [e]; simp
    have : l.disk = d := by
      rcases List.mem_cons.1 hl with rfl | hl
      · rfl
      · rw [List.mem_singleton.1 hl]
    rw [this, hy] at g2
    exact (Option.some.inj g2).symm
  have f1 : FirstText slash [⟨d, "/data/a.py".toList⟩, ⟨d, "/data/a_DOT_py".toList⟩] "/data/a.py".toList "1".toList :=
    ⟨[], ⟨d, "/data/a.py".toList⟩, [⟨d, "/data/a_DOT_py".toList⟩], rfl, rfl, hd1, by simp⟩
  have f2 : FirstText slash [⟨d, "/data/a.py".toList⟩, ⟨d, "/data/a_DOT_py".toList⟩] "/data/a_DOT_py".toList "2".toList :=
    ⟨[⟨d, "/data/a.py".toList⟩], ⟨d, "/data/a_DOT_py".toList⟩, [], rfl, rfl, hd2, fun b hb e => by
      rw [List.mem_singleton.1 hb, hs1, hs2] at e
      exact absurd e (by decide)⟩
  refine ⟨[⟨d, "/data/a.py".toList⟩, ⟨d, "/data/a_DOT_py".toList⟩], fun x => ⟨first (by rw [hs1, hd1]), ?_⟩, fun x => ⟨first (by rw [hs2, hd2]), ?_⟩, ?_⟩
  · rintro rfl
    exact f1
  · rintro rfl
    exact f2
  · rintro disk info boost cuda attributes ⟨calls, -, h⟩
    have h1 := h _ _ f1
    have h2 := h _ _ f2
    have e : attributeName (slash "/data/a.py".toList) = attributeName (slash "/data/a_DOT_py".toList) := by decide +kernel
    rw [e, h2] at h1
    exact absurd h1 (by decide)

/-- C101, for configurations in which no two neighbouring entries have the same key and no key has a dot: every entry without further entries is an attribute under its keys. -/
theorem C101_configuration_partial {t : Tree} (hd : Distinct t) {keys : List Str} {x : Str} (h : Leaf t keys x) (base : Str) :
    attr (writeAttributes base t) (dotted base keys) = some x := attr_leaf h hd base

/-- A configuration with one functional for the example. -/
def oneFunctional : Tree :=
  .node [] [("config".toList, .node [] [("fvm".toList, .node [] [("name".toList, .node "sod".toList []), ("cfl".toList, .node "0.5".toList [])])])]

example : Distinct oneFunctional ∧ Leaf oneFunctional ["config".toList, "fvm".toList, "cfl".toList] "0.5".toList ∧
    dotted "fvm_configuration".toList ["config".toList, "fvm".toList, "cfl".toList] = "fvm_configuration.config.fvm.cfl".toList := by
  refine ⟨?_, ?_, by decide⟩
  · refine .node (by decide) (by decide) ?_
    intro p hp
    rw [List.mem_singleton.1 hp]
    refine .node (by decide) (by decide) ?_
    intro p hp
    rw [List.mem_singleton.1 hp]
    refine .node (by decide) (by decide) ?_
    intro p hp
    rcases List.mem_cons.1 hp with rfl | hp
    · exact .node (by simp) (by simp) (by simp)
    · rw [List.mem_singleton.1 hp]
      exact .node (by simp) (by simp) (by simp)
  · exact .inside (List.mem_singleton.2 rfl) (.inside (List.mem_singleton.2 rfl) (.inside (List.mem_cons_of_mem _ (List.mem_singleton.2 rfl)) .here))

/-- C101 fails for configurations with repeated entries, such as two parameters of the initial data: only the last one can be found in the file. -/
theorem C101_fails_for_repeated_entries :
    ∃ t : Tree, Leaf t ["parameter".toList, "name".toList] "a".toList ∧ Leaf t ["parameter".toList, "name".toList] "b".toList ∧
      ∀ base name, attr (writeAttributes base t) name ≠ some "a".toList := by
  refine ⟨.node [] [("parameter".toList, .node [] [("name".toList, .node "a".toList [])]), ("parameter".toList, .node [] [("name".toList, .node "b".toList [])])],
    .inside (List.mem_cons_self) (.inside (List.mem_singleton.2 rfl) .here),
    .inside (List.mem_cons_of_mem _ (List.mem_singleton.2 rfl)) (.inside (List.mem_singleton.2 rfl) .here), ?_⟩
  intro base name
  have e : writeAttributes base (.node [] [("parameter".toList, .node [] [("name".toList, .node "a".toList [])]), ("parameter".toList, .node [] [("name".toList, .node "b".toList [])])]) =
      [(base ++ ".parameter.name".toList, "a".toList), (base ++ ".parameter.name".toList, "b".toList)] := by
    rw [writeAttributes_node _ _ (by simp)]
    simp only [List.flatMap_cons, List.flatMap_nil, List.append_nil]
    rw [writeAttributes_node _ _ (by simp), writeAttributes_node _ _ (by simp)]
    simp only [List.flatMap_cons, List.flatMap_nil, List.append_nil, writeAttributes_leaf]
    simp
  rw [e, attr]
  by_cases h : base ++ ".parameter.name".toList = name
  · rw [List.filter_cons_of_pos (by simpa using h), List.filter_cons_of_pos (by simpa using h)]
    simp
  · rw [List.filter_cons_of_neg (by simpa using h), List.filter_cons_of_neg (by simpa using h)]
    simp

end Props.Report
end Verif
