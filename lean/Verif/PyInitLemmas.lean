import Verif.PyInitSpec

/-! Lemmas for Python initial data. -/

namespace Verif
namespace PyInit
open Params PyInitSpec

variable {K V : Type}

theorem assign_self (g : Names V) (n : Str) (v : V) : assign g n v n = some v := by simp [assign]

theorem assign_ne (g : Names V) {n m : Str} (h : m ≠ n) (v : V) : assign g n v m = g m := by simp [assign, h]

/-- Assigning a list of names: every name that is assigned has an object that does not depend on the names before. -/
theorem assignAll_agree {A : Type} (name : A → Str) (value : A → V) (l : List A) (g h : Names V) {n : Str} (hn : n ∈ l.map name ∨ g n = h n) :
    l.foldl (fun ns a => assign ns (name a) (value a)) g n = l.foldl (fun ns a => assign ns (name a) (value a)) h n := by
  induction l generalizing g h with
  | nil => simpa using hn
  | cons a l ih =>
    simp only [List.foldl_cons]
    apply ih
    by_cases e : n = name a
    · right
      rw [e, assign_self, assign_self]
    · rcases hn with hn | hn
      · simp only [List.map_cons, List.mem_cons] at hn
        exact .inl (hn.resolve_left e)
      · right
        rw [assign_ne _ e, assign_ne _ e, hn]

theorem assignAll_other {A : Type} (name : A → Str) (value : A → V) (l : List A) (g : Names V) {n : Str} (hn : n ∉ l.map name) :
    l.foldl (fun ns a => assign ns (name a) (value a)) g n = g n := by
  induction l generalizing g with
  | nil => rfl
  | cons a l ih =>
    simp only [List.map_cons, List.mem_cons, not_or] at hn
    simp only [List.foldl_cons]
    rw [ih _ hn.2, assign_ne _ hn.1]

theorem assignAll_mem {A : Type} (name : A → Str) (value : A → V) {l : List A} (hd : (l.map name).Nodup) (g : Names V) {a : A} (ha : a ∈ l) :
    l.foldl (fun ns a => assign ns (name a) (value a)) g (name a) = some (value a) := by
  induction l generalizing g with
  | nil => simp at ha
  | cons b l ih =>
    simp only [List.map_cons, List.nodup_cons] at hd
    simp only [List.foldl_cons]
    rcases List.mem_cons.1 ha with rfl | ha
    · rw [assignAll_other _ _ _ _ hd.1, assign_self]
    · exact ih hd.2 _ ha

theorem imports_agree (py : Python K V) {g h : Names V} {n : Str} (hn : Imported py n ∨ g n = h n) : imports py g n = imports py h n := by
  simp only [imports]
  cases hm : py.numpy with
  | none =>
    simp only [importAll]
    cases hv : py.math n with
    | some v => rfl
    | none =>
      simp only
      rcases hn with (hn | ⟨m, hm', -⟩) | hn
      · exact absurd hv hn
      · rw [hm] at hm'
        simp at hm'
      · exact hn
  | some m =>
    simp only [importAll]
    cases hw : m n with
    | some v => rfl
    | none =>
      simp only
      cases hv : py.math n with
      | some v => rfl
      | none =>
        simp only
        rcases hn with (hn | ⟨m', hm', h'⟩) | hn
        · exact absurd hv hn
        · rw [hm] at hm'
          obtain rfl := Option.some.inj hm'
          exact absurd hw h'
        · exact hn

theorem imports_other (py : Python K V) (g : Names V) {n : Str} (hn : ¬ Imported py n) : imports py g n = g n := by
  have h1 : py.math n = none := by
    by_contra h
    exact hn (.inl h)
  simp only [imports]
  cases hm : py.numpy with
  | none => simp [importAll, h1]
  | some m =>
    have h2 : m n = none := by
      by_contra h
      exact hn (.inr ⟨m, hm, h⟩)
    simp [importAll, h1, h2]

theorem setParameters_agree (py : Python K V) (ps : List (Str × List K)) {g h : Names V} {n : Str} (hn : n ∈ ps.map Prod.fst ∨ g n = h n) :
    PyInit.setParameters py ps g n = PyInit.setParameters py ps h n := assignAll_agree Prod.fst (fun p => object py p.2) ps g h hn

theorem cellLoop_same {extract : V → Option K} {zero dictionary : V} {program : Program K V} {variableNames : List Str} {S : Set Str} (hu : Uses S program) (cells : List (Cell V))
    {g h : Names V} (hg : Agree S g h) :
    SameOutcome S (cellLoop extract zero dictionary program variableNames cells g) (cellLoop extract zero dictionary program variableNames cells h) := by
  induction cells generalizing g h with
  | nil => exact ⟨rfl, hg⟩
  | cons c cs ih =>
    have h1 := hu.function g h (locals zero dictionary variableNames c) hg
    simp only [cellLoop, cellValues]
    generalize program.asFunction g (locals zero dictionary variableNames c) = r1 at h1
    generalize program.asFunction h (locals zero dictionary variableNames c) = r2 at h1
    rcases r1 with e | ⟨l1, g1⟩ <;> rcases r2 with e' | ⟨l2, g2⟩
    · obtain rfl : e = e' := h1
      simp only [Res.error_bind]
      rfl
    · exact h1.elim
    · exact h1.elim
    · obtain ⟨e1, e2⟩ := h1
      simp only at e1 e2
      subst e1
      simp only [Res.ok_bind]
      generalize (variableNames.mapM fun v => match (l1 v).bind extract with
        | some x => (.ok x : Res K)
        | none => .error .thrown) = vs
      rcases vs with e | vs
      · simp only [Res.error_bind]
        rfl
      · simp only [Res.ok_bind, pure_bind]
        have h2 := ih e2
        generalize cellLoop extract zero dictionary program variableNames cs g1 = r1 at h2
        generalize cellLoop extract zero dictionary program variableNames cs g2 = r2 at h2
        rcases r1 with e | ⟨l1, g1⟩ <;> rcases r2 with e' | ⟨l2, g2⟩
        · obtain rfl : e = e' := h2
          simp only [Res.error_bind]
          rfl
        · exact h2.elim
        · exact h2.elim
        · simp only [Res.ok_bind]
          exact ⟨congrArg (vs :: ·) h2.1, h2.2⟩

/-- The names that are set before the program runs. -/
def Defined (py : Python K V) (task : Task K V) (ps : List (Str × List K)) : Set Str :=
  {n | n ∈ ps.map Prod.fst ∨ Imported py n ∨
    (isProgram task.program.text ∧ n ∈ task.variableNames.map (· ++ "_global".toList)) ∨ (¬ isProgram task.program.text ∧ n = "initial_data".toList)}

theorem program_names (py : Python K V) (arrays : Str → V) (variableNames : List Str) (ps : List (Str × List K)) (g h : Names V) {n : Str}
    (hn : n ∈ ps.map Prod.fst ∨ Imported py n ∨ n ∈ variableNames.map (· ++ "_global".toList)) :
    imports py (setArrays arrays variableNames (PyInit.setParameters py ps g)) n = imports py (setArrays arrays variableNames (PyInit.setParameters py ps h)) n := by
  refine imports_agree py ?_
  rcases hn with h1 | h1 | h1
  · exact .inr (assignAll_agree (fun v => v ++ "_global".toList) arrays _ _ _ (.inr (setParameters_agree py ps (.inl h1))))
  · exact .inl h1
  · exact .inr (assignAll_agree (fun v => v ++ "_global".toList) arrays _ _ _ (.inl h1))

theorem snippet_names (py : Python K V) (f : V) (ps : List (Str × List K)) (g h : Names V) {n m : Str} (hn : n ∈ ps.map Prod.fst ∨ Imported py n ∨ n = m) :
    assign (imports py (PyInit.setParameters py ps g)) m f n = assign (imports py (PyInit.setParameters py ps h)) m f n := by
  by_cases e : n = m
  · rw [e, assign_self, assign_self]
  · rw [assign_ne _ e, assign_ne _ e]
    refine imports_agree py ?_
    rcases hn with h1 | h1 | h1
    · exact .inr (setParameters_agree py ps (.inl h1))
    · exact .inl h1
    · exact absurd h1 e

theorem setInitialData_same (py : Python K V) (task : Task K V) (ps : List (Str × List K)) {S : Set Str} (hu : Uses S task.program) (hS : S ⊆ Defined py task ps) (g h : Names V) :
    SameOutcome S (setInitialData py task ps g) (setInitialData py task ps h) := by
  by_cases hp : isProgram task.program.text = true
  · have e : ∀ g, setInitialData py task ps g = task.program.asProgram (imports py (setArrays task.arrays task.variableNames (PyInit.setParameters py ps g))) :=
      fun g => by rw [setInitialData, if_pos hp]
    rw [e, e]
    refine hu.program _ _ fun n hn => program_names py _ _ ps g h ?_
    have hd : n ∈ Defined py task ps := hS hn
    rw [Defined, Set.mem_ofPred_eq] at hd
    tauto
  · have e : ∀ g, setInitialData py task ps g = cellLoop task.extract task.zero task.dictionary task.program task.variableNames task.cells
        (assign (imports py (PyInit.setParameters py ps g)) "initial_data".toList task.function) := fun g => by rw [setInitialData, if_neg hp]
    rw [e, e]
    refine cellLoop_same hu _ fun n hn => snippet_names py _ ps g h ?_
    have hd : n ∈ Defined py task ps := hS hn
    rw [Defined, Set.mem_ofPred_eq] at hd
    tauto

theorem SameOutcome.fst {A : Type} {S : Set Str} {r s : Res (A × Names V)} (h : SameOutcome S r s) : r.map Prod.fst = s.map Prod.fst := by
  rcases r with e | a <;> rcases s with f | b
  · obtain rfl : e = f := h
    rfl
  · exact h.elim
  · exact h.elim
  · exact congrArg Except.ok h.1

theorem SameOutcome.symm {A : Type} {S : Set Str} {r s : Res (A × Names V)} (h : SameOutcome S r s) : SameOutcome S s r := by
  rcases r with e | a <;> rcases s with f | b
  · exact Eq.symm h
  · exact h.elim
  · exact h.elim
  · exact ⟨h.1.symm, fun n hn => (h.2 n hn).symm⟩

theorem setOrAdd_names (ps : List (Str × List K)) (p : Str × List K) (n : Str) : n ∈ (UQSetup.setOrAdd ps p).map Prod.fst ↔ n ∈ ps.map Prod.fst ∨ n = p.1 := by
  rw [UQSetup.setOrAdd]
  split
  · rename_i h
    have e : (ps.map fun q => if q.1 = p.1 then p else q).map Prod.fst = ps.map Prod.fst := by
      rw [List.map_map]
      refine List.map_congr_left fun q _ => ?_
      simp only [Function.comp]
      split
      · rename_i e
        exact e.symm
      · rfl
    rw [e]
    constructor
    · exact .inl
    · rintro (g | g)
      · exact g
      · rw [g]
        exact h
  · simp

theorem setParameters_names (ps new : List (Str × List K)) (n : Str) : n ∈ (UQSetup.setParameters ps new).map Prod.fst ↔ n ∈ ps.map Prod.fst ∨ n ∈ new.map Prod.fst := by
  rw [UQSetup.setParameters]
  induction new generalizing ps with
  | nil => simp
  | cons p new ih =>
    rw [List.foldl_cons, ih, setOrAdd_names, List.map_cons, List.mem_cons]
    tauto

end PyInit
end Verif
