import Verif.PyInitLemmas

/-!
C102: initial data given as a Python program sees its parameters, and the samples of a run do not influence each other through the interpreter they share.
-/

namespace Verif
namespace Props.PyInit
open Verif.PyInit PyInitSpec Params

variable {K V : Type}

/-- C102: the initial values of every sample are those of an interpreter in which nothing has happened before, whatever the samples before and all other Python code have done to the global
names, provided the program uses no names but those of its parameters, of `math` and `numpy`, and of the arrays it is given. In particular a failing sample fails there too. -/
theorem C102_samples_isolated (py : Python K V) (task : Task K V) (configured : List (Str × List K)) (samples : List (List (Str × List K) × (Names V → Names V))) {S : Set Str}
    (hu : Uses S task.program)
    (hS : ∀ s ∈ samples, ∀ n ∈ S, n ∈ configured.map Prod.fst ∨ n ∈ s.1.map Prod.fst ∨ Imported py n ∨
      ("init_global".toList <:+: task.program.text ∧ n ∈ task.variableNames.map (· ++ "_global".toList))) (names : Names V) :
    runSamples py task configured samples names =
      samples.mapM fun s => (setInitialData py task (UQSetup.setParameters configured s.1) fun _ => none).map Prod.fst := by
  induction samples generalizing names with
  | nil => rfl
  | cons s ss ih =>
    have h1 : S ⊆ Defined py task (UQSetup.setParameters configured s.1) := by
      intro n hn
      rw [Defined, Set.mem_ofPred_eq, setParameters_names]
      rcases hS s (by simp) n hn with h | h | h | ⟨h, h'⟩
      · exact .inl (.inl h)
      · exact .inl (.inr h)
      · exact .inr (.inl h)
      · exact .inr (.inr (.inl ⟨decide_eq_true h, h'⟩))
    have h2 := SameOutcome.fst (setInitialData_same py task (UQSetup.setParameters configured s.1) hu h1 names fun _ => none)
    rw [runSamples, List.mapM_cons, ← h2]
    generalize setInitialData py task (UQSetup.setParameters configured s.1) names = r
    rcases r with e | r
    · rfl
    · rw [Res.ok_bind, ih fun s hs => hS s (by simp [hs])]
      rfl

/-- Python objects for the examples: numbers and functions. -/
inductive Obj where
  | number (x : Int)
  | array (xs : List Int)
  | function (name : String)
  deriving DecidableEq

/-- An installation for the examples: `math` has the functions `sin` and `gamma`, there is no `numpy`. -/
def python : Python Int Obj where
  number := .number
  array := .array
  math n := if n = "sin".toList then some (.function "sin") else if n = "gamma".toList then some (.function "gamma") else none
  numpy := none

/-- Only numbers can be extracted. -/
def number : Obj → Option Int
  | .number x => some x
  | _ => none

/-- A task for the examples: `u` is set to what is found under a name, in two cells. -/
def copyTask (n : Str) : Task Int Obj where
  zero := .number 0
  dictionary := .function "dict"
  function := .function "initial_data"
  extract := number
  arrays _ := .array []
  program := copySnippet "u".toList n
  variableNames := ["u".toList]
  cells := [⟨[.number 10, .number 11, .number 12, .number 0, .number 0, .number 0]⟩, ⟨[.number 20, .number 11, .number 12, .number 1, .number 0, .number 0]⟩]

example : Uses {"a".toList} (copySnippet (K := Int) (V := Obj) "u".toList "a".toList) := by
  constructor
  · intro g h l hg
    have e : g "a".toList = h "a".toList := hg _ rfl
    simp only [copySnippet, e]
    cases l "a".toList with
    | some x => exact ⟨rfl, hg⟩
    | none => cases h "a".toList with
      | none => exact (rfl : Err.thrown = Err.thrown)
      | some x => exact ⟨rfl, hg⟩
  · intro g h _
    exact (rfl : Err.thrown = Err.thrown)

/-- C102 for the parameters, except those with a name of `math` or `numpy`: the program runs with every parameter under its name, as a number or as an array. For the others see
`C102_gamma_is_a_function`. -/
theorem C102_parameters_partial (py : Python K V) (task : Task K V) (parameters : List (Str × List K)) (hd : (parameters.map Prod.fst).Nodup) (names : Names V) :
    ∃ globals : Names V,
      (∀ p ∈ parameters, ¬ Imported py p.1 → p.1 ∉ task.variableNames.map (· ++ "_global".toList) → p.1 ≠ "initial_data".toList →
        globals p.1 = some (match p.2 with | [x] => py.number x | xs => py.array xs)) ∧
      setInitialData py task parameters names =
        if "init_global".toList <:+: task.program.text then task.program.asProgram globals
        else cellLoop task.extract task.zero task.dictionary task.program task.variableNames task.cells globals := by
  have key : ∀ p ∈ parameters, PyInit.setParameters py parameters names p.1 = some (object py p.2) := fun p hp =>
    assignAll_mem Prod.fst (fun p => object py p.2) hd names hp
  have obj : ∀ xs : List K, object py xs = match xs with | [x] => py.number x | xs => py.array xs := fun xs => by
    rcases xs with _ | ⟨x, _ | ⟨y, xs⟩⟩ <;> rfl
  by_cases hp : isProgram task.program.text = true
  · refine ⟨imports py (setArrays task.arrays task.variableNames (PyInit.setParameters py parameters names)), fun p hpm h1 h2 _ => ?_, ?_⟩
    · rw [imports_other py _ h1, ← obj, ← key p hpm]
      exact assignAll_other (fun v => v ++ "_global".toList) task.arrays _ _ h2
    · rw [setInitialData, if_pos hp]
      exact (if_pos (of_decide_eq_true hp)).symm
  · refine ⟨assign (imports py (PyInit.setParameters py parameters names)) "initial_data".toList task.function, fun p hpm h1 _ h3 => ?_, ?_⟩
    · rw [assign_ne _ h3, imports_other py _ h1, ← obj, ← key p hpm]
    · rw [setInitialData, if_neg hp]
      exact (if_neg fun h => hp (decide_eq_true h)).symm

example : ¬ Imported python "epsilon".toList ∧ "epsilon".toList ∉ (copyTask "epsilon".toList).variableNames.map (· ++ "_global".toList) ∧ "epsilon".toList ≠ "initial_data".toList := by
  refine ⟨?_, by decide, by decide⟩
  rintro (h | ⟨m, h, -⟩)
  · exact h (by decide +kernel)
  · exact absurd h (by simp [python])

example : (setInitialData python (copyTask "epsilon".toList) [("epsilon".toList, [7])] fun _ => none).map Prod.fst = .ok [[7], [7]] := by
  decide +kernel

/-- C102 fails for the parameter `gamma` of the Euler equations, which is put into the parameters of the initial data (SimulatorSetup.cpp:436-443): `from math import *` comes after it, and
replaces it by the function `math.gamma`. A program that uses `gamma` as a number ends with an exception, whatever the parameters and names before are. -/
theorem C102_gamma_is_a_function (py : Python K V) (f : V) (hmath : py.math "gamma".toList = some f) (hnumpy : ∀ m, py.numpy = some m → m "gamma".toList = none) (task : Task K V)
    (hprogram : task.program = copySnippet "u".toList "gamma".toList) (hvars : task.variableNames = ["u".toList]) (hcells : task.cells ≠ [])
    (hargs : ∀ c ∈ task.cells, c.arguments.length = 6) (hf : task.extract f = none) (parameters : List (Str × List K)) (names : Names V) :
    setInitialData py task parameters names = .error .thrown := by
  have hp : isProgram task.program.text = false := by
    rw [hprogram]
    change isProgram ("u".toList ++ " = ".toList ++ "gamma".toList) = false
    decide +kernel
  obtain ⟨c, cs, hc⟩ := List.exists_cons_of_ne_nil hcells
  have himp : ∀ g : Names V, imports py g "gamma".toList = some f := by
    intro g
    simp only [imports]
    cases hm : py.numpy with
    | none => simp only [importAll, hmath]
    | some m => simp only [importAll, hmath, hnumpy m hm]
  have hloc : locals task.zero task.dictionary ["u".toList] c "gamma".toList = none := by
    have hl := hargs c (by rw [hc]; simp)
    rw [locals, List.foldl_cons, List.foldl_nil, assign_ne _ (by decide), assign_ne _ (by decide), assignAll_other Prod.fst Prod.snd]
    intro h
    obtain ⟨q, hq, e⟩ := List.mem_map.1 h
    have := (List.of_mem_zip (a := q.1) (b := q.2) hq).1
    rw [e] at this
    exact absurd this (by decide)
  rw [setInitialData, hp, hc]
  simp only [Bool.false_eq_true, if_false, cellLoop, cellValues]
  rw [hprogram, hvars]
  simp only [copySnippet]
  rw [hloc]
  simp only
  rw [assign_ne _ (by decide), himp]
  simp [Res.ok_bind, Res.error_bind, hf]

example : python.math "gamma".toList = some (.function "gamma") ∧ number (.function "gamma") = none ∧ (copyTask "gamma".toList).cells ≠ [] :=
  ⟨by decide +kernel, rfl, by simp [copyTask]⟩

/-- C102 fails for parameters with the name of an argument of the function: the argument is used instead. -/
theorem C102_argument_hides_parameter :
    ∀ (a : Int) (names : Names Obj), (setInitialData python (copyTask "x".toList) [("x".toList, [a])] names).map Prod.fst = .ok [[10], [20]] := by
  intro a names
  have hp : isProgram (copyTask "x".toList).program.text = false := by decide +kernel
  have h1 : locals (.number 0) (.function "dict") ["u".toList] ⟨[.number 10, .number 11, .number 12, .number 0, .number 0, .number 0]⟩ "x".toList = some (Obj.number 10) := by decide +kernel
  have h2 : locals (.number 0) (.function "dict") ["u".toList] ⟨[.number 20, .number 11, .number 12, .number 1, .number 0, .number 0]⟩ "x".toList = some (Obj.number 20) := by decide +kernel
  rw [setInitialData, hp]
  simp only [Bool.false_eq_true, if_false, copyTask, cellLoop, cellValues, copySnippet]
  rw [h1, h2]
  simp [Res.ok_bind, number]
  rfl

end Props.PyInit
end Verif
