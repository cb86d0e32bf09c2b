import Verif.SetupReaders
import Verif.Props.Factories

/-!
C85: a configuration file is read as it says.
-/

namespace Verif.Props.Setup
open Params Verif.Setup Verif.Factories
variable {K F : Type} [Field K] [LinearOrder K] [IsStrictOrderedRing K]

/-- C85: reading the file succeeds exactly for a file that describes a simulation, and gives what the file says. -/
theorem C85_as_described (cuda mpi : Bool) (conv : Conv K) (load : Str → Option Str) (make : Str → Str → Tree → Res F) (root : Tree) (s : Settings K F) :
    readSetup cuda mpi conv load make root = .ok s ↔ Described cuda mpi conv load make root s := by
  apply readSetup_iff
  intro c
  rcases Props.Factories.C83_as_described cuda c with ⟨h, o, -, -, ho, -⟩ | ⟨h, ho⟩
  · exact ⟨fun _ => h, fun _ => ⟨o, ho⟩⟩
  · simp only [h, ho, reduceCtorEq, exists_false]

/-- C85: a file describes at most one simulation. -/
theorem C85_no_choice (cuda mpi : Bool) (conv : Conv K) (load : Str → Option Str) (make : Str → Str → Tree → Res F) (root : Tree) (s s' : Settings K F)
    (h : Described cuda mpi conv load make root s) (h' : Described cuda mpi conv load make root s') : s = s' := by
  rw [← C85_as_described] at h h'
  rw [h] at h'
  exact Except.ok.inj h'

/-- C85: a file that does not describe a simulation is refused with an exception. The vectors of the grid must have three words each: otherwise `C85_short_vector`. -/
theorem C85_otherwise_refused_partial (cuda mpi : Bool) (conv : Conv K) (load : Str → Option Str) (make : Str → Str → Tree → Res F) (root : Tree)
    (hv : CompleteVectors load root) (hm : ∀ p n t, make p n t ≠ .error .ub) (h : ∀ s : Settings K F, ¬ Described cuda mpi conv load make root s) :
    readSetup cuda mpi conv load make root = .error .thrown := by
  have hs : Safe (readSetup cuda mpi conv load make root) := by
    apply readSetup_safe _ _ _ _ _ _ _ hv hm
    intro c
    rcases Props.Factories.C83_as_described cuda c with ⟨-, o, -, -, ho, -⟩ | ⟨-, ho⟩ <;> rw [ho]
    · exact safe_ok _
    · exact safe_thrown
  cases hr : readSetup cuda mpi conv load make root with
  | ok s => exact absurd ((C85_as_described ..).1 hr) (h s)
  | error e =>
    cases e with
    | thrown => rfl
    | ub => exact absurd hr hs

omit [IsStrictOrderedRing K] in
/-- C85: an option that is not known is refused, whatever else the file says. -/
theorem C85_unknown_option (cuda mpi : Bool) (conv : Conv K) (load : Str → Option Str) (make : Str → Str → Tree → Res F) (root raw fvm : Tree) (children : List (Str × Tree))
    (h1 : First root "config" raw) (h2 : FilledAll load raw.children children) (h3 : First (.node raw.data children) "fvm" fvm)
    (option : Str × Tree) (ho : option ∈ fvm.children)
    (hu : option.1 ∉ ["name", "platform", "boundary", "flux", "endTime", "equation", "equationParameters", "reconstruction", "cfl", "integrator", "initialData", "writer", "grid",
      "diffusion", "functionals"].map String.toList) :
    readSetup cuda mpi conv load make root = .error .thrown := by
  unfold readSetup loadFiles
  rw [child_one h1, Res.ok_bind, (loadChildren_iff load _ _).2 h2, Res.ok_bind, Res.ok_bind, child_one h3, Res.ok_bind, if_neg]
  · rfl
  · rw [List.all_eq_true]
    intro h
    obtain ⟨k, hk, e⟩ := List.any_eq_true.1 (h option ho)
    exact hu (List.mem_map.2 ⟨k, hk, (beq_iff_eq.1 e).symm⟩)

/-! A file. -/

/-- A node with a text. -/
def leaf (k v : String) : Str × Tree := (k.toList, .node v.toList [])

/-- A node with children. -/
def inner (k : String) (c : List (Str × Tree)) : Str × Tree := (k.toList, .node [] c)

/-- A configuration of Burgers' equation with the corner of the grid and further options left open. -/
def sampleFile (lower : String) (more : List (Str × Tree)) : Tree :=
  .node [] [inner "config" [inner "fvm" ([leaf "name" " shock\n", leaf "platform" "cpu", leaf "boundary" "periodic", leaf "flux" "godunov", leaf "endTime" "1", leaf "equation" "burgers",
    leaf "reconstruction" "none", leaf "cfl" "auto", leaf "integrator" "auto",
    inner "initialData" [leaf "python" "shock.py", inner "parameters" [inner "parameter" [leaf "name" "X", leaf "length" "2", inner "values" [leaf "value" "1"]]]],
    inner "grid" [leaf "lowerCorner" lower, leaf "upperCorner" "1 1 0", leaf "dimension" "16 1 1"]] ++ more)]]

/-- Digits. -/
def digit (s : Str) : Option Nat := if s = ['0'] then some 0 else if s = ['1'] then some 1 else if s = ['2'] then some 2 else if s = ['1', '6'] then some 16 else none

/-- Reading of digits. -/
def digits : Conv ℚ := ⟨fun s => (digit s).map Nat.cast, fun s => (digit s).map Nat.cast, digit, fun s => (digit s).map (· ≠ 0), fun s => (digit s).map Nat.cast, fun s => (digit s).map Nat.cast,
  fun _ => 0⟩

/-- A writer with two saves. -/
def sampleWriter : Str × Tree := inner "writer" [leaf "type" "netcdf", leaf "basename" "out", leaf "numberOfSaves" "2"]

/-- The sample describes a simulation. -/
theorem sample_read : ∃ s, readSetup (F := Unit) false false digits (fun _ => some ['p']) (fun _ _ _ => .ok ()) (sampleFile "0 0 0" [sampleWriter]) = .ok s ∧
    s.conf = ⟨"cpu", "burgers", "godunov", "none", "forwardeuler", "periodic", "none", "none", ⟨16, 1, 1⟩⟩ ∧ s.grid = ⟨⟨0, 0, 0⟩, ⟨1, 1, 0⟩, ⟨16, 1, 1⟩, true⟩ ∧ s.endTime = 1 ∧
    s.cfl = 9 / 10 ∧ s.gamma = none ∧ s.program = ['p'] ∧ s.parameters = [(['X'], [1, 1])] ∧ s.name = "shock".toList ∧
    s.writers = [.fixed (.base "netcdf".toList "out".toList sampleWriter.2) (some (1 / 2)) 0 false] ∧ s.adjusters = s.writers :=
  ⟨_, by rfl, by rfl, by rfl, by rfl, by rfl, by rfl, by rfl, by rfl, by rfl, by rfl, by rfl⟩

example : ∃ s, Described (F := Unit) false false digits (fun _ => some ['p']) (fun _ _ _ => .ok ()) (sampleFile "0 0 0" [sampleWriter]) s ∧ s.name = "shock".toList ∧ s.cfl = 9 / 10 := by
  obtain ⟨s, h, -, -, -, h1, -, -, -, h2, -⟩ := sample_read
  exact ⟨s, (C85_as_described ..).1 h, h2, h1⟩

/-- C85 does not hold without complete vectors: two numbers for a corner lead to an access behind the end of a vector. -/
theorem C85_short_vector (cuda mpi : Bool) (load : Str → Option Str) (make : Str → Str → Tree → Res F) :
    readSetup cuda mpi digits load make (sampleFile "0 0" [sampleWriter]) = .error .ub := by rfl

/-- A file that describes no simulation and has complete vectors: a coordinate that is no number. -/
example : readSetup (F := Unit) false false digits (fun _ => some []) (fun _ _ _ => .ok ()) (sampleFile "0 0 x" []) = .error .thrown := by rfl

example : CompleteVectors (fun _ => none) (sampleFile "0 0 x" []) := by
  intro raw ch fvm h1 h2 h3 k hk s hs
  have e1 := (child_iff.2 (at_one.2 h1)).symm.trans (show child ["config"] (sampleFile "0 0 x" []) = .ok (.node [] [_]) from rfl)
  cases e1
  have e2 := ((loadChildren_iff _ _ _).2 h2).symm.trans (show loadChildren (fun _ => none) [_] = .ok [_] from rfl)
  cases e2
  have e3 := (child_iff.2 (at_one.2 h3)).symm.trans (show child ["fvm"] _ = .ok _ from rfl)
  cases e3
  simp only [List.mem_cons, List.not_mem_nil, or_false] at hk
  rcases hk with rfl | rfl | rfl
  · cases (text_iff.2 hs).symm.trans (show text ["grid", "lowerCorner"] _ = .ok _ from rfl); decide
  · cases (text_iff.2 hs).symm.trans (show text ["grid", "upperCorner"] _ = .ok _ from rfl); decide
  · cases (text_iff.2 hs).symm.trans (show text ["grid", "dimension"] _ = .ok _ from rfl); decide

/-- An unknown option. -/
example : ∃ raw fvm children, First (sampleFile "0 0 0" [leaf "viscosity" "1"]) "config" raw ∧ FilledAll (fun _ => none) raw.children children ∧
    First (.node raw.data children) "fvm" fvm ∧ leaf "viscosity" "1" ∈ fvm.children :=
  ⟨_, _, _, at_one.1 (child_iff.1 rfl), (loadChildren_iff _ _ _).1 rfl, at_one.1 (child_iff.1 rfl), by simp [Tree.children, leaf]⟩

example : readSetup (F := Unit) false false digits (fun _ => some []) (fun _ _ _ => .ok ()) (sampleFile "0 0 0" [leaf "viscosity" "1"]) = .error .thrown := by rfl

end Verif.Props.Setup
