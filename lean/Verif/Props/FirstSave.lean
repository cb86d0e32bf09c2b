import Verif.SetupReaders
import Verif.RunSetup
import Verif.Props.Setup
import Verif.UQSetupLemmas
import Verif.Stats
import Verif.Props.UQSetup

/-!
Property C119: `writeInitialTimestep` decides whether the initial data are written.
-/

namespace Verif.Props.FirstSave
open Verif.Setup Params Integrator Verif.Simulator Verif.Props.Setup

/-! ### Specification -/

section
variable {K V F : Type} [Field K] [LinearOrder K] [AddCommGroup V] [Module K V]

/-- When a fresh writer is called with the initial data, at time 0 and before the first step, exactly these entries reach its file. -/
def Receives (eval : F → V → V → K → Res V) (dx : K) (w : WriterObj K F) (u : V) (entries : List (V × TimeInfo K)) : Prop :=
  ∃ st, w.write eval dx u ⟨0, 0⟩ w.fresh = .ok st ∧ (w.file st).entries = entries

/-- The setting `writeInitialTimestep` of a node; it need not be there and is false then. -/
def WriteInitial (conv : Conv K) (node : Tree) (b : Bool) : Prop := Value conv.bool node ["writeInitialTimestep"] b ∨ Absent node "writeInitialTimestep" ∧ b = false

variable [IsStrictOrderedRing K]

/-- C119, partial. The writer of a configuration file with a number of saves receives the initial data if and only if the setting `writeInitialTimestep` is true.
Missing: writers with coarse saves and writers without a number of saves, which ignore the setting, see `C119_ignored_with_coarse_saves` and `C119_ignored_without_saves`, and functionals, see
`C119_ignored_by_functionals`. -/
theorem C119_initial_partial (mpi : Bool) (conv : Conv K) (fvm node : Tree) (endTime : K) (he : Value conv.real fvm ["endTime"] endTime) (hend : 0 < endTime) (hnode : First fvm "writer" node)
    (n : Nat) (hn : Value conv.size node ["numberOfSaves"] n) (hn0 : n ≠ 0) (hcoarse : Absent node "numberOfCoarseSaves") (b : Bool) (hb : WriteInitial conv node b)
    (w : WriterObj K F) (hw : createWriter mpi conv fvm = .ok (some w)) (eval : F → V → V → K → Res V) (dx : K) (u : V) :
    Receives eval dx w u (if b then [(u, ⟨0, 0⟩)] else []) := by
  rcases (createWriter_iff he).1 hw with ⟨node', w', h1, h2, h3⟩ | ⟨-, h⟩
  swap
  · cases h
  cases h3
  obtain rfl := hnode.unique h1
  have hno : ∀ {k : String} {α : Type} {f : Str → Option α} {x : α}, Absent node k → Value f node [k] x → False := fun ha hv => by
    obtain ⟨c, hc, -⟩ := value_cons.1 hv
    exact absent_iff.1 ha ⟨c, hc⟩
  cases h2 with
  | @saves base n' i initial hF hn' hi hini _ =>
    obtain rfl := hn.unique hn'
    obtain rfl : b = initial := by
      rcases hb with h | ⟨h, rfl⟩ <;> rcases hini with h' | ⟨h', rfl⟩
      · exact h.unique h'
      · exact (hno h' h).elim
      · exact (hno h h').elim
      · rfl
    obtain ⟨type, name, -, -, -, rfl⟩ := hF
    rcases hi with ⟨h, -⟩ | ⟨-, y, hy, rfl⟩
    · exact absurd h hn0
    have hy0 : 0 < y := by
      have : (0 : K) < n := Nat.cast_pos.2 (Nat.pos_of_ne_zero hn0)
      by_contra hle
      have := mul_nonpos_of_nonpos_of_nonneg (not_lt.1 hle) this.le
      rw [hy] at this
      exact absurd hend (not_lt.2 this)
    cases b
    · refine ⟨((1, (⟨[], 0⟩ : FileState V K)) : Nat × FileState V K), ?_, rfl⟩
      simp only [WriterObj.write, WriterObj.fresh, Writers.Fixed.write, Writers.Fixed.next, Bool.false_eq_true, if_false, Nat.cast_one, one_mul, add_zero, if_neg (not_le.2 hy0)]
      rfl
    · refine ⟨((1, (⟨[(u, ⟨0, 0⟩)], 0⟩ : FileState V K)) : Nat × FileState V K), ?_, rfl⟩
      simp only [WriterObj.write, WriterObj.fresh, Writers.Fixed.write, Writers.Fixed.next, if_true, Nat.cast_zero, zero_mul, add_zero, le_refl]
      rfl
  | coarse _ _ _ _ h => exact (hno hcoarse h).elim
  | snapshots _ h => exact (hno h hn).elim
  | radius _ h => exact (hno h hn).elim
  | every _ h => exact (hno h hn).elim

/-- C119 is false for a writer with coarse saves (alsfvm/src/config/SimulatorSetup.cpp:375-390): the setting is read and not used, the initial data are always written. -/
theorem C119_ignored_with_coarse_saves (mpi : Bool) (conv : Conv K) (fvm node : Tree) (endTime : K) (he : Value conv.real fvm ["endTime"] endTime) (hnode : First fvm "writer" node)
    (n : Nat) (hn : Value conv.size node ["numberOfSaves"] n) (hn0 : n ≠ 0) (saves : Nat) (hcoarse : Value conv.size node ["numberOfCoarseSaves"] saves)
    (w : WriterObj K F) (hw : createWriter mpi conv fvm = .ok (some w)) (eval : F → V → V → K → Res V) (dx : K) (u : V) :
    Receives eval dx w u [(u, ⟨0, 0⟩)] := by
  rcases (createWriter_iff he).1 hw with ⟨node', w', h1, h2, h3⟩ | ⟨-, h⟩
  swap
  · cases h
  cases h3
  obtain rfl := hnode.unique h1
  have hno : ∀ {k : String} {α : Type} {f : Str → Option α} {x : α}, Absent node k → Value f node [k] x → False := fun ha hv => by
    obtain ⟨c, hc, -⟩ := value_cons.1 hv
    exact absent_iff.1 ha ⟨c, hc⟩
  cases h2 with
  | saves _ _ _ _ h => exact (hno h hcoarse).elim
  | coarse hF hn' hi =>
    obtain rfl := hn.unique hn'
    obtain ⟨type, name, -, -, -, rfl⟩ := hF
    rcases hi with ⟨h, -⟩ | ⟨-, y, hy, rfl⟩
    · exact absurd h hn0
    simp only [Receives, WriterObj.write, WriterObj.fresh, Writers.Coarse.write, Writers.CoarseState.init, Writers.Coarse.next, Int.cast_zero, zero_mul, mul_zero, add_zero, le_refl, if_true]
    split_ifs <;> exact ⟨_, rfl, rfl⟩
  | snapshots _ h => exact (hno h hn).elim
  | radius _ h => exact (hno h hn).elim
  | every _ h => exact (hno h hn).elim

/-- C119 is false for a writer without a number of saves (alsfvm/src/config/SimulatorSetup.cpp:371, 394, 415): the setting is not read, the initial data are always written. -/
theorem C119_ignored_without_saves (mpi : Bool) (conv : Conv K) (fvm node : Tree) (endTime : K) (he : Value conv.real fvm ["endTime"] endTime) (hnode : First fvm "writer" node)
    (hn : Absent node "numberOfSaves") (hr : Absent node "timeRadius")
    (w : WriterObj K F) (hw : createWriter mpi conv fvm = .ok (some w)) (eval : F → V → V → K → Res V) (dx : K) (u : V) :
    Receives eval dx w u [(u, ⟨0, 0⟩)] := by
  rcases (createWriter_iff he).1 hw with ⟨node', w', h1, h2, h3⟩ | ⟨-, h⟩
  swap
  · cases h
  cases h3
  obtain rfl := hnode.unique h1
  have hno : ∀ {k : String} {α : Type} {f : Str → Option α} {x : α}, Absent node k → Value f node [k] x → False := fun ha hv => by
    obtain ⟨c, hc, -⟩ := value_cons.1 hv
    exact absent_iff.1 ha ⟨c, hc⟩
  cases h2 with
  | saves _ h => exact (hno hn h).elim
  | coarse _ h => exact (hno hn h).elim
  | snapshots _ _ _ h => exact (hno hr h).elim
  | radius _ _ _ h => exact (hno hr h).elim
  | every hF =>
    obtain ⟨type, name, -, -, -, rfl⟩ := hF
    exact ⟨_, rfl, rfl⟩

/-- C119 is false for functionals with a number of saves (alsfvm/src/config/SimulatorSetup.cpp:567-634): the setting is not read, the value for the initial data is always written. -/
theorem C119_ignored_by_functionals (mpi : Bool) (conv : Conv K) (make : Str → Str → Tree → Res F) (fvm node : Tree) (endTime : K) (he : Value conv.real fvm ["endTime"] endTime)
    (ht : Absent node "time") (n : Nat) (hn : Value conv.size node ["numberOfSaves"] n) (hn0 : n ≠ 0)
    (w : WriterObj K F) (hw : createFunctional mpi conv make fvm node = .ok w) (eval : F → V → V → K → Res V) (heval : ∀ f o u k, ∃ v, eval f o u k = .ok v) (dx : K) (u : V) :
    ∃ f v, eval f 0 u 1 = .ok v ∧ Receives eval dx w u [(v, ⟨0, 0⟩)] := by
  have hno : ∀ {k : String} {α : Type} {f : Str → Option α} {x : α}, Absent node k → Value f node [k] x → False := fun ha hv => by
    obtain ⟨c, hc, -⟩ := value_cons.1 hv
    exact absent_iff.1 ha ⟨c, hc⟩
  cases (createFunctional_iff he).1 hw with
  | window _ _ _ _ _ _ h => exact (hno ht h).elim
  | snapshots _ _ _ _ _ _ h => exact (hno ht h).elim
  | @saves base platform name eqs out f n' i _ hF _ _ _ _ _ hn' hi =>
    obtain rfl := hn.unique hn'
    obtain ⟨type, name, -, -, -, rfl⟩ := hF
    rcases hi with ⟨h, -⟩ | ⟨-, y, hy, rfl⟩
    · exact absurd h hn0
    obtain ⟨v, hv⟩ := heval f 0 u 1
    refine ⟨f, v, hv, ((1, (⟨[(v, ⟨0, 0⟩)], 0⟩ : FileState V K)) : Nat × FileState V K), ?_, rfl⟩
    simp only [WriterObj.write, WriterObj.fresh, Writers.Fixed.write, Writers.Fixed.next, if_true, Nat.cast_zero, zero_mul, add_zero, le_refl, hv, Res.ok_bind]
    rfl

omit [AddCommGroup V] [Module K V] in
/-- C119 for statistics (alsuq/src/config/Setup.cpp:261-283): in whatever state the previous sample left a statistic with a number of saves, its first call for a sample takes the initial data into
account if and only if the setting `writeInitialTimestep` is true. -/
theorem C119_statistics [FloorRing K] {S τ : Type} (conv : Conv K) (make : Str → Str → Nat → Tree → Res S) (names : S → List Str) (config node : Tree) (platform : Str) (endTime : K)
    (he : Value conv.real config ["fvm", "endTime"] endTime) (hend : 0 < endTime) (n : Nat) (hn : Value conv.size node ["numberOfSaves"] n) (hn0 : n ≠ 0) (b : Bool) (hb : WriteInitial conv node b)
    (x : UQSetup.StatSetup K S) (hx : UQSetup.createStatistic conv make names config platform node = .ok (some x)) :
    ∃ i, x.times = .fixed (some i) b ∧ ∀ (inner : V → TimeInfo K → τ → Res τ) (u : V) (saved : Nat) (t t' : τ), inner u ⟨0, 0⟩ t = .ok t' →
      Stats.intervalCompute id i b inner u ⟨0, 0⟩ (saved, t) = .ok (1, if b then t' else t) := by
  have hh : has "numberOfSaves" node = true := by
    obtain ⟨c, hc, -⟩ := value_cons.1 hn
    exact has_iff.2 ⟨c, hc⟩
  unfold UQSetup.createStatistic at hx
  simp only [bind_iff, if_pos hh, UQSetup.initial_iff, get_iff] at hx
  obtain ⟨-, -, -, -, stat, -, -, -, -, -, files, -, b', hb', n', hn', e', he', hx⟩ := hx
  cases hx
  obtain rfl := hn.unique hn'
  obtain rfl := he.unique he'
  obtain rfl : b = b' := by
    have hno : ∀ {k : String} {α : Type} {f : Str → Option α} {x : α}, Absent node k → Value f node [k] x → False := fun ha hv => by
      obtain ⟨c, hc, -⟩ := value_cons.1 hv
      exact absent_iff.1 ha ⟨c, hc⟩
    rcases hb with h | ⟨h, rfl⟩ <;> rcases hb' with h' | ⟨h', rfl⟩
    · exact h.unique h'
    · exact (hno h' h).elim
    · exact (hno h h').elim
    · rfl
  refine ⟨endTime / n, ?_, fun inner u saved t t' ht => ?_⟩
  · simp only [quotient, if_neg hn0]
  · have hy : 0 < endTime / n := div_pos hend (Nat.cast_pos.2 (Nat.pos_of_ne_zero hn0))
    cases b
    · simp [Stats.intervalCompute, not_le.2 hy]
    · simp [Stats.intervalCompute, ht]

end

/-! ### Examples -/

/-- A configuration with a writer. -/
def withWriter (more : List (Str × Tree)) : Tree := .node [] [leaf "endTime" "1", inner "writer" ([leaf "type" "netcdf", leaf "basename" "out"] ++ more)]

/-- Evaluation of a functional that does nothing. -/
def noEval : Unit → ℚ → ℚ → ℚ → Res ℚ := fun _ _ u _ => .ok u

theorem value_endTime (more : List (Str × Tree)) : Value digits.real (withWriter more) ["endTime"] (1 : ℚ) :=
  ⟨"1".toList, by rw [← text_iff]; rfl, by decide +kernel⟩

theorem first_writer (more : List (Str × Tree)) : First (withWriter more) "writer" (inner "writer" ([leaf "type" "netcdf", leaf "basename" "out"] ++ more)).2 :=
  ⟨[leaf "endTime" "1"], [], rfl, by decide +kernel⟩

/-- Two saves, and the initial data. -/
def withInitial : List (Str × Tree) := [leaf "numberOfSaves" "2", leaf "writeInitialTimestep" "1"]

/-- Two saves. -/
def withoutInitial : List (Str × Tree) := [leaf "numberOfSaves" "2"]

/-- Two saves with two coarse saves around each, without the initial data. -/
def withCoarse : List (Str × Tree) := [leaf "numberOfSaves" "2", leaf "writeInitialTimestep" "0", leaf "numberOfCoarseSaves" "2", leaf "numberOfSkips" "1"]

/-- No number of saves, without the initial data. -/
def withoutSaves : List (Str × Tree) := [leaf "writeInitialTimestep" "0"]

/-- The node of the writer. -/
def writerNode (more : List (Str × Tree)) : Tree := (inner "writer" ([leaf "type" "netcdf", leaf "basename" "out"] ++ more)).2

example : ∃ w, createWriter (F := Unit) false digits (withWriter withInitial) = .ok (some w) ∧ Receives noEval 1 w (7 : ℚ) [(7, ⟨0, 0⟩)] := by
  obtain ⟨w, hw⟩ : ∃ w, createWriter (F := Unit) false digits (withWriter withInitial) = .ok (some w) := ⟨_, by rfl⟩
  have h2 : Value digits.size (writerNode withInitial) ["numberOfSaves"] 2 := ⟨"2".toList, by rw [← text_iff]; rfl, by decide +kernel⟩
  have hb : WriteInitial digits (writerNode withInitial) true := .inl ⟨"1".toList, by rw [← text_iff]; rfl, by decide +kernel⟩
  have ha : Absent (writerNode withInitial) "numberOfCoarseSaves" := (by unfold Absent; decide +kernel)
  exact ⟨w, hw, C119_initial_partial false digits _ _ 1 (value_endTime _) one_pos (first_writer _) 2 h2 two_ne_zero ha true hb w hw noEval 1 7⟩

example : ∃ w, createWriter (F := Unit) false digits (withWriter withoutInitial) = .ok (some w) ∧ Receives noEval 1 w (7 : ℚ) [] := by
  obtain ⟨w, hw⟩ : ∃ w, createWriter (F := Unit) false digits (withWriter withoutInitial) = .ok (some w) := ⟨_, by rfl⟩
  have h2 : Value digits.size (writerNode withoutInitial) ["numberOfSaves"] 2 := ⟨"2".toList, by rw [← text_iff]; rfl, by decide +kernel⟩
  have hb : WriteInitial digits (writerNode withoutInitial) false := .inr ⟨(by unfold Absent; decide +kernel), rfl⟩
  have ha : Absent (writerNode withoutInitial) "numberOfCoarseSaves" := (by unfold Absent; decide +kernel)
  exact ⟨w, hw, C119_initial_partial false digits _ _ 1 (value_endTime _) one_pos (first_writer _) 2 h2 two_ne_zero ha false hb w hw noEval 1 7⟩

/-- C119 is false as it stands: a writer with coarse saves is told not to write the initial data, and writes them. -/
theorem C119_fails : ∃ w, createWriter (F := Unit) false digits (withWriter withCoarse) = .ok (some w) ∧ WriteInitial digits (writerNode withCoarse) false ∧
    Receives noEval 1 w (7 : ℚ) [(7, ⟨0, 0⟩)] ∧ ¬ Receives noEval 1 w (7 : ℚ) [] := by
  obtain ⟨w, hw⟩ : ∃ w, createWriter (F := Unit) false digits (withWriter withCoarse) = .ok (some w) := ⟨_, by rfl⟩
  have h2 : Value digits.size (writerNode withCoarse) ["numberOfSaves"] 2 := ⟨"2".toList, by rw [← text_iff]; rfl, by decide +kernel⟩
  have hc : Value digits.size (writerNode withCoarse) ["numberOfCoarseSaves"] 2 := ⟨"2".toList, by rw [← text_iff]; rfl, by decide +kernel⟩
  have hb : WriteInitial digits (writerNode withCoarse) false := .inl ⟨"0".toList, by rw [← text_iff]; rfl, by decide +kernel⟩
  have h := C119_ignored_with_coarse_saves false digits _ _ 1 (value_endTime _) (first_writer _) 2 h2 two_ne_zero 2 hc w hw noEval 1 7
  refine ⟨w, hw, hb, h, ?_⟩
  rintro ⟨st, h1, h2⟩
  obtain ⟨st', h3, h4⟩ := h
  rw [h1] at h3
  cases h3
  rw [h2] at h4
  cases h4

example : ∃ w, createWriter (F := Unit) false digits (withWriter withoutSaves) = .ok (some w) ∧ WriteInitial digits (writerNode withoutSaves) false ∧ Receives noEval 1 w (7 : ℚ) [(7, ⟨0, 0⟩)] := by
  obtain ⟨w, hw⟩ : ∃ w, createWriter (F := Unit) false digits (withWriter withoutSaves) = .ok (some w) := ⟨_, by rfl⟩
  have hb : WriteInitial digits (writerNode withoutSaves) false := .inl ⟨"0".toList, by rw [← text_iff]; rfl, by decide +kernel⟩
  have h1 : Absent (writerNode withoutSaves) "numberOfSaves" := (by unfold Absent; decide +kernel)
  have h2 : Absent (writerNode withoutSaves) "timeRadius" := (by unfold Absent; decide +kernel)
  exact ⟨w, hw, hb, C119_ignored_without_saves false digits _ _ 1 (value_endTime _) (first_writer _) h1 h2 w hw noEval 1 7⟩

/-- A functional without the initial data. -/
def functionalNode : Tree := .node [] [leaf "name" "mean", leaf "numberOfSaves" "2", leaf "writeInitialTimestep" "0", inner "writer" [leaf "type" "netcdf", leaf "basename" "out"]]

/-- Its configuration. -/
def functionalConfiguration : Tree := .node [] [leaf "endTime" "1", leaf "platform" "cpu", leaf "equation" "burgers"]

example : ∃ w, createFunctional (F := Unit) false digits (fun _ _ _ => .ok ()) functionalConfiguration functionalNode = .ok w ∧ WriteInitial digits functionalNode false ∧
    ∃ f v, noEval f 0 7 1 = .ok v ∧ Receives noEval 1 w (7 : ℚ) [(v, ⟨0, 0⟩)] := by
  obtain ⟨w, hw⟩ : ∃ w, createFunctional (F := Unit) false digits (fun _ _ _ => .ok ()) functionalConfiguration functionalNode = .ok w := ⟨_, by rfl⟩
  have he : Value digits.real functionalConfiguration ["endTime"] (1 : ℚ) := ⟨"1".toList, by rw [← text_iff]; rfl, by decide +kernel⟩
  have ha : Absent functionalNode "time" := (by unfold Absent; decide +kernel)
  have h2 : Value digits.size functionalNode ["numberOfSaves"] 2 := ⟨"2".toList, by rw [← text_iff]; rfl, by decide +kernel⟩
  have hb : WriteInitial digits functionalNode false := .inl ⟨"0".toList, by rw [← text_iff]; rfl, by decide +kernel⟩
  exact ⟨w, hw, hb, C119_ignored_by_functionals false digits _ _ _ 1 he ha 2 h2 two_ne_zero w hw noEval (fun _ _ u _ => ⟨u, rfl⟩) 1 7⟩

/-- A statistic with the initial data. -/
def statisticNode : Tree := (UQSetup.statistic [leaf "numberOfSaves" "2", leaf "writeInitialTimestep" "1"]).2

/-- Its configuration. -/
def statisticConfiguration : Tree := .node [] [inner "fvm" [leaf "endTime" "1"], inner "uq" [leaf "samples" "16"]]

/-- The second sample, after three saves of the first one: a statistic that adds the values gets the initial value 7. -/
example : ∃ x i, UQSetup.createStatistic digits UQSetup.byName UQSetup.twoFiles statisticConfiguration "cpu".toList statisticNode = .ok (some x) ∧ x.times = .fixed (some i) true ∧
    Stats.intervalCompute id i true (fun (u : ℚ) _ (t : ℚ) => .ok (t + u)) 7 ⟨0, 0⟩ (3, 2) = .ok (1, 9) := by
  obtain ⟨x, hx⟩ : ∃ x, UQSetup.createStatistic digits UQSetup.byName UQSetup.twoFiles statisticConfiguration "cpu".toList statisticNode = .ok (some x) := ⟨_, by rfl⟩
  have he : Value digits.real statisticConfiguration ["fvm", "endTime"] (1 : ℚ) := ⟨"1".toList, by rw [← text_iff]; rfl, by decide +kernel⟩
  have h2 : Value digits.size statisticNode ["numberOfSaves"] 2 := ⟨"2".toList, by rw [← text_iff]; rfl, by decide +kernel⟩
  have hb : WriteInitial digits statisticNode true := .inl ⟨"1".toList, by rw [← text_iff]; rfl, by decide +kernel⟩
  obtain ⟨i, hi, h⟩ := C119_statistics (V := ℚ) (τ := ℚ) digits UQSetup.byName UQSetup.twoFiles _ _ _ 1 he one_pos 2 h2 two_ne_zero true hb x hx
  exact ⟨x, i, hx, hi, h _ 7 3 2 9 (by norm_num)⟩

end Verif.Props.FirstSave
