import Verif.PyScriptLemmas
import Mathlib.Algebra.Ring.Int.Defs

/-!
C103: a Python script gets every solution as it is written, with one call of `write` and one of `afterMPISync` for each.
-/

namespace Verif
namespace Props.PyScript
open Verif.PyScript PyScriptSpec Params

variable {K T : Type}

/-- C103: for every run in which the script raises no exception, and in which all solutions have the same size: at each output the script is called once with `write`, then (with several
processes) all processes wait for each other, and then it is called once with `afterMPISync`; the dictionary given to `write` shows for every variable the solution of this output without
ghost cells, also if the script has changed the elements of the arrays before. -/
theorem C103_every_output [Zero K] {names : List Str} (hn : names.Nodup) (mpi : Bool) {returns : Event T → Bool} (hr : ∀ e, returns e = true) {nx ny nz : Nat}
    (before : List (Output K T)) (o : Output K T) (ho : ∀ p ∈ before ++ [o], SameShape names nx ny nz p) :
    ∃ s s' earlier, writeAll names mpi returns before start = (.ok s, earlier) ∧ earlier.length = (if mpi then 3 else 2) * before.length ∧
      write names mpi returns o.volume o.time o.steps s = (.ok s', calls mpi s'.datasets o.time o.steps) ∧ ShowsAll names s'.heap s'.datasets o.volume := by
  obtain ⟨s, e, u⟩ := writeAll_ok hn mpi hr before (fun p hp => ho p (by simp [hp])) (s := start) (.inl rfl)
  obtain ⟨s', e', -, h', -⟩ := write_ok hn mpi hr (ho o (by simp)) u
  refine ⟨s, s', _, e, ?_, e', h'⟩
  clear * -
  induction before with
  | nil => simp
  | cons p ps ih =>
    rw [List.flatMap_cons, List.length_append, ih, List.length_cons, calls]
    cases mpi
    · simp only [Bool.false_eq_true, if_false, List.length_cons, List.length_nil]
      omega
    · simp only [if_true, List.length_cons, List.length_nil]
      omega

/-- A solution with two cells and one ghost cell on each side, for the examples. -/
def solution (a b : Int) : Volume Int := Volume.mk' 2 1 1 1 [fun i => if i = 1 then a else if i = 2 then b else -1]

/-- An output of it. -/
def output (a b : Int) (time : Nat) : Output Int Nat := ⟨solution a b, time, time, id⟩

theorem output_shape (a b : Int) (time : Nat) : SameShape ["u".toList] 2 1 1 (output a b time) :=
  ⟨rfl, rfl, rfl, rfl, Volume.wf_mk' _ _ _ _ _, fun _ => rfl⟩

example : ∀ p ∈ [output 3 4 0] ++ [output 5 6 1], SameShape ["u".toList] 2 1 1 p := by
  intro p hp
  simp only [List.cons_append, List.nil_append, List.mem_cons, List.not_mem_nil, or_false] at hp
  rcases hp with rfl | rfl <;> exact output_shape ..

/-- C103 does not extend to arrays that the script keeps: the dictionary and the arrays given to `write` are the same objects at every output, so an array kept from an earlier output shows
the latest solution. -/
theorem C103_kept_arrays_change [Zero K] {names : List Str} (hn : names.Nodup) (mpi : Bool) {returns : Event T → Bool} (hr : ∀ e, returns e = true) {nx ny nz : Nat} (o₁ o₂ : Output K T)
    (between : List (Output K T)) (ho : ∀ p ∈ o₁ :: (between ++ [o₂]), SameShape names nx ny nz p) :
    ∃ s₁ s s₂ es₁ es es₂, write names mpi returns o₁.volume o₁.time o₁.steps start = (.ok s₁, es₁) ∧
      writeAll names mpi returns between { s₁ with heap := o₁.touch s₁.heap } = (.ok s, es) ∧ write names mpi returns o₂.volume o₂.time o₂.steps s = (.ok s₂, es₂) ∧
      ShowsAll names s₁.heap s₁.datasets o₁.volume ∧ ShowsAll names s₂.heap s₁.datasets o₂.volume := by
  obtain ⟨s₁, e₁, r₁, h₁, d₁⟩ := write_ok hn mpi hr (ho o₁ (by simp)) (.inl rfl)
  obtain ⟨s, e, u⟩ := writeAll_ok hn mpi hr between (fun p hp => ho p (by simp [hp])) (s := { s₁ with heap := o₁.touch s₁.heap })
    (.inr (ready_touch r₁ (ho o₁ (by simp)).2.2.2.2.2))
  obtain ⟨s₂, e₂, r₂, h₂, d₂⟩ := write_ok hn mpi hr (ho o₂ (by simp)) u
  exact ⟨s₁, s, s₂, _, _, _, e₁, e, e₂, h₁, by rw [d₁, ← d₂]; exact h₂⟩

/-- Two outputs with different solutions, as the theorem before needs them: nothing that shows the second shows the first. -/
example (xs : List Int) (h : Shows xs (solution 5 6) 0) : ¬ Shows xs (solution 3 4) 0 := by
  rintro ⟨m', hm', -, h'⟩
  obtain ⟨m, hm, -, h⟩ := h
  have a := h 0 0 0 (by decide) (by decide) (by decide)
  have b := h' 0 0 0 (by decide) (by decide) (by decide)
  have e := a.symm.trans b
  simp only [solution, Volume.mk', List.map_cons, List.map_nil, List.getElem?_cons_zero, Option.some.injEq] at hm hm'
  subst hm hm'
  simp [Volume.interior, solution, Volume.mk', calculateIndex] at e

/-- C103 if the script raises an exception in `write`: the writer throws before the barrier. The other processes wait there. -/
theorem C103_failing_script [Zero K] {names : List Str} (hn : names.Nodup) (mpi : Bool) {returns : Event T → Bool} {nx ny nz : Nat} {o : Output K T} (ho : SameShape names nx ny nz o)
    (hr : ∀ d t n, returns (.write d t n) = false) :
    write names mpi returns o.volume o.time o.steps start = (.error .thrown, [.write (names.zip (List.range names.length)) o.time o.steps]) := by
  obtain ⟨rfl, rfl, rfl, hl, hw, -⟩ := ho
  obtain ⟨s', e, r, -⟩ := copyToDatasets_ok hn hw hl (.inl rfl)
  rw [write, e]
  simp only [hr, Bool.false_eq_true, if_false, r.datasets]

example : SameShape ["u".toList] 2 1 1 (output 3 4 0) := output_shape ..

/-- C103 needs solutions of one size: with a larger one later the writer writes outside of the arrays. -/
theorem C103_larger_solution_is_undefined :
    ∃ s, (copyToDatasets ["u".toList] (solution 3 4) start = .ok s) ∧ copyToDatasets ["u".toList] (Volume.mk' 3 1 1 1 [fun _ => (7 : Int)]) s = .error .ub := by
  refine ⟨_, rfl, ?_⟩
  rfl

end Props.PyScript
end Verif
