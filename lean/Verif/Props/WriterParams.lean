import Verif.WriterParamsLemmas
import Verif.SampleFiles

/-! C111: scripts and libraries used as writers are told where they run. -/

namespace Verif.Props.WriterParams
open Verif Verif.Params Verif.WriterParams

/-- The entries of a writer in the configuration file have names without dots. -/
def Simple (t : Tree) : Prop := ∀ p ∈ t.children, p.1 ≠ [] ∧ '.' ∉ p.1

/-- The value of the first entry with this name. -/
def firstValue (key : Str) (t : Tree) : Option Str := (t.children.find? fun p => p.1 == key).map fun p => p.2.data

theorem value_eq (key : Str) (t : Tree) : value key t = firstValue key t := by
  rw [value, find, Option.map_map]
  rfl

/-- C111, partial. In a run with samples the script of the example learns its process, the number of processes and its sample, and it finds every other entry of the configuration, whatever the
configuration says for the four names that are set. Missing: runs without samples, see `C111_fails_without_samples`. -/
theorem C111_samples_partial (t : Tree) (ht : Simple t) (names : List Str) (hnames : ∀ w ∈ names, w ≠ [] ∧ ∀ c ∈ w, ¬(c = ' ' ∨ c = '\t' ∨ c = '\n' ∨ c = '\r' ∨ c = '\x0b' ∨ c = '\x0c'))
    (i : Nat) (hi : i < names.length) (rank size : Int) :
    ∃ d, dictionary (uqParameters names i rank size t) = .ok d ∧ plotInit d = .ok ⟨rank, size, names[i]⟩ ∧
      ∀ key, key ∉ ["mpi_rank".toList, "mpi_size".toList, "group_names".toList, "group_index".toList] → item key d = firstValue key t := by
  have hsp : ∀ w ∈ names, w ≠ [] ∧ ∀ c ∈ w, space c = false := by
    intro w hw
    refine ⟨(hnames w hw).1, fun c hc => ?_⟩
    have := (hnames w hw).2 c hc
    push Not at this
    simp [space, this]
  have n1 : ("mpi_rank".toList : Str) ≠ [] ∧ '.' ∉ "mpi_rank".toList := by decide
  have n2 : ("mpi_size".toList : Str) ≠ [] ∧ '.' ∉ "mpi_size".toList := by decide
  have n3 : ("group_names".toList : Str) ≠ [] ∧ '.' ∉ "group_names".toList := by decide
  have n4 : ("group_index".toList : Str) ≠ [] ∧ '.' ∉ "group_index".toList := by decide
  have hv : ∀ key, value key (uqParameters names i rank size t) = if key = "group_index".toList then some (decimal i) else if key = "group_names".toList then some (join names) else
      if key = "mpi_size".toList then some (decimal size) else if key = "mpi_rank".toList then some (decimal rank) else value key t := by
    intro key
    unfold uqParameters
    simp only [addInteger, addVector]
    rw [value_add _ _ _ _ n4.1 n4.2, value_add _ _ _ _ n3.1 n3.2, value_add _ _ _ _ n2.1 n2.2, value_add _ _ _ _ n1.1 n1.2]
  obtain ⟨d, hd, hitem⟩ := dictionary_ok (uqParameters names i rank size t) (plain_add _ n4.1 n4.2 (plain_add _ n3.1 n3.2 (plain_add _ n2.1 n2.2 (plain_add _ n1.1 n1.2 ht))))
  refine ⟨d, hd, ?_, fun key hkey => ?_⟩
  · have e1 : item "mpi_rank".toList d = some (decimal rank) := by
      rw [hitem, hv, if_neg (by decide), if_neg (by decide), if_neg (by decide), if_pos rfl]
    have e2 : item "mpi_size".toList d = some (decimal size) := by
      rw [hitem, hv, if_neg (by decide), if_neg (by decide), if_pos rfl]
    have e3 : item "group_names".toList d = some (join names) := by
      rw [hitem, hv, if_neg (by decide), if_pos rfl]
    have e4 : item "group_index".toList d = some (decimal i) := by
      rw [hitem, hv, if_pos rfl]
    have e5 : nth names i = .ok names[i] := by
      unfold nth
      simp only [if_neg (show ¬((i : Int) < 0) by omega), Int.toNat_natCast, List.getElem?_eq_getElem hi]
    simp only [plotInit, index, e1, e2, e3, e4, int_decimal, Res.ok_bind, words_join names hsp, e5]
  · simp only [List.mem_cons, List.not_mem_nil, or_false, not_or] at hkey
    rw [hitem, hv, if_neg hkey.2.2.2, if_neg hkey.2.2.1, if_neg hkey.2.1, if_neg hkey.1, value_eq]

/-- C111 for the names that the program makes: the process at position `i` of those that work on different samples is told its own sample. -/
theorem C111_own_sample_partial (t : Tree) (ht : Simple t) (samples : List Nat) (i : Nat) (hi : i < samples.length) (rank size : Int) :
    ∃ d, dictionary (uqParameters (SampleFiles.makeGroupNames samples) i rank size t) = .ok d ∧ plotInit d = .ok ⟨rank, size, "sample_".toList ++ Nat.toDigits 10 samples[i]⟩ := by
  have hn : ∀ w ∈ SampleFiles.makeGroupNames samples, w ≠ [] ∧ ∀ c ∈ w, ¬(c = ' ' ∨ c = '\t' ∨ c = '\n' ∨ c = '\r' ∨ c = '\x0b' ∨ c = '\x0c') := by
    intro w hw
    obtain ⟨s, -, rfl⟩ := List.mem_map.1 hw
    refine ⟨by simp, fun c hc => ?_⟩
    rcases List.mem_append.1 hc with hc | hc
    · have : ∀ c ∈ "sample_".toList, ¬(c = ' ' ∨ c = '\t' ∨ c = '\n' ∨ c = '\r' ∨ c = '\x0b' ∨ c = '\x0c') := by decide
      exact this c hc
    · have := Nat.isDigit_of_mem_toDigits (by decide) (by decide) hc
      rintro (rfl | rfl | rfl | rfl | rfl | rfl) <;> exact absurd this (by decide)
  obtain ⟨d, h1, h2, -⟩ := C111_samples_partial t ht _ hn i (by simpa [SampleFiles.makeGroupNames] using hi) rank size
  exact ⟨d, h1, by rw [h2]; simp [SampleFiles.makeGroupNames]⟩

/-- C111 is false for runs without samples on several processes: the factory puts the numbers into a copy of the parameters that it does not hand over. Every process is process 0 of 0. -/
theorem C111_fails_without_samples (t : Tree) (ht : Simple t) (h1 : ∀ p ∈ t.children, p.1 ≠ "mpi_rank".toList ∧ p.1 ≠ "group_names".toList) (rank size : Int) :
    ∃ d, dictionary (mpiParameters rank size t) = .ok d ∧ plotInit d = .ok ⟨0, 0, "sample_0".toList⟩ := by
  obtain ⟨d, hd, hitem⟩ := dictionary_ok t ht
  have h0 : ∀ key, (∀ p ∈ t.children, p.1 ≠ key) → item key d = none := by
    intro key hk
    rw [hitem, value_eq, firstValue, Option.map_eq_none_iff, List.find?_eq_none]
    intro p hp e
    exact hk p hp (by simpa using e)
  refine ⟨d, hd, ?_⟩
  simp only [plotInit, h0 _ fun p hp => (h1 p hp).1, h0 _ fun p hp => (h1 p hp).2, Res.ok_bind]

/-- The writer of the example (kelvinhelmholtz_plot_python.xml). -/
def exWriter : Tree := .node [] [("type".toList, .node "python".toList []), ("basename".toList, .node "kh".toList []), ("pythonClass".toList, .node "PlotKH".toList []),
  ("numberOfSaves".toList, .node "10".toList [])]

theorem exSimple : Simple exWriter := by
  intro p hp
  simp only [exWriter, Tree.children, List.mem_cons, List.not_mem_nil, or_false] at hp
  rcases hp with rfl | rfl | rfl | rfl <;> decide

/-- Process 3 of 4 with the samples 6, 7, 8 and 9; and process 1 of 2 without samples. -/
example : (∃ d, dictionary (uqParameters (SampleFiles.makeGroupNames [6, 7, 8, 9]) 3 3 4 exWriter) = .ok d ∧ plotInit d = .ok ⟨3, 4, "sample_9".toList⟩) ∧
    ∃ d, dictionary (mpiParameters 1 2 exWriter) = .ok d ∧ plotInit d = .ok ⟨0, 0, "sample_0".toList⟩ :=
  ⟨by
    have e : "sample_".toList ++ Nat.toDigits 10 ([6, 7, 8, 9][3]) = "sample_9".toList := by decide
    rw [← e]
    exact C111_own_sample_partial exWriter exSimple [6, 7, 8, 9] 3 (by decide) 3 4, C111_fails_without_samples exWriter exSimple (by
    intro p hp
    simp only [exWriter, Tree.children, List.mem_cons, List.not_mem_nil, or_false] at hp
    rcases hp with rfl | rfl | rfl | rfl <;> decide) 1 2⟩

/-- The hypotheses of `C111_samples_partial` hold for other names, also if the configuration has an entry `mpi_rank`; the other entries are found. -/
example : ∃ d, dictionary (uqParameters ["left".toList, "right".toList] 1 5 8 (.node [] (exWriter.children ++ [("mpi_rank".toList, .node "x".toList [])]))) = .ok d ∧
    plotInit d = .ok ⟨5, 8, "right".toList⟩ ∧ item "basename".toList d = some "kh".toList := by
  have hs : Simple (.node [] (exWriter.children ++ [("mpi_rank".toList, .node "x".toList [])])) := by
    intro p hp
    rcases List.mem_append.1 hp with hp | hp
    · exact exSimple p hp
    · rw [List.mem_singleton.1 hp]; decide
  obtain ⟨d, h1, h2, h3⟩ := C111_samples_partial _ hs ["left".toList, "right".toList] (by decide) 1 (by decide) 5 8
  exact ⟨d, h1, h2, (h3 _ (by decide)).trans (by decide)⟩

end Verif.Props.WriterParams
