import Mathlib.Data.Rat.Floor
import Mathlib.Tactic.NormNum
import Verif.TimerLemmas

/-!
Property C104: the timings in the run report.
-/

namespace Verif
namespace Props.Timer
open Params TimerSpec Verif.Timer

variable {K : Type} [Field K] [LinearOrder K] [IsStrictOrderedRing K] [FloorRing K]

omit [IsStrictOrderedRing K] in
/-- C104: whatever the program does, the report gives for every block the sum of the durations of its runs, and for a group that is not timed itself the sum over its outermost blocks. -/
theorem C104_times (P : Program K) (now : K) (pr : Print K) {report : Tree} (h : timings pr (run P (start now)).root = .ok report) (p : Name)
    (hp : ∃ b ∈ P.blocks, p <+: b.1) (hr : ∀ k ∈ p, k ∉ ["totalTime".toList, "percentOfProgramTotalTime".toList, "hasIndividualTimeData".toList]) :
    walk ("allTimedEvents".toList :: p ++ ["totalTime".toList]) report = .ok (.node (pr.real (timeOf P.blocks p)) []) := by
  obtain ⟨hh, -⟩ := run_holds P (start now) [] holds_empty
  rw [List.nil_append] at hh
  rw [timings] at h
  rcases ht : (run P (start now)).root.tree pr (run P (start now)).root.total with e | T
  · rw [ht] at h; cases h
  · rw [ht] at h
    cases h
    obtain ⟨b, hb, hpb⟩ := hp
    obtain ⟨t', ht'⟩ := look_some hh b hb hpb
    obtain ⟨T', hT', hTT⟩ := tree_walk hr ht ht'
    obtain ⟨pc, -, hw, -⟩ := tree_entries hTT
    rw [look_holds hh ht'] at hw
    have : walk ["allTimedEvents".toList] (.node [] [("allTimedEvents".toList, T)]) = .ok T := by
      simp only [walk, find, Tree.children, List.find?_cons, beq_self_eq_true, Option.map_some]
    rw [List.cons_append, ← List.singleton_append, walk_append _ _ this, walk_append _ _ hT', hw]

/-- C104 (partial): in a program that consists of one timed block, as `alsvinncli` does, and in which no block runs inside another one of the group it is counted for, the report exists, the
percentage of every block and group is the share of the time in which one of its blocks was running, and it lies between 0 and 100. Missing: programs that time blocks before the
outermost one, as `alsuqcli` does (`C104_fails_for_the_setup`), programs that are built without timers (`C104_fails_without_timers`) and several threads (`C104_threads_race`). -/
theorem C104_percentages_partial (main : Str) (inner : Program K) (now : K) (pr : Print K) (hsteady : inner.Steady) (hpos : 0 < inner.duration)
    (hnames : inner.Names fun q => ∃ k ks, q = main :: k :: ks)
    (hsep : ∀ p, (Program.block [main] inner .finished).Separate (outermost (Program.block [main] inner .finished).blocks p)) :
    ∃ report, timings pr (run (.block [main] inner .finished) (start now)).root = .ok report ∧
      ∀ p, (∃ b ∈ (Program.block [main] inner .finished).blocks, p <+: b.1) →
        (∀ k ∈ p, k ∉ ["totalTime".toList, "percentOfProgramTotalTime".toList, "hasIndividualTimeData".toList]) →
        ∃ n : Int, n = ⌈100 * (Program.block [main] inner .finished).spent (outermost (Program.block [main] inner .finished).blocks p) / inner.duration⌉ ∧ 0 ≤ n ∧ n ≤ 100 ∧
          walk ("allTimedEvents".toList :: p ++ ["percentOfProgramTotalTime".toList]) report = .ok (.node (pr.int n) []) := by
  set P := Program.block [main] inner .finished with hP
  have hd : P.duration = inner.duration := by rw [hP, Program.duration, Program.duration, add_zero]
  have hst : P.Steady := ⟨hsteady, trivial⟩
  obtain ⟨hh, -⟩ := run_holds P (start now) [] holds_empty
  rw [List.nil_append] at hh
  have htime : ∀ p, timeOf P.blocks p = P.spent (outermost P.blocks p) := fun p => by rw [timeOf_eq, spent_eq (hsep p)]
  have hblocks : ∀ (Q : Program K), (Q.Names fun q => ∃ k ks, q = main :: k :: ks) → ∀ b ∈ Q.blocks, ∃ k ks, b.1 = main :: k :: ks := by
    intro Q
    induction Q with
    | finished => intro _ b hb; cases hb
    | work d n ih => intro h; exact ih h
    | block q i n ihi ihn =>
      intro h b hb
      rw [Program.blocks] at hb
      rcases List.mem_append.1 hb with hb | hb
      · exact ihi h.2.1 b hb
      · rcases List.mem_cons.1 hb with rfl | hb
        · exact h.1
        · exact ihn h.2.2 b hb
  have hroot : (run P (start now)).root.total = inner.duration := by
    rw [total_eq hh, htime []]
    have : outermost P.blocks [] [main] = true := by
      rw [outermost_iff]
      refine ⟨List.nil_prefix, fun b hb _ h => ?_⟩
      rw [hP, Program.blocks] at hb
      rcases List.mem_append.1 hb with hb | hb
      · obtain ⟨k, ks, e⟩ := hblocks inner hnames b hb
        rw [e] at h
        simp at h
      · simp only [Program.blocks, List.mem_singleton] at hb
        rw [hb]
    rw [hP, Program.spent, ← hP, if_pos this, Program.spent, add_zero]
  have hpc : ∀ p t', look p (run P (start now)).root = some t' → percent t'.total inner.duration = .ok ⌈100 * P.spent (outermost P.blocks p) / inner.duration⌉ ∧
      0 ≤ ⌈100 * P.spent (outermost P.blocks p) / inner.duration⌉ ∧ ⌈100 * P.spent (outermost P.blocks p) / inner.duration⌉ ≤ 100 := by
    intro p t' ht'
    rw [look_holds hh ht', htime p]
    have := spent_bounds (outermost P.blocks p) hst
    exact percent_ok this.1 (hd ▸ this.2) hpos
  obtain ⟨T, hT⟩ := tree_ok (pr := pr) (total := inner.duration) _ le_rfl hh fun p t' ht' => ⟨_, (hpc p t' ht').1⟩
  refine ⟨.node [] [("allTimedEvents".toList, T)], ?_, ?_⟩
  · rw [timings, hroot, hT]
    rfl
  · rintro p ⟨b, hb, hpb⟩ hr
    obtain ⟨t', ht'⟩ := look_some hh b hb hpb
    obtain ⟨T', hT', hTT⟩ := tree_walk hr hT ht'
    obtain ⟨pc, hpc', -, hw⟩ := tree_entries hTT
    obtain ⟨h1, h2, h3⟩ := hpc p t' ht'
    rw [h1, Except.ok.injEq] at hpc'
    refine ⟨_, rfl, h2, h3, ?_⟩
    have : walk ["allTimedEvents".toList] (.node [] [("allTimedEvents".toList, T)]) = .ok T := by
      simp only [walk, find, Tree.children, List.find?_cons, beq_self_eq_true, Option.map_some]
    rw [List.cons_append, ← List.singleton_append, walk_append _ _ this, walk_append _ _ hT', hw, hpc']

/-- A run of two steps on one process, with Python initial data: the time of the initial data is 3, the two evaluations of reconstruction and flux take 2 + 1 each. -/
def twoSteps : Program ℚ :=
  .work 1 (.block ["alsvinn".toList, "fvm".toList, "init".toList, "python".toList]
      (.work 1 (.block ["alsvinn".toList, "fvm".toList, "init".toList, "python".toList, "evaluation".toList] (.work 2 .finished) .finished))
    (.block ["alsvinn".toList, "fvm".toList, "reconstruction".toList] (.work 2 .finished) (.block ["alsvinn".toList, "fvm".toList, "numflux".toList] (.work 1 .finished)
    (.block ["alsvinn".toList, "fvm".toList, "reconstruction".toList] (.work 2 .finished) (.block ["alsvinn".toList, "fvm".toList, "numflux".toList] (.work 1 .finished)
    .finished)))))

/-- The hypotheses of `C104_percentages_partial` hold for the run of two steps, in which the group of the solver has taken nine tenths of the time, and `C104_times` applies as well. -/
example : twoSteps.Steady ∧ 0 < twoSteps.duration ∧ (twoSteps.Names fun q => ∃ k ks, q = "alsvinn".toList :: k :: ks) ∧
    (∀ p, (Program.block ["alsvinn".toList] twoSteps .finished).Separate (outermost (Program.block ["alsvinn".toList] twoSteps .finished).blocks p)) ∧
    timeOf (Program.block ["alsvinn".toList] twoSteps .finished).blocks ["alsvinn".toList, "fvm".toList] = 9 ∧ twoSteps.duration = 10 := by
  refine ⟨?_, ?_, ?_, fun p => separate_of_nested p ?_ fun _ h => h, by decide +kernel, ?_⟩
  · norm_num [twoSteps, Program.Steady]
  · norm_num [twoSteps, Program.duration]
  · simp [twoSteps, Program.Names]
  · simp [twoSteps, Nested, Program.blocks]
  · norm_num [twoSteps, Program.duration]

/-- C104 fails for `alsuqcli`: the block of the setup (alsuq/src/config/Setup.cpp:56) is run before the outermost block (alsuqcli/src/main.cpp:155-158), whose time is taken as the time of the
program. A setup that takes 2 and a run that takes 1 are reported as 200 and 100 percent. -/
theorem C104_fails_for_the_setup (now : ℚ) (pr : Print ℚ) :
    let P : Program ℚ := .block ["alsvinn".toList, "uq".toList, "init".toList] (.work 2 .finished) (.block ["alsvinn".toList] (.work 1 .finished) .finished)
    ∃ report, timings pr (run P (start now)).root = .ok report ∧ P.duration = 3 ∧
      walk ["allTimedEvents".toList, "alsvinn".toList, "uq".toList, "init".toList, "percentOfProgramTotalTime".toList] report = .ok (.node (pr.int 200) []) ∧
      walk ["allTimedEvents".toList, "alsvinn".toList, "percentOfProgramTotalTime".toList] report = .ok (.node (pr.int 100) []) := by
  intro P
  obtain ⟨hh, -⟩ := run_holds P (start now) [] holds_empty
  rw [List.nil_append] at hh
  have hroot : (run P (start now)).root.total = 1 := by
    rw [total_eq hh]
    decide +kernel
  have hpc : ∀ a : ℚ, 0 ≤ a → a ≤ 3 → percent a 1 = .ok ⌈100 * a⌉ := by
    intro a h0 h1
    have h2 : 0 ≤ ⌈100 * a⌉ := Int.ceil_nonneg (by positivity)
    have h3 : ⌈100 * a⌉ ≤ 300 := by
      rw [Int.ceil_le]
      push_cast
      linarith
    rw [percent, if_neg one_ne_zero, div_one, if_pos ⟨by omega, by omega⟩]
  have hpc' : ∀ p t', look p (run P (start now)).root = some t' → percent t'.total 1 = .ok ⌈100 * timeOf P.blocks p⌉ := by
    intro p t' ht'
    rw [look_holds hh ht']
    have hb : (P.blocks.map (·.2)).sum = 3 := by decide +kernel
    have := timeOf_bounds (L := P.blocks) (by decide +kernel) p
    exact hpc _ this.1 (hb ▸ this.2)
  obtain ⟨T, hT⟩ := tree_ok (pr := pr) (total := (1 : ℚ)) _ le_rfl hh fun p t' ht' => ⟨_, hpc' p t' ht'⟩
  have key : ∀ p, (∃ b ∈ P.blocks, p <+: b.1) → (∀ k ∈ p, k ∉ reserved) →
      walk ("allTimedEvents".toList :: p ++ ["percentOfProgramTotalTime".toList]) (.node [] [("allTimedEvents".toList, T)]) = .ok (.node (pr.int ⌈100 * timeOf P.blocks p⌉) []) := by
    rintro p ⟨b, hb, hpb⟩ hr
    obtain ⟨t', ht'⟩ := look_some hh b hb hpb
    obtain ⟨T', hT', hTT⟩ := tree_walk hr hT ht'
    obtain ⟨pc, hp', -, hw⟩ := tree_entries hTT
    rw [hpc' p t' ht', Except.ok.injEq] at hp'
    have : walk ["allTimedEvents".toList] (.node [] [("allTimedEvents".toList, T)]) = .ok T := by
      simp only [walk, find, Tree.children, List.find?_cons, beq_self_eq_true, Option.map_some]
    rw [List.cons_append, ← List.singleton_append, walk_append _ _ this, walk_append _ _ hT', hw, hp']
  refine ⟨.node [] [("allTimedEvents".toList, T)], ?_, ?_, ?_, ?_⟩
  · rw [timings, hroot, hT]
    rfl
  · decide +kernel
  · have := key ["alsvinn".toList, "uq".toList, "init".toList] (by decide +kernel) (by decide)
    have e : timeOf P.blocks ["alsvinn".toList, "uq".toList, "init".toList] = 2 := by decide +kernel
    rw [e] at this
    have e2 : ⌈(100 : ℚ) * 2⌉ = 200 := by norm_num
    rw [e2] at this
    exact this
  · have := key ["alsvinn".toList] (by decide +kernel) (by decide)
    have e : timeOf P.blocks ["alsvinn".toList] = 1 := by decide +kernel
    rw [e] at this
    have e2 : ⌈(100 : ℚ) * 1⌉ = 100 := by norm_num
    rw [e2] at this
    exact this

omit [IsStrictOrderedRing K] in
/-- C104 fails for programs that are built without timers (`ALSVINN_USE_TIMERS` off, alsutils/include/alsutils/timer/Timer.hpp:47-51): the report of the run, which is written nevertheless,
converts 0 divided by 0 to an integer, which is undefined. -/
theorem C104_fails_without_timers (P : Program K) (h : P.blocks = []) (now : K) (pr : Print K) : timings pr (run P (start now)).root = .error .ub := by
  obtain ⟨hh, -⟩ := run_holds P (start now) [] holds_empty
  rw [List.nil_append, h] at hh
  have h0 : (run P (start now)).root.total = 0 := by
    rw [total_eq hh]
    rfl
  rw [timings, h0]
  rcases hr : (run P (start now)).root with ⟨c, u, b⟩
  rw [hr] at h0
  rw [Data.tree, h0, percent, if_pos rfl]
  rfl

/-- A program without timed blocks. -/
example : (Program.work (5 : ℚ) .finished).blocks = [] := rfl

omit [LinearOrder K] [IsStrictOrderedRing K] [FloorRing K] in
/-- C104 fails for several threads: whenever two threads run a timed block at the same time, both modify the same map without any lock, which is a data race. -/
theorem C104_threads_race {P Q : Program K} (hP : ∃ b ∈ P.blocks, b.1 ≠ []) (hQ : ∃ b ∈ Q.blocks, b.1 ≠ []) : ∃ m, m ∈ modified P ∧ m ∈ modified Q := by
  have key : ∀ P : Program K, (∃ b ∈ P.blocks, b.1 ≠ []) → [] ∈ modified P := by
    intro P
    induction P with
    | finished => rintro ⟨b, hb, -⟩; cases hb
    | work d n ih => exact ih
    | block q i n ihi ihn =>
      rintro ⟨b, hb, hne⟩
      rw [modified]
      rw [Program.blocks] at hb
      rcases List.mem_append.1 hb with hb | hb
      · simp [ihi ⟨b, hb, hne⟩]
      · rcases List.mem_cons.1 hb with rfl | hb
        · rcases q with _ | ⟨k, ks⟩
          · exact absurd rfl hne
          · simp [lookups]
        · simp [ihn ⟨b, hb, hne⟩]
  exact ⟨[], key P hP, key Q hQ⟩

/-- It happens in every step of a run on several processes: the thread that exchanges cells and the main thread both run timed blocks. -/
example (a b c d : K) : (∃ x ∈ (exchange a b).blocks, x.1 ≠ []) ∧ ∃ x ∈ (inner c d).blocks, x.1 ≠ [] := by
  simp [exchange, inner, Program.blocks]

/-- C104: the run report has the timings, and what the program has told about the run; the command line is that of the run with a blank after each argument. -/
theorem C104_run_report {full : Str → Str} {disk : Report.Disk} {info : String → Str} {boost : Tree} {cuda : Option Tree} {c : Report.Cache} {basic : Tree}
    (h : Report.makeBasicReport full disk info boost cuda c = .ok basic) (timings : Tree) (executable name cpu wall timesteps : Str) (clock : String → Str) (argv : List Str) :
    let report := runReport basic timings executable name cpu wall timesteps clock argv
    walk ["report".toList, "timings".toList] report = .ok timings ∧ getString "report.executable".toList report = .ok executable ∧
      getString "report.name".toList report = .ok name ∧ getString "report.cpuDuration".toList report = .ok cpu ∧ getString "report.wallTime".toList report = .ok wall ∧
      getString "report.timesteps".toList report = .ok timesteps ∧ getString "report.command".toList report = .ok (argv.flatMap fun a => a ++ " ".toList) := by
  have hfr : ∀ k : Str, k ≠ [] → '.' ∉ k → fragments ("report.".toList ++ k) = ["report".toList, k] := fun k h1 h2 => Report.fragments_report h1 h2
  have f1 := hfr "executable".toList (by decide) (by decide)
  have f2 := hfr "name".toList (by decide) (by decide)
  have f3 := hfr "endTime".toList (by decide) (by decide)
  have f4 := hfr "cpuDuration".toList (by decide) (by decide)
  have f5 := hfr "cpuDurationHuman".toList (by decide) (by decide)
  have f6 := hfr "wallTime".toList (by decide) (by decide)
  have f7 := hfr "wallTimeHuman".toList (by decide) (by decide)
  have f8 := hfr "timesteps".toList (by decide) (by decide)
  have f9 := hfr "command".toList (by decide) (by decide)
  have hT := entry_addChild timings (basic_entry h)
  intro report
  have hrep : report = putAt ["report".toList, "command".toList] (commandLine argv) (putAt ["report".toList, "timesteps".toList] timesteps
    (putAt ["report".toList, "wallTimeHuman".toList] (clock "wallTimeHuman") (putAt ["report".toList, "wallTime".toList] wall
    (putAt ["report".toList, "cpuDurationHuman".toList] (clock "cpuDurationHuman") (putAt ["report".toList, "cpuDuration".toList] cpu
    (putAt ["report".toList, "endTime".toList] (clock "endTime") (putAt ["report".toList, "name".toList] name
    (putAt ["report".toList, "executable".toList] executable (Report.addChild "timings" timings basic))))))))) := by
    show addString ("report.".toList ++ "command".toList) _ (addString ("report.".toList ++ "timesteps".toList) _ (addString ("report.".toList ++ "wallTimeHuman".toList) _
      (addString ("report.".toList ++ "wallTime".toList) _ (addString ("report.".toList ++ "cpuDurationHuman".toList) _ (addString ("report.".toList ++ "cpuDuration".toList) _
      (addString ("report.".toList ++ "endTime".toList) _ (addString ("report.".toList ++ "name".toList) _ (addString ("report.".toList ++ "executable".toList) _ _)))))))) = _
    simp only [addString, f1, f2, f3, f4, f5, f6, f7, f8, f9]
  have get : ∀ k : Str, k ≠ [] → '.' ∉ k → getString ("report.".toList ++ k) report = (entry report k).map Tree.data := fun k h1 h2 => by
    rw [getString, getData, hfr k h1 h2]
  refine ⟨?_, (get "executable".toList (by decide) (by decide)).trans ?_, (get "name".toList (by decide) (by decide)).trans ?_,
    (get "cpuDuration".toList (by decide) (by decide)).trans ?_, (get "wallTime".toList (by decide) (by decide)).trans ?_,
    (get "timesteps".toList (by decide) (by decide)).trans ?_, (get "command".toList (by decide) (by decide)).trans ?_⟩
  · change entry report _ = _
    rw [hrep]
    repeat rw [entry_put_ne (by decide)]
    exact hT
  · rw [hrep]
    repeat rw [entry_put_ne (by decide)]
    exact entry_put _ _ _
  · rw [hrep]
    repeat rw [entry_put_ne (by decide)]
    exact entry_put _ _ _
  · rw [hrep]
    repeat rw [entry_put_ne (by decide)]
    exact entry_put _ _ _
  · rw [hrep]
    repeat rw [entry_put_ne (by decide)]
    exact entry_put _ _ _
  · rw [hrep]
    repeat rw [entry_put_ne (by decide)]
    exact entry_put _ _ _
  · rw [hrep]
    exact entry_put _ _ _

/-- There is a basic report: nothing has been loaded. -/
example : ∃ basic, Report.makeBasicReport id (fun _ => none) (fun k => k.toList) (.node [] []) none [] = .ok basic := ⟨_, rfl⟩

/-- The time of one block in the report. -/
example (pr : Print ℚ) {report : Tree} (h : timings pr (run (Program.block ["alsvinn".toList] twoSteps .finished) (start 0)).root = .ok report) :
    walk ("allTimedEvents".toList :: ["alsvinn".toList, "fvm".toList] ++ ["totalTime".toList]) report = .ok (.node (pr.real 9) []) := by
  have h9 : timeOf (Program.block ["alsvinn".toList] twoSteps .finished).blocks ["alsvinn".toList, "fvm".toList] = 9 := by decide +kernel
  rw [C104_times _ _ pr h ["alsvinn".toList, "fvm".toList] (by decide +kernel) (by decide +kernel), h9]

/-- C104: the report is written to files named after the executable and the run, once in each format. -/
theorem C104_report_files (executable name : String) :
    (reportFiles executable.toList name.toList).map String.ofList = [executable ++ "_" ++ name ++ "_report.json", executable ++ "_" ++ name ++ "_report.xml"] := by
  simp [reportFiles, ← String.toList_inj]

example : (reportFiles "alsvinncli".toList "shock".toList).map String.ofList = ["alsvinncli_shock_report.json", "alsvinncli_shock_report.xml"] := C104_report_files _ _

/-- C104: in every step of a run on several processes the thread that exchanges cells and the main thread, which needs the times `c` for the reconstruction and `d` for the flux, modify the maps of
the root and of `alsvinn`, and only these, at the same time. -/
theorem C104_threads_of_a_step (a b c d : K) :
    (∀ m, m ∈ modified (exchange a b) ∧ m ∈ modified (inner c d) ↔ m = [] ∨ m = ["alsvinn".toList]) ∧
      timeOf (inner c d).blocks ["alsvinn".toList, "fvm".toList] = c + d := by
  refine ⟨fun m => ?_, ?_⟩
  · simp only [exchange, inner, modified, lookups]
    simp
    constructor
    · rintro ⟨h1, h2⟩
      rcases h1 with h1 | h1 | h1 | h1 | h1 | h1 | h1 <;> subst h1 <;> simp_all
    · rintro (rfl | rfl) <;> simp
  · simp [inner, timeOf, Program.blocks, outermost, Program.duration, List.filter_cons, List.isPrefixOf]

end Props.Timer
end Verif
