import Verif.RunSetupOutput
import Verif.Props.Setup
import Verif.Props.Integrator

/-!
The output of whole runs: C86 and C87.
-/

namespace Verif.Props.RunSetup
open Verif.Setup Params Integrator Verif.Simulator Verif.Props.Setup

section
variable {K V W F : Type} [Field K] [LinearOrder K] [IsStrictOrderedRing K] [AddCommGroup V] [Module K V] [AddCommGroup W] [Module K W]

/-- C86: the program of a configuration ends at the end time, and every output has received what was asked for (`Delivered`): `past` are the solutions from the initial one to the one at
the end time, each a step of the textbook scheme after the one before. `Q` are states which the steps within the CFL condition do not leave and for which the time steps are not smaller than
`δ` (`Schedule.Stable`); for scalar equations see C109. Missing: some writer has to save at the end time (otherwise the run goes past it, see C36), the saves and snapshots
have to be as in `Asked` (what this leaves out is in `C86_kinds`), and nothing is said about outputs with snapshots (`C86_average_of_a_constant`). -/
theorem C86_output_partial [Archimedean K] (s : Settings K F) (eval : F → V → V → K → Res V) (dx : K) (kind : Kind) (env : Env V K) (bc : V → Res V) (obeys : V → Bool)
    (int : V →ₗ[K] W) (G : W → W) (speeds : W → Nat → K) (Ready : V → Prop) (hs : Sound env.sys bc int G speeds Ready) (hx : env.len 0 ≠ 0)
    (Q : W → Prop) (δ : K) (hst : Schedule.Stable kind env G speeds Q δ) (hobeys : ∀ u, Ready u → Q (int u) → obeys u = true) (hev : ∀ f o u k, ∃ r, eval f o u k = .ok r) (hend : 0 < s.endTime) (hasked : ∀ w ∈ s.writers, Asked s.endTime w)
    (hlast : ∃ w ∈ s.writers, SavesEnd w) (u u0 : V) (others : List V) (hlen : others.length = kind.substeps) (hbc : bc u = .ok u0) (hr : Ready u0) (hq : Q (int u0)) :
    ∃ fuel past sim, program eval dx s kind env bc obeys u others fuel = .ok (some sim) ∧ sim.info.time = s.endTime ∧
      past.head? = some (u0, ⟨0, 0⟩) ∧ (∃ u', past.getLast? = some (u', sim.info)) ∧ past.Pairwise (fun a b => a.2.time < b.2.time) ∧
      past.IsChain (fun a b => int b.1 = textbook kind (fun w => (1 / env.len 0) • G w) (b.2.time - a.2.time) (int a.1)) ∧ (∀ e ∈ past, Q (int e.1)) ∧
      ∀ i : Fin s.writers.length, Delivered eval s.endTime past (s.writers.get i) ((s.writers.get i).file (sim.ws i)).entries := by
  obtain ⟨fuel, past, sim, h1, h2, h3, h4, h5, h6, hk, -, h7⟩ := program_ok eval dx s kind env bc obeys int G speeds Ready hs hx Q δ hst hobeys hev hend hasked hlast u u0 others hlen hbc hr hq
  exact ⟨fuel, past, sim, h1, h2, h3, h4, h5, h6, hk, fun i => (h7 i).1⟩

/-- C86: what a file can ask for. Apart from `Asked` these are coarse saves (C37) and snapshots without a snapshot, with a radius or centre that is not positive, or starting after the end. -/
theorem C86_kinds (cuda mpi : Bool) (conv : Conv K) (load : Str → Option Str) (make : Str → Str → Tree → Res F) (root : Tree) (s : Settings K F)
    (hread : readSetup cuda mpi conv load make root = .ok s) (w : WriterObj K F) (hw : w ∈ s.writers) :
    Asked s.endTime w ∨ (∃ b i saves skips, w = .coarse b i saves skips) ∨
    (∃ b time radius i start, w = .fixed (.integrated b time radius) i start false ∧ (i = none ∨ radius ≤ 0 ∨ time ≤ 0)) ∨
    (∃ b f time radius i start, w = .fixed (.timeFunctional b f time radius) i start false ∧ (i = none ∨ radius ≤ 0 ∨ ∃ d, i = some d ∧ s.endTime < start + d)) := by
  obtain ⟨raw, ch, fvm, -, -, -, hm⟩ := (C85_as_described ..).1 hread
  obtain ⟨main, fs, entries, hmain, -, hfs, hws, -⟩ := hm.output
  rw [hws, List.mem_append] at hw
  rcases hw with hw | hw
  · rcases hmain with ⟨node, w', -, hw', rfl⟩ | ⟨-, rfl⟩
    · cases List.mem_singleton.1 hw
      cases hw' with
      | saves hb _ hi _ _ =>
        obtain ⟨type, name, -, -, -, rfl⟩ := hb
        rcases hi with ⟨-, rfl⟩ | ⟨hn, y, hy, rfl⟩
        · exact .inl (.nothing _ _ _ (.inl ⟨_, _, _, rfl⟩))
        · rw [interval_eq hn hy]
          exact .inl (.saves _ _ _ _ _ (Nat.pos_of_ne_zero hn))
      | coarse => exact .inr (.inl ⟨_, _, _, _, rfl⟩)
      | @snapshots b n i time radius hb _ _ _ _ hi =>
        obtain ⟨type, name, -, -, -, rfl⟩ := hb
        rcases hi with ⟨-, rfl⟩ | ⟨hn, y, hy, rfl⟩
        · exact .inr (.inr (.inl ⟨_, _, _, _, _, rfl, .inl rfl⟩))
        · rcases le_or_gt radius 0 with hr | hr
          · exact .inr (.inr (.inl ⟨_, _, _, _, _, rfl, .inr (.inl hr)⟩))
          rcases le_or_gt time 0 with ht | ht
          · exact .inr (.inr (.inl ⟨_, _, _, _, _, rfl, .inr (.inr ht)⟩))
          rw [interval_eq hn hy]
          exact .inl (.average _ _ _ _ _ _ (Nat.pos_of_ne_zero hn) hr ht)
      | radius hb =>
        obtain ⟨type, name, -, -, -, rfl⟩ := hb
        exact .inl (.everyStep _ _ _)
      | every hb =>
        obtain ⟨type, name, -, -, -, rfl⟩ := hb
        exact .inl (.everyStep _ _ _)
    · cases hw
  · obtain ⟨c, -, hf⟩ := forall₂_right hfs w hw
    cases hf with
    | window _ hb =>
      obtain ⟨type, name, -, -, -, rfl⟩ := hb
      exact .inl (.window _ _ _ _ _ _)
    | @snapshots b _ _ _ _ f time radius n i _ hb _ _ _ _ _ _ _ hi =>
      obtain ⟨type, name, -, -, -, rfl⟩ := hb
      rcases hi with ⟨-, rfl⟩ | ⟨hn, y, hy, rfl⟩
      · exact .inr (.inr (.inr ⟨_, _, _, _, _, _, rfl, .inl rfl⟩))
      · rcases le_or_gt radius 0 with hr | hr
        · exact .inr (.inr (.inr ⟨_, _, _, _, _, _, rfl, .inr (.inl hr)⟩))
        rcases lt_or_ge s.endTime (max (time - radius) 0 + y) with ht | ht
        · exact .inr (.inr (.inr ⟨_, _, _, _, _, _, rfl, .inr (.inr ⟨_, rfl, ht⟩)⟩))
        rw [interval_eq hn hy] at ht ⊢
        exact .inl (.snapshots _ _ _ _ _ _ _ (Nat.pos_of_ne_zero hn) hr ht)
    | saves _ hb _ _ _ _ _ _ hi =>
      obtain ⟨type, name, -, -, -, rfl⟩ := hb
      rcases hi with ⟨-, rfl⟩ | ⟨hn, y, hy, rfl⟩
      · exact .inl (.nothing _ _ _ (.inr ⟨_, _, _, _, rfl⟩))
      · rw [interval_eq hn hy]
        exact .inl (.functional _ _ _ _ _ (Nat.pos_of_ne_zero hn))

/-- C86 fails for time averages without snapshots: the file asks for the average over `[time - radius, time + radius]`, and the solution of every step is written. -/
theorem C86_average_without_snapshots (cuda mpi : Bool) (conv : Conv K) (load : Str → Option Str) (make : Str → Str → Tree → Res F) (root : Tree) (s : Settings K F)
    (hread : readSetup cuda mpi conv load make root = .ok s) (raw fvm node : Tree) (children : List (Str × Tree)) (time radius : K)
    (h1 : First root "config" raw) (h2 : FilledAll load raw.children children) (h3 : First (.node raw.data children) "fvm" fvm) (h4 : First fvm "writer" node)
    (_h5 : Value conv.real node ["time"] time) (_h6 : Value conv.real node ["timeRadius"] radius) (h7 : Absent node "numberOfSnapshots") (h8 : Absent node "numberOfSaves") :
    ∃ type name ps rest, s.writers = .base type name ps :: rest := by
  obtain ⟨raw', ch', fvm', g1, g2, g3, hm⟩ := (C85_as_described ..).1 hread
  obtain rfl := First.unique h1 g1
  obtain rfl := Except.ok.inj (((loadChildren_iff _ _ _).2 h2).symm.trans ((loadChildren_iff _ _ _).2 g2))
  obtain rfl := First.unique h3 g3
  obtain ⟨main, fs, entries, hmain, -, -, hws, -⟩ := hm.output
  rw [hws]
  rcases hmain with ⟨node', w, hn, hw, rfl⟩ | ⟨ha, -⟩
  · obtain rfl := First.unique h4 hn
    cases hw with
    | saves _ hv => exact absurd hv (no_value h8)
    | coarse _ hv => exact absurd hv (no_value h8)
    | snapshots _ _ _ _ hv => exact absurd hv (no_value h7)
    | radius hb =>
      obtain ⟨type, name, -, -, -, rfl⟩ := hb
      exact ⟨_, _, _, _, rfl⟩
    | every hb =>
      obtain ⟨type, name, -, -, -, rfl⟩ := hb
      exact ⟨_, _, _, _, rfl⟩
  · exact absurd ⟨_, h4⟩ (absent_iff.1 ha)

/-- C87: at the end of the program the file of every writer has been finalised exactly once, after the last solution reached it. Missing: the files of functionals
(`C87_functionals_not_finalised`), coarse saves, and the conditions on the run of `C86_output_partial`. -/
theorem C87_finalised_once_partial [Archimedean K] (s : Settings K F) (eval : F → V → V → K → Res V) (dx : K) (kind : Kind) (env : Env V K) (bc : V → Res V) (obeys : V → Bool)
    (int : V →ₗ[K] W) (G : W → W) (speeds : W → Nat → K) (Ready : V → Prop) (hs : Sound env.sys bc int G speeds Ready) (hx : env.len 0 ≠ 0)
    (Q : W → Prop) (δ : K) (hst : Schedule.Stable kind env G speeds Q δ) (hobeys : ∀ u, Ready u → Q (int u) → obeys u = true) (hev : ∀ f o u k, ∃ r, eval f o u k = .ok r) (hend : 0 < s.endTime) (hasked : ∀ w ∈ s.writers, Asked s.endTime w)
    (hlast : ∃ w ∈ s.writers, SavesEnd w) (u u0 : V) (others : List V) (hlen : others.length = kind.substeps) (hbc : bc u = .ok u0) (hr : Ready u0) (hq : Q (int u0)) :
    ∃ fuel sim, program eval dx s kind env bc obeys u others fuel = .ok (some sim) ∧ sim.info.time = s.endTime ∧
      ∀ i : Fin s.writers.length, OfSolution (s.writers.get i) → ((s.writers.get i).file (sim.ws i)).finalized = 1 := by
  obtain ⟨fuel, past, sim, h1, h2, -, -, -, -, -, -, h7⟩ := program_ok eval dx s kind env bc obeys int G speeds Ready hs hx Q δ hst hobeys hev hend hasked hlast u u0 others hlen hbc hr hq
  refine ⟨fuel, sim, h1, h2, fun i hi => (h7 i).2.trans ?_⟩
  have := hasked _ (List.get_mem s.writers i)
  generalize s.writers.get i = w at *
  cases this with
  | everyStep => rfl
  | saves => rfl
  | nothing w start initial h => rcases h with ⟨type, name, ps, rfl⟩ | ⟨type, name, ps, f, rfl⟩; exacts [rfl, hi.elim]
  | functional => exact hi.elim
  | window => exact hi.elim
  | snapshots => exact hi.elim
  | average => rfl
end

/-- A solution that does not change, with time steps of 100. -/
def stillEnv : Env ℚ ℚ := ⟨fun u _ => .ok (u, 0, fun _ => 1), [], fun _ => 1, 300⟩

/-- Settings with these outputs. -/
def withOutput (T : ℚ) (ws : List (WriterObj ℚ Unit)) : Settings ℚ Unit :=
  ⟨⟨"cpu", "burgers", "godunov", "none", "forwardeuler", "periodic", "none", "none", ⟨16, 1, 1⟩⟩, ⟨⟨0, 0, 0⟩, ⟨1, 1, 0⟩, ⟨16, 1, 1⟩, true⟩, T, 9 / 10, none, [], [], [], ws, ws⟩

/-- The program with the solution 1 at all times; the functional is the solution. -/
def still (T : ℚ) (ws : List (WriterObj ℚ Unit)) (fuel : Nat) : Res (Option (Sim ℚ ℚ (States ℚ ws))) :=
  program (fun _ out u weight => .ok (out + weight * u)) 1 (withOutput T ws) .forwardEuler stillEnv (fun v => .ok v) (fun _ => true) 1 [0] fuel

/-- A file. -/
def out : WriterObj ℚ Unit := .base [] [] (.node [] [])

/-- What is seen of a run with one output: the time at the end, the solutions with their times, and what reached the file. -/
structure Seen where
  time : ℚ
  solutions : List (ℚ × ℚ)
  written : List (ℚ × ℚ)
  finalized : Nat
  deriving DecidableEq

/-- What is seen of a run with one output. -/
def seen {w : WriterObj ℚ Unit} (sim : Sim ℚ ℚ (States ℚ [w])) : Seen :=
  ⟨sim.info.time, sim.log.map fun e => (e.state, e.info.time), (w.file (sim.ws 0)).entries.map fun e => (e.1, e.2.time), (w.file (sim.ws 0)).finalized⟩

/-- C86 fails for time averages with snapshots: the average of the constant solution 1 over the times from 9 to 11 is written as 5. -/
theorem C86_average_of_a_constant : (still 11 [.fixed (.integrated out 10 1) (some 1) 9 false] 2).map (Option.map seen) =
    .ok (some ⟨11, [(1, 0), (1, 10), (1, 11)], [(5, 10)], 1⟩) := by decide +kernel

/-- C86 fails for functionals integrated over snapshots: the integral of 1 over the times from 9 to 11 is written as 11. -/
theorem C86_integral_of_a_constant : (still 11 [.fixed (.timeFunctional out () 10 1) (some 1) 9 false] 2).map (Option.map seen) =
    .ok (some ⟨11, [(1, 0), (1, 10), (1, 11)], [(11, 11)], 0⟩) := by decide +kernel

/-- C86 fails for functionals with snapshots after the end: undefined behaviour at the end of the program. -/
theorem C86_window_after_the_end :
    (still 11 [.fixed out (some 11) 0 false, .fixed (.timeFunctional out () 20 1) (some 1) 19 false] 1).map (Option.map fun sim => sim.info.time) = .error .ub := by
  decide +kernel

/-- C87 fails for functionals: the file of a functional is not finalised. -/
theorem C87_functionals_not_finalised : (still 11 [.fixed (.functional out ()) (some 11) 0 true] 1).map (Option.map seen) =
    .ok (some ⟨11, [(1, 0), (1, 11)], [(1, 0), (1, 11)], 0⟩) := by decide +kernel

/-! A run with four outputs: two saves of a decaying solution, three values of a functional, the integral of the functional from 1/4 to 3/4, and every step. -/

/-- The settings. -/
def four : Settings ℚ Unit :=
  withOutput 1 [.fixed out (some (1 / (2 : Nat))) 0 false, .fixed (.functional out ()) (some (1 / (3 : Nat))) 0 true, .timeFunctional out () (1 / 2) (1 / 4), out]

theorem four_asked : ∀ w ∈ four.writers, Asked four.endTime w := by
  intro w hw
  simp only [four, withOutput, List.mem_cons, List.not_mem_nil, or_false] at hw ⊢
  rcases hw with rfl | rfl | rfl | rfl
  · exact .saves _ _ _ 2 false (by omega)
  · exact .functional _ _ _ () 3 (by omega)
  · exact .window _ _ _ () _ _
  · exact .everyStep _ _ _

theorem ex_speed (w : ℚ) : 0 ≤ waveSpeedTotal exEnv.waveAdj ((fun _ _ => 1 : ℚ → Nat → ℚ) w) exEnv.len ∧
    1 / 3 * waveSpeedTotal exEnv.waveAdj ((fun _ _ => 1 : ℚ → Nat → ℚ) w) exEnv.len ≤ exEnv.cfl := by
  simp [waveSpeedTotal, exEnv, List.range_succ]
  norm_num

example : ∃ fuel past sim, program (fun _ out u weight => .ok (out + weight * u)) 1 four .rungeKutta2 exEnv (fun v => .ok v) (fun _ => true) 12 [0, 0] fuel = .ok (some sim) ∧
    sim.info.time = 1 ∧ Delivered (F := Unit) (fun _ out u weight => .ok (out + weight * u)) 1 past (four.writers.get (0 : Fin 4)) ((four.writers.get (0 : Fin 4)).file (sim.ws (0 : Fin 4))).entries := by
  obtain ⟨fuel, past, sim, h1, h2, -, -, -, -, -, h3⟩ := C86_output_partial four (fun _ out u weight => .ok (out + weight * u)) 1 .rungeKutta2 exEnv (fun v => .ok v) (fun _ => true)
    LinearMap.id _ _ _ exSound (by norm_num [exEnv]) (fun _ => True) (1 / 3) (.always (by norm_num) ex_speed) (fun _ _ _ => rfl) (fun _ _ _ _ => ⟨_, rfl⟩) (by norm_num [four, withOutput]) four_asked
    ⟨_, List.mem_cons_self, trivial⟩ 12 12 [0, 0] rfl rfl trivial trivial
  exact ⟨fuel, past, sim, h1, h2, h3 (0 : Fin 4)⟩

example : ∃ fuel sim, program (fun _ out u weight => .ok (out + weight * u)) 1 four .rungeKutta2 exEnv (fun v => .ok v) (fun _ => true) 12 [0, 0] fuel = .ok (some sim) ∧
    ((four.writers.get (0 : Fin 4)).file (sim.ws (0 : Fin 4))).finalized = 1 ∧ ((four.writers.get (3 : Fin 4)).file (sim.ws (3 : Fin 4))).finalized = 1 := by
  obtain ⟨fuel, sim, h1, -, h3⟩ := C87_finalised_once_partial four (fun _ out u weight => .ok (out + weight * u)) 1 .rungeKutta2 exEnv (fun v => .ok v) (fun _ => true)
    LinearMap.id _ _ _ exSound (by norm_num [exEnv]) (fun _ => True) (1 / 3) (.always (by norm_num) ex_speed) (fun _ _ _ => rfl) (fun _ _ _ _ => ⟨_, rfl⟩) (by norm_num [four, withOutput]) four_asked
    ⟨_, List.mem_cons_self, trivial⟩ 12 12 [0, 0] rfl rfl trivial trivial
  exact ⟨fuel, sim, h1, h3 (0 : Fin 4) trivial, h3 (3 : Fin 4) trivial⟩

/-! Files. -/

example : ∃ s, readSetup (F := Unit) false false digits (fun _ => some ['p']) (fun _ _ _ => .ok ()) (sampleFile "0 0 0" [sampleWriter]) = .ok s ∧ ∃ w ∈ s.writers, Asked s.endTime w := by
  obtain ⟨s, h, -, -, -, -, -, -, -, -, hw, -⟩ := sample_read
  have hm : (.fixed (.base "netcdf".toList "out".toList sampleWriter.2) (some (1 / 2)) 0 false : WriterObj ℚ Unit) ∈ s.writers := by rw [hw]; exact List.mem_singleton_self _
  refine ⟨s, h, _, hm, ?_⟩
  rcases C86_kinds false false digits _ _ _ s h _ hm with h | ⟨_, _, _, _, e⟩ | ⟨_, _, _, _, _, e, -⟩ | ⟨_, _, _, _, _, _, e, -⟩
  · exact h
  all_goals cases e

/-- A writer asking for a time average, as in examples/kelvinhelmholtz_time/kelvinhelmholtz_time.xml. -/
def averageWriter : Str × Tree := inner "writer" [leaf "type" "netcdf", leaf "basename" "out", leaf "time" "1", leaf "timeRadius" "1"]

example : ∃ s : Settings ℚ Unit, readSetup false false digits (fun _ => some ['p']) (fun _ _ _ => .ok ()) (sampleFile "0 0 0" [averageWriter]) = .ok s ∧
    ∃ type name ps rest, s.writers = .base type name ps :: rest := by
  refine ⟨_, rfl, C86_average_without_snapshots false false digits (fun _ => some ['p']) (fun _ _ _ => .ok ()) (sampleFile "0 0 0" [averageWriter]) _ rfl _ _ averageWriter.2 _ 1 1
    (at_one.1 (child_iff.1 rfl)) ((loadChildren_iff _ _ _).1 rfl) (at_one.1 (child_iff.1 rfl)) (at_one.1 (child_iff.1 rfl)) ⟨_, ⟨_, child_iff.1 rfl, rfl⟩, rfl⟩ ⟨_, ⟨_, child_iff.1 rfl, rfl⟩, rfl⟩ (find_none.1 rfl) (find_none.1 rfl)⟩

end Verif.Props.RunSetup
