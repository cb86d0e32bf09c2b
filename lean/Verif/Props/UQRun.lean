import Verif.UQRunLemmas
import Verif.Props.Stats
import Verif.Props.Integrator

/-!
C90: what a whole run with samples writes.
-/

namespace Verif.Props.UQRun
open Verif Verif.UQRun Integrator Verif.Simulator Verif.Setup Verif.Stats Verif.Functionals Verif.Props.Stats Verif.Iterate

section
variable {V W F : Type} [AddCommGroup V] [Module ℝ V] [AddCommGroup W] [Module ℝ W]

/-- `past` are the solutions of a sample with initial data `u`: the first is `u` after the boundary conditions, each is a step of the textbook scheme after the one before, the last is at the
end time. -/
structure Trajectory (c : Common V F) (int : V →ₗ[ℝ] W) (G : W → W) (u : V) (past : List (V × TimeInfo ℝ)) : Prop where
  first : ∃ u0, c.bc u = .ok u0 ∧ past.head? = some (u0, ⟨0, 0⟩)
  steps : past.IsChain fun a b => int b.1 = textbook c.kind (fun w => (1 / c.env.len 0) • G w) (b.2.time - a.2.time) (int a.1)
  increasing : past.Pairwise fun a b => a.2.time < b.2.time
  last : ∃ e, past.getLast? = some e ∧ e.2.time = c.settings.endTime

/-- The values of the random parameters of sample `s`, see C51. -/
noncomputable def values (w : Nat → ℝ) (params : List (UQ.Param ℝ)) (s : Nat) : List (List ℝ) := params.map fun p => (List.range p.dim).map fun i => UQ.value w p i s

/-- The statistics considered: those that are averages over the samples (C53), and mean and variance (C54). `In` are the states they can be evaluated for. -/
inductive Collects (In : Vol → Prop) : StatObj → Prop
  | average (parts : List Part) (saving : Saving) (name : String) (n g : I3) (k : Nat) (φ : Vol → Nat → I3 → ℝ) (usable : Usable parts In)
      (mean : MeanOverSamples parts name n g k In φ) : Collects In ⟨parts, saving, fun s => .ok s⟩
  | meanVariance (saving : Saving) (n g : I3) (k : Nat) (shape : ∀ u, In u → u.Shape n g k) : Collects In ⟨meanVariance, saving, finalizeMeanVariance⟩

/-- `final` shows the statistic at all `times`; `U s t` is the state of sample `s` at time `t`: the average of `φ` over the samples, or the mean and the mean of the squared deviations from it,
in every cell. -/
def Shows (In : Vol → Prop) (o : StatObj) (U : Nat → ℝ → Vol) (times : List ℝ) (samples : List Nat) (final : Snaps) : Prop :=
  (∀ name n g k φ, o.finalize = (fun s => .ok s) → MeanOverSamples o.parts name n g k In φ →
    ∀ t ∈ times, ∃ v, find (toLex (t, name)) final = some v ∧ ∀ var c, var < k → InBlock (n + g + g) c → v.at var c = some (average (samples.map fun s => φ (U s t) var c))) ∧
  (∀ n g k, o.parts = meanVariance → o.finalize = finalizeMeanVariance → (∀ u, In u → u.Shape n g k) →
    ∀ t ∈ times, ∃ m v, find (toLex (t, "mean")) final = some m ∧ find (toLex (t, "variance")) final = some v ∧ ∀ var c, var < k → InBlock (n + g + g) c →
      let values := samples.map fun s => entry (U s t) var c
      m.at var c = some (average values) ∧ v.at var c = some (average (values.map fun x => (x - average values) ^ 2)))

theorem collects_usable {In : Vol → Prop} {o : StatObj} (h : Collects In o) : Usable o.parts In := by
  cases h with
  | average parts saving name n g k φ usable mean => exact usable
  | meanVariance saving n g k shape =>
    intro evals hin
    refine (usable_of_adds (φ := fun q u var c => if var < k ∧ c ∈ box 0 (n + g + g) then (if q.name = "mean" then entry u var c else entry u var c ^ 2) else 0) (In := Vol.Shape n g k)
      (d := ⟨n, g, k⟩) ?_) evals fun e he => shape _ (hin e he)
    intro q hq
    simp only [meanVariance, List.mem_cons, List.not_mem_nil, or_false] at hq
    rcases hq with rfl | rfl
    · exact zip_adds _ _ n g k
    · exact zip_adds _ (fun x => x ^ 2) n g k

theorem collects_shows {In : Vol → Prop} {o : StatObj} (h : Collects In o) (U : Nat → ℝ → Vol) (times : List ℝ) (ranks : List (List Nat)) (ht : times.Nodup) (hne : ranks ≠ [])
    (hr : ∀ r ∈ ranks, r ≠ []) (hin : ∀ r ∈ ranks, ∀ s ∈ r, ∀ t ∈ times, In (U s t)) :
    ∃ snaps final, ranks.mapM (runRank o.parts U times) = .ok snaps ∧ UQRun.finish o ranks.flatten.length snaps = .ok final ∧ Shows In o U times ranks.flatten final := by
  have hlen : ranks.flatten.length ≠ 0 := by
    obtain ⟨r, rest, rfl⟩ := List.exists_cons_of_ne_nil hne
    have := List.length_pos_iff.2 (hr r (by simp))
    rw [List.flatten_cons, List.length_append]; omega
  have ok : ∃ snaps result others final, ranks.mapM (runRank o.parts U times) = .ok snaps ∧ combine ranks.flatten.length snaps = .ok (result :: others) ∧ o.finalize result = .ok final := by
    cases h with
    | average parts saving name n g k φ usable mean =>
      obtain ⟨snaps, result, others, h1, h2, -⟩ := mean Nat U times ranks ht hne hr hin
      exact ⟨snaps, result, others, result, h1, h2, rfl⟩
    | meanVariance saving n g k shape =>
      obtain ⟨snaps, result, others, final, h1, h2, h3, -⟩ := C54_mean_variance n g k U times ht ranks hne hr fun r hr s hs t ht => shape _ (hin r hr s hs t ht)
      exact ⟨snaps, result, others, final, h1, h2, h3⟩
  obtain ⟨snaps, result, others, final, h1, h2, h3⟩ := ok
  refine ⟨snaps, final, h1, ?_, ?_, ?_⟩
  · unfold UQRun.finish
    simp only [h2, Res.ok_bind, h3, if_neg hlen]
  · intro name n g k φ hfin hmean t htm
    obtain ⟨snaps', result', others', g1, g2, g3⟩ := hmean Nat U times ranks ht hne hr hin
    cases h1.symm.trans g1
    cases h2.symm.trans g2
    rw [hfin] at h3
    cases h3
    obtain ⟨v, e1, e2⟩ := g3 t htm
    exact ⟨v, e1, fun var c hv hc => by rw [e2 var c hv hc]; unfold average; rw [List.length_map]⟩
  · intro n g k hparts hfin shape t htm
    obtain ⟨snaps', result', others', final', g1, g2, g3, g4⟩ := C54_mean_variance n g k U times ht ranks hne hr fun r hr s hs t ht => shape _ (hin r hr s hs t ht)
    rw [hparts] at h1
    rw [hfin] at h3
    cases h1.symm.trans g1
    cases h2.symm.trans g2
    cases h3.symm.trans g3
    obtain ⟨m, v, e1, e2, e3⟩ := g4 t htm
    exact ⟨m, v, e1, e2, fun var c hv hc => ⟨(e3 var c hv hc).1, (e3 var c hv hc).2.1⟩⟩

/-- C90: there is a solution `past s` for every sample, the same for every number of processes and within the set `Q` that the steps do not leave, and `U s t` is the one at the save time `t`, such that the program on any number of processes that divides the number of samples ends and
writes for every statistic what it should show of the solutions at the save times. Enough steps are allowed for every sample (`fuel`). Missing: at most one parameter may use the random number generator
(C51), the statistics have to be evaluated at fixed intervals (`C90_fails_for_windows`), there has to be a sample (`C90_no_samples`), and the conditions of C86 on the run. -/
theorem C90_statistics_partial (c : Common V F) (int : V →ₗ[ℝ] W) (G : W → W) (speeds : W → Nat → ℝ) (Ready : V → Prop) (Q : W → Prop) (δ : ℝ)
    (hc : Works c int G speeds Ready Q δ)
    (In : Vol → Prop) (hin : ∀ u, Ready u → In (c.toVol u)) (hstats : ∀ o ∈ c.stats, Collects In o) (w : Nat → ℝ) (params : List (UQ.Param ℝ))
    (hone : (params.filter UQ.Param.random).length ≤ 1) (hdim : ∀ p ∈ params, ∀ a dx, p.dist = .uniform1d a dx → p.dim ≤ 1) (initial : List (List ℝ) → V) (first samples : Nat)
    (hsamples : 0 < samples) (hq : ∀ s, first ≤ s → s < first + samples → Q (int (initial (values w params s)))) :
    ∃ (fuel : Nat) (past : Nat → List (V × TimeInfo ℝ)) (U : Nat → ℝ → V),
      (∀ s, first ≤ s → s < first + samples → Trajectory c int G (initial (values w params s)) (past s) ∧ ∀ e ∈ past s, Q (int e.1)) ∧
      ∀ (k : Nat) (processes : Int), 1 ≤ processes → processes < 2 ^ 64 → processes ∣ (samples : Int) →
        ∃ out, uqProgram c (fuel + k) w params initial first samples processes = .ok (some out) ∧ out.length = c.stats.length ∧
          ∀ (j : Nat) (o : StatObj) (N : Nat) (start : Bool), c.stats[j]? = some o → 0 < N → o.saving = .fixed (some (c.settings.endTime / N)) start →
            (∀ s, first ≤ s → s < first + samples → ∀ t ∈ saveTimes c.settings.endTime N start, ∃ info, (U s t, info) ∈ past s ∧ info.time = t) ∧
            ∃ final, out[j]? = some final ∧ Shows In o (fun s t => c.toVol (U s t)) (saveTimes c.settings.endTime N start) (List.range' first samples) final := by
  have hnum : UQ.sampleNumbers first samples = List.range' first samples := by
    unfold UQ.sampleNumbers
    rw [List.range'_eq_map_range]
  have hmem : ∀ s, s ∈ UQ.sampleNumbers first samples ↔ first ≤ s ∧ s < first + samples := by
    intro s
    rw [hnum]
    simp
  obtain ⟨fuel, past, U, h1, hQ, h2⟩ := uq_ok hc In hin (fun o ho => collects_usable (hstats o ho)) (fun j U times samples final => Shows In (c.stats.get j) U times samples final)
    (fun j U times ranks ht hne hr hin => collects_shows (hstats _ (List.get_mem _ _)) U times ranks ht hne hr hin) w params initial hone hdim first samples hsamples
    (fun s hs => by
      obtain ⟨u0, g1, g3, g2⟩ := hc.sound.bc_ok (initial (params.map fun p => (List.range p.dim).map fun i => UQ.value w p i s))
      exact ⟨u0, g1, g2, g3 ▸ hq s ((hmem s).1 hs).1 ((hmem s).1 hs).2⟩)
  refine ⟨fuel, past, U, fun s hs1 hs2 => ?_, fun k processes hp hp2 hd => ?_⟩
  · obtain ⟨a1, a2, a3, a4, -⟩ := h1 s ((hmem s).2 ⟨hs1, hs2⟩)
    exact ⟨⟨a1, a4, a3, a2⟩, hQ s ((hmem s).2 ⟨hs1, hs2⟩)⟩
  · obtain ⟨out, b1, b2, b3⟩ := h2 k processes hp hp2 hd
    refine ⟨out, b1, b2, fun j o N start hj hN hs => ?_⟩
    obtain ⟨hlt, rfl⟩ := List.getElem?_eq_some_iff.1 hj
    obtain ⟨final, e1, e2⟩ := b3 ⟨j, hlt⟩
    refine ⟨fun s hs1 hs2 t ht => (h1 s ((hmem s).2 ⟨hs1, hs2⟩)).2.2.2.2 _ (List.getElem_mem hlt) N start hN hs t ht, final, e1, ?_⟩
    have := e2 N start hN hs
    rwa [hnum] at this
end

theorem collects_single {p : Part} {saving : Saving} {n g : I3} {k : Nat} {In : Vol → Prop} {φ : Vol → Nat → I3 → ℝ} (h : p.Adds In ⟨n, g, k⟩ φ) :
    Collects In ⟨[p], saving, fun s => .ok s⟩ :=
  .average [p] saving p.name n g k φ (usable_of_adds (φ := fun _ => φ) (d := ⟨n, g, k⟩) fun q hq => by rw [List.mem_singleton] at hq; subst hq; exact h) (mean_of_single h)

/-- The moments are among the statistics of C90. -/
theorem C90_moments (p : Nat) (saving : Saving) (n g : I3) (k : Nat) : Collects (Vol.Shape n g k) ⟨onePointMoment p, saving, fun s => .ok s⟩ :=
  collects_single (zip_adds _ (fun x => x ^ p) n g k)

/-- So are the averages of functionals that add something to the volume they are given (C39–C42). -/
theorem C90_functionals (name : String) (saving : Saving) (f : Vol → Vol → ℝ → Res Vol) (size : I3) (k : Nat) (In : Vol → Prop) (hlen : ∀ u, In u → u.areas.length = k)
    (φ : Vol → Nat → I3 → ℝ) (h : Accumulates f size 0 k In φ) : Collects In ⟨functionalStatistics name f size, saving, fun s => .ok s⟩ := by
  refine collects_single (n := size) (g := 0) (k := k) (φ := φ) fun u hu => ⟨by simp [ofSize, hlen u hu], fun v hv => ?_⟩
  obtain ⟨w, e, s, a⟩ := h v u 1 hv hu
  exact ⟨w, e, s, a.congr fun _ _ => by simp⟩

example (n g : I3) (hg : 0 ≤ g.x ∧ 0 ≤ g.y ∧ 0 ≤ g.z) (k : Nat) : Collects (Vol.Shape n g k) ⟨functionalStatistics "identity" identity n, .every, fun s => .ok s⟩ :=
  C90_functionals "identity" .every _ n k _ (fun _ hu => hu.2.2) _ (identity_accumulates n g hg k)

/-- Settings without writers. -/
noncomputable def plain (T : ℝ) : Settings ℝ Unit :=
  ⟨⟨"cpu", "burgers", "godunov", "none", "forwardeuler", "periodic", "none", "none", ⟨1, 1, 1⟩⟩, ⟨⟨0, 0, 0⟩, ⟨1, 1, 0⟩, ⟨1, 1, 1⟩, true⟩, T, 9 / 10, none, [], [], [], [], []⟩

/-- A volume with one cell. -/
def cell (u : ℝ) : Vol := ⟨⟨1, 1, 1⟩, 0, [fun _ => u]⟩

/-- Solutions that do not change; the faster the larger they are: with time steps of 1 for the solution 1 and 1/2 for the solution 2, until the time 1. The statistic, the average, is to be
collected in a window of time. -/
noncomputable def window : Common ℝ Unit :=
  ⟨plain 1, fun _ o _ _ => .ok o, 1, .forwardEuler, ⟨fun u _ => .ok (u, 0, fun _ => u), [], fun _ => 1, 3⟩, fun u => .ok u, fun _ => true, [0], cell, [⟨onePointMoment 1, .every, fun s => .ok s⟩]⟩


theorem window_one (st : StatStates window.stats) : st = fun _ => st ⟨0, Nat.one_pos⟩ := by
  funext j
  exact congrArg st (Subsingleton.elim (α := Fin 1) j ⟨0, Nat.one_pos⟩)

theorem window_call (a : States ℝ window.settings.writers) (n : Nat) (snaps snaps' : Snaps) (u : ℝ) (o : List ℝ) (info : TimeInfo ℝ) (log : List (Call ℝ ℝ))
    (h : compute (onePointMoment 1) info.time (cell u) snaps = .ok snaps') :
    ∃ log', callWriters (sampleSimulator window) ⟨u :: o, info, (a, fun _ => (n, snaps)), log⟩ = .ok ⟨u :: o, info, (a, fun _ => (n, snaps')), log'⟩ := by
  refine callWriters_ok (s := ⟨u :: o, info, (a, fun _ => (n, snaps)), log⟩) (u := u) rfl ?_
  simp only
  rw [sample_writers]
  have h1 : (simulator window.eval window.dx window.settings window.kind window.env window.bc window.obeys).writers = [] := rfl
  have h2 : callStats window u info (fun _ => (n, snaps)) = .ok fun _ => (n, snaps') := by
    have := Verif.Setup.fold_each (fun j : Fin window.stats.length => (window.stats.get j).write (window.toVol u) info) (fun _ => (n, snaps')) (List.finRange _) (List.nodup_finRange _)
      (fun _ => (n, snaps)) (fun j _ => by
        have hj : j = ⟨0, Nat.one_pos⟩ := Subsingleton.elim (α := Fin 1) j ⟨0, Nat.one_pos⟩
        subst hj
        change (do
          let x ← compute (onePointMoment 1) info.time (cell u) snaps
          .ok (n, x) : Res StatState) = _
        rw [h]
        rfl)
    simp only [List.mem_finRange, if_true] at this
    exact this
  rw [h1, List.foldlM_nil, h2]
  rfl

theorem window_step (a : States ℝ window.settings.writers) (st : StatStates window.stats) (u v : ℝ) (hu : 0 < u) (info : TimeInfo ℝ) (log : List (Call ℝ ℝ)) :
    incrementSolution (sampleSimulator window) ⟨[u, v], info, (a, st), log⟩ = .ok ⟨[u, u], info.increment (1 / u), (a, st), log⟩ := by
  have hadj : (sampleSimulator window).adjusters (a, st) = [] := rfl
  have hw : waveSpeedTotal ([] : List (ℝ → ℝ)) (fun _ => u) (fun _ => 1) = 3 * u := by
    simp [waveSpeedTotal, List.range_succ]; ring
  have hne : 3 * u ≠ 0 := by positivity
  have hdt : (3 : ℝ) / (3 * u) = 1 / u := by field_simp
  unfold incrementSolution
  rw [hadj]
  simp only [sampleSimulator, window, Kind.substeps, List.range_one, List.foldlM_cons, List.foldlM_nil, substepAndBoundary, performSubstep, at', List.getElem?_cons_zero, Res.ok_bind,
    computeTimestep, hw, if_neg hne, adjustTimestep, List.foldl_nil, hdt, Res.pure_eq]
  simp [finite_ok, swapEnds, at', Res.pure_eq, Integrator.combine]

/-- One step of the example. -/
theorem window_perform (a : States ℝ window.settings.writers) (n : Nat) (snaps snaps' : Snaps) (u v : ℝ) (hu : 0 < u) (t : ℝ) (k : Nat) (log : List (Call ℝ ℝ))
    (h : compute (onePointMoment 1) (t + 1 / u) (cell u) snaps = .ok snaps') :
    ∃ log', performStep (sampleSimulator window) ⟨[u, v], ⟨t, k⟩, (a, fun _ => (n, snaps)), log⟩ = .ok ⟨[u, u], ⟨t + 1 / u, k + 1⟩, (a, fun _ => (n, snaps')), log'⟩ := by
  obtain ⟨log', h2⟩ := window_call a n snaps snaps' u [u] ⟨t + 1 / u, k + 1⟩ log h
  refine ⟨log', ?_⟩
  unfold performStep
  rw [window_step _ _ _ _ hu, Res.ok_bind]
  exact h2

theorem window_more {fuel : Nat} {s s' : Sim ℝ ℝ (States ℝ window.settings.writers × StatStates window.stats)} {r} (h0 : s.info.time < 1)
    (h1 : performStep (sampleSimulator window) s = .ok s') (h2 : loop (sampleSimulator window) fuel s' = r) : loop (sampleSimulator window) (fuel + 1) s = r := by
  unfold loop
  have : atEnd (sampleSimulator window) s = false := by
    unfold atEnd
    exact decide_eq_false (not_le.2 h0)
  rw [this, h1, Res.ok_bind, h2]
  simp

theorem window_end {fuel : Nat} {s : Sim ℝ ℝ (States ℝ window.settings.writers × StatStates window.stats)} (h0 : 1 ≤ s.info.time) : loop (sampleSimulator window) fuel s = .ok (some s) := by
  have : atEnd (sampleSimulator window) s = true := by
    unfold atEnd
    exact decide_eq_true h0
  cases fuel <;> simp [loop, this]

theorem window_slow (n : Nat) (a b d : Snaps) (h1 : compute (onePointMoment 1) 0 (cell 1) a = .ok b) (h2 : compute (onePointMoment 1) 1 (cell 1) b = .ok d) :
    runSample window 2 1 (fun _ => (n, a)) = .ok (some fun _ => (n, d)) := by
  obtain ⟨l1, e1⟩ := window_call (freshAll ℝ window.settings.writers) n a b 1 [0] ⟨0, 0⟩ [] h1
  obtain ⟨l2, e2⟩ := window_perform (freshAll ℝ window.settings.writers) n b d 1 0 one_pos 0 0 l1 (by rw [show (0 : ℝ) + 1 / 1 = 1 by norm_num]; exact h2)
  have hrun : run (sampleSimulator window) 2 ⟨[1, 0], ⟨0, 0⟩, (freshAll ℝ window.settings.writers, fun _ => (n, a)), []⟩ =
      .ok (some ⟨[1, 1], ⟨0 + 1 / 1, 0 + 1⟩, (freshAll ℝ window.settings.writers, fun _ => (n, d)), l2⟩) := by
    unfold run
    rw [e1, Res.ok_bind]
    exact window_more (by norm_num) e2 (window_end (by norm_num))
  unfold runSample
  have hstart : start (sampleSimulator window) 1 window.others (freshAll ℝ window.settings.writers, fun _ => (n, a)) =
      .ok ⟨[1, 0], ⟨0, 0⟩, (freshAll ℝ window.settings.writers, fun _ => (n, a)), []⟩ := rfl
  rw [hstart, Res.ok_bind, hrun]
  rfl

theorem window_fast (n : Nat) (a b d e : Snaps) (h1 : compute (onePointMoment 1) 0 (cell 2) a = .ok b) (h2 : compute (onePointMoment 1) (1 / 2) (cell 2) b = .ok d)
    (h3 : compute (onePointMoment 1) 1 (cell 2) d = .ok e) : runSample window 2 2 (fun _ => (n, a)) = .ok (some fun _ => (n, e)) := by
  obtain ⟨l1, e1⟩ := window_call (freshAll ℝ window.settings.writers) n a b 2 [0] ⟨0, 0⟩ [] h1
  obtain ⟨l2, e2⟩ := window_perform (freshAll ℝ window.settings.writers) n b d 2 0 two_pos 0 0 l1 (by rw [show (0 : ℝ) + 1 / 2 = 1 / 2 by norm_num]; exact h2)
  obtain ⟨l3, e3⟩ := window_perform (freshAll ℝ window.settings.writers) n d e 2 2 two_pos (0 + 1 / 2) 1 l2 (by rw [show (0 : ℝ) + 1 / 2 + 1 / 2 = 1 by norm_num]; exact h3)
  have hrun : run (sampleSimulator window) 2 ⟨[2, 0], ⟨0, 0⟩, (freshAll ℝ window.settings.writers, fun _ => (n, a)), []⟩ =
      .ok (some ⟨[2, 2], ⟨0 + 1 / 2 + 1 / 2, 1 + 1⟩, (freshAll ℝ window.settings.writers, fun _ => (n, e)), l3⟩) := by
    unfold run
    rw [e1, Res.ok_bind]
    exact window_more (by norm_num) e2 (window_more (by norm_num) e3 (window_end (by norm_num)))
  unfold runSample
  have hstart : start (sampleSimulator window) 2 window.others (freshAll ℝ window.settings.writers, fun _ => (n, a)) =
      .ok ⟨[2, 0], ⟨0, 0⟩, (freshAll ℝ window.settings.writers, fun _ => (n, a)), []⟩ := rfl
  rw [hstart, Res.ok_bind, hrun]
  rfl

/-- The parameter of sample `s` is `s + 1`. -/
noncomputable def counting : List (UQ.Param ℝ) := [⟨1, .function fun _ s => s + 1⟩]

/-- The initial data are the parameter. -/
noncomputable def same (x : List (List ℝ)) : ℝ := (x.headD []).headD 0

theorem counting_draw (w : Nat → ℝ) (s pos : Nat) : UQ.sampleParameters w counting s pos = .ok ([[s + 1]], pos) := by
  simp [UQ.sampleParameters, counting, UQ.Param.generate, UQ.Dist.generate, Res.pure_eq]

theorem window_evaluations (evals : List (ℝ × ℝ)) : ∃ snaps, evals.foldlM (fun snaps e => compute (onePointMoment 1) e.1 (cell e.2) snaps) [] = .ok snaps ∧
    Holds (fun _ => ⟨⟨1, 1, 1⟩, 0, 1⟩) (evals.map fun e => toLex (e.1, "m1"))
      (fun k _ _ => ((evals.filter fun e => toLex (e.1, "m1") = k).map fun e => e.2).sum) snaps := by
  obtain ⟨snaps, h1, h2⟩ := evaluate_adds (fun _ u var c => if var < 1 ∧ c ∈ box 0 ((⟨1, 1, 1⟩ : I3) + 0 + 0) then ((u.areas.getD var fun _ => 0) c) ^ 1 else 0) (Vol.Shape ⟨1, 1, 1⟩ 0 1)
    ⟨⟨1, 1, 1⟩, 0, 1⟩ (onePointMoment 1) (by
      intro p hp
      simp only [onePointMoment, List.mem_singleton] at hp
      subst hp
      exact zip_adds _ (fun x => x ^ 1) ⟨1, 1, 1⟩ 0 1) (evals.map fun e => (e.1, cell e.2)) (by
      intro e he
      obtain ⟨x, -, rfl⟩ := List.mem_map.1 he
      exact ⟨rfl, rfl, rfl⟩)
  rw [List.foldlM_map] at h1
  have hname : ("m" ++ toString 1 : String) = "m1" := rfl
  have hflat : ∀ {β : Type} (f : ℝ × Vol → β), (evals.map fun e => (e.1, cell e.2)).flatMap (fun e => [f e]) = evals.map fun e => f (e.1, cell e.2) := by
    intro β f
    rw [← List.map_eq_flatMap, List.map_map]
    rfl
  simp only [onePointMoment, List.map_cons, List.map_nil, hname, hflat] at h2
  refine ⟨snaps, h1, h2.1, h2.2.1, fun k hk => ?_⟩
  obtain ⟨v, g1, g2, g3⟩ := h2.2.2 k hk
  refine ⟨v, g1, g2, fun var c hc => (g3 var c hc).trans ?_⟩
  congr 1
  beta_reduce
  rw [List.filter_map, List.map_map]
  have hv : var = 0 := by have := hc.1; simp at this; omega
  have hb : c ∈ box 0 ((⟨1, 1, 1⟩ : I3) + 0 + 0) := by
    have := hc.2
    rw [inSize_iff] at this
    simp at this ⊢
    omega
  congr 1
  refine List.map_congr_left fun e _ => ?_
  change (if var < 1 ∧ c ∈ box 0 ((⟨1, 1, 1⟩ : I3) + 0 + 0) then _ else _) = _
  rw [if_pos ⟨by omega, hb⟩, hv]
  exact pow_one _

theorem window_split (processes : Int) (hp : 1 ≤ processes) (h64 : processes < 2 ^ 64) (hd : processes ∣ 2) :
    ∃ share : Int → List Nat, (∀ r, 0 ≤ r → r < processes → ∃ a b, UQ.loadBalance (UQ.sampleNumbers 0 2) processes ⟨1, 1, 1⟩ processes r = .ok (share r, a, b)) ∧
      (∀ r, 0 ≤ r → r < processes → ((share r).length : Int) * processes = 2) ∧ ((irange 0 processes).map share).flatten = [0, 1] := by
  obtain ⟨share, b1, b2, b3⟩ := Props.UQ.C50_samples_are_partitioned (UQ.sampleNumbers 0 2) processes ⟨1, 1, 1⟩ processes 1 hp h64 le_rfl le_rfl le_rfl rfl (by omega)
    (by simpa [UQ.sampleNumbers] using hd)
  refine ⟨share, fun r h0 h1 => ?_, fun r h0 h1 => by simpa [UQ.sampleNumbers] using b2 r h0 h1, by rw [b3]; rfl⟩
  obtain ⟨a, b, h, -⟩ := b1 r h0 h1
  rw [Int.ediv_one] at h
  exact ⟨a, b, h⟩

/-- C90 fails for statistics in a window of time: they are evaluated at every step of every sample. Here the solutions are 1 and 2 at all times. On one process their average at the time 1/2 is
1, since only one of them takes a step to this time. On two processes the numbers of snapshots are different, and the behaviour is undefined. -/
theorem C90_fails_for_windows (w : Nat → ℝ) :
    (∃ final v, uqProgram window 2 w counting same 0 2 1 = .ok (some [final]) ∧ find (toLex (1 / 2, "m1")) final = some v ∧ v.at 0 0 = some 1) ∧
    uqProgram window 2 w counting same 0 2 2 = .error .ub := by
  have hv0 : same [[((0 : Nat) : ℝ) + 1]] = 1 := by simp [same]
  have hv1 : same [[((1 : Nat) : ℝ) + 1]] = 2 := by simp [same]; norm_num
  have hfresh : (fun j : Fin window.stats.length => (window.stats.get j).fresh) = fun _ => (0, []) := by
    funext j
    have hj : j = ⟨0, Nat.one_pos⟩ := Subsingleton.elim (α := Fin 1) j ⟨0, Nat.one_pos⟩
    subst hj
    rfl
  constructor
  · obtain ⟨share, s1, s2, s3⟩ := window_split 1 le_rfl (by norm_num) (one_dvd _)
    have hshare : share 0 = [0, 1] := by simpa [irange] using s3
    obtain ⟨a, b, hl⟩ := s1 0 le_rfl one_pos
    rw [hshare] at hl
    obtain ⟨snaps, e1, e2⟩ := window_evaluations [(0, 1), (1, 1), (0, 2), (1 / 2, 2), (1, 2)]
    simp only [List.foldlM_cons, List.foldlM_nil, Res.pure_eq] at e1
    obtain ⟨a1, f1, e1⟩ := bind_ok e1
    obtain ⟨a2, f2, e1⟩ := bind_ok e1
    obtain ⟨a3, f3, e1⟩ := bind_ok e1
    obtain ⟨a4, f4, e1⟩ := bind_ok e1
    obtain ⟨a5, f5, e1⟩ := bind_ok e1
    cases e1
    have hproc : process window 2 w counting same 0 2 1 0 = .ok (some fun _ => (0, snaps)) := by
      unfold process
      rw [hl, Res.ok_bind, hfresh]
      simp only [runSamples, counting_draw, Res.ok_bind, hv0, hv1, window_slow 0 [] a1 a2 f1 f2, window_fast 0 a2 a3 a4 snaps f3 f4 f5]

    have hdiv := (divide_holds _ 2 _ _ _ e2).2.2 (toLex (1 / 2, "m1")) (by simp)
    obtain ⟨v, g1, -, g3⟩ := hdiv
    refine ⟨divideAll 2 snaps, v, ?_, g1, ?_⟩
    · unfold uqProgram
      have hr : irange 0 1 = [0] := rfl
      rw [hr]
      simp only [List.mapM_cons, List.mapM_nil, hproc, Res.ok_bind, Res.pure_eq]
      rfl
    · rw [g3 0 0 ⟨by simp, by rw [inSize_iff]; simp⟩]
      simp
  · obtain ⟨share, s1, s2, s3⟩ := window_split 2 (by norm_num) (by norm_num) (dvd_refl _)
    have hr : irange 0 2 = [0, 1] := rfl
    obtain ⟨x, hx⟩ := List.length_eq_one_iff.1 (show (share 0).length = 1 by have := s2 0 le_rfl two_pos; omega)
    obtain ⟨y, hy⟩ := List.length_eq_one_iff.1 (show (share 1).length = 1 by have := s2 1 zero_le_one one_lt_two; omega)
    rw [hr] at s3
    simp only [List.map_cons, List.map_nil, hx, hy, List.flatten_cons, List.flatten_nil, List.append_nil, List.cons_append, List.nil_append, List.cons.injEq, and_true] at s3
    obtain ⟨rfl, rfl⟩ := s3
    obtain ⟨a, b, hl0⟩ := s1 0 le_rfl two_pos
    obtain ⟨a', b', hl1⟩ := s1 1 zero_le_one one_lt_two
    rw [hx] at hl0
    rw [hy] at hl1
    obtain ⟨snaps, e1, e2⟩ := window_evaluations [(0, 1), (1, 1)]
    obtain ⟨snaps', e1', e2'⟩ := window_evaluations [(0, 2), (1 / 2, 2), (1, 2)]
    simp only [List.foldlM_cons, List.foldlM_nil, Res.pure_eq] at e1 e1'
    obtain ⟨a1, f1, e1⟩ := bind_ok e1
    obtain ⟨a2, f2, e1⟩ := bind_ok e1
    obtain ⟨a3, f3, e1'⟩ := bind_ok e1'
    obtain ⟨a4, f4, e1'⟩ := bind_ok e1'
    obtain ⟨a5, f5, e1'⟩ := bind_ok e1'
    cases e1
    cases e1'
    have hproc : process window 2 w counting same 0 2 2 0 = .ok (some fun _ => (0, snaps)) := by
      unfold process
      rw [hl0, Res.ok_bind, hfresh]
      simp only [runSamples, counting_draw, Res.ok_bind, hv0, window_slow 0 [] a1 snaps f1 f2]
    have hproc' : process window 2 w counting same 0 2 2 1 = .ok (some fun _ => (0, snaps')) := by
      unfold process
      rw [hl1, Res.ok_bind, hfresh]
      simp only [runSamples, counting_draw, Res.ok_bind, hv1, window_fast 0 [] a3 a4 snaps' f3 f4 f5]
    have hlen := holds_length e2 (by simp)
    have hlen' := holds_length e2' (by simp)
    have hred := reduceTwo_lengths snaps snaps' (by rw [hlen, hlen']; simp)
    unfold uqProgram
    rw [hr]
    simp only [List.mapM_cons, List.mapM_nil, hproc, hproc', Res.ok_bind, Res.pure_eq]
    have hfin : ∀ o : StatObj, UQRun.finish o 2 [snaps, snaps'] = .error .ub := by
      intro o
      unfold UQRun.finish Stats.combine
      simp only [List.foldlM_cons, hred]
      rfl
    have hj : List.finRange window.stats.length = [⟨0, Nat.one_pos⟩] := rfl
    simp only [List.mapM_cons, List.mapM_nil, hj, id, List.map_cons, List.map_nil, Option.pure_def, Option.bind_eq_bind, Option.bind_some, hfin]
    rfl

/-- Without samples the grid of the statistics is a null pointer. -/
theorem C90_no_samples {V F : Type} [AddCommGroup V] [Module ℝ V] (c : Common V F) (hstats : c.stats ≠ []) (hfinal : ∀ o ∈ c.stats, o.finalize [] = .ok []) (fuel : Nat) (w : Nat → ℝ)
    (params : List (UQ.Param ℝ)) (initial : List (List ℝ) → V) (first : Nat) : uqProgram c fuel w params initial first 0 1 = .error .ub := by
  obtain ⟨share, b1, b2, b3⟩ := Props.UQ.C50_samples_are_partitioned (UQ.sampleNumbers first 0) 1 ⟨1, 1, 1⟩ 1 1 le_rfl (by norm_num) le_rfl le_rfl le_rfl rfl (by omega) (one_dvd _)
  have hr : irange 0 1 = [0] := rfl
  have hs : share 0 = [] := by
    rw [hr] at b3
    simpa [UQ.sampleNumbers] using b3
  obtain ⟨a, b, hl, -⟩ := b1 0 le_rfl one_pos
  rw [Int.ediv_one, hs] at hl
  have hproc : process c fuel w params initial first 0 1 0 = .ok (some fun j => (c.stats.get j).fresh) := by
    unfold process
    rw [hl]
    rfl
  have hfin : ∀ j : Fin c.stats.length, UQRun.finish (c.stats.get j) 0 [((c.stats.get j).fresh).2] = .error .ub := by
    intro j
    have hf : (c.stats.get j).fresh.2 = [] := by
      unfold StatObj.fresh
      split <;> rfl
    unfold UQRun.finish Stats.combine
    rw [hf]
    change (do
      let final ← (c.stats.get j).finalize []
      if (0 : Nat) = 0 then .error .ub else .ok final : Res Snaps) = _
    rw [hfinal _ (List.get_mem _ _)]
    rfl
  obtain ⟨n, hn⟩ := Nat.exists_eq_succ_of_ne_zero (fun h => hstats (List.length_eq_zero_iff.1 h))
  have hj : ∃ j rest, List.finRange c.stats.length = j :: rest := by
    have : List.finRange c.stats.length ≠ [] := by
      intro h
      have := congrArg List.length h
      simp at this
      exact hstats this
    exact List.exists_cons_of_ne_nil this
  obtain ⟨j, rest, hj⟩ := hj
  unfold uqProgram
  rw [hr, hj]
  simp only [List.mapM_cons, List.mapM_nil, hproc, Res.ok_bind, Res.pure_eq, id, List.map_cons, List.map_nil, Option.pure_def, Option.bind_eq_bind, Option.bind_some, hfin]
  rfl

/-- The decay of one cell with two Runge-Kutta stages until the time 1; mean and variance are collected at 1/2 and 1, the second moment at 0, 1/4, 1/2, 3/4 and 1. -/
noncomputable def decay : Common ℝ Unit :=
  ⟨plain 1, fun _ o _ _ => .ok o, 1, .rungeKutta2, ⟨fun u _ => .ok (u, -u, fun _ => 1), [], fun _ => 2, 1 / 2⟩, fun u => .ok u, fun _ => true, [0, 0], cell,
    [⟨meanVariance, .fixed (some (1 / (2 : Nat))) false, finalizeMeanVariance⟩, ⟨onePointMoment 2, .fixed (some (1 / (4 : Nat))) true, fun s => .ok s⟩]⟩

theorem decay_works : Works decay (LinearMap.id : ℝ →ₗ[ℝ] ℝ) (fun w => -w) (fun _ _ => 1) (fun _ => True) (fun _ => True) (1 / 3) where
  sound := ⟨fun v => ⟨v, rfl, rfl, trivial⟩, fun v _ _ => ⟨(v, -v, fun _ => 1), rfl, rfl, rfl, rfl⟩⟩
  length := by norm_num [decay]
  stable := .always (by norm_num) fun w => by
    simp [waveSpeedTotal, decay, List.range_succ]
    norm_num
  obeys := fun _ _ _ => rfl
  functionals := fun _ _ _ _ => ⟨_, rfl⟩
  endTime := by norm_num [decay, plain]
  asked := fun w hw => by simp [decay, plain] at hw
  volumes := rfl
  statistics := by simp [decay]
  intervals := fun o ho => by
    simp only [decay, List.mem_cons, List.not_mem_nil, or_false] at ho
    rcases ho with rfl | rfl
    · exact ⟨2, false, by norm_num, rfl⟩
    · exact ⟨4, true, by norm_num, rfl⟩

theorem decay_collects : ∀ o ∈ decay.stats, Collects (Vol.Shape ⟨1, 1, 1⟩ 0 1) o := by
  intro o ho
  simp only [decay, List.mem_cons, List.not_mem_nil, or_false] at ho
  rcases ho with rfl | rfl
  · exact .meanVariance _ ⟨1, 1, 1⟩ 0 1 fun _ h => h
  · exact C90_moments 2 _ ⟨1, 1, 1⟩ 0 1

/-- Four samples of the decay with a random initial value between 1 and 2: on one, two and four processes the variance at the time 1 is the mean of the squared deviations. -/
example (w : Nat → ℝ) : ∃ (fuel : Nat) (past : Nat → List (ℝ × TimeInfo ℝ)) (U : Nat → ℝ), (∀ s < 4, ∃ info, (U s, info) ∈ past s ∧ info.time = 1) ∧
    ∀ processes ∈ [(1 : Int), 2, 4], ∃ out final v, uqProgram decay fuel w [⟨1, .uniform 1 2⟩] same 0 4 processes = .ok (some out) ∧ out[0]? = some final ∧
      find (toLex (1, "variance")) final = some v ∧
      v.at 0 0 = some (average ((([0, 1, 2, 3].map U)).map fun x => (x - average ([0, 1, 2, 3].map U)) ^ 2)) := by
  obtain ⟨fuel, past, U, h1, h2⟩ := C90_statistics_partial decay _ _ _ _ _ _ decay_works (Vol.Shape ⟨1, 1, 1⟩ 0 1) (fun _ _ => ⟨rfl, rfl, rfl⟩) decay_collects w [⟨1, .uniform 1 2⟩]
    (List.length_filter_le _ _) (by intro p hp; simp at hp; subst hp; intro a dx h; cases h) same 0 4 (by norm_num) (fun _ _ _ => trivial)
  have h1t : (1 : ℝ) ∈ saveTimes decay.settings.endTime 2 false := by
    simp [saveTimes, decay, plain, List.range_succ]
  have hstep := fun processes p1 p2 p3 => h2 0 processes p1 p2 p3
  refine ⟨fuel, past, fun s => U s 1, ?_, ?_⟩
  · obtain ⟨out, -, -, h3⟩ := hstep 1 le_rfl (by norm_num) (one_dvd _)
    obtain ⟨h4, -⟩ := h3 0 _ 2 false rfl (by norm_num) rfl
    exact fun s hs => h4 s (Nat.zero_le _) (by omega) 1 h1t
  · intro processes hp
    have hp' : 1 ≤ processes ∧ processes < 2 ^ 64 ∧ processes ∣ ((4 : Nat) : Int) := by
      simp only [List.mem_cons, List.not_mem_nil, or_false] at hp
      rcases hp with rfl | rfl | rfl <;> norm_num
    obtain ⟨out, g1, -, g2⟩ := hstep processes hp'.1 hp'.2.1 hp'.2.2
    obtain ⟨-, final, g3, g4⟩ := g2 0 _ 2 false rfl (by norm_num) rfl
    obtain ⟨m, v, e1, e2, e3⟩ := g4.2 ⟨1, 1, 1⟩ 0 1 rfl rfl (fun _ h => h) 1 h1t
    exact ⟨out, final, v, g1, g3, e2, (e3 0 0 (by norm_num) (by norm_num [InBlock])).2⟩

example (w : Nat → ℝ) : uqProgram decay 10 w [⟨1, .uniform 1 2⟩] same 0 0 1 = .error .ub :=
  C90_no_samples decay (by simp [decay]) (by
    intro o ho
    simp only [decay, List.mem_cons, List.not_mem_nil, or_false] at ho
    rcases ho with rfl | rfl <;> rfl) _ _ _ _ _

end Verif.Props.UQRun
