import Verif.Writers
import Verif.Props.Simulator
import Mathlib.Algebra.Order.Archimedean.Basic

/-! C36 (end time), C37-C39: writers. The recorder below keeps what the wrapped writer is given. -/

namespace Verif.Props
open Verif Integrator Simulator Writers
variable {K V W σ τ : Type} [Field K] [LinearOrder K] [IsStrictOrderedRing K] [AddCommGroup V] [Module K V] [AddCommGroup W] [Module K W]

/-- A writer that keeps the times at which it is called. -/
def recordTime {V : Type} (_ : V) (info : TimeInfo K) (log : List K) : Res (List K) := .ok (log ++ [info.time])

/-- The states `(numberSaved, times saved)` a fixed interval writer can be in at a simulation time: it is called at time zero and after every time step; a time step is
positive and at most what the writer's adjuster returns for some proposal. -/
inductive FixedReach (p : Fixed K) : K → Nat × List K → Prop
  | start {n : Nat} {st : Nat × List K} : p.write recordTime () ⟨0, n⟩ (p.init, []) = .ok st → FixedReach p 0 st
  | step {t h : K} {st st' : Nat × List K} {n n' : Nat} {proposal : WithTop K} : FixedReach p t st → 0 < h → (h : WithTop K) ≤ p.adjust st.1 proposal ⟨t, n⟩ →
      p.write recordTime () ⟨t + h, n'⟩ st = .ok st' → FixedReach p (t + h) st'

omit [IsStrictOrderedRing K] in
theorem fixedWrite_record (p : Fixed K) (t : K) (n : Nat) (st : Nat × List K) :
    p.write recordTime () ⟨t, n⟩ st = .ok (if p.next st.1 ≤ t then (st.1 + 1, st.2 ++ [t]) else st) := by
  unfold Fixed.write recordTime
  split_ifs <;> rfl

theorem fixed_inv (p : Fixed K) (hi : 0 < p.interval) (hs : 0 ≤ p.start) (hcase : p.start = 0 ∨ p.initial = false) (t : K) (st : Nat × List K) (h : FixedReach p t st) :
    p.init ≤ st.1 ∧ 0 < st.1 ∧ t < p.next st.1 ∧ (∀ k, p.init ≤ k → k < st.1 → p.next k ≤ t) ∧ st.2 = (List.range' p.init (st.1 - p.init)).map p.next := by
  have mono : ∀ a b : Nat, a ≤ b → p.next a ≤ p.next b := fun a b hab => by
    unfold Fixed.next
    have : (a : K) ≤ b := by exact_mod_cast hab
    have := mul_le_mul_of_nonneg_right this hi.le
    linarith
  have smono : ∀ a : Nat, p.next a < p.next (a + 1) := fun a => by
    unfold Fixed.next; push_cast; linarith
  induction h with
  | start h0 =>
    rw [fixedWrite_record] at h0
    cases h0
    rcases hb : p.initial with - | -
    · have : p.init = 1 := by simp [Fixed.init, hb]
      have hn : ¬ p.next 1 ≤ 0 := by unfold Fixed.next; push_cast; linarith
      rw [this, if_neg hn]
      refine ⟨le_rfl, by norm_num, not_le.1 hn, fun k h1 h2 => absurd h2 (by simp; omega), by simp⟩
    · have : p.init = 0 := by simp [Fixed.init, hb]
      have hz : p.start = 0 := by simpa [hb] using hcase
      have hn : p.next 0 = 0 := by simp [Fixed.next, hz]
      rw [this, if_pos (by simp [hn])]
      refine ⟨by simp, by simp, by rw [← hn]; exact smono 0, fun k _ hk => ?_, by simp [hn]⟩
      obtain rfl : k = 0 := by simpa using hk
      exact hn.le
  | @step t h st st' n n' proposal _ hpos hle hwr ih =>
    obtain ⟨i1, i2, i3, i4, i5⟩ := ih
    rw [fixedWrite_record] at hwr
    cases hwr
    have hbound : t + h ≤ p.next st.1 := by
      unfold Fixed.adjust at hle
      rw [if_pos i2] at hle
      have := hle.trans (min_le_right _ _)
      rw [WithTop.coe_le_coe] at this
      simp only at this
      linarith
    split_ifs with hc
    · have e : t + h = p.next st.1 := le_antisymm hbound hc
      refine ⟨by simp; omega, by simp, by rw [e]; exact smono _, fun k h1 h2 => ?_, ?_⟩
      · rw [e]; exact mono _ _ (by simp at h2; omega)
      · simp only
        rw [i5, show st.1 + 1 - p.init = (st.1 - p.init) + 1 by omega, List.range'_concat, List.map_append, e]
        simp; congr 1; omega
    · exact ⟨i1, i2, not_le.1 hc, fun k h1 h2 => (i4 k h1 h2).trans (by linarith), i5⟩

/-- C37 if the start time is zero or the initial save is not requested (the combinations the configuration can produce, SimulatorSetup.cpp:392-411, 604-627).
At any time `t` the times saved are exactly the times `start + k * interval ≤ t` (`k ≥ 0` with initial save, `k ≥ 1` without), in increasing order, once each; and the adjuster
never turns a positive proposal into one that is not positive. What is missing: the initial save with a positive start time, for which the statement is false
(`C37_fails_for_delayed_initial_save`). -/
theorem C37_fixed_interval_partial (p : Fixed K) (hi : 0 < p.interval) (hs : 0 ≤ p.start) (hcase : p.start = 0 ∨ p.initial = false) (t : K) (st : Nat × List K)
    (h : FixedReach p t st) :
    (∀ x, x ∈ st.2 ↔ ∃ k : Nat, (if p.initial then 0 else 1) ≤ k ∧ x = p.start + k * p.interval ∧ x ≤ t) ∧ st.2.Pairwise (· < ·) ∧
      ∀ proposal n, 0 < proposal → 0 < p.adjust st.1 proposal ⟨t, n⟩ := by
  obtain ⟨i1, i2, i3, i4, i5⟩ := fixed_inv p hi hs hcase t st h
  have smono : StrictMono p.next := strictMono_nat_of_lt_succ fun a => by unfold Fixed.next; push_cast; linarith
  refine ⟨fun x => ?_, ?_, fun proposal n hp => ?_⟩
  · rw [i5, List.mem_map]
    constructor
    · rintro ⟨k, hk, rfl⟩
      rw [List.mem_range'_1] at hk
      exact ⟨k, hk.1, by unfold Fixed.next; ring, i4 k hk.1 (by omega)⟩
    · rintro ⟨k, hk, rfl, hle⟩
      refine ⟨k, ?_, by unfold Fixed.next; ring⟩
      have hk' : p.init ≤ k := hk
      rw [List.mem_range'_1]
      have : k < st.1 := by
        by_contra hn
        have := smono.monotone (not_lt.1 hn)
        unfold Fixed.next at this i3
        linarith
      omega
  · rw [i5, List.pairwise_map]
    exact (List.pairwise_lt_range').imp fun hab => smono hab
  · unfold Fixed.adjust
    rw [if_pos i2, lt_min_iff]
    exact ⟨hp, by rw [← WithTop.coe_zero, WithTop.coe_lt_coe]; simp only; linarith⟩

/-- Two steps of a writer with interval one half: the first step lands on the save time. -/
example : FixedReach (⟨1 / 2, 0, true⟩ : Fixed ℚ) (0 + 1 / 2 + 1 / 3) (2, [0, 0 + 1 / 2]) := by
  refine .step (n := 1) (n' := 2) (proposal := ⊤) (.step (n := 0) (n' := 1) (proposal := ⊤) (.start (n := 0) (st := (1, [0])) ?_) ?_ ?_ (st' := ((2, [0, 0 + 1 / 2]) : Nat × List ℚ)) ?_) ?_ ?_ ?_
  all_goals first
    | (rw [fixedWrite_record]; simp [Fixed.init, Fixed.next]; done)
    | (rw [fixedWrite_record]; norm_num [Fixed.init, Fixed.next]; done)
    | (simp [Fixed.adjust, Fixed.next]; done)
    | (simp only [Fixed.adjust, Fixed.next]; rw [if_pos (by norm_num), le_min_iff]; refine ⟨le_top, ?_⟩; rw [WithTop.coe_le_coe]; norm_num)

/-- C37 is false for an initial save with a positive start time: nothing makes the time steps hit the start time, the save comes late, and then the adjuster asks for a
negative time step. -/
theorem C37_fails_for_delayed_initial_save :
    ∃ st, FixedReach (⟨1, 1, true⟩ : Fixed ℚ) (0 + 5 / 2) st ∧ st.2 = [0 + 5 / 2] ∧ Fixed.adjust (⟨1, 1, true⟩ : Fixed ℚ) st.1 1 ⟨0 + 5 / 2, 1⟩ < 0 := by
  refine ⟨(1, [0 + 5 / 2]), .step (n := 0) (n' := 1) (proposal := ⊤) (.start (n := 0) (st := (0, [])) ?_) ?_ ?_ ?_, rfl, ?_⟩
  · rw [fixedWrite_record]; simp [Fixed.init, Fixed.next]
  · norm_num
  · simp [Fixed.adjust]
  · rw [fixedWrite_record]; norm_num [Fixed.next]
  · simp only [Fixed.adjust, Fixed.next]
    rw [if_pos (by norm_num), min_lt_iff]
    right
    rw [← WithTop.coe_zero, WithTop.coe_lt_coe]; norm_num

/-! ### C36 -/

/-- The counter of a fixed interval writer after a call at time `t`. -/
def Writers.Fixed.count (p : Fixed K) (saved : Nat) (t : K) : Nat := if p.next saved ≤ t then saved + 1 else saved

/-- C36, termination and arrival: if every step from a state satisfying the invariant `Inv` succeeds, keeps it and advances the time by at least `δ > 0`, the run ends, at a time not before
the end time. -/
theorem C36_terminates [Archimedean K] (c : Config V K σ) (Inv : Sim V K σ → Prop) (δ : K) (hδ : 0 < δ)
    (hstep : ∀ s, Inv s → s.info.time < c.endTime → ∃ s', performStep c s = .ok s' ∧ Inv s' ∧ s.info.time + δ ≤ s'.info.time) (s : Sim V K σ) (hs : Inv s) :
    ∃ fuel s', loop c fuel s = .ok (some s') ∧ c.endTime ≤ s'.info.time := by
  obtain ⟨m, hm⟩ := Archimedean.arch (c.endTime - s.info.time) hδ
  rw [nsmul_eq_mul] at hm
  induction m generalizing s with
  | zero =>
    have : c.endTime ≤ s.info.time := by simpa using hm
    exact ⟨0, s, by simp [loop, atEnd, this], this⟩
  | succ m ih =>
    by_cases hend : c.endTime ≤ s.info.time
    · exact ⟨0, s, by simp [loop, atEnd, hend], hend⟩
    · obtain ⟨s1, h1, h2, h3⟩ := hstep s hs (not_le.1 hend)
      obtain ⟨fuel, s', h4, h5⟩ := ih s1 h2 (by push_cast at hm; linarith)
      exact ⟨fuel + 1, s', by simp [loop, atEnd, hend, h1, h4], h5⟩

/-- C36 for a simulation with one output writer with `numberOfSaves = N` (interval `endTime / N`, registered as writer and time step adjuster, other writers without adjuster): the
run ends, exactly at the end time. `δ` bounds the time steps proposed by the CFL condition from below. What is missing: without such a writer the last step goes past the end time
(`C36_overshoots_without_writer`). Several such writers at once are treated in `C86_output_partial`. -/
theorem C36_ends_at_end_time_partial [Archimedean K] (c : Config V K σ) (int : V →ₗ[K] W) (F : W → W) (ws : W → Nat → K) (Ready : V → Prop)
    (hs : Sound c.env.sys c.bc int F ws Ready) (hx : c.env.len 0 ≠ 0) (δ : K) (hδ : 0 < δ)
    (hcfl : ∀ w, 0 < waveSpeedTotal c.env.waveAdj (ws w) c.env.len ∧ δ ≤ c.env.cfl / waveSpeedTotal c.env.waveAdj (ws w) c.env.len)
    (hobeys : ∀ u, Ready u → c.obeys u = true) (N : Nat) (hN : 0 < N) (hend : 0 < c.endTime) (initial : Bool) (get : σ → Nat)
    (hadj : ∀ ws, c.adjusters ws = [Fixed.adjust ⟨c.endTime / N, 0, initial⟩ (get ws)])
    (hwr : ∀ u info ws, ∃ ws', c.writers.foldlM (fun ws w => w u info ws) ws = .ok ws' ∧
      get ws' = Writers.Fixed.count ⟨c.endTime / N, 0, initial⟩ (get ws) info.time)
    (s : Sim V K σ) (hlen : s.vols.length = c.kind.substeps + 1) (u : V) (hu : s.vols[0]? = some u) (hr : Ready u) (ht : s.info.time = 0)
    (hinit : get s.ws = if initial then 0 else 1) :
    ∃ fuel s', run c fuel s = .ok (some s') ∧ s'.info.time = c.endTime := by
  have hNK : (0 : K) < N := by exact_mod_cast hN
  have hI : 0 < c.endTime / N := div_pos hend hNK
  have hNI : (N : K) * (c.endTime / N) = c.endTime := by field_simp
  have hnext : ∀ k : Nat, Fixed.next (⟨c.endTime / N, 0, initial⟩ : Fixed K) k = k * (c.endTime / N) := fun k => by simp [Fixed.next]
  generalize hIdef : c.endTime / N = I at *
  let Inv : Sim V K σ → Prop := fun s => s.vols.length = c.kind.substeps + 1 ∧ (∃ u, s.vols[0]? = some u ∧ Ready u) ∧ 0 < get s.ws ∧
    ((get s.ws : K) - 1) * I ≤ s.info.time ∧ s.info.time < get s.ws * I ∧ s.info.time ≤ c.endTime
  have hstep : ∀ s, Inv s → s.info.time < c.endTime → ∃ s', performStep c s = .ok s' ∧ Inv s' ∧
      ((get s'.ws = get s.ws + 1) ∨ (get s'.ws = get s.ws ∧ s.info.time + δ ≤ s'.info.time)) := by
    rintro s ⟨i1, ⟨u, i2, i3⟩, i4, i5, i6, i7⟩ hlt
    have hk : get s.ws ≤ N := by
      by_contra hn
      have : (N : K) + 1 ≤ get s.ws := by exact_mod_cast not_le.1 hn
      have h1 : (N : K) * I ≤ ((get s.ws : K) - 1) * I := mul_le_mul_of_nonneg_right (by linarith) hI.le
      linarith
    have hkI : (get s.ws : K) * I ≤ c.endTime := by
      rw [← hNI]; exact mul_le_mul_of_nonneg_right (by exact_mod_cast hk) hI.le
    obtain ⟨hS, hq⟩ := hcfl (int u)
    have hdt : computeTimestep c.env.waveAdj (c.adjusters s.ws) (ws (int u)) c.env.len c.env.cfl s.info =
        ((min (c.env.cfl / waveSpeedTotal c.env.waveAdj (ws (int u)) c.env.len) (get s.ws * I - s.info.time) : K) : WithTop K) := by
      unfold computeTimestep
      rw [if_neg hS.ne', hadj]
      simp only [adjustTimestep, List.foldl_cons, List.foldl_nil, Fixed.adjust, if_pos i4, hnext]
      exact (WithTop.coe_min _ _).symm
    obtain ⟨s1, u', a1, a2, a3, a4, -, a6, a7, -⟩ := increment_ok c hs s i1 u i2 i3 _ hdt hx
    have htime : s1.info.time = s.info.time + min (c.env.cfl / waveSpeedTotal c.env.waveAdj (ws (int u)) c.env.len) (get s.ws * I - s.info.time) := by
      rw [a6]; rfl
    generalize c.env.cfl / waveSpeedTotal c.env.waveAdj (ws (int u)) c.env.len = q at hq htime
    obtain ⟨ws', w1, w2⟩ := hwr u' s1.info s1.ws
    obtain ⟨log', w3⟩ := callWriters_ok a2 w1
    refine ⟨{ s1 with ws := ws', log := log' }, ?_, ?_⟩
    · unfold performStep
      rw [a1]
      simp only [Res.ok_bind, checkConstraints, at'_some a2, hobeys u' a4, if_true, Res.pure_eq]
      exact w3
    · have hle : s1.info.time ≤ get s.ws * I := by rw [htime]; have := min_le_right q (get s.ws * I - s.info.time); linarith
      rw [a7] at w2
      unfold Writers.Fixed.count at w2
      rw [hnext] at w2
      split_ifs at w2 with hc
      · have he : s1.info.time = get s.ws * I := le_antisymm hle hc
        refine ⟨⟨a3.trans i1, ⟨u', a2, a4⟩, by simp only; omega, ?_, ?_, ?_⟩, Or.inl w2⟩
        · simp only [w2, he]; push_cast; linarith
        · simp only [w2, he]; push_cast; linarith
        · simp only [he]; exact hkI
      · have hq' : s1.info.time = s.info.time + q := by
          rw [htime]
          rcases min_choice q (get s.ws * I - s.info.time) with h | h
          · rw [h]
          · exfalso; rw [h] at htime; apply hc; linarith
        refine ⟨⟨a3.trans i1, ⟨u', a2, a4⟩, by simp only; omega, ?_, ?_, ?_⟩, Or.inr ⟨w2, ?_⟩⟩
        · simp only [w2]; linarith
        · simp only [w2]; exact not_le.1 hc
        · simp only; linarith
        · simp only; linarith
  have hloop : ∀ j m : Nat, ∀ s, Inv s → N + 1 - get s.ws ≤ j → get s.ws * I - s.info.time ≤ m * δ →
      ∃ fuel s', loop c fuel s = .ok (some s') ∧ s'.info.time = c.endTime := by
    intro j
    induction j with
    | zero =>
      intro m s hs' hj _
      have h1 : (N : K) + 1 ≤ get s.ws := by exact_mod_cast (by omega : N + 1 ≤ get s.ws)
      have h2 : (N : K) * I ≤ ((get s.ws : K) - 1) * I := mul_le_mul_of_nonneg_right (by linarith) hI.le
      have h3 : s.info.time = c.endTime := le_antisymm hs'.2.2.2.2.2 (by have := hs'.2.2.2.1; linarith)
      exact ⟨0, s, by simp [loop, atEnd, h3], h3⟩
    | succ j ih =>
      intro m
      induction m with
      | zero =>
        intro s hs' _ hm
        have := hs'.2.2.2.2.1
        simp at hm
        linarith
      | succ m ihm =>
        intro s hs' hj hm
        by_cases hend' : c.endTime ≤ s.info.time
        · exact ⟨0, s, by simp [loop, atEnd, hend'], le_antisymm hs'.2.2.2.2.2 hend'⟩
        · obtain ⟨s1, h1, h2, h3⟩ := hstep s hs' (not_le.1 hend')
          have : ∃ fuel s', loop c fuel s1 = .ok (some s') ∧ s'.info.time = c.endTime := by
            rcases h3 with h3 | ⟨h3, h4⟩
            · obtain ⟨m', hm'⟩ := Archimedean.arch (get s1.ws * I - s1.info.time) hδ
              exact ih m' s1 h2 (by omega) (by rw [nsmul_eq_mul] at hm'; exact hm')
            · refine ihm s1 h2 (by omega) ?_
              rw [h3]; push_cast at hm; linarith
          obtain ⟨fuel, s', h5, h6⟩ := this
          exact ⟨fuel + 1, s', by simp [loop, atEnd, hend', h1, h5], h6⟩
  obtain ⟨ws', w1, w2⟩ := hwr u s.info s.ws
  obtain ⟨log', w3⟩ := callWriters_ok hu w1
  have hk1 : get ws' = 1 := by
    rw [w2, hinit, ht]
    unfold Writers.Fixed.count
    rw [hnext]
    cases initial
    · simp [hI]
    · simp
  have hinv : Inv { s with ws := ws', log := log' } := by
    refine ⟨hlen, ⟨u, hu, hr⟩, by simp only; omega, ?_, ?_, ?_⟩
    · simp only [hk1, ht]; norm_num
    · simp only [hk1, ht]; simpa using hI
    · simp only [ht]; exact hend.le
  obtain ⟨m, hm⟩ := Archimedean.arch (get ws' * I - s.info.time) hδ
  obtain ⟨fuel, s', h1, h2⟩ := hloop N m _ hinv (by simp only [hk1]; omega) (by rw [nsmul_eq_mul] at hm; exact hm)
  exact ⟨fuel, s', by unfold run; rw [w3]; exact h1, h2⟩

/-- The decay equation with an output writer with five saves up to the end time 1. -/
def exSaves : Config ℚ ℚ (Nat × List ℚ) :=
  ⟨.rungeKutta2, exEnv, fun v => .ok v, fun _ => true, [Fixed.write ⟨1 / (5 : Nat), 0, true⟩ recordTime], fun ws => [Fixed.adjust ⟨1 / (5 : Nat), 0, true⟩ ws.1], 1⟩

example : ∃ fuel s', run exSaves fuel ⟨[12, 0, 0], ⟨0, 0⟩, (0, []), []⟩ = .ok (some s') ∧ s'.info.time = 1 :=
  C36_ends_at_end_time_partial exSaves LinearMap.id _ _ _ exSound (by norm_num [exSaves, exEnv]) (1 / 3) (by norm_num)
    (fun w => by
      have : waveSpeedTotal exSaves.env.waveAdj (fun _ => 1) exSaves.env.len = 3 / 2 := by
        simp [exSaves, exEnv, waveSpeedTotal, List.range_succ]; norm_num
      rw [this]; norm_num [exSaves, exEnv])
    (fun _ _ => rfl) 5 (by norm_num) (by norm_num [exSaves]) true Prod.fst (fun _ => rfl)
    (fun u info ws => by
      refine ⟨if Fixed.next (⟨1 / (5 : Nat), 0, true⟩ : Fixed ℚ) ws.1 ≤ info.time then (ws.1 + 1, ws.2 ++ [info.time]) else ws, ?_, ?_⟩
      · simp only [exSaves, List.foldlM_cons, List.foldlM_nil, Fixed.write, recordTime]
        split_ifs <;> rfl
      · exact apply_ite Prod.fst _ _ _)
    ⟨[12, 0, 0], ⟨0, 0⟩, (0, []), []⟩ rfl 12 rfl trivial rfl rfl

/-- C36 is false without a writer that asks for the end time: with time steps 1/3 and end time 1/2 the simulation ends at time 2/3. -/
theorem C36_overshoots_without_writer :
    ∃ fuel s', run { exConfig .forwardEuler with endTime := 1 / 2 } fuel ⟨[12, 0], ⟨0, 0⟩, (), []⟩ = .ok (some s') ∧ s'.info.time = 2 / 3 := by
  have hdt : ∀ info : TimeInfo ℚ, computeTimestep ([] : List (ℚ → ℚ)) [] (fun _ => 1) (fun _ => 2) (1 / 2) info = ((1 / 3 : ℚ) : WithTop ℚ) := fun info => by
    simp [computeTimestep, adjustTimestep, waveSpeedTotal, List.range_succ]
    norm_num
  have one : ∀ s : Sim ℚ ℚ Unit, s.vols.length = 2 → (∃ u, s.vols[0]? = some u) →
      ∃ s', performStep { exConfig .forwardEuler with endTime := 1 / 2 } s = .ok s' ∧ s'.vols.length = 2 ∧ (∃ u, s'.vols[0]? = some u) ∧ s'.info.time = s.info.time + 1 / 3 := by
    rintro s hl ⟨u, hu⟩
    obtain ⟨s1, u', h1, h2, h3, -, -, h6, -⟩ := increment_ok { exConfig .forwardEuler with endTime := 1 / 2 } exSound s hl u hu trivial (1 / 3) (hdt _)
      (by norm_num [exConfig, exEnv])
    refine ⟨s1, ?_, h3.trans hl, ⟨u', h2⟩, by rw [h6]; rfl⟩
    unfold performStep
    rw [h1]
    simp [checkConstraints, callWriters, at', h2, exConfig]
  obtain ⟨s1, a1, a2, a3, a4⟩ := one ⟨[12, 0], ⟨0, 0⟩, (), []⟩ rfl ⟨12, rfl⟩
  obtain ⟨s2, b1, b2, b3, b4⟩ := one s1 a2 a3
  simp only [zero_add] at a4
  rw [a4] at b4
  refine ⟨2, s2, ?_, by rw [b4]; norm_num⟩
  have e0 : callWriters { exConfig .forwardEuler with endTime := 1 / 2 } (⟨[12, 0], ⟨0, 0⟩, (), []⟩ : Sim ℚ ℚ Unit) = .ok ⟨[12, 0], ⟨0, 0⟩, (), []⟩ := by
    simp [callWriters, at', exConfig]
  unfold run
  rw [e0]
  simp only [Res.ok_bind]
  have n0 : atEnd { exConfig .forwardEuler with endTime := 1 / 2 } (⟨[12, 0], ⟨0, 0⟩, (), []⟩ : Sim ℚ ℚ Unit) = false := by norm_num [atEnd]
  have n1 : atEnd { exConfig .forwardEuler with endTime := 1 / 2 } s1 = false := by simp only [atEnd, a4]; norm_num
  have n2 : atEnd { exConfig .forwardEuler with endTime := 1 / 2 } s2 = true := by simp only [atEnd, b4]; norm_num
  unfold loop
  rw [n0, if_neg (by simp), a1]
  simp only [Res.ok_bind]
  unfold loop
  rw [n1, if_neg (by simp), b1]
  simp only [Res.ok_bind]
  unfold loop
  rw [n2, if_pos rfl]

example : ∃ fuel s', loop { exConfig .forwardEuler with endTime := 1 / 2 } fuel ⟨[12, 0], ⟨0, 0⟩, (), []⟩ = .ok (some s') ∧ 1 / 2 ≤ s'.info.time :=
  C36_terminates { exConfig .forwardEuler with endTime := 1 / 2 } (fun s => s.vols.length = 2 ∧ ∃ u, s.vols[0]? = some u) (1 / 3) (by norm_num)
    (by
      rintro s ⟨hl, u, hu⟩ -
      have hdt : computeTimestep ([] : List (ℚ → ℚ)) [] (fun _ => 1) (fun _ => 2) (1 / 2) s.info = ((1 / 3 : ℚ) : WithTop ℚ) := by
        simp [computeTimestep, adjustTimestep, waveSpeedTotal, List.range_succ]
        norm_num
      obtain ⟨s1, u', h1, h2, h3, -, -, h6, -⟩ := increment_ok { exConfig .forwardEuler with endTime := 1 / 2 } exSound s hl u hu trivial (1 / 3) hdt
        (by norm_num [exConfig, exEnv])
      refine ⟨s1, ?_, ⟨h3.trans hl, u', h2⟩, by rw [h6]; exact le_rfl⟩
      unfold performStep
      rw [h1]
      simp [checkConstraints, callWriters, at', h2, exConfig]) _ ⟨rfl, 12, rfl⟩

/-! ### C38 -/

/-- The states a coarse graining writer can be in at a simulation time, on a grid with cell length `dx`; as `FixedReach`. -/
inductive CoarseReach (p : Coarse K) (dx : K) : K → CoarseState K × List K → Prop
  | start {n : Nat} {st : CoarseState K × List K} : p.write recordTime dx () ⟨0, n⟩ (.init, []) = .ok st → CoarseReach p dx 0 st
  | step {t h : K} {st st' : CoarseState K × List K} {n n' : Nat} {proposal r : WithTop K} : CoarseReach p dx t st → 0 < h →
      p.adjust st.1 proposal ⟨t, n⟩ = .ok r → (h : WithTop K) ≤ r → p.write recordTime dx () ⟨t + h, n'⟩ st = .ok st' → CoarseReach p dx (t + h) st'

/-- The save times after the initial one, numbered consecutively; `m` is the number of saves on each side of a multiple of the interval `T`, `s` the spacing. -/
def clusterTime (T s : K) (m i : Nat) : K := (1 + (i / (2 * m + 1) : Nat)) * T + s * ((i % (2 * m + 1) : Nat) - m)

theorem clusterTime_strictMono (T s : K) (m : Nat) (hs : 0 < s) (hT : 2 * m * s < T) : StrictMono (clusterTime T s m) := by
  refine strictMono_nat_of_lt_succ fun i => ?_
  have hdm := Nat.div_add_mod i (2 * m + 1)
  have hlt := Nat.mod_lt i (by omega : 0 < 2 * m + 1)
  unfold clusterTime
  by_cases h : i % (2 * m + 1) + 1 < 2 * m + 1
  · have h1 : (i + 1) / (2 * m + 1) = i / (2 * m + 1) ∧ (i + 1) % (2 * m + 1) = i % (2 * m + 1) + 1 := by
      rw [Nat.div_mod_unique (by omega)]; constructor <;> omega
    rw [h1.1, h1.2]
    push_cast
    linarith
  · have h0 : i % (2 * m + 1) = 2 * m := by omega
    have h1 : (i + 1) / (2 * m + 1) = i / (2 * m + 1) + 1 ∧ (i + 1) % (2 * m + 1) = 0 := by
      rw [Nat.div_mod_unique (by omega)]; constructor
      · rw [Nat.mul_add]; omega
      · omega
    rw [h1.1, h1.2, h0]
    push_cast
    nlinarith

omit [IsStrictOrderedRing K] in
theorem coarseWrite_record (p : Coarse K) (dx t : K) (n : Nat) (st : CoarseState K × List K) :
    p.write recordTime dx () ⟨t, n⟩ st = .ok
      (let due := p.next dx st.1.saved st.1.small ≤ t
       let small := if st.1.first then -p.coarseSaves else if due then st.1.small + 1 else st.1.small
       let saved := if st.1.saved = 0 then st.1.saved + 1 else st.1.saved
       (if small = p.coarseSaves + 1 then ⟨saved + 1, -p.coarseSaves, false, some dx⟩ else ⟨saved, small, false, some dx⟩,
        if due then st.2 ++ [t] else st.2)) := by
  unfold Coarse.write recordTime
  simp only
  by_cases h : p.next dx st.1.saved st.1.small ≤ t
  · simp only [h, if_true, Res.ok_bind]
    split_ifs <;> rfl
  · simp only [h, if_false, Res.pure_eq, Res.ok_bind]
    split_ifs <;> rfl

theorem coarse_inv (p : Coarse K) (dx : K) (m : Nat) (hm : p.coarseSaves = m) (hs : 0 < ((p.skips : K) + 1) * dx) (hT : 2 * m * (((p.skips : K) + 1) * dx) < p.interval)
    (t : K) (st : CoarseState K × List K) (h : CoarseReach p dx t st) :
    0 ≤ t ∧ ∃ i, st.1 = ⟨1 + (i / (2 * m + 1) : Nat), (i % (2 * m + 1) : Nat) - m, false, some dx⟩ ∧ t < clusterTime p.interval (((p.skips : K) + 1) * dx) m i ∧
      (∀ k < i, clusterTime p.interval (((p.skips : K) + 1) * dx) m k ≤ t) ∧
      st.2 = 0 :: (List.range i).map (clusterTime p.interval (((p.skips : K) + 1) * dx) m) := by
  have smono := clusterTime_strictMono p.interval _ m hs hT
  have hnext : ∀ i : Nat, p.next dx (1 + (i / (2 * m + 1) : Nat)) ((i % (2 * m + 1) : Nat) - m) = clusterTime p.interval (((p.skips : K) + 1) * dx) m i := fun i => by
    unfold Coarse.next clusterTime; simp only [Int.cast_add, Int.cast_one, Int.cast_sub, Int.cast_natCast]
  generalize hsdef : ((p.skips : K) + 1) * dx = s at *
  have hm0 : (0 : K) ≤ m := Nat.cast_nonneg m
  have hms : 0 ≤ m * s := mul_nonneg hm0 hs.le
  induction h with
  | start h0 =>
    rw [coarseWrite_record] at h0
    cases h0
    have hd : p.next dx (CoarseState.init : CoarseState K).saved (CoarseState.init : CoarseState K).small ≤ 0 := by simp [Coarse.next, CoarseState.init]
    refine ⟨le_rfl, 0, ?_, ?_, by simp, ?_⟩
    · have : -(m : Int) ≠ (m : Int) + 1 := by omega
      simp [CoarseState.init, hm, this]
    · simp only [clusterTime, Nat.zero_div, Nat.zero_mod, Nat.cast_zero]
      nlinarith
    · simp [hd]
  | @step t h st st' n n' proposal r _ hpos hadj hle hwr ih =>
    obtain ⟨ht, i, i1, i2, i3, i4⟩ := ih
    rw [coarseWrite_record] at hwr
    cases hwr
    have hbound : t + h ≤ clusterTime p.interval s m i := by
      unfold Coarse.adjust at hadj
      rw [i1] at hadj
      simp only [hnext] at hadj
      rw [if_pos (by positivity)] at hadj
      cases hadj
      have := hle.trans (min_le_right _ _)
      rw [WithTop.coe_le_coe] at this
      linarith
    refine ⟨by linarith, ?_⟩
    rw [i1]
    simp only [hnext, Bool.false_eq_true, if_false, hm]
    have hne : ¬ (1 + ((i / (2 * m + 1) : Nat) : Int) = 0) := by positivity
    have hdm := Nat.div_add_mod i (2 * m + 1)
    have hlt := Nat.mod_lt i (by omega : 0 < 2 * m + 1)
    rw [if_neg hne]
    split_ifs with hc h2 h2
    · -- last of a cluster
      have e : t + h = clusterTime p.interval s m i := le_antisymm hbound hc
      have h0 : i % (2 * m + 1) = 2 * m := by omega
      have h1 : (i + 1) / (2 * m + 1) = i / (2 * m + 1) + 1 ∧ (i + 1) % (2 * m + 1) = 0 := by
        rw [Nat.div_mod_unique (by omega)]; constructor
        · rw [Nat.mul_add]; omega
        · omega
      refine ⟨i + 1, ?_, by rw [e]; exact smono (Nat.lt_succ_self i), fun k hk => by rw [e]; exact smono.monotone (by omega), ?_⟩
      · rw [h1.1, h1.2]; push_cast; congr 1 <;> ring
      · simp only [i4, List.range_succ, List.map_append, e]; rfl
    · have e : t + h = clusterTime p.interval s m i := le_antisymm hbound hc
      have h1 : (i + 1) / (2 * m + 1) = i / (2 * m + 1) ∧ (i + 1) % (2 * m + 1) = i % (2 * m + 1) + 1 := by
        rw [Nat.div_mod_unique (by omega)]; constructor <;> omega
      refine ⟨i + 1, ?_, by rw [e]; exact smono (Nat.lt_succ_self i), fun k hk => by rw [e]; exact smono.monotone (by omega), ?_⟩
      · rw [h1.1, h1.2]; push_cast; congr 1; ring
      · simp only [i4, List.range_succ, List.map_append, e]; rfl
    · omega
    · exact ⟨i, rfl, not_le.1 hc, fun k hk => (i3 k hk).trans (by linarith), i4⟩

/-- C38 for clusters that do not overlap (`2 m * spacing < interval`, not checked by the code). The times saved up to time `t` are exactly zero and the times `k * interval + j * spacing ≤ t`
with `k ≥ 1` and `-m ≤ j ≤ m`, in increasing order, once each; and the adjuster never turns a positive proposal into one that is not positive. What is missing: overlapping clusters, for
which the statement is false (`C38_fails_for_overlapping_clusters`). -/
theorem C38_coarse_graining_partial (p : Coarse K) (dx : K) (m : Nat) (hm : p.coarseSaves = m) (hs : 0 < ((p.skips : K) + 1) * dx)
    (hT : 2 * m * (((p.skips : K) + 1) * dx) < p.interval) (t : K) (st : CoarseState K × List K) (h : CoarseReach p dx t st) :
    (∀ x, x ∈ st.2 ↔ x = 0 ∨ ∃ (k : Nat) (j : Int), 1 ≤ k ∧ -m ≤ j ∧ j ≤ m ∧ x = k * p.interval + j * (((p.skips : K) + 1) * dx) ∧ x ≤ t) ∧ st.2.Pairwise (· < ·) ∧
      ∀ proposal n, 0 < proposal → ∃ r, p.adjust st.1 proposal ⟨t, n⟩ = .ok r ∧ 0 < r := by
  obtain ⟨ht, i, i1, i2, i3, i4⟩ := coarse_inv p dx m hm hs hT t st h
  have smono := clusterTime_strictMono p.interval _ m hs hT
  have hnext : ∀ i : Nat, p.next dx (1 + (i / (2 * m + 1) : Nat)) ((i % (2 * m + 1) : Nat) - m) = clusterTime p.interval (((p.skips : K) + 1) * dx) m i := fun i => by
    unfold Coarse.next clusterTime; simp only [Int.cast_add, Int.cast_one, Int.cast_sub, Int.cast_natCast]
  generalize hsdef : ((p.skips : K) + 1) * dx = s at *
  refine ⟨fun x => ?_, ?_, fun proposal n hp => ?_⟩
  · rw [i4, List.mem_cons, List.mem_map]
    refine or_congr_right ⟨?_, ?_⟩
    · rintro ⟨k, hk, rfl⟩
      have := Nat.mod_lt k (by omega : 0 < 2 * m + 1)
      refine ⟨1 + k / (2 * m + 1), (k % (2 * m + 1) : Nat) - m, Nat.le_add_right 1 _, by omega, by omega, ?_, i3 k (by simpa using hk)⟩
      unfold clusterTime; simp only [Nat.cast_add, Nat.cast_one, Int.cast_sub, Int.cast_natCast]; ring
    · rintro ⟨k, j, hk, hj1, hj2, rfl, hle⟩
      obtain ⟨k, rfl⟩ : ∃ k', k = 1 + k' := ⟨k - 1, by omega⟩
      obtain ⟨j', hj'⟩ : ∃ j' : Nat, j = (j' : Int) - m := ⟨(j + m).toNat, by omega⟩
      have h1 : ((2 * m + 1) * k + j') / (2 * m + 1) = k ∧ ((2 * m + 1) * k + j') % (2 * m + 1) = j' := by
        rw [Nat.div_mod_unique (by omega)]; constructor <;> omega
      have e : clusterTime p.interval s m ((2 * m + 1) * k + j') = ((1 + k : Nat) : K) * p.interval + j * s := by
        unfold clusterTime; rw [h1.1, h1.2, hj']; push_cast; ring
      refine ⟨(2 * m + 1) * k + j', ?_, e⟩
      rw [List.mem_range]
      by_contra hn
      have := smono.monotone (not_lt.1 hn)
      linarith
  · rw [i4, List.pairwise_cons, List.pairwise_map]
    refine ⟨fun x hx => ?_, (List.pairwise_lt_range).imp fun hab => smono hab⟩
    obtain ⟨k, -, rfl⟩ := List.mem_map.1 hx
    have h0 : 0 < clusterTime p.interval s m 0 := by
      simp only [clusterTime, Nat.zero_div, Nat.zero_mod, Nat.cast_zero]
      have : 0 ≤ (m : K) * s := mul_nonneg (Nat.cast_nonneg m) hs.le
      nlinarith
    exact h0.trans_le (smono.monotone (Nat.zero_le k))
  · unfold Coarse.adjust
    rw [i1]
    simp only [hnext]
    rw [if_pos (by positivity)]
    refine ⟨_, rfl, lt_min hp ?_⟩
    rw [← WithTop.coe_zero, WithTop.coe_lt_coe]
    linarith

example : CoarseReach (⟨1, 1, 0⟩ : Coarse ℚ) (1 / 4) (0 + 3 / 4) (⟨1, 0, false, some (1 / 4)⟩, [0, 0 + 3 / 4]) := by
  refine .step (n := 0) (n' := 1) (proposal := ⊤) (r := ((3 / 4 : ℚ) : WithTop ℚ)) (.start (n := 0) (st := (⟨1, -1, false, some (1 / 4)⟩, [0])) ?_) ?_ ?_ le_rfl ?_
  · rw [coarseWrite_record]; simp [CoarseState.init, Coarse.next]
  · norm_num
  · rw [show ((3 / 4 : ℚ) : WithTop ℚ) = min ⊤ ((Coarse.next (⟨1, 1, 0⟩ : Coarse ℚ) (1 / 4) 1 (-1) - 0 : ℚ) : WithTop ℚ) by
      rw [min_eq_right le_top]; norm_num [Coarse.next]]
    rfl
  · rw [coarseWrite_record]; norm_num [Coarse.next]

/-- C38 is false for overlapping clusters: with interval 1, one save on each side and spacing 2 the adjuster asks for the time step -1 right after the initial save. -/
theorem C38_fails_for_overlapping_clusters :
    ∃ st, CoarseReach (⟨1, 1, 0⟩ : Coarse ℚ) 2 0 st ∧ Coarse.adjust ⟨1, 1, 0⟩ st.1 ⊤ ⟨0, 0⟩ = .ok ((-1 : ℚ) : WithTop ℚ) := by
  refine ⟨(⟨1, -1, false, some 2⟩, [0]), .start (n := 0) ?_, ?_⟩
  · rw [coarseWrite_record]; simp [CoarseState.init, Coarse.next]
  · rw [show ((-1 : ℚ) : WithTop ℚ) = min ⊤ ((Coarse.next (⟨1, 1, 0⟩ : Coarse ℚ) 2 1 (-1) - 0 : ℚ) : WithTop ℚ) by
      rw [min_eq_right le_top]; norm_num [Coarse.next]]
    rfl

/-! ### C39 -/

/-- A writer that keeps the fields it is given, with their times. -/
def recordField (u : V) (info : TimeInfo K) (log : List (K × V)) : Res (List (K × V)) := .ok (log ++ [(info.time, u)])

/-- Sum over the calls inside the window of (time since the previous call) times the state. -/
def windowSum (time radius : K) : K → List (TimeInfo K × V) → V
  | _, [] => 0
  | last, (info, u) :: l => (if |info.time - time| < radius then (info.time - last) • u else 0) + windowSum time radius info.time l

theorem integrated_write_in {time radius : K} {u : V} {info : TimeInfo K} {acc : Option V} {last : K} {log : List (K × V)} (hw : |info.time - time| < radius) :
    integratedWrite time radius recordField u info (⟨acc, last, false⟩, log) = .ok (⟨some (acc.getD 0 + (info.time - last) • u), info.time, false⟩, log) := by
  have hn : ¬ time + radius ≤ info.time := by have := lt_of_abs_lt hw; linarith
  simp [integratedWrite, hw, hn]

omit [IsStrictOrderedRing K] in
theorem integrated_write_out {time radius : K} {u : V} {info : TimeInfo K} {acc : Option V} {last : K} {w : Bool} {log : List (K × V)} (hw : ¬ |info.time - time| < radius)
    (hn : w = true ∨ ¬ time + radius ≤ info.time) :
    integratedWrite time radius recordField u info (⟨acc, last, w⟩, log) = .ok (⟨acc, info.time, w⟩, log) := by
  have : ¬ (w = false ∧ time + radius ≤ info.time) := by rcases hn with rfl | hn <;> simp_all
  simp [integratedWrite, hw, this]

theorem integrated_write_last {time radius : K} {u : V} {info : TimeInfo K} {a : V} {last : K} {log : List (K × V)} (hp : time + radius ≤ info.time) :
    integratedWrite time radius recordField u info (⟨some a, last, false⟩, log) =
      .ok (⟨some (((1 / 2) / radius : K) • a), info.time, true⟩, log ++ [(time, ((1 / 2) / radius : K) • a)]) := by
  have hw : ¬ |info.time - time| < radius := fun h => by have := lt_of_abs_lt h; linarith
  simp [integratedWrite, hw, hp, recordField]

theorem integrated_written (time radius : K) (l : List (TimeInfo K × V)) (hl : ∀ c ∈ l, time + radius ≤ c.1.time) (acc : Option V) (last : K) (log : List (K × V)) :
    (∃ st, l.foldlM (fun s c => integratedWrite time radius recordField c.2 c.1 s) (⟨acc, last, true⟩, log) = .ok (st, log)) ∧ windowSum time radius last l = 0 := by
  induction l generalizing acc last with
  | nil => exact ⟨⟨_, rfl⟩, rfl⟩
  | cons c l ih =>
    obtain ⟨info, u⟩ := c
    have h1 : time + radius ≤ info.time := hl _ List.mem_cons_self
    have hn : ¬ |info.time - time| < radius := by
      intro h; have := lt_of_abs_lt h; linarith
    obtain ⟨⟨st, h2⟩, h3⟩ := ih (fun c hc => hl c (List.mem_cons_of_mem _ hc)) acc info.time
    refine ⟨⟨st, ?_⟩, ?_⟩
    · rw [List.foldlM_cons, integrated_write_out hn (Or.inl rfl)]
      exact h2
    · simp [windowSum, hn, h3]

theorem integrated_unwritten (time radius : K) (l : List (TimeInfo K × V)) (hmono : l.Pairwise fun a b => a.1.time ≤ b.1.time) (acc : Option V) (last : K) (log : List (K × V))
    (hsome : (∃ c ∈ l, time + radius ≤ c.1.time) → acc ≠ none ∨ ∃ c ∈ l, |c.1.time - time| < radius) :
    ∃ st, l.foldlM (fun s c => integratedWrite time radius recordField c.2 c.1 s) (⟨acc, last, false⟩, log) = .ok (st,
      log ++ if ∃ c ∈ l, time + radius ≤ c.1.time then [(time, ((1 / 2) / radius : K) • (acc.getD 0 + windowSum time radius last l))] else []) := by
  induction l generalizing acc last with
  | nil => exact ⟨_, by simp; rfl⟩
  | cons c l ih =>
    obtain ⟨info, u⟩ := c
    rw [List.pairwise_cons] at hmono
    by_cases hw : |info.time - time| < radius
    · have hn : ¬ time + radius ≤ info.time := by have := lt_of_abs_lt hw; linarith
      obtain ⟨st, h⟩ := ih hmono.2 (some (acc.getD 0 + (info.time - last) • u)) info.time (fun _ => Or.inl (by simp))
      refine ⟨st, ?_⟩
      rw [List.foldlM_cons, integrated_write_in hw]
      refine h.trans ?_
      simp only [Option.getD_some, List.mem_cons, exists_eq_or_imp, hn, false_or, windowSum, if_pos hw, add_assoc]
    · by_cases hp : time + radius ≤ info.time
      · have hrest : ∀ c ∈ l, time + radius ≤ c.1.time := fun c hc => hp.trans (hmono.1 c hc)
        have hnone : acc ≠ none := by
          rcases hsome ⟨_, List.mem_cons_self, hp⟩ with h | ⟨c, hc, h⟩
          · exact h
          · exfalso
            rcases List.mem_cons.1 hc with rfl | hc
            · exact hw h
            · have := hrest c hc; have := lt_of_abs_lt h; linarith
        obtain ⟨a, rfl⟩ := Option.ne_none_iff_exists'.1 hnone
        obtain ⟨⟨st, h⟩, h0⟩ := integrated_written time radius l hrest (some (((1 / 2) / radius : K) • a)) info.time (log ++ [(time, ((1 / 2) / radius : K) • a)])
        refine ⟨st, ?_⟩
        rw [List.foldlM_cons, integrated_write_last hp, if_pos ⟨_, List.mem_cons_self, hp⟩]
        simp only [windowSum, if_neg hw, h0, add_zero, Option.getD_some]
        exact h
      · obtain ⟨st, h⟩ := ih hmono.2 acc info.time (by
          rintro ⟨c, hc, h⟩
          rcases hsome ⟨c, List.mem_cons_of_mem _ hc, h⟩ with h | ⟨c', hc', h'⟩
          · exact Or.inl h
          · rcases List.mem_cons.1 hc' with rfl | hc'
            · exact absurd h' hw
            · exact Or.inr ⟨c', hc', h'⟩)
        refine ⟨st, ?_⟩
        rw [List.foldlM_cons, integrated_write_out hw (Or.inr hp)]
        refine h.trans ?_
        simp only [List.mem_cons, exists_eq_or_imp, hp, false_or, windowSum, if_neg hw, zero_add]

/-- C39 for a writer called at nondecreasing times, at least one of them inside the window before the window has passed. Up to the end of the window it emits nothing; once a time
`≥ time + radius` has been seen it has emitted exactly one field, at the time `time`: the sum of (time since the previous call) times state over the calls inside the window, divided by the
window length `2 radius`. What is missing: sequences without a call inside the window, for which the program dereferences a null pointer (`C39_fails_without_step_in_window`). -/
theorem C39_time_average_partial (time radius : K) (l : List (TimeInfo K × V)) (hmono : l.Pairwise fun a b => a.1.time ≤ b.1.time)
    (hsome : (∃ c ∈ l, time + radius ≤ c.1.time) → ∃ c ∈ l, |c.1.time - time| < radius) :
    ∃ st, l.foldlM (fun s c => integratedWrite time radius recordField c.2 c.1 s) (.init, []) = .ok (st,
      if ∃ c ∈ l, time + radius ≤ c.1.time then [(time, (1 / (2 * radius)) • windowSum time radius 0 l)] else []) := by
  obtain ⟨st, h⟩ := integrated_unwritten time radius l hmono none 0 [] (fun h => Or.inr (hsome h))
  refine ⟨st, h.trans ?_⟩
  rw [div_div]
  simp

example : ∃ st, [((⟨0, 0⟩ : TimeInfo ℚ), (3 : ℚ)), (⟨1, 1⟩, 4), (⟨3 / 2, 2⟩, 6), (⟨2, 3⟩, 7)].foldlM (fun s c => integratedWrite 1 1 recordField c.2 c.1 s) (.init, []) =
    .ok (st, [(1, 7 / 2)]) := by
  obtain ⟨st, h⟩ := C39_time_average_partial (1 : ℚ) 1 [((⟨0, 0⟩ : TimeInfo ℚ), (3 : ℚ)), (⟨1, 1⟩, 4), (⟨3 / 2, 2⟩, 6), (⟨2, 3⟩, 7)] (by simp; norm_num)
    (fun _ => ⟨(⟨1, 1⟩, 4), by simp, by simp⟩)
  refine ⟨st, h.trans ?_⟩
  rw [if_pos ⟨(⟨2, 3⟩, 7), by simp, by norm_num⟩]
  norm_num [windowSum, abs_lt]

/-- C39 is false for sequences without a step inside the window: undefined behaviour. -/
theorem C39_fails_without_step_in_window :
    [((⟨0, 0⟩ : TimeInfo ℚ), (3 : ℚ)), (⟨2, 1⟩, 4)].foldlM (fun s c => integratedWrite 1 (1 / 2) recordField c.2 c.1 s) (.init, []) = .error .ub := by
  have h1 : ¬ |(0 : ℚ) - 1| < 1 / 2 := by norm_num
  have h2 : ¬ |(2 : ℚ) - 1| < 1 / 2 := by norm_num
  have h3 : ¬ (1 : ℚ) + 1 / 2 ≤ 0 := by norm_num
  have h4 : (1 : ℚ) + 1 / 2 ≤ 2 := by norm_num
  simp only [List.foldlM_cons, integratedWrite, IntegratedState.init, if_neg h1, if_neg h2, h3, h4, and_false, if_false, and_self, if_true, Res.pure_eq, Res.ok_bind, Res.error_bind]

/-- C39 for the writer as the configuration creates it with `numberOfSnapshots` (SimulatorSetup.cpp:404-411): inside a fixed interval writer that starts at `time - radius` it does not see the
calls before the window, so the first weight counts from time zero. With the window [9, 11], two snapshots per radius and the constant state 1 the "average" is 21/4. -/
theorem C39_fails_with_snapshots :
    ∃ st, [((⟨0, 0⟩ : TimeInfo ℚ), (1 : ℚ)), (⟨19 / 2, 1⟩, 1), (⟨10, 2⟩, 1), (⟨21 / 2, 3⟩, 1), (⟨11, 4⟩, 1)].foldlM
      (fun s c => Fixed.write ⟨1 / 2, 9, false⟩ (integratedWrite 10 1 recordField) c.2 c.1 s) (Fixed.init (⟨1 / 2, 9, false⟩ : Fixed ℚ), (.init, [])) = .ok (5, st, [(10, 21 / 4)]) := by
  refine ⟨⟨some (21 / 4), 11, true⟩, ?_⟩
  norm_num [List.foldlM_cons, integratedWrite, IntegratedState.init, Fixed.write, Fixed.next, Fixed.init, recordField, abs_lt]

end Verif.Props
