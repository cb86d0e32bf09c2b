import Verif.Props.Writers
import Mathlib.Algebra.BigOperators.Fin
import Mathlib.Algebra.Order.BigOperators.Group.Finset
import Mathlib.Data.List.FinRange

/-!
Runs with any number of fixed interval writers, for C86: every step ends at the first save time of any of them or as the CFL condition says, so all their save times are met.
-/

namespace Verif.Schedule
open Integrator Simulator Writers Props
variable {K V W σ : Type} [Field K] [LinearOrder K] [IsStrictOrderedRing K] [AddCommGroup V] [Module K V] [AddCommGroup W] [Module K W]

/-- The adjusters of a list of optional fixed interval writers. -/
def adjustersOf {n : Nat} (P : Fin n → Option (Fixed K)) (saved : Fin n → Nat) : List (Adjuster K) :=
  (List.finRange n).filterMap fun i => (P i).map fun p => p.adjust (saved i)

omit [IsStrictOrderedRing K] in
/-- The time step after a list of adjusters of fixed interval writers that have saved something: the smallest of the proposals. -/
theorem adjust_list {n : Nat} (P : Fin n → Option (Fixed K)) (saved : Fin n → Nat) (hpos : ∀ i p, P i = some p → 0 < saved i) (info : TimeInfo K) (l : List (Fin n)) (dt : K) :
    ∃ r : K, adjustTimestep (l.filterMap fun i => (P i).map fun p => p.adjust (saved i)) (dt : WithTop K) info = r ∧ r ≤ dt ∧
      (∀ i ∈ l, ∀ p, P i = some p → r ≤ p.next (saved i) - info.time) ∧ (r = dt ∨ ∃ i p, P i = some p ∧ r = p.next (saved i) - info.time) := by
  induction l generalizing dt with
  | nil => exact ⟨dt, rfl, le_rfl, by simp, .inl rfl⟩
  | cons i l ih =>
    cases hp : P i with
    | none =>
      obtain ⟨r, h1, h2, h3, h4⟩ := ih dt
      refine ⟨r, by simpa [List.filterMap_cons, hp] using h1, h2, ?_, h4⟩
      intro j hj p hjp
      rcases List.mem_cons.1 hj with rfl | hj
      · rw [hp] at hjp; cases hjp
      · exact h3 j hj p hjp
    | some p =>
      obtain ⟨r, h1, h2, h3, h4⟩ := ih (min dt (p.next (saved i) - info.time))
      refine ⟨r, ?_, h2.trans (min_le_left _ _), ?_, ?_⟩
      · rw [← h1]
        simp only [List.filterMap_cons, hp, Option.map_some, adjustTimestep, List.foldl_cons, Fixed.adjust, if_pos (hpos i p hp), WithTop.coe_min]
      · intro j hj q hjq
        rcases List.mem_cons.1 hj with rfl | hj
        · rw [hp] at hjq; cases hjq; exact h2.trans (min_le_right _ _)
        · exact h3 j hj q hjq
      · rcases h4 with h4 | h4
        · rcases min_choice dt (p.next (saved i) - info.time) with h | h
          · exact .inl (h4.trans h)
          · exact .inr ⟨i, p, hp, h4.trans h⟩
        · exact .inr h4

omit [IsStrictOrderedRing K] in
/-- The time step when nothing moves: the smallest of the proposals. -/
theorem adjust_top {n : Nat} (P : Fin n → Option (Fixed K)) (saved : Fin n → Nat) (hpos : ∀ i p, P i = some p → 0 < saved i) (info : TimeInfo K) (hsome : ∃ i p, P i = some p) :
    ∃ r : K, adjustTimestep (adjustersOf P saved) ⊤ info = r ∧ (∀ i p, P i = some p → r ≤ p.next (saved i) - info.time) ∧
      ∃ i p, P i = some p ∧ r = p.next (saved i) - info.time := by
  have key : ∀ l : List (Fin n), (∃ i ∈ l, ∃ p, P i = some p) → ∃ i p, P i = some p ∧
      adjustTimestep (l.filterMap fun i => (P i).map fun p => p.adjust (saved i)) ⊤ info =
        adjustTimestep (l.filterMap fun i => (P i).map fun p => p.adjust (saved i)) ((p.next (saved i) - info.time : K) : WithTop K) info := by
    intro l
    induction l with
    | nil => rintro ⟨i, hi, -⟩; cases hi
    | cons i l ih =>
      rintro ⟨j, hj, q, hq⟩
      cases hp : P i with
      | none =>
        have hj' : j ∈ l := by
          rcases List.mem_cons.1 hj with rfl | hj
          · rw [hp] at hq; cases hq
          · exact hj
        obtain ⟨a, b, h1, h2⟩ := ih ⟨j, hj', q, hq⟩
        exact ⟨a, b, h1, by simpa [List.filterMap_cons, hp] using h2⟩
      | some p =>
        refine ⟨i, p, hp, ?_⟩
        simp only [List.filterMap_cons, hp, Option.map_some, adjustTimestep, List.foldl_cons, Fixed.adjust, if_pos (hpos i p hp), min_self, top_le_iff, min_eq_right le_top]
  obtain ⟨i, p, hp⟩ := hsome
  obtain ⟨j, q, hq, h⟩ := key (List.finRange n) ⟨i, List.mem_finRange i, p, hp⟩
  obtain ⟨r, h1, -, h3, h4⟩ := adjust_list P saved hpos info (List.finRange n) (q.next (saved j) - info.time)
  refine ⟨r, h.trans h1, fun i p hp => h3 i (List.mem_finRange i) p hp, ?_⟩
  rcases h4 with h4 | h4
  · exact ⟨j, q, hq, h4⟩
  · exact h4

/-- The save times of a fixed interval writer. -/
def SaveTime (p : Fixed K) (t : K) : Prop := ∃ k : Nat, (if p.initial then 0 else 1) ≤ k ∧ t = p.start + k * p.interval

/-- The writers a configuration can ask for. -/
structure Valid (p : Fixed K) : Prop where
  interval : 0 < p.interval
  start : 0 ≤ p.start
  initial : p.start = 0 ∨ p.initial = false

omit [LinearOrder K] [IsStrictOrderedRing K] in
theorem next_eq (p : Fixed K) (k : Nat) : p.next k = p.start + k * p.interval := by unfold Fixed.next; ring

theorem Valid.smono {p : Fixed K} (h : Valid p) : StrictMono p.next := strictMono_nat_of_lt_succ fun a => by
  have := h.interval
  unfold Fixed.next; push_cast; linarith

theorem Valid.first {p : Fixed K} (h : Valid p) : 0 < p.next 1 := by
  have := h.interval; have := h.start
  unfold Fixed.next; push_cast; linarith

/-- The states `Q` are kept by all steps within the CFL condition, and all of them allow time steps of length `δ`. In a state without any motion there is no bound for the time step. -/
structure Stable (kind : Kind) (env : Env V K) (F : W → W) (ws : W → Nat → K) (Q : W → Prop) (δ : K) : Prop where
  positive : 0 < δ
  cfl : ∀ w, Q w → 0 ≤ waveSpeedTotal env.waveAdj (ws w) env.len ∧ δ * waveSpeedTotal env.waveAdj (ws w) env.len ≤ env.cfl
  keep : ∀ w dt, Q w → 0 < dt → dt * waveSpeedTotal env.waveAdj (ws w) env.len ≤ env.cfl → Q (textbook kind (fun w => (1 / env.len 0) • F w) dt w)

omit [IsStrictOrderedRing K] [AddCommGroup V] [Module K V] in
/-- All states, if the time step has a lower bound. -/
theorem Stable.always {kind : Kind} {env : Env V K} {F : W → W} {ws : W → Nat → K} {δ : K} (hδ : 0 < δ)
    (h : ∀ w, 0 ≤ waveSpeedTotal env.waveAdj (ws w) env.len ∧ δ * waveSpeedTotal env.waveAdj (ws w) env.len ≤ env.cfl) : Stable kind env F ws (fun _ => True) δ :=
  ⟨hδ, fun w _ => h w, fun _ _ _ _ _ => trivial⟩

open Classical in
/-- What is known of a run between two steps: `past` are the solutions and times so far. -/
structure Track (c : Config V K σ) (int : V →ₗ[K] W) (F : W → W) (Ready : V → Prop) (Q : W → Prop) {n : Nat} (P : Fin n → Option (Fixed K)) (saved : σ → Fin n → Nat)
    (Rel : Fin n → List (V × TimeInfo K) → σ → Prop) (past : List (V × TimeInfo K)) (s : Sim V K σ) : Prop where
  length : s.vols.length = c.kind.substeps + 1
  last : ∃ u, s.vols[0]? = some u ∧ Ready u ∧ past.getLast? = some (u, s.info)
  first : ∃ e, past.head? = some e ∧ e.2.time = 0
  kept : ∀ e ∈ past, Q (int e.1)
  times : past.Pairwise fun a b => a.2.time < b.2.time
  steps : past.IsChain fun a b => int b.1 = textbook c.kind (fun w => (1 / c.env.len 0) • F w) (b.2.time - a.2.time) (int a.1)
  atMost : ∀ e ∈ past, e.2.time ≤ s.info.time
  ended : s.info.time ≤ c.endTime
  positive : ∀ i p, P i = some p → 0 < saved s.ws i ∧ (if p.initial then 0 else 1) ≤ saved s.ws i
  next : ∀ i p, P i = some p → s.info.time < p.next (saved s.ws i)
  passed : ∀ i p, P i = some p → ∀ k, (if p.initial then 0 else 1) ≤ k → k < saved s.ws i → ∃ e ∈ past, e.2.time = p.next k
  written : ∀ i p, P i = some p → Rel i (past.filter fun e => SaveTime p e.2.time) s.ws


theorem run_schedule [Archimedean K] (c : Config V K σ) (int : V →ₗ[K] W) (F : W → W) (ws : W → Nat → K) (Ready : V → Prop) (Q : W → Prop)
    (hs : Sound c.env.sys c.bc int F ws Ready) (hx : c.env.len 0 ≠ 0) (δ : K) (hst : Stable c.kind c.env F ws Q δ)
    (hobeys : ∀ u, Ready u → Q (int u) → c.obeys u = true) (hend : 0 < c.endTime) {n : Nat} (P : Fin n → Option (Fixed K)) (hP : ∀ i p, P i = some p → Valid p)
    (hlast : ∃ i p, P i = some p ∧ SaveTime p c.endTime) (saved : σ → Fin n → Nat) (Rel : Fin n → List (V × TimeInfo K) → σ → Prop)
    (hadj : ∀ ws, c.adjusters ws = adjustersOf P (saved ws)) (All : List (V × TimeInfo K) → σ → Prop)
    (hwr : ∀ u info ws past (L : Fin n → List (V × TimeInfo K)), Ready u → Q (int u) →
      ((past = [] ∧ info.time = 0 ∧ ∀ i p, P i = some p → saved ws i = (if p.initial then 0 else 1)) ∨ (past ≠ [] ∧ 0 < info.time)) →
      All past ws → (∀ i p, P i = some p → Rel i (L i) ws ∧ info.time ≤ p.next (saved ws i)) →
      ∃ ws', c.writers.foldlM (fun ws w => w u info ws) ws = .ok ws' ∧ All (past ++ [(u, info)]) ws' ∧ ∀ i p, P i = some p →
        saved ws' i = (if p.next (saved ws i) ≤ info.time then saved ws i + 1 else saved ws i) ∧
        Rel i (if p.next (saved ws i) ≤ info.time then L i ++ [(u, info)] else L i) ws')
    (s : Sim V K σ) (hlen : s.vols.length = c.kind.substeps + 1) (u : V) (hu : s.vols[0]? = some u) (hr : Ready u) (hq : Q (int u)) (ht : s.info.time = 0) (hok : All [] s.ws)
    (hinit : ∀ i p, P i = some p → saved s.ws i = (if p.initial then 0 else 1) ∧ Rel i [] s.ws) :
    ∃ fuel past s', run c fuel s = .ok (some s') ∧ s'.info.time = c.endTime ∧ past.head? = some (u, s.info) ∧ Track c int F Ready Q P saved Rel past s' ∧ All past s'.ws ∧
      s'.log = s.log ++ past.flatMap fun e => (List.range c.writers.length).map fun w => ⟨w, e.1, e.2⟩ := by
  classical
  obtain ⟨hδ, hcfl, hkeep⟩ := hst
  obtain ⟨i0, p0, hp0, N, hN, hT⟩ := hlast
  have hT' : p0.next N = c.endTime := by rw [hT, next_eq]
  -- bounds for the counters
  have hM : ∀ i, ∃ M : Nat, 1 ≤ M ∧ ∀ p, P i = some p → c.endTime < p.next M := by
    intro i
    cases hp : P i with
    | none => exact ⟨1, le_rfl, by simp⟩
    | some p =>
      have hv := hP i p hp
      obtain ⟨M, hM⟩ := Archimedean.arch c.endTime hv.interval
      refine ⟨M + 1, by omega, fun q hq => ?_⟩
      cases hq
      have h1 := hv.interval; have h2 := hv.start
      rw [nsmul_eq_mul] at hM
      rw [next_eq]; push_cast; linarith
  choose M hM1 hM using hM
  let Φ : Sim V K σ → Nat := fun s => ∑ i, if (P i).isSome then M i - saved s.ws i else 0
  have counter_le : ∀ past s, Track c int F Ready Q P saved Rel past s → ∀ i p, P i = some p → saved s.ws i ≤ M i := by
    intro past s hI i p hp
    by_contra hn
    have hv := hP i p hp
    obtain ⟨h1, h2⟩ := hI.positive i p hp
    have h0 := hM1 i
    obtain ⟨e, he, het⟩ := hI.passed i p hp (saved s.ws i - 1) (by split_ifs <;> omega) (by omega)
    have h4 := hI.atMost e he
    have h5 := hv.smono.monotone (show M i ≤ saved s.ws i - 1 by omega)
    have h6 := hM i p hp
    have h7 := hI.ended
    rw [het] at h4
    linarith
  have hstep : ∀ past s, Track c int F Ready Q P saved Rel past s → All past s.ws → s.info.time < c.endTime → ∃ s' u', performStep c s = .ok s' ∧
      Track c int F Ready Q P saved Rel (past ++ [(u', s'.info)]) s' ∧ All (past ++ [(u', s'.info)]) s'.ws ∧
      s'.log = s.log ++ ((List.range c.writers.length).map fun w => ⟨w, u', s'.info⟩) ∧ (Φ s' < Φ s ∨ (Φ s' ≤ Φ s ∧ s.info.time + δ ≤ s'.info.time)) := by
    intro past s hI hOk hlt
    obtain ⟨u, hu, hr, hlastu⟩ := hI.last
    have hQu : Q (int u) := hI.kept _ (List.mem_of_mem_getLast? hlastu)
    obtain ⟨hS, hq⟩ := hcfl (int u) hQu
    obtain ⟨r, hdt, hr2, hr3', hr4⟩ : ∃ r : K, computeTimestep c.env.waveAdj (c.adjusters s.ws) (ws (int u)) c.env.len c.env.cfl s.info = (r : WithTop K) ∧
        r * waveSpeedTotal c.env.waveAdj (ws (int u)) c.env.len ≤ c.env.cfl ∧ (∀ i p, P i = some p → r ≤ p.next (saved s.ws i) - s.info.time) ∧
        (δ ≤ r ∨ ∃ i p, P i = some p ∧ r = p.next (saved s.ws i) - s.info.time) := by
      unfold computeTimestep
      rw [hadj]
      by_cases h0 : waveSpeedTotal c.env.waveAdj (ws (int u)) c.env.len = 0
      · obtain ⟨r, h1, h2, h3⟩ := adjust_top P (saved s.ws) (fun i p hp => (hI.positive i p hp).1) s.info ⟨i0, p0, hp0⟩
        refine ⟨r, by rw [if_pos h0]; exact h1, ?_, h2, .inr h3⟩
        rw [h0] at hq ⊢
        simpa using hq
      · have hS' := lt_of_le_of_ne hS (Ne.symm h0)
        obtain ⟨r, hr1, hr2, hr3, hr4⟩ := adjust_list P (saved s.ws) (fun i p hp => (hI.positive i p hp).1) s.info (List.finRange n)
          (c.env.cfl / waveSpeedTotal c.env.waveAdj (ws (int u)) c.env.len)
        refine ⟨r, by rw [if_neg h0]; exact hr1, (le_div_iff₀ hS').1 hr2, fun i p hp => hr3 i (List.mem_finRange i) p hp, hr4.imp_left fun h => ?_⟩
        rw [h]
        exact (le_div_iff₀ hS').2 hq
    have hrpos : 0 < r := by
      rcases hr4 with h | ⟨i, p, hp, h⟩
      · linarith
      · rw [h]; have := hI.next i p hp; linarith
    obtain ⟨s1, u', a1, a2, a3, a4, a5, a6, a7, a8⟩ := increment_ok c hs s hI.length u hu hr _ hdt hx
    have htime : s1.info.time = s.info.time + r := by rw [a6]; rfl
    have hQu' : Q (int u') := by rw [a5]; exact hkeep _ _ hQu hrpos hr2
    have hle : ∀ i p, P i = some p → s1.info.time ≤ p.next (saved s.ws i) := fun i p hp => by have := hr3' i p hp; linarith
    obtain ⟨ws', w1, w2, w3⟩ := hwr u' s1.info s1.ws past (fun i => past.filter fun e => ∃ p, P i = some p ∧ SaveTime p e.2.time) a4 hQu' (by
        obtain ⟨e, he, h0⟩ := hI.first
        right
        refine ⟨fun h => (by rw [h] at he; cases he), ?_⟩
        have := hI.atMost e (List.mem_of_mem_head? he)
        linarith) (by rw [a7]; exact hOk)
      (fun i p hp => ⟨by rw [a7]; simpa [hp] using hI.written i p hp, by rw [a7]; exact hle i p hp⟩)
    obtain ⟨log', w4⟩ := callWriters_ok a2 w1
    have hps : performStep c s = .ok { s1 with ws := ws', log := log' } := by
      unfold performStep
      rw [a1]
      simp only [Res.ok_bind, checkConstraints, at'_some a2, hobeys u' a4 hQu', if_true, Res.pure_eq]
      exact w4
    rw [a7] at w3
    have hcount : ∀ i p, P i = some p → saved s.ws i ≤ saved ws' i := fun i p hp => by
      rw [(w3 i p hp).1]; split_ifs <;> omega
    have hT1 : s1.info.time ≤ c.endTime := by
      refine (hle i0 p0 hp0).trans ?_
      rw [← hT']
      apply (hP i0 p0 hp0).smono.monotone
      by_contra hn
      obtain ⟨e, he, het⟩ := hI.passed i0 p0 hp0 N hN (by omega)
      have := hI.atMost e he
      rw [het, hT'] at this
      linarith
    have hbefore : ∀ e ∈ past, e.2.time < s1.info.time := fun e he => by have := hI.atMost e he; linarith
    have hon : ∀ i p, P i = some p → (SaveTime p s1.info.time ↔ p.next (saved s.ws i) ≤ s1.info.time) := by
      intro i p hp
      constructor
      · rintro ⟨k, hk, hkt⟩
        rw [← next_eq] at hkt
        rw [hkt]
        apply (hP i p hp).smono.monotone
        by_contra hn
        obtain ⟨e, he, het⟩ := hI.passed i p hp k hk (by omega)
        have := hbefore e he
        rw [het, hkt] at this
        exact lt_irrefl _ this
      · intro h
        exact ⟨saved s.ws i, (hI.positive i p hp).2, by rw [← next_eq]; exact le_antisymm (hle i p hp) h⟩
    have hTrack : Track c int F Ready Q P saved Rel (past ++ [(u', s1.info)]) { s1 with ws := ws', log := log' } := by
      refine { length := a3.trans hI.length, last := ⟨u', a2, a4, by simp⟩, first := ?_, kept := ?_, times := ?_, steps := ?_, atMost := ?_, ended := hT1, positive := ?_, next := ?_, passed := ?_, written := ?_ }
      · obtain ⟨e, he, h0⟩ := hI.first
        exact ⟨e, by rw [List.head?_append, he]; rfl, h0⟩
      · intro e he
        rcases List.mem_append.1 he with he | he
        · exact hI.kept e he
        · rw [List.mem_singleton.1 he]; exact hQu'
      · rw [List.pairwise_append]
        refine ⟨hI.times, by simp, fun a ha b hb => ?_⟩
        rw [List.mem_singleton.1 hb]
        exact hbefore a ha
      · rw [List.isChain_append]
        refine ⟨hI.steps, .singleton _, fun x hx y hy => ?_⟩
        rw [hlastu] at hx
        cases hx
        cases hy
        simp only [a5, htime, add_sub_cancel_left]
      · intro e he
        rcases List.mem_append.1 he with he | he
        · exact (hbefore e he).le
        · rw [List.mem_singleton.1 he]
      · intro i p hp
        obtain ⟨h1, h2⟩ := hI.positive i p hp
        have := hcount i p hp
        exact ⟨by simp only; omega, by simp only; omega⟩
      · intro i p hp
        simp only [(w3 i p hp).1]
        split_ifs with h
        · exact (hle i p hp).trans_lt ((hP i p hp).smono (Nat.lt_succ_self _))
        · exact not_le.1 h
      · intro i p hp k hk hk2
        simp only [(w3 i p hp).1] at hk2
        by_cases hk3 : k < saved s.ws i
        · obtain ⟨e, he, het⟩ := hI.passed i p hp k hk hk3
          exact ⟨e, by simp [he], het⟩
        · split_ifs at hk2 with h
          · obtain rfl : k = saved s.ws i := by omega
            exact ⟨(u', s1.info), by simp, le_antisymm (hle i p hp) h⟩
          · exact absurd hk2 hk3
      · intro i p hp
        have h2 := (w3 i p hp).2
        simp only [hp, Option.some.injEq, exists_eq_left'] at h2
        rw [List.filter_append]
        by_cases h : p.next (saved s.ws i) ≤ s1.info.time
        · rw [if_pos h] at h2
          rw [List.filter_cons_of_pos (by simpa using (hon i p hp).2 h)]; exact h2
        · rw [if_neg h] at h2
          rw [List.filter_cons_of_neg (by simpa using fun h' => h ((hon i p hp).1 h'))]; simpa using h2
    refine ⟨_, u', hps, hTrack, w2, ?_, ?_⟩
    · obtain ⟨vols, dt, v, -, -, b3, -, -, -, -, b8⟩ := C34_one_step c s _ hps
      have : v = u' := by
        have := b3.symm.trans a2
        exact Option.some.inj this
      rw [b8, this]
    · have hle' : ∀ i, (if (P i).isSome then M i - saved ws' i else 0) ≤ if (P i).isSome then M i - saved s.ws i else 0 := by
        intro i
        cases hp : P i with
        | none => simp
        | some p => have := hcount i p hp; simp only [Option.isSome_some, if_true]; omega
      rcases hr4 with h | ⟨i, p, hp, h⟩
      · right
        refine ⟨Finset.sum_le_sum fun i _ => hle' i, ?_⟩
        simp only [htime]; linarith
      · left
        refine Finset.sum_lt_sum (fun i _ => hle' i) ⟨i, Finset.mem_univ i, ?_⟩
        have h1 : saved ws' i = saved s.ws i + 1 := by
          rw [(w3 i p hp).1, if_pos]
          rw [htime, h]; linarith
        have h2 := counter_le _ _ hTrack i p hp
        simp only [h1] at h2
        simp only [hp, Option.isSome_some, if_true, h1]
        omega
  have hloop : ∀ j m : Nat, ∀ past s, Track c int F Ready Q P saved Rel past s → All past s.ws → Φ s ≤ j → c.endTime - s.info.time ≤ m * δ →
      ∃ fuel more s', loop c fuel s = .ok (some s') ∧ s'.info.time = c.endTime ∧ Track c int F Ready Q P saved Rel (past ++ more) s' ∧ All (past ++ more) s'.ws ∧
        s'.log = s.log ++ more.flatMap fun e => (List.range c.writers.length).map fun w => ⟨w, e.1, e.2⟩ := by
    intro j
    induction j with
    | zero =>
      intro m
      induction m with
      | zero =>
        intro past s hI hOk _ hm
        have h3 : s.info.time = c.endTime := le_antisymm hI.ended (by simp at hm; linarith)
        exact ⟨0, [], s, by simp [loop, atEnd, h3], h3, by simpa using hI, by simpa using hOk, by simp⟩
      | succ m ihm =>
        intro past s hI hOk hj hm
        by_cases hend' : c.endTime ≤ s.info.time
        · exact ⟨0, [], s, by simp [loop, atEnd, hend'], le_antisymm hI.ended hend', by simpa using hI, by simpa using hOk, by simp⟩
        · obtain ⟨s1, u', h1, h2, h3, h4, h5⟩ := hstep past s hI hOk (not_le.1 hend')
          rcases h5 with h5 | ⟨h5, h6⟩
          · omega
          · obtain ⟨fuel, more, s', g1, g2, g3, g5, g4⟩ := ihm _ s1 h2 h3 (by omega) (by push_cast at hm; linarith)
            exact ⟨fuel + 1, (u', s1.info) :: more, s', by simp [loop, atEnd, hend', h1, g1], g2, by simpa using g3, by simpa using g5, by rw [g4, h4]; simp⟩
    | succ j ih =>
      intro m
      induction m with
      | zero =>
        intro past s hI hOk _ hm
        have h3 : s.info.time = c.endTime := le_antisymm hI.ended (by simp at hm; linarith)
        exact ⟨0, [], s, by simp [loop, atEnd, h3], h3, by simpa using hI, by simpa using hOk, by simp⟩
      | succ m ihm =>
        intro past s hI hOk hj hm
        by_cases hend' : c.endTime ≤ s.info.time
        · exact ⟨0, [], s, by simp [loop, atEnd, hend'], le_antisymm hI.ended hend', by simpa using hI, by simpa using hOk, by simp⟩
        · obtain ⟨s1, u', h1, h2, h3, h4, h5⟩ := hstep past s hI hOk (not_le.1 hend')
          obtain ⟨fuel, more, s', g1, g2, g3, g5, g4⟩ : ∃ fuel more s', loop c fuel s1 = .ok (some s') ∧ s'.info.time = c.endTime ∧
              Track c int F Ready Q P saved Rel (past ++ [(u', s1.info)] ++ more) s' ∧ All (past ++ [(u', s1.info)] ++ more) s'.ws ∧
              s'.log = s1.log ++ more.flatMap fun e => (List.range c.writers.length).map fun w => ⟨w, e.1, e.2⟩ := by
            rcases h5 with h5 | ⟨h5, h6⟩
            · obtain ⟨m', hm'⟩ := Archimedean.arch (c.endTime - s1.info.time) hδ
              exact ih m' _ s1 h2 h3 (by omega) (by rw [nsmul_eq_mul] at hm'; exact hm')
            · exact ihm _ s1 h2 h3 (by omega) (by push_cast at hm; linarith)
          exact ⟨fuel + 1, (u', s1.info) :: more, s', by simp [loop, atEnd, hend', h1, g1], g2, by simpa using g3, by simpa using g5, by rw [g4, h4]; simp⟩
  obtain ⟨ws', w1, w2, w3⟩ := hwr u s.info s.ws [] (fun _ => []) hr hq (.inl ⟨rfl, ht, fun i p hp => (hinit i p hp).1⟩) hok (fun i p hp => by
    obtain ⟨g1, g2⟩ := hinit i p hp
    refine ⟨g2, ?_⟩
    rw [ht, g1, next_eq]
    have h1 := (hP i p hp).start; have h2 := (hP i p hp).interval
    positivity)
  obtain ⟨log', w4⟩ := callWriters_ok hu w1
  have hlog : log' = s.log ++ (List.range c.writers.length).map fun w => ⟨w, u, s.info⟩ := by
    obtain ⟨u0, e1, -, -, -, e5⟩ := callWriters_inv w4
    obtain rfl : u0 = u := Option.some.inj (e1.symm.trans hu)
    exact e5
  have hI : Track c int F Ready Q P saved Rel [(u, s.info)] { s with ws := ws', log := log' } := by
    have hsv : ∀ i p, P i = some p → saved ws' i = 1 ∧ Rel i (if p.initial then [(u, s.info)] else []) ws' := by
      intro i p hp
      have hv := hP i p hp
      obtain ⟨h1, h2⟩ := w3 i p hp
      obtain ⟨g1, g2⟩ := hinit i p hp
      rw [g1, ht] at h1 h2
      cases hini : p.initial with
      | false =>
        simp only [hini, Bool.false_eq_true, if_false] at h1 h2 ⊢
        rw [if_neg (not_le.2 hv.first)] at h1 h2
        exact ⟨h1, h2⟩
      | true =>
        have hz : p.start = 0 := by simpa [hini] using hv.initial
        have h0 : p.next 0 ≤ 0 := by rw [next_eq, hz]; simp
        simp only [hini, if_true, if_pos h0] at h1 h2 ⊢
        exact ⟨h1, by simpa using h2⟩
    refine { length := hlen, last := ⟨u, hu, hr, by simp⟩, first := ⟨_, rfl, ht⟩, kept := fun e he => by rw [List.mem_singleton.1 he]; exact hq, times := by simp, steps := .singleton _, atMost := by simp, ended := by simp only [ht]; exact hend.le, positive := ?_,
             next := ?_, passed := ?_, written := ?_ }
    · intro i p hp
      simp only [(hsv i p hp).1]
      exact ⟨by omega, by split_ifs <;> omega⟩
    · intro i p hp
      simp only [(hsv i p hp).1, ht]
      exact (hP i p hp).first
    · intro i p hp k hk hk2
      simp only [(hsv i p hp).1] at hk2
      have hini : p.initial = true := by
        by_contra hc
        simp [hc] at hk
        omega
      have hz : p.start = 0 := by simpa [hini] using (hP i p hp).initial
      obtain rfl : k = 0 := by omega
      exact ⟨_, List.mem_singleton_self _, by simp only [ht]; rw [next_eq, hz]; simp⟩
    · intro i p hp
      have hr2 := (hsv i p hp).2
      cases hini : p.initial with
      | true =>
        have hz : p.start = 0 := by simpa [hini] using (hP i p hp).initial
        have : SaveTime p s.info.time := ⟨0, by simp [hini], by rw [ht, hz]; simp⟩
        simpa [this, hini] using hr2
      | false =>
        have : ¬ SaveTime p s.info.time := by
          rintro ⟨k, hk, hkt⟩
          simp only [hini, Bool.false_eq_true, if_false] at hk
          have h1 := (hP i p hp).first
          have h2 := (hP i p hp).smono.monotone hk
          rw [← next_eq, ht] at hkt
          linarith
        simpa [this, hini] using hr2
  obtain ⟨m, hm⟩ := Archimedean.arch (c.endTime - s.info.time) hδ
  obtain ⟨fuel, more, s', h1, h2, h3, h5, h4⟩ := hloop (Φ { s with ws := ws', log := log' }) m _ _ hI w2 le_rfl (by rw [nsmul_eq_mul] at hm; exact hm)
  exact ⟨fuel, (u, s.info) :: more, s', by unfold run; rw [w4]; exact h1, h2, rfl, by simpa using h3, by simpa using h5, by rw [h4, hlog]; simp⟩

end Verif.Schedule
