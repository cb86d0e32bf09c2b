import Verif.UQRun
import Verif.RunSetupOutput
import Verif.StatsLemmas
import Verif.Props.UQ

/-!
Lemmas for C90: the runs of the samples of a process, with statistics that keep their state from sample to sample.
-/

namespace Verif.UQRun
open Integrator Verif.Simulator Verif.Setup Stats Functionals Writers Schedule

section Same
variable {K V σ : Type} [Field K] [LinearOrder K] [AddCommGroup V] [Module K V]

theorem loop_more {c : Config V K σ} {fuel : Nat} {s r : Sim V K σ} (h : loop c fuel s = .ok (some r)) (k : Nat) : loop c (fuel + k) s = .ok (some r) := by
  induction fuel generalizing s with
  | zero =>
    unfold loop at h
    split_ifs at h with he
    · cases h
      cases k <;> simp [loop, he]
    · cases h
  | succ fuel ih =>
    rw [Nat.succ_add]
    unfold loop at h ⊢
    split_ifs at h ⊢ with he
    · exact h
    · obtain ⟨s1, h1, h2⟩ := bind_ok h
      rw [h1]
      exact ih h2

/-- Two simulators at the same point of the same run. -/
def Same (R : σ → σ → Prop) (s s' : Sim V K σ) : Prop := s.vols = s'.vols ∧ s.info = s'.info ∧ s.log = s'.log ∧ R s.ws s'.ws

variable {c : Config V K σ} {R : σ → σ → Prop}

theorem increment_same {s s' s1 s1' : Sim V K σ} (hadj : ∀ a b, R a b → c.adjusters a = c.adjusters b) (h : Same R s s') (h1 : incrementSolution c s = .ok s1)
    (h2 : incrementSolution c s' = .ok s1') : Same R s1 s1' := by
  obtain ⟨vols, info, a, log⟩ := s
  obtain ⟨vols', info', b, log'⟩ := s'
  obtain ⟨e1, e2, e3, e4⟩ := h
  simp only at e1 e2 e3 e4
  subst e1 e2 e3
  unfold incrementSolution at h1 h2
  simp only at h1 h2
  rw [hadj a b e4] at h1
  obtain ⟨r, g1, h1⟩ := bind_ok h1
  obtain ⟨r', g1', h2⟩ := bind_ok h2
  cases g1.symm.trans g1'
  obtain ⟨v, g2, h1⟩ := bind_ok h1
  obtain ⟨v', g2', h2⟩ := bind_ok h2
  cases g2.symm.trans g2'
  cases h1
  cases h2
  exact ⟨rfl, rfl, rfl, e4⟩

theorem writers_same {s s' s1 s1' : Sim V K σ} (hw : ∀ u info a b a' b', R a b → c.writers.foldlM (fun ws w => w u info ws) a = .ok a' →
    c.writers.foldlM (fun ws w => w u info ws) b = .ok b' → R a' b') (h : Same R s s') (h1 : callWriters c s = .ok s1) (h2 : callWriters c s' = .ok s1') : Same R s1 s1' := by
  obtain ⟨e1, e2, e3, e4⟩ := h
  obtain ⟨u, g1, g2, g3, g4, g5⟩ := callWriters_inv h1
  obtain ⟨u', g1', g2', g3', g4', g5'⟩ := callWriters_inv h2
  rw [← e1] at g1'
  cases g1.symm.trans g1'
  rw [← e2] at g4'
  exact ⟨by rw [g2, g2', e1], by rw [g3, g3', e2], by rw [g5, g5', e3, e2], hw _ _ _ _ _ _ e4 g4 g4'⟩

theorem loop_same (hadj : ∀ a b, R a b → c.adjusters a = c.adjusters b) (hw : ∀ u info a b a' b', R a b → c.writers.foldlM (fun ws w => w u info ws) a = .ok a' →
    c.writers.foldlM (fun ws w => w u info ws) b = .ok b' → R a' b') (f f' : Nat) (s s' r r' : Sim V K σ) (h : Same R s s') (h1 : loop c f s = .ok (some r))
    (h2 : loop c f' s' = .ok (some r')) : Same R r r' ∧ loop c f s' = .ok (some r') := by
  induction f generalizing f' s s' with
  | zero =>
    unfold loop at h1
    split_ifs at h1 with he
    · cases h1
      have he' : atEnd c s' = true := by unfold atEnd at he ⊢; rw [← h.2.1]; exact he
      have : r' = s' := by
        cases f' <;> simp [loop, he'] at h2 <;> exact h2.symm
      subst this
      exact ⟨h, by simp [loop, he']⟩
    · cases h1
  | succ f ih =>
    have hiff : atEnd c s' = atEnd c s := by unfold atEnd; rw [h.2.1]
    unfold loop at h1
    split_ifs at h1 with he
    · cases h1
      have he' : atEnd c s' = true := hiff.trans he
      have : r' = s' := by
        cases f' <;> simp [loop, he'] at h2 <;> exact h2.symm
      subst this
      exact ⟨h, by simp [loop, he']⟩
    · obtain ⟨s1, g1, h1⟩ := bind_ok h1
      have he' : ¬ atEnd c s' = true := by rw [hiff]; exact he
      cases f' with
      | zero => simp [loop, he'] at h2
      | succ f' =>
        unfold loop at h2 ⊢
        rw [if_neg he'] at h2 ⊢
        obtain ⟨s1', g1', h2⟩ := bind_ok h2
        have hsame : Same R s1 s1' := by
          unfold performStep at g1 g1'
          obtain ⟨a, k1, g1⟩ := bind_ok g1
          obtain ⟨a', k1', g1'⟩ := bind_ok g1'
          obtain ⟨_, _, g1⟩ := bind_ok g1
          obtain ⟨_, _, g1'⟩ := bind_ok g1'
          exact writers_same hw (increment_same hadj h k1 k1') g1 g1'
        rw [g1']
        exact ih f' s1 s1' hsame h1 h2

theorem run_same (hadj : ∀ a b, R a b → c.adjusters a = c.adjusters b) (hw : ∀ u info a b a' b', R a b → c.writers.foldlM (fun ws w => w u info ws) a = .ok a' →
    c.writers.foldlM (fun ws w => w u info ws) b = .ok b' → R a' b') (f f' : Nat) (s s' r r' : Sim V K σ) (h : Same R s s') (h1 : run c f s = .ok (some r))
    (h2 : run c f' s' = .ok (some r')) : Same R r r' ∧ run c f s' = .ok (some r') := by
  unfold run at h1 h2 ⊢
  obtain ⟨s1, g1, h1⟩ := bind_ok h1
  obtain ⟨s1', g1', h2⟩ := bind_ok h2
  rw [g1']
  exact loop_same hadj hw f f' s1 s1' r r' (writers_same hw h g1 g1') h1 h2

theorem run_more {fuel : Nat} {s r : Sim V K σ} (h : run c fuel s = .ok (some r)) (k : Nat) : run c (fuel + k) s = .ok (some r) := by
  unfold run at h ⊢
  obtain ⟨s1, g1, h1⟩ := bind_ok h
  rw [g1]
  exact loop_more h1 k
end Same

theorem fold_each_inv {n : Nat} {S : Fin n → Type} (f : ∀ i, S i → Res (S i)) (l : List (Fin n)) (hl : l.Nodup) (st st' : ∀ i, S i)
    (h : l.foldlM (fun (st : ∀ i, S i) i => do
      let x ← f i (st i)
      (.ok (Function.update st i x) : Res (∀ i, S i))) st = .ok st') : (∀ i ∈ l, f i (st i) = .ok (st' i)) ∧ ∀ i, i ∉ l → st' i = st i := by
  induction l generalizing st with
  | nil => cases h; simp
  | cons i l ih =>
    rw [List.nodup_cons] at hl
    rw [List.foldlM_cons] at h
    obtain ⟨s1, h1, h2⟩ := bind_ok h
    obtain ⟨x, h3, h4⟩ := bind_ok h1
    cases h4
    obtain ⟨g1, g2⟩ := ih hl.2 _ h2
    constructor
    · intro j hj
      rcases List.mem_cons.1 hj with rfl | hj
      · rw [h3, g2 _ hl.1]; simp
      · have hne : j ≠ i := fun e => hl.1 (e ▸ hj)
        have := g1 j hj
        rwa [Function.update_of_ne hne] at this
    · intro j hj
      simp only [List.mem_cons, not_or] at hj
      rw [g2 j hj.2, Function.update_of_ne hj.1]

variable {V F : Type} [AddCommGroup V] [Module ℝ V]

/-- The statistics of a sample, called one after the other. -/
noncomputable def callStats (c : Common V F) (u : V) (info : TimeInfo ℝ) (st : StatStates c.stats) : Res (StatStates c.stats) :=
  (List.finRange c.stats.length).foldlM (fun (st : StatStates c.stats) j => do
    let x ← (c.stats.get j).write (c.toVol u) info (st j)
    .ok (Function.update st j x)) st

theorem fold_lift {A σ τ : Type} (f : A → σ → Res σ) (l : List A) (a : σ) (b : τ) :
    (l.map fun x (st : σ × τ) => (do
      let y ← f x st.1
      .ok (y, st.2) : Res (σ × τ))).foldlM (fun st w => w st) (a, b) = (do
      let y ← l.foldlM (fun s x => f x s) a
      .ok (y, b)) := by
  induction l generalizing a with
  | nil => rfl
  | cons x l ih =>
    simp only [List.map_cons, List.foldlM_cons]
    cases f x a with
    | error e => rfl
    | ok y => exact ih y

omit [AddCommGroup V] [Module ℝ V] in
theorem fold_stats (c : Common V F) (u : V) (info : TimeInfo ℝ) {σ : Type} (l : List (Fin c.stats.length)) (a : σ) (st : StatStates c.stats) :
    l.foldlM (fun s j => writeStat c.toVol c.stats j u info s) (a, st) = (do
      let y ← l.foldlM (fun (st : StatStates c.stats) j => do
        let x ← (c.stats.get j).write (c.toVol u) info (st j)
        .ok (Function.update st j x)) st
      .ok (a, y)) := by
  induction l generalizing st with
  | nil => rfl
  | cons j l ih =>
    simp only [List.foldlM_cons]
    unfold writeStat
    simp only
    cases (c.stats.get j).write (c.toVol u) info (st j) with
    | error e => rfl
    | ok x => exact ih _

theorem sample_writers (c : Common V F) (u : V) (info : TimeInfo ℝ) (a : States V c.settings.writers) (st : StatStates c.stats) :
    (sampleSimulator c).writers.foldlM (fun ws w => w u info ws) (a, st) = (do
      let x ← (simulator c.eval c.dx c.settings c.kind c.env c.bc c.obeys).writers.foldlM (fun ws w => w u info ws) a
      let y ← callStats c u info st
      .ok (x, y)) := by
  unfold sampleSimulator
  simp only [List.foldlM_append, List.foldlM_map]
  have h1 := fold_lift (τ := StatStates c.stats) (fun (w : V → TimeInfo ℝ → States V c.settings.writers → Res (States V c.settings.writers)) s => w u info s)
    (simulator c.eval c.dx c.settings c.kind c.env c.bc c.obeys).writers a st
  rw [List.foldlM_map] at h1
  rw [h1]
  cases (simulator c.eval c.dx c.settings c.kind c.env c.bc c.obeys).writers.foldlM (fun s w => w u info s) a with
  | error e => rfl
  | ok x =>
    simp only [Res.ok_bind]
    exact fold_stats c u info _ x st

/-- The parameters of a statistic at fixed intervals. -/
def statParams (o : StatObj) : Option (Fixed ℝ) :=
  match o.saving with
  | .fixed (some i) initial => some ⟨i, 0, initial⟩
  | _ => none

theorem stat_adjuster (o : StatObj) (s : StatState) : o.adjuster s = (statParams o).map fun p => p.adjust s.1 := by
  unfold StatObj.adjuster statParams
  rcases o.saving with ⟨_ | i, initial⟩ | _
  · rfl
  · refine congrArg some ?_
    funext dt info
    simp [intervalAdjust, Fixed.adjust, Fixed.next]
  · rfl

/-- The evaluations of a statistic. -/
noncomputable def evaluations (toVol : V → Vol) (o : StatObj) (l : List (V × TimeInfo ℝ)) (snaps : Snaps) : Res Snaps :=
  l.foldlM (fun snaps e => compute o.parts e.2.time (toVol e.1) snaps) snaps

/-- What a statistic was evaluated for in the run of a sample; `snaps` are the snapshots before. -/
def StatReceived (toVol : V → Vol) (Inv : Snaps → Prop) (snaps : Snaps) (o : StatObj) (p : Fixed ℝ) (l : List (V × TimeInfo ℝ)) (st : StatState) : Prop :=
  st.1 = (if p.initial then 0 else 1) + l.length ∧ OnTime p l ∧ evaluations toVol o l snaps = .ok st.2 ∧ Inv st.2

omit [AddCommGroup V] [Module ℝ V] in
theorem write_stat {toVol : V → Vol} {Ready : V → Prop} {Inv : Snaps → Prop} {snaps : Snaps} {o : StatObj} {p : Fixed ℝ} (hp : statParams o = some p)
    (hinv : ∀ t u snaps, Ready u → Inv snaps → ∃ snaps', compute o.parts t (toVol u) snaps = .ok snaps' ∧ Inv snaps') (l : List (V × TimeInfo ℝ)) (st : StatState)
    (hr : StatReceived toVol Inv snaps o p l st) (u : V) (hu : Ready u) (info : TimeInfo ℝ) (hle : info.time ≤ p.next st.1)
    (hfirst : info.time = 0 → st.1 = if p.initial then 0 else 1) :
    ∃ st', o.write (toVol u) info st = .ok st' ∧ st'.1 = (if p.next st.1 ≤ info.time then st.1 + 1 else st.1) ∧
      StatReceived toVol Inv snaps o p (if p.next st.1 ≤ info.time then l ++ [(u, info)] else l) st' := by
  obtain ⟨i, initial, hs, rfl⟩ : ∃ i initial, o.saving = .fixed (some i) initial ∧ p = ⟨i, 0, initial⟩ := by
    unfold statParams at hp
    split at hp
    · cases hp; exact ⟨_, _, by assumption, rfl⟩
    · cases hp
  obtain ⟨h1, h2, h3, h4⟩ := hr
  have hsaved : (if info.time = 0 then (if initial then 0 else 1) else st.1) = st.1 := by
    split_ifs with h0 h0'
    · have := hfirst h0; simp [h0'] at this; exact this.symm
    · have := hfirst h0; simp [h0'] at this; exact this.symm
    · rfl
  have hnext : Fixed.next (⟨i, 0, initial⟩ : Fixed ℝ) st.1 = st.1 * i := by simp [Fixed.next]
  unfold StatObj.write
  rw [hs]
  simp only [intervalCompute, id, hsaved]
  rw [hnext] at hle ⊢
  by_cases hdue : (st.1 : ℝ) * i ≤ info.time
  · obtain ⟨snaps', g1, g2⟩ := hinv info.time u st.2 hu h4
    simp only [if_pos hdue, g1, Res.ok_bind, Res.pure_eq]
    refine ⟨_, rfl, rfl, ?_, ?_, ?_, g2⟩
    · simp only [List.length_append, List.length_singleton]; rw [h1]; simp only; omega
    · unfold OnTime at h2 ⊢
      simp only [List.map_append, h2, List.length_append, List.length_singleton, List.range_succ, List.map_cons, List.map_nil]
      congr 2
      rw [← h1, hnext]
      exact le_antisymm hle hdue
    · unfold evaluations at h3 ⊢
      rw [List.foldlM_append, h3]
      simp only [Res.ok_bind, List.foldlM_cons, List.foldlM_nil, g1, Res.pure_eq]
  · simp only [if_neg hdue, Res.pure_eq]
    exact ⟨_, rfl, rfl, h1, h2, h3, h4⟩

/-- What the samples have in common works: conditions as in C86, on the states `Ready` with `Q` in the interior. -/
structure Works {W : Type} [AddCommGroup W] [Module ℝ W] (c : Common V F) (int : V →ₗ[ℝ] W) (G : W → W) (speeds : W → Nat → ℝ) (Ready : V → Prop) (Q : W → Prop)
    (δ : ℝ) : Prop where
  sound : Sound c.env.sys c.bc int G speeds Ready
  length : c.env.len 0 ≠ 0
  stable : Stable c.kind c.env G speeds Q δ
  obeys : ∀ u, Ready u → Q (int u) → c.obeys u = true
  functionals : ∀ f o u k, ∃ r, c.eval f o u k = .ok r
  endTime : 0 < c.settings.endTime
  asked : ∀ w ∈ c.settings.writers, Asked c.settings.endTime w
  volumes : c.others.length = c.kind.substeps
  statistics : c.stats ≠ []
  intervals : ∀ o ∈ c.stats, ∃ (N : Nat) (initial : Bool), 0 < N ∧ o.saving = .fixed (some (c.settings.endTime / N)) initial

theorem finRange_add (a b : Nat) : List.finRange (a + b) = (List.finRange a).map (Fin.castAdd b) ++ (List.finRange b).map (Fin.natAdd a) := by
  apply List.ext_getElem
  · simp
  · intro i h1 h2
    by_cases h : i < a
    · rw [List.getElem_append_left (by simpa using h)]
      ext; simp
    · rw [List.getElem_append_right (by simpa using h)]
      ext; simp; omega

/-- The statistics that have been evaluated equally often. -/
def Equal (c : Common V F) (a b : States V c.settings.writers × StatStates c.stats) : Prop := a.1 = b.1 ∧ ∀ j, (a.2 j).1 = (b.2 j).1

theorem equal_adjusters (c : Common V F) (a b) (h : Equal c a b) : (sampleSimulator c).adjusters a = (sampleSimulator c).adjusters b := by
  unfold sampleSimulator
  simp only
  rw [h.1]
  congr 1
  congr 1
  funext j
  rw [stat_adjuster, stat_adjuster, h.2 j]

theorem write_counter {o : StatObj} {u : Vol} {info : TimeInfo ℝ} {a b a' b' : StatState} (h : a.1 = b.1) (ha : o.write u info a = .ok a') (hb : o.write u info b = .ok b') : a'.1 = b'.1 := by
  unfold StatObj.write at ha hb
  rcases hs : o.saving with ⟨_ | i, initial⟩ | _ <;> rw [hs] at ha hb
  · cases ha; cases hb; simp only [h]
  · unfold intervalCompute at ha hb
    simp only [id] at ha hb
    rw [← h] at hb
    generalize (if info.time = 0 then (if initial then 0 else 1) else a.1) = k at ha hb
    by_cases hd : (k : ℝ) * i ≤ info.time
    · rw [if_pos hd] at ha hb
      obtain ⟨_, _, ha⟩ := bind_ok ha
      obtain ⟨_, _, hb⟩ := bind_ok hb
      cases ha; cases hb; rfl
    · rw [if_neg hd] at ha hb
      cases ha; cases hb; rfl
  · obtain ⟨_, _, ha⟩ := bind_ok ha
    obtain ⟨_, _, hb⟩ := bind_ok hb
    cases ha; cases hb; exact h

theorem equal_writers (c : Common V F) (u : V) (info : TimeInfo ℝ) (a b a' b') (h : Equal c a b) (ha : (sampleSimulator c).writers.foldlM (fun ws w => w u info ws) a = .ok a')
    (hb : (sampleSimulator c).writers.foldlM (fun ws w => w u info ws) b = .ok b') : Equal c a' b' := by
  obtain ⟨a1, a2⟩ := a
  obtain ⟨b1, b2⟩ := b
  obtain ⟨h1, h2⟩ := h
  simp only at h1 h2
  subst h1
  rw [sample_writers] at ha hb
  obtain ⟨x, hx, ha⟩ := bind_ok ha
  obtain ⟨x', hx', hb⟩ := bind_ok hb
  cases hx.symm.trans hx'
  obtain ⟨y, hy, ha⟩ := bind_ok ha
  obtain ⟨y', hy', hb⟩ := bind_ok hb
  cases ha
  cases hb
  refine ⟨rfl, fun j => ?_⟩
  exact write_counter (h2 j) ((fold_each_inv _ _ (List.nodup_finRange _) _ _ hy).1 j (List.mem_finRange j)) ((fold_each_inv _ _ (List.nodup_finRange _) _ _ hy').1 j (List.mem_finRange j))

/-- Whatever the counters before, the first call of the writers starts them again. -/
theorem write_reset {o : StatObj} {p : Fixed ℝ} (hp : statParams o = some p) (u : Vol) (info : TimeInfo ℝ) (h0 : info.time = 0) (st : StatState) :
    o.write u info st = o.write u info (if p.initial then 0 else 1, st.2) := by
  obtain ⟨i, initial, hs, rfl⟩ : ∃ i initial, o.saving = .fixed (some i) initial ∧ p = ⟨i, 0, initial⟩ := by
    unfold statParams at hp
    split at hp
    · cases hp; exact ⟨_, _, by assumption, rfl⟩
    · cases hp
  unfold StatObj.write
  rw [hs]
  simp only [intervalCompute, h0, if_true]

/-- The statistics with their counters set back. -/
def reset {stats : List StatObj} (st : StatStates stats) : StatStates stats := fun j => match statParams (stats.get j) with
  | some p => (if p.initial then 0 else 1, (st j).2)
  | none => st j

theorem reset_some {stats : List StatObj} (st : StatStates stats) (j : Fin stats.length) (p : Fixed ℝ) (hp : statParams (stats.get j) = some p) :
    reset st j = (if p.initial then 0 else 1, (st j).2) := by
  simp only [reset, hp]

/-- The counters before the first call do not matter. -/
theorem run_reset (c : Common V F) (hpar : ∀ j : Fin c.stats.length, ∃ p, statParams (c.stats.get j) = some p) (u0 : V) (st : StatStates c.stats) (fuel : Nat) (r)
    (h : run (sampleSimulator c) fuel ⟨u0 :: c.others, ⟨0, 0⟩, (freshAll V c.settings.writers, reset st), []⟩ = .ok r) :
    run (sampleSimulator c) fuel ⟨u0 :: c.others, ⟨0, 0⟩, (freshAll V c.settings.writers, st), []⟩ = .ok r := by
  unfold run at h ⊢
  obtain ⟨s1, g1, h⟩ := bind_ok h
  obtain ⟨u', e1, e2, e3, e4, e5⟩ := callWriters_inv g1
  cases e1
  simp only at e2 e3 e4 e5
  rw [sample_writers] at e4
  obtain ⟨x, hx, e4⟩ := bind_ok e4
  obtain ⟨y, hy, e4⟩ := bind_ok e4
  have hy' : callStats c u0 ⟨0, 0⟩ st = .ok y := by
    have hz := (fold_each_inv _ _ (List.nodup_finRange _) _ _ hy).1
    have := fold_each (fun j => (c.stats.get j).write (c.toVol u0) ⟨0, 0⟩) y (List.finRange _) (List.nodup_finRange _) st (fun j hj => by
      obtain ⟨p, h2⟩ := hpar j
      rw [write_reset h2 _ _ rfl (st j), ← hz j hj, reset_some st j _ h2])
    simp only [List.mem_finRange, if_true] at this
    exact this
  obtain ⟨log', g2⟩ := callWriters_ok (c := sampleSimulator c) (s := ⟨u0 :: c.others, ⟨0, 0⟩, (freshAll V c.settings.writers, st), []⟩) (u := u0) rfl
    (ws' := s1.ws) (by rw [sample_writers, hx, Res.ok_bind, hy', Res.ok_bind]; exact e4)
  obtain ⟨u', f1, f2, f3, f4, f5⟩ := callWriters_inv g2
  cases f1
  simp only at f5
  rw [g2, ← h]
  simp only [Res.ok_bind]
  congr 1
  obtain ⟨v1, i1, w1, l1⟩ := s1
  simp only at e2 e3 e5
  subst e2 e3
  rw [e5, f5]

open Classical in
/-- The run of one sample, with the snapshots of the samples before. -/
theorem sample_run {W : Type} [AddCommGroup W] [Module ℝ W] {c : Common V F} {int : V →ₗ[ℝ] W} {G : W → W} {speeds : W → Nat → ℝ} {Ready : V → Prop} {Q : W → Prop} {δ : ℝ}
    (hc : Works c int G speeds Ready Q δ) (Inv : Fin c.stats.length → Snaps → Prop)
    (hinv : ∀ j t u snaps, Ready u → Inv j snaps → ∃ snaps', compute (c.stats.get j).parts t (c.toVol u) snaps = .ok snaps' ∧ Inv j snaps')
    (u0 : V) (hr : Ready u0) (hq : Q (int u0)) (st : StatStates c.stats) (hst : ∀ j, Inv j (st j).2) :
    ∃ (fuel : Nat) (past : List (V × TimeInfo ℝ)) (sim : _), run (sampleSimulator c) fuel ⟨u0 :: c.others, ⟨0, 0⟩, (freshAll V c.settings.writers, st), []⟩ = .ok (some sim) ∧ sim.info.time = c.settings.endTime ∧
      past.head? = some (u0, ⟨0, 0⟩) ∧ (∃ u', past.getLast? = some (u', sim.info)) ∧ past.Pairwise (fun a b => a.2.time < b.2.time) ∧
      past.IsChain (fun a b => int b.1 = textbook c.kind (fun w => (1 / c.env.len 0) • G w) (b.2.time - a.2.time) (int a.1)) ∧
      sim.log = past.flatMap (fun e => (List.range (sampleSimulator c).writers.length).map fun w => ⟨w, e.1, e.2⟩) ∧
      (∃ x, finalizeAll c.eval c.dx c.settings.writers sim.info sim.ws.1 = .ok x) ∧ (∀ e ∈ past, Ready e.1 ∧ Q (int e.1)) ∧
      ∀ j, ∃ p, statParams (c.stats.get j) = some p ∧ StatReceived c.toVol (Inv j) (st j).2 (c.stats.get j) p (past.filter fun e => SaveTime p e.2.time) (sim.ws.2 j) ∧
          ∀ k, (if p.initial then 0 else 1) ≤ k → p.next k ≤ c.settings.endTime → ∃ e ∈ past, e.2.time = p.next k := by
  have hT := hc.endTime
  have hable : ∀ i : Fin c.settings.writers.length, Able (V := V) c.eval c.dx (c.settings.writers.get i) := fun i => asked_able hc.functionals hT (hc.asked _ (List.get_mem _ _))
  have hpar : ∀ j : Fin c.stats.length, ∃ (N : Nat) (initial : Bool), 0 < N ∧ statParams (c.stats.get j) = some ⟨c.settings.endTime / N, 0, initial⟩ := by
    intro j
    obtain ⟨N, initial, h1, h2⟩ := hc.intervals _ (List.get_mem c.stats j)
    exact ⟨N, initial, h1, by simp only [statParams, h2]⟩
  have hvalidS : ∀ j p, statParams (c.stats.get j) = some p → Valid p := by
    intro j p hp
    obtain ⟨N, initial, h1, h2⟩ := hpar j
    rw [h2] at hp
    cases hp
    have : (0 : ℝ) < N := by exact_mod_cast h1
    exact ⟨by positivity, le_rfl, .inl rfl⟩
  have hvalidW : ∀ w : WriterObj ℝ F, Able (V := V) c.eval c.dx w → ∀ p, params w = some p → Valid p := by
    intro w hw p hp
    match w, hw, hp with
    | .fixed w (some i) start initial, hw, hp => cases hp; exact hw.1
  have fresh_ok : ∀ w : WriterObj ℝ F, ∀ p, params w = some p → counter w (w.fresh : w.St V) = (if p.initial then 0 else 1) ∧ Received c.eval c.dx w [] (w.fresh : w.St V) := by
    intro w p hp
    match w, hp with
    | .fixed w (some i) start initial, hp => cases hp; exact ⟨rfl, rfl, rfl, rfl⟩
  let st0 : StatStates c.stats := reset st
  have hst0 : ∀ j p, statParams (c.stats.get j) = some p → st0 j = (if p.initial then 0 else 1, (st j).2) := reset_some st
  have hreset := run_reset c (fun j => (hpar j).elim fun N h => h.elim fun i h => ⟨_, h.2⟩) u0 st
  let P : Fin (c.settings.writers.length + c.stats.length) → Option (Fixed ℝ) := Fin.append (fun i => params (c.settings.writers.get i)) (fun j => statParams (c.stats.get j))
  let saved : States V c.settings.writers × StatStates c.stats → Fin (c.settings.writers.length + c.stats.length) → Nat := fun ws =>
    Fin.append (fun i => counter (c.settings.writers.get i) (ws.1 i)) (fun j => (ws.2 j).1)
  let Rel : Fin (c.settings.writers.length + c.stats.length) → List (V × TimeInfo ℝ) → States V c.settings.writers × StatStates c.stats → Prop :=
    Fin.append (fun i l ws => Received c.eval c.dx (c.settings.writers.get i) l (ws.1 i))
      (fun j l ws => ∀ p, statParams (c.stats.get j) = some p → StatReceived c.toVol (Inv j) (st j).2 (c.stats.get j) p l (ws.2 j))
  obtain ⟨j0⟩ : Nonempty (Fin c.stats.length) := ⟨⟨0, List.length_pos_iff.2 hc.statistics⟩⟩
  obtain ⟨fuel, past, sim, r1, r2, r0, r3, r4, r5⟩ := run_schedule (sampleSimulator c) int G speeds Ready Q hc.sound hc.length δ hc.stable hc.obeys hT P
    (by
      intro i
      refine Fin.addCases (fun i => ?_) (fun j => ?_) i
      · intro p hp; simp only [P, Fin.append_left] at hp; exact hvalidW _ (hable i) p hp
      · intro p hp; simp only [P, Fin.append_right] at hp; exact hvalidS j p hp)
    (by
      obtain ⟨N, initial, h1, h2⟩ := hpar j0
      refine ⟨Fin.natAdd _ j0, _, by simp only [P, Fin.append_right]; exact h2, N, by split_ifs <;> omega, ?_⟩
      have : (0 : ℝ) < N := by exact_mod_cast h1
      simp only [sampleSimulator]; field_simp; simp)
    saved Rel
    (by
      intro ws
      simp only [sampleSimulator, simulator, adjustersOf, finRange_add, List.filterMap_append, List.filterMap_map]
      congr 1
      · congr 1
        funext i
        simp only [Function.comp, P, saved, Fin.append_left]
        exact adjuster_params (hable i) (ws.1 i)
      · congr 1
        funext j
        simp only [Function.comp, P, saved, Fin.append_right]
        exact stat_adjuster _ _)
    (fun past ws => (∀ e ∈ past, Ready e.1) ∧ ∀ i, params (c.settings.writers.get i) = none → calls c.eval c.dx (c.settings.writers.get i) past (c.settings.writers.get i).fresh = .ok (ws.1 i))
    (by
      rintro u info ⟨ws, ss⟩ past L hready _ hfirst hall hrel
      have eachW : ∀ i : Fin c.settings.writers.length, ∃ x, (c.settings.writers.get i).write c.eval c.dx u info (ws i) = .ok x ∧ ∀ p, params (c.settings.writers.get i) = some p →
          counter (c.settings.writers.get i) x =
            (if p.next (counter (c.settings.writers.get i) (ws i)) ≤ info.time then counter (c.settings.writers.get i) (ws i) + 1 else counter (c.settings.writers.get i) (ws i)) ∧
          Received c.eval c.dx (c.settings.writers.get i)
            (if p.next (counter (c.settings.writers.get i) (ws i)) ≤ info.time then L (Fin.castAdd _ i) ++ [(u, info)] else L (Fin.castAdd _ i)) x := by
        intro i
        have hi := hrel (Fin.castAdd _ i)
        simp only [P, saved, Rel, Fin.append_left] at hi
        cases hp : params (c.settings.writers.get i) with
        | none =>
          have : Received c.eval c.dx (c.settings.writers.get i) (L (Fin.castAdd _ i)) (ws i) := received_none hp _ _
          obtain ⟨x, h1, h2⟩ := write_able (hable i) u info (L (Fin.castAdd _ i)) (ws i) this (fun p hp' => by rw [hp] at hp'; cases hp')
          exact ⟨x, h1, fun p hp' => by cases hp'⟩
        | some p =>
          obtain ⟨x, h1, h2⟩ := write_able (hable i) u info (L (Fin.castAdd _ i)) (ws i) (hi p hp).1 (fun q hq => by rw [hp] at hq; cases hq; exact (hi p hp).2)
          exact ⟨x, h1, fun q hq => h2 q (by rw [hp]; exact hq)⟩
      choose x hx1 hx2 using eachW
      have eachS : ∀ j : Fin c.stats.length, ∃ y, (c.stats.get j).write (c.toVol u) info (ss j) = .ok y ∧ ∀ p, statParams (c.stats.get j) = some p →
          y.1 = (if p.next (ss j).1 ≤ info.time then (ss j).1 + 1 else (ss j).1) ∧
          StatReceived c.toVol (Inv j) (st j).2 (c.stats.get j) p (if p.next (ss j).1 ≤ info.time then L (Fin.natAdd _ j) ++ [(u, info)] else L (Fin.natAdd _ j)) y := by
        intro j
        obtain ⟨N, initial, h1, h2⟩ := hpar j
        have hj := hrel (Fin.natAdd _ j)
        simp only [P, saved, Rel, Fin.append_right] at hj
        obtain ⟨y, k1, k2, k3⟩ := write_stat h2 (hinv j) _ _ ((hj _ h2).1 _ h2) u hready info (hj _ h2).2 (fun h0 => by
          rcases hfirst with hf | hf
          · have := hf.2.2 (Fin.natAdd _ j)
            simp only [P, saved, Fin.append_right] at this
            exact this _ h2
          · exact absurd h0 hf.2.ne')
        exact ⟨y, k1, fun p hp => by cases h2.symm.trans hp; exact ⟨k2, k3⟩⟩
      choose y hy1 hy2 using eachS
      refine ⟨(x, y), ?_, ?_, ?_⟩
      · rw [sample_writers]
        have k1 : (simulator c.eval c.dx c.settings c.kind c.env c.bc c.obeys).writers.foldlM (fun ws w => w u info ws) ws = .ok x := by
          simp only [simulator, List.foldlM_map]
          have := fold_each (fun i => (c.settings.writers.get i).write c.eval c.dx u info) x (List.finRange _) (List.nodup_finRange _) ws (fun i _ => hx1 i)
          simp only [List.mem_finRange, if_true] at this
          exact this
        have k2 : callStats c u info ss = .ok y := by
          have := fold_each (fun j => (c.stats.get j).write (c.toVol u) info) y (List.finRange _) (List.nodup_finRange _) ss (fun j _ => hy1 j)
          simp only [List.mem_finRange, if_true] at this
          exact this
        rw [k1, Res.ok_bind, k2, Res.ok_bind]
      · refine ⟨fun e he => ?_, fun i hi => ?_⟩
        · rcases List.mem_append.1 he with he | he
          · exact hall.1 e he
          · rw [List.mem_singleton.1 he]; exact hready
        have h1 := hall.2 i hi
        unfold calls at h1 ⊢
        rw [List.foldlM_append, h1]
        simp only [Res.ok_bind, List.foldlM_cons, List.foldlM_nil, hx1]
        rfl
      · intro i
        refine Fin.addCases (fun i => ?_) (fun j => ?_) i
        · intro p hp
          simp only [P, saved, Rel, Fin.append_left] at hp ⊢
          exact hx2 i p hp
        · intro p hp
          simp only [P, saved, Rel, Fin.append_right] at hp ⊢
          obtain ⟨k1, k2⟩ := hy2 j p hp
          refine ⟨k1, fun q hq => ?_⟩
          cases hp.symm.trans hq
          exact k2)
    ⟨u0 :: c.others, ⟨0, 0⟩, (freshAll V c.settings.writers, st0), []⟩ (by simp [sampleSimulator, hc.volumes]) u0 rfl hr hq rfl ⟨by simp, fun i _ => rfl⟩
    (by
      intro i
      refine Fin.addCases (fun i => ?_) (fun j => ?_) i
      · intro p hp
        simp only [P, saved, Rel, Fin.append_left] at hp ⊢
        exact fresh_ok _ p hp
      · intro p hp
        simp only [P, saved, Rel, Fin.append_right] at hp ⊢
        rw [hst0 j p hp]
        refine ⟨rfl, fun q hq => ?_⟩
        cases hp.symm.trans hq
        exact ⟨rfl, rfl, rfl, hst j⟩)
  obtain ⟨u', -, -, hlast'⟩ := r3.last
  have hle : ∀ e ∈ past, e.2.time ≤ c.settings.endTime := fun e he => (r3.atMost e he).trans r3.ended
  refine ⟨fuel, past, sim, hreset _ _ r1, r2, r0, ⟨u', hlast'⟩, r3.times, r3.steps, by rw [r5]; simp, ?_, fun e he => ⟨r4.1 e he, r3.kept e he⟩, ?_⟩
  · have each := fun i => Verif.Setup.finish hc.functionals hT (hc.asked _ (List.get_mem c.settings.writers i)) past (by rintro rfl; cases r0) hle sim.info r2 (sim.ws.1 i) (r4.2 i)
      (fun p hp => by
        have h1 := r3.written (Fin.castAdd _ i) p (by simp only [P, Fin.append_left]; exact hp)
        simp only [Rel, Fin.append_left] at h1
        refine ⟨h1, fun k hk hk2 => r3.passed (Fin.castAdd _ i) p (by simp only [P, Fin.append_left]; exact hp) k hk ?_⟩
        have h2 := r3.next (Fin.castAdd _ i) p (by simp only [P, Fin.append_left]; exact hp)
        rw [r2] at h2
        exact (hvalidW _ (hable i) p hp).smono.lt_iff_lt.1 (lt_of_le_of_lt hk2 h2))
    choose x hx1 hx2 hx3 using each
    refine ⟨x, ?_⟩
    have := fold_each (fun i => (c.settings.writers.get i).finalize c.eval c.dx sim.info) x (List.finRange _) (List.nodup_finRange _) sim.ws.1 (fun i _ => hx1 i)
    simp only [List.mem_finRange, if_true] at this
    exact this
  · intro j
    obtain ⟨N, initial, h1, h2⟩ := hpar j
    have hPj : P (Fin.natAdd _ j) = some ⟨c.settings.endTime / N, 0, initial⟩ := by simp only [P, Fin.append_right]; exact h2
    have h3 := r3.written (Fin.natAdd _ j) _ hPj
    simp only [Rel, Fin.append_right] at h3
    refine ⟨_, h2, h3 _ h2, fun k hk hk2 => r3.passed (Fin.natAdd _ j) _ hPj k hk ?_⟩
    have h4 := r3.next (Fin.natAdd _ j) _ hPj
    rw [r2] at h4
    exact (hvalidS j _ h2).smono.lt_iff_lt.1 (lt_of_le_of_lt hk2 h4)

omit [AddCommGroup V] [Module ℝ V] in
/-- The calls of the writers determine the states of the run. -/
theorem log_inj {n : Nat} (hn : 0 < n) (a b : List (V × TimeInfo ℝ))
    (h : a.flatMap (fun e => (List.range n).map fun w => (⟨w, e.1, e.2⟩ : Call V ℝ)) = b.flatMap (fun e => (List.range n).map fun w => (⟨w, e.1, e.2⟩ : Call V ℝ))) : a = b := by
  obtain ⟨m, rfl⟩ : ∃ m, n = m + 1 := ⟨n - 1, by omega⟩
  induction a generalizing b with
  | nil => cases b with
    | nil => rfl
    | cons e b => simp [List.range_succ_eq_map] at h
  | cons e a ih => cases b with
    | nil => simp [List.range_succ_eq_map] at h
    | cons e' b =>
      simp only [List.flatMap_cons] at h
      obtain ⟨h1, h2⟩ := List.append_inj h (by simp)
      rw [ih b h2]
      congr 1
      simp only [List.range_succ_eq_map, List.map_cons, List.cons.injEq, Call.mk.injEq] at h1
      exact Prod.ext h1.1.2.1 h1.1.2.2

/-- The save times of a statistic with `N` saves until `T`. -/
noncomputable def saveTimes (T : ℝ) (N : Nat) (initial : Bool) : List ℝ := ((List.range (N + 1)).drop (if initial then 0 else 1)).map fun k : Nat => (k : ℝ) * (T / N)

theorem saveTimes_nodup {T : ℝ} (hT : 0 < T) {N : Nat} (hN : 0 < N) (initial : Bool) : (saveTimes T N initial).Nodup := by
  unfold saveTimes
  refine List.Nodup.map_on ?_ ((List.drop_sublist _ _).nodup List.nodup_range)
  intro a _ b _ h
  have hNR : (0 : ℝ) < N := by exact_mod_cast hN
  have : (a : ℝ) = b := mul_right_cancel₀ (by positivity) h
  exact_mod_cast this

omit [AddCommGroup V] [Module ℝ V] in
open Classical in
/-- The evaluations at the save times, in terms of the state at a time. -/
theorem evaluations_times (toVol : V → Vol) (o : StatObj) (past : List (V × TimeInfo ℝ)) (S : ℝ → Prop) (U : ℝ → V)
    (hU : ∀ e ∈ past, U e.2.time = e.1) (snaps : Snaps) :
    evaluations toVol o (past.filter fun e => S e.2.time) snaps =
      ((past.filter fun e => S e.2.time).map fun e => e.2.time).foldlM (fun snaps t => compute o.parts t (toVol (U t)) snaps) snaps := by
  unfold evaluations
  rw [List.foldlM_map]
  have : ∀ l : List (V × TimeInfo ℝ), (∀ e ∈ l, U e.2.time = e.1) → ∀ snaps, l.foldlM (fun snaps e => compute o.parts e.2.time (toVol e.1) snaps) snaps =
      l.foldlM (fun snaps e => compute o.parts e.2.time (toVol (U e.2.time)) snaps) snaps := by
    intro l
    induction l with
    | nil => intro _ _; rfl
    | cons e l ih =>
      intro h snaps
      simp only [List.foldlM_cons]
      rw [h e (by simp)]
      congr 1
      funext x
      exact ih (fun e he => h e (by simp [he])) x
  exact this _ (fun e he => hU e (List.mem_of_mem_filter he)) snaps

open Classical in
/-- The run of one sample takes the same steps whatever the snapshots of the samples before. -/
theorem sample_past {W : Type} [AddCommGroup W] [Module ℝ W] {c : Common V F} {int : V →ₗ[ℝ] W} {G : W → W} {speeds : W → Nat → ℝ} {Ready : V → Prop} {Q : W → Prop} {δ : ℝ}
    (hc : Works c int G speeds Ready Q δ) (Inv : Fin c.stats.length → Snaps → Prop) (hnil : ∀ j, Inv j [])
    (hinv : ∀ j t u snaps, Ready u → Inv j snaps → ∃ snaps', compute (c.stats.get j).parts t (c.toVol u) snaps = .ok snaps' ∧ Inv j snaps')
    (u u0 : V) (hbc : c.bc u = .ok u0) (hr : Ready u0) (hq : Q (int u0)) :
    ∃ (fuel : Nat) (past : List (V × TimeInfo ℝ)) (U : ℝ → V), past.head? = some (u0, ⟨0, 0⟩) ∧ (∃ e, past.getLast? = some e ∧ e.2.time = c.settings.endTime) ∧
      past.Pairwise (fun a b => a.2.time < b.2.time) ∧
      past.IsChain (fun a b => int b.1 = textbook c.kind (fun w => (1 / c.env.len 0) • G w) (b.2.time - a.2.time) (int a.1)) ∧
      (∀ o ∈ c.stats, ∀ N initial, 0 < N → o.saving = .fixed (some (c.settings.endTime / (N : Nat))) initial → ∀ t ∈ saveTimes c.settings.endTime N initial,
        Ready (U t) ∧ ∃ info, (U t, info) ∈ past ∧ info.time = t) ∧ (∀ e ∈ past, Q (int e.1)) ∧
      ∀ k st, (∀ j, Inv j (st j).2) → ∃ st', runSample c (fuel + k) u st = .ok (some st') ∧
        ∀ j, Inv j (st' j).2 ∧ ∀ N initial, 0 < N → (c.stats.get j).saving = .fixed (some (c.settings.endTime / (N : Nat))) initial →
          (saveTimes c.settings.endTime N initial).foldlM (fun snaps t => compute (c.stats.get j).parts t (c.toVol (U t)) snaps) (st j).2 = .ok (st' j).2 := by
  have hT := hc.endTime
  have hpar : ∀ j : Fin c.stats.length, ∃ p, statParams (c.stats.get j) = some p := by
    intro j
    obtain ⟨N, initial, h1, h2⟩ := hc.intervals _ (List.get_mem c.stats j)
    exact ⟨⟨c.settings.endTime / N, 0, initial⟩, by simp only [statParams, h2]⟩
  obtain ⟨fuel, past, sim, r1, r2, r3, ⟨u', r4⟩, r5, r6, r7, r8, r9, r10⟩ := sample_run hc Inv hinv u0 hr hq (fun j => (c.stats.get j).fresh) (fun j => by
    have : (c.stats.get j).fresh.2 = [] := by unfold StatObj.fresh; split <;> rfl
    rw [this]; exact hnil j)
  have hle : ∀ e ∈ past, e.2.time ≤ c.settings.endTime := by
    intro e he
    obtain ⟨init, rfl⟩ := List.getLast?_eq_some_iff.1 r4
    rw [List.pairwise_append] at r5
    rcases List.mem_append.1 he with he | he
    · have := r5.2.2 e he _ (List.mem_singleton_self _)
      rw [← r2]; exact this.le
    · rw [List.mem_singleton.1 he, ← r2]
  let U : ℝ → V := fun t => if h : ∃ e ∈ past, e.2.time = t then h.choose.1 else u0
  have hU : ∀ e ∈ past, U e.2.time = e.1 := by
    intro e he
    have h : ∃ e' ∈ past, e'.2.time = e.2.time := ⟨e, he, rfl⟩
    have h2 := h.choose_spec
    have hinj : ∀ a ∈ past, ∀ b ∈ past, a.2.time = b.2.time → a = b := by
      have hnd : (past.map fun e => e.2.time).Nodup := by
        unfold List.Nodup
        rw [List.pairwise_map]
        exact r5.imp fun h => h.ne
      exact fun a ha b hb hab => List.inj_on_of_nodup_map hnd ha hb hab
    simp only [U, dif_pos h]
    rw [hinj _ h2.1 e he h2.2]
  have htimes : ∀ o ∈ c.stats, ∀ (N : Nat) initial, 0 < N → o.saving = .fixed (some (c.settings.endTime / (N : Nat))) initial →
      ((past.filter fun e => SaveTime (⟨c.settings.endTime / N, 0, initial⟩ : Fixed ℝ) e.2.time).map fun e => e.2.time) = saveTimes c.settings.endTime N initial := by
    intro o ho N initial hN hs
    obtain ⟨j, rfl⟩ := List.get_of_mem ho
    obtain ⟨p, k1, k2, k3⟩ := r10 j
    have hp : p = ⟨c.settings.endTime / N, 0, initial⟩ := by
      simp only [statParams, hs] at k1
      exact (Option.some.inj k1).symm
    subst hp
    have hNR : (0 : ℝ) < N := by exact_mod_cast hN
    have hlast : Fixed.next (⟨c.settings.endTime / N, 0, initial⟩ : Fixed ℝ) N = c.settings.endTime := by simp only [Fixed.next]; field_simp; simp
    have hN1 : (if initial = true then 0 else 1) ≤ N := by split_ifs <;> omega
    obtain ⟨e, he, het⟩ := k3 N hN1 hlast.le
    exact all_times hT hN rfl k2.2.1 (fun e he => hle e (List.mem_of_mem_filter he))
      ⟨e, List.mem_filter.2 ⟨he, by simpa using ⟨N, hN1, by rw [het, next_eq]⟩⟩, het⟩
  refine ⟨fuel, past, U, r3, ⟨_, r4, r2⟩, r5, r6, ?_, fun e he => (r9 e he).2, ?_⟩
  · intro o ho N initial hN hs t ht
    rw [← htimes o ho N initial hN hs] at ht
    obtain ⟨e, he, rfl⟩ := List.mem_map.1 ht
    have he' := List.mem_of_mem_filter he
    rw [hU e he']
    exact ⟨(r9 e he').1, e.2, he', rfl⟩
  · intro k st hst
    have hreset : ∀ j, (reset st j).2 = (st j).2 := by
      intro j
      obtain ⟨p, hp⟩ := hpar j
      rw [reset_some st j p hp]
    obtain ⟨fuel', past', sim', q1, q2, q3, q4, q5, q6, q7, q8, q9, q10⟩ := sample_run hc Inv hinv u0 hr hq (reset st) (fun j => by rw [hreset]; exact hst j)
    have hfresh : ∀ j, ((c.stats.get j).fresh).1 = (reset st j).1 := by
      intro j
      obtain ⟨N, initial, h1, h2⟩ := hc.intervals _ (List.get_mem c.stats j)
      rw [reset_some st j ⟨c.settings.endTime / N, 0, initial⟩ (by simp only [statParams, h2])]
      unfold StatObj.fresh
      rw [h2]
      rfl
    obtain ⟨hsame, hrun⟩ := run_same (equal_adjusters c) (equal_writers c) fuel fuel'
      ⟨u0 :: c.others, ⟨0, 0⟩, (freshAll V c.settings.writers, fun j => (c.stats.get j).fresh), []⟩ ⟨u0 :: c.others, ⟨0, 0⟩, (freshAll V c.settings.writers, reset st), []⟩
      sim sim' ⟨rfl, rfl, rfl, rfl, hfresh⟩ r1 q1
    have hpast : past = past' := by
      refine log_inj (n := (sampleSimulator c).writers.length) ?_ _ _ (by rw [← r7, ← q7, hsame.2.2.1])
      have := List.length_pos_iff.2 hc.statistics
      simp only [sampleSimulator, List.length_append, List.length_map, List.length_finRange]
      omega
    subst hpast
    have hrun' := run_reset c hpar u0 st _ _ (run_more hrun k)
    obtain ⟨x, hx⟩ := q8
    refine ⟨sim'.ws.2, ?_, fun j => ?_⟩
    · unfold runSample
      have hstart : start (sampleSimulator c) u c.others (freshAll V c.settings.writers, st) = .ok ⟨u0 :: c.others, ⟨0, 0⟩, (freshAll V c.settings.writers, st), []⟩ := by
        unfold start
        simp only [sampleSimulator, hbc, Res.ok_bind, Res.pure_eq]
      simp only [hstart, Res.ok_bind, hrun', hx]
    · obtain ⟨p, k1, k2, k3⟩ := q10 j
      refine ⟨k2.2.2.2, fun N initial hN hs => ?_⟩
      have hp : p = ⟨c.settings.endTime / N, 0, initial⟩ := by
        simp only [statParams, hs] at k1
        exact (Option.some.inj k1).symm
      subst hp
      have := k2.2.2.1
      rw [evaluations_times c.toVol _ past (fun t => SaveTime (⟨c.settings.endTime / N, 0, initial⟩ : Fixed ℝ) t) U hU, htimes _ (List.get_mem _ _) N initial hN hs, hreset] at this
      exact this

/-- A sample with initial data `u` runs to the end, and its statistics are evaluated for the states `U t` at their save times. -/
def Runs (c : Common V F) (Inv : Fin c.stats.length → Snaps → Prop) (fuel : Nat) (u : V) (U : ℝ → V) : Prop :=
  ∀ k st, (∀ j, Inv j (st j).2) → ∃ st', runSample c (fuel + k) u st = .ok (some st') ∧
    ∀ j, Inv j (st' j).2 ∧ ∀ N initial, 0 < N → (c.stats.get j).saving = .fixed (some (c.settings.endTime / (N : Nat))) initial →
      (saveTimes c.settings.endTime N initial).foldlM (fun snaps t => compute (c.stats.get j).parts t (c.toVol (U t)) snaps) (st j).2 = .ok (st' j).2

/-- The samples of a process get the parameters `D`. -/
def Draws (w : Nat → ℝ) (params : List (UQ.Param ℝ)) (D : Nat → List (List ℝ)) : List Nat → Nat → Prop
  | [], _ => True
  | s :: rest, pos => ∃ pos', UQ.sampleParameters w params s pos = .ok (D s, pos') ∧ Draws w params D rest pos'

theorem draws_of_run (w : Nat → ℝ) (params : List (UQ.Param ℝ)) (D : Nat → List (List ℝ)) (samples : List Nat) (pos : Nat) (acc : List (List (List ℝ))) (out : List (List (List ℝ)) × Nat)
    (h : samples.foldlM (fun (s : List (List (List ℝ)) × Nat) sample => (do
      let (x, pos) ← UQ.sampleParameters w params sample s.2
      pure (s.1 ++ [x], pos) : Res _)) (acc, pos) = .ok out) (ho : out.1 = acc ++ samples.map D) : Draws w params D samples pos := by
  induction samples generalizing pos acc with
  | nil => trivial
  | cons s rest ih =>
    rw [List.foldlM_cons] at h
    obtain ⟨x, h1, h2⟩ := bind_ok h
    obtain ⟨⟨y, pos'⟩, h3, h4⟩ := bind_ok h1
    cases h4
    simp only at h2
    have hpre : ∀ (l : List Nat) (a : List (List (List ℝ)) × Nat) out, l.foldlM (fun (s : List (List (List ℝ)) × Nat) sample => (do
        let (x, pos) ← UQ.sampleParameters w params sample s.2
        pure (s.1 ++ [x], pos) : Res _)) a = .ok out → ∃ t, out.1 = a.1 ++ t := by
      intro l
      induction l with
      | nil => intro a out h; cases h; exact ⟨[], by simp⟩
      | cons b l ih =>
        intro a out h
        rw [List.foldlM_cons] at h
        obtain ⟨x, h1, h2⟩ := bind_ok h
        obtain ⟨⟨z, p⟩, h3, h4⟩ := bind_ok h1
        cases h4
        obtain ⟨t, ht⟩ := ih _ _ h2
        exact ⟨z :: t, by rw [ht]; simp⟩
    obtain ⟨t, ht⟩ := hpre _ _ _ h2
    have hy : y = D s := by
      rw [ho] at ht
      simp only [List.map_cons, List.append_assoc, List.singleton_append, List.append_cancel_left_eq, List.cons.injEq] at ht
      exact ht.1.symm
    subst hy
    exact ⟨pos', h3, ih pos' (acc ++ [D s]) h2 (by rw [ho]; simp)⟩

theorem samples_run {c : Common V F} (Inv : Fin c.stats.length → Snaps → Prop) (w : Nat → ℝ) (params : List (UQ.Param ℝ)) (initial : List (List ℝ) → V) (D : Nat → List (List ℝ))
    (U : Nat → ℝ → V) (fuel : Nat → Nat) (total : Nat) (mine : List Nat) (hfuel : ∀ s ∈ mine, fuel s ≤ total) (hruns : ∀ s ∈ mine, Runs c Inv (fuel s) (initial (D s)) (U s))
    (pos : Nat) (hd : Draws w params D mine pos) (st : StatStates c.stats) (hst : ∀ j, Inv j (st j).2) :
    ∃ st', runSamples c total w params initial mine pos st = .ok (some st') ∧ ∀ j, ∀ N init, 0 < N → (c.stats.get j).saving = .fixed (some (c.settings.endTime / (N : Nat))) init →
      mine.foldlM (fun snaps s => (saveTimes c.settings.endTime N init).foldlM (fun snaps t => compute (c.stats.get j).parts t (c.toVol (U s t)) snaps) snaps) (st j).2 = .ok (st' j).2 := by
  induction mine generalizing pos st with
  | nil => exact ⟨st, rfl, fun j N init _ _ => rfl⟩
  | cons s rest ih =>
    obtain ⟨pos', hd1, hd2⟩ := hd
    obtain ⟨k, hk⟩ := Nat.exists_eq_add_of_le (hfuel s (by simp))
    obtain ⟨st1, h1, h2⟩ := hruns s (by simp) k st hst
    rw [← hk] at h1
    obtain ⟨st', h3, h4⟩ := ih (fun s hs => hfuel s (by simp [hs])) (fun s hs => hruns s (by simp [hs])) pos' hd2 st1 (fun j => (h2 j).1)
    refine ⟨st', ?_, fun j N init hN hs => ?_⟩
    · unfold runSamples
      simp only [hd1, Res.ok_bind, h1]
      exact h3
    · rw [List.foldlM_cons, (h2 j).2 N init hN hs, Res.ok_bind]
      exact h4 j N init hN hs

/-- The statistic can be evaluated for states `In`, in every order. -/
def Usable (parts : List Part) (In : Vol → Prop) : Prop :=
  ∀ evals : List (ℝ × Vol), (∀ e ∈ evals, In e.2) → ∃ snaps, evals.foldlM (fun snaps e => compute parts e.1 e.2 snaps) [] = .ok snaps

theorem process_ok {c : Common V F} (Inv : Fin c.stats.length → Snaps → Prop) (hnil : ∀ j, Inv j []) (w : Nat → ℝ) (params : List (UQ.Param ℝ)) (initial : List (List ℝ) → V)
    (hone : (params.filter UQ.Param.random).length ≤ 1) (h1 : ∀ p ∈ params, ∀ a dx, p.dist = .uniform1d a dx → p.dim ≤ 1)
    (U : Nat → ℝ → V) (fuel : Nat → Nat) (total first samples : Nat) (hfuel : ∀ s ∈ UQ.sampleNumbers first samples, fuel s ≤ total)
    (hruns : ∀ s ∈ UQ.sampleNumbers first samples, Runs c Inv (fuel s) (initial (params.map fun p => (List.range p.dim).map fun i => UQ.value w p i s)) (U s))
    (processes r : Int) (mine : List Nat) (a b : List Int) (hmine : UQ.loadBalance (UQ.sampleNumbers first samples) processes ⟨1, 1, 1⟩ processes r = .ok (mine, a, b))
    (hsub : ∀ s ∈ mine, s ∈ UQ.sampleNumbers first samples) :
    ∃ st, process c total w params initial first samples processes r = .ok (some st) ∧
      ∀ j, ∀ N init, 0 < N → (c.stats.get j).saving = .fixed (some (c.settings.endTime / (N : Nat))) init →
        runRank (c.stats.get j).parts (fun s t => c.toVol (U s t)) (saveTimes c.settings.endTime N init) mine = .ok (st j).2 := by
  obtain ⟨pos, hpos⟩ := Props.UQ.C51_every_distribution_partial w params hone h1 first samples processes ⟨1, 1, 1⟩ processes r mine a b hmine
  have hd := draws_of_run w params (fun s => params.map fun p => (List.range p.dim).map fun i => UQ.value w p i s) mine 0 [] _ hpos (by simp)
  have hf : ∀ j : Fin c.stats.length, (c.stats.get j).fresh.2 = [] := by
    intro j
    unfold StatObj.fresh
    split <;> rfl
  obtain ⟨st, h2, h3⟩ := samples_run Inv w params initial _ U fuel total mine (fun s hs => hfuel s (hsub s hs)) (fun s hs => hruns s (hsub s hs)) 0 hd
    (fun j => (c.stats.get j).fresh) (fun j => by rw [hf]; exact hnil j)
  refine ⟨st, ?_, fun j N init hN hs => ?_⟩
  · unfold process
    simp only [hmine, Res.ok_bind, h2]
  · have := h3 j N init hN hs
    rw [hf] at this
    exact this

open Classical in
theorem uq_ok {W : Type} [AddCommGroup W] [Module ℝ W] {c : Common V F} {int : V →ₗ[ℝ] W} {G : W → W} {speeds : W → Nat → ℝ} {Ready : V → Prop} {Q : W → Prop} {δ : ℝ}
    (hc : Works c int G speeds Ready Q δ) (In : Vol → Prop) (hIn : ∀ u, Ready u → In (c.toVol u)) (husable : ∀ o ∈ c.stats, Usable o.parts In)
    (Post : Fin c.stats.length → (Nat → ℝ → Vol) → List ℝ → List Nat → Snaps → Prop)
    (hpost : ∀ j (U : Nat → ℝ → Vol) (times : List ℝ) (ranks : List (List Nat)), times.Nodup → ranks ≠ [] → (∀ r ∈ ranks, r ≠ []) → (∀ r ∈ ranks, ∀ s ∈ r, ∀ t ∈ times, In (U s t)) →
      ∃ snaps final, ranks.mapM (runRank (c.stats.get j).parts U times) = .ok snaps ∧ finish (c.stats.get j) ranks.flatten.length snaps = .ok final ∧ Post j U times ranks.flatten final)
    (w : Nat → ℝ) (params : List (UQ.Param ℝ)) (initial : List (List ℝ) → V) (hone : (params.filter UQ.Param.random).length ≤ 1)
    (h1 : ∀ p ∈ params, ∀ a dx, p.dist = .uniform1d a dx → p.dim ≤ 1) (first samples : Nat) (hs0 : 0 < samples)
    (hinit : ∀ s ∈ UQ.sampleNumbers first samples, ∃ u0, c.bc (initial (params.map fun p => (List.range p.dim).map fun i => UQ.value w p i s)) = .ok u0 ∧ Ready u0 ∧ Q (int u0)) :
    ∃ (fuel : Nat) (past : Nat → List (V × TimeInfo ℝ)) (U : Nat → ℝ → V),
      (∀ s ∈ UQ.sampleNumbers first samples,
        (∃ u0, c.bc (initial (params.map fun p => (List.range p.dim).map fun i => UQ.value w p i s)) = .ok u0 ∧ (past s).head? = some (u0, ⟨0, 0⟩)) ∧
        (∃ e, (past s).getLast? = some e ∧ e.2.time = c.settings.endTime) ∧
        (past s).Pairwise (fun a b => a.2.time < b.2.time) ∧
        (past s).IsChain (fun a b => int b.1 = textbook c.kind (fun w => (1 / c.env.len 0) • G w) (b.2.time - a.2.time) (int a.1)) ∧
        ∀ o ∈ c.stats, ∀ N init, 0 < N → o.saving = .fixed (some (c.settings.endTime / (N : Nat))) init → ∀ t ∈ saveTimes c.settings.endTime N init,
          ∃ info, (U s t, info) ∈ past s ∧ info.time = t) ∧
      (∀ s ∈ UQ.sampleNumbers first samples, ∀ e ∈ past s, Q (int e.1)) ∧
      ∀ (k : Nat) (processes : Int), 1 ≤ processes → processes < 2 ^ 64 → processes ∣ (samples : Int) →
        ∃ out, uqProgram c (fuel + k) w params initial first samples processes = .ok (some out) ∧ out.length = c.stats.length ∧
          ∀ j : Fin c.stats.length, ∃ final, out[j.1]? = some final ∧ ∀ N init, 0 < N → (c.stats.get j).saving = .fixed (some (c.settings.endTime / (N : Nat))) init →
            Post j (fun s t => c.toVol (U s t)) (saveTimes c.settings.endTime N init) (UQ.sampleNumbers first samples) final := by
  let Inv : Fin c.stats.length → Snaps → Prop := fun j snaps => ∃ evals : List (ℝ × Vol), (∀ e ∈ evals, In e.2) ∧
    evals.foldlM (fun snaps e => compute (c.stats.get j).parts e.1 e.2 snaps) [] = .ok snaps
  have hnil : ∀ j, Inv j [] := fun j => ⟨[], by simp, rfl⟩
  have hinv : ∀ j t u snaps, Ready u → Inv j snaps → ∃ snaps', compute (c.stats.get j).parts t (c.toVol u) snaps = .ok snaps' ∧ Inv j snaps' := by
    rintro j t u snaps hu ⟨evals, g1, g2⟩
    have hall : ∀ e ∈ evals ++ [(t, c.toVol u)], In e.2 := by
      intro e he
      rcases List.mem_append.1 he with he | he
      · exact g1 e he
      · rw [List.mem_singleton.1 he]; exact hIn u hu
    obtain ⟨snaps', g3⟩ := husable _ (List.get_mem c.stats j) _ hall
    refine ⟨snaps', ?_, _, hall, g3⟩
    rw [List.foldlM_append, g2, Res.ok_bind, List.foldlM_cons] at g3
    obtain ⟨x, g4, g5⟩ := bind_ok g3
    cases g5
    exact g4
  have each : ∀ s, ∃ (fuel : Nat) (past : List (V × TimeInfo ℝ)) (U : ℝ → V), s ∈ UQ.sampleNumbers first samples →
      (∃ u0, c.bc (initial (params.map fun p => (List.range p.dim).map fun i => UQ.value w p i s)) = .ok u0 ∧ past.head? = some (u0, ⟨0, 0⟩)) ∧
      (∃ e, past.getLast? = some e ∧ e.2.time = c.settings.endTime) ∧ past.Pairwise (fun a b => a.2.time < b.2.time) ∧
      past.IsChain (fun a b => int b.1 = textbook c.kind (fun w => (1 / c.env.len 0) • G w) (b.2.time - a.2.time) (int a.1)) ∧
      (∀ o ∈ c.stats, ∀ N init, 0 < N → o.saving = .fixed (some (c.settings.endTime / (N : Nat))) init → ∀ t ∈ saveTimes c.settings.endTime N init,
        Ready (U t) ∧ ∃ info, (U t, info) ∈ past ∧ info.time = t) ∧ (∀ e ∈ past, Q (int e.1)) ∧
      Runs c Inv fuel (initial (params.map fun p => (List.range p.dim).map fun i => UQ.value w p i s)) U := by
    intro s
    by_cases hs : s ∈ UQ.sampleNumbers first samples
    · obtain ⟨u0, g1, g2, g3⟩ := hinit s hs
      obtain ⟨fuel, past, U, a1, a2, a3, a4, a5, aQ, a6⟩ := sample_past hc Inv hnil hinv _ u0 g1 g2 g3
      exact ⟨fuel, past, U, fun _ => ⟨⟨u0, g1, a1⟩, a2, a3, a4, a5, aQ, a6⟩⟩
    · exact ⟨0, [], fun _ => 0, fun h => absurd h hs⟩
  choose fuel past U hall using each
  refine ⟨((UQ.sampleNumbers first samples).map fuel).sum, past, U, fun s hs => ?_, fun s hs => (hall s hs).2.2.2.2.2.1, ?_⟩
  · obtain ⟨a1, a2, a3, a4, a5, -, a6⟩ := hall s hs
    exact ⟨a1, a2, a3, a4, fun o ho N init hN hsv t ht => (a5 o ho N init hN hsv t ht).2⟩
  intro k processes hp1 hp64 hdvd
  have hlen : (UQ.sampleNumbers first samples).length = samples := by simp [UQ.sampleNumbers]
  obtain ⟨share, b1, b2, b3⟩ := Props.UQ.C50_samples_are_partitioned (UQ.sampleNumbers first samples) processes ⟨1, 1, 1⟩ processes 1 hp1 hp64 le_rfl le_rfl le_rfl rfl (by omega)
    (by rw [hlen]; exact hdvd)
  have hranks : ∀ r ∈ irange 0 processes, ∃ st, process c (((UQ.sampleNumbers first samples).map fuel).sum + k) w params initial first samples processes r = .ok (some st) ∧
      ∀ j, ∀ N init, 0 < N → (c.stats.get j).saving = .fixed (some (c.settings.endTime / (N : Nat))) init →
        runRank (c.stats.get j).parts (fun s t => c.toVol (U s t)) (saveTimes c.settings.endTime N init) (share r) = .ok (st j).2 := by
    intro r hr
    obtain ⟨hr0, hr1⟩ := mem_irange.1 hr
    obtain ⟨a, b, hm, -⟩ := b1 r hr0 hr1
    rw [Int.ediv_one] at hm
    refine process_ok Inv hnil w params initial hone h1 U fuel _ first samples (fun s hs => ?_) (fun s hs => (hall s hs).2.2.2.2.2.2) processes r (share r) a b hm (fun s hs => ?_)
    · exact (List.single_le_sum (by simp) _ (List.mem_map.2 ⟨s, hs, rfl⟩)).trans (Nat.le_add_right _ _)
    · rw [← b3]
      exact List.mem_flatten.2 ⟨share r, List.mem_map.2 ⟨r, hr, rfl⟩, hs⟩
  have hranks' : ∀ r, ∃ st : StatStates c.stats, r ∈ irange 0 processes →
      process c (((UQ.sampleNumbers first samples).map fuel).sum + k) w params initial first samples processes r = .ok (some st) ∧
      ∀ j, ∀ N init, 0 < N → (c.stats.get j).saving = .fixed (some (c.settings.endTime / (N : Nat))) init →
        runRank (c.stats.get j).parts (fun s t => c.toVol (U s t)) (saveTimes c.settings.endTime N init) (share r) = .ok (st j).2 := by
    intro r
    by_cases hr : r ∈ irange 0 processes
    · obtain ⟨st, h⟩ := hranks r hr
      exact ⟨st, fun _ => h⟩
    · exact ⟨fun _ => (0, []), fun h => absurd h hr⟩
  choose st hst using hranks'
  have hfin : ∀ j : Fin c.stats.length, ∃ final, finish (c.stats.get j) samples ((irange 0 processes).map fun r => (st r j).2) = .ok final ∧
      ∀ N init, 0 < N → (c.stats.get j).saving = .fixed (some (c.settings.endTime / (N : Nat))) init →
        Post j (fun s t => c.toVol (U s t)) (saveTimes c.settings.endTime N init) (UQ.sampleNumbers first samples) final := by
    intro j
    have key : ∀ N init, 0 < N → (c.stats.get j).saving = .fixed (some (c.settings.endTime / (N : Nat))) init →
        ∃ final, finish (c.stats.get j) samples ((irange 0 processes).map fun r => (st r j).2) = .ok final ∧
          Post j (fun s t => c.toVol (U s t)) (saveTimes c.settings.endTime N init) (UQ.sampleNumbers first samples) final := by
      intro N init hN hs
      obtain ⟨snaps, final, f1, f2, f3⟩ := hpost j (fun s t => c.toVol (U s t)) (saveTimes c.settings.endTime N init) ((irange 0 processes).map share)
        (saveTimes_nodup hc.endTime hN init) (fun h => by
          have := congrArg List.length h
          simp [irange] at this
          omega) (by
          intro r hr hnil
          obtain ⟨i, hi, rfl⟩ := List.mem_map.1 hr
          obtain ⟨hi0, hi1⟩ := mem_irange.1 hi
          have := b2 i hi0 hi1
          rw [hnil, hlen] at this
          simp at this
          omega) (by
          intro r hr s hsr t ht
          have hmem : s ∈ UQ.sampleNumbers first samples := by rw [← b3]; exact List.mem_flatten.2 ⟨r, hr, hsr⟩
          exact hIn _ ((hall s hmem).2.2.2.2.1 _ (List.get_mem c.stats j) N init hN hs t ht).1)
      rw [b3, hlen] at f2
      rw [b3] at f3
      have hsn : ((irange 0 processes).map share).mapM (runRank (c.stats.get j).parts (fun s t => c.toVol (U s t)) (saveTimes c.settings.endTime N init)) =
          .ok ((irange 0 processes).map fun r => (st r j).2) := by
        rw [List.mapM_map]
        exact mapM_ok _ _ _ fun r hr => (hst r hr).2 j N init hN hs
      cases f1.symm.trans hsn
      exact ⟨final, f2, f3⟩
    obtain ⟨N0, init0, hN0, hs0'⟩ := hc.intervals _ (List.get_mem c.stats j)
    obtain ⟨final, g1, -⟩ := key N0 init0 hN0 hs0'
    refine ⟨final, g1, fun N init hN hs => ?_⟩
    obtain ⟨final', g2, g3⟩ := key N init hN hs
    cases g1.symm.trans g2
    exact g3
  choose final hf1 hf2 using hfin
  refine ⟨(List.finRange c.stats.length).map final, ?_, by simp, fun j => ⟨final j, by simp, hf2 j⟩⟩
  unfold uqProgram
  have e1 : (irange 0 processes).mapM (fun r => process c (((UQ.sampleNumbers first samples).map fuel).sum + k) w params initial first samples processes r) =
      .ok ((irange 0 processes).map fun r => some (st r)) := mapM_ok _ _ _ fun r hr => (hst r hr).1
  have e2 : ((irange 0 processes).map fun r => some (st r)).mapM id = some ((irange 0 processes).map st) := by
    rw [List.mapM_map]
    generalize irange 0 processes = l
    induction l with
    | nil => rfl
    | cons a l ih =>
      rw [List.mapM_cons]
      simp only [Function.comp_apply, id] at ih ⊢
      rw [ih]
      rfl
  rw [e1, Res.ok_bind]
  simp only [e2, List.map_map]
  have e3 : (List.finRange c.stats.length).mapM (fun j => finish (c.stats.get j) samples ((irange 0 processes).map ((fun st => (st j).2) ∘ st))) =
      .ok ((List.finRange c.stats.length).map final) := mapM_ok _ _ _ fun j _ => hf1 j
  rw [e3]
  rfl

/-- The snapshots after any evaluations of a statistic that adds. -/
theorem evaluate_adds (φ : Part → Vol → Nat → I3 → ℝ) (In : Vol → Prop) (d : Dim) (parts : List Part) (hadd : ∀ p ∈ parts, p.Adds In d (φ p)) (evals : List (ℝ × Vol))
    (hin : ∀ e ∈ evals, In e.2) :
    ∃ snaps, evals.foldlM (fun snaps e => compute parts e.1 e.2 snaps) [] = .ok snaps ∧
      Holds (fun _ => d) (evals.flatMap fun e => parts.map fun p => toLex (e.1, p.name))
        (fun k var c => (((evals.flatMap fun e => parts.map fun p => (⟨toLex (e.1, p.name), p.zero e.2, fun v => p.update v e.2, φ p e.2⟩ : Op)).filter fun o => o.key = k).map
          fun o => o.δ var c).sum) snaps := by
  obtain ⟨r, e, h⟩ := runOps_holds (fun _ => d) (evals.flatMap fun e => parts.map fun p => (⟨toLex (e.1, p.name), p.zero e.2, fun v => p.update v e.2, φ p e.2⟩ : Op)) (by
    intro o ho
    simp only [List.mem_flatMap, List.mem_map] at ho
    obtain ⟨e, he, p, hp, rfl⟩ := ho
    exact hadd p hp e.2 (hin e he)) [] (fun _ _ _ => 0) [] (holds_nil _) (fun _ _ _ _ => rfl)
  refine ⟨r, ?_, by simpa [List.map_flatMap, Function.comp_def] using h⟩
  rw [← e, runOps, foldlM_flatMap']
  congr 1
  funext snaps e
  rw [List.foldlM_map]
  rfl

theorem usable_of_adds {φ : Part → Vol → Nat → I3 → ℝ} {In : Vol → Prop} {d : Dim} {parts : List Part} (hadd : ∀ p ∈ parts, p.Adds In d (φ p)) : Usable parts In :=
  fun evals hin => (evaluate_adds φ In d parts hadd evals hin).imp fun _ h => h.1

/-- Snapshots of different number cannot be added. -/
theorem reduceTwo_lengths (a b : Snaps) (h : a.length ≠ b.length) : reduceTwo a b = .error .ub := by
  induction a generalizing b with
  | nil => cases b with
    | nil => exact absurd rfl h
    | cons y b => rfl
  | cons x a ih => cases b with
    | nil => rfl
    | cons y b =>
      obtain ⟨k, v⟩ := x
      obtain ⟨k', w⟩ := y
      have := ih b (by simpa using h)
      unfold reduceTwo
      rw [this]
      unfold reduceVolume
      split_ifs <;> rfl

theorem holds_length {dim : Key → Dim} {keys : List Key} {val : Key → Nat → I3 → ℝ} {s : Snaps} (h : Holds dim keys val s) (hk : keys.Nodup) : s.length = keys.length := by
  have hs : (s.map Prod.fst).Nodup := h.1.imp fun h => h.ne
  have := ((List.perm_ext_iff_of_nodup hs hk).2 h.2.1).length_eq
  simpa using this

end Verif.UQRun
