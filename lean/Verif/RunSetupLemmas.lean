import Verif.RunSetup
import Verif.Schedule

/-!
Lemmas for C86: the writers of a configuration, called one after the other by the simulator, behave as each of them would alone.
-/

namespace Verif.Setup
open Params Integrator Verif.Simulator Writers Schedule
variable {K V W F : Type} [Field K] [LinearOrder K] [IsStrictOrderedRing K] [AddCommGroup V] [Module K V] [AddCommGroup W] [Module K W]

/-- Calls of one writer. -/
def calls (eval : F → V → V → K → Res V) (dx : K) (w : WriterObj K F) (l : List (V × TimeInfo K)) (t : w.St V) : Res (w.St V) :=
  l.foldlM (fun t e => w.write eval dx e.1 e.2 t) t

/-- The parameters of a fixed interval writer. -/
def params : WriterObj K F → Option (Fixed K)
  | .fixed _ (some i) start initial => some ⟨i, start, initial⟩
  | _ => none

/-- Its counter. -/
def counter : (w : WriterObj K F) → w.St V → Nat
  | .fixed _ _ _ _, s => s.1
  | _, _ => 0

/-- The save times, in order. -/
def OnTime (p : Fixed K) (l : List (V × TimeInfo K)) : Prop := l.map (fun e => e.2.time) = (List.range l.length).map fun j => p.next ((if p.initial then 0 else 1) + j)

/-- A writer that never fails where it is used. -/
def Able (eval : F → V → V → K → Res V) (dx : K) : WriterObj K F → Prop
  | .fixed w (some i) start initial => Valid ⟨i, start, initial⟩ ∧ ∀ l : List (V × TimeInfo K), OnTime ⟨i, start, initial⟩ l → ∃ t, calls eval dx w l w.fresh = .ok t
  | .coarse _ (some _) _ _ => False
  | w => ∀ u info (st : w.St V), ∃ st', w.write eval dx u info st = .ok st'

/-- What a fixed interval writer passed on. -/
def Received (eval : F → V → V → K → Res V) (dx : K) : (w : WriterObj K F) → List (V × TimeInfo K) → w.St V → Prop
  | .fixed w (some i) start initial, l, st => st.1 = (if initial then 0 else 1) + l.length ∧ OnTime (⟨i, start, initial⟩ : Fixed K) l ∧ calls eval dx w l w.fresh = .ok st.2
  | _, _, _ => True

theorem fold_each {n : Nat} {S : Fin n → Type} (f : ∀ i, S i → Res (S i)) (x : ∀ i, S i) (l : List (Fin n)) (hl : l.Nodup) (st : ∀ i, S i) (h : ∀ i ∈ l, f i (st i) = .ok (x i)) :
    l.foldlM (fun (st : ∀ i, S i) i => do
      let x ← f i (st i)
      (.ok (Function.update st i x) : Res (∀ i, S i))) st = .ok fun i => if i ∈ l then x i else st i := by
  induction l generalizing st with
  | nil => simp
  | cons i l ih =>
    rw [List.nodup_cons] at hl
    rw [List.foldlM_cons, h i (by simp)]
    simp only [Res.ok_bind]
    rw [ih hl.2 _ (fun j hj => by
      have : j ≠ i := fun e => hl.1 (e ▸ hj)
      rw [Function.update_of_ne this]; exact h j (by simp [hj]))]
    congr 1
    funext j
    by_cases hj : j = i
    · subst hj; simp [hl.1]
    · simp [hj]

omit [IsStrictOrderedRing K] in
/-- One call of an able writer. -/
theorem write_able {eval : F → V → V → K → Res V} {dx : K} {w : WriterObj K F} (h : Able (V := V) eval dx w) (u : V) (info : TimeInfo K) (l : List (V × TimeInfo K)) (st : w.St V)
    (hr : Received eval dx w l st) (hle : ∀ p, params w = some p → info.time ≤ p.next (counter w st)) :
    ∃ st', w.write eval dx u info st = .ok st' ∧ ∀ p, params w = some p →
      counter w st' = (if p.next (counter w st) ≤ info.time then counter w st + 1 else counter w st) ∧
      Received eval dx w (if p.next (counter w st) ≤ info.time then l ++ [(u, info)] else l) st' := by
  have simple : params w = none → (∀ u info (st : w.St V), ∃ st', w.write eval dx u info st = .ok st') → ∃ st', w.write eval dx u info st = .ok st' ∧ ∀ p, params w = some p →
      counter w st' = (if p.next (counter w st) ≤ info.time then counter w st + 1 else counter w st) ∧
      Received eval dx w (if p.next (counter w st) ≤ info.time then l ++ [(u, info)] else l) st' := by
    intro hn ht
    obtain ⟨st', h'⟩ := ht u info st
    exact ⟨st', h', fun p hp => by rw [hn] at hp; cases hp⟩
  match w, h, st, hr, hle, simple with
  | .base _ _ _, h, st, hr, hle, simple => exact simple rfl h
  | .fixed _ none _ _, h, st, hr, hle, simple => exact simple rfl h
  | .coarse _ none _ _, h, st, hr, hle, simple => exact simple rfl h
  | .coarse _ (some _) _ _, h, st, hr, hle, simple => exact h.elim
  | .integrated _ _ _, h, st, hr, hle, simple => exact simple rfl h
  | .timeFunctional _ _ _ _, h, st, hr, hle, simple => exact simple rfl h
  | .functional _ _, h, st, hr, hle, simple => exact simple rfl h
  | .fixed w (some i) start initial, h, st, hr, hle, _ =>
    obtain ⟨k, t⟩ := st
    obtain ⟨h1, h2, h3⟩ := hr
    have hle := hle _ rfl
    simp only [counter] at hle
    by_cases hdue : Fixed.next (⟨i, start, initial⟩ : Fixed K) k ≤ info.time
    · have heq := le_antisymm hle hdue
      have hon : OnTime (⟨i, start, initial⟩ : Fixed K) (l ++ [(u, info)]) := by
        unfold OnTime at h2 ⊢
        simp only at h1 h2 ⊢
        simp only [List.map_append, h2, List.length_append, List.length_singleton, List.range_succ, List.map_cons, List.map_nil]
        rw [heq, h1]
      obtain ⟨t', ht'⟩ := h.2 _ hon
      have hcall : w.write eval dx u info t = .ok t' := by
        unfold calls at ht' h3
        rw [List.foldlM_append, h3] at ht'
        simp only [Res.ok_bind, List.foldlM_cons, List.foldlM_nil] at ht'
        cases hc : w.write eval dx u info t with
        | error e => rw [hc] at ht'; cases ht'
        | ok x => rw [hc] at ht'; exact ht'
      refine ⟨(k + 1, t'), ?_, ?_⟩
      · simp only [WriterObj.write, Fixed.write]
        rw [if_pos hdue, hcall]; rfl
      · intro p hp
        cases hp
        refine ⟨(if_pos hdue).symm, (congrArg (fun l' => Received eval dx (.fixed w (some i) start initial) l' (k + 1, t')) (if_pos hdue)).mpr ⟨?_, hon, ht'⟩⟩
        simp only at h1; simp only [List.length_append, List.length_singleton]; omega
    · refine ⟨(k, t), ?_, ?_⟩
      · simp only [WriterObj.write, Fixed.write]
        rw [if_neg hdue]; rfl
      · intro p hp
        cases hp
        exact ⟨(if_neg hdue).symm, (congrArg (fun l' => Received eval dx (.fixed w (some i) start initial) l' (k, t)) (if_neg hdue)).mpr ⟨h1, h2, h3⟩⟩

omit [IsStrictOrderedRing K] in
theorem adjuster_params {eval : F → V → V → K → Res V} {dx : K} {w : WriterObj K F} (h : Able (V := V) eval dx w) (st : w.St V) :
    w.adjuster st = (params w).map fun p => p.adjust (counter w st) := by
  match w, h, st with
  | .base _ _ _, h, st => rfl
  | .fixed _ none _ _, h, st => rfl
  | .coarse _ none _ _, h, st => rfl
  | .coarse _ (some _) _ _, h, st => exact h.elim
  | .integrated _ _ _, h, st => rfl
  | .timeFunctional _ _ _ _, h, st => rfl
  | .functional _ _, h, st => rfl
  | .fixed w (some i) start initial, h, st => rfl

omit [IsStrictOrderedRing K] in
theorem received_none {eval : F → V → V → K → Res V} {dx : K} {w : WriterObj K F} (h : params w = none) (l : List (V × TimeInfo K)) (st : w.St V) : Received eval dx w l st := by
  match w, h, st with
  | .base _ _ _, h, st => trivial
  | .fixed _ none _ _, h, st => trivial
  | .coarse _ _ _ _, h, st => trivial
  | .integrated _ _ _, h, st => trivial
  | .timeFunctional _ _ _ _, h, st => trivial
  | .functional _ _, h, st => trivial
  | .fixed w (some i) start initial, h, st => cases h

open Classical in
/-- All writers together: the run ends at the end time, and every writer has been called as it would be alone. -/
theorem run_all [Archimedean K] (eval : F → V → V → K → Res V) (dx : K) (s : Settings K F) (kind : Kind) (env : Env V K) (bc : V → Res V) (obeys : V → Bool)
    (int : V →ₗ[K] W) (G : W → W) (ws : W → Nat → K) (Ready : V → Prop) (hs : Sound env.sys bc int G ws Ready) (hx : env.len 0 ≠ 0) (Q : W → Prop)
    (δ : K) (hst : Stable kind env G ws Q δ) (hobeys : ∀ u, Ready u → Q (int u) → obeys u = true) (hend : 0 < s.endTime) (hable : ∀ w ∈ s.writers, Able (V := V) eval dx w)
    (hlast : ∃ w ∈ s.writers, ∃ p, params w = some p ∧ SaveTime p s.endTime) (sim : Sim V K (States V s.writers)) (hlen : sim.vols.length = kind.substeps + 1) (u : V)
    (hu : sim.vols[0]? = some u) (hr : Ready u) (hq : Q (int u)) (ht : sim.info.time = 0) (hws : sim.ws = freshAll V s.writers) (hlog : sim.log = []) :
    ∃ fuel past sim', run (simulator eval dx s kind env bc obeys) fuel sim = .ok (some sim') ∧ sim'.info.time = s.endTime ∧
      past.head? = some (u, sim.info) ∧ (∃ u', past.getLast? = some (u', sim'.info)) ∧ past.Pairwise (fun a b => a.2.time < b.2.time) ∧
      past.IsChain (fun a b => int b.1 = textbook kind (fun w => (1 / env.len 0) • G w) (b.2.time - a.2.time) (int a.1)) ∧ (∀ e ∈ past, Q (int e.1)) ∧
      sim'.log = past.flatMap (fun e => (List.range s.writers.length).map fun w => ⟨w, e.1, e.2⟩) ∧
      ∀ i : Fin s.writers.length, (params (s.writers.get i) = none → calls eval dx (s.writers.get i) past (s.writers.get i).fresh = .ok (sim'.ws i)) ∧
        ∀ p, params (s.writers.get i) = some p → Received eval dx (s.writers.get i) (past.filter fun e => SaveTime p e.2.time) (sim'.ws i) ∧
          ∀ k, (if p.initial then 0 else 1) ≤ k → p.next k ≤ s.endTime → ∃ e ∈ past, e.2.time = p.next k := by
  have hget : ∀ i : Fin s.writers.length, Able (V := V) eval dx (s.writers.get i) := fun i => hable _ (List.get_mem _ _)
  obtain ⟨w0, hw0, p0, hp0, hT⟩ := hlast
  obtain ⟨i0, rfl⟩ := List.get_of_mem hw0
  have fresh_ok : ∀ w : WriterObj K F, ∀ p, params w = some p → counter w (w.fresh : w.St V) = (if p.initial then 0 else 1) ∧ Received eval dx w [] (w.fresh : w.St V) := by
    intro w p hp
    match w, hp with
    | .fixed w (some i) start initial, hp => cases hp; exact ⟨rfl, rfl, rfl, rfl⟩
  have hvalid : ∀ w : WriterObj K F, Able (V := V) eval dx w → ∀ p, params w = some p → Valid p := by
    intro w hw p hp
    match w, hw, hp with
    | .fixed w (some i) start initial, hw, hp => cases hp; exact hw.1
  obtain ⟨fuel, past, sim', r1, r2, r0, r3, r4, r5⟩ := run_schedule (simulator eval dx s kind env bc obeys) int G ws Ready Q hs hx δ hst hobeys hend
    (fun i => params (s.writers.get i)) (fun i p hp => hvalid _ (hget i) p hp) ⟨i0, p0, hp0, hT⟩ (fun st i => counter (s.writers.get i) (st i))
    (fun i l st => Received eval dx (s.writers.get i) l (st i)) (fun st => by
      unfold adjustersOf simulator
      simp only
      congr 1
      funext i
      exact adjuster_params (hget i) (st i))
    (fun past st => ∀ i, params (s.writers.get i) = none → calls eval dx (s.writers.get i) past (s.writers.get i).fresh = .ok (st i))
    (fun u info st past L _ _ _ hall hrel => by
      have each : ∀ i, ∃ x, (s.writers.get i).write eval dx u info (st i) = .ok x ∧ ∀ p, params (s.writers.get i) = some p →
          counter (s.writers.get i) x = (if p.next (counter (s.writers.get i) (st i)) ≤ info.time then counter (s.writers.get i) (st i) + 1 else counter (s.writers.get i) (st i)) ∧
          Received eval dx (s.writers.get i) (if p.next (counter (s.writers.get i) (st i)) ≤ info.time then L i ++ [(u, info)] else L i) x := by
        intro i
        cases hp : params (s.writers.get i) with
        | none =>
          have : Received eval dx (s.writers.get i) (L i) (st i) := by
            exact received_none hp _ _
          obtain ⟨x, h1, h2⟩ := write_able (hget i) u info (L i) (st i) this (fun p hp' => by rw [hp] at hp'; cases hp')
          exact ⟨x, h1, fun p hp' => by cases hp'⟩
        | some p =>
          obtain ⟨x, h1, h2⟩ := write_able (hget i) u info (L i) (st i) (hrel i p hp).1 (fun q hq => by rw [hp] at hq; cases hq; exact (hrel i p hp).2)
          exact ⟨x, h1, fun q hq => h2 q (by rw [hp]; exact hq)⟩
      choose x hx1 hx2 using each
      refine ⟨x, ?_, ?_, hx2⟩
      · simp only [simulator, List.foldlM_map]
        have := fold_each (fun i => (s.writers.get i).write eval dx u info) x (List.finRange _) (List.nodup_finRange _) st (fun i _ => hx1 i)
        simp only [List.mem_finRange, if_true] at this
        exact this
      · intro i hi
        have h1 := hall i hi
        unfold calls at h1 ⊢
        rw [List.foldlM_append, h1]
        simp only [Res.ok_bind, List.foldlM_cons, List.foldlM_nil, hx1]
        rfl)
    sim hlen u hu hr hq ht (fun i _ => by rw [hws]; rfl) (fun i p hp => by
      simp only [hws, freshAll]
      exact fresh_ok _ p hp)
  obtain ⟨u', -, -, hlast'⟩ := r3.last
  refine ⟨fuel, past, sim', r1, r2, r0, ⟨u', hlast'⟩, r3.times, r3.steps, r3.kept, ?_, fun i => ⟨r4 i, fun p hp => ⟨r3.written i p hp, fun k hk hk2 => r3.passed i p hp k hk ?_⟩⟩⟩
  · rw [r5, hlog]; simp [simulator]
  · have h1 := r3.next i p hp
    rw [r2] at h1
    exact (hvalid _ (hget i) p hp).smono.lt_iff_lt.1 (lt_of_le_of_lt hk2 h1)

end Verif.Setup
