import Verif.Queue
import Mathlib.Logic.Relation

/-! Property theorems C41 (queued output). -/

namespace Verif.Props.Queue
open Verif Verif.Queue
variable {V : Type}

/-- A state of a queue of size `q` with the volumes pushed and popped so far, reached from the new queue by any interleaving of calls of `write` and `pop`. -/
def Reached (fresh : V) (q : Nat) (c : State V × List V × List V) : Prop := Relation.ReflTransGen (Step fresh) (init q, [], []) c

/-- Facts about all reachable states. -/
structure Inv (q : Nat) (c : State V × List V × List V) : Prop where
  size : c.1.queueSize = q
  next : c.1.nextIndex = 0
  zeros : ∀ i ∈ c.1.waiting, i = 0
  room : c.1.waiting.length ≤ q
  content : (c.1.allocated = [] ∧ c.2.1 = []) ∨ ∃ v, c.1.allocated = [v] ∧ c.2.1.getLast? = some v
  count : c.2.1.length = c.2.2.length + c.1.waiting.length
  held : 0 < q → c.1.blocked ≠ [] → c.1.allocated ≠ []

theorem push_eq (fresh v : V) (s : State V) (hn : s.nextIndex = 0) (hq : 0 < s.queueSize) (ha : s.allocated = [] ∨ ∃ w, s.allocated = [w]) :
    push fresh v s = .ok { s with allocated := [v], waiting := s.waiting ++ [0] } := by
  obtain ⟨q, n, al, wa, bl⟩ := s
  simp only at hn hq ha
  subst hn
  rcases ha with rfl | ⟨w, rfl⟩
  · simp [push, hq]
  · simp [push]

theorem inv_push {q : Nat} {fresh v : V} {s s' : State V} {ins outs : List V} {bl : List V} (h : Inv q (s, ins, outs)) (hw : mustWait s = false)
    (hp : push fresh v { s with blocked := bl } = .ok s') : Inv q (s', ins ++ [v], outs) ∧ s'.allocated = [v] ∧ s'.waiting = s.waiting ++ [0] := by
  obtain ⟨h1, h2, h3, h4, h5, h6, -⟩ := h
  simp only at h1 h2 h3 h4 h5 h6
  have hlt : s.waiting.length < q := by
    simp only [mustWait, h1, beq_eq_false_iff_ne] at hw
    omega
  rw [push_eq fresh v { s with blocked := bl } h2 (by simp only; omega) (by rcases h5 with ⟨a, _⟩ | ⟨w, a, _⟩; exact .inl a; exact .inr ⟨w, a⟩)] at hp
  cases hp
  refine ⟨⟨h1, h2, ?_, ?_, .inr ⟨v, rfl, by simp⟩, ?_, fun _ _ => by simp⟩, rfl, rfl⟩
  · intro i hi
    rcases List.mem_append.1 hi with hi | hi
    · exact h3 i hi
    · simpa using hi
  · simp; omega
  · simp only [List.length_append, List.length_cons, List.length_nil]; omega

theorem inv_step {q : Nat} {fresh : V} {c d : State V × List V × List V} (h : Inv q c) (hs : Step fresh c d) : Inv q d := by
  cases hs with
  | write hw hp => exact (inv_push h hw hp).1
  | block hw =>
    refine ⟨h.size, h.next, h.zeros, h.room, h.content, h.count, fun hq _ he => ?_⟩
    have h6 := h.count
    simp only [mustWait, beq_iff_eq] at hw
    rw [hw, h.size] at h6
    rcases h.content with ⟨_, b⟩ | ⟨w, a, _⟩
    · rw [b] at h6; simp only [List.length_nil] at h6; omega
    · rw [show _ = [] from he] at a; cases a
  | wake _ _ hw hp => exact (inv_push h hw hp).1
  | @pop s ins outs i rest v hw hv =>
    obtain ⟨h1, h2, h3, h4, h5, h6, h7⟩ := h
    simp only [hw] at h1 h2 h3 h4 h5 h6
    refine ⟨h1, h2, fun j hj => h3 j (List.mem_cons_of_mem _ hj), ?_, h5, ?_, h7⟩
    · simp only [List.length_cons] at h4 ⊢; omega
    · simp only [List.length_cons, List.length_append, List.length_nil] at h6 ⊢; omega

theorem inv_reached {q : Nat} {fresh : V} {c : State V × List V × List V} (h : Reached fresh q c) : Inv q c := by
  induction h with
  | refl => exact ⟨rfl, rfl, by simp [init], by simp [init], .inl ⟨rfl, rfl⟩, rfl, by simp [init]⟩
  | tail _ hs ih => exact inv_step ih hs

/-- C41 for queues of size one, for every interleaving: the volumes popped are the volumes pushed, in order and unmodified; what was pushed and not yet popped is at most one volume,
which is still in the queue unmodified. What is missing: larger queues, where it is false (`C41_fails_for_larger_queues`). -/
theorem C41_queue_of_one_partial (fresh : V) (s : State V) (ins outs : List V) (h : Reached fresh 1 (s, ins, outs)) :
    (s.waiting = [] ∧ ins = outs) ∨ ∃ i v, s.waiting = [i] ∧ s.allocated[i]? = some v ∧ ins = outs ++ [v] := by
  have key : ∀ c, Reached fresh 1 c → (c.1.waiting = [] ∧ c.2.1 = c.2.2) ∨ ∃ v, c.1.waiting = [0] ∧ c.1.allocated = [v] ∧ c.2.1 = c.2.2 ++ [v] := by
    intro c hc
    induction hc with
    | refl => exact .inl ⟨rfl, rfl⟩
    | @tail c d hc hs ih =>
      have inv := inv_reached hc
      have empty : ∀ s : State V, s.queueSize = 1 → mustWait s = false → s.waiting ≠ [0] := by
        intro s hq hw he
        simp [mustWait, hq, he] at hw
      cases hs with
      | write hw hp =>
        obtain ⟨_, e1, e2⟩ := inv_push (bl := _) inv hw hp
        rcases ih with ⟨a, b⟩ | ⟨v, a, _⟩
        · simp only at a b
          exact .inr ⟨_, by simp only [e2, a]; rfl, e1, by simp only [b]⟩
        · exact absurd a (empty _ inv.size hw)
      | block _ => exact ih
      | wake _ _ hw hp =>
        obtain ⟨_, e1, e2⟩ := inv_push inv hw hp
        rcases ih with ⟨a, b⟩ | ⟨v, a, _⟩
        · simp only at a b
          exact .inr ⟨_, by simp only [e2, a]; rfl, e1, by simp only [b]⟩
        · exact absurd a (empty _ inv.size hw)
      | @pop s ins outs i rest v hw hv =>
        rcases ih with ⟨a, b⟩ | ⟨w, a, b, e⟩
        · simp only at a
          rw [hw] at a
          cases a
        · simp only at a b e
          rw [hw] at a
          cases a
          rw [b] at hv
          simp only [List.getElem?_cons_zero, Option.some.injEq] at hv
          subst hv
          exact .inl ⟨rfl, e⟩
  rcases key _ h with h | ⟨v, a, b, e⟩
  · exact .inl h
  · exact .inr ⟨0, v, a, by simp only at b; rw [b]; rfl, e⟩

/-- C41, number of volumes, for every queue size and interleaving: the number of volumes pushed is the number popped plus the number waiting, and at most `q` wait. -/
theorem C41_count (fresh : V) (q : Nat) (s : State V) (ins outs : List V) (h : Reached fresh q (s, ins, outs)) :
    ins.length = outs.length + s.waiting.length ∧ s.waiting.length ≤ q := ⟨(inv_reached h).count, (inv_reached h).room⟩

/-- C41, no deadlock and no undefined behaviour, for every size of at least one: a call of `write` that finds room succeeds; when calls of `write` wait, either a volume can be popped or any of
the waiting calls can go on. -/
theorem C41_progress (fresh : V) (q : Nat) (hq : 0 < q) (s : State V) (ins outs : List V) (h : Reached fresh q (s, ins, outs)) :
    (s.waiting.length < q → ∀ v, ∃ s', Step fresh (s, ins, outs) (s', ins ++ [v], outs)) ∧
      (s.waiting ≠ [] → ∃ s' v, Step fresh (s, ins, outs) (s', ins, outs ++ [v])) ∧
      (s.waiting = [] → ∀ v ∈ s.blocked, ∃ s', Step fresh (s, ins, outs) (s', ins ++ [v], outs)) := by
  obtain ⟨h1, h2, h3, h4, h5, h6, h7⟩ := inv_reached h
  simp only at h1 h2 h3 h4 h5 h6 h7
  have hal : s.allocated = [] ∨ ∃ w, s.allocated = [w] := by rcases h5 with ⟨a, _⟩ | ⟨w, a, _⟩; exact .inl a; exact .inr ⟨w, a⟩
  refine ⟨fun hw v => ⟨_, .write ?_ (push_eq fresh v s h2 (by omega) hal)⟩, fun hw => ?_, fun hw v hv => ?_⟩
  · simp only [mustWait, h1, beq_eq_false_iff_ne]; omega
  · obtain ⟨i, rest, hir⟩ := List.exists_cons_of_ne_nil hw
    have hi : i = 0 := h3 i (by rw [hir]; simp)
    subst hi
    rcases h5 with ⟨a, b⟩ | ⟨w, a, _⟩
    · rw [b, hir] at h6
      simp at h6
    · exact ⟨_, w, .pop hir (by rw [a]; rfl)⟩
  · obtain ⟨before, after, e⟩ := List.append_of_mem hv
    refine ⟨_, .wake e ?_ ?_ (push_eq fresh v _ h2 (by simp only; omega) hal)⟩
    · simp only [mayWake, hw, decide_eq_true_eq, List.length_nil]; exact List.length_pos_of_ne_nil (h7 hq (List.ne_nil_of_mem hv))
    · simp only [mustWait, hw, h1, beq_eq_false_iff_ne, List.length_nil]; omega

/-- What `pop` delivers for every queue size: not the volume at its turn, but the volume pushed last. -/
theorem C41_pop_gives_last_push (fresh : V) (q : Nat) (s s' : State V) (ins outs : List V) (v : V) (h : Reached fresh q (s, ins, outs)) (hs : Step fresh (s, ins, outs) (s', ins, outs ++ [v])) :
    ins.getLast? = some v := by
  obtain ⟨h1, h2, h3, h4, h5, h6, h7⟩ := inv_reached h
  simp only at h1 h2 h3 h4 h5 h6
  generalize hc : (s', ins, outs ++ [v]) = c at hs
  cases hs with
  | write _ _ => simp at hc
  | block _ => simp at hc
  | wake _ _ _ _ => simp at hc
  | @pop _ _ _ i rest w hw hv =>
    simp only [Prod.mk.injEq, List.append_cancel_left_eq, List.cons.injEq, and_true, true_and] at hc
    obtain ⟨_, rfl⟩ := hc
    have hi : i = 0 := h3 i (by rw [hw]; simp)
    subst hi
    rcases h5 with ⟨a, b⟩ | ⟨w', a, b⟩
    · rw [a] at hv; cases hv
    · rw [a] at hv
      simp only [List.getElem?_cons_zero, Option.some.injEq] at hv
      rw [b, hv]

/-- C41 is false for every queue size of at least two and any two different volumes: both are pushed, then the second one is popped twice and the first one is lost, because
`nextIndex` never changes and both entries of the queue point to the same volume. -/
theorem C41_fails_for_larger_queues (fresh a b : V) (q : Nat) (hq : 2 ≤ q) : ∃ s, Reached fresh q (s, [a, b], [b, b]) := by
  have r0 : Reached fresh q (init q, [], []) := .refl
  have p1 := push_eq fresh a (init q) rfl (by simp only [init]; omega) (.inl rfl)
  have s1 : Step fresh (init q, [], []) (_, [] ++ [a], []) := .write (by simp only [mustWait, init, List.length_nil, beq_eq_false_iff_ne]; omega) p1
  have p2 := push_eq fresh b ⟨q, 0, [a], [0], []⟩ rfl (by simp only; omega) (.inr ⟨a, rfl⟩)
  have s2 : Step fresh (⟨q, 0, [a], [0], []⟩, [a], []) (⟨q, 0, [b], [0, 0], []⟩, [a] ++ [b], []) :=
    .write (by simp only [mustWait, List.length_cons, List.length_nil, beq_eq_false_iff_ne]; omega) p2
  have s3 : Step fresh (⟨q, 0, [b], [0, 0], []⟩, [a, b], []) (⟨q, 0, [b], [0], []⟩, [a, b], [] ++ [b]) := .pop rfl rfl
  have s4 : Step fresh (⟨q, 0, [b], [0], []⟩, [a, b], [b]) (⟨q, 0, [b], [], []⟩, [a, b], [b] ++ [b]) := .pop rfl rfl
  exact ⟨_, (((r0.tail s1).tail s2).tail s3).tail s4⟩

/-- With queue size zero nothing is ever pushed: every call of `write` waits forever. -/
theorem C41_size_zero_never_writes (fresh : V) (s : State V) (ins outs : List V) (h : Reached fresh 0 (s, ins, outs)) : ins = [] ∧ outs = [] := by
  have key : ∀ c, Reached fresh 0 c → c.2.1 = [] := by
    intro c hc
    induction hc with
    | refl => rfl
    | @tail c d hc hs ih =>
      have inv := inv_reached hc
      have full : ∀ s : State V, s.queueSize = 0 → s.waiting.length ≤ 0 → mustWait s = false → False := by
        intro s hq hl hw
        simp [mustWait, hq] at hw
        simp [hw] at hl
      cases hs with
      | write hw _ => exact (full _ inv.size inv.room hw).elim
      | block _ => exact ih
      | wake _ _ hw _ => exact (full _ inv.size inv.room hw).elim
      | pop _ _ => exact ih
  have h1 := key _ h
  simp only at h1
  have h2 := (inv_reached h).count
  simp only [h1, List.length_nil] at h2
  exact ⟨h1, List.length_eq_zero_iff.1 (by omega)⟩

/-- A run of a queue of size one: push 5, try to push 7 (waits), pop 5, then 7 is pushed. -/
theorem exRun : ∃ s, Reached (0 : Nat) 1 (s, [5, 7], [5]) ∧ s.waiting = [0] := by
  have s1 : Step 0 (init 1, [], []) (⟨1, 0, [5], [0], []⟩, [] ++ [5], []) := .write rfl rfl
  have s2 : Step 0 (⟨1, 0, [5], [0], []⟩, [5], []) (⟨1, 0, [5], [0], [7]⟩, [5], []) := .block rfl
  have s3 : Step 0 (⟨1, 0, [5], [0], [7]⟩, [5], []) (⟨1, 0, [5], [], [7]⟩, [5], [] ++ [5]) := .pop rfl rfl
  have s4 : Step 0 (⟨1, 0, [5], [], [7]⟩, [5], [5]) (⟨1, 0, [7], [0], []⟩, [5] ++ [7], [5]) := .wake (before := []) (after := []) rfl rfl rfl rfl
  exact ⟨_, ((((Relation.ReflTransGen.refl).tail s1).tail s2).tail s3).tail s4, rfl⟩

example : ∃ s : State Nat, ∃ i v, s.waiting = [i] ∧ s.allocated[i]? = some v ∧ [5, 7] = [5] ++ [v] := by
  obtain ⟨s, h, hw⟩ := exRun
  rcases C41_queue_of_one_partial 0 s _ _ h with ⟨a, _⟩ | e
  · rw [hw] at a; cases a
  · exact ⟨s, e⟩
example : ∃ s : State Nat, [5, 7].length = [5].length + s.waiting.length ∧ s.waiting.length ≤ 1 := by
  obtain ⟨s, h, _⟩ := exRun
  exact ⟨s, C41_count 0 1 s _ _ h⟩
/-- From the state of the run the second volume can be popped, and `pop` gives the last one pushed. -/
example : ∃ s s' v, Reached (0 : Nat) 1 (s, [5, 7], [5]) ∧ Step 0 (s, [5, 7], [5]) (s', [5, 7], [5] ++ [v]) ∧ [5, 7].getLast? = some v := by
  obtain ⟨s, h, hw⟩ := exRun
  obtain ⟨s', v, hs⟩ := (C41_progress 0 1 (by decide) s _ _ h).2.1 (by rw [hw]; simp)
  exact ⟨s, s', v, h, hs, C41_pop_gives_last_push 0 1 s s' _ _ v h hs⟩
example : ∃ s, Reached "" 4 (s, ["first", "second"], ["second", "second"]) := C41_fails_for_larger_queues "" "first" "second" 4 (by decide)
/-- A call of `write` waiting at a queue of size zero. -/
example : ∃ s, Reached (0 : Nat) 0 (s, [], []) ∧ s.blocked = [5] :=
  ⟨⟨0, 0, [], [], [5]⟩, .tail .refl (.block rfl), rfl⟩

end Verif.Props.Queue
