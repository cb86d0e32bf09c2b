import Verif.IntegratedStatistics
import Verif.StatsLemmas

/-!
Specification of C92 (the first four definitions) and lemmas about statistics of functionals integrated over a window of time.
-/

namespace Verif.Stats
open Verif.Functionals

/-- What a functional with values `φ` contributes along `calls`: for every two successive calls in the window of time the time between them times the value at the second. -/
noncomputable def weighted (time radius : ℝ) (φ : Vol → ℝ) : List (ℝ × Vol) → ℝ
  | a :: b :: rest => (if |b.1 - time| ≤ radius then (b.1 - a.1) * φ b.2 else 0) + weighted time radius φ (b :: rest)
  | _ => 0

/-- The length of the part of `[a, b]` in the window `[time - radius, time + radius]`. -/
noncomputable def overlap (time radius a b : ℝ) : ℝ := max 0 (min b (time + radius) - max a (time - radius))

/-- The integral over the window of the function of time that has the value at the second of two successive calls between them. -/
noncomputable def integral (time radius : ℝ) (φ : Vol → ℝ) : List (ℝ × Vol) → ℝ
  | a :: b :: rest => overlap time radius a.1 b.1 * φ b.2 + integral time radius φ (b :: rest)
  | _ => 0

/-- The calls of one sample: from time 0 on, with increasing times, and states the functional can be evaluated for. -/
structure Calls (In : Vol → Prop) (calls : List (ℝ × Vol)) : Prop where
  first : ∃ u, calls.head? = some (0, u)
  increasing : calls.Pairwise fun a b => a.1 < b.1
  inside : ∀ e ∈ calls, In e.2

/-- The update of one call. -/
noncomputable def op (p : Integrated) (φ : Vol → Nat → I3 → ℝ) (last : ℝ) (e : ℝ × Vol) : Op :=
  ⟨p.key, ofSize p.size e.2, fun v => if |e.1 - p.time| ≤ p.radius then (if 0 < e.1 - last then p.f v e.2 (e.1 - last) else .ok v) else .ok v,
    fun var c => if |e.1 - p.time| ≤ p.radius ∧ 0 < e.1 - last then (e.1 - last) * φ e.2 var c else 0⟩

/-- The updates of a list of calls. -/
noncomputable def ops (p : Integrated) (φ : Vol → Nat → I3 → ℝ) : ℝ → List (ℝ × Vol) → List Op
  | _, [] => []
  | last, e :: rest => op p φ last e :: ops p φ e.1 rest

/-- The time of the last call. -/
def lastOf : ℝ → List (ℝ × Vol) → ℝ
  | last, [] => last
  | _, e :: rest => lastOf e.1 rest

theorem ops_append (p : Integrated) (φ : Vol → Nat → I3 → ℝ) (last : ℝ) (a b : List (ℝ × Vol)) : ops p φ last (a ++ b) = ops p φ last a ++ ops p φ (lastOf last a) b := by
  induction a generalizing last with
  | nil => rfl
  | cons e a ih => simp [ops, lastOf, ih]

theorem fold_ops (p : Integrated) (φ : Vol → Nat → I3 → ℝ) (calls : List (ℝ × Vol)) (last : ℝ) (s s' : Snaps) (h : runOps (ops p φ last calls) s = .ok s') :
    calls.foldlM (fun s e => p.compute e.1 e.2 s) (last, s) = .ok (lastOf last calls, s') := by
  induction calls generalizing last s with
  | nil => cases h; rfl
  | cons e rest ih =>
    unfold runOps at h
    rw [ops, List.foldlM_cons] at h
    cases ht : touch (op p φ last e).key (op p φ last e).zero (op p φ last e).f s with
    | error x => rw [ht] at h; cases h
    | ok s1 =>
      rw [ht] at h
      rw [List.foldlM_cons]
      have : p.compute e.1 e.2 (last, s) = .ok (e.1, s1) := by
        unfold Integrated.compute
        simp only
        change (touch (op p φ last e).key (op p φ last e).zero (op p φ last e).f s >>= _) = _
        rw [ht]
        rfl
      rw [this, Res.ok_bind, ih e.1 s1 h]
      rfl

theorem op_adds {p : Integrated} {φ : Vol → Nat → I3 → ℝ} {In : Vol → Prop} {k : Nat} (hf : Accumulates p.f p.size 0 k In φ) (hlen : ∀ u, In u → u.areas.length = k) (last : ℝ) (e : ℝ × Vol)
    (he : In e.2) : (op p φ last e).Adds ⟨p.size, 0, k⟩ := by
  refine ⟨by simp [op, ofSize, hlen _ he], fun v hv => ?_⟩
  unfold op
  by_cases h1 : |e.1 - p.time| ≤ p.radius
  · by_cases h2 : 0 < e.1 - last
    · simp only [h1, h2, and_self, if_true]
      exact hf v e.2 _ hv he
    · simp only [h1, h2, and_false, if_true, if_false]
      exact ⟨v, rfl, hv, fun var c => by simp⟩
  · simp only [h1, false_and, if_false]
    exact ⟨v, rfl, hv, fun var c => by simp⟩

theorem ops_mem {p : Integrated} {φ : Vol → Nat → I3 → ℝ} {calls : List (ℝ × Vol)} : ∀ {last : ℝ} {o : Op}, o ∈ ops p φ last calls → ∃ last' e, e ∈ calls ∧ o = op p φ last' e := by
  induction calls with
  | nil => intro last o h; cases h
  | cons e rest ih =>
    intro last o h
    rcases List.mem_cons.1 h with rfl | h
    · exact ⟨last, e, by simp, rfl⟩
    · obtain ⟨l, e', h1, h2⟩ := ih h
      exact ⟨l, e', by simp [h1], h2⟩

theorem ops_sum (p : Integrated) (φ : Vol → Nat → I3 → ℝ) (var : Nat) (c : I3) : ∀ (a : ℝ × Vol) (rest : List (ℝ × Vol)), (a :: rest).Pairwise (fun a b => a.1 < b.1) →
    ((ops p φ a.1 rest).map fun o => o.δ var c).sum = weighted p.time p.radius (fun u => φ u var c) (a :: rest)
  | a, [], _ => by simp [ops, weighted]
  | a, b :: rest, h => by
    obtain ⟨h1, h2⟩ := List.pairwise_cons.1 h
    rw [ops, List.map_cons, List.sum_cons, ops_sum p φ var c b rest h2, weighted]
    have : 0 < b.1 - a.1 := sub_pos.2 (h1 b (by simp))
    simp [op, this]

theorem lastOf_nonneg {calls : List (ℝ × Vol)} : ∀ {last : ℝ}, 0 ≤ last → (∀ e ∈ calls, 0 ≤ e.1) → 0 ≤ lastOf last calls := by
  induction calls with
  | nil => intro last h _; exact h
  | cons e rest ih => intro last _ h; exact ih (h e (by simp)) fun e' he => h e' (by simp [he])

theorem calls_nonneg {In : Vol → Prop} {calls : List (ℝ × Vol)} (h : Calls In calls) : ∀ e ∈ calls, 0 ≤ e.1 := by
  obtain ⟨⟨u, h1⟩, h2, -⟩ := h
  cases calls with
  | nil => cases h1
  | cons a rest =>
    cases h1
    intro e he
    rcases List.mem_cons.1 he with rfl | he
    · exact le_refl _
    · exact ((List.pairwise_cons.1 h2).1 e he).le

theorem integrated_rank_sum {p : Integrated} {φ : Vol → Nat → I3 → ℝ} {In : Vol → Prop} {S : Type} {calls : S → List (ℝ × Vol)} (var : Nat) (c : I3) : ∀ {samples : List S} {last : ℝ}, 0 ≤ last →
    (∀ s ∈ samples, Calls In (calls s)) →
    ((ops p φ last (samples.flatMap calls)).map fun o => o.δ var c).sum = (samples.map fun s => weighted p.time p.radius (fun u => φ u var c) (calls s)).sum
  | [], _, _, _ => rfl
  | s :: rest, last, h0, h => by
    rw [List.flatMap_cons, ops_append, List.map_append, List.sum_append, List.map_cons, List.sum_cons]
    have hs := h s (by simp)
    rw [integrated_rank_sum var c (lastOf_nonneg h0 (calls_nonneg hs)) fun s hs => h s (by simp [hs])]
    congr 1
    obtain ⟨⟨u, h1⟩, h2, -⟩ := hs
    cases hc : calls s with
    | nil => rw [hc] at h1; cases h1
    | cons a l =>
      rw [hc] at h1 h2
      cases h1
      rw [ops, List.map_cons, List.sum_cons, ops_sum p φ var c _ l h2]
      have : ¬ (0 : ℝ) < 0 - last := by linarith
      have h0 : (op p φ last (0, u)).δ var c = 0 := if_neg fun h => this h.2
      rw [h0, zero_add]

theorem weighted_integral {time radius : ℝ} (φ : Vol → ℝ) (h0 : time ≤ radius) : ∀ {calls : List (ℝ × Vol)}, (∀ e ∈ calls, 0 ≤ e.1) → calls.Pairwise (fun a b => a.1 < b.1) →
    ((∀ e ∈ calls, e.1 ≤ time + radius) ∨ (∃ e ∈ calls, e.1 = time + radius) ∨ ∀ e ∈ calls, time + radius ≤ e.1) → weighted time radius φ calls = integral time radius φ calls
  | [], _, _, _ => rfl
  | [a], _, _, _ => rfl
  | a :: b :: rest, hp, hs, he => by
    obtain ⟨h1, h2⟩ := List.pairwise_cons.1 hs
    have hab := h1 b (by simp)
    have ha := hp a (by simp)
    have hb := hp b (by simp)
    have hrest : (∀ e ∈ b :: rest, e.1 ≤ time + radius) ∨ (∃ e ∈ b :: rest, e.1 = time + radius) ∨ ∀ e ∈ b :: rest, time + radius ≤ e.1 := by
      rcases he with he | ⟨e, he, h⟩ | he
      · exact .inl fun e h => he e (List.mem_cons_of_mem _ h)
      · rcases List.mem_cons.1 he with rfl | he
        · exact .inr (.inr fun e' he' => h ▸ (h1 e' he').le)
        · exact .inr (.inl ⟨e, he, h⟩)
      · exact .inr (.inr fun e h => he e (List.mem_cons_of_mem _ h))
    have hcase : b.1 ≤ time + radius ∨ time + radius ≤ a.1 := by
      rcases he with he | ⟨e, he, h⟩ | he
      · exact .inl (he b (by simp))
      · rcases List.mem_cons.1 he with rfl | he
        · exact .inr h.ge
        · rcases List.mem_cons.1 he with rfl | he
          · exact .inl h.le
          · exact .inl (h ▸ ((List.pairwise_cons.1 h2).1 e he).le)
      · exact .inr (he a (by simp))
    rw [weighted, integral, weighted_integral φ h0 (fun e h => hp e (List.mem_cons_of_mem _ h)) h2 hrest]
    congr 1
    unfold overlap
    rw [max_eq_left (show time - radius ≤ a.1 by linarith)]
    rcases hcase with h | h
    · rw [if_pos (abs_le.2 ⟨by linarith, by linarith⟩), min_eq_left h, max_eq_right (by linarith)]
    · rw [if_neg (fun hh => by have := (abs_le.1 hh).2; linarith), max_eq_left, zero_mul]
      have := min_le_right b.1 (time + radius)
      linarith

end Verif.Stats
