import Verif.IntegratedStatisticsLemmas
import Verif.Props.Stats

/-!
C92: statistics of functionals integrated over a window of time.
-/

namespace Verif.Props.IntegratedStatistics
open Verif Verif.Stats Verif.Functionals Verif.Iterate

/-- C92, what is computed: the average over all samples of all ranks of the weighted sums. -/
theorem C92_riemann_sums {S : Type} (p : Integrated) (In : Vol → Prop) (k : Nat) (φ : Vol → Nat → I3 → ℝ) (hlen : ∀ u, In u → u.areas.length = k)
    (hf : Accumulates p.f p.size 0 k In φ) (calls : S → List (ℝ × Vol)) (ranks : List (List S)) (hne : ranks ≠ []) (hr : ∀ r ∈ ranks, r ≠ []) (hc : ∀ r ∈ ranks, ∀ s ∈ r, Calls In (calls s)) :
    ∃ states result others, ranks.mapM (p.runRank calls) = .ok states ∧ combine ranks.flatten.length (states.map Prod.snd) = .ok (result :: others) ∧
      result.map Prod.fst = [toLex (p.time, "mean_" ++ p.name)] ∧ ∃ v, find (toLex (p.time, "mean_" ++ p.name)) result = some v ∧
      ∀ var c, var < k → InBlock p.size c →
        v.at var c = some ((ranks.flatten.map fun s => weighted p.time p.radius (fun u => φ u var c) (calls s)).sum / ranks.flatten.length) := by
  obtain ⟨first, rest, rfl⟩ := List.exists_cons_of_ne_nil hne
  have hkeys : ∀ last (l : List (ℝ × Vol)), ∀ k ∈ (ops p φ last l).map Op.key, k = p.key := by
    intro last l k hk
    obtain ⟨o, ho, rfl⟩ := List.mem_map.1 hk
    obtain ⟨l', e, -, rfl⟩ := ops_mem ho
    rfl
  have hmem : ∀ r ∈ first :: rest, ∀ k, k ∈ (ops p φ 0 (r.flatMap calls)).map Op.key ↔ k = p.key := by
    intro r hr' k
    refine ⟨hkeys _ _ k, ?_⟩
    rintro rfl
    obtain ⟨s, r', rfl⟩ := List.exists_cons_of_ne_nil (hr r hr')
    obtain ⟨⟨u, h1⟩, -, -⟩ := hc _ hr' s (by simp)
    cases hl : calls s with
    | nil => rw [hl] at h1; cases h1
    | cons a l => simp [hl, ops, op]
  have hall : ∀ r ∈ first :: rest, ∀ var c, (((ops p φ 0 (r.flatMap calls)).filter fun o => o.key = p.key).map fun o => o.δ var c).sum =
      (r.map fun s => weighted p.time p.radius (fun u => φ u var c) (calls s)).sum := by
    intro r hr' var c
    rw [List.filter_eq_self.2, integrated_rank_sum var c le_rfl (hc r hr')]
    intro o ho
    exact decide_eq_true (hkeys _ _ _ (List.mem_map.2 ⟨o, ho, rfl⟩))
  have key : ∀ r : List S, ∃ x : ℝ × Snaps, r ∈ first :: rest → p.runRank calls r = .ok x ∧ Holds (fun _ => ⟨p.size, 0, k⟩) ((ops p φ 0 (r.flatMap calls)).map Op.key)
      (fun k var c => (((ops p φ 0 (r.flatMap calls)).filter fun o => o.key = k).map fun o => o.δ var c).sum) x.2 := by
    intro r
    by_cases hr' : r ∈ first :: rest
    · obtain ⟨x, h1, h2⟩ := runOps_holds (fun _ => ⟨p.size, 0, k⟩) (ops p φ 0 (r.flatMap calls)) (by
        intro o ho
        obtain ⟨l', e, he, rfl⟩ := ops_mem ho
        obtain ⟨s, hs, he⟩ := List.mem_flatMap.1 he
        exact op_adds hf hlen _ _ ((hc r hr' s hs).inside e he)) [] (fun _ _ _ => 0) [] (holds_nil _) (fun _ _ _ _ => rfl)
      refine ⟨(lastOf 0 (r.flatMap calls), x), fun _ => ⟨?_, by simpa using h2⟩⟩
      have := fold_ops p φ (r.flatMap calls) 0 [] x h1
      rw [foldlM_flatMap'] at this
      exact this
    · exact ⟨(0, []), fun h => absurd h hr'⟩
  choose g hg using key
  obtain ⟨total, e, hh⟩ := reduce_holds (fun _ => ⟨p.size, 0, k⟩) rest (fun r => (g r).2) ((ops p φ 0 (first.flatMap calls)).map Op.key) (fun r => (ops p φ 0 (r.flatMap calls)).map Op.key)
    (fun r k var c => (((ops p φ 0 (r.flatMap calls)).filter fun o => o.key = k).map fun o => o.δ var c).sum)
    (fun r hr' k => (hmem first (by simp) k).trans (hmem r (by simp [hr']) k).symm) (fun r hr' => (hg r (by simp [hr'])).2) _ (g first).2 (hg first (by simp)).2
  have hd := divide_holds _ (first :: rest).flatten.length _ _ _ hh
  have hk : p.key ∈ (ops p φ 0 (first.flatMap calls)).map Op.key := (hmem first (by simp) _).2 rfl
  refine ⟨(first :: rest).map g, divideAll (first :: rest).flatten.length total, (rest.map fun r => (g r).2).map (divideAll (first :: rest).flatten.length), mapM_ok _ g _ fun r hr' => (hg r hr').1, ?_, ?_, ?_⟩
  · rw [List.map_map, List.map_cons, combine]
    change ((rest.map fun r => (g r).2).foldlM reduceTwo (g first).2 >>= _) = _
    rw [e]
    rfl
  · have hs : Sorted [(p.key, (⟨0, 0, []⟩ : Vol))] := List.pairwise_singleton _ _
    refine sorted_eq hd.1 hs fun k => ?_
    rw [hd.2.1, hmem first (by simp)]
    simp
  · obtain ⟨v, e1, e2, e3⟩ := hd.2.2 _ hk
    refine ⟨v, e1, fun var c hv hb => ?_⟩
    rw [e3 var c ⟨hv, Functionals.inSize_of_block (by rw [show p.size + 0 + 0 = p.size from by ext <;> simp]; exact hb)⟩]
    congr 1
    show (_ + _) / ((first :: rest).flatten.length : ℝ) = _
    congr 1
    rw [hall first (by simp)]
    have : (rest.map fun r => (((ops p φ 0 (r.flatMap calls)).filter fun o => o.key = p.key).map fun o => o.δ var c).sum) =
        rest.map fun r => (r.map fun s => weighted p.time p.radius (fun u => φ u var c) (calls s)).sum := List.map_congr_left fun r hr' => hall r (by simp [hr']) var c
    rw [this, List.flatten_cons, List.map_append, List.sum_append, List.map_flatten, List.sum_flatten, List.map_map]
    rfl

/-- C92: the average over all samples of all ranks of the integrals over the window. Missing: a window that starts later than at time 0 (`C92_fails`), or ends between two steps. -/
theorem C92_integrals_partial {S : Type} (p : Integrated) (In : Vol → Prop) (k : Nat) (φ : Vol → Nat → I3 → ℝ) (hlen : ∀ u, In u → u.areas.length = k)
    (hf : Accumulates p.f p.size 0 k In φ) (calls : S → List (ℝ × Vol)) (ranks : List (List S)) (hne : ranks ≠ []) (hr : ∀ r ∈ ranks, r ≠ []) (hc : ∀ r ∈ ranks, ∀ s ∈ r, Calls In (calls s))
    (hstart : p.time ≤ p.radius) (hend : ∀ r ∈ ranks, ∀ s ∈ r, (∀ e ∈ calls s, e.1 ≤ p.time + p.radius) ∨ ∃ e ∈ calls s, e.1 = p.time + p.radius) :
    ∃ states result others, ranks.mapM (p.runRank calls) = .ok states ∧ combine ranks.flatten.length (states.map Prod.snd) = .ok (result :: others) ∧
      ∃ v, find (toLex (p.time, "mean_" ++ p.name)) result = some v ∧ ∀ var c, var < k → InBlock p.size c →
        v.at var c = some ((ranks.flatten.map fun s => integral p.time p.radius (fun u => φ u var c) (calls s)).sum / ranks.flatten.length) := by
  obtain ⟨states, result, others, h1, h2, -, v, h3, h4⟩ := C92_riemann_sums p In k φ hlen hf calls ranks hne hr hc
  refine ⟨states, result, others, h1, h2, v, h3, fun var c hv hb => ?_⟩
  rw [h4 var c hv hb]
  congr 3
  refine List.map_congr_left fun s hs => ?_
  obtain ⟨r, hr', hs⟩ := List.mem_flatten.1 hs
  have := hc r hr' s hs
  exact weighted_integral _ hstart (calls_nonneg this) this.increasing ((hend r hr' s hs).imp id .inl)

/-- A volume with one cell. -/
def one (x : ℝ) : Vol := ⟨⟨1, 1, 1⟩, 0, [fun _ => x]⟩

/-- The average of the state, integrated over the window from `time - radius` to `time + radius`. -/
noncomputable def identityIn (time radius : ℝ) : Integrated := ⟨"identity", identity, ⟨1, 1, 1⟩, time, radius⟩

/-- Sample `s` has the constant solution `s`; the calls are at the times 0, 1 and 2. -/
noncomputable def constantCalls (s : Nat) : List (ℝ × Vol) := [(0, one s), (1, one s), (2, one s)]

theorem constant_calls (s : Nat) : Calls (Vol.Shape ⟨1, 1, 1⟩ 0 1) (constantCalls s) := by
  refine ⟨⟨_, rfl⟩, by simp [constantCalls], fun e he => ?_⟩
  simp only [constantCalls, List.mem_cons, List.not_mem_nil, or_false] at he
  rcases he with rfl | rfl | rfl <;> exact ⟨rfl, rfl, rfl⟩

/-- Two ranks, three samples, the window from 0 to 2: the integrals of the samples are 2 s, the average is 4. -/
example : ∃ states result others v, [[1, 2], [3]].mapM ((identityIn 1 1).runRank constantCalls) = .ok states ∧ combine 3 (states.map Prod.snd) = .ok (result :: others) ∧
    find (toLex (1, "mean_identity")) result = some v ∧ v.at 0 0 = some 4 := by
  obtain ⟨states, result, others, h1, h2, v, h3, h4⟩ := C92_integrals_partial (identityIn 1 1) (Vol.Shape ⟨1, 1, 1⟩ 0 1) 1 _ (fun u hu => hu.2.2) (identity_accumulates ⟨1, 1, 1⟩ 0 (by simp) 1)
    constantCalls [[1, 2], [3]] (by simp) (by simp) (fun _ _ _ _ => constant_calls _) (by simp [identityIn]) (fun _ _ _ _ => .inl (by
      intro e he
      simp only [constantCalls, List.mem_cons, List.not_mem_nil, or_false] at he
      rcases he with rfl | rfl | rfl <;> norm_num [identityIn]))
  refine ⟨states, result, others, v, h1, h2, h3, (h4 0 0 (by norm_num) (by simp [InBlock, identityIn])).trans ?_⟩
  simp [identityIn, constantCalls, integral, overlap, one, Vol.inner]
  norm_num

/-- C92 fails for a window that starts at a later time, even if there is a call at the start and at the end: the window goes from 1 to 2, the solution is 1, the integral is 1; the
statistic is 2. -/
theorem C92_fails : (∃ states result others v, [[1]].mapM ((identityIn (3 / 2) (1 / 2)).runRank constantCalls) = .ok states ∧ combine 1 (states.map Prod.snd) = .ok (result :: others) ∧
    find (toLex (3 / 2, "mean_identity")) result = some v ∧ v.at 0 0 = some 2) ∧ integral (3 / 2) (1 / 2) (fun u => u.inner 0 0) (constantCalls 1) = 1 := by
  constructor
  · obtain ⟨states, result, others, h1, h2, -, v, h3, h4⟩ := C92_riemann_sums (identityIn (3 / 2) (1 / 2)) (Vol.Shape ⟨1, 1, 1⟩ 0 1) 1 _ (fun u hu => hu.2.2)
      (identity_accumulates ⟨1, 1, 1⟩ 0 (by simp) 1) constantCalls [[1]] (by simp) (by simp) (fun _ _ _ _ => constant_calls _)
    refine ⟨states, result, others, v, h1, h2, h3, (h4 0 0 (by norm_num) (by simp [InBlock, identityIn])).trans ?_⟩
    simp [identityIn, constantCalls, weighted, one, Vol.inner]
    norm_num
  · simp [constantCalls, integral, overlap, one, Vol.inner]
    norm_num

end Verif.Props.IntegratedStatistics
