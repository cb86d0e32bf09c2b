import Verif.Simulator
import Mathlib.Algebra.BigOperators.Group.Finset.Basic
import Mathlib.Algebra.BigOperators.Intervals

/-! Helper lemmas for the simulator loop. -/

namespace Verif
namespace Simulator
open Integrator
variable {K V σ : Type} [Field K] [LinearOrder K] [AddCommGroup V] [Module K V]

/-- Inversion of a bind. -/
theorem bind_ok {α β : Type} {x : Res α} {f : α → Res β} {b : β} (h : (x >>= f) = .ok b) : ∃ a, x = .ok a ∧ f a = .ok b := by
  cases x with
  | error e => simp at h
  | ok a => exact ⟨a, rfl, by simpa using h⟩

theorem at'_ok {vols : List V} {i : Nat} {v : V} (h : at' vols i = .ok v) : vols[i]? = some v := by
  unfold at' at h
  split at h <;> simp_all

theorem at'_some {vols : List V} {i : Nat} {v : V} (h : vols[i]? = some v) : at' vols i = .ok v := by simp [at', h]

/-- The loop over the substeps (alsfvm/src/simulator/Simulator.cpp:194-209): the volumes and the time step. -/
def substepLoop (c : Config V K σ) (s : Sim V K σ) : Res (List V × K) :=
  (List.range c.kind.substeps).foldlM (substepAndBoundary c (c.adjusters s.ws) s.info) (s.vols, 0)

theorem swapEnds_ok {vols vols' : List V} (h : swapEnds vols = .ok vols') :
    ∃ u, vols.getLast? = some u ∧ vols'[0]? = some u ∧ vols'.length = vols.length := by
  unfold swapEnds at h
  obtain ⟨a, ha, h⟩ := bind_ok h
  obtain ⟨b, hb, h⟩ := bind_ok h
  have ha := at'_ok ha
  have hb := at'_ok hb
  obtain rfl : (vols.set 0 b).set (vols.length - 1) a = vols' := by simpa using h
  refine ⟨b, by rw [List.getLast?_eq_getElem?, hb], ?_, by simp⟩
  rw [List.getElem?_set]
  have : 0 < vols.length := by by_contra h0; simp [List.length_eq_zero_iff.1 (by omega : vols.length = 0)] at ha
  by_cases h1 : vols.length - 1 = 0
  · rw [if_pos h1]
    simp [h1, this]
    have := hb.symm.trans (h1 ▸ ha)
    simpa using this.symm
  · rw [if_neg h1]
    simp [this]

theorem incrementSolution_inv {c : Config V K σ} {s s' : Sim V K σ} (h : incrementSolution c s = .ok s') :
    ∃ vols dt u, substepLoop c s = .ok (vols, dt) ∧ vols.getLast? = some u ∧ s'.vols[0]? = some u ∧ s'.vols.length = vols.length ∧
      s'.info = ⟨s.info.time + dt, s.info.steps + 1⟩ ∧ s'.ws = s.ws ∧ s'.log = s.log := by
  unfold incrementSolution at h
  obtain ⟨⟨vols, dt⟩, h1, h⟩ := bind_ok h
  obtain ⟨vols', h2, h⟩ := bind_ok h
  obtain ⟨u, h3, h4, h5⟩ := swapEnds_ok h2
  cases h
  exact ⟨vols, dt, u, h1, h3, h4, h5, rfl, rfl, rfl⟩

theorem writers_inv {u : V} {info : TimeInfo K} (l : List (V → TimeInfo K → σ → Res σ)) (i : Nat) (r r' : σ × List (Call V K))
    (h : (l.zipIdx i).foldlM (fun (r : σ × List (Call V K)) w => do
      let ws ← w.1 u info r.1
      pure (ws, r.2 ++ [(⟨w.2, u, info⟩ : Call V K)])) r = .ok r') :
    l.foldlM (fun ws w => w u info ws) r.1 = .ok r'.1 ∧ r'.2 = r.2 ++ (List.range' i l.length).map fun w => ⟨w, u, info⟩ := by
  induction l generalizing i r with
  | nil =>
    obtain rfl : r = r' := by simpa using h
    simp
  | cons w l ih =>
    rw [List.zipIdx_cons, List.foldlM_cons] at h
    obtain ⟨r1, h1, h2⟩ := bind_ok h
    obtain ⟨ws, h3, h4⟩ := bind_ok h1
    cases h4
    change w u info r.1 = .ok ws at h3
    obtain ⟨h5, h6⟩ := ih _ _ h2
    refine ⟨by rw [List.foldlM_cons, h3]; exact h5, ?_⟩
    rw [h6, List.length_cons, List.range'_succ]
    simp

theorem callWriters_inv {c : Config V K σ} {s s' : Sim V K σ} (h : callWriters c s = .ok s') :
    ∃ u, s.vols[0]? = some u ∧ s'.vols = s.vols ∧ s'.info = s.info ∧ c.writers.foldlM (fun ws w => w u s.info ws) s.ws = .ok s'.ws ∧
      s'.log = s.log ++ (List.range c.writers.length).map fun w => ⟨w, u, s.info⟩ := by
  unfold callWriters at h
  obtain ⟨u, h1, h⟩ := bind_ok h
  obtain ⟨r, h2, h⟩ := bind_ok h
  cases h
  obtain ⟨h3, h4⟩ := writers_inv _ _ _ _ h2
  exact ⟨u, at'_ok h1, rfl, rfl, h3, by rw [h4, List.range_eq_range']⟩

theorem writers_fwd {u : V} {info : TimeInfo K} (l : List (V → TimeInfo K → σ → Res σ)) (i : Nat) (r : σ × List (Call V K)) (ws' : σ)
    (h : l.foldlM (fun ws w => w u info ws) r.1 = .ok ws') :
    (l.zipIdx i).foldlM (fun (r : σ × List (Call V K)) w => do
      let ws ← w.1 u info r.1
      pure (ws, r.2 ++ [(⟨w.2, u, info⟩ : Call V K)])) r = .ok (ws', r.2 ++ (List.range' i l.length).map fun w => ⟨w, u, info⟩) := by
  induction l generalizing i r with
  | nil =>
    obtain rfl : r.1 = ws' := by simpa using h
    simp
  | cons w l ih =>
    rw [List.foldlM_cons] at h
    obtain ⟨ws, h1, h2⟩ := bind_ok h
    rw [List.zipIdx_cons, List.foldlM_cons]
    have e := ih (i + 1) (ws, r.2 ++ [⟨i, u, info⟩]) h2
    simp only [h1, Res.ok_bind, Res.pure_eq] at e ⊢
    rw [e]
    simp [List.range'_succ]

theorem callWriters_ok {c : Config V K σ} {s : Sim V K σ} {u : V} (hu : s.vols[0]? = some u) {ws' : σ}
    (h : c.writers.foldlM (fun ws w => w u s.info ws) s.ws = .ok ws') : ∃ log', callWriters c s = .ok { s with ws := ws', log := log' } := by
  refine ⟨s.log ++ (List.range' 0 c.writers.length).map fun w => ⟨w, u, s.info⟩, ?_⟩
  unfold callWriters
  rw [at'_some hu]
  simp only [Res.ok_bind]
  rw [writers_fwd _ _ (s.ws, s.log) _ h]
  rfl

theorem performStep_inv {c : Config V K σ} {s s' : Sim V K σ} (h : performStep c s = .ok s') :
    ∃ vols dt u, substepLoop c s = .ok (vols, dt) ∧ vols.getLast? = some u ∧ s'.vols[0]? = some u ∧ s'.vols.length = vols.length ∧
      s'.info = ⟨s.info.time + dt, s.info.steps + 1⟩ ∧ c.obeys u = true ∧ c.writers.foldlM (fun ws w => w u s'.info ws) s.ws = .ok s'.ws ∧
      s'.log = s.log ++ (List.range c.writers.length).map fun w => ⟨w, u, s'.info⟩ := by
  unfold performStep at h
  obtain ⟨s1, h1, h⟩ := bind_ok h
  obtain ⟨x, h2, h⟩ := bind_ok h
  obtain ⟨vols, dt, u, a1, a2, a3, a4, a5, a6, a7⟩ := incrementSolution_inv h1
  obtain ⟨u', b1, b2, b3, b4, b5⟩ := callWriters_inv h
  obtain rfl : u = u' := by simpa [a3] using b1
  unfold checkConstraints at h2
  rw [at'_some a3] at h2
  refine ⟨vols, dt, u, a1, a2, by rw [b2, a3], by rw [b2, a4], by rw [b3, a5], ?_, by rw [b3, ← a6]; exact b4, by rw [b5, a7, b3]⟩
  by_contra hn
  simp [hn] at h2

/-- Two loops with equal bodies along the states reached. -/
theorem foldlM_range_congr {S : Type} (f f' : S → Nat → Res S) (P : Nat → S → Prop) (N : Nat)
    (hstep : ∀ j < N, ∀ s, P j s → f s j = f' s j ∧ ∀ s', f s j = .ok s' → P (j + 1) s') (s : S) (h0 : P 0 s) :
    (List.range N).foldlM f s = (List.range N).foldlM f' s ∧ ∀ s', (List.range N).foldlM f s = .ok s' → P N s' := by
  have key : ∀ k m s, m + k = N → P m s → (List.range' m k).foldlM f s = (List.range' m k).foldlM f' s ∧
      ∀ s', (List.range' m k).foldlM f s = .ok s' → P N s' := by
    intro k
    induction k with
    | zero =>
      rintro m s rfl h
      refine ⟨rfl, fun s' hs => ?_⟩
      obtain rfl : s = s' := by simpa using hs
      simpa using h
    | succ k ih =>
      intro m s hm h
      rw [List.range'_succ, List.foldlM_cons, List.foldlM_cons]
      obtain ⟨h1, h2⟩ := hstep m (by omega) s h
      rw [← h1]
      cases hf : f s m with
      | error e => simp
      | ok s1 =>
        simp only [Res.ok_bind]
        exact ih (m + 1) s1 (by omega) (h2 s1 hf)
  rw [List.range_eq_range']
  exact key N 0 s (by omega) h0

theorem performSubstep_congr (k : Kind) (e : Env V K) (sys' : System V K) (adj : List (Adjuster K)) (info : TimeInfo K) (vols : List V) (dt : K) {j : Nat}
    (hj : j < k.substeps) (h : ∀ u, vols[j]? = some u → ∀ out, e.sys u out = sys' u out) :
    performSubstep k e adj info vols dt j = performSubstep k { e with sys := sys' } adj info vols dt j := by
  have key : ∀ {β : Type} (f f' : V → V → Res β), (∀ u out, vols[j]? = some u → f u out = f' u out) →
      (at' vols j >>= fun u => at' vols (j + 1) >>= fun out => f u out) = (at' vols j >>= fun u => at' vols (j + 1) >>= fun out => f' u out) := by
    intro β f f' hf
    cases hu : at' vols j with
    | error e => rfl
    | ok u =>
      cases ho : at' vols (j + 1) with
      | error e => rfl
      | ok out => exact hf u out (at'_ok hu)
  cases k with
  | forwardEuler =>
    obtain rfl : j = 0 := by simpa [Kind.substeps] using hj
    exact key _ _ fun u out hu => by rw [h u hu out]
  | _ => exact key _ _ fun u out hu => by rw [h u hu out]

theorem performSubstep_length {k : Kind} {e : Env V K} {adj : List (Adjuster K)} {info : TimeInfo K} {vols : List V} {dt : K} {j : Nat} {r : List V × K}
    (h : performSubstep k e adj info vols dt j = .ok r) : r.1.length = vols.length := by
  unfold performSubstep at h
  obtain ⟨_, -, h⟩ := bind_ok h
  obtain ⟨_, -, h⟩ := bind_ok h
  obtain ⟨_, -, h⟩ := bind_ok h
  obtain ⟨_, -, h⟩ := bind_ok h
  obtain ⟨_, -, h⟩ := bind_ok h
  cases h
  simp

end Simulator
end Verif
