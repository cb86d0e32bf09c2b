import Verif.SimulatorLemmas
import Verif.IntegratorLemmas
import Verif.Props.Integrator

/-! C34-C36: the simulator loop. -/

namespace Verif.Props
open Verif Integrator Simulator
variable {K V W σ : Type} [Field K] [LinearOrder K] [AddCommGroup V] [Module K V]

/-- C34, one step. A successful step advances the time by the time step the integrator returned and the step counter by one; the last volume the integrator wrote
becomes the current solution; it passed the admissibility check; then every writer was called, in order, with that solution and the new time, and no call is left out
or added. -/
theorem C34_one_step (c : Config V K σ) (s s' : Sim V K σ) (h : performStep c s = .ok s') :
    ∃ vols dt u, substepLoop c s = .ok (vols, dt) ∧ vols.getLast? = some u ∧ s'.vols[0]? = some u ∧
      s'.info.time = s.info.time + dt ∧ s'.info.steps = s.info.steps + 1 ∧ c.obeys u = true ∧
      c.writers.foldlM (fun ws write => write u s'.info ws) s.ws = .ok s'.ws ∧
      s'.log = s.log ++ (List.range c.writers.length).map fun w => ⟨w, u, s'.info⟩ := by
  obtain ⟨vols, dt, u, h1, h2, h3, h4, h5, h6, h7, h8⟩ := performStep_inv h
  exact ⟨vols, dt, u, h1, h2, h3, by rw [h5], by rw [h5], h6, h7, h8⟩

/-- C34. If `n` steps succeed there are simulator states `sim 0, …, sim n`, time steps `dt 1, …, dt n` returned by the integrator and solutions `u 1, …, u n` such that
time and step counter after `k` steps are the sum of the first `k` time steps and `k`, the solution after step `k` is `u k` and admissible, and the calls of writers
are exactly: for every step, every writer once, in order, with the solution and time of that step. -/
theorem C34_n_steps (c : Config V K σ) (n : Nat) (s s' : Sim V K σ) (h : steps c n s = .ok s') :
    ∃ (sim : Nat → Sim V K σ) (dt : Nat → K) (u : Nat → V), sim 0 = s ∧ sim n = s' ∧
      (∀ k < n, performStep c (sim k) = .ok (sim (k + 1)) ∧ (∃ vols, substepLoop c (sim k) = .ok (vols, dt (k + 1)))) ∧
      (∀ k ≤ n, (sim k).info.time = s.info.time + ∑ i ∈ Finset.range k, dt (i + 1) ∧ (sim k).info.steps = s.info.steps + k) ∧
      (∀ k < n, (sim (k + 1)).vols[0]? = some (u (k + 1)) ∧ c.obeys (u (k + 1)) = true) ∧
      s'.log = s.log ++ (List.range n).flatMap fun k => (List.range c.writers.length).map fun w => ⟨w, u (k + 1), (sim (k + 1)).info⟩ := by
  induction n generalizing s with
  | zero =>
    obtain rfl : s = s' := by simpa [steps] using h
    exact ⟨fun _ => s, fun _ => 0, fun _ => 0, rfl, rfl, by simp, by simp, by simp, by simp⟩
  | succ n ih =>
    obtain ⟨s1, h1, h2⟩ := bind_ok h
    obtain ⟨sim, dt, u, a1, a2, a3, a4, a5, a6⟩ := ih s1 h2
    obtain ⟨vols, dt0, u0, b1, b2, b3, b4, b5, b6, b7, b8⟩ := C34_one_step c s s1 h1
    refine ⟨fun k => k.casesOn s sim, fun k => k.casesOn 0 (fun k => k.casesOn dt0 fun k => dt (k + 1)), fun k => k.casesOn u0 (fun k => k.casesOn u0 fun k => u (k + 1)),
      rfl, a2, ?_, ?_, ?_, ?_⟩
    · rintro (_ | k) hk
      · exact ⟨by simpa [a1] using h1, vols, b1⟩
      · exact a3 k (by omega)
    · rintro (_ | k) hk
      · simp
      · obtain ⟨c1, c2⟩ := a4 k (by omega)
        refine ⟨?_, ?_⟩
        · rw [Finset.sum_range_succ']
          change (sim k).info.time = s.info.time + (∑ i ∈ Finset.range k, dt (i + 1) + dt0)
          rw [c1, b4, add_assoc, add_comm dt0]
        · change (sim k).info.steps = _
          rw [c2, b5]; omega
    · rintro (_ | k) hk
      · exact ⟨by simpa [a1] using b3, b6⟩
      · exact a5 k (by omega)
    · rw [a6, b8, List.range_succ_eq_map, List.flatMap_cons, List.flatMap_map, ← List.append_assoc]
      simp [a1]

/-- C34, failed check. If the solution after the integrator is not admissible the step throws before any writer is called: the outcome is the same with any other
writers. -/
theorem C34_no_writer_after_failed_check (c : Config V K σ) (s s1 : Sim V K σ) (h : incrementSolution c s = .ok s1) (u : V) (hu : s1.vols[0]? = some u)
    (hbad : c.obeys u = false) (writers : List (V → TimeInfo K → σ → Res σ)) : performStep { c with writers := writers } s = .error .thrown := by
  have h' : incrementSolution { c with writers := writers } s = .ok s1 := h
  simp [performStep, h', checkConstraints, at', hu, hbad]

/-- C34, whole run. A run that reaches the end made some number `n` of steps: the calls of the writers are first one call of every writer with the initial solution and
the initial time, then the calls of the `n` steps as in `C34_n_steps`; the run stops at the first time that is not before the end time. -/
theorem C34_whole_run (c : Config V K σ) (fuel : Nat) (s s' : Sim V K σ) (h : run c fuel s = .ok (some s')) :
    ∃ (n : Nat) (u : Nat → V) (info : Nat → TimeInfo K), n ≤ fuel ∧ s.vols[0]? = some (u 0) ∧ info 0 = s.info ∧ s'.vols[0]? = some (u n) ∧ s'.info = info n ∧
      (∀ k ≤ n, (info k).steps = s.info.steps + k) ∧ (∀ k < n, (info k).time < c.endTime) ∧ c.endTime ≤ (info n).time ∧
      s'.log = s.log ++ (List.range (n + 1)).flatMap fun k => (List.range c.writers.length).map fun w => ⟨w, u k, info k⟩ := by
  obtain ⟨s0, h0, hl⟩ := bind_ok h
  have key : ∀ fuel (t : Sim V K σ), loop c fuel t = .ok (some s') → ∃ n ≤ fuel, steps c n t = .ok s' ∧ c.endTime ≤ s'.info.time ∧
      ∀ k < n, ∀ t', steps c k t = .ok t' → t'.info.time < c.endTime := by
    intro fuel
    induction fuel with
    | zero =>
      intro t ht
      unfold loop at ht
      split_ifs at ht with he
      · obtain rfl : t = s' := by simpa using ht
        exact ⟨0, le_rfl, rfl, by simpa [atEnd] using he, by simp⟩
      · simp at ht
    | succ fuel ih =>
      intro t ht
      unfold loop at ht
      split_ifs at ht with he
      · obtain rfl : t = s' := by simpa using ht
        exact ⟨0, Nat.zero_le _, rfl, by simpa [atEnd] using he, by simp⟩
      · obtain ⟨t1, h1, h2⟩ := bind_ok ht
        obtain ⟨n, hn, a1, a2, a3⟩ := ih t1 h2
        refine ⟨n + 1, by omega, by simp [steps, h1, a1], a2, ?_⟩
        rintro (_ | k) hk t' ht'
        · obtain rfl : t = t' := by simpa [steps] using ht'
          simpa [atEnd] using he
        · exact a3 k (by omega) t' (by simpa [steps, h1] using ht')
  obtain ⟨n, hn, a1, a2, a3⟩ := key fuel s0 hl
  obtain ⟨u0, e1, e2, e3, e4, e5⟩ := callWriters_inv h0
  obtain ⟨sim, dt, u, b1, b2, b3, b4, b5, b6⟩ := C34_n_steps c n s0 s' a1
  have hs : ∀ k ≤ n, steps c k s0 = .ok (sim k) := by
    intro k hk
    have aux : ∀ j i, i + j ≤ n → steps c j (sim i) = .ok (sim (i + j)) := by
      intro j
      induction j with
      | zero => intro i _; rfl
      | succ j ih =>
        intro i hi
        unfold steps
        rw [(b3 i (by omega)).1]
        have := ih (i + 1) (by omega)
        rw [show i + 1 + j = i + (j + 1) by omega] at this
        exact this
    have := aux k 0 (by omega)
    rwa [b1, Nat.zero_add] at this
  refine ⟨n, fun k => k.casesOn u0 fun k => u (k + 1), fun k => (sim k).info, hn, e1, ?_, ?_, by simp only [b2], ?_, ?_, by simp only [b2]; exact a2, ?_⟩
  · simp only [b1, e3]
  · rcases n with _ | n
    · rw [← b2, b1, e2]; exact e1
    · rw [← b2]; exact (b5 n (by omega)).1
  · intro k hk
    rw [(b4 k hk).2, e3]
  · intro k hk
    exact a3 k hk _ (hs k hk.le)
  · rw [b6, e5, List.range_succ_eq_map, List.flatMap_cons, List.flatMap_map, List.append_assoc]
    simp only [b1, e3, Nat.succ_eq_add_one]
    rfl

/-- A configuration with two writers, which count their calls. -/
def exWriters (k : Kind) : Config ℚ ℚ (Nat × Nat) :=
  ⟨k, exEnv, fun v => .ok v, fun u => decide (0 ≤ u), [fun _ _ w => .ok (w.1 + 1, w.2), fun _ _ w => .ok (w.1, w.2 + 1)], fun _ => [], 1⟩

theorem exStep (s : Sim ℚ ℚ (Nat × Nat)) (hl : s.vols.length = 3) (h : ∃ u, s.vols[0]? = some u ∧ 0 ≤ u) : ∃ s', performStep (exWriters .rungeKutta2) s = .ok s' ∧
    s'.vols.length = 3 ∧ (∃ u, s'.vols[0]? = some u ∧ 0 ≤ u) ∧ s'.info.time = s.info.time + 1 / 3 := by
  have hdt : ∀ info : TimeInfo ℚ, computeTimestep ([] : List (ℚ → ℚ)) [] (fun _ => 1) (fun _ => 2) (1 / 2) info = ((1 / 3 : ℚ) : WithTop ℚ) := fun info => by
    simp [computeTimestep, adjustTimestep, waveSpeedTotal, List.range_succ]
    norm_num
  obtain ⟨u, hu, hu0⟩ := h
  obtain ⟨s1, u', h1, h2, h3, -, h5, h6, -⟩ := increment_ok (exWriters .rungeKutta2) exSound s hl u hu trivial (1 / 3) (hdt _) (by norm_num [exWriters, exEnv])
  have hu' : 0 ≤ u' := by
    simp only [LinearMap.id_coe, id_eq, textbook, exWriters, exEnv, smul_eq_mul] at h5
    rw [h5]; linarith
  refine ⟨{ s1 with ws := (s1.ws.1 + 1, s1.ws.2 + 1), log := s1.log ++ [⟨0, u', s1.info⟩] ++ [⟨1, u', s1.info⟩] }, ?_, h3.trans hl, ⟨u', h2, hu'⟩, by rw [h6]; rfl⟩
  simp only [performStep, h1, Res.ok_bind]
  simp [checkConstraints, callWriters, at', h2, exWriters, hu', List.zipIdx]

theorem exSteps : ∃ s', steps (exWriters .rungeKutta2) 2 ⟨[12, 0, 0], ⟨0, 0⟩, (0, 0), []⟩ = .ok s' := by
  obtain ⟨s1, h1, h2, h3, -⟩ := exStep ⟨[12, 0, 0], ⟨0, 0⟩, (0, 0), []⟩ rfl ⟨12, rfl, by norm_num⟩
  obtain ⟨s2, h4, -⟩ := exStep s1 h2 h3
  exact ⟨s2, by simp [steps, h1, h4]⟩

example : ∃ s', steps (exWriters .rungeKutta2) 2 ⟨[12, 0, 0], ⟨0, 0⟩, (0, 0), []⟩ = .ok s' ∧ s'.log.length = 4 := by
  obtain ⟨s', h⟩ := exSteps
  obtain ⟨sim, dt, u, -, -, -, -, -, h6⟩ := C34_n_steps _ 2 _ _ h
  exact ⟨s', h, by rw [h6]; rfl⟩

example : ∃ s1, performStep (exWriters .rungeKutta2) ⟨[12, 0, 0], ⟨0, 0⟩, (0, 0), []⟩ = .ok s1 ∧ s1.info.steps = 1 := by
  obtain ⟨s', h⟩ := exSteps
  obtain ⟨s1, h1, -⟩ := bind_ok h
  obtain ⟨-, -, -, -, -, -, -, h2, -⟩ := C34_one_step _ _ _ h1
  exact ⟨s1, h1, h2⟩

example : performStep (exWriters .forwardEuler) ⟨[-12, 0], ⟨0, 0⟩, (0, 0), []⟩ = .error .thrown := by
  obtain ⟨s1, u', h1, h2, -, -, h5, -⟩ := increment_ok (exWriters .forwardEuler) exSound ⟨[-12, 0], ⟨0, 0⟩, (0, 0), []⟩ rfl (-12) rfl trivial (1 / 3)
    exTimestep (by norm_num [exWriters, exEnv])
  refine C34_no_writer_after_failed_check (exWriters .forwardEuler) _ s1 h1 u' h2 ?_ _
  simp only [LinearMap.id_coe, id_eq, textbook, exWriters, exEnv, smul_eq_mul] at h5 ⊢
  rw [h5]; norm_num

/-- A run with two writers up to the end time 1: the initial state and three steps of size 1/3 are written. -/
example : ∃ s', run (exWriters .rungeKutta2) 5 ⟨[12, 0, 0], ⟨0, 0⟩, (0, 0), []⟩ = .ok (some s') ∧ s'.info.time = 1 := by
  obtain ⟨s1, h1, a1, b1, c1⟩ := exStep ⟨[12, 0, 0], ⟨0, 0⟩, (1, 1), [⟨0, 12, ⟨0, 0⟩⟩, ⟨1, 12, ⟨0, 0⟩⟩]⟩ rfl ⟨12, rfl, by norm_num⟩
  obtain ⟨s2, h2, a2, b2, c2⟩ := exStep s1 a1 b1
  obtain ⟨s3, h3, a3, b3, c3⟩ := exStep s2 a2 b2
  have e : (exWriters .rungeKutta2).endTime = 1 := rfl
  have hw : callWriters (exWriters .rungeKutta2) ⟨[12, 0, 0], ⟨0, 0⟩, (0, 0), []⟩ =
      .ok ⟨[12, 0, 0], ⟨0, 0⟩, (1, 1), [⟨0, 12, ⟨0, 0⟩⟩, ⟨1, 12, ⟨0, 0⟩⟩]⟩ := rfl
  refine ⟨s3, ?_, by rw [c3, c2, c1]; norm_num⟩
  unfold run
  rw [hw]
  simp only [Res.ok_bind, loop, atEnd, e, h1, h2, h3, c3, c2, c1]
  norm_num

/-! ### C35 -/

/-- The volume is an output of the boundary conditions, unchanged since. -/
def Applied (bc : V → Res V) (v : V) : Prop := ∃ w, bc w = .ok v

/-- C35, one step. If the current solution is an output of the boundary conditions, then the outcome of a step depends on the right hand side only through its values on
volumes that are outputs of the boundary conditions (it is the same for any other right hand side `sys'` agreeing on those, whatever it does elsewhere), and after the step the
current solution is again such an output. -/
theorem C35_boundary_current (c : Config V K σ) (sys' : System V K) (hsys : ∀ v, Applied c.bc v → ∀ out, c.env.sys v out = sys' v out) (s : Sim V K σ)
    (hlen : s.vols.length = c.kind.substeps + 1) (hv : ∀ u, s.vols[0]? = some u → Applied c.bc u) :
    performStep c s = performStep { c with env := { c.env with sys := sys' } } s ∧
      ∀ s', performStep c s = .ok s' → s'.vols.length = c.kind.substeps + 1 ∧ ∀ u, s'.vols[0]? = some u → Applied c.bc u := by
  have key := foldlM_range_congr (substepAndBoundary c (c.adjusters s.ws) s.info)
    (substepAndBoundary { c with env := { c.env with sys := sys' } } (c.adjusters s.ws) s.info)
    (fun j r => r.1.length = c.kind.substeps + 1 ∧ ∀ u, r.1[j]? = some u → Applied c.bc u) c.kind.substeps ?_ (s.vols, 0) ⟨hlen, hv⟩
  · obtain ⟨k1, k2⟩ := key
    have e : incrementSolution c s = incrementSolution { c with env := { c.env with sys := sys' } } s := by
      unfold incrementSolution
      rw [k1]
    refine ⟨by unfold performStep; rw [e]; rfl, fun s' hs' => ?_⟩
    obtain ⟨vols, dt, u, h1, h2, h3, h4, -⟩ := performStep_inv hs'
    obtain ⟨l1, l2⟩ := k2 _ h1
    refine ⟨h4.trans l1, fun u' hu' => ?_⟩
    obtain rfl : u = u' := by simpa [h3] using hu'
    refine l2 u ?_
    rw [List.getLast?_eq_getElem?, l1] at h2
    simpa using h2
  · rintro j hj ⟨vols, dt⟩ ⟨h1, h2⟩
    have e := performSubstep_congr c.kind c.env sys' (c.adjusters s.ws) s.info vols dt hj fun u hu => hsys u (h2 u hu)
    refine ⟨by unfold substepAndBoundary; simp only [e], fun r hr => ?_⟩
    unfold substepAndBoundary at hr
    obtain ⟨r1, q1, hr⟩ := bind_ok hr
    obtain ⟨next, q2, hr⟩ := bind_ok hr
    obtain ⟨next', q3, hr⟩ := bind_ok hr
    cases hr
    have hl : r1.1.length = vols.length := performSubstep_length q1
    refine ⟨by simpa [hl] using h1, fun u hu => ?_⟩
    rw [List.getElem?_set_self (by simp only [hl] at *; omega)] at hu
    obtain rfl : next' = u := by simpa using hu
    exact ⟨next, q3⟩

/-- C35, whole simulation: starting from an initial state (to which `start` applies the boundary conditions) any number of steps has the same outcome with any right hand
side that agrees on outputs of the boundary conditions. -/
theorem C35_whole_simulation (c : Config V K σ) (sys' : System V K) (hsys : ∀ v, Applied c.bc v → ∀ out, c.env.sys v out = sys' v out) (u : V) (others : List V)
    (hlen : others.length = c.kind.substeps) (ws : σ) (n : Nat) :
    (start c u others ws >>= steps c n) =
      (start c u others ws >>= steps { c with env := { c.env with sys := sys' } } n) := by
  have key : ∀ n (s : Sim V K σ), s.vols.length = c.kind.substeps + 1 → (∀ u, s.vols[0]? = some u → Applied c.bc u) →
      steps c n s = steps { c with env := { c.env with sys := sys' } } n s := by
    intro n
    induction n with
    | zero => intros; rfl
    | succ n ih =>
      intro s hl hv
      obtain ⟨h1, h2⟩ := C35_boundary_current c sys' hsys s hl hv
      unfold steps
      rw [← h1]
      cases hs : performStep c s with
      | error e => rfl
      | ok s' =>
        obtain ⟨h3, h4⟩ := h2 s' hs
        exact ih s' h3 h4
  unfold start
  cases hb : c.bc u with
  | error e => rfl
  | ok u' =>
    refine key n _ (by simp [hlen]) fun v hv => ?_
    obtain rfl : u' = v := by simpa using hv
    exact ⟨u, hb⟩

/-- Boundary conditions on a pair (ghost, interior) that copy the interior. -/
def exPair (sys : System (ℚ × ℚ) ℚ) : Config (ℚ × ℚ) ℚ Unit := ⟨.rungeKutta3, ⟨sys, [], fun _ => 1, 1⟩, fun v => .ok (v.2, v.2), fun _ => true, [], fun _ => [], 1⟩

/-- Two right hand sides differing where the boundary conditions are not applied. -/
example : (start (exPair fun u _ => .ok (u, (0, u.1 - u.2 - 3), fun _ => 1)) (7, 5) [0, 0, 0] () >>=
      steps (exPair fun u _ => .ok (u, (0, u.1 - u.2 - 3), fun _ => 1)) 4) =
    (start (exPair fun u _ => .ok (u, (0, u.1 - u.2 - 3), fun _ => 1)) (7, 5) [0, 0, 0] () >>=
      steps (exPair fun u _ => if u.1 = u.2 then .ok (u, (0, -3), fun _ => 1) else .error .ub) 4) :=
  C35_whole_simulation (exPair fun u _ => .ok (u, (0, u.1 - u.2 - 3), fun _ => 1)) (fun u _ => if u.1 = u.2 then .ok (u, (0, -3), fun _ => 1) else .error .ub)
    (by rintro v ⟨w, hw⟩ out; cases hw; simp [exPair]) (7, 5) [0, 0, 0] rfl () 4

end Verif.Props
