import Verif.Step
import Mathlib.Analysis.Convex.Function

/-!
C30-C33: time integrators. The helper `Sound` (`Verif.IntegratorLemmas`) lists what is assumed about the right hand side and the boundary conditions; `Step.sound`
shows it for the modelled numerical flux and boundary conditions.
-/

namespace Verif.Props
open Verif Integrator Simulator NetFlux
variable {K V W σ : Type} [Field K] [LinearOrder K] [IsStrictOrderedRing K] [AddCommGroup V] [Module K V] [AddCommGroup W] [Module K W]

/-- C30. One call of `incrementSolution` with any of the four integrators advances the interior values by the textbook scheme (`textbook`) for the right hand side
`L w = F w / dx`, with the time step computed from the wave speeds of the state at the beginning of the step, and leaves a state from which the next step can start. -/
theorem C30_textbook_scheme (c : Config V K σ) (int : V →ₗ[K] W) (F : W → W) (ws : W → Nat → K) (Ready : V → Prop)
    (hs : Sound c.env.sys c.bc int F ws Ready) (s : Sim V K σ) (hlen : s.vols.length = c.kind.substeps + 1) (u : V) (hu : s.vols[0]? = some u)
    (hr : Ready u) (dt : K) (hdt : computeTimestep c.env.waveAdj (c.adjusters s.ws) (ws (int u)) c.env.len c.env.cfl s.info = dt) (hx : c.env.len 0 ≠ 0) :
    ∃ s' u', incrementSolution c s = .ok s' ∧ s'.vols[0]? = some u' ∧ s'.vols.length = s.vols.length ∧ Ready u' ∧
      int u' = textbook c.kind (fun w => (1 / c.env.len 0) • F w) dt (int u) ∧ s'.info = s.info.increment dt := by
  obtain ⟨s', u', h1, h2, h3, h4, h5, h6, -⟩ := increment_ok c hs s hlen u hu hr dt hdt hx
  exact ⟨s', u', h1, h2, h3, h4, h5, h6⟩

/-- C30 on the modelled solver: numerical flux and reconstruction of `Verif.NetFlux`, boundary conditions of `Verif.Boundary`. -/
theorem C30_modelled_solver (k : Kind) (b : BC) (dims g : Nat) (r : Recon V) (fl : FluxFn V K) (n G active : I3) (hL : Layout n G active dims g)
    (hf : Fits r fl g) (hN : ∀ d < dims, 3 * G.get d ≤ n.get d) (hpos : 0 < dims) (work : NetFlux.State V K) (hw : Sized n work) (waveAdj : List (K → K))
    (len : Nat → K) (hx : len 0 ≠ 0) (cfl endTime : K) (obeys : (I3 → V) → Bool) (writers : List ((I3 → V) → TimeInfo K → σ → Res σ)) (adj : σ → List (Adjuster K))
    (s : Sim (I3 → V) K σ) (hlen : s.vols.length = k.substeps + 1) (u : I3 → V) (hu : s.vols[0]? = some u) (hr : Step.Ready b n G g dims u)
    (dt : K) (hdt : computeTimestep waveAdj (adj s.ws) (Step.waves b dims r fl n G active g work fun p => u p) len cfl s.info = dt) :
    ∃ s' u', incrementSolution ⟨k, ⟨Step.cpuSystem dims r fl n G active work, waveAdj, len, cfl⟩, Step.cpuBoundary b n g dims, obeys, writers, adj, endTime⟩ s = .ok s' ∧
      s'.vols[0]? = some u' ∧ Step.Ready b n G g dims u' ∧
      (fun p : Step.Cells n G => u' p) = textbook k (fun w => (1 / len 0) • Step.rhs b dims r fl n G g w) dt (fun p => u p) := by
  obtain ⟨s', u', h1, h2, -, h4, h5, -⟩ := C30_textbook_scheme
    (⟨k, ⟨Step.cpuSystem dims r fl n G active work, waveAdj, len, cfl⟩, Step.cpuBoundary b n g dims, obeys, writers, adj, endTime⟩ : Config (I3 → V) K σ)
    (Step.int n G) _ _ _ (Step.sound (b := b) hL hf hN hpos hw) s hlen u hu hr dt hdt hx
  exact ⟨s', u', h1, h2, h4, h5⟩

/-- Example of a sound pair: the decay equation on one cell, with boundary conditions that do nothing. -/
def exEnv : Env ℚ ℚ := ⟨fun u _ => .ok (u, -u, fun _ => 1), [], fun _ => 2, 1 / 2⟩

theorem exSound : Sound exEnv.sys (fun v : ℚ => .ok v) (LinearMap.id : ℚ →ₗ[ℚ] ℚ) (fun w => -w) (fun _ _ => 1) (fun _ => True) :=
  ⟨fun v => ⟨v, rfl, rfl, trivial⟩, fun v _ _ => ⟨(v, -v, fun _ => 1), rfl, rfl, rfl, rfl⟩⟩

/-- The configuration of the example. -/
def exConfig (k : Kind) : Config ℚ ℚ Unit := ⟨k, exEnv, fun v => .ok v, fun _ => true, [], fun _ => [], 1⟩

theorem exTimestep : computeTimestep ([] : List (ℚ → ℚ)) [] (fun _ => 1) (fun _ => 2) (1 / 2) (⟨0, 0⟩ : TimeInfo ℚ) = ((1 / 3 : ℚ) : WithTop ℚ) := by
  simp [computeTimestep, adjustTimestep, waveSpeedTotal, List.range_succ]
  norm_num

example : ∃ s' u', incrementSolution (exConfig .rungeKutta4) ⟨[12, 0, 0, 0, 0], ⟨0, 0⟩, (), []⟩ = .ok s' ∧ s'.vols[0]? = some u' ∧
    u' = textbook .rungeKutta4 (fun w : ℚ => (1 / 2 : ℚ) • -w) (1 / 3 : ℚ) 12 := by
  obtain ⟨s', u', h1, h2, -, -, h5, -⟩ := C30_textbook_scheme (exConfig .rungeKutta4) LinearMap.id _ _ _ exSound ⟨[12, 0, 0, 0, 0], ⟨0, 0⟩, (), []⟩ rfl 12 rfl trivial
    (1 / 3) exTimestep (by norm_num [exConfig, exEnv])
  exact ⟨s', u', h1, h2, h5⟩

/-- C31. If a forward Euler step with step `dt` (for the right hand side of the solver) maps a convex set to itself, so does a whole step of the forward Euler integrator and
of the Runge-Kutta integrators of order two and three. -/
theorem C31_convex_invariants (c : Config V K σ) (hk : c.kind = .forwardEuler ∨ c.kind = .rungeKutta2 ∨ c.kind = .rungeKutta3) (int : V →ₗ[K] W) (F : W → W)
    (ws : W → Nat → K) (Ready : V → Prop) (hs : Sound c.env.sys c.bc int F ws Ready) (s : Sim V K σ) (hlen : s.vols.length = c.kind.substeps + 1) (u : V)
    (hu : s.vols[0]? = some u) (hr : Ready u) (dt : K)
    (hdt : computeTimestep c.env.waveAdj (c.adjusters s.ws) (ws (int u)) c.env.len c.env.cfl s.info = dt) (hx : c.env.len 0 ≠ 0)
    (A : Set W) (hA : Convex K A) (heuler : ∀ w ∈ A, w + dt • (1 / c.env.len 0) • F w ∈ A) (h0 : int u ∈ A) :
    ∃ s' u', incrementSolution c s = .ok s' ∧ s'.vols[0]? = some u' ∧ int u' ∈ A := by
  obtain ⟨s', u', h1, h2, h3, h4, h5, h6⟩ := C30_textbook_scheme c int F ws Ready hs s hlen u hu hr dt hdt hx
  refine ⟨s', u', h1, h2, ?_⟩
  rw [h5]
  rcases hk with h | h | h <;> rw [h]
  · exact heuler _ h0
  · exact hA h0 (heuler _ (heuler _ h0)) (by norm_num) (by norm_num) (by norm_num)
  · refine hA h0 (heuler _ ?_) (by norm_num) (by norm_num) (by norm_num)
    exact hA h0 (heuler _ (heuler _ h0)) (by norm_num) (by norm_num) (by norm_num)

/-- C31 for convex functionals (total variation, norms, total entropy): if forward Euler does not increase it, neither do the three integrators. -/
theorem C31_convex_functionals (c : Config V K σ) (hk : c.kind = .forwardEuler ∨ c.kind = .rungeKutta2 ∨ c.kind = .rungeKutta3) (int : V →ₗ[K] W) (F : W → W)
    (ws : W → Nat → K) (Ready : V → Prop) (hs : Sound c.env.sys c.bc int F ws Ready) (s : Sim V K σ) (hlen : s.vols.length = c.kind.substeps + 1) (u : V)
    (hu : s.vols[0]? = some u) (hr : Ready u) (dt : K)
    (hdt : computeTimestep c.env.waveAdj (c.adjusters s.ws) (ws (int u)) c.env.len c.env.cfl s.info = dt) (hx : c.env.len 0 ≠ 0)
    (φ : W → K) (hφ : ConvexOn K Set.univ φ) (heuler : ∀ w, φ (w + dt • (1 / c.env.len 0) • F w) ≤ φ w) :
    ∃ s' u', incrementSolution c s = .ok s' ∧ s'.vols[0]? = some u' ∧ φ (int u') ≤ φ (int u) := by
  obtain ⟨s', u', h1, h2, h3⟩ := C31_convex_invariants c hk int F ws Ready hs s hlen u hu hr dt hdt hx {w | φ w ≤ φ (int u)}
    (by simpa using hφ.convex_le (φ (int u))) (fun w hw => (heuler w).trans hw) le_rfl
  exact ⟨s', u', h1, h2, h3⟩

example : ∃ s' u', incrementSolution (exConfig .rungeKutta3) ⟨[12, 0, 0, 0], ⟨0, 0⟩, (), []⟩ = .ok s' ∧ s'.vols[0]? = some u' ∧ u' ∈ Set.Ici (0 : ℚ) :=
  C31_convex_invariants (exConfig .rungeKutta3) (by simp [exConfig]) LinearMap.id _ _ _ exSound ⟨[12, 0, 0, 0], ⟨0, 0⟩, (), []⟩ rfl 12 rfl trivial
    (1 / 3) exTimestep (by norm_num [exConfig, exEnv]) (Set.Ici 0) (convex_Ici 0)
    (fun w hw => by simp only [Set.mem_Ici, exConfig, exEnv, smul_eq_mul] at *; linarith) (by simp)

example : ∃ s' u', incrementSolution (exConfig .rungeKutta2) ⟨[-12, 0, 0], ⟨0, 0⟩, (), []⟩ = .ok s' ∧ s'.vols[0]? = some u' ∧ |u'| ≤ |(-12 : ℚ)| :=
  C31_convex_functionals (exConfig .rungeKutta2) (by simp [exConfig]) LinearMap.id _ _ _ exSound ⟨[-12, 0, 0], ⟨0, 0⟩, (), []⟩ rfl (-12) rfl trivial
    (1 / 3) exTimestep (by norm_num [exConfig, exEnv]) (fun w => |w|)
    ⟨convex_univ, fun x _ y _ a b ha hb _ => by
      simp only [smul_eq_mul]
      calc |a * x + b * y| ≤ |a * x| + |b * y| := abs_add_le _ _
        _ = a * |x| + b * |y| := by rw [abs_mul, abs_mul, abs_of_nonneg ha, abs_of_nonneg hb]⟩
    (fun w => by
      simp only [exConfig, exEnv, smul_eq_mul]
      rw [show w + 1 / 3 * (1 / 2 * -w) = 5 / 6 * w by ring, abs_mul, abs_of_pos (by norm_num : (0 : ℚ) < 5 / 6)]
      have := abs_nonneg w
      linarith)

/-! ### C32 -/

/-- A time step adjuster never enlarges the proposed step, and asks for at most what it asks for when nothing else limits the step. -/
def Limits (f : Adjuster K) (info : TimeInfo K) : Prop := ∀ x, f x info ≤ x ∧ f x info ≤ f ⊤ info

/-- Sum of wave speed over cell length, over the directions with a nonzero cell length. -/
def cflSum (ws len : Nat → K) : K := ∑ d ∈ (Finset.range 3).filter (len · ≠ 0), ws d / len d

theorem waveSpeedTotal_eq (waveAdj : List (K → K)) (ws len : Nat → K) :
    waveSpeedTotal waveAdj ws len = cflSum (fun d => waveAdj.foldl (fun w f => f w) (ws d)) len := by
  unfold waveSpeedTotal cflSum
  rw [Finset.sum_filter]
  simp only [List.range_succ, List.range_zero, List.nil_append, List.cons_append, List.foldl_cons, List.foldl_nil, Finset.sum_range_succ, Finset.sum_range_zero]
  split_ifs <;> simp_all

theorem le_foldl_waveAdj (waveAdj : List (K → K)) (h : ∀ f ∈ waveAdj, ∀ w, w ≤ f w) (w : K) : w ≤ waveAdj.foldl (fun w f => f w) w := by
  induction waveAdj generalizing w with
  | nil => exact le_rfl
  | cons f l ih => exact (h f (by simp) w).trans (ih (fun f hf => h f (by simp [hf])) (f w))

theorem adjust_le (adj : List (Adjuster K)) (info : TimeInfo K) (h : ∀ f ∈ adj, Limits f info) (x : WithTop K) :
    adjustTimestep adj x info ≤ x ∧ ∀ f ∈ adj, adjustTimestep adj x info ≤ f ⊤ info := by
  induction adj generalizing x with
  | nil => exact ⟨le_rfl, by simp⟩
  | cons f l ih =>
    obtain ⟨h1, h2⟩ := ih (fun f hf => h f (by simp [hf])) (f x info)
    have hf := h f (by simp) x
    refine ⟨h1.trans hf.1, fun f' hf' => ?_⟩
    rcases List.mem_cons.1 hf' with rfl | hf'
    · exact h1.trans hf.2
    · exact h2 f' hf'

/-- C32, upper bounds. Whatever finite time step is computed, `dt * sum of (wave speed / cell length) ≤ CFL`, and `dt` is at most what every adjuster asks for.
Wave speeds are non-negative, wave speed adjusters (maximum over processes) do not lower them, cell lengths are non-negative (zero for unused directions). -/
theorem C32_cfl_and_adjusters (waveAdj : List (K → K)) (hwave : ∀ f ∈ waveAdj, ∀ w, w ≤ f w) (adj : List (Adjuster K)) (info : TimeInfo K)
    (hadj : ∀ f ∈ adj, Limits f info) (ws len : Nat → K) (hws : ∀ d, 0 ≤ ws d) (hlen : ∀ d, 0 ≤ len d) (cfl : K) (hcfl : 0 < cfl) (dt : K)
    (hdt : computeTimestep waveAdj adj ws len cfl info = dt) :
    dt * cflSum ws len ≤ cfl ∧ ∀ f ∈ adj, (dt : WithTop K) ≤ f ⊤ info := by
  have hle : cflSum ws len ≤ waveSpeedTotal waveAdj ws len := by
    rw [waveSpeedTotal_eq]
    exact Finset.sum_le_sum fun d _ => div_le_div_of_nonneg_right (le_foldl_waveAdj waveAdj hwave (ws d)) (hlen d)
  have h0 : 0 ≤ cflSum ws len := Finset.sum_nonneg fun d _ => div_nonneg (hws d) (hlen d)
  unfold computeTimestep at hdt
  obtain ⟨h1, h2⟩ := adjust_le adj info hadj (if waveSpeedTotal waveAdj ws len = 0 then ⊤ else ((cfl / waveSpeedTotal waveAdj ws len : K) : WithTop K))
  rw [hdt] at h1 h2
  refine ⟨?_, h2⟩
  by_cases hz : waveSpeedTotal waveAdj ws len = 0
  · have : cflSum ws len = 0 := le_antisymm (hz ▸ hle) h0
    rw [this, mul_zero]; exact hcfl.le
  · rw [if_neg hz, WithTop.coe_le_coe] at h1
    have hpos : 0 < waveSpeedTotal waveAdj ws len := lt_of_le_of_ne (h0.trans hle) (Ne.symm hz)
    rcases le_or_gt dt 0 with hd | hd
    · exact (mul_nonpos_of_nonpos_of_nonneg hd h0).trans hcfl.le
    · calc dt * cflSum ws len ≤ dt * waveSpeedTotal waveAdj ws len := mul_le_mul_of_nonneg_left hle hd.le
        _ ≤ cfl / waveSpeedTotal waveAdj ws len * waveSpeedTotal waveAdj ws len := mul_le_mul_of_nonneg_right h1 hpos.le
        _ = cfl := div_mul_cancel₀ _ hz

/-- C32, positivity. If some direction has a positive wave speed and all adjusters return positive steps for positive steps, the time step is a positive number. -/
theorem C32_positive (waveAdj : List (K → K)) (hwave : ∀ f ∈ waveAdj, ∀ w, w ≤ f w) (adj : List (Adjuster K)) (info : TimeInfo K)
    (hadj : ∀ f ∈ adj, Limits f info) (hadj' : ∀ f ∈ adj, ∀ x, 0 < x → 0 < f x info) (ws len : Nat → K) (hws : ∀ d, 0 ≤ ws d) (hlen : ∀ d, 0 ≤ len d)
    (hsome : ∃ d < 3, 0 < ws d ∧ 0 < len d) (cfl : K) (hcfl : 0 < cfl) :
    ∃ dt : K, computeTimestep waveAdj adj ws len cfl info = dt ∧ 0 < dt := by
  have hpos : 0 < waveSpeedTotal waveAdj ws len := by
    obtain ⟨d, hd, h1, h2⟩ := hsome
    rw [waveSpeedTotal_eq]
    refine Finset.sum_pos' (fun e _ => div_nonneg ((hws e).trans (le_foldl_waveAdj waveAdj hwave _)) (hlen e)) ⟨d, by simp [hd, h2.ne'], ?_⟩
    exact div_pos (h1.trans_le (le_foldl_waveAdj waveAdj hwave _)) h2
  have hq : (0 : WithTop K) < ((cfl / waveSpeedTotal waveAdj ws len : K) : WithTop K) := by
    rw [← WithTop.coe_zero, WithTop.coe_lt_coe]; exact div_pos hcfl hpos
  have key : ∀ (l : List (Adjuster K)) (x : WithTop K), (∀ f ∈ l, ∀ x, 0 < x → 0 < f x info) → 0 < x → 0 < adjustTimestep l x info := by
    intro l
    induction l with
    | nil => exact fun x _ hx => hx
    | cons f l ih => exact fun x h hx => ih (f x info) (fun f hf => h f (by simp [hf])) (h f (by simp) x hx)
  unfold computeTimestep
  rw [if_neg hpos.ne']
  obtain ⟨h1, -⟩ := adjust_le adj info hadj ((cfl / waveSpeedTotal waveAdj ws len : K) : WithTop K)
  have h2 := key adj _ hadj' hq
  generalize adjustTimestep adj ((cfl / waveSpeedTotal waveAdj ws len : K) : WithTop K) info = x at h1 h2
  cases x with
  | top => simp at h1
  | coe dt => exact ⟨dt, rfl, by rw [← WithTop.coe_zero, WithTop.coe_lt_coe] at h2; exact h2⟩

/-- C32, the time step of the whole step: all substeps use the time step computed from the first, by which the simulation time advances. -/
theorem C32_one_time_step_per_step (c : Config V K σ) (int : V →ₗ[K] W) (F : W → W) (ws : W → Nat → K) (Ready : V → Prop)
    (hs : Sound c.env.sys c.bc int F ws Ready) (s : Sim V K σ) (hlen : s.vols.length = c.kind.substeps + 1) (u : V) (hu : s.vols[0]? = some u)
    (hr : Ready u) (dt : K) (hdt : computeTimestep c.env.waveAdj (c.adjusters s.ws) (ws (int u)) c.env.len c.env.cfl s.info = dt) (hx : c.env.len 0 ≠ 0) :
    ∃ s', incrementSolution c s = .ok s' ∧ s'.info.time = s.info.time + dt := by
  obtain ⟨s', u', h1, h2, h3, h4, h5, h6, -⟩ := increment_ok c hs s hlen u hu hr dt hdt hx
  exact ⟨s', h1, by rw [h6]; rfl⟩

example : (1 / 3 : ℚ) * cflSum (fun _ => 1) (fun _ => 2) ≤ 1 / 2 :=
  (C32_cfl_and_adjusters [] (by simp) [] ⟨0, 0⟩ (by simp) (fun _ => 1) (fun _ => 2) (by simp) (by simp) (1 / 2) (by norm_num) (1 / 3) exTimestep).1

/-- A fixed limit on the time step satisfies the hypotheses. -/
example : ∃ dt : ℚ, computeTimestep [max 3] [fun x _ => min x ((1 / 7 : ℚ) : WithTop ℚ)] (fun _ => 1) (fun _ => 2) (1 / 2) ⟨0, 0⟩ = dt ∧ 0 < dt :=
  C32_positive _ (by simp) _ _ (by simp [Limits]) (by simp) _ _ (by simp) (by simp)
    ⟨0, by norm_num⟩ _ (by norm_num)

example : ∃ s', incrementSolution (exConfig .rungeKutta2) ⟨[12, 0, 0], ⟨0, 0⟩, (), []⟩ = .ok s' ∧ s'.info.time = 0 + 1 / 3 :=
  C32_one_time_step_per_step (exConfig .rungeKutta2) LinearMap.id _ _ _ exSound ⟨[12, 0, 0], ⟨0, 0⟩, (), []⟩ rfl 12 rfl trivial (1 / 3) exTimestep
    (by norm_num [exConfig, exEnv])

/-! ### C33 -/

/-- The right hand side C33 asks for, from the interior values `w` (continued to the ghost cells by the boundary condition): inflow minus outflow of each direction,
divided by the cell length of that direction. -/
def directional (b : BC) (dims : Nat) (r : Recon V) (fl : FluxFn V K) (n G : I3) (g : Nat) (len : Nat → K) (w : Step.Cells n G → V) : Step.Cells n G → V := fun p =>
  ∑ d ∈ Finset.range dims, (1 / len d) • ((face r fl (Step.extend b n G g dims w) d (p.1 - I3.dir d)).1 - (face r fl (Step.extend b n G g dims w) d p.1).1)

theorem directional_eq {b : BC} {dims : Nat} {r : Recon V} {fl : FluxFn V K} {n G : I3} {g : Nat} {len : Nat → K} (hcube : ∀ d < dims, len d = len 0) :
    directional b dims r fl n G g len = fun w => (1 / len 0) • Step.rhs b dims r fl n G g w := by
  funext w p
  simp only [directional, Pi.smul_apply, Step.rhs, net]
  rw [← List.sum_toFinset _ List.nodup_range, List.toFinset_range, Finset.smul_sum]
  refine Finset.sum_congr rfl fun d hd => ?_
  rw [hcube d (by simpa using hd)]

/-- C33 for grids with the same cell length in all active directions (in particular all one dimensional grids), for all four integrators. What is missing: other
grids, for which the statement is false (`C33_fails_for_cells_that_are_not_cubes`), because the integrators scale all directions with `dt / dx`. -/
theorem C33_directional_scaling_partial (k : Kind) (b : BC) (dims g : Nat) (r : Recon V) (fl : FluxFn V K) (n G active : I3) (hL : Layout n G active dims g)
    (hf : Fits r fl g) (hN : ∀ d < dims, 3 * G.get d ≤ n.get d) (hpos : 0 < dims) (work : NetFlux.State V K) (hw : Sized n work) (waveAdj : List (K → K))
    (len : Nat → K) (hx : len 0 ≠ 0) (hcube : ∀ d < dims, len d = len 0)
    (cfl endTime : K) (obeys : (I3 → V) → Bool) (writers : List ((I3 → V) → TimeInfo K → σ → Res σ)) (adj : σ → List (Adjuster K))
    (s : Sim (I3 → V) K σ) (hlen : s.vols.length = k.substeps + 1) (u : I3 → V) (hu : s.vols[0]? = some u) (hr : Step.Ready b n G g dims u)
    (dt : K) (hdt : computeTimestep waveAdj (adj s.ws) (Step.waves b dims r fl n G active g work fun p => u p) len cfl s.info = dt) :
    ∃ s' u', incrementSolution ⟨k, ⟨Step.cpuSystem dims r fl n G active work, waveAdj, len, cfl⟩, Step.cpuBoundary b n g dims, obeys, writers, adj, endTime⟩ s = .ok s' ∧
      s'.vols[0]? = some u' ∧ (fun p : Step.Cells n G => u' p) = textbook k (directional b dims r fl n G g len) dt (fun p => u p) := by
  obtain ⟨s', u', h1, h2, h3, h4⟩ := C30_modelled_solver k b dims g r fl n G active hL hf hN hpos work hw waveAdj len hx cfl endTime obeys writers adj s hlen u hu hr
    dt hdt
  exact ⟨s', u', h1, h2, by rw [h4, directional_eq hcube]⟩

/-- First order reconstruction. -/
def exRecon1 : Recon ℚ := ⟨.whole, 1, [0], fun _ v => v.headD 0, fun _ v => v.headD 0⟩
/-- Upwind flux for transport in the direction y, with wave speed one. -/
def exUpwindY : FluxFn ℚ ℚ := ⟨[1], [0], fun d _ r => (if d = 1 then r.headD 0 else 0, 1)⟩
/-- Buffers. -/
def exWork : NetFlux.State ℚ ℚ := ⟨field ⟨5, 5, 1⟩ fun _ => 0, field ⟨5, 5, 1⟩ fun _ => 0, field ⟨5, 5, 1⟩ fun _ => 0, field ⟨5, 5, 1⟩ fun _ => 0, fun _ => 0⟩
/-- Interior values. -/
def exInterior : Step.Cells ⟨5, 5, 1⟩ ⟨1, 1, 0⟩ → ℚ := fun p => p.1.y
/-- Initial volume with periodic ghost cells. -/
def exVolume : I3 → ℚ := Step.extend .periodic ⟨5, 5, 1⟩ ⟨1, 1, 0⟩ 1 2 exInterior

theorem exLayout1 : Layout ⟨5, 5, 1⟩ ⟨1, 1, 0⟩ ⟨1, 1, 0⟩ 2 1 := ⟨by decide, by decide, by decide, by decide⟩
theorem exFits1 : Fits exRecon1 exUpwindY 1 := ⟨by decide, by decide, by decide, by decide, by decide, by decide⟩
theorem exSized1 : Sized ⟨5, 5, 1⟩ exWork := ⟨rfl, rfl, rfl, rfl⟩
theorem exReady : Step.Ready .periodic ⟨5, 5, 1⟩ ⟨1, 1, 0⟩ 1 2 exVolume := ⟨exInterior, fun _ _ => rfl⟩
theorem exInt : (fun p : Step.Cells ⟨5, 5, 1⟩ ⟨1, 1, 0⟩ => exVolume p) = exInterior := funext fun p => Step.extend_interior exLayout1 exInterior p.2

theorem exWaves : Step.waves .periodic 2 exRecon1 exUpwindY ⟨5, 5, 1⟩ ⟨1, 1, 0⟩ ⟨1, 1, 0⟩ 1 exWork exInterior = fun k => if k < 2 then 1 else 0 := by
  obtain ⟨s, e1, -, -, e4, e5⟩ := Step.cpuSystem_ok exLayout1 exFits1 (by decide) (by decide) exSized1
    (Step.extend .periodic ⟨5, 5, 1⟩ ⟨1, 1, 0⟩ 1 2 exInterior) 0
  funext k
  simp only [Step.waves, e1]
  split_ifs with hk
  · refine (e4 k hk).unique ⟨Or.inr ⟨⟨1, 1, 0⟩, ?_, rfl⟩, ?_⟩
    · interval_cases k <;> (unfold IsFace; decide)
    · rintro x (rfl | ⟨q, -, rfl⟩)
      · exact zero_le_one
      · exact le_rfl
  · exact e5 k (by omega)

example : ∃ s' u', incrementSolution (σ := Unit) ⟨.rungeKutta2, ⟨Step.cpuSystem 2 exRecon1 exUpwindY ⟨5, 5, 1⟩ ⟨1, 1, 0⟩ ⟨1, 1, 0⟩ exWork, [], fun _ => 1, 1 / 2⟩,
      Step.cpuBoundary .periodic ⟨5, 5, 1⟩ 1 2, fun _ => true, [], fun _ => [], 1⟩ ⟨[exVolume, 0, 0], ⟨0, 0⟩, (), []⟩ = .ok s' ∧ s'.vols[0]? = some u' ∧
    (fun p : Step.Cells ⟨5, 5, 1⟩ ⟨1, 1, 0⟩ => u' p) =
      textbook .rungeKutta2 (directional .periodic 2 exRecon1 exUpwindY ⟨5, 5, 1⟩ ⟨1, 1, 0⟩ 1 fun _ => 1) (1 / 4 : ℚ) (fun p => exVolume p) :=
  C33_directional_scaling_partial .rungeKutta2 .periodic 2 1 exRecon1 exUpwindY ⟨5, 5, 1⟩ ⟨1, 1, 0⟩ ⟨1, 1, 0⟩ exLayout1 exFits1 (by decide) (by decide) exWork exSized1
    [] (fun _ => 1) (by norm_num) (by simp) (1 / 2) 1 (fun _ => true) [] (fun _ => []) _ rfl exVolume rfl exReady (1 / 4)
    (by rw [exInt, exWaves]; simp [computeTimestep, adjustTimestep, waveSpeedTotal, List.range_succ]; norm_num)

theorem exFace (u : I3 → ℚ) (d : Nat) (q : I3) : face exRecon1 exUpwindY u d q = (if d = 1 then u q else 0, 1) := by
  have : q + step d 0 + step d 0 = q := by ext <;> simp [step]
  simp [face, exRecon1, exUpwindY, Recon.rval, this]

/-- C33 is false for the code: with cells of size 1 × 2, transport in y with the upwind flux and forward Euler, the update of the cell (2, 2) is twice the one asked
for. -/
theorem C33_fails_for_cells_that_are_not_cubes :
    ∃ s' u', incrementSolution (σ := Unit) ⟨.forwardEuler,
        ⟨Step.cpuSystem 2 exRecon1 exUpwindY ⟨5, 5, 1⟩ ⟨1, 1, 0⟩ ⟨1, 1, 0⟩ exWork, [], fun d => if d = 1 then 2 else 1, 1 / 2⟩,
        Step.cpuBoundary .periodic ⟨5, 5, 1⟩ 1 2, fun _ => true, [], fun _ => [], 1⟩ ⟨[exVolume, 0], ⟨0, 0⟩, (), []⟩ = .ok s' ∧ s'.vols[0]? = some u' ∧
      s'.info.time = 1 / 3 ∧ u' ⟨2, 2, 0⟩ = exVolume ⟨2, 2, 0⟩ - 1 / 3 ∧
      textbook .forwardEuler (directional .periodic 2 exRecon1 exUpwindY ⟨5, 5, 1⟩ ⟨1, 1, 0⟩ 1 fun d => if d = 1 then 2 else 1) (1 / 3 : ℚ) exInterior
        ⟨⟨2, 2, 0⟩, by decide⟩ = exVolume ⟨2, 2, 0⟩ - 1 / 6 := by
  have hdt : computeTimestep [] [] (Step.waves .periodic 2 exRecon1 exUpwindY ⟨5, 5, 1⟩ ⟨1, 1, 0⟩ ⟨1, 1, 0⟩ 1 exWork fun p => exVolume p)
      (fun d => if d = 1 then 2 else 1) (1 / 2) (⟨0, 0⟩ : TimeInfo ℚ) = ((1 / 3 : ℚ) : WithTop ℚ) := by
    rw [exInt, exWaves]; simp [computeTimestep, adjustTimestep, waveSpeedTotal, List.range_succ]; norm_num
  obtain ⟨s', u', h1, h2, -, h4, h5, h6, -⟩ := increment_ok (⟨.forwardEuler,
        ⟨Step.cpuSystem 2 exRecon1 exUpwindY ⟨5, 5, 1⟩ ⟨1, 1, 0⟩ ⟨1, 1, 0⟩ exWork, [], fun d => if d = 1 then 2 else 1, 1 / 2⟩,
        Step.cpuBoundary .periodic ⟨5, 5, 1⟩ 1 2, fun _ => true, [], fun _ => [], 1⟩ : Config (I3 → ℚ) ℚ Unit)
    (Step.sound (b := .periodic) exLayout1 exFits1 (by decide) (by decide) exSized1) ⟨[exVolume, 0], ⟨0, 0⟩, (), []⟩ rfl exVolume rfl exReady (1 / 3) hdt (by norm_num)
  have e : ∀ p (hp : IsInterior ⟨5, 5, 1⟩ ⟨1, 1, 0⟩ p), exVolume p = p.y := fun p hp => Step.extend_interior exLayout1 exInterior hp
  refine ⟨s', u', h1, h2, by rw [h6]; simp [TimeInfo.increment], ?_, ?_⟩
  · have := congrFun h5 ⟨⟨2, 2, 0⟩, by decide⟩
    change u' ⟨2, 2, 0⟩ = exVolume ⟨2, 2, 0⟩ + (1 / 3 : ℚ) * ((1 / 1 : ℚ) * net 2 exRecon1 exUpwindY
      (Step.extend .periodic ⟨5, 5, 1⟩ ⟨1, 1, 0⟩ 1 2 fun p : Step.Cells ⟨5, 5, 1⟩ ⟨1, 1, 0⟩ => exVolume p) ⟨2, 2, 0⟩) at this
    rw [exInt] at this
    change u' ⟨2, 2, 0⟩ = exVolume ⟨2, 2, 0⟩ + (1 / 3 : ℚ) * ((1 / 1 : ℚ) * net 2 exRecon1 exUpwindY exVolume ⟨2, 2, 0⟩) at this
    have h22 := e ⟨2, 2, 0⟩ (by decide)
    have h21 := e ⟨2, 1, 0⟩ (by decide)
    rw [this]
    simp only [net, List.range_succ, List.range_zero, List.nil_append, List.cons_append, List.map_cons, List.map_nil, List.sum_cons, List.sum_nil, exFace,
      show (⟨2, 2, 0⟩ - I3.dir 1 : I3) = ⟨2, 1, 0⟩ from rfl, h22, h21]
    norm_num
  · have h22 := e ⟨2, 2, 0⟩ (by decide)
    have h21 := e ⟨2, 1, 0⟩ (by decide)
    change (2 : ℚ) + (1 / 3 : ℚ) * (∑ d ∈ Finset.range 2, (1 / (if d = 1 then 2 else 1) : ℚ) * ((face exRecon1 exUpwindY exVolume d (⟨2, 2, 0⟩ - I3.dir d)).1 -
      (face exRecon1 exUpwindY exVolume d ⟨2, 2, 0⟩).1)) = _
    simp only [Finset.sum_range_succ, Finset.sum_range_zero, exFace, show (⟨2, 2, 0⟩ - I3.dir 1 : I3) = ⟨2, 1, 0⟩ from rfl, h22, h21]
    norm_num

end Verif.Props
