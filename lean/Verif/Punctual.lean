import Verif.WholeRun
import Verif.Props.Integrator

/-!
Runs whose writers are adjusters of the time step: what a step of nonnegative length preserves holds for the whole run, if the writers keep the adjusters from asking for negative steps.
-/

namespace Verif
namespace WholeRun
open Integrator Simulator NetFlux
variable {K V W σ : Type} [Field K] [LinearOrder K] [IsStrictOrderedRing K] [AddCommGroup V] [Module K V] [AddCommGroup W] [Module K W]

/-- The writers are never late. `Fine` is what they know of themselves between two steps: it holds after the first call, with it no adjuster enlarges a step or asks for a negative one, and it
holds again after a step of at most the length the adjusters ask for. Adjusters that never ask for a negative step are such with `Fine := fun _ _ => True`; `punctual_writers` shows it for
the writers of a configuration. -/
structure Punctual (writers : List (V → TimeInfo K → σ → Res σ)) (adj : σ → List (Adjuster K)) (wst : σ) (Fine : σ → TimeInfo K → Prop) : Prop where
  first : ∀ u wst', writers.foldlM (fun ws w => w u ⟨0, 0⟩ ws) wst = .ok wst' → Fine wst' ⟨0, 0⟩
  adjusters : ∀ wst info, Fine wst info → ∀ f ∈ adj wst, Props.Limits f info ∧ ∀ x, 0 ≤ x → 0 ≤ f x info
  next : ∀ wst info (dt : K), Fine wst info → 0 ≤ dt → (∀ f ∈ adj wst, (dt : WithTop K) ≤ f ⊤ info) → ∀ u wst',
    writers.foldlM (fun ws w => w u (info.increment dt) ws) wst = .ok wst' → Fine wst' (info.increment dt)

omit [IsStrictOrderedRing K] [AddCommGroup V] [Module K V] in
/-- Adjusters that never ask for a negative step. -/
theorem Punctual.always {writers : List (V → TimeInfo K → σ → Res σ)} {adj : σ → List (Adjuster K)} (wst : σ)
    (h : ∀ wst info, ∀ f ∈ adj wst, Props.Limits f info ∧ ∀ x, 0 ≤ x → 0 ≤ f x info) : Punctual writers adj wst fun _ _ => True :=
  ⟨fun _ _ _ => trivial, fun wst info _ => h wst info, fun _ _ _ _ _ _ _ _ _ => trivial⟩

/-- Time steps are not negative. -/
theorem timestep_nonneg (waveAdj : List (K → K)) (hwave : ∀ f ∈ waveAdj, ∀ w, w ≤ f w) (adj : List (Adjuster K)) (info : TimeInfo K)
    (hadj : ∀ f ∈ adj, ∀ x, 0 ≤ x → 0 ≤ f x info) (ws len : Nat → K) (hws : ∀ d, 0 ≤ ws d) (hlen : ∀ d, 0 ≤ len d) (cfl : K) (hcfl : 0 < cfl) (dt : K)
    (hdt : computeTimestep waveAdj adj ws len cfl info = dt) : 0 ≤ dt := by
  have hle : 0 ≤ waveSpeedTotal waveAdj ws len := by
    rw [Props.waveSpeedTotal_eq]
    exact Finset.sum_nonneg fun d _ => div_nonneg ((hws d).trans (Props.le_foldl_waveAdj waveAdj hwave (ws d))) (hlen d)
  have key : ∀ (l : List (Adjuster K)), (∀ f ∈ l, ∀ x, 0 ≤ x → 0 ≤ f x info) → ∀ x : WithTop K, 0 ≤ x → 0 ≤ adjustTimestep l x info := by
    intro l
    induction l with
    | nil => exact fun _ x hx => hx
    | cons f l ih => exact fun h x hx => ih (fun f hf => h f (by simp [hf])) _ (h f (by simp) x hx)
  have := key adj hadj (if waveSpeedTotal waveAdj ws len = 0 then ⊤ else ((cfl / waveSpeedTotal waveAdj ws len : K) : WithTop K)) (by
    split_ifs
    · exact le_top
    · exact_mod_cast div_nonneg hcfl.le hle)
  unfold computeTimestep at hdt
  rw [hdt] at this
  exact_mod_cast this

variable {c : Config V K σ} {int : V →ₗ[K] W} {F : W → W} {ws : W → Nat → K} {Ready : V → Prop} {P : W → Prop} {Fine : σ → TimeInfo K → Prop}

/-- What the time step computed by the code satisfies. -/
structure Steps (c : Config V K σ) (ws : W → Nat → K) : Prop where
  wave : ∀ f ∈ c.env.waveAdj, ∀ w, w ≤ f w
  speeds : ∀ w d, 0 ≤ ws w d
  len : ∀ d, 0 ≤ c.env.len d
  cfl : 0 < c.env.cfl

/-- A step of nonnegative length within the CFL condition. -/
def Preserves (c : Config V K σ) (F : W → W) (ws : W → Nat → K) (P : W → Prop) : Prop :=
  ∀ (w : W) (dt : K), P w → 0 ≤ dt → dt * Props.cflSum (ws w) c.env.len ≤ c.env.cfl → P (textbook c.kind (fun w => (1 / c.env.len 0) • F w) dt w)

/-- One step. -/
theorem step_punctual (hs : Sound c.env.sys c.bc int F ws Ready) (hst : Steps c ws) {wst0 : σ} (hpun : Punctual c.writers c.adjusters wst0 Fine) (hP : Preserves c F ws P)
    {s s1 : Sim V K σ} (h1 : incrementSolution c s = .ok s1) (hi : Inv c int Ready P s) (hf : Fine s.ws s.info) :
    Inv c int Ready P s1 ∧ s1.ws = s.ws ∧ ∃ dt, s1.info = s.info.increment dt ∧ 0 ≤ dt ∧ ∀ f ∈ c.adjusters s.ws, (dt : WithTop K) ≤ f ⊤ s.info := by
  obtain ⟨hl, ⟨u, hu, hr, hp⟩, hlog⟩ := hi
  obtain ⟨dt, hdt, hx⟩ := increment_finite c hs s s1 h1 u hu hr
  obtain ⟨s2, u', e1, e2, e3, e4, e5, e6, e7, e8⟩ := increment_ok c hs s hl u hu hr dt hdt hx
  rw [e1] at h1
  cases h1
  have hadj := hpun.adjusters _ _ hf
  have h0 := timestep_nonneg c.env.waveAdj hst.wave (c.adjusters s.ws) s.info (fun f hf => (hadj f hf).2) _ c.env.len (hst.speeds _) hst.len c.env.cfl hst.cfl dt hdt
  obtain ⟨h1, h2⟩ := Props.C32_cfl_and_adjusters c.env.waveAdj hst.wave (c.adjusters s.ws) s.info (fun f hf => (hadj f hf).1) _ c.env.len (hst.speeds _) hst.len c.env.cfl hst.cfl dt hdt
  exact ⟨⟨by rw [e3, hl], ⟨u', e2, e4, by rw [e5]; exact hP _ _ hp h0 h1⟩, by rw [e8]; exact hlog⟩, e7, dt, e6, h0, h2⟩

theorem performStep_punctual (hs : Sound c.env.sys c.bc int F ws Ready) (hst : Steps c ws) {wst0 : σ} (hpun : Punctual c.writers c.adjusters wst0 Fine) (hP : Preserves c F ws P)
    {s s' : Sim V K σ} (h : performStep c s = .ok s') (hi : Inv c int Ready P s) (hf : Fine s.ws s.info) : Inv c int Ready P s' ∧ Fine s'.ws s'.info := by
  unfold performStep at h
  obtain ⟨s1, h1, h⟩ := bind_ok h
  obtain ⟨-, -, h⟩ := bind_ok h
  obtain ⟨hi1, g1, dt, g2, g3, g4⟩ := step_punctual hs hst hpun hP h1 hi hf
  refine ⟨callWriters_keeps h hi1, ?_⟩
  obtain ⟨u, -, -, k3, k4, -⟩ := callWriters_inv h
  rw [k3, g2]
  exact hpun.next s.ws s.info dt hf g3 g4 u s'.ws (by rw [← g2, ← g1]; exact k4)

theorem loop_punctual (hs : Sound c.env.sys c.bc int F ws Ready) (hst : Steps c ws) {wst0 : σ} (hpun : Punctual c.writers c.adjusters wst0 Fine) (hP : Preserves c F ws P)
    (fuel : Nat) {s s' : Sim V K σ} (h : loop c fuel s = .ok (some s')) (hi : Inv c int Ready P s) (hf : Fine s.ws s.info) : Inv c int Ready P s' := by
  induction fuel generalizing s with
  | zero =>
    unfold loop at h
    split_ifs at h
    · cases h; exact hi
    · cases h
  | succ fuel ih =>
    unfold loop at h
    split_ifs at h
    · cases h; exact hi
    · obtain ⟨s1, h1, h2⟩ := bind_ok h
      obtain ⟨a, b⟩ := performStep_punctual hs hst hpun hP h1 hi hf
      exact ih h2 a b

/-- A property of the interior values that every step of nonnegative length within the CFL condition preserves holds for the final state of a run with punctual writers and for every state
handed to a writer. -/
theorem run_punctual (hs : Sound c.env.sys c.bc int F ws Ready) (hst : Steps c ws) (wst : σ) (hpun : Punctual c.writers c.adjusters wst Fine) (hP : Preserves c F ws P)
    (u : V) (others : List V) (hlen : others.length = c.kind.substeps) (h0 : P (int u)) (fuel : Nat) (s' : Sim V K σ)
    (h : (start c u others wst >>= run c fuel) = .ok (some s')) : (∃ u', s'.vols[0]? = some u' ∧ P (int u')) ∧ LogHas (fun v => P (int v)) s'.log := by
  obtain ⟨s0, h1, h2⟩ := bind_ok h
  unfold start at h1
  obtain ⟨v, hv, h1⟩ := bind_ok h1
  obtain ⟨v', e1, e2, e3⟩ := hs.bc_ok u
  rw [hv] at e1
  cases e1
  cases h1
  have hi : Inv c int Ready P ⟨v :: others, ⟨0, 0⟩, wst, []⟩ := ⟨by simp [hlen], ⟨v, rfl, e3, by rw [e2]; exact h0⟩, by intro call hc; simp at hc⟩
  unfold run at h2
  obtain ⟨s1, h3, h4⟩ := bind_ok h2
  have hf : Fine s1.ws s1.info := by
    obtain ⟨u, -, -, k3, k4, -⟩ := callWriters_inv h3
    rw [k3]
    exact hpun.first u s1.ws k4
  obtain ⟨-, ⟨u', g1, -, g2⟩, g3⟩ := loop_punctual hs hst hpun hP fuel h4 (callWriters_keeps h3 hi) hf
  exact ⟨⟨u', g1, g2⟩, g3⟩

/-- The check of the simulator does not matter if everything it sees is admissible. -/
theorem run_unchecked_punctual (hs : Sound c.env.sys c.bc int F ws Ready) (hst : Steps c ws) (wst : σ) (hpun : Punctual c.writers c.adjusters wst Fine) (hP : Preserves c F ws P)
    (hcheck : ∀ u, Ready u → P (int u) → c.obeys u = true) (u : V) (others : List V) (hlen : others.length = c.kind.substeps) (h0 : P (int u)) (fuel : Nat) :
    (start c u others wst >>= run c fuel) = (start { c with obeys := fun _ => true } u others wst >>= run { c with obeys := fun _ => true } fuel) := by
  have hstep : ∀ s : Sim V K σ, Inv c int Ready P s → Fine s.ws s.info → performStep c s = performStep { c with obeys := fun _ => true } s := by
    intro s hi hf
    have e : incrementSolution { c with obeys := fun _ => true } s = incrementSolution c s := rfl
    unfold performStep
    rw [e]
    cases h1 : incrementSolution c s with
    | error x => rfl
    | ok s1 =>
      obtain ⟨⟨-, ⟨u', e2, e4, e5⟩, -⟩, -⟩ := step_punctual hs hst hpun hP h1 hi hf
      have h2 : c.obeys u' = true := hcheck u' e4 e5
      simp only [Res.ok_bind, checkConstraints, at', e2, h2]
      rfl
  have hloop : ∀ (fuel : Nat) (s : Sim V K σ), Inv c int Ready P s → Fine s.ws s.info → loop c fuel s = loop { c with obeys := fun _ => true } fuel s := by
    intro fuel
    induction fuel with
    | zero => exact fun _ _ _ => rfl
    | succ fuel ih =>
      intro s hi hf
      have ea : atEnd { c with obeys := fun _ => true } s = atEnd c s := rfl
      unfold loop
      rw [ea, ← hstep s hi hf]
      split_ifs
      · rfl
      · cases h : performStep c s with
        | error x => rfl
        | ok s1 =>
          obtain ⟨a, b⟩ := performStep_punctual hs hst hpun hP h hi hf
          exact ih s1 a b
  obtain ⟨v, e1, e2, e3⟩ := hs.bc_ok u
  have hi : Inv c int Ready P ⟨v :: others, ⟨0, 0⟩, wst, []⟩ := ⟨by simp [hlen], ⟨v, rfl, e3, by rw [e2]; exact h0⟩, by intro call hc; simp at hc⟩
  have es : start { c with obeys := fun _ => true } u others wst = start c u others wst := rfl
  rw [es]
  have e0 : start c u others wst = .ok ⟨v :: others, ⟨0, 0⟩, wst, []⟩ := by simp [start, e1]
  rw [e0]
  change run c fuel _ = run _ fuel _
  unfold run
  have ec : callWriters { c with obeys := fun _ => true } (⟨v :: others, ⟨0, 0⟩, wst, []⟩ : Sim V K σ) = callWriters c ⟨v :: others, ⟨0, 0⟩, wst, []⟩ := rfl
  rw [ec]
  cases h : callWriters c (⟨v :: others, ⟨0, 0⟩, wst, []⟩ : Sim V K σ) with
  | error x => rfl
  | ok s1 =>
    refine hloop fuel s1 (callWriters_keeps h hi) ?_
    obtain ⟨u, -, -, k3, k4, -⟩ := callWriters_inv h
    rw [k3]
    exact hpun.first u s1.ws k4

end WholeRun
end Verif
