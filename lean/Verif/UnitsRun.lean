import Verif.Units
import Verif.Related

/-!
Two runs in different units of time: if a linear map takes the states of one simulator to those of another, multiplies the right hand side by a number and divides the time steps by it, the runs
correspond.
-/

namespace Verif
namespace UnitsRun
open Integrator Simulator NetFlux Related Symmetry

/-- The same point of a run, with the time in another unit. -/
noncomputable def scaleInfo (τ : ℝ) (i : TimeInfo ℝ) : TimeInfo ℝ := ⟨τ * i.time, i.steps⟩
/-- The same time step, in another unit. -/
noncomputable def scaleStep (τ : ℝ) (dt : WithTop ℝ) : WithTop ℝ := dt.map (τ * ·)

variable {V V' W W' σ σ' : Type} [AddCommGroup V] [Module ℝ V] [AddCommGroup W] [Module ℝ W] [AddCommGroup V'] [Module ℝ V'] [AddCommGroup W'] [Module ℝ W']

theorem textbook_scaled (S : W →ₗ[ℝ] W') {G : W → W} {G' : W' → W'} {τ : ℝ} (hτ : τ ≠ 0) (h : ∀ w, G' (S w) = τ⁻¹ • S (G w)) (k : Kind) (dt : ℝ) (w : W) :
    textbook k G' (τ * dt) (S w) = S (textbook k G dt w) := by
  have e : ∀ x : W, (τ * dt) • τ⁻¹ • S x = S (dt • x) := fun x => by
    rw [smul_smul, mul_right_comm, mul_inv_cancel₀ hτ, one_mul, map_smul]
  have e2 : ∀ x : W, (τ * dt / 2) • τ⁻¹ • S x = S ((dt / 2) • x) := fun x => by
    rw [smul_smul, show τ * dt / 2 * τ⁻¹ = dt / 2 by field_simp, map_smul]
  have e3 : ∀ x : W, (τ * dt) • τ⁻¹ • x = dt • x := fun x => by
    rw [smul_smul, mul_right_comm, mul_inv_cancel₀ hτ, one_mul]
  cases k
  · simp only [textbook, h, e, ← map_add]
  · simp only [textbook, h, e3, ← map_add, ← map_smul]
  · simp only [textbook, h, e3, ← map_add, ← map_smul]
  · simp only [textbook, h, e, e2, ← map_add]
    rw [smul_comm (2 : ℝ) τ⁻¹, smul_comm (2 : ℝ) τ⁻¹, ← smul_add, ← smul_add, ← smul_add, smul_smul, show τ * dt / 6 * τ⁻¹ = dt / 6 by field_simp]
    simp only [← map_smul, ← map_add]

/-- What makes the runs of two simulators correspond, see `Related.Alike`; times are multiplied by `τ`. -/
structure Scaled (τ : ℝ) (c : Config V ℝ σ) (c' : Config V' ℝ σ') (int : V →ₗ[ℝ] W) (int' : V' →ₗ[ℝ] W') (F : W → W) (F' : W' → W') (ws : W → Nat → ℝ) (ws' : W' → Nat → ℝ)
    (Ready : V → Prop) (Ready' : V' → Prop) (S : W →ₗ[ℝ] W') (Rw : σ → σ' → Prop) : Prop where
  pos : 0 < τ
  sound : Sound c.env.sys c.bc int F ws Ready
  sound' : Sound c'.env.sys c'.bc int' F' ws' Ready'
  kind : c'.kind = c.kind
  rhs : ∀ w, (1 / c'.env.len 0) • F' (S w) = τ⁻¹ • S ((1 / c.env.len 0) • F w)
  speed : ∀ w, waveSpeedTotal c'.env.waveAdj (ws' (S w)) c'.env.len = waveSpeedTotal c.env.waveAdj (ws w) c.env.len / τ
  len : c'.env.len 0 = 0 ↔ c.env.len 0 = 0
  cfl : c'.env.cfl = c.env.cfl
  endTime : c'.endTime = τ * c.endTime
  obeys : ∀ v v', Ready v → Ready' v' → int' v' = S (int v) → c'.obeys v' = c.obeys v
  adjusters : ∀ st st', Rw st st' → List.Forall₂ (fun f f' => ∀ dt i, f' (scaleStep τ dt) (scaleInfo τ i) = scaleStep τ (f dt i)) (c.adjusters st) (c'.adjusters st')
  writers : List.Forall₂ (fun f f' => ∀ v v' i st st', int' v' = S (int v) → Rw st st' → RelRes Rw (f v i st) (f' v' (scaleInfo τ i) st')) c.writers c'.writers

/-- Calls of writers that belong together. -/
def RelCall (τ : ℝ) (int : V →ₗ[ℝ] W) (int' : V' →ₗ[ℝ] W') (S : W →ₗ[ℝ] W') (a : Call V ℝ) (b : Call V' ℝ) : Prop :=
  b.writer = a.writer ∧ b.info = scaleInfo τ a.info ∧ int' b.state = S (int a.state)

/-- Simulators in corresponding states. -/
structure RelSim (τ : ℝ) (c : Config V ℝ σ) (c' : Config V' ℝ σ') (int : V →ₗ[ℝ] W) (int' : V' →ₗ[ℝ] W') (Ready : V → Prop) (Ready' : V' → Prop) (S : W →ₗ[ℝ] W') (Rw : σ → σ' → Prop)
    (s : Sim V ℝ σ) (s' : Sim V' ℝ σ') : Prop where
  length : s.vols.length = c.kind.substeps + 1
  length' : s'.vols.length = c'.kind.substeps + 1
  state : ∃ u u', s.vols[0]? = some u ∧ s'.vols[0]? = some u' ∧ Ready u ∧ Ready' u' ∧ int' u' = S (int u)
  info : s'.info = scaleInfo τ s.info
  ws : Rw s.ws s'.ws
  log : List.Forall₂ (RelCall τ int int' S) s.log s'.log

variable {τ : ℝ} {c : Config V ℝ σ} {int : V →ₗ[ℝ] W} {F : W → W} {ws : W → Nat → ℝ} {Ready : V → Prop}
  {c' : Config V' ℝ σ'} {int' : V' →ₗ[ℝ] W'} {F' : W' → W'} {ws' : W' → Nat → ℝ} {Ready' : V' → Prop} {S : W →ₗ[ℝ] W'} {Rw : σ → σ' → Prop}

theorem adjust_scaled {l l' : List (Adjuster ℝ)} (h : List.Forall₂ (fun f f' => ∀ dt i, f' (scaleStep τ dt) (scaleInfo τ i) = scaleStep τ (f dt i)) l l') (dt : WithTop ℝ) (i : TimeInfo ℝ) :
    adjustTimestep l' (scaleStep τ dt) (scaleInfo τ i) = scaleStep τ (adjustTimestep l dt i) := by
  unfold adjustTimestep
  induction h generalizing dt with
  | nil => rfl
  | cons h _ ih => simp only [List.foldl_cons, h, ih]

theorem increment_scaled (ha : Scaled τ c c' int int' F F' ws ws' Ready Ready' S Rw) {s : Sim V ℝ σ} {s' : Sim V' ℝ σ'} (h : RelSim τ c c' int int' Ready Ready' S Rw s s') :
    RelRes (RelSim τ c c' int int' Ready Ready' S Rw) (incrementSolution c s) (incrementSolution c' s') := by
  obtain ⟨hl, hl', ⟨u, u', hu, hu', hr, hr', hS⟩, hi, hw, hlog⟩ := h
  have hτ := ha.pos
  have hdt : computeTimestep c'.env.waveAdj (c'.adjusters s'.ws) (ws' (int' u')) c'.env.len c'.env.cfl s'.info =
      scaleStep τ (computeTimestep c.env.waveAdj (c.adjusters s.ws) (ws (int u)) c.env.len c.env.cfl s.info) := by
    unfold computeTimestep
    rw [hS, ha.speed, ha.cfl, hi, ← adjust_scaled (ha.adjusters _ _ hw)]
    congr 1
    by_cases h0 : waveSpeedTotal c.env.waveAdj (ws (int u)) c.env.len = 0
    · rw [if_pos (by rw [h0, zero_div]), if_pos h0]; rfl
    · rw [if_neg (div_ne_zero h0 hτ.ne'), if_neg h0]
      refine congrArg WithTop.some ?_
      field_simp
  by_cases hx : c.env.len 0 = 0
  · rw [increment_error c ha.sound s hl u hu hr (.inr hx), increment_error c' ha.sound' s' hl' u' hu' hr' (.inr (ha.len.2 hx))]
    rfl
  cases hd : computeTimestep c.env.waveAdj (c.adjusters s.ws) (ws (int u)) c.env.len c.env.cfl s.info with
  | top =>
    rw [increment_error c ha.sound s hl u hu hr (.inl hd), increment_error c' ha.sound' s' hl' u' hu' hr' (.inl (hdt.trans (by rw [hd]; rfl)))]
    rfl
  | coe dt =>
    obtain ⟨t, v, e1, e2, e3, e4, e5, e6, e7, e8⟩ := increment_ok c ha.sound s hl u hu hr dt hd hx
    obtain ⟨t', v', g1, g2, g3, g4, g5, g6, g7, g8⟩ := increment_ok c' ha.sound' s' hl' u' hu' hr' (τ * dt) (hdt.trans (by rw [hd]; rfl)) (fun h => hx (ha.len.1 h))
    rw [e1, g1]
    refine ⟨e3.trans hl, g3.trans hl', ⟨v, v', e2, g2, e4, g4, ?_⟩, ?_, by rw [e7, g7]; exact hw, by rw [e8, g8]; exact hlog⟩
    · rw [e5, g5, ha.kind, hS]
      exact textbook_scaled S hτ.ne' ha.rhs _ _ _
    · rw [e6, g6, hi]
      simp only [TimeInfo.increment, scaleInfo, mul_add]

theorem callWriters_scaled (ha : Scaled τ c c' int int' F F' ws ws' Ready Ready' S Rw) {s : Sim V ℝ σ} {s' : Sim V' ℝ σ'} (h : RelSim τ c c' int int' Ready Ready' S Rw s s') :
    RelRes (RelSim τ c c' int int' Ready Ready' S Rw) (callWriters c s) (callWriters c' s') := by
  obtain ⟨hl, hl', ⟨u, u', hu, hu', hr, hr', hS⟩, hi, hw, hlog⟩ := h
  unfold callWriters
  rw [show at' s.vols 0 = .ok u by simp [at', hu], show at' s'.vols 0 = .ok u' by simp [at', hu']]
  simp only [Res.ok_bind]
  refine RelRes.bind (R := fun a b => Rw a.1 b.1 ∧ List.Forall₂ (RelCall τ int int' S) a.2 b.2) (foldlM_rel ?_ ⟨hw, hlog⟩) ?_
  · refine (forall₂_zipIdx ha.writers 0).imp ?_
    rintro ⟨f, i⟩ ⟨f', i'⟩ ⟨hf, rfl⟩ ⟨st, lg⟩ ⟨st', lg'⟩ ⟨h1, h2⟩
    rw [hi]
    exact (hf u u' s.info st st' hS h1).bind fun a b hab => ⟨hab, List.rel_append h2 (.cons ⟨rfl, rfl, hS⟩ .nil)⟩
  · rintro ⟨st, lg⟩ ⟨st', lg'⟩ ⟨h1, h2⟩
    exact ⟨hl, hl', ⟨u, u', hu, hu', hr, hr', hS⟩, hi, h1, h2⟩

theorem performStep_scaled (ha : Scaled τ c c' int int' F F' ws ws' Ready Ready' S Rw) {s : Sim V ℝ σ} {s' : Sim V' ℝ σ'} (h : RelSim τ c c' int int' Ready Ready' S Rw s s') :
    RelRes (RelSim τ c c' int int' Ready Ready' S Rw) (performStep c s) (performStep c' s') := by
  unfold performStep
  refine (increment_scaled ha h).bind fun t t' ht => ?_
  obtain ⟨u, u', hu, hu', hr, hr', hS⟩ := ht.state
  have hc : checkConstraints c' t' = checkConstraints c t := by
    simp [checkConstraints, at', hu, hu', ha.obeys u u' hr hr' hS]
  rw [hc]
  cases checkConstraints c t with
  | error e => exact rfl
  | ok a => exact callWriters_scaled ha ht

theorem loop_scaled (ha : Scaled τ c c' int int' F F' ws ws' Ready Ready' S Rw) (fuel : Nat) {s : Sim V ℝ σ} {s' : Sim V' ℝ σ'} (h : RelSim τ c c' int int' Ready Ready' S Rw s s') :
    RelRes (RelOpt (RelSim τ c c' int int' Ready Ready' S Rw)) (loop c fuel s) (loop c' fuel s') := by
  have he : ∀ {s : Sim V ℝ σ} {s' : Sim V' ℝ σ'}, RelSim τ c c' int int' Ready Ready' S Rw s s' → atEnd c' s' = atEnd c s := fun h => by
    unfold atEnd
    rw [ha.endTime, h.info]
    simp only [scaleInfo, mul_le_mul_iff_right₀ ha.pos]
  induction fuel generalizing s s' with
  | zero =>
    unfold loop
    rw [he h]
    split_ifs
    · exact h
    · trivial
  | succ fuel ih =>
    unfold loop
    rw [he h]
    split_ifs
    · exact h
    · exact (performStep_scaled ha h).bind fun t t' ht => ih ht

theorem run_scaled (ha : Scaled τ c c' int int' F F' ws ws' Ready Ready' S Rw) (fuel : Nat) (u : V) (u' : V') (hS : int' u' = S (int u)) (others : List V) (others' : List V')
    (hl : others.length = c.kind.substeps) (hl' : others'.length = c'.kind.substeps) (wst : σ) (wst' : σ') (hw : Rw wst wst') :
    RelRes (RelOpt (RelSim τ c c' int int' Ready Ready' S Rw)) (start c u others wst >>= run c fuel) (start c' u' others' wst' >>= run c' fuel) := by
  obtain ⟨v, e1, e2, e3⟩ := ha.sound.bc_ok u
  obtain ⟨v', g1, g2, g3⟩ := ha.sound'.bc_ok u'
  refine RelRes.bind (R := RelSim τ c c' int int' Ready Ready' S Rw) ?_ fun s s' h => ?_
  · simp only [start, e1, g1, Res.ok_bind]
    exact ⟨by simp [hl], by simp [hl'], ⟨v, v', rfl, rfl, e3, g3, by rw [e2, g2, hS]⟩, by simp [scaleInfo], hw, .nil⟩
  · unfold run
    exact (callWriters_scaled ha h).bind fun t t' ht => loop_scaled ha fuel ht

/-! ### Schemes -/

section
variable {b : BC} {g dims : Nat} {n G active : I3} {r : Recon V} {fl : FluxFn V ℝ} {T : V →ₗ[ℝ] V} {φ : ℝ}

/-- The flux of transformed values is the transformed flux times `φ`, the wave speed is multiplied by `φ`. -/
def LineScaled (r : Recon V) (fl : FluxFn V ℝ) (T : V → V) (φ : ℝ) (d : Nat) : Prop := ∀ a : Int → V, line r fl d (fun o => T (a o)) = (φ • T (line r fl d a).1, φ * (line r fl d a).2)

theorem lineScaled_of {F : Nat → V → V → V × ℝ} {d : Nat} (hr : ReconKeep r T d d) (hF : ∀ l r, F d (T l) (T r) = (φ • T (F d l r).1, φ * (F d l r).2)) :
    LineScaled r (EulerRun.twoPoint F) T φ d := by
  intro a
  simp only [line, EulerRun.twoPoint, List.map_cons, List.map_nil, List.headD_cons]
  rw [(hr fun o => a (0 + o)).2, (hr fun o => a (1 + o)).1, hF]

/-- The map of the states of the cells. -/
def cellwise (n G : I3) (T : V →ₗ[ℝ] V) : (Step.Cells n G → V) →ₗ[ℝ] (Step.Cells n G → V) where
  toFun w p := T (w p)
  map_add' _ _ := by funext p; simp
  map_smul' _ _ := by funext p; simp

theorem extend_scaled (w : Step.Cells n G → V) : Step.extend b n G g dims (cellwise n G T w) = fun p => T (Step.extend b n G g dims w p) := by
  funext p
  unfold Step.extend
  split_ifs
  · rfl
  · simp

theorem face_scaled {d : Nat} (h : LineScaled r fl T φ d) (u : I3 → V) (q : I3) : face r fl (fun p => T (u p)) d q = (φ • T (face r fl u d q).1, φ * (face r fl u d q).2) := by
  rw [face_line, face_line, h]

theorem rhs_scaled (h : ∀ d < dims, LineScaled r fl T φ d) (w : Step.Cells n G → V) :
    Step.rhs b dims r fl n G g (cellwise n G T w) = φ • cellwise n G T (Step.rhs b dims r fl n G g w) := by
  funext p
  show net dims r fl _ p = φ • T (net dims r fl _ p)
  rw [extend_scaled]
  simp only [net]
  rw [map_list_sum, List.smul_sum, List.map_map, List.map_map]
  congr 1
  refine List.map_congr_left fun d hd => ?_
  simp only [Function.comp, face_scaled (h d (List.mem_range.1 hd)), map_sub, smul_sub]

theorem waves_scaled (hφ : 0 < φ) (hL : Layout n G active dims g) (hf : Fits r fl g) (hN : ∀ d < dims, 3 * G.get d ≤ n.get d) (hpos : 0 < dims) {work work' : NetFlux.State V ℝ} (hw : Sized n work)
    (hw' : Sized n work') (h : ∀ d < dims, LineScaled r fl T φ d) (w : Step.Cells n G → V) (d : Nat) :
    Step.waves b dims r fl n G active g work' (cellwise n G T w) d = φ * Step.waves b dims r fl n G active g work w d := by
  obtain ⟨a1, a2⟩ := waves_greatest (b := b) hL hf hN hpos hw w
  obtain ⟨b1, b2⟩ := waves_greatest (b := b) hL hf hN hpos hw' (cellwise n G T w)
  by_cases hd : d < dims
  · refine (b1 d hd).unique ?_
    rw [extend_scaled]
    obtain ⟨m1, m2⟩ := a1 d hd
    have hs : ∀ x, x ∈ speeds r fl (fun p => T (Step.extend b n G g dims w p)) n G 0 0 d ↔ ∃ y ∈ speeds r fl (Step.extend b n G g dims w) n G 0 0 d, x = φ * y := by
      intro x
      simp only [speeds, Set.mem_union, Set.mem_singleton_iff, Set.mem_ofPred_eq, face_scaled (h d hd)]
      constructor
      · rintro (rfl | ⟨q, hq, rfl⟩)
        · exact ⟨0, .inl rfl, by ring⟩
        · exact ⟨_, .inr ⟨q, hq, rfl⟩, rfl⟩
      · rintro ⟨y, rfl | ⟨q, hq, rfl⟩, rfl⟩
        · exact .inl (by ring)
        · exact .inr ⟨q, hq, rfl⟩
    refine ⟨(hs _).2 ⟨_, m1, rfl⟩, fun x hx => ?_⟩
    obtain ⟨y, hy, rfl⟩ := (hs x).1 hx
    exact mul_le_mul_of_nonneg_left (m2 hy) hφ.le
  · rw [b2 d (by omega), a2 d (by omega), mul_zero]

theorem adjusted_scaled {waveAdj : List (ℝ → ℝ)} (h : ∀ f ∈ waveAdj, ∀ x, f (φ * x) = φ * f x) (x : ℝ) : waveAdj.foldl (fun w f => f w) (φ * x) = φ * waveAdj.foldl (fun w f => f w) x := by
  induction waveAdj generalizing x with
  | nil => rfl
  | cons f l ih =>
    simp only [List.foldl_cons]
    rw [h f (by simp), ih fun f hf => h f (by simp [hf])]

theorem total_scaled {κ : ℝ} (hκ : 0 < κ) {waveAdj : List (ℝ → ℝ)} (h : ∀ f ∈ waveAdj, ∀ x, f (φ * x) = φ * f x) {ws ws' len len' : Nat → ℝ} (hws : ∀ d, ws' d = φ * ws d) (hlen : ∀ d, len' d = κ * len d) :
    waveSpeedTotal waveAdj ws' len' = waveSpeedTotal waveAdj ws len / (κ / φ) := by
  simp only [waveSpeedTotal, List.range_succ, List.range_zero, List.nil_append, List.cons_append, List.foldl_cons, List.foldl_nil, hws, hlen, adjusted_scaled h, mul_eq_zero, hκ.ne', false_or]
  split_ifs <;> field_simp <;> simp
  all_goals try ring

/-- Results of runs that belong together: as in `Symmetry.SameRuns`, with the times multiplied by `τ`. -/
def Runs {σ : Type} (Rel : (I3 → V) → (I3 → V) → Prop) (τ : ℝ) : Res (Option (Sim (I3 → V) ℝ σ)) → Res (Option (Sim (I3 → V) ℝ σ)) → Prop :=
  RelRes (RelOpt fun s s' => s'.info = scaleInfo τ s.info ∧ s'.ws = s.ws ∧ (∃ v v', s.vols[0]? = some v ∧ s'.vols[0]? = some v' ∧ Rel v v') ∧
    List.Forall₂ (fun call call' => call'.writer = call.writer ∧ call'.info = scaleInfo τ call.info ∧ Rel call.state call'.state) s.log s'.log)

theorem run_units {κ : ℝ} (hκ : 0 < κ) (hφ : 0 < φ) (hL : Layout n G active dims g) (hf : Fits r fl g) (hN : ∀ d < dims, 3 * G.get d ≤ n.get d)
    (hpos : 0 < dims) {work work' : NetFlux.State V ℝ} (hw : Sized n work) (hw' : Sized n work') (h : ∀ d < dims, LineScaled r fl T φ d)
    (k : Kind) (waveAdj : List (ℝ → ℝ)) (hadj : ∀ f ∈ waveAdj, ∀ x, f (φ * x) = φ * f x) (len len' : Nat → ℝ) (hlen : ∀ d, len' d = κ * len d) (cfl endTime : ℝ) (obeys obeys' : (I3 → V) → Bool)
    (hobeys : ∀ v v' : I3 → V, (∀ p, IsInterior n G p → v' p = T (v p)) → obeys' v' = obeys v) (writers writers' : List ((I3 → V) → TimeInfo ℝ → σ → Res σ))
    (hwr : List.Forall₂ (fun f f' => ∀ v v' i st, f' v' (scaleInfo (κ / φ) i) st = f v i st) writers writers') (adj adj' : σ → List (Adjuster ℝ))
    (hadjs : ∀ st, List.Forall₂ (fun f f' => ∀ dt i, f' (scaleStep (κ / φ) dt) (scaleInfo (κ / φ) i) = scaleStep (κ / φ) (f dt i)) (adj st) (adj' st))
    (c c' : Config (I3 → V) ℝ σ) (hc : c = ⟨k, ⟨Step.cpuSystem dims r fl n G active work, waveAdj, len, cfl⟩, Step.cpuBoundary b n g dims, obeys, writers, adj, endTime⟩)
    (hc' : c' = ⟨k, ⟨Step.cpuSystem dims r fl n G active work', waveAdj, len', cfl⟩, Step.cpuBoundary b n g dims, obeys', writers', adj', κ / φ * endTime⟩)
    (u u' : I3 → V) (hu : ∀ p, IsInterior n G p → u' p = T (u p)) (others others' : List (I3 → V)) (ho : others.length = k.substeps) (ho' : others'.length = k.substeps) (wst : σ) (fuel : Nat) :
    Runs (fun v v' => ∀ p, IsInterior n G p → v' p = T (v p)) (κ / φ) (start c u others wst >>= run c fuel) (start c' u' others' wst >>= run c' fuel) := by
  subst hc hc'
  have hRel : ∀ v v' : I3 → V, (∀ p, IsInterior n G p → v' p = T (v p)) ↔ Step.int (K := ℝ) n G v' = cellwise n G T (Step.int (K := ℝ) n G v) :=
    fun _ _ => ⟨fun h => funext fun p => h p p.2, fun h p hp => congrFun h ⟨p, hp⟩⟩
  have ha := run_scaled (τ := κ / φ) (S := cellwise n G T) (Rw := Eq)
    (c := (⟨k, ⟨Step.cpuSystem dims r fl n G active work, waveAdj, len, cfl⟩, Step.cpuBoundary b n g dims, obeys, writers, adj, endTime⟩ : Config (I3 → V) ℝ σ))
    (c' := (⟨k, ⟨Step.cpuSystem dims r fl n G active work', waveAdj, len', cfl⟩, Step.cpuBoundary b n g dims, obeys', writers', adj', κ / φ * endTime⟩ : Config (I3 → V) ℝ σ))
    ⟨div_pos hκ hφ, Step.sound (b := b) hL hf hN hpos hw, Step.sound (b := b) hL hf hN hpos hw', rfl, by
        intro w
        rw [rhs_scaled h, map_smul, smul_smul, smul_smul]
        congr 1
        show 1 / len' 0 * φ = (κ / φ)⁻¹ * (1 / len 0)
        rw [hlen]
        field_simp,
      fun w => total_scaled hκ hadj (fun d => waves_scaled hφ hL hf hN hpos hw hw' h w d) hlen, by
        show len' 0 = 0 ↔ len 0 = 0
        rw [hlen]
        simp [hκ.ne'], rfl, rfl,
      fun v v' _ _ h => hobeys v v' ((hRel v v').2 h), fun st st' h => by subst h; exact hadjs st, by
        refine hwr.imp fun f f' hf v v' info st st' _ hst => ?_
        subst hst
        rw [hf]
        cases f v info st <;> rfl⟩
    fuel u u' ((hRel u u').1 hu) others others' ho ho' wst wst rfl
  refine ha.mono ?_
  intro a a' h
  cases a <;> cases a' <;> try exact h
  obtain ⟨-, -, ⟨v, v', h1, h2, -, -, h3⟩, h4, h5, h6⟩ := h
  exact ⟨h4, h5.symm, ⟨v, v', h1, h2, (hRel v v').2 h3⟩, h6.imp fun a a' ⟨i1, i2, i3⟩ => ⟨i1, i2, (hRel _ _).2 i3⟩⟩

/-- Nothing is changed by the identity. -/
theorem lineScaled_id (r : Recon V) (fl : FluxFn V ℝ) (d : Nat) : LineScaled r fl (LinearMap.id (R := ℝ) (M := V)) 1 d := fun a => by simp

theorem lineScaled_comp {T' : V →ₗ[ℝ] V} {ψ : ℝ} {d : Nat} (h : LineScaled r fl T φ d) (h' : LineScaled r fl T' ψ d) : LineScaled r fl (T' ∘ₗ T) (ψ * φ) d := by
  intro a
  have := h' fun o => T (a o)
  simp only [LinearMap.comp_apply]
  rw [this, h a]
  simp only [map_smul, smul_smul, mul_assoc]

end

/-! ### Scalar equations -/

section

theorem times_max {a : ℝ} (ha : 0 < a) (x : ℝ) : max (a * x) 0 = a * max x 0 := by rw [mul_max_of_nonneg _ _ ha.le, mul_zero]
theorem times_min {a : ℝ} (ha : 0 < a) (x : ℝ) : min (a * x) 0 = a * min x 0 := by rw [mul_min_of_nonneg _ _ ha.le, mul_zero]

theorem burgers_scaled {a : ℝ} (ha : 0 < a) {name : String} (hname : name = "central" ∨ name = "rusanov" ∨ name = "godunov" ∨ name = "roe") {F : Flux.Selected}
    (hsel : Flux.select .burgers name = some F) (l r : ℝ) : F.fn [a * l, a * r] = (a * (a * (F.fn [l, r]).1), a * (F.fn [l, r]).2) := by
  have hs : Flux.twoPointSpeed Flux.burgers (a * l) (a * r) = a * Flux.twoPointSpeed Flux.burgers l r := by
    simp only [Flux.twoPointSpeed, Flux.burgers, abs_mul, abs_of_pos ha, mul_max_of_nonneg _ _ ha.le]
  rcases hname with rfl | rfl | rfl | rfl <;> (simp only [Flux.select, Option.some.injEq] at hsel; subst hsel) <;> refine Prod.ext ?_ hs
  · simp only [Flux.two, Flux.central, Flux.burgers]; ring
  · simp only [Flux.two, Flux.rusanov, Flux.burgers, abs_mul, abs_of_pos ha, ← mul_max_of_nonneg _ _ ha.le]; ring
  · simp only [Flux.two, Flux.godunov, Flux.burgers, times_max ha, times_min ha]
    generalize max l 0 = x
    generalize min r 0 = y
    rw [mul_max_of_nonneg _ _ ha.le, mul_max_of_nonneg _ _ ha.le]
    congr 1 <;> ring
  · simp only [Flux.two, Flux.burgersRoe, Flux.burgers, times_max ha, times_min ha, ← mul_neg, ge_iff_le, mul_le_mul_iff_right₀ ha]
    split_ifs <;> ring

theorem cubic_scaled {a : ℝ} (ha : 0 < a) {name : String} {F : Flux.Selected} (hsel : Flux.select .cubic name = some F) (l r : ℝ) :
    F.fn [a * l, a * r] = (a ^ 2 * (a * (F.fn [l, r]).1), a ^ 2 * (F.fn [l, r]).2) := by
  have hq : ∀ x : ℝ, a * x * (a * x) = a ^ 2 * (x * x) := fun x => by ring
  have ha2 : (0 : ℝ) < a ^ 2 := by positivity
  have hs : Flux.twoPointSpeed Flux.cubic (a * l) (a * r) = a ^ 2 * Flux.twoPointSpeed Flux.cubic l r := by
    simp only [Flux.twoPointSpeed, Flux.cubic, hq]
    rw [abs_mul (a ^ 2), abs_mul (a ^ 2), abs_of_pos ha2, mul_max_of_nonneg _ _ ha2.le]
  unfold Flux.select at hsel
  split at hsel <;> simp_all only [reduceCtorEq, Option.some.injEq] <;> subst hsel <;> refine Prod.ext ?_ hs
  · simp only [Flux.two, Flux.central, Flux.cubic]; ring
  · simp only [Flux.two, Flux.cubicRoe]
    have hc : ∀ x, Flux.cubic.flux (a * x) = a ^ 2 * (a * Flux.cubic.flux x) := fun x => by simp only [Flux.cubic]; ring
    have hA : (if a * l ≠ a * r then (Flux.cubic.flux (a * l) - Flux.cubic.flux (a * r)) / (a * l - a * r) else a * l * (a * l)) =
        a ^ 2 * (if l ≠ r then (Flux.cubic.flux l - Flux.cubic.flux r) / (l - r) else l * l) := by
      by_cases h : l = r
      · subst h
        rw [if_neg (by simp), if_neg (by simp), hq]
      · have h' : l - r ≠ 0 := sub_ne_zero.2 h
        rw [if_pos (fun e => h (mul_left_cancel₀ ha.ne' e)), if_pos h, hc, hc, ← mul_sub a l r]
        field_simp
    rw [hA, hc, hc]
    simp only [ge_iff_le, mul_nonneg_iff_of_pos_left ha2]
    split_ifs <;> rfl
  · simp only [Flux.two, Flux.rusanov, Flux.cubic, hq]
    rw [abs_mul (a ^ 2), abs_mul (a ^ 2), abs_of_pos ha2, ← mul_max_of_nonneg _ _ ha2.le]
    ring

theorem scalar_line {r : Recon ℝ} (hr : ScalarUnitless r) {a φ : ℝ} (ha : 0 < a) {F : ℝ → ℝ → ℝ × ℝ} (hF : ∀ l r, F (a * l) (a * r) = (φ * (a * (F l r).1), φ * (F l r).2)) (d : Nat) :
    LineScaled r (ScalarRun.twoPoint F) (times ℝ a) φ d :=
  lineScaled_of (F := fun _ => F) (scalarUnitless_times hr ha d) fun l r => hF l r

end

/-! ### The Euler equations -/

section
open Euler EulerFlux
variable {m : Nat} {γ c : ℝ}

/-- Another unit of velocity: momentum times `c`, energy times `c^2`. -/
noncomputable def faster (m : Nat) (c : ℝ) : Cons m →ₗ[ℝ] Cons m where
  toFun U := (U.1, c • U.2.1, c ^ 2 * U.2.2)
  map_add' U V := by
    refine Prod.ext rfl (Prod.ext ?_ ?_)
    · exact smul_add _ _ _
    · exact mul_add _ _ _
  map_smul' x U := by
    refine Prod.ext rfl (Prod.ext ?_ ?_)
    · exact smul_comm _ _ _
    · exact mul_left_comm _ _ _

theorem rho_faster (U : Cons m) : (faster m c U).1 = U.1 := rfl
theorem m_faster (U : Cons m) (i : Fin m) : (faster m c U).2.1 i = c * U.2.1 i := rfl
theorem E_faster (U : Cons m) : (faster m c U).2.2 = c ^ 2 * U.2.2 := rfl

open Eno Weno in
theorem eno_mixed {k M : Nat} {ind : Fin M} {ε : Fin M → ℝ} (h2 : 2 ≤ k) (h4 : k ≤ 4) (hε : ε ind ≠ 0) (d e : Nat) : ReconKeep (enoRecon k ind) (mixed ε id) d e := by
  refine line_keep (eno_local h2 h4 ind).1 (eno_local h2 h4 ind).2 (fun f => ?_) (fun f => ?_) d e <;>
    simp only [value_mixed] <;> simp only [mixed, id, shiftOf_times hε]

open Eno Weno in
theorem unitless_mixed {M : Nat} {ind : Fin M} {ε : Fin M → ℝ} (hε : ∀ i, 0 < ε i) {r : Recon (Vec M)} (h : Unitless ind r) (d e : Nat) : ReconKeep r (mixed ε id) d e := by
  cases h with
  | mm =>
    refine line_keep (local3 fun l c r i => (Limiter.mm (l i) (c i) (r i)).1) (local3 fun l c r i => (Limiter.mm (l i) (c i) (r i)).2) (fun f => funext fun i => ?_) (fun f => funext fun i => ?_) d e <;>
      simp only [mixed, mm_times (hε _), id]
  | mc =>
    refine line_keep (local3 fun l c r i => (Limiter.mc (l i) (c i) (r i)).1) (local3 fun l c r i => (Limiter.mc (l i) (c i) (r i)).2) (fun f => funext fun i => ?_) (fun f => funext fun i => ?_) d e <;>
      simp only [mixed, mc_times (hε _), id]
  | eno h2 h4 => exact eno_mixed h2 h4 (hε _).ne' d e

/-- What `faster` does to the variables in their order. -/
noncomputable def weights (m : Nat) (c : ℝ) : Fin (m + 2) → ℝ := eulerVec m (1, fun _ => c, c ^ 2)

theorem faster_vec (c : ℝ) (U : Cons m) : eulerVec m (faster m c U) = mixed (weights m c) id (eulerVec m U) := by
  funext i
  simp only [mixed, id, weights]
  refine Fin.cases ?_ (fun j => ?_) i
  · simp [eulerVec, faster]
  · refine Fin.lastCases ?_ (fun j => ?_) j
    · simp [eulerVec, faster]
    · simp [eulerVec, faster]

theorem weights_pos (hc : 0 < c) (i : Fin (m + 2)) : 0 < weights m c i := by
  unfold weights
  refine Fin.cases ?_ (fun j => ?_) i
  · simp [eulerVec]
  · refine Fin.lastCases ?_ (fun j => ?_) j
    · simp [eulerVec, hc]
    · simp [eulerVec, hc]

theorem eulerUnitless_faster {r : Recon (Cons m)} (h : EulerUnitless m r) (hc : 0 < c) (d : Nat) : ReconKeep r (faster m c) d d := by
  cases h with
  | none => exact none_keep _ d d
  | line h => exact via_keep (faster_vec c) (unitless_mixed (weights_pos hc) h d d)

theorem velocity_faster (U : Cons m) (i : Fin m) : velocity (faster m c U) i = c * velocity U i := by
  simp only [velocity, Cons.m, Cons.rho, m_faster, rho_faster, mul_div_assoc]

theorem pressure_faster (U : Cons m) : pressure γ (faster m c U) = c ^ 2 * pressure γ U := by
  have hd : dot (faster m c U).2.1 (faster m c U).2.1 = c ^ 2 * dot U.2.1 U.2.1 := by
    simp only [dot, m_faster, Finset.mul_sum]
    exact Finset.sum_congr rfl fun i _ => by ring
  simp only [pressure, Cons.E, Cons.m, Cons.rho, E_faster, rho_faster, hd]
  ring

theorem obeys_faster (hc : 0 < c) (U : Cons m) : obeysConstraints γ (faster m c U) ↔ obeysConstraints γ U := by
  simp only [obeysConstraints, Cons.rho, rho_faster, pressure_faster, gt_iff_lt, mul_pos_iff_of_pos_left (pow_pos hc 2)]

theorem sqrt_faster (hc : 0 < c) (x : ℝ) : Real.sqrt (c ^ 2 * x) = c * Real.sqrt x := by
  rw [Real.sqrt_mul (by positivity), Real.sqrt_sq hc.le]

theorem sound_faster (hc : 0 < c) (U : Cons m) : soundSpeed γ (faster m c U) = c * soundSpeed γ U := by
  simp only [soundSpeed, Cons.rho, rho_faster, pressure_faster]
  rw [mul_left_comm, mul_div_assoc, sqrt_faster hc]

theorem wave_faster (hc : 0 < c) (d : Fin m) (U : Cons m) : waveSpeed γ d (faster m c U) = c * waveSpeed γ d U := by
  simp only [waveSpeed, Cons.rho, rho_faster, pressure_faster, velocity_faster]
  rw [mul_left_comm γ, mul_div_assoc, sqrt_faster hc, abs_mul, abs_of_pos hc, mul_add]

theorem flux_faster (d : Fin m) (U : Cons m) : flux γ d (faster m c U) = c • faster m c (flux γ d U) := by
  simp only [flux, velocity_faster, pressure_faster]
  refine Prod.ext rfl (Prod.ext (funext fun i => ?_) ?_)
  · show c * velocity U d * (c * U.2.1 i) + (if i = d then c ^ 2 * pressure γ U else 0) = c * (c * (velocity U d * U.2.1 i + if i = d then pressure γ U else 0))
    split_ifs <;> ring
  · show (c ^ 2 * U.2.2 + c ^ 2 * pressure γ U) * (c * velocity U d) = c * (c ^ 2 * ((U.2.2 + pressure γ U) * velocity U d))
    ring

theorem meanVelocity_faster (d : Fin m) (L R : Cons m) : meanVelocity d (faster m c L) (faster m c R) = c * meanVelocity d L R := by
  simp only [meanVelocity, velocity_faster, Cons.rho, rho_faster]
  ring

theorem meanPressure_faster (L R : Cons m) : meanPressure γ (faster m c L) (faster m c R) = c ^ 2 * meanPressure γ L R := by
  simp only [meanPressure, pressure_faster, Cons.rho, rho_faster]
  ring

theorem meanSound_faster (hc : 0 < c) (L R : Cons m) : meanSound γ (faster m c L) (faster m c R) = c * meanSound γ L R := by
  simp only [meanSound, meanPressure_faster, Cons.rho, rho_faster]
  rw [mul_left_comm γ, mul_div_assoc, sqrt_faster hc]

theorem speeds_faster (hc : 0 < c) (d : Fin m) (L R : Cons m) : hllSpeeds γ d (faster m c L) (faster m c R) = (c * (hllSpeeds γ d L R).1, c * (hllSpeeds γ d L R).2) := by
  simp only [hllSpeeds, velocity_faster, sound_faster hc, meanVelocity_faster, meanSound_faster hc, ← mul_sub, ← mul_add, mul_min_of_nonneg _ _ hc.le, mul_max_of_nonneg _ _ hc.le]

theorem speeds3_faster (hc : 0 < c) (d : Fin m) (L R : Cons m) : hll3Speeds γ d (faster m c L) (faster m c R) = (c * (hll3Speeds γ d L R).1, c * (hll3Speeds γ d L R).2) := by
  have h0 : max 0 (c * velocity L d - c * velocity R d) = c * max 0 (velocity L d - velocity R d) := by rw [mul_max_of_nonneg _ _ hc.le, mul_zero, mul_sub]
  simp only [hll3Speeds, velocity_faster, sound_faster hc, meanVelocity_faster, meanSound_faster hc, h0]
  generalize max 0 (velocity L d - velocity R d) = x
  refine Prod.ext ?_ ?_
  · simp only [mul_min_of_nonneg _ _ hc.le]
    congr 1 <;> ring
  · simp only [mul_max_of_nonneg _ _ hc.le]
    congr 1 <;> ring

/-- A flux that is multiplied by `c` with the velocities. -/
def FollowsVelocity (F : Fin m → Cons m → Cons m → Cons m × ℝ) (c : ℝ) : Prop := ∀ d L R, F d (faster m c L) (faster m c R) = (c • faster m c (F d L R).1, c * (F d L R).2)

theorem central_faster (hc : 0 < c) : FollowsVelocity (m := m) (central γ) c := fun d L R => by
  simp only [central, flux_faster, wave_faster hc, mul_max_of_nonneg _ _ hc.le, ← smul_add, ← map_add, map_smul, smul_comm c]

theorem neg_faster (hc : 0 < c) (x : ℝ) : c * x < 0 ↔ x < 0 := by rw [← not_le, ← not_le, mul_nonneg_iff_of_pos_left hc]

theorem hll_faster (hc : 0 < c) : FollowsVelocity (m := m) (hll γ) c := fun d L R => by
  simp only [hll, speeds_faster hc, flux_faster]
  refine Prod.ext ?_ (by simp only [abs_mul, abs_of_pos hc, mul_max_of_nonneg _ _ hc.le])
  simp only [mul_eq_zero, hc.ne', false_or, gt_iff_lt, mul_pos_iff_of_pos_left hc, neg_faster hc]
  split_ifs
  · simp
  · rfl
  · rfl
  · simp only [map_smul, map_add, map_sub, ← mul_sub c, mul_inv]
    match_scalars <;> field_simp

theorem hll3_faster (hc : 0 < c) : FollowsVelocity (m := m) (hll3 γ) c := fun d L R => by
  have haa : hll3aa γ d (faster m c L) (faster m c R) = c * hll3aa γ d L R := by
    simp only [hll3aa, velocity_faster, speeds3_faster hc, Cons.rho, rho_faster]
    ring
  have hsm : hll3sm γ d (faster m c L) (faster m c R) = c * hll3sm γ d L R := by
    simp only [hll3sm, velocity_faster, speeds3_faster hc, Cons.m, m_faster, pressure_faster, haa]
    rw [← mul_div_assoc, ← mul_div_mul_left (c * _) (hll3aa γ d L R) hc.ne']
    congr 1
    ring
  have hus : hll3us γ d (faster m c L) (faster m c R) = c • hll3us γ d L R := by
    funext i
    have hm : ∀ U : Cons m, (c • faster m c U).2.1 i = c * (c * U.2.1 i) := fun _ => rfl
    simp only [hll3us, hsm, flux_faster, Cons.m, hm, m_faster, speeds3_faster hc, haa, Pi.smul_apply, smul_eq_mul]
    split_ifs
    · rfl
    · rw [← mul_div_assoc, ← mul_div_mul_left (c * _) (hll3aa γ d L R) hc.ne']
      congr 1
      ring
  have hmid : ∀ (U : Cons m) (sm s : ℝ) (us : Fin m → ℝ), hll3Middle γ d (c * sm) (c • us) (faster m c U) (c * s) = faster m c (hll3Middle γ d sm us U s) := by
    intro U sm s us
    have hq : ∀ x y : ℝ, c * x / (c * y) = x / y := fun x y => mul_div_mul_left _ _ hc.ne'
    have hr : U.1 * (c * velocity U d - c * s) / (c * sm - c * s) = U.1 * (velocity U d - s) / (sm - s) := by
      rw [← mul_sub, ← mul_sub, mul_left_comm, hq]
    simp only [hll3Middle, velocity_faster, pressure_faster, Cons.rho, rho_faster, Cons.E, E_faster, hr]
    refine Prod.ext ?_ (Prod.ext (funext fun i => ?_) ?_)
    · rfl
    · simp only [m_faster, Pi.smul_apply, smul_eq_mul]; ring
    · simp only [E_faster]
      rw [← mul_sub c sm, ← mul_div_assoc, ← mul_div_mul_left (c ^ 2 * _) (sm - s) hc.ne']
      congr 1
      ring
  simp only [hll3, speeds3_faster hc, hsm, hus, hmid, flux_faster]
  refine Prod.ext ?_ (by simp only [abs_mul, abs_of_pos hc, mul_max_of_nonneg _ _ hc.le])
  simp only [mul_eq_zero, hc.ne', false_or, gt_iff_lt, ge_iff_le, mul_pos_iff_of_pos_left hc, neg_faster hc, mul_nonneg_iff_of_pos_left hc]
  split_ifs
  · simp
  · rfl
  · rfl
  · simp only [map_smul, map_add, map_sub]
    module
  · simp only [map_smul, map_add, map_sub]
    module

/-- Another unit of mass and another unit of velocity. -/
noncomputable def inUnits (m : Nat) (a c : ℝ) : Cons m →ₗ[ℝ] Cons m := times (Cons m) a ∘ₗ faster m c

theorem inUnits_apply (a c : ℝ) (U : Cons m) : inUnits m a c U = (a * U.1, (fun i => a * (c * U.2.1 i)), a * (c ^ 2 * U.2.2)) := rfl

theorem euler_line {r : Recon (Cons m)} (hr : EulerUnitless m r) {a : ℝ} (ha : 0 < a) (hc : 0 < c) {F : Fin m → Cons m → Cons m → Cons m × ℝ} (hF : Follows F a) (hF' : FollowsVelocity F c) {d : Nat}
    (hd : d < m) : LineScaled r (EulerRun.twoPoint (lift F)) (inUnits m a c) c d := by
  have h1 : LineScaled r (EulerRun.twoPoint (lift F)) (faster m c) c d := lineScaled_of (eulerUnitless_faster hr hc d) fun l r => by
    simp only [lift, dif_pos hd]
    exact hF' _ _ _
  have h2 : LineScaled r (EulerRun.twoPoint (lift F)) (times (Cons m) a) 1 d := lineScaled_of (eulerUnitless_times hr ha d) fun l r => by
    simp only [lift, dif_pos hd, times_apply, hF ⟨d, hd⟩, one_smul, one_mul]
  have := lineScaled_comp h1 h2
  rwa [one_mul] at this

end

/-! ### A logarithm -/

theorem log_bound : (0.279 : ℝ) < Real.log (4 / 3) := by
  have h : Real.log (4 / 3) = Real.log (20 / 19) + Real.log (19 / 18) + Real.log (18 / 17) + Real.log (17 / 16) + Real.log (16 / 15) := by
    rw [← Real.log_mul (by norm_num) (by norm_num), ← Real.log_mul (by norm_num) (by norm_num), ← Real.log_mul (by norm_num) (by norm_num), ← Real.log_mul (by norm_num) (by norm_num)]
    norm_num
  have h1 := Real.one_sub_inv_le_log_of_pos (x := 20 / 19) (by norm_num)
  have h2 := Real.one_sub_inv_le_log_of_pos (x := 19 / 18) (by norm_num)
  have h3 := Real.one_sub_inv_le_log_of_pos (x := 18 / 17) (by norm_num)
  have h4 := Real.one_sub_inv_le_log_of_pos (x := 17 / 16) (by norm_num)
  have h5 := Real.one_sub_inv_le_log_of_pos (x := 16 / 15) (by norm_num)
  norm_num at h1 h2 h3 h4 h5 ⊢
  linarith

end UnitsRun
end Verif
