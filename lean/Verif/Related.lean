import Verif.WholeRun

/-!
Two runs side by side: if a linear map takes the states, the right hand side and the wave speeds of one simulator to those of another, it takes the whole run of the one to the run of the other.
-/

namespace Verif
namespace Related
open Integrator Simulator

/-- Both succeed with related results, or both fail alike. -/
def RelRes {α β : Type} (R : α → β → Prop) : Res α → Res β → Prop
  | .ok a, .ok b => R a b
  | .error e, .error e' => e = e'
  | _, _ => False

theorem RelRes.bind {α β α' β' : Type} {R : α → β → Prop} {Q : α' → β' → Prop} {x : Res α} {y : Res β} (h : RelRes R x y) {f : α → Res α'} {g : β → Res β'}
    (hfg : ∀ a b, R a b → RelRes Q (f a) (g b)) : RelRes Q (x >>= f) (y >>= g) := by
  cases x <;> cases y <;> first | exact h | exact hfg _ _ h | exact h.elim

theorem RelRes.mono {α β : Type} {R Q : α → β → Prop} {x : Res α} {y : Res β} (h : RelRes R x y) (hRQ : ∀ a b, R a b → Q a b) : RelRes Q x y := by
  cases x <;> cases y <;> first | exact h | exact hRQ _ _ h

theorem foldlM_rel {α β σ τ : Type} {R : σ → τ → Prop} {l : List α} {l' : List β} {f : σ → α → Res σ} {g : τ → β → Res τ}
    (h : List.Forall₂ (fun a b => ∀ s t, R s t → RelRes R (f s a) (g t b)) l l') {s : σ} {t : τ} (hst : R s t) : RelRes R (l.foldlM f s) (l'.foldlM g t) := by
  induction h generalizing s t with
  | nil => exact hst
  | cons h _ ih =>
    simp only [List.foldlM_cons]
    exact (h _ _ hst).bind fun a b hab => ih hab

/-- Both over, with related results, or both not. -/
def RelOpt {α β : Type} (R : α → β → Prop) : Option α → Option β → Prop
  | some a, some b => R a b
  | none, none => True
  | _, _ => False

variable {K V V' W W' σ σ' : Type} [Field K] [LinearOrder K] [IsStrictOrderedRing K] [AddCommGroup V] [Module K V] [AddCommGroup W] [Module K W]
  [AddCommGroup V'] [Module K V'] [AddCommGroup W'] [Module K W']

omit [LinearOrder K] [IsStrictOrderedRing K] in
theorem textbook_map (S : W →ₗ[K] W') {F : W → W} {F' : W' → W'} (h : ∀ w, F' (S w) = S (F w)) (k : Kind) (x dt : K) (w : W) :
    textbook k (fun w => x • F' w) dt (S w) = S (textbook k (fun w => x • F w) dt w) := by
  cases k <;> simp only [textbook, ← map_smul, ← map_add, h]

omit [IsStrictOrderedRing K] in
/-- An infinite time step is refused. -/
theorem increment_error (c : Config V K σ) {int : V →ₗ[K] W} {F : W → W} {ws : W → Nat → K} {Ready : V → Prop} (hs : Sound c.env.sys c.bc int F ws Ready) (s : Sim V K σ)
    (hlen : s.vols.length = c.kind.substeps + 1) (u : V) (hu : s.vols[0]? = some u) (hr : Ready u)
    (h : computeTimestep c.env.waveAdj (c.adjusters s.ws) (ws (int u)) c.env.len c.env.cfl s.info = ⊤ ∨ c.env.len 0 = 0) : incrementSolution c s = .error .thrown := by
  have hpos : ∃ m, c.kind.substeps = m + 1 := by cases c.kind <;> exact ⟨_, rfl⟩
  obtain ⟨m, hm⟩ := hpos
  obtain ⟨out, hout⟩ : ∃ out, s.vols[1]? = some out := ⟨_, List.getElem?_eq_getElem (by omega)⟩
  obtain ⟨r, e1, -, -, e4⟩ := hs.sys_ok u out hr
  have hf : finite (computeTimestep c.env.waveAdj (c.adjusters s.ws) r.2.2 c.env.len c.env.cfl s.info) c.env.len = .error .thrown := by
    rw [e4]
    rcases h with h | h
    · rw [h]; rfl
    · unfold finite; split <;> simp [h]
  have hp : performSubstep c.kind c.env (c.adjusters s.ws) s.info s.vols 0 0 = .error .thrown := by
    unfold performSubstep
    cases hk : c.kind <;> simp [at', hu, hout, e1, hf]
  unfold incrementSolution
  rw [hm, List.range_succ_eq_map, List.foldlM_cons]
  simp [substepAndBoundary, hp]

variable {c : Config V K σ} {int : V →ₗ[K] W} {F : W → W} {ws : W → Nat → K} {Ready : V → Prop}
  {c' : Config V' K σ'} {int' : V' →ₗ[K] W'} {F' : W' → W'} {ws' : W' → Nat → K} {Ready' : V' → Prop} {S : W →ₗ[K] W'} {Rw : σ → σ' → Prop}

/-- What makes the runs of two simulators alike: `S` takes states of the first to states of the second, `Rw` relates the states of the writers. -/
structure Alike (c : Config V K σ) (c' : Config V' K σ') (int : V →ₗ[K] W) (int' : V' →ₗ[K] W') (F : W → W) (F' : W' → W') (ws : W → Nat → K) (ws' : W' → Nat → K)
    (Ready : V → Prop) (Ready' : V' → Prop) (S : W →ₗ[K] W') (Rw : σ → σ' → Prop) : Prop where
  sound : Sound c.env.sys c.bc int F ws Ready
  sound' : Sound c'.env.sys c'.bc int' F' ws' Ready'
  kind : c'.kind = c.kind
  rhs : ∀ w, F' (S w) = S (F w)
  speed : ∀ w, waveSpeedTotal c'.env.waveAdj (ws' (S w)) c'.env.len = waveSpeedTotal c.env.waveAdj (ws w) c.env.len
  len : c'.env.len 0 = c.env.len 0
  cfl : c'.env.cfl = c.env.cfl
  endTime : c'.endTime = c.endTime
  obeys : ∀ v v', Ready v → Ready' v' → int' v' = S (int v) → c'.obeys v' = c.obeys v
  adjusters : ∀ st st', Rw st st' → c'.adjusters st' = c.adjusters st
  writers : List.Forall₂ (fun f f' => ∀ v v' info st st', int' v' = S (int v) → Rw st st' → RelRes Rw (f v info st) (f' v' info st')) c.writers c'.writers

/-- Calls of writers that belong together. -/
def RelCall (int : V →ₗ[K] W) (int' : V' →ₗ[K] W') (S : W →ₗ[K] W') (a : Call V K) (b : Call V' K) : Prop :=
  b.writer = a.writer ∧ b.info = a.info ∧ int' b.state = S (int a.state)

/-- Simulators in corresponding states. -/
structure RelSim (c : Config V K σ) (c' : Config V' K σ') (int : V →ₗ[K] W) (int' : V' →ₗ[K] W') (Ready : V → Prop) (Ready' : V' → Prop) (S : W →ₗ[K] W') (Rw : σ → σ' → Prop)
    (s : Sim V K σ) (s' : Sim V' K σ') : Prop where
  length : s.vols.length = c.kind.substeps + 1
  length' : s'.vols.length = c'.kind.substeps + 1
  state : ∃ u u', s.vols[0]? = some u ∧ s'.vols[0]? = some u' ∧ Ready u ∧ Ready' u' ∧ int' u' = S (int u)
  info : s'.info = s.info
  ws : Rw s.ws s'.ws
  log : List.Forall₂ (RelCall int int' S) s.log s'.log

theorem increment_rel (ha : Alike c c' int int' F F' ws ws' Ready Ready' S Rw) {s : Sim V K σ} {s' : Sim V' K σ'} (h : RelSim c c' int int' Ready Ready' S Rw s s') :
    RelRes (RelSim c c' int int' Ready Ready' S Rw) (incrementSolution c s) (incrementSolution c' s') := by
  obtain ⟨hl, hl', ⟨u, u', hu, hu', hr, hr', hS⟩, hi, hw, hlog⟩ := h
  have hdt : computeTimestep c'.env.waveAdj (c'.adjusters s'.ws) (ws' (int' u')) c'.env.len c'.env.cfl s'.info =
      computeTimestep c.env.waveAdj (c.adjusters s.ws) (ws (int u)) c.env.len c.env.cfl s.info := by
    unfold computeTimestep
    rw [hS, ha.speed, ha.cfl, hi, ha.adjusters _ _ hw]
  by_cases hx : c.env.len 0 = 0
  · rw [increment_error c ha.sound s hl u hu hr (.inr hx), increment_error c' ha.sound' s' hl' u' hu' hr' (.inr (ha.len.trans hx))]
    rfl
  cases hd : computeTimestep c.env.waveAdj (c.adjusters s.ws) (ws (int u)) c.env.len c.env.cfl s.info with
  | top =>
    rw [increment_error c ha.sound s hl u hu hr (.inl hd), increment_error c' ha.sound' s' hl' u' hu' hr' (.inl (hdt.trans hd))]
    rfl
  | coe dt =>
    obtain ⟨t, v, e1, e2, e3, e4, e5, e6, e7, e8⟩ := increment_ok c ha.sound s hl u hu hr dt hd hx
    obtain ⟨t', v', g1, g2, g3, g4, g5, g6, g7, g8⟩ := increment_ok c' ha.sound' s' hl' u' hu' hr' dt (hdt.trans hd) (by rw [ha.len]; exact hx)
    rw [e1, g1]
    refine ⟨e3.trans hl, g3.trans hl', ⟨v, v', e2, g2, e4, g4, ?_⟩, by rw [e6, g6, hi], by rw [e7, g7]; exact hw, by rw [e8, g8]; exact hlog⟩
    rw [e5, g5, ha.kind, hS, ha.len]
    exact textbook_map S ha.rhs _ _ _ _

omit [LinearOrder K] [IsStrictOrderedRing K] in
theorem forall₂_zipIdx {α β : Type} {R : α → β → Prop} {l : List α} {l' : List β} (h : List.Forall₂ R l l') (i : Nat) :
    List.Forall₂ (fun a b => R a.1 b.1 ∧ a.2 = b.2) (l.zipIdx i) (l'.zipIdx i) := by
  induction h generalizing i with
  | nil => exact .nil
  | cons h _ ih => exact .cons ⟨h, rfl⟩ (ih _)

omit [IsStrictOrderedRing K] in
theorem callWriters_rel (ha : Alike c c' int int' F F' ws ws' Ready Ready' S Rw) {s : Sim V K σ} {s' : Sim V' K σ'} (h : RelSim c c' int int' Ready Ready' S Rw s s') :
    RelRes (RelSim c c' int int' Ready Ready' S Rw) (callWriters c s) (callWriters c' s') := by
  obtain ⟨hl, hl', ⟨u, u', hu, hu', hr, hr', hS⟩, hi, hw, hlog⟩ := h
  unfold callWriters
  rw [show at' s.vols 0 = .ok u by simp [at', hu], show at' s'.vols 0 = .ok u' by simp [at', hu']]
  simp only [Res.ok_bind]
  refine RelRes.bind (R := fun a b => Rw a.1 b.1 ∧ List.Forall₂ (RelCall int int' S) a.2 b.2) (foldlM_rel ?_ ⟨hw, hlog⟩) ?_
  · refine (forall₂_zipIdx ha.writers 0).imp ?_
    rintro ⟨f, i⟩ ⟨f', i'⟩ ⟨hf, rfl⟩ ⟨st, lg⟩ ⟨st', lg'⟩ ⟨h1, h2⟩
    rw [hi]
    exact (hf u u' s.info st st' hS h1).bind fun a b hab => ⟨hab, List.rel_append h2 (.cons ⟨rfl, rfl, hS⟩ .nil)⟩
  · rintro ⟨st, lg⟩ ⟨st', lg'⟩ ⟨h1, h2⟩
    exact ⟨hl, hl', ⟨u, u', hu, hu', hr, hr', hS⟩, hi, h1, h2⟩

theorem performStep_rel (ha : Alike c c' int int' F F' ws ws' Ready Ready' S Rw) {s : Sim V K σ} {s' : Sim V' K σ'} (h : RelSim c c' int int' Ready Ready' S Rw s s') :
    RelRes (RelSim c c' int int' Ready Ready' S Rw) (performStep c s) (performStep c' s') := by
  unfold performStep
  refine (increment_rel ha h).bind fun t t' ht => ?_
  obtain ⟨u, u', hu, hu', hr, hr', hS⟩ := ht.state
  have hc : checkConstraints c' t' = checkConstraints c t := by
    simp [checkConstraints, at', hu, hu', ha.obeys u u' hr hr' hS]
  rw [hc]
  cases checkConstraints c t with
  | error e => exact rfl
  | ok a => exact callWriters_rel ha ht

theorem loop_rel (ha : Alike c c' int int' F F' ws ws' Ready Ready' S Rw) (fuel : Nat) {s : Sim V K σ} {s' : Sim V' K σ'} (h : RelSim c c' int int' Ready Ready' S Rw s s') :
    RelRes (RelOpt (RelSim c c' int int' Ready Ready' S Rw)) (loop c fuel s) (loop c' fuel s') := by
  have he : ∀ {s : Sim V K σ} {s' : Sim V' K σ'}, RelSim c c' int int' Ready Ready' S Rw s s' → atEnd c' s' = atEnd c s := fun h => by
    unfold atEnd; rw [ha.endTime, h.info]
  induction fuel generalizing s s' with
  | zero =>
    unfold loop
    rw [he h]
    split_ifs
    · exact h
    · trivial
  | succ fuel ih =>
    unfold loop
    rw [he h]
    split_ifs
    · exact h
    · exact (performStep_rel ha h).bind fun t t' ht => ih ht

theorem run_rel (ha : Alike c c' int int' F F' ws ws' Ready Ready' S Rw) (fuel : Nat) (u : V) (u' : V') (hS : int' u' = S (int u)) (others : List V) (others' : List V')
    (hl : others.length = c.kind.substeps) (hl' : others'.length = c'.kind.substeps) (wst : σ) (wst' : σ') (hw : Rw wst wst') :
    RelRes (RelOpt (RelSim c c' int int' Ready Ready' S Rw)) (start c u others wst >>= run c fuel) (start c' u' others' wst' >>= run c' fuel) := by
  obtain ⟨v, e1, e2, e3⟩ := ha.sound.bc_ok u
  obtain ⟨v', g1, g2, g3⟩ := ha.sound'.bc_ok u'
  refine RelRes.bind (R := RelSim c c' int int' Ready Ready' S Rw) ?_ fun s s' h => ?_
  · simp only [start, e1, g1, Res.ok_bind]
    exact ⟨by simp [hl], by simp [hl'], ⟨v, v', rfl, rfl, e3, g3, by rw [e2, g2, hS]⟩, rfl, hw, .nil⟩
  · unfold run
    exact (callWriters_rel ha h).bind fun t t' ht => loop_rel ha fuel ht

end Related
end Verif
