import Verif.IntegratorLemmas
import Verif.SimulatorLemmas

/-! Two simulators whose right hand sides compute the same function of the interior cells do the same. -/

namespace Verif
namespace RunAgree
open Integrator Simulator

/-- Two results agree: both are errors of the same kind, or both are values that agree. -/
def Agree {A B : Type} (R : A → B → Prop) : Res A → Res B → Prop
  | .ok a, .ok b => R a b
  | .error e, .error e' => e = e'
  | _, _ => False

theorem Agree.bind {A B A' B' : Type} {R : A → B → Prop} {R' : A' → B' → Prop} {x : Res A} {y : Res B} {f : A → Res A'} {g : B → Res B'} (h : Agree R x y)
    (hf : ∀ a b, x = .ok a → y = .ok b → R a b → Agree R' (f a) (g b)) : Agree R' (x >>= f) (y >>= g) := by
  cases x with
  | error e => cases y with
    | error e' => exact h
    | ok b => exact h.elim
  | ok a => cases y with
    | error e' => exact h.elim
    | ok b => exact hf a b rfl rfl h

variable {K V V' W σ : Type} [Field K] [LinearOrder K] [IsStrictOrderedRing K] [AddCommGroup V] [Module K V] [AddCommGroup V'] [Module K V'] [AddCommGroup W]
  [Module K W]

omit [IsStrictOrderedRing K] in
/-- A step whose time step is infinite is refused. -/
theorem incrementWith_error (c : Config V K σ) {sys : Nat → System V K} {int : V →ₗ[K] W} {F : W → W} {ws : W → Nat → K} {Ready : V → Prop}
    (hs : ∀ i, Sound (sys i) c.bc int F ws Ready) (s : Sim V K σ) (hlen : s.vols.length = c.kind.substeps + 1) (u : V) (hu : s.vols[0]? = some u)
    (hr : Ready u) {e : Err} (hdt : finite (computeTimestep c.env.waveAdj (c.adjusters s.ws) (ws (int u)) c.env.len c.env.cfl s.info) c.env.len = .error e) :
    incrementWith c sys s = .error e := by
  have hpos : ∃ m, c.kind.substeps = m + 1 := by cases c.kind <;> exact ⟨_, rfl⟩
  obtain ⟨m, hm⟩ := hpos
  obtain ⟨out, hout⟩ : ∃ out, s.vols[1]? = some out := ⟨_, List.getElem?_eq_getElem (by omega)⟩
  obtain ⟨r, r1, r2, r3, r4⟩ := (hs 0).sys_ok u out hr
  have key : substepAndBoundary { c with env := { c.env with sys := sys 0 } } (c.adjusters s.ws) s.info (s.vols, 0) 0 = .error e := by
    unfold substepAndBoundary performSubstep
    have h0 : at' s.vols 0 = .ok u := by simp [at', hu]
    have h1 : at' s.vols (0 + 1) = .ok out := by simp [at', hout]
    rw [← r4] at hdt
    cases hk : c.kind <;> simp [h0, h1, r1, hdt]
  unfold incrementWith
  rw [hm, List.range_succ_eq_map, List.foldlM_cons, key]
  rfl

/-- What two simulators have in common. -/
structure Twin (c : Config V K σ) (c' : Config V' K σ) (int : V →ₗ[K] W) (int' : V' →ₗ[K] W) (Ready : V → Prop) (Ready' : V' → Prop) : Prop where
  kind : c.kind = c'.kind
  waveAdj : c.env.waveAdj = c'.env.waveAdj
  len : c.env.len = c'.env.len
  cfl : c.env.cfl = c'.env.cfl
  adjusters : c.adjusters = c'.adjusters
  endTime : c.endTime = c'.endTime
  obeys : ∀ v v', Ready v → Ready' v' → int v = int' v' → c.obeys v = c'.obeys v'
  writers : List.Forall₂ (fun w w' => ∀ v v' info s, Ready v → Ready' v' → int v = int' v' → w v info s = w' v' info s) c.writers c'.writers

/-- Two states with the same time, the same states of the writers, the same calls of writers and the same interior. -/
def Rel (c : Config V K σ) (int : V →ₗ[K] W) (int' : V' →ₗ[K] W) (Ready : V → Prop) (Ready' : V' → Prop) (s : Sim V K σ) (s' : Sim V' K σ) : Prop :=
  s.vols.length = c.kind.substeps + 1 ∧ s'.vols.length = c.kind.substeps + 1 ∧
  (∃ v v', s.vols[0]? = some v ∧ s'.vols[0]? = some v' ∧ Ready v ∧ Ready' v' ∧ int v = int' v') ∧ s.info = s'.info ∧ s.ws = s'.ws ∧
  List.Forall₂ (fun a b => a.writer = b.writer ∧ a.info = b.info ∧ int a.state = int' b.state) s.log s'.log

variable {c : Config V K σ} {c' : Config V' K σ} {int : V →ₗ[K] W} {int' : V' →ₗ[K] W} {Ready : V → Prop} {Ready' : V' → Prop} {F : W → W} {ws : W → Nat → K}
  {sys : Nat → Nat → System V K} {sys' : Nat → Nat → System V' K}

omit [LinearOrder K] [IsStrictOrderedRing K] in
theorem callWriters_agree (ht : Twin c c' int int' Ready Ready') {s : Sim V K σ} {s' : Sim V' K σ} (h : Rel c int int' Ready Ready' s s') :
    Agree (Rel c int int' Ready Ready') (callWriters c s) (callWriters c' s') := by
  obtain ⟨vols, info, wst, log⟩ := s
  obtain ⟨vols', info', wst', log'⟩ := s'
  obtain ⟨h1, h2, ⟨v, v', h3, h4, h5, h6, h7⟩, h8, h9, h10⟩ := h
  simp only at h1 h2 h3 h4 h8 h9 h10
  subst h8 h9
  unfold callWriters
  simp only [at', h3, h4, Res.ok_bind]
  refine Agree.bind (R := fun r r' => r.1 = r'.1 ∧ List.Forall₂ (fun a b => a.writer = b.writer ∧ a.info = b.info ∧ int a.state = int' b.state) r.2 r'.2) ?_ ?_
  · have key : ∀ (l : List (V → TimeInfo K → σ → Res σ)) (l' : List (V' → TimeInfo K → σ → Res σ)),
        List.Forall₂ (fun w w' => ∀ v v' info s, Ready v → Ready' v' → int v = int' v' → w v info s = w' v' info s) l l' → ∀ (k : Nat) (x : σ) (g : List (Call V K))
        (g' : List (Call V' K)), List.Forall₂ (fun a b => a.writer = b.writer ∧ a.info = b.info ∧ int a.state = int' b.state) g g' →
        Agree (fun r r' => r.1 = r'.1 ∧ List.Forall₂ (fun a b => a.writer = b.writer ∧ a.info = b.info ∧ int a.state = int' b.state) r.2 r'.2)
          ((l.zipIdx k).foldlM (fun (r : σ × List (Call V K)) w => do
            let ws ← w.1 v info r.1
            pure (ws, r.2 ++ [⟨w.2, v, info⟩])) (x, g))
          ((l'.zipIdx k).foldlM (fun (r : σ × List (Call V' K)) w => do
            let ws ← w.1 v' info r.1
            pure (ws, r.2 ++ [⟨w.2, v', info⟩])) (x, g')) := by
      intro l l' hl
      induction hl with
      | nil => intro k x g g' hg; exact ⟨rfl, hg⟩
      | @cons w1 w2 _ _ hw _ ih =>
        intro k x g g' hg
        simp only [List.zipIdx_cons, List.foldlM_cons]
        rw [hw v v' info x h5 h6 h7]
        cases w2 v' info x with
        | error e => exact rfl
        | ok y => exact ih (k + 1) y _ _ (List.rel_append hg (.cons ⟨rfl, rfl, h7⟩ .nil))
    exact key _ _ ht.writers 0 wst log log' h10
  · rintro ⟨a, g⟩ ⟨b, g'⟩ - - ⟨e1, e2⟩
    exact ⟨h1, h2, ⟨v, v', h3, h4, h5, h6, h7⟩, rfl, e1, e2⟩

theorem increment_agree (hs : ∀ n i, Sound (sys n i) c.bc int F ws Ready) (hs' : ∀ n i, Sound (sys' n i) c'.bc int' F ws Ready') (ht : Twin c c' int int' Ready Ready')
    {s : Sim V K σ} {s' : Sim V' K σ} (h : Rel c int int' Ready Ready' s s') (n : Nat) :
    Agree (Rel c int int' Ready Ready') (incrementWith c (sys n) s) (incrementWith c' (sys' n) s') := by
  obtain ⟨h1, h2, ⟨v, v', h3, h4, h5, h6, h7⟩, h8, h9, h10⟩ := h
  have h2' : s'.vols.length = c'.kind.substeps + 1 := by rw [h2, ht.kind]
  have ex : computeTimestep c'.env.waveAdj (c'.adjusters s'.ws) (ws (int' v')) c'.env.len c'.env.cfl s'.info =
      computeTimestep c.env.waveAdj (c.adjusters s.ws) (ws (int v)) c.env.len c.env.cfl s.info := by
    rw [← ht.waveAdj, ← ht.adjusters, ← ht.len, ← ht.cfl, ← h7, ← h8, ← h9]
  cases hx : finite (computeTimestep c.env.waveAdj (c.adjusters s.ws) (ws (int v)) c.env.len c.env.cfl s.info) c.env.len with
  | error e =>
    rw [incrementWith_error c (hs n) s h1 v h3 h5 hx, incrementWith_error c' (hs' n) s' h2' v' h4 h6 (by rw [ex, ← ht.len]; exact hx)]
    exact rfl
  | ok dt =>
    have hfin : computeTimestep c.env.waveAdj (c.adjusters s.ws) (ws (int v)) c.env.len c.env.cfl s.info = dt ∧ c.env.len 0 ≠ 0 := by
      generalize computeTimestep c.env.waveAdj (c.adjusters s.ws) (ws (int v)) c.env.len c.env.cfl s.info = x at hx
      unfold finite at hx
      split at hx
      · cases hx
      · split_ifs at hx with h0
        cases hx
        exact ⟨rfl, h0⟩
    obtain ⟨t, u, e1, e2, e3, e4, e5, e6, e7, e8⟩ := incrementWith_ok c (hs n) s h1 v h3 h5 dt hfin.1 hfin.2
    obtain ⟨t', u', f1, f2, f3, f4, f5, f6, f7, f8⟩ := incrementWith_ok c' (hs' n) s' h2' v' h4 h6 dt (by rw [ex]; exact hfin.1) (by rw [← ht.len]; exact hfin.2)
    rw [e1, f1]
    refine ⟨by rw [e3, h1], by rw [f3, h2], ⟨u, u', e2, f2, e4, f4, ?_⟩, by rw [e6, f6, h8], by rw [e7, f7, h9], by rw [e8, f8]; exact h10⟩
    rw [e5, f5, ht.kind, ht.len, h7]

theorem performStep_agree (hs : ∀ n i, Sound (sys n i) c.bc int F ws Ready) (hs' : ∀ n i, Sound (sys' n i) c'.bc int' F ws Ready') (ht : Twin c c' int int' Ready Ready')
    {s : Sim V K σ} {s' : Sim V' K σ} (h : Rel c int int' Ready Ready' s s') :
    Agree (Rel c int int' Ready Ready') (performStepWith c sys s) (performStepWith c' sys' s') := by
  unfold performStepWith
  rw [← h.2.2.2.1]
  refine (increment_agree hs hs' ht h s.info.steps).bind fun t t' _ _ hr => ?_
  have hcheck : checkConstraints c t = checkConstraints c' t' := by
    obtain ⟨-, -, ⟨v, v', h3, h4, h5, h6, h7⟩, -⟩ := hr
    simp only [checkConstraints, at', h3, h4, Res.ok_bind, ht.obeys v v' h5 h6 h7]
  rw [hcheck]
  cases checkConstraints c' t' with
  | error e => exact rfl
  | ok x => exact callWriters_agree ht hr

/-- Both runs have not reached the end, or both have. -/
def Both {A B : Type} (R : A → B → Prop) : Option A → Option B → Prop
  | some a, some b => R a b
  | none, none => True
  | _, _ => False

theorem loop_agree (hs : ∀ n i, Sound (sys n i) c.bc int F ws Ready) (hs' : ∀ n i, Sound (sys' n i) c'.bc int' F ws Ready') (ht : Twin c c' int int' Ready Ready')
    (fuel : Nat) {s : Sim V K σ} {s' : Sim V' K σ} (h : Rel c int int' Ready Ready' s s') :
    Agree (Both (Rel c int int' Ready Ready')) (loopWith c sys fuel s) (loopWith c' sys' fuel s') := by
  induction fuel generalizing s s' with
  | zero =>
    have ea : atEnd c' s' = atEnd c s := by unfold atEnd; rw [ht.endTime, h.2.2.2.1]
    unfold loopWith
    rw [ea]
    split_ifs
    · exact h
    · trivial
  | succ fuel ih =>
    have ea : atEnd c' s' = atEnd c s := by unfold atEnd; rw [ht.endTime, h.2.2.2.1]
    unfold loopWith
    rw [ea]
    split_ifs
    · exact h
    · exact (performStep_agree hs hs' ht h).bind fun _ _ _ _ hr => ih hr

theorem run_agree (hs : ∀ n i, Sound (sys n i) c.bc int F ws Ready) (hs' : ∀ n i, Sound (sys' n i) c'.bc int' F ws Ready') (ht : Twin c c' int int' Ready Ready')
    (u : V) (u' : V') (hu : int u = int' u') (others : List V) (others' : List V') (hl : others.length = c.kind.substeps) (hl' : others'.length = c.kind.substeps)
    (wst : σ) (fuel : Nat) :
    Agree (Both (Rel c int int' Ready Ready')) (start c u others wst >>= runWith c sys fuel) (start c' u' others' wst >>= runWith c' sys' fuel) := by
  obtain ⟨v, e1, e2, e3⟩ := (hs 0 0).bc_ok u
  obtain ⟨v', f1, f2, f3⟩ := (hs' 0 0).bc_ok u'
  have e : start c u others wst = .ok ⟨v :: others, ⟨0, 0⟩, wst, []⟩ := by simp [start, e1]
  have f : start c' u' others' wst = .ok ⟨v' :: others', ⟨0, 0⟩, wst, []⟩ := by simp [start, f1]
  rw [e, f]
  have h0 : Rel c int int' Ready Ready' (⟨v :: others, ⟨0, 0⟩, wst, []⟩ : Sim V K σ) ⟨v' :: others', ⟨0, 0⟩, wst, []⟩ :=
    ⟨by simp [hl], by simp [hl'], ⟨v, v', rfl, rfl, e3, f3, by rw [e2, f2, hu]⟩, rfl, rfl, .nil⟩
  exact (callWriters_agree ht h0).bind fun _ _ _ _ hr => loop_agree hs hs' ht fuel hr

omit [IsStrictOrderedRing K] in
/-- Right hand sides that do not differ from step to step. -/
theorem runWith_const (c : Config V K σ) (fuel : Nat) (s : Sim V K σ) : runWith c (fun _ _ => c.env.sys) fuel s = run c fuel s := by
  have hl : ∀ (fuel : Nat) (s : Sim V K σ), loopWith c (fun _ _ => c.env.sys) fuel s = loop c fuel s := by
    intro fuel
    induction fuel with
    | zero => exact fun _ => rfl
    | succ fuel ih =>
      intro s
      unfold loopWith loop
      simp only [ih]
      rfl
  unfold runWith run
  simp only [hl]

end RunAgree
end Verif
