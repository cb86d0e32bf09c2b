import Verif.Step
import Verif.SimulatorLemmas
import Verif.Props.NetFlux

/-! Helper lemmas about whole runs of the simulator: what one step preserves holds for the final state and for every state handed to a writer. -/

namespace Verif
namespace WholeRun
open Integrator Simulator NetFlux
variable {K V W σ : Type} [Field K] [LinearOrder K] [IsStrictOrderedRing K] [AddCommGroup V] [Module K V] [AddCommGroup W] [Module K W]

/-- A step that succeeds had a finite time step and a nonzero cell length. -/
theorem increment_finite (c : Config V K σ) {int : V →ₗ[K] W} {F : W → W} {ws : W → Nat → K} {Ready : V → Prop}
    (hs : Sound c.env.sys c.bc int F ws Ready) (s s' : Sim V K σ) (h : incrementSolution c s = .ok s') (u : V) (hu : s.vols[0]? = some u) (hr : Ready u) :
    ∃ dt : K, computeTimestep c.env.waveAdj (c.adjusters s.ws) (ws (int u)) c.env.len c.env.cfl s.info = dt ∧ c.env.len 0 ≠ 0 := by
  unfold incrementSolution at h
  obtain ⟨r, h1, -⟩ := bind_ok h
  have hpos : ∃ m, c.kind.substeps = m + 1 := by cases c.kind <;> exact ⟨_, rfl⟩
  obtain ⟨m, hm⟩ := hpos
  rw [hm, List.range_succ_eq_map, List.foldlM_cons] at h1
  obtain ⟨r1, h2, -⟩ := bind_ok h1
  unfold substepAndBoundary performSubstep at h2
  obtain ⟨r2, h3, -⟩ := bind_ok h2
  obtain ⟨u', h4, h3⟩ := bind_ok h3
  have hu' : u' = u := by
    have := at'_ok h4
    cases hk : c.kind <;> simp [hk, hu] at this <;> exact this.symm
  subst hu'
  obtain ⟨out, h5, h3⟩ := bind_ok h3
  obtain ⟨q, h6, h3⟩ := bind_ok h3
  obtain ⟨q', e1, -, -, e4⟩ := hs.sys_ok u' out hr
  rw [e1] at h6
  cases h6
  obtain ⟨dt, h7, -⟩ := bind_ok h3
  have h7 : finite (computeTimestep c.env.waveAdj (c.adjusters s.ws) q.2.2 c.env.len c.env.cfl s.info) c.env.len = .ok dt := by
    cases hk : c.kind <;> simpa [hk] using h7
  rw [e4] at h7
  generalize computeTimestep c.env.waveAdj (c.adjusters s.ws) (ws (int u')) c.env.len c.env.cfl s.info = x at h7
  unfold finite at h7
  split at h7
  · cases h7
  · split_ifs at h7 with hx
    exact ⟨_, rfl, hx⟩

/-- Every state a writer sees. -/
def LogHas (P : V → Prop) (log : List (Call V K)) : Prop := ∀ call ∈ log, P call.state

/-- What holds between steps. -/
def Inv (c : Config V K σ) (int : V →ₗ[K] W) (Ready : V → Prop) (P : W → Prop) (s : Sim V K σ) : Prop :=
  s.vols.length = c.kind.substeps + 1 ∧ (∃ u, s.vols[0]? = some u ∧ Ready u ∧ P (int u)) ∧ LogHas (fun v => P (int v)) s.log

variable {c : Config V K σ} {int : V →ₗ[K] W} {F : W → W} {ws : W → Nat → K} {Ready : V → Prop} {P : W → Prop}

theorem callWriters_keeps {s s' : Sim V K σ} (h : callWriters c s = .ok s') (hi : Inv c int Ready P s) : Inv c int Ready P s' := by
  obtain ⟨u, h1, h2, h3, h4, h5⟩ := callWriters_inv h
  obtain ⟨hl, ⟨u', hu, hr, hp⟩, hlog⟩ := hi
  rw [hu] at h1
  cases h1
  refine ⟨by rw [h2, hl], ⟨u, by rw [h2, hu], hr, hp⟩, ?_⟩
  rw [h5]
  intro call hc
  rcases List.mem_append.1 hc with hc | hc
  · exact hlog call hc
  · obtain ⟨w, -, rfl⟩ := List.mem_map.1 hc
    exact hp

theorem performStep_keeps (hs : Sound c.env.sys c.bc int F ws Ready)
    (hP : ∀ (w : W) (wst : σ) (info : TimeInfo K) (dt : K), P w → computeTimestep c.env.waveAdj (c.adjusters wst) (ws w) c.env.len c.env.cfl info = dt →
      P (textbook c.kind (fun w => (1 / c.env.len 0) • F w) dt w))
    {s s' : Sim V K σ} (h : performStep c s = .ok s') (hi : Inv c int Ready P s) : Inv c int Ready P s' := by
  unfold performStep at h
  obtain ⟨s1, h1, h⟩ := bind_ok h
  obtain ⟨-, -, h⟩ := bind_ok h
  obtain ⟨hl, ⟨u, hu, hr, hp⟩, hlog⟩ := hi
  obtain ⟨dt, hdt, hx⟩ := increment_finite c hs s s1 h1 u hu hr
  obtain ⟨s2, u', e1, e2, e3, e4, e5, e6, e7, e8⟩ := increment_ok c hs s hl u hu hr dt hdt hx
  rw [e1] at h1
  cases h1
  exact callWriters_keeps h ⟨by rw [e3, hl], ⟨u', e2, e4, by rw [e5]; exact hP _ _ _ _ hp hdt⟩, by rw [e8]; exact hlog⟩

theorem loop_keeps (hs : Sound c.env.sys c.bc int F ws Ready)
    (hP : ∀ (w : W) (wst : σ) (info : TimeInfo K) (dt : K), P w → computeTimestep c.env.waveAdj (c.adjusters wst) (ws w) c.env.len c.env.cfl info = dt →
      P (textbook c.kind (fun w => (1 / c.env.len 0) • F w) dt w))
    (fuel : Nat) {s s' : Sim V K σ} (h : loop c fuel s = .ok (some s')) (hi : Inv c int Ready P s) : Inv c int Ready P s' := by
  induction fuel generalizing s with
  | zero =>
    unfold loop at h
    split_ifs at h
    · cases h; exact hi
    · cases h
  | succ fuel ih =>
    unfold loop at h
    split_ifs at h
    · cases h; exact hi
    · obtain ⟨s1, h1, h2⟩ := bind_ok h
      exact ih h2 (performStep_keeps hs hP h1 hi)

/-- A property of the interior values that every step preserves holds for the final state of a run and for every state handed to a writer. -/
theorem run_keeps (hs : Sound c.env.sys c.bc int F ws Ready)
    (hP : ∀ (w : W) (wst : σ) (info : TimeInfo K) (dt : K), P w → computeTimestep c.env.waveAdj (c.adjusters wst) (ws w) c.env.len c.env.cfl info = dt →
      P (textbook c.kind (fun w => (1 / c.env.len 0) • F w) dt w))
    (u : V) (others : List V) (hlen : others.length = c.kind.substeps) (wst : σ) (h0 : P (int u)) (fuel : Nat) (s' : Sim V K σ)
    (h : (start c u others wst >>= run c fuel) = .ok (some s')) : (∃ u', s'.vols[0]? = some u' ∧ P (int u')) ∧ LogHas (fun v => P (int v)) s'.log := by
  obtain ⟨s0, h1, h2⟩ := bind_ok h
  unfold start at h1
  obtain ⟨v, hv, h1⟩ := bind_ok h1
  obtain ⟨v', e1, e2, e3⟩ := hs.bc_ok u
  rw [hv] at e1
  cases e1
  cases h1
  have hi : Inv c int Ready P ⟨v :: others, ⟨0, 0⟩, wst, []⟩ := ⟨by simp [hlen], ⟨v, rfl, e3, by rw [e2]; exact h0⟩, by intro call hc; simp at hc⟩
  unfold run at h2
  obtain ⟨s1, h3, h4⟩ := bind_ok h2
  obtain ⟨-, ⟨u', g1, -, g2⟩, g3⟩ := loop_keeps hs hP fuel h4 (callWriters_keeps h3 hi)
  exact ⟨⟨u', g1, g2⟩, g3⟩

/-- A run that is over after one step. -/
theorem run_one_step (hs : Sound c.env.sys c.bc int F ws Ready) (hwr : c.writers = []) (hob : ∀ v, c.obeys v = true) (u : V) (others : List V)
    (hlen : others.length = c.kind.substeps) (wst : σ) (dt : K) (hdt : computeTimestep c.env.waveAdj (c.adjusters wst) (ws (int u)) c.env.len c.env.cfl ⟨0, 0⟩ = dt)
    (hx : c.env.len 0 ≠ 0) (he0 : 0 < c.endTime) (he1 : c.endTime ≤ dt) :
    ∃ s' u', (start c u others wst >>= run c 1) = .ok (some s') ∧ s'.vols[0]? = some u' ∧ int u' = textbook c.kind (fun w => (1 / c.env.len 0) • F w) dt (int u) := by
  obtain ⟨v, e1, e2, e3⟩ := hs.bc_ok u
  obtain ⟨s2, u', g1, g2, g3, g4, g5, g6, g7, g8⟩ := increment_ok c hs ⟨v :: others, ⟨0, 0⟩, wst, []⟩ (by simp [hlen]) v rfl e3 dt (by rw [e2]; exact hdt) hx
  refine ⟨s2, u', ?_, g2, by rw [g5, e2]⟩
  have hcw : ∀ s : Sim V K σ, ∀ w, s.vols[0]? = some w → callWriters c s = .ok s := by
    intro s w hw
    obtain ⟨vols, info, ws', log⟩ := s
    simp only at hw
    simp [callWriters, hwr, at', hw]
  have hat : s2.info.time = dt := by rw [g6]; simp [TimeInfo.increment]
  have hps : performStep c ⟨v :: others, ⟨0, 0⟩, wst, []⟩ = .ok s2 := by
    simp [performStep, g1, checkConstraints, at', g2, hob, hcw s2 u' g2]
  have hrun : run c 1 ⟨v :: others, ⟨0, 0⟩, wst, []⟩ = .ok (some s2) := by
    have h0 := hcw ⟨v :: others, ⟨0, 0⟩, wst, []⟩ v rfl
    simp only [run, h0]
    change loop c 1 ⟨v :: others, ⟨0, 0⟩, wst, []⟩ = _
    have hn : atEnd c (⟨v :: others, ⟨0, 0⟩, wst, []⟩ : Sim V K σ) = false := by simpa [atEnd] using he0
    have hy : atEnd c s2 = true := by simpa [atEnd, hat] using he1
    simp only [loop, hn, hps]
    change (if atEnd c s2 = true then _ else _) = _
    rw [if_pos hy]
  simp only [start, e1]
  exact hrun

/-- Additive quantities the right hand side does not change are not changed by any of the schemes. -/
theorem textbook_linear {A : Type} [AddCommGroup A] [Module K A] (T : W →ₗ[K] A) (L : W → W) (hT : ∀ w, T (L w) = 0) (k : Kind) (h : K) (w : W) :
    T (textbook k L h w) = T w := by
  cases k <;> simp only [textbook, map_add, map_smul, hT, smul_zero, add_zero]
  · match_scalars; norm_num
  · match_scalars; norm_num

/-- States at which the right hand side vanishes are kept by all schemes. -/
theorem textbook_steady (L : W → W) (w : W) (hL : L w = 0) (k : Kind) (h : K) : textbook k L h w = w := by
  cases k <;> simp only [textbook, hL, smul_zero, add_zero]
  · match_scalars; norm_num
  · have e : (3 / 4 : K) • w + (1 / 4 : K) • w = w := by match_scalars; norm_num
    rw [e, hL, smul_zero, add_zero]
    match_scalars; norm_num

/-! ### Totals and uniform states -/

section
variable {b : BC} {n G active : I3} {g dims : Nat} {r : Recon V} {fl : FluxFn V K}

/-- Total over the interior cells, as a linear map. -/
def sumCells (n G : I3) : (Step.Cells n G → V) →ₗ[K] V where
  toFun w := total n G fun p => if h : IsInterior n G p then w ⟨p, h⟩ else 0
  map_add' w w' := by
    rw [← total_add]
    refine total_congr fun p hp => ?_
    simp [hp]
  map_smul' a w := by
    simp only [total, RingHom.id_apply, Finset.smul_sum]
    refine Finset.sum_congr rfl fun z _ => Finset.sum_congr rfl fun y _ => Finset.sum_congr rfl fun x _ => ?_
    split_ifs <;> simp

omit [LinearOrder K] [IsStrictOrderedRing K] in
theorem sumCells_apply (w : Step.Cells n G → V) : sumCells (K := K) n G w = total n G fun p => if h : IsInterior n G p then w ⟨p, h⟩ else 0 := rfl

omit [LinearOrder K] [IsStrictOrderedRing K] in
theorem sumCells_int (u : I3 → V) : sumCells (K := K) n G (Step.int (K := K) n G u) = total n G u := by
  rw [sumCells_apply]
  refine total_congr fun p hp => ?_
  rw [dif_pos hp]
  rfl

theorem sumCells_rhs (hL : Layout n G active dims g) (hf : Fits r fl g) (hN : ∀ d < dims, 3 * G.get d ≤ n.get d) (hpos : 0 < dims)
    {work : NetFlux.State V K} (hw : Sized n work) (w : Step.Cells n G → V) : sumCells (K := K) n G (Step.rhs .periodic dims r fl n G g w) = 0 := by
  obtain ⟨u1, s', h1, h2, h3⟩ := Props.C10_conservation_after_periodic_boundary r fl n G active dims g hL hf hN hpos (field n (Step.extend .periodic n G g dims w)) rfl work hw
  obtain ⟨s1, s2, s3⟩ := Step.sizes hL hN
  obtain ⟨as', h4, h5⟩ := Boundary.apply_ok (bc := .periodic) (n := n) (N := n - G - G) (g := g) (dims := dims) (mpi := fun _ => false) hL.dims_le s1 s2 hpos
    (fun _ => s3) [field n (Step.extend .periodic n G g dims w)] (by simp [field])
  rw [h1] at h4
  cases h4
  rw [List.forall₂_cons] at h5
  obtain ⟨⟨h6, h7⟩, -⟩ := h5
  obtain ⟨s'', g1, -, g3, -⟩ := conservedSystem_ok hL hf hN hpos u1 u1 (readsOK_of_full hL hf (inner_regionOK hL) u1 h6) h6 (fun _ _ => rfl) work hw
  rw [h2] at g1
  cases g1
  rw [sumCells_apply]
  refine Eq.trans (total_congr (V := V) (g := s'.out.val) fun p hp => ?_) h3
  rw [dif_pos hp, g3, if_pos (isInterior_iff.1 hp)]
  refine Step.net_congr_full hL hf (fun q hq => ?_) hp
  rw [h7 q hq]
  change _ = Step.extend .periodic n G g dims w _
  rw [Step.extend_interior hL w (Step.ghostSource_interior hL hN hq), Step.extend, dif_pos (Step.ghostSource_interior hL hN hq)]

theorem rhs_uniform (hL : Layout n G active dims g) (hf : Fits r fl g) (hN : ∀ d < dims, 3 * G.get d ≤ n.get d) (a : V) :
    Step.rhs b dims r fl n G g (fun _ => a) = 0 := by
  funext p
  change net dims r fl (Step.extend b n G g dims fun _ => a) p = 0
  rw [Step.net_congr_full hL hf (v := fun _ => a) (fun q hq => by rw [Step.extend, dif_pos (Step.ghostSource_interior hL hN hq)]) p.2]
  apply List.sum_eq_zero
  intro x hx
  obtain ⟨d, -, rfl⟩ := List.mem_map.1 hx
  exact sub_self _

end

end WholeRun
end Verif
