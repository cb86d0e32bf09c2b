import Verif.ScalarRun
import Verif.Variation
import Verif.LimitedRun

/-! Properties C78 to C82: whole runs. -/

namespace Verif.Props.WholeRun
open Verif Verif.Integrator Verif.Simulator Verif.NetFlux Verif.ScalarRun

/-! ### C78 -/

/-- C78. On a periodic domain, whatever the flux, the reconstruction, the integrator, the writers, the time step adjusters and the number of steps: a run that comes to its end
leaves the total of the initial data unchanged, and every state handed to a writer has that total too. -/
theorem C78_run_conserves {V K σ : Type} [Field K] [LinearOrder K] [IsStrictOrderedRing K] [AddCommGroup V] [Module K V]
    (k : Kind) (dims g : Nat) (r : Recon V) (fl : FluxFn V K) (n G active : I3) (hL : Layout n G active dims g)
    (hf : Fits r fl g) (hN : ∀ d < dims, 3 * G.get d ≤ n.get d) (hpos : 0 < dims) (work : NetFlux.State V K) (hw : Sized n work) (waveAdj : List (K → K))
    (len : Nat → K) (cfl endTime : K) (obeys : (I3 → V) → Bool) (writers : List ((I3 → V) → TimeInfo K → σ → Res σ)) (adj : σ → List (Adjuster K))
    (c : Config (I3 → V) K σ)
    (hc : c = ⟨k, ⟨Step.cpuSystem dims r fl n G active work, waveAdj, len, cfl⟩, Step.cpuBoundary .periodic n g dims, obeys, writers, adj, endTime⟩)
    (u : I3 → V) (others : List (I3 → V)) (hlen : others.length = k.substeps) (wst : σ) (fuel : Nat) (s' : Sim (I3 → V) K σ)
    (h : (start c u others wst >>= run c fuel) = .ok (some s')) :
    (∃ u', s'.vols[0]? = some u' ∧ total n G u' = total n G u) ∧ ∀ call ∈ s'.log, total n G call.state = total n G u := by
  subst hc
  obtain ⟨⟨u', h1, h2⟩, h3⟩ := WholeRun.run_keeps (P := fun w => WholeRun.sumCells (K := K) n G w = total n G u) (Step.sound (b := .periodic) hL hf hN hpos hw)
    (fun w _ _ dt hP _ => by
      rw [← hP]
      refine WholeRun.textbook_linear _ _ (fun w' => ?_) _ _ _
      rw [map_smul, WholeRun.sumCells_rhs hL hf hN hpos hw, smul_zero])
    u others hlen wst (WholeRun.sumCells_int u) fuel s' h
  exact ⟨⟨u', h1, by rw [← h2, WholeRun.sumCells_int]⟩, fun call hcall => by rw [← h3 call hcall, WholeRun.sumCells_int]⟩

/-! ### C79 -/

/-- C79. A run whose initial data have the same value in all interior cells keeps that value in all interior cells, in the final state and in every state handed to a
writer, for periodic and for Neumann boundaries. -/
theorem C79_run_uniform {V K σ : Type} [Field K] [LinearOrder K] [IsStrictOrderedRing K] [AddCommGroup V] [Module K V]
    (k : Kind) (b : BC) (dims g : Nat) (r : Recon V) (fl : FluxFn V K) (n G active : I3) (hL : Layout n G active dims g)
    (hf : Fits r fl g) (hN : ∀ d < dims, 3 * G.get d ≤ n.get d) (hpos : 0 < dims) (work : NetFlux.State V K) (hw : Sized n work) (waveAdj : List (K → K))
    (len : Nat → K) (cfl endTime : K) (obeys : (I3 → V) → Bool) (writers : List ((I3 → V) → TimeInfo K → σ → Res σ)) (adj : σ → List (Adjuster K))
    (c : Config (I3 → V) K σ)
    (hc : c = ⟨k, ⟨Step.cpuSystem dims r fl n G active work, waveAdj, len, cfl⟩, Step.cpuBoundary b n g dims, obeys, writers, adj, endTime⟩)
    (u : I3 → V) (others : List (I3 → V)) (hlen : others.length = k.substeps) (wst : σ) (a : V) (hu : ∀ p, IsInterior n G p → u p = a)
    (fuel : Nat) (s' : Sim (I3 → V) K σ) (h : (start c u others wst >>= run c fuel) = .ok (some s')) :
    (∃ u', s'.vols[0]? = some u' ∧ ∀ p, IsInterior n G p → u' p = a) ∧ ∀ call ∈ s'.log, ∀ p, IsInterior n G p → call.state p = a := by
  subst hc
  have hs := Step.sound (b := b) hL hf hN hpos hw
  obtain ⟨⟨u', h1, h2⟩, h3⟩ := WholeRun.run_keeps (P := fun w : Step.Cells n G → V => w = fun _ => a) hs
    (fun w _ _ dt hP _ => by
      subst hP
      refine WholeRun.textbook_steady _ _ ?_ _ _
      rw [WholeRun.rhs_uniform hL hf hN, smul_zero])
    u others hlen wst (funext fun p : Step.Cells n G => hu p p.2) fuel s' h
  exact ⟨⟨u', h1, fun p hp => congrFun h2 ⟨p, hp⟩⟩, fun call hcall p hp => congrFun (h3 call hcall) ⟨p, hp⟩⟩

/-! ### C80 -/

/-- The equations and fluxes C80 is proved for. -/
inductive Covered : Flux.ScalarName → String → Prop
  | burgersRusanov : Covered .burgers "rusanov"
  | burgersGodunov : Covered .burgers "godunov"
  | burgersRoe : Covered .burgers "roe"
  | cubicRusanov : Covered .cubic "rusanov"
  | cubicRoe : Covered .cubic "roe"
  | linearRusanov : Covered .linear "rusanov"
  | linearRoe : Covered .linear "roe"
  | linearUpwind : Covered .linear "upwind"

/-- A flux selected by the user as the solver calls it with the reconstruction `none` (numflux_util.hpp:63-92): the value of the left cell and of the right cell. -/
def asFlux (F : Flux.Selected) : FluxFn ℝ ℝ := twoPoint fun l r => F.fn [l, r]

theorem bounding_of_covered {e : Flux.ScalarName} {name : String} {F : Flux.Selected} (hsel : Flux.select e name = some F) (hc : Covered e name) (m M : ℝ) :
    ∃ f speed, Bounding f speed (fun l r => F.fn [l, r]) m M := by
  cases hc <;> (simp only [Flux.select, Option.some.injEq] at hsel; subst hsel)
  · exact ⟨_, _, rusanov_burgers m M⟩
  · exact ⟨_, _, godunov_burgers m M⟩
  · exact ⟨_, _, roe_burgers m M⟩
  · exact ⟨_, _, rusanov_cubic m M⟩
  · exact ⟨_, _, roe_cubic m M⟩
  · exact ⟨_, _, rusanov_linear m M⟩
  · exact ⟨_, _, roe_linear m M⟩
  · exact ⟨_, _, upwind_linear m M⟩

theorem linear_of_covered {e : Flux.ScalarName} {name : String} {F : Flux.Selected} (hsel : Flux.select e name = some F) (hc : Covered e name)
    (h : e = .linear ∧ name ≠ "roe") : LinearFlux fun l r => F.fn [l, r] := by
  obtain ⟨rfl, hn⟩ := h
  cases hc <;> (simp only [Flux.select, Option.some.injEq] at hsel; subst hsel)
  · exact ⟨1, 0, fun l r => by simp only [Flux.two, Flux.rusanov, Flux.linear]; norm_num; ring⟩
  · exact absurd rfl hn
  · exact ⟨1, 0, fun l r => by simp [Flux.two, Flux.upwind, Flux.linear]⟩

/-- C80, partial. First order runs (reconstruction `none`) with forward Euler or the Runge-Kutta schemes of order two and three, and with that of order four for the linear equation, a CFL number of at most one (the automatic choice is 0.9) and
cells that are cubes create no values outside the range of the initial data: if all interior values lie between `m` and `M`, so do those of the final state and of
every state handed to a writer. The adjusters may shorten the time step in any way; that they never ask for a negative one follows from the
states of the writers (`Punctual`: this includes the writers of a configuration, see `C80_program_partial`).
Missing: cells that are not cubes (false, see `Props.RunFourth.C80_fails_for_cells_that_are_not_cubes`), Buckley-Leverett (false, see `C80_fails_for_buckley_leverett`; true for data on one side of one half, see `C80_buckley_leverett_partial`), the flux `central` (false, see `C80_fails_for_central`), the flux
`tecno1` (false, see `C80_fails_for_tecno1`), the fluxes `godunov4` and `godunov6` (false, see
`Props.RunCombined.C80_fails_for_godunov4`), the fluxes `tecno4` and `tecno6` (false, see `Props.RunCombined.C80_fails_for_tecno4`), the Runge-Kutta scheme of order four for the other equations (false for the cubic one, see `Props.RunFourth.C80_fails_for_rungekutta4`) and the reconstructions of higher
order. -/
theorem C80_no_new_extrema_partial {σ : Type} (k : Kind) (b : BC) (dims g : Nat) (hg : 1 ≤ g) (e : Flux.ScalarName) (name : String)
    (F : Flux.Selected) (hsel : Flux.select e name = some F) (hcov : Covered e name) (hk : k = .rungeKutta4 → e = .linear ∧ name ≠ "roe") (n G active : I3) (hL : Layout n G active dims g)
    (hN : ∀ d < dims, 3 * G.get d ≤ n.get d) (hpos : 0 < dims) (work : NetFlux.State ℝ ℝ) (hw : Sized n work)
    (waveAdj : List (ℝ → ℝ)) (hwave : ∀ f ∈ waveAdj, ∀ w, w ≤ f w) (len : Nat → ℝ) (hlen : ∀ d, 0 ≤ len d) (hlen0 : 0 < len 0) (hcube : ∀ d < dims, len d = len 0)
    (cfl : ℝ) (hcfl0 : 0 < cfl) (hcfl : cfl ≤ 1) (endTime : ℝ) (obeys : (I3 → ℝ) → Bool) (writers : List ((I3 → ℝ) → TimeInfo ℝ → σ → Res σ))
    (adj : σ → List (Adjuster ℝ)) (wst : σ) (Fine : σ → TimeInfo ℝ → Prop) (hadj : WholeRun.Punctual writers adj wst Fine)
    (c : Config (I3 → ℝ) ℝ σ)
    (hc : c = ⟨k, ⟨Step.cpuSystem dims CudaRecon.noRecon (asFlux F) n G active work, waveAdj, len, cfl⟩, Step.cpuBoundary b n g dims, obeys, writers, adj, endTime⟩)
    (u : I3 → ℝ) (others : List (I3 → ℝ)) (hothers : others.length = k.substeps) (m M : ℝ) (hu : ∀ p, IsInterior n G p → m ≤ u p ∧ u p ≤ M)
    (fuel : Nat) (s' : Sim (I3 → ℝ) ℝ σ) (h : (start c u others wst >>= run c fuel) = .ok (some s')) :
    (∃ u', s'.vols[0]? = some u' ∧ ∀ p, IsInterior n G p → m ≤ u' p ∧ u' p ≤ M) ∧ ∀ call ∈ s'.log, ∀ p, IsInterior n G p → m ≤ call.state p ∧ call.state p ≤ M := by
  subst hc
  obtain ⟨f, speed, hB⟩ := bounding_of_covered hsel hcov m M
  obtain ⟨⟨u', h1, h2⟩, h3⟩ := WholeRun.run_punctual (P := fun w : Step.Cells n G → ℝ => ∀ p, m ≤ w p ∧ w p ≤ M) (Step.sound (b := b) hL (fits _ hg) hN hpos hw)
    ⟨hwave, waves_nonneg hL hN hpos (fits _ hg) hw, hlen, hcfl0⟩ wst hadj
    (fun w dt hP h0 h1 => step_bounds hL hN hpos hg hB hw k (fun h => linear_of_covered hsel hcov (hk h)) len hlen hlen0 hcube h0 w (h1.trans hcfl) hP)
    u others hothers (fun p : Step.Cells n G => hu p p.2) fuel s' h
  exact ⟨⟨u', h1, fun p hp => h2 ⟨p, hp⟩⟩, fun call hcall p hp => h3 call hcall ⟨p, hp⟩⟩

/-! ### Concrete runs -/

/-- Buffers for three cells and two ghost cells. -/
def exWork3 : NetFlux.State ℝ ℝ := ⟨field ⟨5, 1, 1⟩ fun _ => 0, field ⟨5, 1, 1⟩ fun _ => 0, field ⟨5, 1, 1⟩ fun _ => 0, field ⟨5, 1, 1⟩ fun _ => 0, fun _ => 0⟩
theorem exLayout3 : Layout ⟨5, 1, 1⟩ ⟨1, 0, 0⟩ ⟨1, 0, 0⟩ 1 1 := ⟨by decide, by decide, by decide, by decide⟩
theorem exSized3 : Sized ⟨5, 1, 1⟩ exWork3 := ⟨rfl, rfl, rfl, rfl⟩

/-- Initial data 1, 0, 1/11 in the three cells. -/
noncomputable def exData : I3 → ℝ := fun p => if p.x = 1 then 1 else if p.x = 2 then 0 else if p.x = 3 then 1 / 11 else 0

/-- The configuration of a one dimensional periodic run with forward Euler, CFL number one half, no writers and a given flux and end time. -/
noncomputable def exConfig (F : Flux.Selected) (endTime : ℝ) : Config (I3 → ℝ) ℝ Unit :=
  ⟨.forwardEuler, ⟨Step.cpuSystem 1 CudaRecon.noRecon (asFlux F) ⟨5, 1, 1⟩ ⟨1, 0, 0⟩ ⟨1, 0, 0⟩ exWork3, [], fun _ => 1, 1 / 2⟩, Step.cpuBoundary .periodic ⟨5, 1, 1⟩ 1 1,
    fun _ => true, [], fun _ => [], endTime⟩

/-- Values of the three cells. -/
noncomputable def exCells (a b c : ℝ) : I3 → ℝ := fun p => if p.x = 1 then a else if p.x = 2 then b else if p.x = 3 then c else 0

/-- The states at the four faces: the last and the first cell, and the pairs of neighbours. -/
theorem exFaces (a b c : ℝ) (x : Int) (hx : 0 ≤ x ∧ x ≤ 3) :
    Step.extend .periodic ⟨5, 1, 1⟩ ⟨1, 0, 0⟩ 1 1 (fun p : Step.Cells ⟨5, 1, 1⟩ ⟨1, 0, 0⟩ => (exCells a b c) p) ⟨x, 0, 0⟩ = (if x = 0 then c else if x = 1 then a else if x = 2 then b else c) ∧
    Step.extend .periodic ⟨5, 1, 1⟩ ⟨1, 0, 0⟩ 1 1 (fun p : Step.Cells ⟨5, 1, 1⟩ ⟨1, 0, 0⟩ => (exCells a b c) p) ⟨x + 1, 0, 0⟩ = (if x = 0 then a else if x = 1 then b else if x = 2 then c else a) := by
  obtain ⟨h0, h3⟩ := hx
  have key : ∀ (q p : I3), Boundary.ghostSource .periodic ((1 : Nat) : Int) (⟨5, 1, 1⟩ - ⟨1, 0, 0⟩ - ⟨1, 0, 0⟩) 1 (fun _ => false) q = p → IsInterior ⟨5, 1, 1⟩ ⟨1, 0, 0⟩ p →
      Step.extend .periodic ⟨5, 1, 1⟩ ⟨1, 0, 0⟩ 1 1 (fun p : Step.Cells ⟨5, 1, 1⟩ ⟨1, 0, 0⟩ => (exCells a b c) p) q = (exCells a b c) p := by
    rintro q p rfl hp
    rw [Step.extend, dif_pos hp]
  interval_cases x
  · exact ⟨by rw [key _ ⟨3, 0, 0⟩ (by decide) (by decide)]; simp [exCells], by rw [key _ ⟨1, 0, 0⟩ (by decide) (by decide)]; simp [exCells]⟩
  · exact ⟨by rw [key _ ⟨1, 0, 0⟩ (by decide) (by decide)]; simp [exCells], by rw [key _ ⟨2, 0, 0⟩ (by decide) (by decide)]; simp [exCells]⟩
  · exact ⟨by rw [key _ ⟨2, 0, 0⟩ (by decide) (by decide)]; simp [exCells], by rw [key _ ⟨3, 0, 0⟩ (by decide) (by decide)]; simp [exCells]⟩
  · exact ⟨by rw [key _ ⟨3, 0, 0⟩ (by decide) (by decide)]; simp [exCells], by rw [key _ ⟨1, 0, 0⟩ (by decide) (by decide)]; simp [exCells]⟩

/-- The values of the three cells after one step. -/
theorem exRunOf (a b c : ℝ) (F : Flux.Selected) (s : ℝ) (hs : 0 < s) (h1 : (F.fn [c, a]).2 = s) (h2 : (F.fn [a, b]).2 ≤ s) (h3 : (F.fn [b, c]).2 ≤ s) (endTime : ℝ)
    (he0 : 0 < endTime) (he1 : endTime ≤ 1 / 2 / s) :
    ∃ s' u', (start (exConfig F endTime) (exCells a b c) [0] () >>= run (exConfig F endTime) 1) = .ok (some s') ∧ s'.vols[0]? = some u' ∧
      u' ⟨1, 0, 0⟩ = a + 1 / 2 / s * ((F.fn [c, a]).1 - (F.fn [a, b]).1) ∧
      u' ⟨2, 0, 0⟩ = b + 1 / 2 / s * ((F.fn [a, b]).1 - (F.fn [b, c]).1) ∧
      u' ⟨3, 0, 0⟩ = c + 1 / 2 / s * ((F.fn [b, c]).1 - (F.fn [c, a]).1) := by
  have hf := fits (fun l r => F.fn [l, r]) (le_refl 1)
  have hsound := Step.sound (b := .periodic) exLayout3 hf (by decide) (by decide) exSized3
  have hface : ∀ x : Int, 0 ≤ x ∧ x ≤ 3 → face CudaRecon.noRecon (twoPoint fun l r => F.fn [l, r])
      (Step.extend .periodic ⟨5, 1, 1⟩ ⟨1, 0, 0⟩ 1 1 (fun p : Step.Cells ⟨5, 1, 1⟩ ⟨1, 0, 0⟩ => (exCells a b c) p)) 0 ⟨x, 0, 0⟩ =
      F.fn [if x = 0 then c else if x = 1 then a else if x = 2 then b else c, if x = 0 then a else if x = 1 then b else if x = 2 then c else a] := by
    intro x hx
    rw [face_eq _ _ (by decide)]
    have e : (⟨x, 0, 0⟩ + I3.dir 0 : I3) = ⟨x + 1, 0, 0⟩ := rfl
    rw [e, (exFaces a b c x hx).1, (exFaces a b c x hx).2]
  have hws : Step.waves .periodic 1 CudaRecon.noRecon (asFlux F) ⟨5, 1, 1⟩ ⟨1, 0, 0⟩ ⟨1, 0, 0⟩ 1 exWork3 (fun p : Step.Cells ⟨5, 1, 1⟩ ⟨1, 0, 0⟩ => (exCells a b c) p) =
      fun k => if k < 1 then s else 0 := by
    obtain ⟨t, e1, -, -, e4, e5⟩ := Step.cpuSystem_ok exLayout3 hf (by decide) (by decide) exSized3
      (Step.extend .periodic ⟨5, 1, 1⟩ ⟨1, 0, 0⟩ 1 1 (fun p : Step.Cells ⟨5, 1, 1⟩ ⟨1, 0, 0⟩ => (exCells a b c) p)) 0
    funext k
    simp only [Step.waves, asFlux, e1]
    split_ifs with hk
    · obtain rfl : k = 0 := by omega
      refine (e4 0 hk).unique ⟨Or.inr ⟨⟨0, 0, 0⟩, by unfold IsFace; decide, ?_⟩, ?_⟩
      · rw [hface 0 (by decide)]; exact h1.symm
      · rintro x (rfl | ⟨⟨x, y, z⟩, hq, rfl⟩)
        · exact hs.le
        · unfold IsFace at hq
          simp [mem_box, I3.dir] at hq
          obtain rfl : y = 0 := by omega
          obtain rfl : z = 0 := by omega
          have hx : 0 ≤ x ∧ x ≤ 3 := by omega
          rw [hface x hx]
          obtain ⟨hx0, hx3⟩ := hx
          interval_cases x <;> simp <;> linarith
    · exact e5 k (by omega)
  obtain ⟨s', u', g1, g2, g3⟩ := WholeRun.run_one_step (c := exConfig F endTime) hsound rfl (fun _ => rfl) (exCells a b c) [0] rfl () (1 / 2 / s) (by
    change computeTimestep [] [] (Step.waves .periodic 1 CudaRecon.noRecon (asFlux F) ⟨5, 1, 1⟩ ⟨1, 0, 0⟩ ⟨1, 0, 0⟩ 1 exWork3
      (fun p : Step.Cells ⟨5, 1, 1⟩ ⟨1, 0, 0⟩ => (exCells a b c) p)) (fun _ => 1) (1 / 2) ⟨0, 0⟩ = _
    rw [hws]
    simp [computeTimestep, adjustTimestep, waveSpeedTotal, List.range_succ, hs.ne']) one_ne_zero he0 he1
  have hx : ∀ x : Int, (hx : 1 ≤ x ∧ x ≤ 3) → u' ⟨x, 0, 0⟩ = (exCells a b c) ⟨x, 0, 0⟩ + (1 / 2 / s) * ((1 / 1 : ℝ) * net 1 CudaRecon.noRecon (twoPoint fun l r => F.fn [l, r])
      (Step.extend .periodic ⟨5, 1, 1⟩ ⟨1, 0, 0⟩ 1 1 (fun p : Step.Cells ⟨5, 1, 1⟩ ⟨1, 0, 0⟩ => (exCells a b c) p)) ⟨x, 0, 0⟩) := fun x hx =>
    congrFun g3 ⟨⟨x, 0, 0⟩, by intro d hd; interval_cases d <;> simp [I3.get]; omega⟩
  refine ⟨s', u', g1, g2, ?_, ?_, ?_⟩
  · rw [hx 1 (by decide)]
    simp only [net, List.range_succ, List.range_zero, List.nil_append, List.map_cons, List.map_nil, List.sum_cons, List.sum_nil,
      show (⟨1, 0, 0⟩ - I3.dir 0 : I3) = ⟨0, 0, 0⟩ from rfl, hface 0 (by decide), hface 1 (by decide)]
    simp [exCells]
  · rw [hx 2 (by decide)]
    simp only [net, List.range_succ, List.range_zero, List.nil_append, List.map_cons, List.map_nil, List.sum_cons, List.sum_nil,
      show (⟨2, 0, 0⟩ - I3.dir 0 : I3) = ⟨1, 0, 0⟩ from rfl, hface 1 (by decide), hface 2 (by decide)]
    simp [exCells]
  · rw [hx 3 (by decide)]
    simp only [net, List.range_succ, List.range_zero, List.nil_append, List.map_cons, List.map_nil, List.sum_cons, List.sum_nil,
      show (⟨3, 0, 0⟩ - I3.dir 0 : I3) = ⟨2, 0, 0⟩ from rfl, hface 2 (by decide), hface 3 (by decide)]
    simp [exCells]

/-- The same for the data 1, 0, 1/11. -/
theorem exRun (F : Flux.Selected) (s : ℝ) (hs : 0 < s) (h1 : (F.fn [1 / 11, 1]).2 = s) (h2 : (F.fn [1, 0]).2 ≤ s) (h3 : (F.fn [0, 1 / 11]).2 ≤ s) (endTime : ℝ)
    (he0 : 0 < endTime) (he1 : endTime ≤ 1 / 2 / s) :
    ∃ s' u', (start (exConfig F endTime) exData [0] () >>= run (exConfig F endTime) 1) = .ok (some s') ∧ s'.vols[0]? = some u' ∧
      u' ⟨1, 0, 0⟩ = 1 + 1 / 2 / s * ((F.fn [1 / 11, 1]).1 - (F.fn [1, 0]).1) ∧
      u' ⟨2, 0, 0⟩ = 1 / 2 / s * ((F.fn [1, 0]).1 - (F.fn [0, 1 / 11]).1) ∧
      u' ⟨3, 0, 0⟩ = 1 / 11 + 1 / 2 / s * ((F.fn [0, 1 / 11]).1 - (F.fn [1 / 11, 1]).1) := by
  obtain ⟨s', u', g1, g2, g3, g4, g5⟩ := exRunOf 1 0 (1 / 11) F s hs h1 h2 h3 endTime he0 he1
  exact ⟨s', u', g1, g2, g3, by rw [g4, zero_add], g5⟩

/-- One step of Buckley-Leverett with the flux `rusanov`: values of the second and third cell. -/
theorem exBuckley : ∃ s' u', (start (exConfig (Flux.two (Flux.rusanov Flux.buckleyLeverett)) 1) exData [0] () >>=
      run (exConfig (Flux.two (Flux.rusanov Flux.buckleyLeverett)) 1) 1) = .ok (some s') ∧ s'.vols[0]? = some u' ∧ 1 < u' ⟨2, 0, 0⟩ ∧ u' ⟨3, 0, 0⟩ < (-1 / 2 : ℝ) := by
  have e1 : Flux.buckleyLeverett.speed 1 = 0 := by norm_num [Flux.buckleyLeverett]
  have e2 : Flux.buckleyLeverett.speed 0 = 0 := by norm_num [Flux.buckleyLeverett]
  have e3 : Flux.buckleyLeverett.speed (1 / 11) = 2420 / 10201 := by norm_num [Flux.buckleyLeverett, abs_of_pos]
  have d1 : Flux.buckleyLeverett.eig 1 = 0 := by norm_num [Flux.buckleyLeverett]
  have d2 : Flux.buckleyLeverett.eig 0 = 0 := by norm_num [Flux.buckleyLeverett]
  have d3 : Flux.buckleyLeverett.eig (1 / 11) = 2420 / 10201 := by norm_num [Flux.buckleyLeverett]
  have f1 : Flux.buckleyLeverett.flux 1 = 1 := by norm_num [Flux.buckleyLeverett]
  have f2 : Flux.buckleyLeverett.flux 0 = 0 := by norm_num [Flux.buckleyLeverett]
  have f3 : Flux.buckleyLeverett.flux (1 / 11) = 1 / 101 := by norm_num [Flux.buckleyLeverett]
  obtain ⟨s', u', h1, h2, -, h3, h4⟩ := exRun (Flux.two (Flux.rusanov Flux.buckleyLeverett)) (2420 / 10201) (by norm_num)
    (by simp only [Flux.two, Flux.rusanov, Flux.twoPointSpeed, e1, e3]; norm_num)
    (by simp only [Flux.two, Flux.rusanov, Flux.twoPointSpeed, e1, e2]; norm_num)
    (by simp only [Flux.two, Flux.rusanov, Flux.twoPointSpeed, e2, e3]; norm_num) 1 one_pos (by norm_num)
  refine ⟨s', u', h1, h2, ?_, ?_⟩ <;> [rw [h3]; rw [h4]] <;> simp only [Flux.two, Flux.rusanov, d1, d2, d3, f1, f2, f3] <;> norm_num

/-- C80 is false for the Buckley-Leverett equation, with the flux `rusanov`, although everything else is as in `C80_no_new_extrema_partial`: the initial data 1, 0, 1/11
lie between 0 and 1, and after the first step of the run the second cell has a value above 1. The flux returns the wave speed 0 for the states 1 and 0. -/
theorem C80_fails_for_buckley_leverett :
    ∃ F, Flux.select .buckleyleverett "rusanov" = some F ∧ (∀ p, IsInterior ⟨5, 1, 1⟩ ⟨1, 0, 0⟩ p → 0 ≤ exData p ∧ exData p ≤ 1) ∧
      ∃ s' u', (start (exConfig F 1) exData [0] () >>= run (exConfig F 1) 1) = .ok (some s') ∧ s'.vols[0]? = some u' ∧ 1 < u' ⟨2, 0, 0⟩ := by
  refine ⟨_, rfl, fun p _ => by unfold exData; split_ifs <;> norm_num, ?_⟩
  obtain ⟨s', u', h1, h2, h3, -⟩ := exBuckley
  exact ⟨s', u', h1, h2, h3⟩

/-- One step with the flux `central`, for an equation whose wave speed is largest for the state 1: the value of the first cell, and bounds for the third one. -/
theorem exCentral (e : Flux.ScalarEq) (s : ℝ) (hs : 0 < s) (h1 : e.speed 1 = s) (h2 : e.speed 0 ≤ s) (h3 : e.speed (1 / 11) ≤ s) (hf : e.flux 0 < e.flux (1 / 11)) :
    ∃ s' u', (start (exConfig (Flux.two (Flux.central e)) (1 / 2 / s)) exData [0] () >>= run (exConfig (Flux.two (Flux.central e)) (1 / 2 / s)) 1) = .ok (some s') ∧
      s'.vols[0]? = some u' ∧ 1 < u' ⟨1, 0, 0⟩ ∧ u' ⟨3, 0, 0⟩ = 1 / 11 + 1 / 4 / s * (e.flux 0 - e.flux 1) := by
  obtain ⟨s', u', g1, g2, g3, -, g4⟩ := exRun (Flux.two (Flux.central e)) s hs
    (by simp only [Flux.two, Flux.central, Flux.twoPointSpeed, h1]; exact max_eq_right h3)
    (by simp only [Flux.two, Flux.central, Flux.twoPointSpeed, h1]; exact max_le le_rfl h2)
    (by simp only [Flux.two, Flux.central, Flux.twoPointSpeed]; exact max_le h2 h3) (1 / 2 / s) (by positivity) le_rfl
  refine ⟨s', u', g1, g2, ?_, ?_⟩
  · rw [g3]
    simp only [Flux.two, Flux.central]
    have : 0 < 1 / 2 / s * (0.5 * (e.flux (1 / 11) + e.flux 1) - 0.5 * (e.flux 1 + e.flux 0)) := mul_pos (by positivity) (by norm_num; linarith)
    linarith
  · rw [g4]
    simp only [Flux.two, Flux.central]
    ring

/-- C80 is false for the flux `central`, for the equations C80 is proved for with other fluxes, with forward Euler and the CFL number one half: the initial data 1, 0, 1/11 lie between 0 and 1, and
after the first step of the run the first cell has a value above 1. -/
theorem C80_fails_for_central (e : Flux.ScalarName) (he : e = .burgers ∨ e = .cubic ∨ e = .linear) :
    ∃ F endTime, Flux.select e "central" = some F ∧ (∀ p, IsInterior ⟨5, 1, 1⟩ ⟨1, 0, 0⟩ p → 0 ≤ exData p ∧ exData p ≤ 1) ∧
      ∃ s' u', (start (exConfig F endTime) exData [0] () >>= run (exConfig F endTime) 1) = .ok (some s') ∧ s'.vols[0]? = some u' ∧ 1 < u' ⟨1, 0, 0⟩ := by
  have hb : ∀ p, IsInterior ⟨5, 1, 1⟩ ⟨1, 0, 0⟩ p → 0 ≤ exData p ∧ exData p ≤ 1 := fun p _ => by unfold exData; split_ifs <;> norm_num
  rcases he with rfl | rfl | rfl
  · obtain ⟨s', u', h1, h2, h3, -⟩ := exCentral Flux.burgers 1 one_pos (by norm_num [Flux.burgers]) (by norm_num [Flux.burgers]) (by norm_num [Flux.burgers, abs_of_pos]) (by norm_num [Flux.burgers])
    exact ⟨_, _, rfl, hb, s', u', h1, h2, h3⟩
  · obtain ⟨s', u', h1, h2, h3, -⟩ := exCentral Flux.cubic 1 one_pos (by norm_num [Flux.cubic]) (by norm_num [Flux.cubic]) (by norm_num [Flux.cubic, abs_of_pos]) (by norm_num [Flux.cubic])
    exact ⟨_, _, rfl, hb, s', u', h1, h2, h3⟩
  · obtain ⟨s', u', h1, h2, h3, -⟩ := exCentral Flux.linear 1 one_pos (by norm_num [Flux.linear]) (by norm_num [Flux.linear]) (by norm_num [Flux.linear, abs_of_pos]) (by norm_num [Flux.linear])
    exact ⟨_, _, rfl, hb, s', u', h1, h2, h3⟩

/-- One step of the Burgers equation with the flux `tecno1`, from the data 1, 1/10, 1/2: bounds for the first two cells. -/
theorem exTecno : ∃ s' u', (start (exConfig (Flux.two (Flux.entropyConservative Flux.burgers)) (1 / 2)) (exCells 1 (1 / 10) (1 / 2)) [0] () >>=
      run (exConfig (Flux.two (Flux.entropyConservative Flux.burgers)) (1 / 2)) 1) = .ok (some s') ∧ s'.vols[0]? = some u' ∧ 1 < u' ⟨1, 0, 0⟩ ∧ 9 / 10 < u' ⟨1, 0, 0⟩ - u' ⟨2, 0, 0⟩ := by
  have e1 : Flux.burgers.speed 1 = 1 := by norm_num [Flux.burgers]
  have e2 : Flux.burgers.speed (1 / 10) = 1 / 10 := by norm_num [Flux.burgers, abs_of_pos]
  have e3 : Flux.burgers.speed (1 / 2) = 1 / 2 := by norm_num [Flux.burgers, abs_of_pos]
  obtain ⟨s', u', g1, g2, g3, g4, g5⟩ := exRunOf 1 (1 / 10) (1 / 2) (Flux.two (Flux.entropyConservative Flux.burgers)) 1 one_pos
    (by simp only [Flux.two, Flux.entropyConservative, Flux.twoPointSpeed, e1, e3]; norm_num)
    (by simp only [Flux.two, Flux.entropyConservative, Flux.twoPointSpeed, e1, e2]; norm_num)
    (by simp only [Flux.two, Flux.entropyConservative, Flux.twoPointSpeed, e2, e3]; norm_num) (1 / 2) (by norm_num) (by norm_num)
  have l1 : Real.log (19 / 10) = Real.log (3 / 2) + Real.log (19 / 15) := by rw [← Real.log_mul (by norm_num) (by norm_num)]; norm_num
  have l2 : Real.log (19 / 15) ≤ 4 / 15 := (Real.log_le_sub_one_of_pos (by norm_num)).trans (by norm_num)
  have l3 : Real.log (3 / 2) ≤ 9 / 20 := by
    have h : Real.log (3 / 2) ≤ Real.log ((49 / 40) ^ 2) := Real.log_le_log (by norm_num) (by norm_num)
    rw [Real.log_pow] at h
    have := Real.log_le_sub_one_of_pos (show (0 : ℝ) < 49 / 40 by norm_num)
    push_cast at h
    linarith
  have l4 : 27 / 50 ≤ Real.log (19 / 10) := by
    have h : Real.log ((137 / 100) ^ 2) ≤ Real.log (19 / 10) := Real.log_le_log (by norm_num) (by norm_num)
    rw [Real.log_pow] at h
    have := Real.one_sub_inv_le_log_of_pos (show (0 : ℝ) < 137 / 100 by norm_num)
    push_cast at h
    norm_num at this
    linarith
  refine ⟨s', u', g1, g2, ?_, ?_⟩ <;> [rw [g3]; rw [g3, g4]] <;>
    simp only [Flux.two, Flux.entropyConservative, Flux.entropyPotential, Flux.entropyVariable] <;> norm_num <;> linarith

/-- C80 is false for the flux `tecno1` of the Burgers equation, with forward Euler and the CFL number one half, for values between 0 and 2 where its entropy is defined: the initial data 1, 1/10, 1/2 lie
between 1/10 and 1, and after the first step of the run the first cell has a value above 1. -/
theorem C80_fails_for_tecno1 :
    ∃ F, Flux.select .burgers "tecno1" = some F ∧
      (∀ p, IsInterior ⟨5, 1, 1⟩ ⟨1, 0, 0⟩ p → 1 / 10 ≤ exCells 1 (1 / 10) (1 / 2) p ∧ exCells 1 (1 / 10) (1 / 2) p ≤ 1) ∧
      ∃ s' u', (start (exConfig F (1 / 2)) (exCells 1 (1 / 10) (1 / 2)) [0] () >>= run (exConfig F (1 / 2)) 1) = .ok (some s') ∧ s'.vols[0]? = some u' ∧ 1 < u' ⟨1, 0, 0⟩ := by
  refine ⟨_, rfl, fun p hp => ?_, ?_⟩
  · have := hp 0 (by decide)
    simp [I3.get] at this
    unfold exCells
    split_ifs <;> norm_num
    omega
  obtain ⟨s', u', h1, h2, h3, -⟩ := exTecno
  exact ⟨s', u', h1, h2, h3⟩

/-- Linear transport with the flux `upwind`, any scheme, end time 1/2. -/
noncomputable def exLinear (k : Kind) : Config (I3 → ℝ) ℝ Unit :=
  ⟨k, ⟨Step.cpuSystem 1 CudaRecon.noRecon (asFlux (Flux.two Flux.upwind)) ⟨5, 1, 1⟩ ⟨1, 0, 0⟩ ⟨1, 0, 0⟩ exWork3, [], fun _ => 1, 1 / 2⟩,
    Step.cpuBoundary .periodic ⟨5, 1, 1⟩ 1 1, fun _ => true, [], fun _ => [], 1 / 2⟩

theorem exLinear_waves (u : Step.Cells ⟨5, 1, 1⟩ ⟨1, 0, 0⟩ → ℝ) :
    Step.waves .periodic 1 CudaRecon.noRecon (twoPoint Flux.upwind) ⟨5, 1, 1⟩ ⟨1, 0, 0⟩ ⟨1, 0, 0⟩ 1 exWork3 u = fun k => if k < 1 then 1 else 0 := by
  have hf := fits Flux.upwind (le_refl 1)
  obtain ⟨t, e1, -, -, e4, e5⟩ := Step.cpuSystem_ok exLayout3 hf (by decide) (by decide) exSized3 (Step.extend .periodic ⟨5, 1, 1⟩ ⟨1, 0, 0⟩ 1 1 u) 0
  have hface : ∀ q, (face CudaRecon.noRecon (twoPoint Flux.upwind) (Step.extend .periodic ⟨5, 1, 1⟩ ⟨1, 0, 0⟩ 1 1 u) 0 q).2 = 1 :=
    fun q => by rw [face_eq _ _ (by decide)]; simp [Flux.upwind, Flux.twoPointSpeed, Flux.linear]
  funext k
  simp only [Step.waves, e1]
  split_ifs with hk
  · obtain rfl : k = 0 := by omega
    refine (e4 0 hk).unique ⟨Or.inr ⟨⟨0, 0, 0⟩, by unfold IsFace; decide, (hface _).symm⟩, ?_⟩
    rintro x (rfl | ⟨q, -, rfl⟩)
    · exact zero_le_one
    · exact (hface q).le
  · exact e5 k (by omega)

theorem exLinear_runs (k : Kind) (u : I3 → ℝ) : ∃ s', (start (exLinear k) u (List.replicate k.substeps 0) () >>= run (exLinear k) 1) = .ok (some s') := by
  have hf := fits Flux.upwind (le_refl 1)
  have hws := exLinear_waves fun p => u p
  obtain ⟨s', u', g1, -⟩ := WholeRun.run_one_step (c := exLinear k) (Step.sound (b := .periodic) exLayout3 hf (by decide) (by decide) exSized3) rfl (fun _ => rfl) u
    (List.replicate k.substeps 0) (by simp [exLinear]) () (1 / 2) (by
      change computeTimestep [] [] (Step.waves .periodic 1 CudaRecon.noRecon (twoPoint Flux.upwind) ⟨5, 1, 1⟩ ⟨1, 0, 0⟩ ⟨1, 0, 0⟩ 1 exWork3
        (fun p : Step.Cells ⟨5, 1, 1⟩ ⟨1, 0, 0⟩ => u p)) (fun _ => 1) (1 / 2) ⟨0, 0⟩ = _
      rw [hws]
      simp [computeTimestep, adjustTimestep, waveSpeedTotal, List.range_succ]) one_ne_zero (by norm_num [exLinear]) le_rfl
  exact ⟨s', g1⟩

/-- The hypotheses of C78 hold for a run from the data 1, 0, 1/11, whose total is 12/11. -/
example : ∃ s' u', (start (exLinear .rungeKutta4) exData (List.replicate 4 0) () >>= run (exLinear .rungeKutta4) 1) = .ok (some s') ∧ s'.vols[0]? = some u' ∧
    total ⟨5, 1, 1⟩ ⟨1, 0, 0⟩ u' = 12 / 11 := by
  obtain ⟨s', h⟩ := exLinear_runs .rungeKutta4 exData
  obtain ⟨⟨u', h1, h2⟩, -⟩ := C78_run_conserves .rungeKutta4 1 1 CudaRecon.noRecon (asFlux (Flux.two Flux.upwind)) ⟨5, 1, 1⟩ ⟨1, 0, 0⟩ ⟨1, 0, 0⟩ exLayout3 (fits _ (le_refl 1))
    (by decide) (by decide) exWork3 exSized3 [] (fun _ => 1) (1 / 2) (1 / 2) (fun _ => true) [] (fun _ => []) _ rfl exData (List.replicate 4 0) rfl () 1 s' h
  refine ⟨s', u', h, h1, h2.trans ?_⟩
  simp [total, show Finset.Ico (1 : ℤ) 4 = {1, 2, 3} from by decide, show Finset.Ico (0 : ℤ) 1 = {0} from by decide, exData]
  norm_num

/-- The hypotheses of C79 hold for a run from the value 7. -/
example : ∃ s' u', (start (exLinear .rungeKutta2) (fun _ => 7) (List.replicate 2 0) () >>= run (exLinear .rungeKutta2) 1) = .ok (some s') ∧ s'.vols[0]? = some u' ∧
    ∀ p, IsInterior ⟨5, 1, 1⟩ ⟨1, 0, 0⟩ p → u' p = 7 := by
  obtain ⟨s', h⟩ := exLinear_runs .rungeKutta2 (fun _ => 7)
  obtain ⟨⟨u', h1, h2⟩, -⟩ := C79_run_uniform .rungeKutta2 .periodic 1 1 CudaRecon.noRecon (asFlux (Flux.two Flux.upwind)) ⟨5, 1, 1⟩ ⟨1, 0, 0⟩ ⟨1, 0, 0⟩ exLayout3
    (fits _ (le_refl 1)) (by decide) (by decide) exWork3 exSized3 [] (fun _ => 1) (1 / 2) (1 / 2) (fun _ => true) [] (fun _ => []) _ rfl (fun _ => 7)
    (List.replicate 2 0) rfl () 7 (fun _ _ => rfl) 1 s' h
  exact ⟨s', u', h, h1, h2⟩

/-- The hypotheses of C80 hold for a run from the data 1, 0, 1/11. -/
example : ∃ s' u', (start (exLinear .rungeKutta4) exData (List.replicate 4 0) () >>= run (exLinear .rungeKutta4) 1) = .ok (some s') ∧ s'.vols[0]? = some u' ∧
    ∀ p, IsInterior ⟨5, 1, 1⟩ ⟨1, 0, 0⟩ p → 0 ≤ u' p ∧ u' p ≤ 1 := by
  obtain ⟨s', h⟩ := exLinear_runs .rungeKutta4 exData
  obtain ⟨⟨u', h1, h2⟩, -⟩ := C80_no_new_extrema_partial .rungeKutta4 .periodic 1 1 (le_refl 1) .linear "upwind" (Flux.two Flux.upwind) rfl .linearUpwind
    (fun _ => ⟨rfl, by decide⟩)
    ⟨5, 1, 1⟩ ⟨1, 0, 0⟩ ⟨1, 0, 0⟩ exLayout3 (by decide) (by decide) exWork3 exSized3 [] (by simp) (fun _ => 1) (fun _ => zero_le_one) one_pos (fun _ _ => rfl) (1 / 2)
    (by norm_num) (by norm_num) (1 / 2) (fun _ => true) [] (fun _ => []) () _ (.always () (by simp)) _ rfl exData (List.replicate 4 0) rfl 0 1
    (fun p _ => by unfold exData; split_ifs <;> norm_num) 1 s' h
  exact ⟨s', u', h, h1, h2⟩

/-! ### C81 -/

/-- Sum of the jumps between neighbouring cells of a one dimensional volume of `N` cells with `g` ghost cells; with periodic boundaries the first cell is the neighbour of
the last one. -/
def jumps (b : BC) (N g : Nat) (u : I3 → ℝ) : ℝ :=
  ∑ i ∈ Finset.range (N - 1), |u ⟨g + i + 1, 0, 0⟩ - u ⟨g + i, 0, 0⟩| +
    match b with
    | .periodic => |u ⟨g, 0, 0⟩ - u ⟨g + N - 1, 0, 0⟩|
    | .neumann => 0

theorem jumps_eq (b : BC) (N g : Nat) (u : I3 → ℝ) : jumps b N g u = Variation.variation b N g u := by cases b <;> rfl

/-- C81, partial. In one dimension, first order runs with a CFL number of at most one, as in C80, do not increase the total variation: that of the final state and of
every state handed to a writer is at most that of the initial data. Missing: as in C80. -/
theorem C81_variation_diminishing_partial {σ : Type} (k : Kind) (b : BC) (N g : Nat) (hg : 1 ≤ g) (hN : g ≤ N) (e : Flux.ScalarName) (name : String)
    (F : Flux.Selected) (hsel : Flux.select e name = some F) (hcov : Covered e name) (hk : k = .rungeKutta4 → e = .linear ∧ name ≠ "roe") (work : NetFlux.State ℝ ℝ) (hw : Sized ⟨N + 2 * g, 1, 1⟩ work)
    (waveAdj : List (ℝ → ℝ)) (hwave : ∀ f ∈ waveAdj, ∀ w, w ≤ f w) (len : Nat → ℝ) (hlen : ∀ d, 0 ≤ len d) (hlen0 : 0 < len 0)
    (cfl : ℝ) (hcfl0 : 0 < cfl) (hcfl : cfl ≤ 1) (endTime : ℝ) (obeys : (I3 → ℝ) → Bool) (writers : List ((I3 → ℝ) → TimeInfo ℝ → σ → Res σ))
    (adj : σ → List (Adjuster ℝ)) (wst : σ) (Fine : σ → TimeInfo ℝ → Prop) (hadj : WholeRun.Punctual writers adj wst Fine)
    (c : Config (I3 → ℝ) ℝ σ)
    (hc : c = ⟨k, ⟨Step.cpuSystem 1 CudaRecon.noRecon (asFlux F) ⟨N + 2 * g, 1, 1⟩ ⟨g, 0, 0⟩ ⟨1, 0, 0⟩ work, waveAdj, len, cfl⟩, Step.cpuBoundary b ⟨N + 2 * g, 1, 1⟩ g 1,
      obeys, writers, adj, endTime⟩)
    (u : I3 → ℝ) (others : List (I3 → ℝ)) (hothers : others.length = k.substeps)
    (fuel : Nat) (s' : Sim (I3 → ℝ) ℝ σ) (h : (start c u others wst >>= run c fuel) = .ok (some s')) :
    (∃ u', s'.vols[0]? = some u' ∧ jumps b N g u' ≤ jumps b N g u) ∧ ∀ call ∈ s'.log, jumps b N g call.state ≤ jumps b N g u := by
  subst hc
  have h1N : 1 ≤ N := by omega
  have hL := Variation.layout (g := g) h1N
  have hNG : ∀ d < 1, 3 * (Variation.ghosts g).get d ≤ (Variation.size N g).get d := by
    intro d hd
    obtain rfl : d = 0 := by omega
    simp [I3.get]; omega
  have := cells_nonempty hL
  obtain ⟨pm, hpm⟩ := Finite.exists_min fun p : Step.Cells (Variation.size N g) (Variation.ghosts g) => u p
  obtain ⟨pM, hpM⟩ := Finite.exists_max fun p : Step.Cells (Variation.size N g) (Variation.ghosts g) => u p
  obtain ⟨f, speed, hB⟩ := bounding_of_covered hsel hcov (u pm) (u pM)
  have heq : ∀ v : I3 → ℝ, jumps b N g v = ∑ x ∈ Finset.Ico 0 (Variation.last b N), |Variation.values b h1N (fun p : Step.Cells (Variation.size N g) (Variation.ghosts g) => v p) (x + 1) -
      Variation.values b h1N (fun p : Step.Cells (Variation.size N g) (Variation.ghosts g) => v p) x| := fun v => by
    rw [jumps_eq, Variation.variation_eq b h1N _ v fun _ => rfl]
  obtain ⟨⟨u', h1, h2⟩, h3⟩ := WholeRun.run_punctual (P := fun w : Step.Cells (Variation.size N g) (Variation.ghosts g) → ℝ =>
      ∑ x ∈ Finset.Ico 0 (Variation.last b N), |Variation.values b h1N w (x + 1) - Variation.values b h1N w x| ≤ jumps b N g u ∧ ∀ p, u pm ≤ w p ∧ w p ≤ u pM)
    (Step.sound (b := b) hL (fits _ hg) hNG one_pos hw)
    ⟨hwave, waves_nonneg hL hNG one_pos (fits _ hg) hw, hlen, hcfl0⟩ wst hadj
    (fun w dt hP h0 h1 => by
      exact step_convex hL hNG one_pos hg hB hw k (fun h => linear_of_covered hsel hcov (hk h)) len hlen hlen0 (fun d hd => by rw [show d = 0 by omega]) h0 _ (Variation.convex_variation b h1N _)
        (fun S κ hκ hS m' M' a1 a2 a3 v hv hvb => (Variation.euler_variation b h1N hN hg (hB.mono a1 a2).incremental S a3 hκ (by simpa using hS) v hvb _ rfl).trans hv)
        w (h1.trans hcfl) hP.2 hP.1)
    u others hothers ⟨(heq u).ge, fun p => ⟨hpm p, hpM p⟩⟩ fuel s' h
  exact ⟨⟨u', h1, by rw [heq]; exact h2.1⟩, fun call hcall => by rw [heq]; exact (h3 call hcall).1⟩

/-- The hypotheses of C81 hold for a run from the data 1, 0, 1/11, whose jumps sum up to 2. -/
example : ∃ s' u', (start (exLinear .rungeKutta4) exData (List.replicate 4 0) () >>= run (exLinear .rungeKutta4) 1) = .ok (some s') ∧ s'.vols[0]? = some u' ∧
    jumps .periodic 3 1 u' ≤ 2 := by
  obtain ⟨s', h⟩ := exLinear_runs .rungeKutta4 exData
  obtain ⟨⟨u', h1, h2⟩, -⟩ := C81_variation_diminishing_partial .rungeKutta4 .periodic 3 1 (le_refl 1) (by decide) .linear "upwind" (Flux.two Flux.upwind) rfl
    .linearUpwind (fun _ => ⟨rfl, by decide⟩) exWork3 exSized3 [] (by simp) (fun _ => 1) (fun _ => zero_le_one) one_pos (1 / 2) (by norm_num) (by norm_num) (1 / 2) (fun _ => true) [] (fun _ => []) () _ (.always () (by simp)) _ rfl
    exData (List.replicate 4 0) rfl 1 s' h
  refine ⟨s', u', h, h1, h2.trans ?_⟩
  simp [jumps, Finset.sum_range_succ, exData]
  norm_num [abs_of_nonneg, abs_of_nonpos]

/-- C81 is false for the Buckley-Leverett equation with the flux `rusanov`: the jumps of the initial data 1, 0, 1/11 sum up to 2, those after the first step to more than 3. -/
theorem C81_fails_for_buckley_leverett :
    ∃ F, Flux.select .buckleyleverett "rusanov" = some F ∧ jumps .periodic 3 1 exData = 2 ∧
      ∃ s' u', (start (exConfig F 1) exData [0] () >>= run (exConfig F 1) 1) = .ok (some s') ∧ s'.vols[0]? = some u' ∧ 3 < jumps .periodic 3 1 u' := by
  refine ⟨_, rfl, ?_, ?_⟩
  · simp [jumps, Finset.sum_range_succ, exData]
    norm_num [abs_of_nonneg, abs_of_nonpos]
  obtain ⟨s', u', h1, h2, h3, h4⟩ := exBuckley
  refine ⟨s', u', h1, h2, ?_⟩
  simp only [jumps, Finset.sum_range_succ, Finset.sum_range_zero]
  norm_num
  have a1 := neg_abs_le (u' ⟨3, 0, 0⟩ - u' ⟨2, 0, 0⟩)
  have a2 := neg_abs_le (u' ⟨2, 0, 0⟩ - u' ⟨1, 0, 0⟩)
  have a3 := le_abs_self (u' ⟨2, 0, 0⟩ - u' ⟨1, 0, 0⟩)
  have a4 := le_abs_self (u' ⟨1, 0, 0⟩ - u' ⟨3, 0, 0⟩)
  linarith

/-- C81 is false for the flux `central`: the jumps of the initial data 1, 0, 1/11 sum up to 2, those after the first step to more. -/
theorem C81_fails_for_central (e : Flux.ScalarName) (he : e = .burgers ∨ e = .linear) :
    ∃ F endTime, Flux.select e "central" = some F ∧ jumps .periodic 3 1 exData = 2 ∧
      ∃ s' u', (start (exConfig F endTime) exData [0] () >>= run (exConfig F endTime) 1) = .ok (some s') ∧ s'.vols[0]? = some u' ∧ 2 < jumps .periodic 3 1 u' := by
  have hj : jumps .periodic 3 1 exData = 2 := by
    simp [jumps, Finset.sum_range_succ, exData]
    norm_num [abs_of_nonneg, abs_of_nonpos]
  have key : ∀ u' : I3 → ℝ, 1 < u' ⟨1, 0, 0⟩ → u' ⟨3, 0, 0⟩ < 0 → 2 < jumps .periodic 3 1 u' := fun u' h3 h4 => by
    simp only [jumps, Finset.sum_range_succ, Finset.sum_range_zero]
    norm_num
    have a1 := neg_abs_le (u' ⟨3, 0, 0⟩ - u' ⟨2, 0, 0⟩)
    have a2 := neg_abs_le (u' ⟨2, 0, 0⟩ - u' ⟨1, 0, 0⟩)
    have a3 := le_abs_self (u' ⟨1, 0, 0⟩ - u' ⟨3, 0, 0⟩)
    linarith
  rcases he with rfl | rfl
  · obtain ⟨s', u', h1, h2, h3, h4⟩ := exCentral Flux.burgers 1 one_pos (by norm_num [Flux.burgers]) (by norm_num [Flux.burgers]) (by norm_num [Flux.burgers, abs_of_pos]) (by norm_num [Flux.burgers])
    exact ⟨_, _, rfl, hj, s', u', h1, h2, key u' h3 (by rw [h4]; norm_num [Flux.burgers])⟩
  · obtain ⟨s', u', h1, h2, h3, h4⟩ := exCentral Flux.linear 1 one_pos (by norm_num [Flux.linear]) (by norm_num [Flux.linear]) (by norm_num [Flux.linear, abs_of_pos]) (by norm_num [Flux.linear])
    exact ⟨_, _, rfl, hj, s', u', h1, h2, key u' h3 (by rw [h4]; norm_num [Flux.linear])⟩

/-- C81 is false for the flux `tecno1` of the Burgers equation: the jumps of the initial data 1, 1/10, 1/2 sum up to 9/5, those after the first step to more. -/
theorem C81_fails_for_tecno1 :
    ∃ F, Flux.select .burgers "tecno1" = some F ∧ jumps .periodic 3 1 (exCells 1 (1 / 10) (1 / 2)) = 9 / 5 ∧
      ∃ s' u', (start (exConfig F (1 / 2)) (exCells 1 (1 / 10) (1 / 2)) [0] () >>= run (exConfig F (1 / 2)) 1) = .ok (some s') ∧ s'.vols[0]? = some u' ∧
        9 / 5 < jumps .periodic 3 1 u' := by
  refine ⟨_, rfl, ?_, ?_⟩
  · simp [jumps, Finset.sum_range_succ, exCells]
    norm_num [abs_of_nonneg, abs_of_nonpos]
  obtain ⟨s', u', h1, h2, h3, h4⟩ := exTecno
  refine ⟨s', u', h1, h2, ?_⟩
  simp only [jumps, Finset.sum_range_succ, Finset.sum_range_zero]
  norm_num
  have a1 := le_abs_self (u' ⟨3, 0, 0⟩ - u' ⟨2, 0, 0⟩)
  have a2 := neg_abs_le (u' ⟨2, 0, 0⟩ - u' ⟨1, 0, 0⟩)
  have a3 := le_abs_self (u' ⟨1, 0, 0⟩ - u' ⟨3, 0, 0⟩)
  linarith

/-! ### C82 -/

/-- C82, partial. Runs with a limited second order reconstruction (minmod or monotonized central), otherwise as in C80, and a CFL number of at most one half (the automatic choice is
0.475) create no values outside the range of the initial data. Missing: as in C80. -/
theorem C82_limited_no_new_extrema_partial {σ : Type} (rec : ℝ → ℝ → ℝ → ℝ × ℝ) (hrec : rec = Limiter.mm ∨ rec = Limiter.mc) (k : Kind) (hk : k ≠ .rungeKutta4) (b : BC)
    (dims g : Nat) (hg : 2 ≤ g) (e : Flux.ScalarName) (name : String)
    (F : Flux.Selected) (hsel : Flux.select e name = some F) (hcov : Covered e name) (n G active : I3) (hL : Layout n G active dims g)
    (hN : ∀ d < dims, 3 * G.get d ≤ n.get d) (hpos : 0 < dims) (work : NetFlux.State ℝ ℝ) (hw : Sized n work)
    (waveAdj : List (ℝ → ℝ)) (hwave : ∀ f ∈ waveAdj, ∀ w, w ≤ f w) (len : Nat → ℝ) (hlen : ∀ d, 0 ≤ len d) (hlen0 : 0 < len 0) (hcube : ∀ d < dims, len d = len 0)
    (cfl : ℝ) (hcfl0 : 0 < cfl) (hcfl : cfl ≤ 1 / 2) (endTime : ℝ) (obeys : (I3 → ℝ) → Bool) (writers : List ((I3 → ℝ) → TimeInfo ℝ → σ → Res σ))
    (adj : σ → List (Adjuster ℝ)) (wst : σ) (Fine : σ → TimeInfo ℝ → Prop) (hadj : WholeRun.Punctual writers adj wst Fine)
    (c : Config (I3 → ℝ) ℝ σ)
    (hc : c = ⟨k, ⟨Step.cpuSystem dims (LimitedRun.limited rec) (asFlux F) n G active work, waveAdj, len, cfl⟩, Step.cpuBoundary b n g dims, obeys, writers, adj, endTime⟩)
    (u : I3 → ℝ) (others : List (I3 → ℝ)) (hothers : others.length = k.substeps) (m M : ℝ) (hu : ∀ p, IsInterior n G p → m ≤ u p ∧ u p ≤ M)
    (fuel : Nat) (s' : Sim (I3 → ℝ) ℝ σ) (h : (start c u others wst >>= run c fuel) = .ok (some s')) :
    (∃ u', s'.vols[0]? = some u' ∧ ∀ p, IsInterior n G p → m ≤ u' p ∧ u' p ≤ M) ∧ ∀ call ∈ s'.log, ∀ p, IsInterior n G p → m ≤ call.state p ∧ call.state p ≤ M := by
  subst hc
  have hrec' : Props.NoNewExtrema rec := by rcases hrec with rfl | rfl <;> [exact Props.C25_minmod; exact Props.C25_mc]
  obtain ⟨f, speed, hB⟩ := bounding_of_covered hsel hcov m M
  have hf := LimitedRun.fits rec (fun l r => F.fn [l, r]) hg
  obtain ⟨⟨u', h1, h2⟩, h3⟩ := WholeRun.run_punctual (P := fun w : Step.Cells n G → ℝ => ∀ p, m ≤ w p ∧ w p ≤ M) (Step.sound (b := b) hL hf hN hpos hw)
    ⟨hwave, waves_nonneg hL hN hpos hf hw, hlen, hcfl0⟩ wst hadj
    (fun w dt hP h0 h1 => LimitedRun.step_bounds hL hN hpos hg hrec' hB hw k hk len hlen hlen0 hcube h0 w (h1.trans hcfl) hP)
    u others hothers (fun p : Step.Cells n G => hu p p.2) fuel s' h
  exact ⟨⟨u', h1, fun p hp => h2 ⟨p, hp⟩⟩, fun call hcall p hp => h3 call hcall ⟨p, hp⟩⟩

/-- Buffers for three cells and four ghost cells. -/
def exWork4 : NetFlux.State ℝ ℝ := ⟨field ⟨7, 1, 1⟩ fun _ => 0, field ⟨7, 1, 1⟩ fun _ => 0, field ⟨7, 1, 1⟩ fun _ => 0, field ⟨7, 1, 1⟩ fun _ => 0, fun _ => 0⟩
theorem exLayout4 : Layout ⟨7, 1, 1⟩ ⟨2, 0, 0⟩ ⟨1, 0, 0⟩ 1 2 := ⟨by decide, by decide, by decide, by decide⟩
theorem exSized4 : Sized ⟨7, 1, 1⟩ exWork4 := ⟨rfl, rfl, rfl, rfl⟩

/-- Linear transport with the flux `upwind` and the monotonized central limiter, any scheme, end time 1/4. -/
noncomputable def exLimited (k : Kind) : Config (I3 → ℝ) ℝ Unit :=
  ⟨k, ⟨Step.cpuSystem 1 (LimitedRun.limited Limiter.mc) (asFlux (Flux.two Flux.upwind)) ⟨7, 1, 1⟩ ⟨2, 0, 0⟩ ⟨1, 0, 0⟩ exWork4, [], fun _ => 1, 1 / 4⟩,
    Step.cpuBoundary .periodic ⟨7, 1, 1⟩ 2 1, fun _ => true, [], fun _ => [], 1 / 4⟩

theorem exLimited_waves (u : Step.Cells ⟨7, 1, 1⟩ ⟨2, 0, 0⟩ → ℝ) :
    Step.waves .periodic 1 (LimitedRun.limited Limiter.mc) (twoPoint Flux.upwind) ⟨7, 1, 1⟩ ⟨2, 0, 0⟩ ⟨1, 0, 0⟩ 2 exWork4 u = fun k => if k < 1 then 1 else 0 := by
  have hf := LimitedRun.fits Limiter.mc Flux.upwind (le_refl 2)
  obtain ⟨t, e1, -, -, e4, e5⟩ := Step.cpuSystem_ok exLayout4 hf (by decide) (by decide) exSized4 (Step.extend .periodic ⟨7, 1, 1⟩ ⟨2, 0, 0⟩ 2 1 u) 0
  have hface : ∀ q, (face (LimitedRun.limited Limiter.mc) (twoPoint Flux.upwind) (Step.extend .periodic ⟨7, 1, 1⟩ ⟨2, 0, 0⟩ 2 1 u) 0 q).2 = 1 :=
    fun q => by rw [LimitedRun.face_eq _ (by decide)]; simp [Flux.upwind, Flux.twoPointSpeed, Flux.linear]
  funext k
  simp only [Step.waves, e1]
  split_ifs with hk
  · obtain rfl : k = 0 := by omega
    refine (e4 0 hk).unique ⟨Or.inr ⟨⟨1, 0, 0⟩, by unfold IsFace; decide, (hface _).symm⟩, ?_⟩
    rintro x (rfl | ⟨q, -, rfl⟩)
    · exact zero_le_one
    · exact (hface q).le
  · exact e5 k (by omega)

theorem exLimited_runs (k : Kind) (u : I3 → ℝ) : ∃ s', (start (exLimited k) u (List.replicate k.substeps 0) () >>= run (exLimited k) 1) = .ok (some s') := by
  have hf := LimitedRun.fits Limiter.mc Flux.upwind (le_refl 2)
  have hws := exLimited_waves fun p => u p
  obtain ⟨s', u', g1, -⟩ := WholeRun.run_one_step (c := exLimited k) (Step.sound (b := .periodic) exLayout4 hf (by decide) (by decide) exSized4) rfl (fun _ => rfl) u
    (List.replicate k.substeps 0) (by simp [exLimited]) () (1 / 4) (by
      change computeTimestep [] [] (Step.waves .periodic 1 (LimitedRun.limited Limiter.mc) (twoPoint Flux.upwind) ⟨7, 1, 1⟩ ⟨2, 0, 0⟩ ⟨1, 0, 0⟩ 2 exWork4
        (fun p : Step.Cells ⟨7, 1, 1⟩ ⟨2, 0, 0⟩ => u p)) (fun _ => 1) (1 / 4) ⟨0, 0⟩ = _
      rw [hws]
      simp [computeTimestep, adjustTimestep, waveSpeedTotal, List.range_succ]) one_ne_zero (by norm_num [exLimited]) le_rfl
  exact ⟨s', g1⟩

/-- The hypotheses of C82 hold for a run with the monotonized central limiter from the data 1, 2, 3. -/
example : ∃ s' u', (start (exLimited .rungeKutta3) (fun p => p.x - 1) (List.replicate 3 0) () >>= run (exLimited .rungeKutta3) 1) = .ok (some s') ∧ s'.vols[0]? = some u' ∧
    ∀ p, IsInterior ⟨7, 1, 1⟩ ⟨2, 0, 0⟩ p → 1 ≤ u' p ∧ u' p ≤ 3 := by
  obtain ⟨s', h⟩ := exLimited_runs .rungeKutta3 (fun p => p.x - 1)
  obtain ⟨⟨u', h1, h2⟩, -⟩ := C82_limited_no_new_extrema_partial Limiter.mc (Or.inr rfl) .rungeKutta3 (by simp) .periodic 1 2 (le_refl 2) .linear "upwind"
    (Flux.two Flux.upwind) rfl .linearUpwind ⟨7, 1, 1⟩ ⟨2, 0, 0⟩ ⟨1, 0, 0⟩ exLayout4 (by decide) (by decide) exWork4 exSized4 [] (by simp) (fun _ => 1)
    (fun _ => zero_le_one) one_pos (fun _ _ => rfl) (1 / 4) (by norm_num) (by norm_num) (1 / 4) (fun _ => true) [] (fun _ => []) () _ (.always () (by simp)) _ rfl (fun p => p.x - 1)
    (List.replicate 3 0) rfl 1 3 (fun p hp => by
      have h := hp 0 (by decide)
      simp [I3.get] at h
      have h3 : (2 : ℝ) ≤ p.x := by exact_mod_cast h.1
      have h4 : ((p.x + 1 : Int) : ℝ) ≤ ((5 : Int) : ℝ) := by exact_mod_cast h.2
      push_cast at h4
      constructor <;> linarith) 1 s' h
  exact ⟨s', u', h, h1, h2⟩

end Verif.Props.WholeRun
