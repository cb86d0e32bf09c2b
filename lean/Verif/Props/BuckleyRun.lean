import Verif.BuckleyRun
import Verif.Props.WholeRun

/-! C80, C81 and C82 for the Buckley-Leverett equation with data on one side of one half. -/

namespace Verif.Props.WholeRun
open Verif Verif.Integrator Verif.Simulator Verif.NetFlux Verif.ScalarRun

/-- States between which the flux of Buckley-Leverett is convex or concave: those from zero to one half, and those from one half to one. -/
def OneSided (m M : ℝ) : Prop := (0 ≤ m ∧ M ≤ 1 / 2) ∨ (1 / 2 ≤ m ∧ M ≤ 1)

theorem bounding_buckley {name : String} (hname : name = "rusanov" ∨ name = "godunov") {F : Flux.Selected} (hsel : Flux.select .buckleyleverett name = some F) {m M : ℝ} (h : OneSided m M) :
    Bounding Flux.buckleyLeverett.flux Flux.buckleyLeverett.speed (fun l r => F.fn [l, r]) m M := by
  rcases hname with rfl | rfl <;> (simp only [Flux.select, Option.some.injEq] at hsel; subst hsel)
  · exact rusanov_buckley h
  · exact godunov_buckley h

/-- C80 for Buckley-Leverett, partial. As `C80_no_new_extrema_partial`, for the fluxes `rusanov` and `godunov`, provided the bounds of the initial data lie on one side of one half.
Missing: data on both sides (false, see `C80_fails_for_buckley_leverett` and `C80_fails_for_buckley_leverett_godunov`), and what is missing in `C80_no_new_extrema_partial`. -/
theorem C80_buckley_leverett_partial {σ : Type} (k : Kind) (hk : k ≠ .rungeKutta4) (b : BC) (dims g : Nat) (hg : 1 ≤ g) (name : String) (hname : name = "rusanov" ∨ name = "godunov")
    (F : Flux.Selected) (hsel : Flux.select .buckleyleverett name = some F) (n G active : I3) (hL : Layout n G active dims g)
    (hN : ∀ d < dims, 3 * G.get d ≤ n.get d) (hpos : 0 < dims) (work : NetFlux.State ℝ ℝ) (hw : Sized n work)
    (waveAdj : List (ℝ → ℝ)) (hwave : ∀ f ∈ waveAdj, ∀ w, w ≤ f w) (len : Nat → ℝ) (hlen : ∀ d, 0 ≤ len d) (hlen0 : 0 < len 0) (hcube : ∀ d < dims, len d = len 0)
    (cfl : ℝ) (hcfl0 : 0 < cfl) (hcfl : cfl ≤ 1) (endTime : ℝ) (obeys : (I3 → ℝ) → Bool) (writers : List ((I3 → ℝ) → TimeInfo ℝ → σ → Res σ))
    (adj : σ → List (Adjuster ℝ)) (wst : σ) (Fine : σ → TimeInfo ℝ → Prop) (hadj : WholeRun.Punctual writers adj wst Fine)
    (c : Config (I3 → ℝ) ℝ σ)
    (hc : c = ⟨k, ⟨Step.cpuSystem dims CudaRecon.noRecon (asFlux F) n G active work, waveAdj, len, cfl⟩, Step.cpuBoundary b n g dims, obeys, writers, adj, endTime⟩)
    (u : I3 → ℝ) (others : List (I3 → ℝ)) (hothers : others.length = k.substeps) (m M : ℝ) (hmM : OneSided m M) (hu : ∀ p, IsInterior n G p → m ≤ u p ∧ u p ≤ M)
    (fuel : Nat) (s' : Sim (I3 → ℝ) ℝ σ) (h : (start c u others wst >>= run c fuel) = .ok (some s')) :
    (∃ u', s'.vols[0]? = some u' ∧ ∀ p, IsInterior n G p → m ≤ u' p ∧ u' p ≤ M) ∧ ∀ call ∈ s'.log, ∀ p, IsInterior n G p → m ≤ call.state p ∧ call.state p ≤ M := by
  subst hc
  have hB := bounding_buckley hname hsel hmM
  obtain ⟨⟨u', h1, h2⟩, h3⟩ := WholeRun.run_punctual (P := fun w : Step.Cells n G → ℝ => ∀ p, m ≤ w p ∧ w p ≤ M) (Step.sound (b := b) hL (fits _ hg) hN hpos hw)
    ⟨hwave, waves_nonneg hL hN hpos (fits _ hg) hw, hlen, hcfl0⟩ wst hadj
    (fun w dt hP h0 h1 => step_bounds hL hN hpos hg hB hw k (fun h => absurd h hk) len hlen hlen0 hcube h0 w (h1.trans hcfl) hP)
    u others hothers (fun p : Step.Cells n G => hu p p.2) fuel s' h
  exact ⟨⟨u', h1, fun p hp => h2 ⟨p, hp⟩⟩, fun call hcall p hp => h3 call hcall ⟨p, hp⟩⟩

/-- C81 for Buckley-Leverett, partial. As `C81_variation_diminishing_partial`, for the fluxes `rusanov` and `godunov` and initial data on one side of one half.
Missing: data on both sides (false, see `C81_fails_for_buckley_leverett` and `C81_fails_for_buckley_leverett_godunov`), and what is missing in `C81_variation_diminishing_partial`. -/
theorem C81_buckley_leverett_partial {σ : Type} (k : Kind) (hk : k ≠ .rungeKutta4) (b : BC) (N g : Nat) (hg : 1 ≤ g) (hN : g ≤ N) (name : String) (hname : name = "rusanov" ∨ name = "godunov")
    (F : Flux.Selected) (hsel : Flux.select .buckleyleverett name = some F) (work : NetFlux.State ℝ ℝ) (hw : Sized ⟨N + 2 * g, 1, 1⟩ work)
    (waveAdj : List (ℝ → ℝ)) (hwave : ∀ f ∈ waveAdj, ∀ w, w ≤ f w) (len : Nat → ℝ) (hlen : ∀ d, 0 ≤ len d) (hlen0 : 0 < len 0)
    (cfl : ℝ) (hcfl0 : 0 < cfl) (hcfl : cfl ≤ 1) (endTime : ℝ) (obeys : (I3 → ℝ) → Bool) (writers : List ((I3 → ℝ) → TimeInfo ℝ → σ → Res σ))
    (adj : σ → List (Adjuster ℝ)) (wst : σ) (Fine : σ → TimeInfo ℝ → Prop) (hadj : WholeRun.Punctual writers adj wst Fine)
    (c : Config (I3 → ℝ) ℝ σ)
    (hc : c = ⟨k, ⟨Step.cpuSystem 1 CudaRecon.noRecon (asFlux F) ⟨N + 2 * g, 1, 1⟩ ⟨g, 0, 0⟩ ⟨1, 0, 0⟩ work, waveAdj, len, cfl⟩, Step.cpuBoundary b ⟨N + 2 * g, 1, 1⟩ g 1,
      obeys, writers, adj, endTime⟩)
    (u : I3 → ℝ) (others : List (I3 → ℝ)) (hothers : others.length = k.substeps) (m M : ℝ) (hmM : OneSided m M)
    (hu : ∀ p, IsInterior ⟨N + 2 * g, 1, 1⟩ ⟨g, 0, 0⟩ p → m ≤ u p ∧ u p ≤ M)
    (fuel : Nat) (s' : Sim (I3 → ℝ) ℝ σ) (h : (start c u others wst >>= run c fuel) = .ok (some s')) :
    (∃ u', s'.vols[0]? = some u' ∧ jumps b N g u' ≤ jumps b N g u) ∧ ∀ call ∈ s'.log, jumps b N g call.state ≤ jumps b N g u := by
  subst hc
  have h1N : 1 ≤ N := by omega
  have hL := Variation.layout (g := g) h1N
  have hNG : ∀ d < 1, 3 * (Variation.ghosts g).get d ≤ (Variation.size N g).get d := by
    intro d hd
    obtain rfl : d = 0 := by omega
    simp [I3.get]; omega
  have hB := bounding_buckley hname hsel hmM
  have heq : ∀ v : I3 → ℝ, jumps b N g v = ∑ x ∈ Finset.Ico 0 (Variation.last b N), |Variation.values b h1N (fun p : Step.Cells (Variation.size N g) (Variation.ghosts g) => v p) (x + 1) -
      Variation.values b h1N (fun p : Step.Cells (Variation.size N g) (Variation.ghosts g) => v p) x| := fun v => by
    rw [jumps_eq, Variation.variation_eq b h1N _ v fun _ => rfl]
  obtain ⟨⟨u', h1, h2⟩, h3⟩ := WholeRun.run_punctual (P := fun w : Step.Cells (Variation.size N g) (Variation.ghosts g) → ℝ =>
      ∑ x ∈ Finset.Ico 0 (Variation.last b N), |Variation.values b h1N w (x + 1) - Variation.values b h1N w x| ≤ jumps b N g u ∧ ∀ p, m ≤ w p ∧ w p ≤ M)
    (Step.sound (b := b) hL (fits _ hg) hNG one_pos hw)
    ⟨hwave, waves_nonneg hL hNG one_pos (fits _ hg) hw, hlen, hcfl0⟩ wst hadj
    (fun w dt hP h0 h1 => by
      exact step_convex hL hNG one_pos hg hB hw k (fun h => absurd h hk) len hlen hlen0 (fun d hd => by rw [show d = 0 by omega]) h0 _ (Variation.convex_variation b h1N _)
        (fun S κ hκ hS m' M' a1 a2 a3 v hv hvb => (Variation.euler_variation b h1N hN hg (hB.mono a1 a2).incremental S a3 hκ (by simpa using hS) v hvb _ rfl).trans hv)
        w (h1.trans hcfl) hP.2 hP.1)
    u others hothers ⟨(heq u).ge, fun p => hu p p.2⟩ fuel s' h
  exact ⟨⟨u', h1, by rw [heq]; exact h2.1⟩, fun call hcall => by rw [heq]; exact (h3 call hcall).1⟩

/-- C82 for Buckley-Leverett, partial. As `C82_limited_no_new_extrema_partial`, for the fluxes `rusanov` and `godunov` and initial data on one side of one half. Missing: data on both sides,
and what is missing in `C82_limited_no_new_extrema_partial`. -/
theorem C82_buckley_leverett_partial {σ : Type} (rec : ℝ → ℝ → ℝ → ℝ × ℝ) (hrec : rec = Limiter.mm ∨ rec = Limiter.mc) (k : Kind) (hk : k ≠ .rungeKutta4) (b : BC)
    (dims g : Nat) (hg : 2 ≤ g) (name : String) (hname : name = "rusanov" ∨ name = "godunov")
    (F : Flux.Selected) (hsel : Flux.select .buckleyleverett name = some F) (n G active : I3) (hL : Layout n G active dims g)
    (hN : ∀ d < dims, 3 * G.get d ≤ n.get d) (hpos : 0 < dims) (work : NetFlux.State ℝ ℝ) (hw : Sized n work)
    (waveAdj : List (ℝ → ℝ)) (hwave : ∀ f ∈ waveAdj, ∀ w, w ≤ f w) (len : Nat → ℝ) (hlen : ∀ d, 0 ≤ len d) (hlen0 : 0 < len 0) (hcube : ∀ d < dims, len d = len 0)
    (cfl : ℝ) (hcfl0 : 0 < cfl) (hcfl : cfl ≤ 1 / 2) (endTime : ℝ) (obeys : (I3 → ℝ) → Bool) (writers : List ((I3 → ℝ) → TimeInfo ℝ → σ → Res σ))
    (adj : σ → List (Adjuster ℝ)) (wst : σ) (Fine : σ → TimeInfo ℝ → Prop) (hadj : WholeRun.Punctual writers adj wst Fine)
    (c : Config (I3 → ℝ) ℝ σ)
    (hc : c = ⟨k, ⟨Step.cpuSystem dims (LimitedRun.limited rec) (asFlux F) n G active work, waveAdj, len, cfl⟩, Step.cpuBoundary b n g dims, obeys, writers, adj, endTime⟩)
    (u : I3 → ℝ) (others : List (I3 → ℝ)) (hothers : others.length = k.substeps) (m M : ℝ) (hmM : OneSided m M) (hu : ∀ p, IsInterior n G p → m ≤ u p ∧ u p ≤ M)
    (fuel : Nat) (s' : Sim (I3 → ℝ) ℝ σ) (h : (start c u others wst >>= run c fuel) = .ok (some s')) :
    (∃ u', s'.vols[0]? = some u' ∧ ∀ p, IsInterior n G p → m ≤ u' p ∧ u' p ≤ M) ∧ ∀ call ∈ s'.log, ∀ p, IsInterior n G p → m ≤ call.state p ∧ call.state p ≤ M := by
  subst hc
  have hrec' : Props.NoNewExtrema rec := by rcases hrec with rfl | rfl <;> [exact Props.C25_minmod; exact Props.C25_mc]
  have hB := bounding_buckley hname hsel hmM
  have hf := LimitedRun.fits rec (fun l r => F.fn [l, r]) hg
  obtain ⟨⟨u', h1, h2⟩, h3⟩ := WholeRun.run_punctual (P := fun w : Step.Cells n G → ℝ => ∀ p, m ≤ w p ∧ w p ≤ M) (Step.sound (b := b) hL hf hN hpos hw)
    ⟨hwave, waves_nonneg hL hN hpos hf hw, hlen, hcfl0⟩ wst hadj
    (fun w dt hP h0 h1 => LimitedRun.step_bounds hL hN hpos hg hrec' hB hw k hk len hlen hlen0 hcube h0 w (h1.trans hcfl) hP)
    u others hothers (fun p : Step.Cells n G => hu p p.2) fuel s' h
  exact ⟨⟨u', h1, fun p hp => h2 ⟨p, hp⟩⟩, fun call hcall p hp => h3 call hcall ⟨p, hp⟩⟩

/-! ### Data on both sides -/

/-- One step with the flux `godunov` from the data 1, 0, 1/11. -/
theorem exBuckleyGodunov : ∃ s' u', (start (exConfig (Flux.two (Flux.godunov Flux.buckleyLeverett)) 1) exData [0] () >>=
      run (exConfig (Flux.two (Flux.godunov Flux.buckleyLeverett)) 1) 1) = .ok (some s') ∧ s'.vols[0]? = some u' ∧ u' ⟨1, 0, 0⟩ < (-1 : ℝ) ∧ 2 < u' ⟨2, 0, 0⟩ := by
  have e1 : Flux.buckleyLeverett.speed 1 = 0 := by norm_num [Flux.buckleyLeverett]
  have e2 : Flux.buckleyLeverett.speed 0 = 0 := by norm_num [Flux.buckleyLeverett]
  have e3 : Flux.buckleyLeverett.speed (1 / 11) = 2420 / 10201 := by norm_num [Flux.buckleyLeverett, abs_of_pos]
  have f1 : Flux.buckleyLeverett.flux 1 = 1 := by norm_num [Flux.buckleyLeverett]
  have f2 : Flux.buckleyLeverett.flux 0 = 0 := by norm_num [Flux.buckleyLeverett]
  have f3 : Flux.buckleyLeverett.flux (1 / 11) = 1 / 101 := by norm_num [Flux.buckleyLeverett]
  obtain ⟨s', u', h1, h2, h3, h4, -⟩ := exRun (Flux.two (Flux.godunov Flux.buckleyLeverett)) (2420 / 10201) (by norm_num)
    (by simp only [Flux.two, Flux.godunov, Flux.twoPointSpeed, e1, e3]; norm_num)
    (by simp only [Flux.two, Flux.godunov, Flux.twoPointSpeed, e1, e2]; norm_num)
    (by simp only [Flux.two, Flux.godunov, Flux.twoPointSpeed, e2, e3]; norm_num) 1 one_pos (by norm_num)
  have g : ∀ l r : ℝ, 0 ≤ l → 0 ≤ r → ((Flux.two (Flux.godunov Flux.buckleyLeverett)).fn [l, r]).1 = Flux.buckleyLeverett.flux l := fun l r hl hr => godunov_buckley_eq hl hr
  refine ⟨s', u', h1, h2, ?_, ?_⟩
  · rw [h3, g _ _ (by norm_num) (by norm_num), g _ _ (by norm_num) (by norm_num), f1, f3]; norm_num
  · rw [h4, g _ _ (by norm_num) (by norm_num), g _ _ (by norm_num) (by norm_num), f1, f2]; norm_num

/-- C80 is false for the Buckley-Leverett equation with the flux `godunov` too: the initial data 1, 0, 1/11 lie between 0 and 1; after the first step the first cell has a value below -1 and the
second one above 2. The flux returns the wave speed 0 for the states 1 and 0. -/
theorem C80_fails_for_buckley_leverett_godunov :
    ∃ F, Flux.select .buckleyleverett "godunov" = some F ∧ (∀ p, IsInterior ⟨5, 1, 1⟩ ⟨1, 0, 0⟩ p → 0 ≤ exData p ∧ exData p ≤ 1) ∧
      ∃ s' u', (start (exConfig F 1) exData [0] () >>= run (exConfig F 1) 1) = .ok (some s') ∧ s'.vols[0]? = some u' ∧ u' ⟨1, 0, 0⟩ < (-1 : ℝ) ∧ 2 < u' ⟨2, 0, 0⟩ :=
  ⟨_, rfl, fun p _ => by unfold exData; split_ifs <;> norm_num, exBuckleyGodunov⟩

/-- C81 is false for the Buckley-Leverett equation with the flux `godunov`: the jumps of the initial data 1, 0, 1/11 sum up to 2, those after the first step to more than 6. -/
theorem C81_fails_for_buckley_leverett_godunov :
    ∃ F, Flux.select .buckleyleverett "godunov" = some F ∧ jumps .periodic 3 1 exData = 2 ∧
      ∃ s' u', (start (exConfig F 1) exData [0] () >>= run (exConfig F 1) 1) = .ok (some s') ∧ s'.vols[0]? = some u' ∧ 6 < jumps .periodic 3 1 u' := by
  refine ⟨_, rfl, ?_, ?_⟩
  · simp [jumps, Finset.sum_range_succ, exData]
    norm_num [abs_of_nonneg, abs_of_nonpos]
  obtain ⟨s', u', h1, h2, h3, h4⟩ := exBuckleyGodunov
  refine ⟨s', u', h1, h2, ?_⟩
  simp only [jumps, Finset.sum_range_succ, Finset.sum_range_zero]
  norm_num
  have a1 := neg_abs_le (u' ⟨3, 0, 0⟩ - u' ⟨2, 0, 0⟩)
  have a3 := le_abs_self (u' ⟨2, 0, 0⟩ - u' ⟨1, 0, 0⟩)
  have a4 := neg_abs_le (u' ⟨1, 0, 0⟩ - u' ⟨3, 0, 0⟩)
  linarith

/-! ### Concrete runs -/

theorem exBuckley_speed : Flux.buckleyLeverett.speed (1 / 2) = 2 ∧ Flux.buckleyLeverett.speed 0 = 0 ∧ Flux.buckleyLeverett.speed (1 / 4) ≤ 2 := by
  refine ⟨?_, ?_, ?_⟩ <;> rw [buckley_speed (by norm_num) (by norm_num), ScalarRun.slope] <;> norm_num

/-- A run with the flux `rusanov` from the data 1/2, 0, 1/4: a step of CFL number one half until the time 1/4. -/
theorem exBuckley_runs : ∃ s' u', (start (exConfig (Flux.two (Flux.rusanov Flux.buckleyLeverett)) (1 / 4)) (exCells (1 / 2) 0 (1 / 4)) [0] () >>=
      run (exConfig (Flux.two (Flux.rusanov Flux.buckleyLeverett)) (1 / 4)) 1) = .ok (some s') ∧ s'.vols[0]? = some u' := by
  obtain ⟨a1, a2, a3⟩ := exBuckley_speed
  have e : ∀ l r, ((Flux.two (Flux.rusanov Flux.buckleyLeverett)).fn [l, r]).2 = max (Flux.buckleyLeverett.speed l) (Flux.buckleyLeverett.speed r) := fun _ _ => rfl
  obtain ⟨s', u', h1, h2, -⟩ := exRunOf (1 / 2) 0 (1 / 4) (Flux.two (Flux.rusanov Flux.buckleyLeverett)) 2 two_pos (by rw [e, a1]; exact max_eq_right a3)
    (by rw [e, a1, a2]; norm_num) (by rw [e, a2]; exact max_le (by norm_num) a3) (1 / 4) (by norm_num) (by norm_num)
  exact ⟨s', u', h1, h2⟩

theorem exBuckley_data (p : I3) : 0 ≤ exCells (1 / 2) 0 (1 / 4) p ∧ exCells (1 / 2) 0 (1 / 4) p ≤ 1 / 2 := by
  unfold exCells; split_ifs <;> norm_num

/-- The hypotheses of `C80_buckley_leverett_partial` hold for a run from the data 1/2, 0, 1/4. -/
example : ∃ s' u', (start (exConfig (Flux.two (Flux.rusanov Flux.buckleyLeverett)) (1 / 4)) (exCells (1 / 2) 0 (1 / 4)) [0] () >>=
      run (exConfig (Flux.two (Flux.rusanov Flux.buckleyLeverett)) (1 / 4)) 1) = .ok (some s') ∧ s'.vols[0]? = some u' ∧
    ∀ p, IsInterior ⟨5, 1, 1⟩ ⟨1, 0, 0⟩ p → 0 ≤ u' p ∧ u' p ≤ 1 / 2 := by
  obtain ⟨s', v, h, -⟩ := exBuckley_runs
  obtain ⟨⟨u', h1, h2⟩, -⟩ := C80_buckley_leverett_partial .forwardEuler (by simp) .periodic 1 1 (le_refl 1) "rusanov" (.inl rfl) _ rfl
    ⟨5, 1, 1⟩ ⟨1, 0, 0⟩ ⟨1, 0, 0⟩ exLayout3 (by decide) (by decide) exWork3 exSized3 [] (by simp) (fun _ => 1) (fun _ => zero_le_one) one_pos (fun _ _ => rfl) (1 / 2)
    (by norm_num) (by norm_num) (1 / 4) (fun _ => true) [] (fun _ => []) () _ (.always () (by simp)) _ rfl _ [0] rfl 0 (1 / 2) (.inl ⟨le_rfl, le_rfl⟩)
    (fun p _ => exBuckley_data p) 1 s' h
  exact ⟨s', u', h, h1, h2⟩

/-- The hypotheses of `C81_buckley_leverett_partial` hold for the same run; the jumps of the data sum up to 1. -/
example : ∃ s' u', (start (exConfig (Flux.two (Flux.rusanov Flux.buckleyLeverett)) (1 / 4)) (exCells (1 / 2) 0 (1 / 4)) [0] () >>=
      run (exConfig (Flux.two (Flux.rusanov Flux.buckleyLeverett)) (1 / 4)) 1) = .ok (some s') ∧ s'.vols[0]? = some u' ∧ jumps .periodic 3 1 u' ≤ 1 := by
  obtain ⟨s', v, h, -⟩ := exBuckley_runs
  obtain ⟨⟨u', h1, h2⟩, -⟩ := C81_buckley_leverett_partial .forwardEuler (by simp) .periodic 3 1 (le_refl 1) (by decide) "rusanov" (.inl rfl) _ rfl
    exWork3 exSized3 [] (by simp) (fun _ => 1) (fun _ => zero_le_one) one_pos (1 / 2)
    (by norm_num) (by norm_num) (1 / 4) (fun _ => true) [] (fun _ => []) () _ (.always () (by simp)) _ rfl _ [0] rfl 0 (1 / 2) (.inl ⟨le_rfl, le_rfl⟩)
    (fun p _ => exBuckley_data p) 1 s' h
  refine ⟨s', u', h, h1, h2.trans ?_⟩
  simp [jumps, Finset.sum_range_succ, exCells]
  norm_num [abs_of_nonneg, abs_of_nonpos]

/-- Buckley-Leverett with the flux `rusanov` and the minmod limiter, three cells, CFL number 1/4, end time 1/8. -/
noncomputable def exBuckleyLimited : Config (I3 → ℝ) ℝ Unit :=
  ⟨.rungeKutta2, ⟨Step.cpuSystem 1 (LimitedRun.limited Limiter.mm) (asFlux (Flux.two (Flux.rusanov Flux.buckleyLeverett))) ⟨7, 1, 1⟩ ⟨2, 0, 0⟩ ⟨1, 0, 0⟩ exWork4, [], fun _ => 1, 1 / 4⟩,
    Step.cpuBoundary .periodic ⟨7, 1, 1⟩ 2 1, fun _ => true, [], fun _ => [], 1 / 8⟩

/-- Values 1/2, 0, 1/4 of the three cells behind the two ghost cells. -/
noncomputable def exCells4 : I3 → ℝ := fun p => if p.x = 2 then 1 / 2 else if p.x = 3 then 0 else 1 / 4

theorem exCells4_bounds (p : I3) : 0 ≤ exCells4 p ∧ exCells4 p ≤ 1 / 2 := by
  unfold exCells4; split_ifs <;> norm_num

theorem speed_le_two {x : ℝ} (h0 : 0 ≤ x) (h1 : x ≤ 1 / 2) : Flux.buckleyLeverett.speed x ≤ 2 := by
  refine (buckley_quasi (m := 0) (M := 1 / 2) (.inl ⟨le_rfl, le_rfl⟩) 0 x (1 / 2) le_rfl h0 h1 le_rfl).trans ?_
  rw [exBuckley_speed.1, exBuckley_speed.2.1]
  norm_num

theorem exBuckleyLimited_waves : Step.waves .periodic 1 (LimitedRun.limited Limiter.mm) (twoPoint (Flux.rusanov Flux.buckleyLeverett)) ⟨7, 1, 1⟩ ⟨2, 0, 0⟩ ⟨1, 0, 0⟩ 2 exWork4
    (fun p : Step.Cells ⟨7, 1, 1⟩ ⟨2, 0, 0⟩ => exCells4 p) = fun k => if k < 1 then 2 else 0 := by
  have hf := LimitedRun.fits Limiter.mm (Flux.rusanov Flux.buckleyLeverett) (le_refl 2)
  set u : I3 → ℝ := Step.extend .periodic ⟨7, 1, 1⟩ ⟨2, 0, 0⟩ 2 1 (fun p : Step.Cells ⟨7, 1, 1⟩ ⟨2, 0, 0⟩ => exCells4 p) with hu
  have hb : ∀ q, 0 ≤ u q ∧ u q ≤ 1 / 2 := fun q => by
    rw [hu, Step.extend]
    split_ifs with h
    · exact exCells4_bounds _
    · norm_num
  obtain ⟨t, e1, -, -, e4, e5⟩ := Step.cpuSystem_ok exLayout4 hf (by decide) (by decide) exSized4 u 0
  have hle : ∀ q, (face (LimitedRun.limited Limiter.mm) (twoPoint (Flux.rusanov Flux.buckleyLeverett)) u 0 q).2 ≤ 2 := fun q => by
    rw [LimitedRun.face_eq _ (by decide)]
    obtain ⟨-, a, -⟩ := LimitedRun.rec_bounds Props.C25_minmod (hb (q - I3.dir 0)) (hb q) (hb (q + I3.dir 0))
    obtain ⟨b, -, -⟩ := LimitedRun.rec_bounds Props.C25_minmod (hb q) (hb (q + I3.dir 0)) (hb (q + I3.dir 0 + I3.dir 0))
    exact max_le (speed_le_two a.1 a.2) (speed_le_two b.1 b.2)
  have hval : ∀ (q p : I3), Boundary.ghostSource .periodic ((2 : Nat) : Int) (⟨7, 1, 1⟩ - ⟨2, 0, 0⟩ - ⟨2, 0, 0⟩) 1 (fun _ => false) q = p → IsInterior ⟨7, 1, 1⟩ ⟨2, 0, 0⟩ p →
      u q = exCells4 p := by
    rintro q p rfl hp
    rw [hu, Step.extend, dif_pos hp]
  have heq : (face (LimitedRun.limited Limiter.mm) (twoPoint (Flux.rusanov Flux.buckleyLeverett)) u 0 ⟨1, 0, 0⟩).2 = 2 := by
    refine le_antisymm (hle _) ?_
    rw [LimitedRun.face_eq _ (by decide), show (⟨1, 0, 0⟩ + I3.dir 0 : I3) = ⟨2, 0, 0⟩ from rfl, show (⟨2, 0, 0⟩ + I3.dir 0 : I3) = ⟨3, 0, 0⟩ from rfl,
      hval ⟨1, 0, 0⟩ ⟨4, 0, 0⟩ (by decide) (by decide), hval ⟨2, 0, 0⟩ ⟨2, 0, 0⟩ (by decide) (by decide), hval ⟨3, 0, 0⟩ ⟨3, 0, 0⟩ (by decide) (by decide)]
    refine le_trans ?_ (le_max_right _ _)
    have : (Limiter.mm (exCells4 ⟨4, 0, 0⟩) (exCells4 ⟨2, 0, 0⟩) (exCells4 ⟨3, 0, 0⟩)).1 = 1 / 2 := by
      norm_num [exCells4, Limiter.mm, Limiter.minmod, Limiter.sign]
    rw [this, exBuckley_speed.1]
  funext k
  simp only [Step.waves, ← hu, e1]
  split_ifs with hk
  · obtain rfl : k = 0 := by omega
    refine (e4 0 hk).unique ⟨Or.inr ⟨⟨1, 0, 0⟩, by unfold IsFace; decide, heq.symm⟩, ?_⟩
    rintro x (rfl | ⟨q, -, rfl⟩)
    · exact zero_le_two
    · exact hle q
  · exact e5 k (by omega)

/-- The hypotheses of `C82_buckley_leverett_partial` hold for a run with the minmod limiter and Runge-Kutta 2 from the data 1/2, 0, 1/4. -/
example : ∃ s' u', (start exBuckleyLimited exCells4 [0, 0] () >>= run exBuckleyLimited 1) = .ok (some s') ∧ s'.vols[0]? = some u' ∧
    ∀ p, IsInterior ⟨7, 1, 1⟩ ⟨2, 0, 0⟩ p → 0 ≤ u' p ∧ u' p ≤ 1 / 2 := by
  have hf := LimitedRun.fits Limiter.mm (Flux.rusanov Flux.buckleyLeverett) (le_refl 2)
  obtain ⟨s', v, h, -⟩ := WholeRun.run_one_step (c := exBuckleyLimited) (Step.sound (b := .periodic) exLayout4 hf (by decide) (by decide) exSized4) rfl (fun _ => rfl) exCells4
    [0, 0] rfl () (1 / 8) (by
      change computeTimestep [] [] (Step.waves .periodic 1 (LimitedRun.limited Limiter.mm) (twoPoint (Flux.rusanov Flux.buckleyLeverett)) ⟨7, 1, 1⟩ ⟨2, 0, 0⟩ ⟨1, 0, 0⟩ 2 exWork4
        (fun p : Step.Cells ⟨7, 1, 1⟩ ⟨2, 0, 0⟩ => exCells4 p)) (fun _ => 1) (1 / 4) ⟨0, 0⟩ = _
      rw [exBuckleyLimited_waves]
      norm_num [computeTimestep, adjustTimestep, waveSpeedTotal, List.range_succ]) one_ne_zero (by norm_num [exBuckleyLimited]) le_rfl
  obtain ⟨⟨u', h1, h2⟩, -⟩ := C82_buckley_leverett_partial Limiter.mm (.inl rfl) .rungeKutta2 (by simp) .periodic 1 2 (le_refl 2) "rusanov" (.inl rfl) _ rfl
    ⟨7, 1, 1⟩ ⟨2, 0, 0⟩ ⟨1, 0, 0⟩ exLayout4 (by decide) (by decide) exWork4 exSized4 [] (by simp) (fun _ => 1) (fun _ => zero_le_one) one_pos (fun _ _ => rfl) (1 / 4)
    (by norm_num) (by norm_num) (1 / 8) (fun _ => true) [] (fun _ => []) () _ (.always () (by simp)) _ rfl _ [0, 0] rfl 0 (1 / 2) (.inl ⟨le_rfl, le_rfl⟩)
    (fun p _ => exCells4_bounds p) 1 s' h
  exact ⟨s', u', h, h1, h2⟩

end Verif.Props.WholeRun
