import Verif.EulerRun
import Verif.EulerPositivity3

/-!
C88: first order runs of the Euler equations keep density and pressure positive, and the check of the simulator never refuses them.
-/

namespace Verif
namespace Props
namespace EulerRun
open Integrator Simulator NetFlux WholeRun Euler EulerFlux Verif.EulerRun

/-- Positive density and positive pressure: the internal energy, which is the energy less the kinetic energy, times `γ - 1`. A state is density, momentum, energy. -/
def Positive {m : Nat} (γ : ℝ) (U : ℝ × (Fin m → ℝ) × ℝ) : Prop := 0 < U.1 ∧ 0 < (γ - 1) * (U.2.2 - (∑ i, U.2.1 i ^ 2) / (2 * U.1))

theorem positive_iff {m : Nat} (γ : ℝ) (U : Cons m) : Positive γ U ↔ obeysConstraints γ U := by
  have e : U.2.2 - (∑ i, U.2.1 i ^ 2) / (2 * U.1) = U.E - 0.5 * dot U.m U.m / U.rho := by
    simp only [dot, Cons.E, Cons.m, Cons.rho]
    rw [show (∑ i, U.2.1 i ^ 2) = ∑ i, U.2.1 i * U.2.1 i from Finset.sum_congr rfl fun i _ => by ring]
    rw [← div_div]
    ring
  unfold Positive obeysConstraints pressure
  rw [e]

/-- The flux selected by its name, as the solver calls it with the reconstruction `none` (numflux_util.hpp:63-92): in every direction of the grid it is applied to the value of the
left cell and the value of the right cell. -/
noncomputable def solverFlux (m : Nat) (γ : ℝ) (name : String) : FluxFn (Cons m) ℝ := twoPoint fun d l r =>
  if h : d < m then match select m γ ⟨d, h⟩ name with
    | some F => F.fn [l, r]
    | none => 0
  else 0

theorem solverFlux_hll (m : Nat) (γ : ℝ) : solverFlux m γ "hll" = hllFlux m γ := rfl

/-- C88, partial. First order runs of the Euler equations (reconstruction `none`, forward Euler) with the flux `hll`, in any number of directions, with a CFL number below one (the automatic
choice is 0.9) and cells that are cubes: if density and pressure of the initial data are positive in every interior cell, they are positive in the final state and in every state handed to a
writer, whether or not the states are checked. The check of the simulator, which raises an exception if a cell has no positive density or pressure, never refuses such a run: the run is the
same as without check.
Missing: the Runge-Kutta schemes (their later stages use the time step of the first one; see `C88_stages_partial` and `C88_fails_for_rungekutta2`), the fluxes `tecno1`, `tecno4`, `tecno6`, reconstructions of higher order. For `hll3` see
`C88_hll3_partial`; in two dimensions it is false, see `C88_fails_for_hll3`. For `central` it is false, see `C88_fails_for_central`. -/
theorem C88_positive_partial {σ : Type} (γ : ℝ) (hγ : 1 < γ) (b : BC) (m dims g : Nat) (hm : dims ≤ m) (hg : 1 ≤ g) (n G active : I3) (hL : Layout n G active dims g)
    (hN : ∀ d < dims, 3 * G.get d ≤ n.get d) (hpos : 0 < dims) (work : NetFlux.State (Cons m) ℝ) (hw : Sized n work)
    (waveAdj : List (ℝ → ℝ)) (hwave : ∀ f ∈ waveAdj, ∀ w, w ≤ f w) (len : Nat → ℝ) (hlen : ∀ d, 0 ≤ len d) (hlen0 : 0 < len 0) (hcube : ∀ d < dims, len d = len 0)
    (cfl : ℝ) (hcfl0 : 0 < cfl) (hcfl : cfl < 1) (endTime : ℝ) (obeys : (I3 → Cons m) → Bool) (writers : List ((I3 → Cons m) → TimeInfo ℝ → σ → Res σ))
    (adj : σ → List (Adjuster ℝ)) (wst : σ) (Fine : σ → TimeInfo ℝ → Prop) (hadj : WholeRun.Punctual writers adj wst Fine)
    (c : Config (I3 → Cons m) ℝ σ)
    (hc : c = ⟨.forwardEuler, ⟨Step.cpuSystem dims CudaRecon.noRecon (solverFlux m γ "hll") n G active work, waveAdj, len, cfl⟩, Step.cpuBoundary b n g dims, obeys, writers, adj, endTime⟩)
    (u : I3 → Cons m) (spare : I3 → Cons m) (hu : ∀ p, IsInterior n G p → Positive γ (u p)) (fuel : Nat) :
    (∀ s', (start c u [spare] wst >>= run c fuel) = .ok (some s') →
      (∃ u', s'.vols[0]? = some u' ∧ ∀ p, IsInterior n G p → Positive γ (u' p)) ∧ ∀ call ∈ s'.log, ∀ p, IsInterior n G p → Positive γ (call.state p)) ∧
    ((∀ v, (∀ p, inSize n p = true → Positive γ (v p)) → obeys v = true) →
      (start c u [spare] wst >>= run c fuel) = (start { c with obeys := fun _ => true } u [spare] wst >>= run { c with obeys := fun _ => true } fuel)) := by
  simp only [positive_iff] at hu ⊢
  refine run_positive (b := b) hγ (fun d l r => if h : d < m then hll γ ⟨d, h⟩ l r else 0) (k := 1) zero_le_one ?_ hg hL hN hpos work hw waveAdj hwave len hlen hlen0 hcube cfl hcfl0
    (by linarith) endTime obeys writers adj wst Fine hadj c hc u spare hu fuel
  intro d hd L u R h1 h2 h3 S
  have hd' : d < m := by omega
  simp only [hd', dif_pos, one_mul]
  exact hll_keeps hγ ⟨d, hd'⟩ h1 h2 h3 S

/-- C88 for the flux `hll3`, partial. First order runs of the one dimensional Euler equations (`euler1`, reconstruction `none`, forward Euler) with the flux `hll3`, a CFL number below one half and
an adiabatic exponent of at most two: density and pressure stay positive, and the check of the simulator never refuses such a run.
Missing: CFL numbers between one half and one, adiabatic exponents above two. In two dimensions the property is false for every CFL number, see `C88_fails_for_hll3`. -/
theorem C88_hll3_partial {σ : Type} (γ : ℝ) (hγ : 1 < γ) (hγ2 : γ ≤ 2) (b : BC) (g : Nat) (hg : 1 ≤ g) (n G active : I3) (hL : Layout n G active 1 g) (hN : 3 * G.get 0 ≤ n.get 0)
    (work : NetFlux.State (Cons 1) ℝ) (hw : Sized n work) (waveAdj : List (ℝ → ℝ)) (hwave : ∀ f ∈ waveAdj, ∀ w, w ≤ f w) (len : Nat → ℝ) (hlen : ∀ d, 0 ≤ len d) (hlen0 : 0 < len 0)
    (cfl : ℝ) (hcfl0 : 0 < cfl) (hcfl : cfl < 1 / 2) (endTime : ℝ) (obeys : (I3 → Cons 1) → Bool) (writers : List ((I3 → Cons 1) → TimeInfo ℝ → σ → Res σ))
    (adj : σ → List (Adjuster ℝ)) (wst : σ) (Fine : σ → TimeInfo ℝ → Prop) (hadj : WholeRun.Punctual writers adj wst Fine)
    (c : Config (I3 → Cons 1) ℝ σ)
    (hc : c = ⟨.forwardEuler, ⟨Step.cpuSystem 1 CudaRecon.noRecon (solverFlux 1 γ "hll3") n G active work, waveAdj, len, cfl⟩, Step.cpuBoundary b n g 1, obeys, writers, adj, endTime⟩)
    (u : I3 → Cons 1) (spare : I3 → Cons 1) (hu : ∀ p, IsInterior n G p → Positive γ (u p)) (fuel : Nat) :
    (∀ s', (start c u [spare] wst >>= run c fuel) = .ok (some s') →
      (∃ u', s'.vols[0]? = some u' ∧ ∀ p, IsInterior n G p → Positive γ (u' p)) ∧ ∀ call ∈ s'.log, ∀ p, IsInterior n G p → Positive γ (call.state p)) ∧
    ((∀ v, (∀ p, inSize n p = true → Positive γ (v p)) → obeys v = true) →
      (start c u [spare] wst >>= run c fuel) = (start { c with obeys := fun _ => true } u [spare] wst >>= run { c with obeys := fun _ => true } fuel)) := by
  simp only [positive_iff] at hu ⊢
  refine run_positive (b := b) hγ (fun d l r => if h : d < 1 then hll3 γ ⟨d, h⟩ l r else 0) (k := 2) zero_le_two ?_ hg hL (fun d hd => by obtain rfl : d = 0 := by omega
                                                                                                                                          exact hN) one_pos work hw waveAdj hwave len
    hlen hlen0 (fun d hd => by obtain rfl : d = 0 := by omega
                               rfl) cfl hcfl0 (by linarith) endTime obeys writers adj wst Fine hadj c hc u spare hu fuel
  intro d hd L u R h1 h2 h3 S
  simp only [hd, dif_pos]
  exact hll3_keeps hγ hγ2 ⟨d, hd⟩ h1 h2 h3 S

/-! ### Concrete runs -/

/-- Gas at rest between gas streaming to both sides, with `γ = 2`: densities 1, 1/100, 1, velocities -1, 0, 1 and sound speed 1. -/
noncomputable def exLeft : Cons 1 := (1, (fun _ => -1), 1)
@[inherit_doc exLeft] noncomputable def exMiddle : Cons 1 := (1 / 100, (fun _ => 0), 1 / 200)
@[inherit_doc exLeft] noncomputable def exRight : Cons 1 := (1, (fun _ => 1), 1)

theorem exPositive : Positive 2 exLeft ∧ Positive 2 exMiddle ∧ Positive 2 exRight := by
  refine ⟨?_, ?_, ?_⟩ <;> constructor <;> norm_num [exLeft, exMiddle, exRight]

/-- The hypotheses of C88 hold for a run of one step from these states. -/
example : ∃ endTime s' u', (start (config3 (fun d l r => if h : d < 1 then hll 2 ⟨d, h⟩ l r else 0) (9 / 10) endTime) (data3 exLeft exMiddle exRight) [0] () >>=
      run (config3 (fun d l r => if h : d < 1 then hll 2 ⟨d, h⟩ l r else 0) (9 / 10) endTime) 1) = .ok (some s') ∧ s'.vols[0]? = some u' ∧
    ∀ p, IsInterior ⟨5, 1, 1⟩ ⟨1, 0, 0⟩ p → Positive 2 (u' p) := by
  obtain ⟨hl, hm, hr⟩ := exPositive
  have hdata : ∀ p, IsInterior ⟨5, 1, 1⟩ ⟨1, 0, 0⟩ p → Positive 2 (data3 exLeft exMiddle exRight p) := by
    intro p hp
    have h := hp 0 (by decide)
    simp [I3.get] at h
    unfold data3
    split_ifs
    · exact hl
    · exact hm
    · exact hr
    · omega
  rw [positive_iff] at hl hm hr
  have pos : ∀ {L R : Cons 1}, obeysConstraints 2 L → obeysConstraints 2 R → 0 < (hll 2 0 L R).2 := by
    intro L R h1 h2
    have hlt := hllSpeeds_lt (γ := 2) (by norm_num) 0 h1 h2
    change 0 < max |(hllSpeeds 2 0 L R).1| |(hllSpeeds 2 0 L R).2|
    by_contra hc
    have h0 := not_lt.1 hc
    have a1 := abs_nonpos_iff.1 ((le_max_left _ _).trans h0)
    have a2 := abs_nonpos_iff.1 ((le_max_right _ _).trans h0)
    rw [a1, a2] at hlt
    exact lt_irrefl _ hlt
  set s := max (hll 2 0 exRight exLeft).2 (max (hll 2 0 exLeft exMiddle).2 (hll 2 0 exMiddle exRight).2) with hs
  have hs0 : 0 < s := lt_of_lt_of_le (pos hr hl) (le_max_left _ _)
  have hor : (hll 2 0 exRight exLeft).2 = s ∨ (hll 2 0 exLeft exMiddle).2 = s ∨ (hll 2 0 exMiddle exRight).2 = s := by
    rcases max_choice (hll 2 0 exRight exLeft).2 (max (hll 2 0 exLeft exMiddle).2 (hll 2 0 exMiddle exRight).2) with h | h
    · exact .inl h.symm
    · rcases max_choice (hll 2 0 exLeft exMiddle).2 (hll 2 0 exMiddle exRight).2 with h' | h'
      · exact .inr (.inl (h'.symm.trans h.symm))
      · exact .inr (.inr (h'.symm.trans h.symm))
  obtain ⟨s', u', h1, h2, -⟩ := run3 (fun d l r => if h : d < 1 then hll 2 ⟨d, h⟩ l r else 0) exLeft exMiddle exRight s hs0 (le_max_left _ _)
    ((le_max_left _ _).trans (le_max_right _ _)) ((le_max_right _ _).trans (le_max_right _ _)) hor (9 / 10) (9 / 10 / s) (by positivity) le_rfl
  obtain ⟨⟨u'', g1, g2⟩, -⟩ := (C88_positive_partial 2 (by norm_num) .periodic 1 1 1 le_rfl le_rfl ⟨5, 1, 1⟩ ⟨1, 0, 0⟩ ⟨1, 0, 0⟩ layout3 (by decide) (by decide) (work3 (Cons 1)) sized3
    [] (by simp) (fun _ => 1) (fun _ => zero_le_one) one_pos (fun _ _ => rfl) (9 / 10) (by norm_num) (by norm_num) (9 / 10 / s) (fun _ => true) [] (fun _ => []) () _ (.always () (by simp)) _ rfl
    (data3 exLeft exMiddle exRight) 0 hdata 1).1 s' h1
  exact ⟨_, s', u'', h1, g1, g2⟩

/-- C88 is false for the flux `central`, although everything else is as in `C88_positive_partial`: gas at rest between gas streaming to both sides has a negative density after one step with the
automatic CFL number 0.9. -/
theorem C88_fails_for_central :
    ∃ c : Config (I3 → Cons 1) ℝ Unit,
      c = ⟨.forwardEuler, ⟨Step.cpuSystem 1 CudaRecon.noRecon (solverFlux 1 2 "central") ⟨5, 1, 1⟩ ⟨1, 0, 0⟩ ⟨1, 0, 0⟩ (work3 (Cons 1)), [], fun _ => 1, 9 / 10⟩,
        Step.cpuBoundary .periodic ⟨5, 1, 1⟩ 1 1, fun _ => true, [], fun _ => [], 9 / 20⟩ ∧
      (Positive 2 exLeft ∧ Positive 2 exMiddle ∧ Positive 2 exRight) ∧
      ∃ s' u', (start c (data3 exLeft exMiddle exRight) [0] () >>= run c 1) = .ok (some s') ∧ s'.vols[0]? = some u' ∧ (u' ⟨2, 0, 0⟩).1 < 0 := by
  refine ⟨_, rfl, exPositive, ?_⟩
  have sq : ∀ x : ℝ, x = 1 → Real.sqrt x = 1 := fun x hx => by rw [hx, Real.sqrt_one]
  have wl : waveSpeed 2 0 exLeft = 2 := by
    rw [waveSpeed, sq _ (by norm_num [pressure, dot, exLeft])]; norm_num [velocity, exLeft]
  have wm : waveSpeed 2 0 exMiddle = 1 := by
    rw [waveSpeed, sq _ (by norm_num [pressure, dot, exMiddle])]; norm_num [velocity, exMiddle]
  have wr : waveSpeed 2 0 exRight = 2 := by
    rw [waveSpeed, sq _ (by norm_num [pressure, dot, exRight])]; norm_num [velocity, exRight]
  obtain ⟨s', u', h1, h2, h3⟩ := run3 (fun d l r => if h : d < 1 then (match select 1 2 ⟨d, h⟩ "central" with
    | some F => F.fn [l, r]
    | none => 0) else 0) exLeft exMiddle exRight 2 (by norm_num) (by change max (waveSpeed 2 0 exRight) (waveSpeed 2 0 exLeft) ≤ 2; rw [wl, wr]; norm_num)
    (by change max (waveSpeed 2 0 exLeft) (waveSpeed 2 0 exMiddle) ≤ 2; rw [wl, wm]; norm_num) (by change max (waveSpeed 2 0 exMiddle) (waveSpeed 2 0 exRight) ≤ 2; rw [wm, wr]; norm_num) (.inl (by change max (waveSpeed 2 0 exRight) (waveSpeed 2 0 exLeft) = 2; rw [wl, wr]; norm_num)) (9 / 10) (9 / 20) (by norm_num)
    (by norm_num)
  refine ⟨s', u', h1, h2, ?_⟩
  rw [h3]
  change (exMiddle + (9 / 10 / 2 : ℝ) • ((central 2 0 exLeft exMiddle).1 - (central 2 0 exMiddle exRight).1)).1 < 0
  norm_num [central, flux, exLeft, exMiddle, exRight, Cons.m]

/-- The hypotheses of `C88_hll3_partial` hold for a run of one step from the states above. -/
example : ∃ endTime s' u', (start (config3 (fun d l r => if h : d < 1 then hll3 2 ⟨d, h⟩ l r else 0) (2 / 5) endTime) (data3 exLeft exMiddle exRight) [0] () >>=
      run (config3 (fun d l r => if h : d < 1 then hll3 2 ⟨d, h⟩ l r else 0) (2 / 5) endTime) 1) = .ok (some s') ∧ s'.vols[0]? = some u' ∧
    ∀ p, IsInterior ⟨5, 1, 1⟩ ⟨1, 0, 0⟩ p → Positive 2 (u' p) := by
  obtain ⟨hl, hm, hr⟩ := exPositive
  have hdata : ∀ p, IsInterior ⟨5, 1, 1⟩ ⟨1, 0, 0⟩ p → Positive 2 (data3 exLeft exMiddle exRight p) := by
    intro p hp
    have h := hp 0 (by decide)
    simp [I3.get] at h
    unfold data3
    split_ifs
    · exact hl
    · exact hm
    · exact hr
    · omega
  rw [positive_iff] at hl hm hr
  have pos : ∀ {L R : Cons 1}, obeysConstraints 2 L → obeysConstraints 2 R → 0 < (hll3 2 0 L R).2 := by
    intro L R h1 h2
    have hlt := hll3Speeds_lt (γ := 2) (by norm_num) 0 h1 h2
    change 0 < max |(hll3Speeds 2 0 L R).1| |(hll3Speeds 2 0 L R).2|
    by_contra hc
    have h0 := not_lt.1 hc
    have a1 := abs_nonpos_iff.1 ((le_max_left _ _).trans h0)
    have a2 := abs_nonpos_iff.1 ((le_max_right _ _).trans h0)
    rw [a1, a2] at hlt
    exact lt_irrefl _ hlt
  set s := max (hll3 2 0 exRight exLeft).2 (max (hll3 2 0 exLeft exMiddle).2 (hll3 2 0 exMiddle exRight).2) with hs
  have hs0 : 0 < s := lt_of_lt_of_le (pos hr hl) (le_max_left _ _)
  have hor : (hll3 2 0 exRight exLeft).2 = s ∨ (hll3 2 0 exLeft exMiddle).2 = s ∨ (hll3 2 0 exMiddle exRight).2 = s := by
    rcases max_choice (hll3 2 0 exRight exLeft).2 (max (hll3 2 0 exLeft exMiddle).2 (hll3 2 0 exMiddle exRight).2) with h | h
    · exact .inl h.symm
    · rcases max_choice (hll3 2 0 exLeft exMiddle).2 (hll3 2 0 exMiddle exRight).2 with h' | h'
      · exact .inr (.inl (h'.symm.trans h.symm))
      · exact .inr (.inr (h'.symm.trans h.symm))
  obtain ⟨s', u', h1, h2, -⟩ := run3 (fun d l r => if h : d < 1 then hll3 2 ⟨d, h⟩ l r else 0) exLeft exMiddle exRight s hs0 (le_max_left _ _)
    ((le_max_left _ _).trans (le_max_right _ _)) ((le_max_right _ _).trans (le_max_right _ _)) hor (2 / 5) (2 / 5 / s) (by positivity) le_rfl
  obtain ⟨⟨u'', g1, g2⟩, -⟩ := (C88_hll3_partial 2 (by norm_num) le_rfl .periodic 1 le_rfl ⟨5, 1, 1⟩ ⟨1, 0, 0⟩ ⟨1, 0, 0⟩ layout3 (by decide) (work3 (Cons 1)) sized3
    [] (by simp) (fun _ => 1) (fun _ => zero_le_one) one_pos (2 / 5) (by norm_num) (by norm_num) (2 / 5 / s) (fun _ => true) [] (fun _ => []) () _ (.always () (by simp)) _ rfl
    (data3 exLeft exMiddle exRight) 0 hdata 1).1 s' h1
  exact ⟨_, s', u'', h1, g1, g2⟩

/-- Gas of density 1, pressure 1/2 and sound speed 1 (`γ = 2`) which moves with velocity `v` along the face between two cells and not across it. -/
noncomputable def sliding (v : ℝ) : Cons 2 := (1, ![0, v], 1 / 2 + v ^ 2 / 2)

theorem sliding_positive (v : ℝ) : Positive 2 (sliding v) := by
  refine ⟨one_pos, ?_⟩
  simp only [sliding, Fin.sum_univ_two, Matrix.cons_val_zero, Matrix.cons_val_one]
  norm_num

/-- C88 is false for the flux `hll3` in two dimensions, for every CFL number, although everything else is as in `C88_positive_partial`: two cells with gas at rest next to one with gas of the same
density and pressure that slides along the face. The flux carries momentum along the face and no energy; the next state of the gas at rest has a negative pressure. -/
theorem C88_fails_for_hll3 (cfl : ℝ) (hcfl : 0 < cfl) :
    ∃ c : Config (I3 → Cons 2) ℝ Unit,
      c = ⟨.forwardEuler, ⟨Step.cpuSystem 1 CudaRecon.noRecon (solverFlux 2 2 "hll3") ⟨5, 1, 1⟩ ⟨1, 0, 0⟩ ⟨1, 0, 0⟩ (work3 (Cons 2)), [], fun _ => 1, cfl⟩,
        Step.cpuBoundary .periodic ⟨5, 1, 1⟩ 1 1, fun _ => true, [], fun _ => [], cfl⟩ ∧
      (Positive 2 (sliding 0) ∧ Positive 2 (sliding (4 / cfl))) ∧
      ∃ s' u', (start c (data3 (sliding 0) (sliding 0) (sliding (4 / cfl))) [0] () >>= run c 1) = .ok (some s') ∧ s'.vols[0]? = some u' ∧
        u' ⟨2, 0, 0⟩ = (1, ![0, 2], 1 / 2) ∧ ¬Positive 2 (u' ⟨2, 0, 0⟩) := by
  refine ⟨_, rfl, ⟨sliding_positive _, sliding_positive _⟩, ?_⟩
  have hp : ∀ v, pressure 2 (sliding v) = 1 / 2 := fun v => by
    simp only [pressure, sliding, dot, Cons.E, Cons.m, Cons.rho, Fin.sum_univ_two, Matrix.cons_val_zero, Matrix.cons_val_one]; ring
  have hv : ∀ v, velocity (sliding v) 0 = 0 := fun v => by simp [velocity, sliding, Cons.m]
  have hr : ∀ v, (sliding v).rho = 1 := fun v => rfl
  have hc : ∀ v, soundSpeed 2 (sliding v) = 1 := fun v => by rw [soundSpeed, hp, hr]; norm_num
  have hmv : ∀ v w, meanVelocity 0 (sliding v) (sliding w) = 0 := fun v w => by simp [meanVelocity, hv]
  have hms : ∀ v w, meanSound 2 (sliding v) (sliding w) = 1 := fun v w => by
    rw [meanSound, meanPressure, hp, hp, hr, hr]; norm_num
  have hsp : ∀ v w, hll3Speeds 2 0 (sliding v) (sliding w) = (-1, 1) := fun v w => by
    simp only [hll3Speeds, hv, hc, hmv, hms]; norm_num
  have haa : ∀ v w, hll3aa 2 0 (sliding v) (sliding w) = -2 := fun v w => by
    simp only [hll3aa, hsp, hv, hr]; norm_num
  have hsm : ∀ v w, hll3sm 2 0 (sliding v) (sliding w) = 0 := fun v w => by
    simp only [hll3sm, hsp, hv, hp, haa]; simp [sliding, Cons.m]
  have hs : ∀ v w, (hll3 2 0 (sliding v) (sliding w)).2 = 1 := fun v w => by
    simp only [hll3, hsp]; norm_num
  have hf : ∀ v w, (hll3 2 0 (sliding v) (sliding w)).1 = (0, ![1 / 2, (v - w) / 2], 0) := fun v w => by
    have hflux : ∀ v, flux 2 0 (sliding v) = (0, ![1 / 2, 0], 0) := fun v => by
      refine Prod.ext ?_ (Prod.ext (funext fun i => ?_) ?_)
      · simp [flux, sliding, Cons.m]
      · have := hp v
        have := hv v
        fin_cases i <;> simp_all [flux, Cons.m]
      · have := hv v
        simp_all [flux]
    have hus : hll3us 2 0 (sliding v) (sliding w) = ![0, (v + w) / 2] := by
      funext i
      fin_cases i
      · simp [hll3us, hsm]
      · simp only [hll3us, hsp, haa, hflux]
        simp [sliding, Cons.m]; ring
    have hmid : hll3Middle 2 0 0 ![0, (v + w) / 2] (sliding v) (-1) = (1, ![0, (v + w) / 2], 1 / 2 + v ^ 2 / 2) := by
      simp only [hll3Middle, hv, hr, hp]
      refine Prod.ext (by norm_num) (Prod.ext (funext fun i => by norm_num) ?_)
      simp [sliding, Cons.E]
    simp only [hll3, hsp, hsm, hus, hflux, hmid]
    norm_num
    refine Prod.ext ?_ (Prod.ext (funext fun i => ?_) ?_)
    · simp [sliding]
    · fin_cases i
      · simp [sliding]
      · simp [sliding]; ring
    · simp [sliding]
  obtain ⟨s', u', h1, h2, h3⟩ := run3 (fun d l r => if h : d < 2 then (match select 2 2 ⟨d, h⟩ "hll3" with
    | some F => F.fn [l, r]
    | none => 0) else 0) (sliding 0) (sliding 0) (sliding (4 / cfl)) 1 one_pos (hs _ _).le (hs _ _).le (hs _ _).le (.inl (hs _ _)) cfl cfl hcfl (by rw [div_one])
  have h4 : u' ⟨2, 0, 0⟩ = (1, ![0, 2], 1 / 2) := by
    rw [h3]
    change sliding 0 + (cfl / 1 : ℝ) • ((hll3 2 0 (sliding 0) (sliding 0)).1 - (hll3 2 0 (sliding 0) (sliding (4 / cfl))).1) = _
    rw [hf, hf]
    refine Prod.ext ?_ (Prod.ext (funext fun i => ?_) ?_)
    · simp [sliding]
    · fin_cases i
      · simp [sliding]
      · simp [sliding]; field_simp; norm_num
    · simp [sliding]
  refine ⟨s', u', h1, h2, h4, ?_⟩
  rw [h4]
  rintro ⟨-, h⟩
  simp only [Fin.sum_univ_two, Matrix.cons_val_zero, Matrix.cons_val_one] at h
  norm_num at h

end EulerRun
end Props
end Verif
