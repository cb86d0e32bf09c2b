import Verif.EulerStages
import Verif.Props.EulerRun

/-!
C88 for the Runge-Kutta schemes of order two and three: density and pressure stay positive for small CFL numbers, and need not stay positive for others.
-/

namespace Verif
namespace Props
namespace EulerStages
open Integrator Simulator NetFlux WholeRun Euler EulerFlux Verif.EulerRun Verif.Props.EulerRun

/-- How much smaller than one the CFL number has to be in `C88_stages_partial`, for `m` space dimensions and the adiabatic exponent `γ`. It is about 5.8 in one dimension for `γ = 1.4`. -/
noncomputable def reduction (m : Nat) (γ : ℝ) : ℝ := m * (7 / 4 * Real.sqrt (max (2 / (γ * (γ - 1))) 1) * (1 + Real.sqrt (γ * (γ - 1))))

theorem reduction_eq (m : Nat) (γ : ℝ) : reduction m γ = stageFactor m γ := by
  unfold reduction stageFactor energyFactor
  rw [show 2 * max (1 / (γ * (γ - 1))) (1 / 2) = max (2 / (γ * (γ - 1))) 1 by rw [mul_max_of_nonneg _ _ zero_le_two]; congr 1 <;> ring]

/-- C88 for the integrators `forwardeuler`, `rungekutta2` and `rungekutta3`, partial. Runs of the Euler equations with the reconstruction `none` and the flux `hll`, with as many dimensions of the grid
as of the equation and cells that are cubes, whose CFL number times `reduction` is below one: density and pressure stay positive, in the final state and in every state handed to a writer, and the check
of the simulator never refuses such a run.
The later stages use the time step computed from the first one, while the wave speeds may be larger at the later stages; `reduction` bounds this growth.
Missing: larger CFL numbers (for the CFL numbers that are used in practice the property is false on a grid with fewer dimensions than the equation, see `C88_fails_for_rungekutta2`), `rungekutta4`. -/
theorem C88_stages_partial {σ : Type} (γ : ℝ) (hγ : 1 < γ) (b : BC) (dims g : Nat) (hg : 1 ≤ g) (n G active : I3) (hL : Layout n G active dims g)
    (hN : ∀ d < dims, 3 * G.get d ≤ n.get d) (hpos : 0 < dims) (work : NetFlux.State (Cons dims) ℝ) (hw : Sized n work) (k : Kind) (hk : k ≠ .rungeKutta4)
    (waveAdj : List (ℝ → ℝ)) (hwave : ∀ f ∈ waveAdj, ∀ w, w ≤ f w) (len : Nat → ℝ) (hlen : ∀ d, 0 ≤ len d) (hlen0 : 0 < len 0) (hcube : ∀ d < dims, len d = len 0)
    (cfl : ℝ) (hcfl0 : 0 < cfl) (hcfl : reduction dims γ * cfl < 1) (endTime : ℝ) (obeys : (I3 → Cons dims) → Bool) (writers : List ((I3 → Cons dims) → TimeInfo ℝ → σ → Res σ))
    (adj : σ → List (Adjuster ℝ)) (wst : σ) (Fine : σ → TimeInfo ℝ → Prop) (hadj : WholeRun.Punctual writers adj wst Fine)
    (c : Config (I3 → Cons dims) ℝ σ)
    (hc : c = ⟨k, ⟨Step.cpuSystem dims CudaRecon.noRecon (solverFlux dims γ "hll") n G active work, waveAdj, len, cfl⟩, Step.cpuBoundary b n g dims, obeys, writers, adj, endTime⟩)
    (u : I3 → Cons dims) (spare : List (I3 → Cons dims)) (hspare : spare.length = k.substeps) (hu : ∀ p, IsInterior n G p → Positive γ (u p)) (fuel : Nat) :
    (∀ s', (start c u spare wst >>= run c fuel) = .ok (some s') →
      (∃ u', s'.vols[0]? = some u' ∧ ∀ p, IsInterior n G p → Positive γ (u' p)) ∧ ∀ call ∈ s'.log, ∀ p, IsInterior n G p → Positive γ (call.state p)) ∧
    ((∀ v, (∀ p, inSize n p = true → Positive γ (v p)) → obeys v = true) →
      (start c u spare wst >>= run c fuel) = (start { c with obeys := fun _ => true } u spare wst >>= run { c with obeys := fun _ => true } fuel)) := by
  simp only [positive_iff] at hu ⊢
  rw [reduction_eq] at hcfl
  exact run_stages_positive (b := b) hγ hg hL hN hpos work hw k hk waveAdj hwave len hlen hlen0 hcube cfl hcfl0 hcfl endTime obeys writers adj wst Fine hadj c hc u spare hspare hu fuel

/-- For `γ = 2` in one dimension a CFL number of one fifth is small enough. -/
theorem reduction_example : reduction 1 2 * (1 / 5) < 1 := by
  have h : Real.sqrt 2 < 3 / 2 := by rw [Real.sqrt_lt' (by norm_num)]; norm_num
  have e : reduction 1 2 = 7 / 4 * (1 + Real.sqrt 2) := by unfold reduction; norm_num
  rw [e]
  linarith

/-- The hypotheses hold for a run of one step with Runge-Kutta 3 from gas at rest between gas streaming to both sides. -/
example : ∃ endTime s' u', (start (config3k .rungeKutta3 (hllTwo 1 2) (1 / 5) endTime) (data3 exLeft exMiddle exRight) [0, 0, 0] () >>=
      run (config3k .rungeKutta3 (hllTwo 1 2) (1 / 5) endTime) 1) = .ok (some s') ∧ s'.vols[0]? = some u' ∧
    ∀ p, IsInterior ⟨5, 1, 1⟩ ⟨1, 0, 0⟩ p → Positive 2 (u' p) := by
  obtain ⟨hl, hm, hr⟩ := exPositive
  have hdata : ∀ p, IsInterior ⟨5, 1, 1⟩ ⟨1, 0, 0⟩ p → Positive 2 (data3 exLeft exMiddle exRight p) := by
    intro p hp
    have h := hp 0 (by decide)
    simp [I3.get] at h
    unfold data3
    split_ifs
    · exact hl
    · exact hm
    · exact hr
    · omega
  rw [positive_iff] at hl hm hr
  have pos : ∀ {L R : Cons 1}, obeysConstraints 2 L → obeysConstraints 2 R → 0 < (hllTwo 1 2 0 L R).2 := by
    intro L R h1 h2
    have h := hllSpeeds_lt (by norm_num : (1 : ℝ) < 2) 0 h1 h2
    simp only [hllTwo, zero_lt_one, dif_pos]
    change 0 < max |(hllSpeeds 2 0 L R).1| |(hllSpeeds 2 0 L R).2|
    rcases eq_or_ne (hllSpeeds 2 0 L R).1 0 with h0 | h0
    · exact lt_max_of_lt_right (abs_pos.2 (by rw [h0] at h; exact h.ne'))
    · exact lt_max_of_lt_left (abs_pos.2 h0)
  set a := (hllTwo 1 2 0 exRight exLeft).2 with ha
  set b := (hllTwo 1 2 0 exLeft exMiddle).2 with hb
  set c := (hllTwo 1 2 0 exMiddle exRight).2 with hc
  have hs : 0 < max a (max b c) := lt_max_of_lt_left (pos hr hl)
  obtain ⟨s', u', h1, h2, -⟩ := run3k .rungeKutta3 (hllTwo 1 2) exLeft exMiddle exRight (max a (max b c)) hs (le_max_left _ _) ((le_max_left _ _).trans (le_max_right _ _))
    ((le_max_right _ _).trans (le_max_right _ _))
    (by rcases max_choice a (max b c) with e | e
        · exact .inl e.symm
        · rcases max_choice b c with e' | e'
          · exact .inr (.inl (by rw [e, e']))
          · exact .inr (.inr (by rw [e, e'])))
    (1 / 5) (1 / 5 / max a (max b c)) (by positivity) le_rfl [0, 0, 0] rfl
  refine ⟨_, s', u', h1, h2, ?_⟩
  obtain ⟨⟨u'', g1, g2⟩, -⟩ := (C88_stages_partial 2 (by norm_num) .periodic 1 1 (le_refl 1) ⟨5, 1, 1⟩ ⟨1, 0, 0⟩ ⟨1, 0, 0⟩ layout3 (by decide) (by decide) (work3 _) sized3 .rungeKutta3 (by simp)
    [] (by simp) (fun _ => 1) (by simp) one_pos (by simp) (1 / 5) (by norm_num) reduction_example _ (fun _ => true) [] (fun _ => []) () _ (.always () (by simp)) _ rfl (data3 exLeft exMiddle exRight) [0, 0, 0] rfl hdata 1).1 s' h1
  rw [h2] at g1
  cases g1
  exact g2

theorem mixed_zero (V : ℝ) : mixed V 0 = sliding 0 := by simp [mixed, sliding]
theorem mixed_one (V : ℝ) : mixed V 1 = sliding V := by simp only [mixed, sliding]; congr 1; congr 1 <;> simp

/-- C88 is false for `rungekutta2` with the flux `hll` and the reconstruction `none`, for every CFL number up to one except two thirds: the two dimensional equation on a grid of one dimension, three cells
of gas with the same density and pressure, of which the middle one slides along the faces. The time step is computed from the sound speed one. After the first stage part of the kinetic energy has
become heat, the sound speed is large, and the second stage takes more energy from a cell than it has: after one step a cell has a negative pressure. With forward Euler the same run stays positive
(`C88_positive_partial`). -/
theorem C88_fails_for_rungekutta2 (cfl : ℝ) (h0 : 0 < cfl) (h1 : cfl ≤ 1) (hne : cfl ≠ 2 / 3) :
    ∃ (v : ℝ) (c : Config (I3 → Cons 2) ℝ Unit),
      c = ⟨.rungeKutta2, ⟨Step.cpuSystem 1 CudaRecon.noRecon (solverFlux 2 2 "hll") ⟨5, 1, 1⟩ ⟨1, 0, 0⟩ ⟨1, 0, 0⟩ (work3 (Cons 2)), [], fun _ => 1, cfl⟩,
        Step.cpuBoundary .periodic ⟨5, 1, 1⟩ 1 1, fun _ => true, [], fun _ => [], cfl⟩ ∧
      (Positive 2 (sliding 0) ∧ Positive 2 (sliding v)) ∧
      ∃ s' u', (start c (data3 (sliding 0) (sliding v) (sliding 0)) [0, 0] () >>= run c 1) = .ok (some s') ∧ s'.vols[0]? = some u' ∧
        ∃ p, IsInterior ⟨5, 1, 1⟩ ⟨1, 0, 0⟩ p ∧ ¬Positive 2 (u' p) := by
  set δ := 1 - 3 * cfl / 2 with hδ
  have hδ0 : 0 < |δ| := abs_pos.2 fun h => hne (by linarith)
  have hδ1 : |δ| ≤ 1 := abs_le.2 ⟨by linarith, by linarith⟩
  set v := 32 / (cfl ^ 2 * |δ|) with hv
  have hden : 0 < cfl ^ 2 * |δ| := by positivity
  have hvd : v * (cfl ^ 2 * |δ|) = 32 := div_mul_cancel₀ _ hden.ne'
  have hv32 : 32 ≤ v := by
    rw [hv, le_div_iff₀ hden]
    have : cfl ^ 2 ≤ 1 := pow_le_one₀ h0.le h1
    nlinarith
  refine ⟨v, _, rfl, ⟨sliding_positive _, sliding_positive _⟩, ?_⟩
  have two : ∀ x y, hllTwo 2 2 0 (mixed v x) (mixed v y) = hll 2 0 (mixed v x) (mixed v y) := fun x y => rfl
  have f00 := (two 0 0).trans (mixed_first v 0 0 (by norm_num) (by norm_num))
  have f01 := (two 0 1).trans (mixed_first v 0 1 (by norm_num) (by norm_num))
  have f10 := (two 1 0).trans (mixed_first v 1 0 (by norm_num) (by norm_num))
  obtain ⟨s', u', g1, g2, g3⟩ := run3k .rungeKutta2 (hllTwo 2 2) (mixed v 0) (mixed v 1) (mixed v 0) 1 one_pos (by rw [f00]) (by rw [f01]) (by rw [f10]) (.inl (by rw [f00])) cfl cfl h0
    (by rw [div_one]) [0, 0] rfl
  rw [div_one, rk2_3 (hllTwo 2 2) (mixed v 0) (mixed v 1) (mixed v 0) (mixed v (cfl / 2)) (mixed v (1 - cfl)) (mixed v (cfl / 2)) cfl] at g3
  rotate_left
  · rw [f00, f01]
    refine Prod.ext ?_ (Prod.ext (funext fun i => ?_) ?_)
    · simp [mixed]
    · fin_cases i <;> simp [mixed]; ring
    · simp [mixed]; ring
  · rw [f01, f10]
    refine Prod.ext ?_ (Prod.ext (funext fun i => ?_) ?_)
    · simp [mixed]
    · fin_cases i <;> simp [mixed]; ring
    · simp [mixed]; ring
  · rw [f10, f00]
    refine Prod.ext ?_ (Prod.ext (funext fun i => ?_) ?_)
    · simp [mixed]
    · fin_cases i <;> simp [mixed]; ring
    · simp [mixed]; ring
  rw [mixed_zero, mixed_one] at g1
  refine ⟨s', u', g1, g2, ?_⟩
  have bad : ∀ U : Cons 2, U.2.2 < 0 → ¬Positive 2 U := by
    rintro U hU ⟨h1, h2⟩
    have h3 : 0 ≤ ∑ i, U.2.1 i ^ 2 := Finset.sum_nonneg fun i _ => sq_nonneg _
    have h4 : 0 ≤ (∑ i, U.2.1 i ^ 2) / (2 * U.1) := div_nonneg h3 (by linarith)
    linarith
  have hA : ∀ x y, x * (1 - x) + y * (1 - y) = cfl / 2 * (1 - cfl / 2) + (1 - cfl) * (1 - (1 - cfl)) → (v * cfl / 4) ^ 2 ≤ v ^ 2 / 2 * (x * (1 - x) + y * (1 - y)) := by
    intro x y h
    rw [h]
    have h5 : cfl ^ 2 / 16 ≤ 1 / 2 * (cfl / 2 * (1 - cfl / 2) + (1 - cfl) * (1 - (1 - cfl))) := by nlinarith
    have := mul_le_mul_of_nonneg_left h5 (sq_nonneg v)
    nlinarith
  obtain ⟨r, hr, er⟩ := mixed_second v (cfl / 2) (1 - cfl) (v * cfl / 4) (by positivity) (hA _ _ rfl)
  obtain ⟨r', hr', er'⟩ := mixed_second v (1 - cfl) (cfl / 2) (v * cfl / 4) (by positivity) (hA _ _ (by ring))
  rw [← two] at er er'
  rcases lt_or_gt_of_ne hne with hc | hc
  · -- the middle cell
    refine ⟨⟨2, 0, 0⟩, by decide, bad _ ?_⟩
    have g := congrFun g3 ⟨⟨2, 0, 0⟩, by decide⟩
    simp only [data3] at g
    norm_num at g
    rw [g]
    have habs : |δ| = δ := abs_of_pos (by linarith)
    rw [habs] at hvd
    simp only [Prod.snd_add, Prod.smul_snd, Prod.snd_sub, smul_eq_mul, er, er']
    simp only [mixed]
    have k1 : 8 ≤ cfl * (r + r') * δ := by
      have : v * cfl / 4 ≤ r + r' := by linarith
      have hcd : 0 < cfl * δ := mul_pos h0 (by linarith)
      have := mul_le_mul_of_nonneg_left this hcd.le
      nlinarith
    have k2 : 8 * v ^ 2 ≤ cfl * (r + r') * δ * v ^ 2 := mul_le_mul_of_nonneg_right k1 (sq_nonneg v)
    have k3 : 0 < v ^ 2 := by positivity
    have k4 : 0 < cfl * v ^ 2 := by positivity
    have k5 : 1 ≤ v ^ 2 := by nlinarith
    have e : 1 - cfl - cfl / 2 = δ := by rw [hδ]; ring
    have e' : cfl / 2 - (1 - cfl) = -δ := by rw [hδ]; ring
    rw [e, e']
    nlinarith
  · -- the cells beside it
    refine ⟨⟨1, 0, 0⟩, by decide, bad _ ?_⟩
    have g := congrFun g3 ⟨⟨1, 0, 0⟩, by decide⟩
    simp only [data3] at g
    norm_num at g
    rw [g]
    have habs : |δ| = -δ := abs_of_neg (by linarith)
    rw [habs] at hvd
    obtain ⟨r0, -, er0⟩ := mixed_second v (cfl / 2) (cfl / 2) (v * cfl / 4) (by positivity) (by
      have h5 : cfl ^ 2 / 16 ≤ 1 / 2 * (cfl / 2 * (1 - cfl / 2) + cfl / 2 * (1 - cfl / 2)) := by nlinarith
      have := mul_le_mul_of_nonneg_left h5 (sq_nonneg v)
      nlinarith)
    rw [← two] at er0
    simp only [Prod.snd_add, Prod.smul_snd, Prod.snd_sub, smul_eq_mul, er, er0]
    simp only [mixed]
    have k1 : 4 ≤ cfl * r * -δ := by
      have hcd : 0 < cfl * -δ := mul_pos h0 (by linarith)
      have := mul_le_mul_of_nonneg_left hr hcd.le
      nlinarith
    have k2 : 4 * v ^ 2 ≤ cfl * r * -δ * v ^ 2 := mul_le_mul_of_nonneg_right k1 (sq_nonneg v)
    have k3 : cfl * v ^ 2 ≤ v ^ 2 := mul_le_of_le_one_left (sq_nonneg v) h1
    have k5 : 1 ≤ v ^ 2 := by nlinarith
    have e : 1 - cfl - cfl / 2 = δ := by rw [hδ]; ring
    rw [e]
    nlinarith

end EulerStages
end Props
end Verif
