import Verif.Props.WholeRun

/-! C80: counterexamples for the Runge-Kutta scheme of order four with the cubic equation, and for cells that are not cubes. -/

namespace Verif.Props.RunFourth
open Verif Verif.Integrator Verif.Simulator Verif.NetFlux Verif.ScalarRun Verif.Props.WholeRun

/-- Buffers for four cells and two ghost cells. -/
def exWork6 : NetFlux.State ℝ ℝ := ⟨field ⟨6, 1, 1⟩ fun _ => 0, field ⟨6, 1, 1⟩ fun _ => 0, field ⟨6, 1, 1⟩ fun _ => 0, field ⟨6, 1, 1⟩ fun _ => 0, fun _ => 0⟩
theorem exLayout6 : Layout ⟨6, 1, 1⟩ ⟨1, 0, 0⟩ ⟨1, 0, 0⟩ 1 1 := ⟨by decide, by decide, by decide, by decide⟩
theorem exSized6 : Sized ⟨6, 1, 1⟩ exWork6 := ⟨rfl, rfl, rfl, rfl⟩

/-- Values in four cells. -/
def cells (a b c d : ℝ) : I3 → ℝ := fun p => if p.x = 1 then a else if p.x = 2 then b else if p.x = 3 then c else if p.x = 4 then d else 0

theorem cell_cases (p : Step.Cells ⟨6, 1, 1⟩ ⟨1, 0, 0⟩) : p.1 = ⟨1, 0, 0⟩ ∨ p.1 = ⟨2, 0, 0⟩ ∨ p.1 = ⟨3, 0, 0⟩ ∨ p.1 = ⟨4, 0, 0⟩ := by
  obtain ⟨⟨x, y, z⟩, hp⟩ := p
  have h0 := hp 0 (by decide); have h1 := hp 1 (by decide); have h2 := hp 2 (by decide)
  simp [I3.get] at h0 h1 h2
  simp
  omega

/-- The right hand side for four cells: differences of the fluxes at the faces. -/
theorem rhs_cells (F : ℝ → ℝ → ℝ × ℝ) (a b c d : ℝ) :
    Step.rhs .periodic 1 CudaRecon.noRecon (twoPoint F) ⟨6, 1, 1⟩ ⟨1, 0, 0⟩ 1 (fun p : Step.Cells ⟨6, 1, 1⟩ ⟨1, 0, 0⟩ => cells a b c d p) =
      fun p : Step.Cells ⟨6, 1, 1⟩ ⟨1, 0, 0⟩ => cells ((F d a).1 - (F a b).1) ((F a b).1 - (F b c).1) ((F b c).1 - (F c d).1) ((F c d).1 - (F d a).1) p := by
  have key : ∀ (q p : I3), Boundary.ghostSource .periodic ((1 : Nat) : Int) (⟨6, 1, 1⟩ - ⟨1, 0, 0⟩ - ⟨1, 0, 0⟩) 1 (fun _ => false) q = p → IsInterior ⟨6, 1, 1⟩ ⟨1, 0, 0⟩ p →
      Step.extend .periodic ⟨6, 1, 1⟩ ⟨1, 0, 0⟩ 1 1 (fun p : Step.Cells ⟨6, 1, 1⟩ ⟨1, 0, 0⟩ => cells a b c d p) q = cells a b c d p := by
    rintro q p rfl hp
    rw [Step.extend, dif_pos hp]
  funext p
  obtain ⟨p, hp⟩ := p
  have k0 := key ⟨0, 0, 0⟩ ⟨4, 0, 0⟩ (by decide) (by decide)
  have k1 := key ⟨1, 0, 0⟩ ⟨1, 0, 0⟩ (by decide) (by decide)
  have k2 := key ⟨2, 0, 0⟩ ⟨2, 0, 0⟩ (by decide) (by decide)
  have k3 := key ⟨3, 0, 0⟩ ⟨3, 0, 0⟩ (by decide) (by decide)
  have k4 := key ⟨4, 0, 0⟩ ⟨4, 0, 0⟩ (by decide) (by decide)
  have k5 := key ⟨5, 0, 0⟩ ⟨1, 0, 0⟩ (by decide) (by decide)
  simp only [Step.rhs, net, List.range_succ, List.range_zero, List.nil_append, List.map_cons, List.map_nil, List.sum_cons, List.sum_nil, face_eq F _ (show 0 < 3 by decide)]
  have hc := cell_cases ⟨p, hp⟩
  simp only at hc
  rcases hc with rfl | rfl | rfl | rfl
  · simp only [show (⟨1, 0, 0⟩ - I3.dir 0 : I3) = ⟨0, 0, 0⟩ from rfl, show (⟨0, 0, 0⟩ + I3.dir 0 : I3) = ⟨1, 0, 0⟩ from rfl, show (⟨1, 0, 0⟩ + I3.dir 0 : I3) = ⟨2, 0, 0⟩ from rfl, k0, k1, k2]
    simp [cells]
  · simp only [show (⟨2, 0, 0⟩ - I3.dir 0 : I3) = ⟨1, 0, 0⟩ from rfl, show (⟨1, 0, 0⟩ + I3.dir 0 : I3) = ⟨2, 0, 0⟩ from rfl, show (⟨2, 0, 0⟩ + I3.dir 0 : I3) = ⟨3, 0, 0⟩ from rfl, k3, k1, k2]
    simp [cells]
  · simp only [show (⟨3, 0, 0⟩ - I3.dir 0 : I3) = ⟨2, 0, 0⟩ from rfl, show (⟨2, 0, 0⟩ + I3.dir 0 : I3) = ⟨3, 0, 0⟩ from rfl, show (⟨3, 0, 0⟩ + I3.dir 0 : I3) = ⟨4, 0, 0⟩ from rfl, k3, k4, k2]
    simp [cells]
  · simp only [show (⟨4, 0, 0⟩ - I3.dir 0 : I3) = ⟨3, 0, 0⟩ from rfl, show (⟨3, 0, 0⟩ + I3.dir 0 : I3) = ⟨4, 0, 0⟩ from rfl, show (⟨4, 0, 0⟩ + I3.dir 0 : I3) = ⟨5, 0, 0⟩ from rfl, k3, k4, k5]
    simp [cells]

theorem add_cells (a b c d a' b' c' d' κ : ℝ) : ((fun p : Step.Cells ⟨6, 1, 1⟩ ⟨1, 0, 0⟩ => cells a b c d p) + κ • fun p : Step.Cells ⟨6, 1, 1⟩ ⟨1, 0, 0⟩ => cells a' b' c' d' p) =
    fun p : Step.Cells ⟨6, 1, 1⟩ ⟨1, 0, 0⟩ => cells (a + κ * a') (b + κ * b') (c + κ * c') (d + κ * d') p := by
  funext p
  simp only [cells, Pi.add_apply, Pi.smul_apply, smul_eq_mul]
  split_ifs <;> simp

/-- The configuration of a one dimensional periodic run of the cubic equation with the flux `rusanov`, the Runge-Kutta scheme of order four, the CFL number one, no writers and the end time one. -/
noncomputable def exConfig4 : Config (I3 → ℝ) ℝ Unit :=
  ⟨.rungeKutta4, ⟨Step.cpuSystem 1 CudaRecon.noRecon (asFlux (Flux.two (Flux.rusanov Flux.cubic))) ⟨6, 1, 1⟩ ⟨1, 0, 0⟩ ⟨1, 0, 0⟩ exWork6, [], fun _ => 1, 1⟩,
    Step.cpuBoundary .periodic ⟨6, 1, 1⟩ 1 1, fun _ => true, [], fun _ => [], 1⟩

theorem rus (l r : ℝ) : (Flux.rusanov Flux.cubic l r).1 = (l ^ 3 + r ^ 3) / 6 - max (l ^ 2) (r ^ 2) * (r - l) / 2 := by
  simp only [Flux.rusanov, Flux.cubic, abs_mul_self]
  rw [show l * l = l ^ 2 by ring, show r * r = r ^ 2 by ring]
  ring

theorem exWaves6 : Step.waves .periodic 1 CudaRecon.noRecon (asFlux (Flux.two (Flux.rusanov Flux.cubic))) ⟨6, 1, 1⟩ ⟨1, 0, 0⟩ ⟨1, 0, 0⟩ 1 exWork6
    (fun p : Step.Cells ⟨6, 1, 1⟩ ⟨1, 0, 0⟩ => cells 1 1 (-1) 1 p) = fun k => if k < 1 then 1 else 0 := by
  have hf := fits (fun l r => (Flux.two (Flux.rusanov Flux.cubic)).fn [l, r]) (le_refl 1)
  obtain ⟨t, e1, -, -, e4, e5⟩ := Step.cpuSystem_ok exLayout6 hf (by decide) (by decide) exSized6
    (Step.extend .periodic ⟨6, 1, 1⟩ ⟨1, 0, 0⟩ 1 1 fun p : Step.Cells ⟨6, 1, 1⟩ ⟨1, 0, 0⟩ => cells 1 1 (-1) 1 p) 0
  have hval : ∀ q, inSize ⟨6, 1, 1⟩ q = true → Step.extend .periodic ⟨6, 1, 1⟩ ⟨1, 0, 0⟩ 1 1 (fun p : Step.Cells ⟨6, 1, 1⟩ ⟨1, 0, 0⟩ => cells 1 1 (-1) 1 p) q = 1 ∨
      Step.extend .periodic ⟨6, 1, 1⟩ ⟨1, 0, 0⟩ 1 1 (fun p : Step.Cells ⟨6, 1, 1⟩ ⟨1, 0, 0⟩ => cells 1 1 (-1) 1 p) q = -1 := fun q hq => by
    obtain ⟨p, hp⟩ := extend_mem (b := .periodic) exLayout6 (by decide) (w := fun p : Step.Cells ⟨6, 1, 1⟩ ⟨1, 0, 0⟩ => cells 1 1 (-1) 1 p) hq
    rw [hp]
    rcases cell_cases p with h | h | h | h <;> simp [h, cells]
  have hface : ∀ q, inSize ⟨6, 1, 1⟩ q = true → inSize ⟨6, 1, 1⟩ (q + I3.dir 0) = true →
      (face CudaRecon.noRecon (twoPoint fun l r => (Flux.two (Flux.rusanov Flux.cubic)).fn [l, r])
        (Step.extend .periodic ⟨6, 1, 1⟩ ⟨1, 0, 0⟩ 1 1 fun p : Step.Cells ⟨6, 1, 1⟩ ⟨1, 0, 0⟩ => cells 1 1 (-1) 1 p) 0 q).2 = 1 := fun q h1 h2 => by
    rw [face_eq _ _ (by decide)]
    rcases hval q h1 with h | h <;> rcases hval _ h2 with h' | h' <;> simp [h, h', Flux.two, Flux.rusanov, Flux.twoPointSpeed, Flux.cubic]
  funext k
  simp only [Step.waves, asFlux, e1]
  split_ifs with hk
  · obtain rfl : k = 0 := by omega
    refine (e4 0 hk).unique ⟨Or.inr ⟨⟨0, 0, 0⟩, by unfold IsFace; decide, (hface _ (by decide) (by decide)).symm⟩, ?_⟩
    rintro x (rfl | ⟨⟨x, y, z⟩, hq, rfl⟩)
    · exact zero_le_one
    · unfold IsFace at hq
      simp [mem_box, I3.dir] at hq
      refine (hface _ ?_ ?_).le <;> simp [inSize, I3.dir] <;> omega
  · exact e5 k (by omega)

/-- The right hand side of the cubic equation in the four stages of the step. -/
theorem exStage (a b c d x y z w : ℝ) (h1 : (Flux.rusanov Flux.cubic d a).1 - (Flux.rusanov Flux.cubic a b).1 = x) (h2 : (Flux.rusanov Flux.cubic a b).1 - (Flux.rusanov Flux.cubic b c).1 = y)
    (h3 : (Flux.rusanov Flux.cubic b c).1 - (Flux.rusanov Flux.cubic c d).1 = z) (h4 : (Flux.rusanov Flux.cubic c d).1 - (Flux.rusanov Flux.cubic d a).1 = w) :
    Step.rhs .periodic 1 CudaRecon.noRecon (twoPoint (Flux.rusanov Flux.cubic)) ⟨6, 1, 1⟩ ⟨1, 0, 0⟩ 1 (fun p : Step.Cells ⟨6, 1, 1⟩ ⟨1, 0, 0⟩ => cells a b c d p) = fun p : Step.Cells ⟨6, 1, 1⟩ ⟨1, 0, 0⟩ => cells x y z w p := by
  rw [rhs_cells, h1, h2, h3, h4]

theorem exStep : textbook .rungeKutta4 (Step.rhs .periodic 1 CudaRecon.noRecon (twoPoint (Flux.rusanov Flux.cubic)) ⟨6, 1, 1⟩ ⟨1, 0, 0⟩ 1) (1 : ℝ)
    (fun p : Step.Cells ⟨6, 1, 1⟩ ⟨1, 0, 0⟩ => cells 1 1 (-1) 1 p) ⟨⟨2, 0, 0⟩, by decide⟩ = (999174035875761079 / 948746336692142592) := by
  have k1 := exStage 1 1 (-1) 1 0 (-2 / 3) 2 (-4 / 3)
    (by norm_num [rus, max_def]) (by norm_num [rus, max_def]) (by norm_num [rus, max_def]) (by norm_num [rus, max_def])
  have k2 := exStage 1 (2 / 3) 0 (1 / 3) (-44 / 81) (5 / 27) (17 / 81) (4 / 27)
    (by norm_num [rus, max_def]) (by norm_num [rus, max_def]) (by norm_num [rus, max_def]) (by norm_num [rus, max_def])
  have k3 := exStage (59 / 81) (59 / 54) (-145 / 162) (29 / 27) (15979 / 39366) (-15558695 / 12754584) (734755 / 314928) (-38752157 / 25509168)
    (by norm_num [rus, max_def]) (by norm_num [rus, max_def]) (by norm_num [rus, max_def]) (by norm_num [rus, max_def])
  have k4 := exStage (55345 / 39366) (-2804111 / 12754584) (419827 / 314928) (-13242989 / 25509168) (-351650293706699946135421 / 99595595440594360737792) (483055832537897335 / 158124389448690432) (-149600751643718813902087 / 49797797720297180368896) (17608910355898374745 / 5059980462358093824)
    (by norm_num [rus, max_def]) (by norm_num [rus, max_def]) (by norm_num [rus, max_def]) (by norm_num [rus, max_def])
  have w2 : (fun p : Step.Cells ⟨6, 1, 1⟩ ⟨1, 0, 0⟩ => cells 1 1 (-1) 1 p) + (1 / 2 : ℝ) • (fun p : Step.Cells ⟨6, 1, 1⟩ ⟨1, 0, 0⟩ => cells 0 (-2 / 3) 2 (-4 / 3) p) =
      fun p : Step.Cells ⟨6, 1, 1⟩ ⟨1, 0, 0⟩ => cells 1 (2 / 3) 0 (1 / 3) p := by rw [add_cells]; norm_num
  have w3 : (fun p : Step.Cells ⟨6, 1, 1⟩ ⟨1, 0, 0⟩ => cells 1 1 (-1) 1 p) + (1 / 2 : ℝ) • (fun p : Step.Cells ⟨6, 1, 1⟩ ⟨1, 0, 0⟩ => cells (-44 / 81) (5 / 27) (17 / 81) (4 / 27) p) =
      fun p : Step.Cells ⟨6, 1, 1⟩ ⟨1, 0, 0⟩ => cells (59 / 81) (59 / 54) (-145 / 162) (29 / 27) p := by rw [add_cells]; norm_num
  have w4 : (fun p : Step.Cells ⟨6, 1, 1⟩ ⟨1, 0, 0⟩ => cells 1 1 (-1) 1 p) + (1 : ℝ) • (fun p : Step.Cells ⟨6, 1, 1⟩ ⟨1, 0, 0⟩ => cells (15979 / 39366) (-15558695 / 12754584) (734755 / 314928) (-38752157 / 25509168) p) =
      fun p : Step.Cells ⟨6, 1, 1⟩ ⟨1, 0, 0⟩ => cells (55345 / 39366) (-2804111 / 12754584) (419827 / 314928) (-13242989 / 25509168) p := by rw [add_cells]; norm_num
  simp only [textbook, k1, w2, k2, w3, k3, w4, k4]
  simp [cells]
  norm_num

/-- C80 is false for the Runge-Kutta scheme of order four and the cubic equation with the flux `rusanov`, which is monotone, and the CFL number one: the initial data 1, 1, -1, 1 lie between -1 and 1,
and after the first step of the run the second cell has a value above 1. -/
theorem C80_fails_for_rungekutta4 :
    Flux.select .cubic "rusanov" = some (Flux.two (Flux.rusanov Flux.cubic)) ∧ Covered .cubic "rusanov" ∧
    (∀ p, IsInterior ⟨6, 1, 1⟩ ⟨1, 0, 0⟩ p → -1 ≤ cells 1 1 (-1) 1 p ∧ cells 1 1 (-1) 1 p ≤ 1) ∧
      ∃ s' u', (start exConfig4 (cells 1 1 (-1) 1) [0, 0, 0, 0] () >>= run exConfig4 1) = .ok (some s') ∧ s'.vols[0]? = some u' ∧ 1 < u' ⟨2, 0, 0⟩ := by
  refine ⟨rfl, .cubicRusanov, fun p _ => by unfold cells; split_ifs <;> norm_num, ?_⟩
  have hf := fits (fun l r => (Flux.two (Flux.rusanov Flux.cubic)).fn [l, r]) (le_refl 1)
  obtain ⟨s', u', g1, g2, g3⟩ := WholeRun.run_one_step (c := exConfig4) (Step.sound (b := .periodic) exLayout6 hf (by decide) (by decide) exSized6) rfl (fun _ => rfl) (cells 1 1 (-1) 1)
    [0, 0, 0, 0] rfl () 1 (by
      change computeTimestep [] [] (Step.waves .periodic 1 CudaRecon.noRecon (asFlux (Flux.two (Flux.rusanov Flux.cubic))) ⟨6, 1, 1⟩ ⟨1, 0, 0⟩ ⟨1, 0, 0⟩ 1 exWork6
        (fun p : Step.Cells ⟨6, 1, 1⟩ ⟨1, 0, 0⟩ => cells 1 1 (-1) 1 p)) (fun _ => 1) 1 ⟨0, 0⟩ = _
      rw [exWaves6]
      simp [computeTimestep, adjustTimestep, waveSpeedTotal, List.range_succ]) one_ne_zero one_pos le_rfl
  refine ⟨s', u', g1, g2, ?_⟩
  have g4 := congrFun g3 ⟨⟨2, 0, 0⟩, by decide⟩
  have e : (fun w : Step.Cells ⟨6, 1, 1⟩ ⟨1, 0, 0⟩ → ℝ => (1 / exConfig4.env.len 0) •
        Step.rhs .periodic 1 CudaRecon.noRecon (twoPoint fun l r => (Flux.two (Flux.rusanov Flux.cubic)).fn [l, r]) ⟨6, 1, 1⟩ ⟨1, 0, 0⟩ 1 w) =
      Step.rhs .periodic 1 CudaRecon.noRecon (twoPoint (Flux.rusanov Flux.cubic)) ⟨6, 1, 1⟩ ⟨1, 0, 0⟩ 1 := by
    funext w
    change (1 / (1 : ℝ)) • _ = _
    rw [one_div_one, one_smul]
    rfl
  rw [e] at g4
  have g5 : u' ⟨2, 0, 0⟩ = _ := g4.trans exStep
  rw [g5]
  norm_num

/-! ### Cells that are not cubes -/

/-- Buffers for three by three cells and a layer of ghost cells. -/
def exWork9 : NetFlux.State ℝ ℝ := ⟨field ⟨5, 5, 1⟩ fun _ => 0, field ⟨5, 5, 1⟩ fun _ => 0, field ⟨5, 5, 1⟩ fun _ => 0, field ⟨5, 5, 1⟩ fun _ => 0, fun _ => 0⟩
theorem exLayout9 : Layout ⟨5, 5, 1⟩ ⟨1, 1, 0⟩ ⟨1, 1, 0⟩ 2 1 := ⟨by decide, by decide, by decide, by decide⟩
theorem exSized9 : Sized ⟨5, 5, 1⟩ exWork9 := ⟨rfl, rfl, rfl, rfl⟩

/-- The value 1 in the middle cell, 0 in the others. -/
noncomputable def exPeak : I3 → ℝ := fun p => if p = ⟨2, 2, 0⟩ then 1 else 0

/-- The configuration of a periodic run of the linear equation in two dimensions with the flux `upwind`, forward Euler, the CFL number one and cells of width 1 and height 3. -/
noncomputable def exFlatCells : Config (I3 → ℝ) ℝ Unit :=
  ⟨.forwardEuler, ⟨Step.cpuSystem 2 CudaRecon.noRecon (asFlux (Flux.two Flux.upwind)) ⟨5, 5, 1⟩ ⟨1, 1, 0⟩ ⟨1, 1, 0⟩ exWork9, [], fun d => if d = 0 then 1 else if d = 1 then 3 else 0, 1⟩,
    Step.cpuBoundary .periodic ⟨5, 5, 1⟩ 1 2, fun _ => true, [], fun _ => [], 3 / 4⟩

theorem exWaves9 (u : Step.Cells ⟨5, 5, 1⟩ ⟨1, 1, 0⟩ → ℝ) :
    Step.waves .periodic 2 CudaRecon.noRecon (twoPoint Flux.upwind) ⟨5, 5, 1⟩ ⟨1, 1, 0⟩ ⟨1, 1, 0⟩ 1 exWork9 u = fun k => if k < 2 then 1 else 0 := by
  have hf := fits Flux.upwind (le_refl 1)
  obtain ⟨t, e1, -, -, e4, e5⟩ := Step.cpuSystem_ok exLayout9 hf (by decide) (by decide) exSized9 (Step.extend .periodic ⟨5, 5, 1⟩ ⟨1, 1, 0⟩ 1 2 u) 0
  have hface : ∀ d < 2, ∀ q, (face CudaRecon.noRecon (twoPoint Flux.upwind) (Step.extend .periodic ⟨5, 5, 1⟩ ⟨1, 1, 0⟩ 1 2 u) d q).2 = 1 :=
    fun d hd q => by rw [face_eq _ _ (by omega)]; simp [Flux.upwind, Flux.twoPointSpeed, Flux.linear]
  funext k
  simp only [Step.waves, e1]
  split_ifs with hk
  · refine (e4 k hk).unique ⟨Or.inr ⟨⟨1, 1, 0⟩, by unfold IsFace; interval_cases k <;> decide, (hface k hk _).symm⟩, ?_⟩
    rintro x (rfl | ⟨q, -, rfl⟩)
    · exact zero_le_one
    · exact (hface k hk q).le
  · exact e5 k (by omega)

/-- C80 is false for cells that are not cubes, since all directions are scaled with the width of the cells (C33): the linear equation with the flux `upwind`, forward Euler and the CFL number one, with
cells of width 1 and height 3. The initial data, 1 in one cell and 0 in the others, lie between 0 and 1, and after the first step of the run that cell has a negative value. -/
theorem C80_fails_for_cells_that_are_not_cubes :
    Flux.select .linear "upwind" = some (Flux.two Flux.upwind) ∧ Covered .linear "upwind" ∧ (∀ p, IsInterior ⟨5, 5, 1⟩ ⟨1, 1, 0⟩ p → 0 ≤ exPeak p ∧ exPeak p ≤ 1) ∧
      ∃ s' u', (start exFlatCells exPeak [0] () >>= run exFlatCells 1) = .ok (some s') ∧ s'.vols[0]? = some u' ∧ u' ⟨2, 2, 0⟩ = (-1 / 2 : ℝ) := by
  refine ⟨rfl, .linearUpwind, fun p _ => by unfold exPeak; split_ifs <;> norm_num, ?_⟩
  have hf := fits Flux.upwind (le_refl 1)
  obtain ⟨s', u', g1, g2, g3⟩ := WholeRun.run_one_step (c := exFlatCells) (Step.sound (b := .periodic) exLayout9 hf (by decide) (by decide) exSized9) rfl (fun _ => rfl) exPeak
    [0] rfl () (3 / 4) (by
      change computeTimestep [] [] (Step.waves .periodic 2 CudaRecon.noRecon (twoPoint Flux.upwind) ⟨5, 5, 1⟩ ⟨1, 1, 0⟩ ⟨1, 1, 0⟩ 1 exWork9
        (fun p : Step.Cells ⟨5, 5, 1⟩ ⟨1, 1, 0⟩ => exPeak p)) (fun d => if d = 0 then 1 else if d = 1 then 3 else 0) 1 ⟨0, 0⟩ = _
      rw [exWaves9]
      simp [computeTimestep, adjustTimestep, waveSpeedTotal, List.range_succ]
      norm_num) one_ne_zero (by norm_num [exFlatCells]) le_rfl
  refine ⟨s', u', g1, g2, ?_⟩
  have g4 : u' ⟨2, 2, 0⟩ = exPeak ⟨2, 2, 0⟩ + 3 / 4 * ((1 / 1 : ℝ) * net 2 CudaRecon.noRecon (twoPoint Flux.upwind)
      (Step.extend .periodic ⟨5, 5, 1⟩ ⟨1, 1, 0⟩ 1 2 fun p : Step.Cells ⟨5, 5, 1⟩ ⟨1, 1, 0⟩ => exPeak p) ⟨2, 2, 0⟩) := congrFun g3 ⟨⟨2, 2, 0⟩, by decide⟩
  have key : ∀ q, IsInterior ⟨5, 5, 1⟩ ⟨1, 1, 0⟩ q → Step.extend .periodic ⟨5, 5, 1⟩ ⟨1, 1, 0⟩ 1 2 (fun p : Step.Cells ⟨5, 5, 1⟩ ⟨1, 1, 0⟩ => exPeak p) q = exPeak q :=
    fun q hq => Step.extend_interior exLayout9 _ hq
  rw [g4]
  simp only [net, List.range_succ, List.range_zero, List.nil_append, List.map_cons, List.map_nil, List.sum_cons, List.sum_nil, List.cons_append, face_eq Flux.upwind _ (show 0 < 3 by decide),
    face_eq Flux.upwind _ (show 1 < 3 by decide), Flux.upwind, Flux.linear, show (⟨2, 2, 0⟩ - I3.dir 0 : I3) = ⟨1, 2, 0⟩ from rfl, show (⟨2, 2, 0⟩ - I3.dir 1 : I3) = ⟨2, 1, 0⟩ from rfl,
    key ⟨2, 2, 0⟩ (by decide), key ⟨1, 2, 0⟩ (by decide), key ⟨2, 1, 0⟩ (by decide)]
  simp [exPeak]
  norm_num

end Verif.Props.RunFourth
