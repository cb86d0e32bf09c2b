import Verif.Props.WholeRun

/-! C80 and C81: counterexamples for the fluxes `godunov4`, `godunov6`, `tecno4` and `tecno6`, which take more than two cells. -/

namespace Verif.Props.RunCombined
open Verif Verif.Integrator Verif.Simulator Verif.NetFlux Verif.ScalarRun Verif.Props.WholeRun

/-- A flux of more than two cells as the solver calls it with the reconstruction `none`: all the values are those of the array on the left (numflux_util.hpp:94-142). -/
def longFlux (F : Flux.Selected) : FluxFn ℝ ℝ := ⟨F.stencil, [], fun _ l _ => F.fn l⟩

/-- Buffers for four cells and six ghost cells. -/
def exWork10 : NetFlux.State ℝ ℝ := ⟨field ⟨10, 1, 1⟩ fun _ => 0, field ⟨10, 1, 1⟩ fun _ => 0, field ⟨10, 1, 1⟩ fun _ => 0, field ⟨10, 1, 1⟩ fun _ => 0, fun _ => 0⟩
theorem exLayout10 : Layout ⟨10, 1, 1⟩ ⟨3, 0, 0⟩ ⟨1, 0, 0⟩ 1 3 := ⟨by decide, by decide, by decide, by decide⟩
theorem exSized10 : Sized ⟨10, 1, 1⟩ exWork10 := ⟨rfl, rfl, rfl, rfl⟩

/-- The value 1 in the first of the four cells, `m` in the others. -/
def exPeak (m : ℝ) : I3 → ℝ := fun p => if p.x = 3 then 1 else m

/-- A one dimensional periodic run of four cells with forward Euler, the CFL number one half, no writers and the end time one half. -/
noncomputable def exConfig10 (F : Flux.Selected) : Config (I3 → ℝ) ℝ Unit :=
  ⟨.forwardEuler, ⟨Step.cpuSystem 1 CudaRecon.noRecon (longFlux F) ⟨10, 1, 1⟩ ⟨3, 0, 0⟩ ⟨1, 0, 0⟩ exWork10, [], fun _ => 1, 1 / 2⟩, Step.cpuBoundary .periodic ⟨10, 1, 1⟩ 3 1,
    fun _ => true, [], fun _ => [], 1 / 2⟩

/-- The data with its ghost cells. -/
noncomputable def exField (m : ℝ) : I3 → ℝ := Step.extend .periodic ⟨10, 1, 1⟩ ⟨3, 0, 0⟩ 3 1 fun p : Step.Cells ⟨10, 1, 1⟩ ⟨3, 0, 0⟩ => exPeak m p

theorem exField_eq (m : ℝ) (x : Int) (hx : 0 ≤ x ∧ x ≤ 9) : exField m ⟨x, 0, 0⟩ = if x = 3 ∨ x = 7 then 1 else m := by
  obtain ⟨h0, h9⟩ := hx
  have key : ∀ (q p : I3), Boundary.ghostSource .periodic ((3 : Nat) : Int) (⟨10, 1, 1⟩ - ⟨3, 0, 0⟩ - ⟨3, 0, 0⟩) 1 (fun _ => false) q = p → IsInterior ⟨10, 1, 1⟩ ⟨3, 0, 0⟩ p →
      exField m q = exPeak m p := by
    rintro q p rfl hp
    rw [exField, Step.extend, dif_pos hp]
  interval_cases x
  · rw [key _ ⟨4, 0, 0⟩ (by decide) (by decide)]; simp [exPeak]
  · rw [key _ ⟨5, 0, 0⟩ (by decide) (by decide)]; simp [exPeak]
  · rw [key _ ⟨6, 0, 0⟩ (by decide) (by decide)]; simp [exPeak]
  · rw [key _ ⟨3, 0, 0⟩ (by decide) (by decide)]; simp [exPeak]
  · rw [key _ ⟨4, 0, 0⟩ (by decide) (by decide)]; simp [exPeak]
  · rw [key _ ⟨5, 0, 0⟩ (by decide) (by decide)]; simp [exPeak]
  · rw [key _ ⟨6, 0, 0⟩ (by decide) (by decide)]; simp [exPeak]
  · rw [key _ ⟨3, 0, 0⟩ (by decide) (by decide)]; simp [exPeak]
  · rw [key _ ⟨4, 0, 0⟩ (by decide) (by decide)]; simp [exPeak]
  · rw [key _ ⟨5, 0, 0⟩ (by decide) (by decide)]; simp [exPeak]

/-- The flux of a face of the data. -/
noncomputable def atFace (F : Flux.Selected) (m : ℝ) (x : Int) : ℝ × ℝ := F.fn (F.stencil.map fun o => if x + o = 3 ∨ x + o = 7 then 1 else m)

theorem exFace (F : Flux.Selected) (m : ℝ) (hst : ∀ o ∈ F.stencil, -2 ≤ o ∧ o ≤ 3) (x : Int) (hx : 2 ≤ x ∧ x ≤ 6) : face CudaRecon.noRecon (longFlux F) (exField m) 0 ⟨x, 0, 0⟩ = atFace F m x := by
  simp only [face, longFlux, atFace, CudaRecon.noRecon, Recon.lval, List.map_cons, List.map_nil, List.headD_cons]
  congr 1
  refine List.map_congr_left fun o ho => ?_
  have := hst o ho
  rw [← exField_eq m (x + o) (by omega)]
  congr 1
  ext <;> simp [step]

theorem exFits (F : Flux.Selected) (hst : ∀ o ∈ F.stencil, -2 ≤ o ∧ o ≤ 3) : Fits CudaRecon.noRecon (longFlux F) 3 where
  k_pos := le_refl 1
  k_le := by decide
  offs_abs := by simp [CudaRecon.noRecon]
  whole_zero := by simp [CudaRecon.noRecon]
  fl_offs := by
    intro o ho
    simp only [longFlux, List.append_nil] at ho
    have := hst o ho
    omega
  fl_near := by simp [CudaRecon.noRecon]

/-- The values of the first, third and fourth cells after one step. -/
theorem exRun10 (F : Flux.Selected) (m : ℝ) (hst : ∀ o ∈ F.stencil, -2 ≤ o ∧ o ≤ 3) (hs : ∀ x, 2 ≤ x ∧ x ≤ 6 → (atFace F m x).2 ≤ 1) (h3 : (atFace F m 3).2 = 1) :
    ∃ s' u', (start (exConfig10 F) (exPeak m) [0] () >>= run (exConfig10 F) 1) = .ok (some s') ∧ s'.vols[0]? = some u' ∧
      u' ⟨5, 0, 0⟩ = m + 1 / 2 * ((atFace F m 4).1 - (atFace F m 5).1) ∧ u' ⟨3, 0, 0⟩ = 1 + 1 / 2 * ((atFace F m 2).1 - (atFace F m 3).1) ∧ u' ⟨6, 0, 0⟩ = m + 1 / 2 * ((atFace F m 5).1 - (atFace F m 6).1) := by
  have hf := exFits F hst
  have hws : Step.waves .periodic 1 CudaRecon.noRecon (longFlux F) ⟨10, 1, 1⟩ ⟨3, 0, 0⟩ ⟨1, 0, 0⟩ 3 exWork10 (fun p : Step.Cells ⟨10, 1, 1⟩ ⟨3, 0, 0⟩ => exPeak m p) =
      fun k => if k < 1 then 1 else 0 := by
    obtain ⟨t, e1, -, -, e4, e5⟩ := Step.cpuSystem_ok exLayout10 hf (by decide) (by decide) exSized10 (exField m) 0
    funext k
    simp only [Step.waves]
    rw [show Step.extend .periodic ⟨10, 1, 1⟩ ⟨3, 0, 0⟩ 3 1 (fun p : Step.Cells ⟨10, 1, 1⟩ ⟨3, 0, 0⟩ => exPeak m p) = exField m from rfl, e1]
    simp only
    split_ifs with hk
    · obtain rfl : k = 0 := by omega
      refine (e4 0 hk).unique ⟨Or.inr ⟨⟨3, 0, 0⟩, by unfold IsFace; decide, ?_⟩, ?_⟩
      · rw [exFace F m hst 3 (by decide)]; exact h3.symm
      · rintro x (rfl | ⟨⟨x, y, z⟩, hq, rfl⟩)
        · exact zero_le_one
        · unfold IsFace at hq
          simp [mem_box, I3.dir] at hq
          obtain rfl : y = 0 := by omega
          obtain rfl : z = 0 := by omega
          have hx : 2 ≤ x ∧ x ≤ 6 := by omega
          rw [exFace F m hst x hx]
          exact hs x hx
    · exact e5 k (by omega)
  obtain ⟨s', u', g1, g2, g3⟩ := WholeRun.run_one_step (c := exConfig10 F) (Step.sound (b := .periodic) exLayout10 hf (by decide) (by decide) exSized10) rfl (fun _ => rfl) (exPeak m) [0] rfl () (1 / 2) (by
    change computeTimestep [] [] (Step.waves .periodic 1 CudaRecon.noRecon (longFlux F) ⟨10, 1, 1⟩ ⟨3, 0, 0⟩ ⟨1, 0, 0⟩ 3 exWork10
      (fun p : Step.Cells ⟨10, 1, 1⟩ ⟨3, 0, 0⟩ => exPeak m p)) (fun _ => 1) (1 / 2) ⟨0, 0⟩ = _
    rw [hws]
    simp [computeTimestep, adjustTimestep, waveSpeedTotal, List.range_succ]) one_ne_zero (by norm_num [exConfig10]) le_rfl
  have hx (p : Step.Cells ⟨10, 1, 1⟩ ⟨3, 0, 0⟩) : u' p = exPeak m p + (1 / 2) * ((1 / 1 : ℝ) * net 1 CudaRecon.noRecon (longFlux F) (exField m) p) := congrFun g3 p
  refine ⟨s', u', g1, g2, ?_, ?_, ?_⟩
  · rw [hx ⟨⟨5, 0, 0⟩, by decide⟩]
    simp only [net, List.range_succ, List.range_zero, List.nil_append, List.map_cons, List.map_nil, List.sum_cons, List.sum_nil,
      show (⟨5, 0, 0⟩ - I3.dir 0 : I3) = ⟨4, 0, 0⟩ from rfl, exFace F m hst 4 (by decide), exFace F m hst 5 (by decide)]
    simp [exPeak]
  · rw [hx ⟨⟨3, 0, 0⟩, by decide⟩]
    simp only [net, List.range_succ, List.range_zero, List.nil_append, List.map_cons, List.map_nil, List.sum_cons, List.sum_nil,
      show (⟨3, 0, 0⟩ - I3.dir 0 : I3) = ⟨2, 0, 0⟩ from rfl, exFace F m hst 2 (by decide), exFace F m hst 3 (by decide)]
    simp [exPeak]
  · rw [hx ⟨⟨6, 0, 0⟩, by decide⟩]
    simp only [net, List.range_succ, List.range_zero, List.nil_append, List.map_cons, List.map_nil, List.sum_cons, List.sum_nil,
      show (⟨6, 0, 0⟩ - I3.dir 0 : I3) = ⟨5, 0, 0⟩ from rfl, exFace F m hst 5 (by decide), exFace F m hst 6 (by decide)]
    simp [exPeak]

theorem speed_six {a b c d e f : ℝ} (ha : 0 ≤ a ∧ a ≤ 1) (hb : 0 ≤ b ∧ b ≤ 1) (hc : 0 ≤ c ∧ c ≤ 1) (hd : 0 ≤ d ∧ d ≤ 1) (he : 0 ≤ e ∧ e ≤ 1) (hf : 0 ≤ f ∧ f ≤ 1) :
    (Flux.combined6 (Flux.godunov Flux.burgers) a b c d e f).2 ≤ 1 := by
  have key : ∀ l r : ℝ, 0 ≤ l ∧ l ≤ 1 → 0 ≤ r ∧ r ≤ 1 → (Flux.godunov Flux.burgers l r).2 ≤ 1 := fun l r hl hr => by
    simp only [Flux.godunov, Flux.twoPointSpeed, Flux.burgers]
    exact max_le (abs_le.2 ⟨by linarith, hl.2⟩) (abs_le.2 ⟨by linarith, hr.2⟩)
  exact max_le (max_le (max_le (max_le (max_le (max_le zero_le_one (key _ _ hc hd)) (key _ _ hb hd)) (key _ _ hc he)) (key _ _ ha hd)) (key _ _ hb he)) (key _ _ hc hf)

theorem six_face (f : ℝ → ℝ → ℝ → ℝ → ℝ → ℝ → ℝ × ℝ) (m : ℝ) (x : Int) : atFace (Flux.six f) m x = f (if x + -2 = 3 ∨ x + -2 = 7 then 1 else m) (if x + -1 = 3 ∨ x + -1 = 7 then 1 else m)
    (if x + 0 = 3 ∨ x + 0 = 7 then 1 else m) (if x + 1 = 3 ∨ x + 1 = 7 then 1 else m) (if x + 2 = 3 ∨ x + 2 = 7 then 1 else m) (if x + 0 = 3 ∨ x + 0 = 7 then 1 else m) := rfl

/-- C80 is false for the fluxes `godunov4` and `godunov6` of the Burgers equation, with forward Euler and the CFL number one half: the initial data 1, 0, 0, 0 lie between 0 and 1, and after the first
step of the run the third cell has a negative value. -/
theorem C80_fails_for_godunov4 (name : String) (hname : name = "godunov4" ∨ name = "godunov6") :
    ∃ F, Flux.select .burgers name = some F ∧ (∀ p, IsInterior ⟨10, 1, 1⟩ ⟨3, 0, 0⟩ p → 0 ≤ exPeak 0 p ∧ exPeak 0 p ≤ 1) ∧
      ∃ s' u', (start (exConfig10 F) (exPeak 0) [0] () >>= run (exConfig10 F) 1) = .ok (some s') ∧ s'.vols[0]? = some u' ∧ u' ⟨5, 0, 0⟩ < 0 := by
  have hb : ∀ p, IsInterior ⟨10, 1, 1⟩ ⟨3, 0, 0⟩ p → 0 ≤ exPeak 0 p ∧ exPeak 0 p ≤ 1 := fun p _ => by unfold exPeak; split_ifs <;> norm_num
  rcases hname with rfl | rfl
  · obtain ⟨s', u', h1, h2, h3, -⟩ := exRun10 (Flux.four (Flux.combined4 (Flux.godunov Flux.burgers))) 0 (by decide)
      (fun x hx => by
        obtain ⟨a, c⟩ := hx
        interval_cases x <;> simp [atFace, Flux.four, Flux.stencil4, Flux.combined4, Flux.godunov, Flux.burgers, Flux.twoPointSpeed])
      (by simp [atFace, Flux.four, Flux.stencil4, Flux.combined4, Flux.godunov, Flux.burgers, Flux.twoPointSpeed])
    refine ⟨_, rfl, hb, s', u', h1, h2, ?_⟩
    rw [h3]
    simp [atFace, Flux.four, Flux.stencil4, Flux.combined4, Flux.godunov, Flux.burgers]
  · obtain ⟨s', u', h1, h2, h3, -⟩ := exRun10 (Flux.six (Flux.combined6 (Flux.godunov Flux.burgers))) 0 (by decide)
      (fun x _ => by
        have h : ∀ y : Int, 0 ≤ (if y = 3 ∨ y = 7 then (1 : ℝ) else 0) ∧ (if y = 3 ∨ y = 7 then (1 : ℝ) else 0) ≤ 1 := fun y => by split_ifs <;> norm_num
        exact speed_six (h _) (h _) (h _) (h _) (h _) (h _))
      (by rw [six_face]; norm_num [Flux.combined6, Flux.godunov, Flux.twoPointSpeed, Flux.burgers])
    refine ⟨_, rfl, hb, s', u', h1, h2, ?_⟩
    rw [h3, six_face, six_face]
    norm_num [Flux.combined6, Flux.godunov, Flux.burgers]

theorem tecno_values : (Flux.entropyConservative Flux.burgers 1 (1 / 10)).1 = (Flux.entropyConservative Flux.burgers (1 / 10) 1).1 ∧
    1 / 50 < (Flux.entropyConservative Flux.burgers (1 / 10) 1).1 ∧ (Flux.entropyConservative Flux.burgers (1 / 10) (1 / 10)).1 = 1 / 200 ∧
    (Flux.entropyConservative Flux.burgers 1 1).1 = 1 / 2 := by
  have hl : Real.log (19 / 10) ≤ 4 / 5 := by
    have h : Real.log (19 / 10) ≤ Real.log ((7 / 5) ^ 2) := Real.log_le_log (by norm_num) (by norm_num)
    rw [Real.log_pow] at h
    have := Real.log_le_sub_one_of_pos (show (0 : ℝ) < 7 / 5 by norm_num)
    push_cast at h
    linarith
  refine ⟨?_, ?_, ?_, ?_⟩
  · simp only [Flux.entropyConservative]
    rw [if_neg (by norm_num), if_neg (by norm_num), ← neg_sub, ← neg_sub (Flux.entropyVariable 1), neg_div_neg_eq]
  · simp only [Flux.entropyConservative]
    rw [if_neg (by norm_num), lt_div_iff₀ (by norm_num [Flux.entropyVariable])]
    simp only [Flux.entropyPotential, Flux.entropyVariable]
    norm_num
    linarith
  · rw [Flux.entropyConservative_consistent]; norm_num [Flux.burgers]
  · rw [Flux.entropyConservative_consistent]; norm_num [Flux.burgers]

theorem tecno_speed (l r : ℝ) (hl : l = 1 ∨ l = 1 / 10) (hr : r = 1 ∨ r = 1 / 10) : (Flux.entropyConservative Flux.burgers l r).2 ≤ 1 ∧
    (l = 1 → (Flux.entropyConservative Flux.burgers l r).2 = 1) := by
  simp only [Flux.entropyConservative, Flux.twoPointSpeed, Flux.burgers]
  rcases hl with rfl | rfl <;> rcases hr with rfl | rfl <;> norm_num [abs_of_pos]

/-- One step with the fluxes `tecno4` and `tecno6`: the first and the fourth cell. -/
theorem exTecno4 (name : String) (hname : name = "tecno4" ∨ name = "tecno6") : ∃ F, Flux.select .burgers name = some F ∧
    ∃ s' u', (start (exConfig10 F) (exPeak (1 / 10)) [0] () >>= run (exConfig10 F) 1) = .ok (some s') ∧ s'.vols[0]? = some u' ∧ 9 / 10 < u' ⟨3, 0, 0⟩ - u' ⟨6, 0, 0⟩ ∧ u' ⟨6, 0, 0⟩ < 1 / 10 := by
  have hv : ∀ y : Int, (if y = 3 ∨ y = 7 then (1 : ℝ) else 1 / 10) = 1 ∨ (if y = 3 ∨ y = 7 then (1 : ℝ) else 1 / 10) = 1 / 10 := fun y => by split_ifs <;> simp
  obtain ⟨t1, t2, t3, t4⟩ := tecno_values
  have four_face : ∀ x, atFace (Flux.four (Flux.combined4 (Flux.entropyConservative Flux.burgers))) (1 / 10) x = Flux.combined4 (Flux.entropyConservative Flux.burgers)
      (if x + -1 = 3 ∨ x + -1 = 7 then 1 else 1 / 10) (if x + 0 = 3 ∨ x + 0 = 7 then 1 else 1 / 10) (if x + 1 = 3 ∨ x + 1 = 7 then 1 else 1 / 10)
      (if x + 2 = 3 ∨ x + 2 = 7 then 1 else 1 / 10) := fun _ => rfl
  rcases hname with rfl | rfl
  · have hs : ∀ x, (atFace (Flux.four (Flux.combined4 (Flux.entropyConservative Flux.burgers))) (1 / 10) x).2 ≤ 1 := fun x => by
      rw [four_face]
      exact max_le (max_le (max_le zero_le_one (tecno_speed _ _ (hv _) (hv _)).1) (tecno_speed _ _ (hv _) (hv _)).1) (tecno_speed _ _ (hv _) (hv _)).1
    obtain ⟨s', u', h1, h2, -, h0, h3⟩ := exRun10 (Flux.four (Flux.combined4 (Flux.entropyConservative Flux.burgers))) (1 / 10) (by decide) (fun x _ => hs x)
      (le_antisymm (hs 3) (by
        rw [four_face]
        refine le_max_of_le_left (le_max_of_le_left (le_max_of_le_right ((tecno_speed _ _ (hv _) (hv _)).2 (by norm_num)).ge))))
    refine ⟨_, rfl, s', u', h1, h2, ?_, ?_⟩
    · rw [h0, h3, four_face, four_face, four_face, four_face]
      norm_num [Flux.combined4] at t1 t2 t3 ⊢
      rw [t1, t3]
      linarith
    · rw [h3, four_face, four_face]
      norm_num [Flux.combined4] at t1 t2 t3 ⊢
      rw [t3]
      linarith
  · have hs : ∀ x, (atFace (Flux.six (Flux.combined6 (Flux.entropyConservative Flux.burgers))) (1 / 10) x).2 ≤ 1 := fun x => by
      rw [six_face]
      exact max_le (max_le (max_le (max_le (max_le (max_le zero_le_one (tecno_speed _ _ (hv _) (hv _)).1) (tecno_speed _ _ (hv _) (hv _)).1) (tecno_speed _ _ (hv _) (hv _)).1)
        (tecno_speed _ _ (hv _) (hv _)).1) (tecno_speed _ _ (hv _) (hv _)).1) (tecno_speed _ _ (hv _) (hv _)).1
    obtain ⟨s', u', h1, h2, -, h0, h3⟩ := exRun10 (Flux.six (Flux.combined6 (Flux.entropyConservative Flux.burgers))) (1 / 10) (by decide) (fun x _ => hs x)
      (le_antisymm (hs 3) (by
        rw [six_face]
        refine le_max_of_le_left (le_max_of_le_left (le_max_of_le_left (le_max_of_le_left (le_max_of_le_left (le_max_of_le_right ((tecno_speed _ _ (hv _) (hv _)).2 (by norm_num)).ge)))))))
    refine ⟨_, rfl, s', u', h1, h2, ?_, ?_⟩
    · rw [h0, h3, six_face, six_face, six_face, six_face]
      norm_num [Flux.combined6] at t1 t2 t3 t4 ⊢
      rw [t3, t4]
      linarith
    · rw [h3, six_face, six_face]
      norm_num [Flux.combined6] at t1 t2 t3 ⊢
      rw [t3]
      linarith

/-- C80 is false for the fluxes `tecno4` and `tecno6` of the Burgers equation, with forward Euler and the CFL number one half, for values between 0 and 2 where its entropy is defined: the initial data
1, 1/10, 1/10, 1/10 lie between 1/10 and 1, and after the first step of the run the fourth cell has a value below 1/10. -/
theorem C80_fails_for_tecno4 (name : String) (hname : name = "tecno4" ∨ name = "tecno6") :
    ∃ F, Flux.select .burgers name = some F ∧ (∀ p, IsInterior ⟨10, 1, 1⟩ ⟨3, 0, 0⟩ p → 1 / 10 ≤ exPeak (1 / 10) p ∧ exPeak (1 / 10) p ≤ 1) ∧
      ∃ s' u', (start (exConfig10 F) (exPeak (1 / 10)) [0] () >>= run (exConfig10 F) 1) = .ok (some s') ∧ s'.vols[0]? = some u' ∧ u' ⟨6, 0, 0⟩ < 1 / 10 := by
  obtain ⟨F, hF, s', u', h1, h2, -, h3⟩ := exTecno4 name hname
  exact ⟨F, hF, fun p _ => by unfold exPeak; split_ifs <;> norm_num, s', u', h1, h2, h3⟩

/-- C81 is false for the fluxes `tecno4` and `tecno6` of the Burgers equation: the jumps of the initial data 1, 1/10, 1/10, 1/10 sum up to 9/5, those after the first step to more. -/
theorem C81_fails_for_tecno4 (name : String) (hname : name = "tecno4" ∨ name = "tecno6") :
    ∃ F, Flux.select .burgers name = some F ∧ jumps .periodic 4 3 (exPeak (1 / 10)) = 9 / 5 ∧
      ∃ s' u', (start (exConfig10 F) (exPeak (1 / 10)) [0] () >>= run (exConfig10 F) 1) = .ok (some s') ∧ s'.vols[0]? = some u' ∧ 9 / 5 < jumps .periodic 4 3 u' := by
  obtain ⟨F, hF, s', u', h1, h2, h3, h4⟩ := exTecno4 name hname
  refine ⟨F, hF, ?_, s', u', h1, h2, ?_⟩
  · simp [jumps, Finset.sum_range_succ, exPeak]
    norm_num [abs_of_nonneg, abs_of_nonpos]
  · simp only [jumps, Finset.sum_range_succ, Finset.sum_range_zero]
    norm_num
    have a1 := neg_abs_le (u' ⟨4, 0, 0⟩ - u' ⟨3, 0, 0⟩)
    have a2 := neg_abs_le (u' ⟨5, 0, 0⟩ - u' ⟨4, 0, 0⟩)
    have a3 := neg_abs_le (u' ⟨6, 0, 0⟩ - u' ⟨5, 0, 0⟩)
    have a4 := le_abs_self (u' ⟨3, 0, 0⟩ - u' ⟨6, 0, 0⟩)
    linarith

end Verif.Props.RunCombined
