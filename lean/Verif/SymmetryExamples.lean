import Verif.SymmetrySchemes

/-!
Runs of one step, for counterexamples to the symmetries (Props C98 and C99).
-/

namespace Verif
namespace Symmetry
open Integrator Simulator NetFlux

section
variable {V : Type} [AddCommGroup V] [Module ℝ V]

/-- A run with forward Euler, without writers, with cells of length 1. -/
noncomputable def plain (dims g : Nat) (r : Recon V) (fl : FluxFn V ℝ) (n G active : I3) (work : NetFlux.State V ℝ) (cfl endTime : ℝ) : Config (I3 → V) ℝ Unit :=
  ⟨.forwardEuler, ⟨Step.cpuSystem dims r fl n G active work, [], fun _ => 1, cfl⟩, Step.cpuBoundary .periodic n g dims, fun _ => true, [], fun _ => [], endTime⟩

theorem plain_step {dims g : Nat} {r : Recon V} {fl : FluxFn V ℝ} {n G active : I3} {work : NetFlux.State V ℝ} (hL : Layout n G active dims g) (hf : Fits r fl g)
    (hN : ∀ d < dims, 3 * G.get d ≤ n.get d) (hpos : 0 < dims) (hw : Sized n work) (u : I3 → V) :
    ∃ S : Nat → ℝ, (∀ d < dims, IsGreatest (speeds r fl (Step.extend .periodic n G g dims fun p : Step.Cells n G => u p) n G 0 0 d) (S d)) ∧ (∀ d, dims ≤ d → S d = 0) ∧
      ∀ cfl endTime : ℝ, S 0 + S 1 + S 2 ≠ 0 → 0 < endTime → endTime ≤ cfl / (S 0 + S 1 + S 2) →
        ∃ s' u', (start (plain dims g r fl n G active work cfl endTime) u [0] () >>= run (plain dims g r fl n G active work cfl endTime) 1) = .ok (some s') ∧ s'.vols[0]? = some u' ∧
          ∀ p, IsInterior n G p → u' p = u p + (cfl / (S 0 + S 1 + S 2)) • net dims r fl (Step.extend .periodic n G g dims fun p : Step.Cells n G => u p) p := by
  obtain ⟨t, e1, -, -, e4, e5⟩ := Step.cpuSystem_ok hL hf hN hpos hw (Step.extend .periodic n G g dims fun p : Step.Cells n G => u p) 0
  refine ⟨t.2.2, e4, e5, fun cfl endTime hS he0 he1 => ?_⟩
  have hws : Step.waves .periodic dims r fl n G active g work (fun p : Step.Cells n G => u p) = t.2.2 := by
    funext k
    simp only [Step.waves, e1]
  obtain ⟨s', u', g1, g2, g3⟩ := WholeRun.run_one_step (c := plain dims g r fl n G active work cfl endTime) (Step.sound (b := .periodic) hL hf hN hpos hw) rfl (fun _ => rfl) u [0] rfl ()
    (cfl / (t.2.2 0 + t.2.2 1 + t.2.2 2)) (by
      change computeTimestep [] [] (Step.waves .periodic dims r fl n G active g work (fun p : Step.Cells n G => u p)) (fun _ => 1) cfl ⟨0, 0⟩ = _
      rw [hws]
      simp [computeTimestep, adjustTimestep, waveSpeedTotal, List.range_succ, hS]) one_ne_zero he0 he1
  refine ⟨s', u', g1, g2, fun p hp => ?_⟩
  have hx : u' p = u p + (cfl / (t.2.2 0 + t.2.2 1 + t.2.2 2)) • ((1 / 1 : ℝ) • net dims r fl (Step.extend .periodic n G g dims fun p : Step.Cells n G => u p) p) := congrFun g3 ⟨p, hp⟩
  rw [hx, one_div_one, one_smul]

end

/-! ### ENO -/

section
open Eno Weno

/-- Volumes for a run with two ghost cells and three cells. -/
def workEno : NetFlux.State ℝ ℝ := ⟨field ⟨7, 1, 1⟩ fun _ => 0, field ⟨7, 1, 1⟩ fun _ => 0, field ⟨7, 1, 1⟩ fun _ => 0, field ⟨7, 1, 1⟩ fun _ => 0, fun _ => 0⟩
theorem layoutEno : Layout ⟨7, 1, 1⟩ ⟨2, 0, 0⟩ ⟨1, 0, 0⟩ 1 2 := ⟨by decide, by decide, by decide, by decide⟩
theorem sizedEno : Sized ⟨7, 1, 1⟩ workEno := ⟨rfl, rfl, rfl, rfl⟩

/-- A value in the middle of three cells. -/
def peak (a : ℝ) : I3 → ℝ := fun p => if p.x = 3 then a else 0

theorem peak_extend (a : ℝ) (x : Int) (hx : 0 ≤ x ∧ x ≤ 6) :
    Step.extend .periodic ⟨7, 1, 1⟩ ⟨2, 0, 0⟩ 2 1 (fun p : Step.Cells ⟨7, 1, 1⟩ ⟨2, 0, 0⟩ => peak a p) ⟨x, 0, 0⟩ = if x = 0 ∨ x = 3 ∨ x = 6 then a else 0 := by
  have key : ∀ (q p : I3), Boundary.ghostSource .periodic ((2 : Nat) : Int) (⟨7, 1, 1⟩ - ⟨2, 0, 0⟩ - ⟨2, 0, 0⟩) 1 (fun _ => false) q = p → IsInterior ⟨7, 1, 1⟩ ⟨2, 0, 0⟩ p →
      Step.extend .periodic ⟨7, 1, 1⟩ ⟨2, 0, 0⟩ 2 1 (fun p : Step.Cells ⟨7, 1, 1⟩ ⟨2, 0, 0⟩ => peak a p) q = peak a p := by
    rintro q p rfl hp
    rw [Step.extend, dif_pos hp]
  obtain ⟨h0, h6⟩ := hx
  interval_cases x
  · rw [key _ ⟨3, 0, 0⟩ (by decide) (by decide)]; simp [peak]
  · rw [key _ ⟨4, 0, 0⟩ (by decide) (by decide)]; simp [peak]
  · rw [key _ ⟨2, 0, 0⟩ (by decide) (by decide)]; simp [peak]
  · rw [key _ ⟨3, 0, 0⟩ (by decide) (by decide)]; simp [peak]
  · rw [key _ ⟨4, 0, 0⟩ (by decide) (by decide)]; simp [peak]
  · rw [key _ ⟨2, 0, 0⟩ (by decide) (by decide)]; simp [peak]
  · rw [key _ ⟨3, 0, 0⟩ (by decide) (by decide)]; simp [peak]

/-- ENO of second order for one variable. -/
noncomputable def eno2 : Recon ℝ := via scalarVec (enoRecon 2 0)

theorem eno2_vals (d : Nat) (a b c : ℝ) : eno2.lf d [a, b, c] = (if |b - a| < |c - b| then 1 / 2 * a + 1 / 2 * b else 3 / 2 * b - 1 / 2 * c) ∧
    eno2.rf d [a, b, c] = (if |b - a| < |c - b| then -1 / 2 * a + 3 / 2 * b else 1 / 2 * b + 1 / 2 * c) := by
  have e0 : ∀ (x : ℝ) (i : Fin 1), (scalarVec x : Fin 1 → ℝ) i = x := fun _ _ => rfl
  have es : ∀ v : Vec 1, scalarVec.symm v = v 0 := fun _ => rfl
  constructor <;>
  · simp [eno2, via, enoRecon, lineRecon, shiftOf, fdiff, List.range_succ, ofList, es, e0, value, combo]
    split_ifs <;> simp [table, e0] <;> ring

theorem eno2_fits (F : ℝ → ℝ → ℝ × ℝ) : Fits eno2 (ScalarRun.twoPoint F) 2 where
  k_pos := by decide
  k_le := by decide
  offs_abs := by simp [eno2, via, enoRecon, lineRecon]
  whole_zero := by simp [eno2, via, enoRecon, lineRecon]
  fl_offs := by simp [ScalarRun.twoPoint]
  fl_near := by simp [ScalarRun.twoPoint, eno2, via, enoRecon, lineRecon]

/-- The faces of the example. -/
theorem peak_face (F : ℝ → ℝ → ℝ × ℝ) (a : ℝ) (ha : a ≠ 0) (x : Int) (hx : 1 ≤ x ∧ x ≤ 4) :
    face eno2 (ScalarRun.twoPoint F) (Step.extend .periodic ⟨7, 1, 1⟩ ⟨2, 0, 0⟩ 2 1 (fun p : Step.Cells ⟨7, 1, 1⟩ ⟨2, 0, 0⟩ => peak a p)) 0 ⟨x, 0, 0⟩ =
      if x = 2 then F 0 (3 / 2 * a) else if x = 3 then F (1 / 2 * a) 0 else F 0 0 := by
  have hoffs : eno2.offs = [-1, 0, 1] := by decide
  rw [face_line]
  obtain ⟨h1, h4⟩ := hx
  have hs : ∀ o : Int, (⟨x, 0, 0⟩ + NetFlux.step 0 o : I3) = ⟨x + o, 0, 0⟩ := fun o => by ext <;> simp [NetFlux.step]
  interval_cases x <;>
    simp [line, ScalarRun.twoPoint, hoffs, hs, eno2_vals, peak_extend, ha, not_lt.2 (abs_nonneg a)]

/-- One step of the example with Godunov's flux for Burgers' equation. -/
theorem peak_step (a : ℝ) (ha : a = 1 ∨ a = -1) : ∃ s' u',
    (start (plain 1 2 eno2 (ScalarRun.twoPoint (Flux.godunov Flux.burgers)) ⟨7, 1, 1⟩ ⟨2, 0, 0⟩ ⟨1, 0, 0⟩ workEno (3 / 8) (1 / 4)) (peak a) [0] () >>=
      run (plain 1 2 eno2 (ScalarRun.twoPoint (Flux.godunov Flux.burgers)) ⟨7, 1, 1⟩ ⟨2, 0, 0⟩ ⟨1, 0, 0⟩ workEno (3 / 8) (1 / 4)) 1) = .ok (some s') ∧ s'.vols[0]? = some u' ∧
    u' ⟨3, 0, 0⟩ = (if a = 1 then 31 / 32 else -23 / 32 : ℝ) := by
  have ha0 : a ≠ 0 := by rcases ha with rfl | rfl <;> norm_num
  obtain ⟨S, h1, h2, h3⟩ := plain_step layoutEno (eno2_fits (Flux.godunov Flux.burgers)) (by decide) (by decide) sizedEno (peak a)
  have sp : ∀ l r : ℝ, (Flux.godunov Flux.burgers l r).2 = max |l| |r| := fun l r => rfl
  have hS : S 0 = 3 / 2 := by
    refine (h1 0 (by decide)).unique ⟨Or.inr ⟨⟨2, 0, 0⟩, by unfold IsFace; decide, ?_⟩, ?_⟩
    · rw [peak_face _ a ha0 2 (by decide)]
      simp only [if_true, sp]
      rcases ha with rfl | rfl <;> norm_num
    · rintro x (rfl | ⟨⟨x, y, z⟩, hq, rfl⟩)
      · norm_num
      · unfold IsFace at hq
        simp [mem_box, I3.dir] at hq
        obtain rfl : y = 0 := by omega
        obtain rfl : z = 0 := by omega
        have hx : 1 ≤ x ∧ x ≤ 4 := by omega
        rw [peak_face _ a ha0 x hx]
        rcases ha with rfl | rfl <;> split_ifs <;> simp only [sp] <;> norm_num
  have e : S 0 + S 1 + S 2 = 3 / 2 := by rw [hS, h2 1 (by decide), h2 2 (by decide)]; norm_num
  rw [e] at h3
  obtain ⟨s', u', g1, g2, g3⟩ := h3 (3 / 8) (1 / 4) (by norm_num) (by norm_num) (by norm_num)
  refine ⟨s', u', g1, g2, ?_⟩
  rw [g3 ⟨3, 0, 0⟩ (by decide)]
  simp only [net, List.range_succ, List.range_zero, List.nil_append, List.map_cons, List.map_nil, List.sum_cons, List.sum_nil,
    show (⟨3, 0, 0⟩ - I3.dir 0 : I3) = ⟨2, 0, 0⟩ from rfl, peak_face _ a ha0 2 (by decide), peak_face _ a ha0 3 (by decide)]
  rcases ha with rfl | rfl <;> norm_num [Flux.godunov, Flux.burgers, peak]

end

/-! ### `tecno1` in three dimensions -/

section
open Euler EulerFlux

/-- Volumes for the examples. -/
def workOf (V : Type) [AddCommGroup V] (n : I3) : NetFlux.State V ℝ := ⟨field n fun _ => 0, field n fun _ => 0, field n fun _ => 0, field n fun _ => 0, fun _ => 0⟩
theorem workOf_sized (V : Type) [AddCommGroup V] (n : I3) : Sized n (workOf V n) := ⟨rfl, rfl, rfl, rfl⟩
theorem layoutX : Layout ⟨5, 3, 3⟩ ⟨1, 1, 1⟩ ⟨1, 1, 1⟩ 3 1 := ⟨by decide, by decide, by decide, by decide⟩
theorem layoutZ : Layout ⟨3, 3, 5⟩ ⟨1, 1, 1⟩ ⟨1, 1, 1⟩ 3 1 := ⟨by decide, by decide, by decide, by decide⟩

/-- Three states of gas at rest with the same product of density and pressure. -/
noncomputable def restA : Cons 3 := (1, 0, 1)
/-- The second state at rest. -/
noncomputable def restB : Cons 3 := (4, 0, 1 / 4)
/-- The third state at rest. -/
noncomputable def restC : Cons 3 := (1 / 4, 0, 4)

/-- The three states in a row along the axis `d`. -/
noncomputable def row (d : Nat) : I3 → Cons 3 := fun p => if p.get d = 1 then restA else if p.get d = 2 then restB else restC

theorem key3 {n G : I3} (u : I3 → Cons 3) (q p : I3) (h1 : Boundary.ghostSource .periodic ((1 : Nat) : Int) (n - G - G) 3 (fun _ => false) q = p) (h2 : IsInterior n G p) :
    Step.extend .periodic n G 1 3 (fun p : Step.Cells n G => u p) q = u p := by
  subst h1
  rw [Step.extend, dif_pos h2]

theorem rest_ne : restA ≠ restB ∧ restB ≠ restC := by
  constructor <;> intro h <;> have := congrArg (fun U : Cons 3 => U.1) h <;> norm_num [restA, restB, restC] at this

theorem restB_speed (d : Fin 3) : 0 < (tecno1 3 2 d restB restB).2 := by
  change 0 < max _ |max (velocity restB d - 0.5 * max 0 (velocity restB d - velocity restB d) + soundSpeed 2 restB) _|
  have h1 : velocity restB d = 0 := by simp [velocity, restB, Cons.m]
  have h2 : 0 < soundSpeed 2 restB := Real.sqrt_pos.2 (by norm_num [pressure, dot, restB, Cons.m])
  rw [h1]
  refine lt_max_of_lt_right (lt_of_lt_of_le (lt_max_of_lt_left ?_) (le_abs_self _))
  simpa using h2

/-- One step of the run along the first axis and of the run along the last, with the same positive end time. The momentum of the middle cell changes in the first, nothing in the second. -/
theorem row_step : ∃ endTime : ℝ, 0 < endTime ∧
    (∃ s u, (start (plain 3 1 CudaRecon.noRecon (EulerRun.twoPoint (lift (tecno1 3 2))) ⟨3, 3, 5⟩ ⟨1, 1, 1⟩ ⟨1, 1, 1⟩ (workOf (Cons 3) ⟨3, 3, 5⟩) 1 endTime) (row 2) [0] () >>=
        run (plain 3 1 CudaRecon.noRecon (EulerRun.twoPoint (lift (tecno1 3 2))) ⟨3, 3, 5⟩ ⟨1, 1, 1⟩ ⟨1, 1, 1⟩ (workOf (Cons 3) ⟨3, 3, 5⟩) 1 endTime) 1) = .ok (some s) ∧ s.vols[0]? = some u ∧
      u ⟨1, 1, 2⟩ = restB) ∧
    (∃ s u, (start (plain 3 1 CudaRecon.noRecon (EulerRun.twoPoint (lift (tecno1 3 2))) ⟨5, 3, 3⟩ ⟨1, 1, 1⟩ ⟨1, 1, 1⟩ (workOf (Cons 3) ⟨5, 3, 3⟩) 1 endTime) (row 0) [0] () >>=
        run (plain 3 1 CudaRecon.noRecon (EulerRun.twoPoint (lift (tecno1 3 2))) ⟨5, 3, 3⟩ ⟨1, 1, 1⟩ ⟨1, 1, 1⟩ (workOf (Cons 3) ⟨5, 3, 3⟩) 1 endTime) 1) = .ok (some s) ∧ s.vols[0]? = some u ∧
      (u ⟨2, 1, 1⟩).2.1 0 ≠ 0) := by
  obtain ⟨S, h1, h2, h3⟩ := plain_step layoutZ (EulerRun.fits (lift (tecno1 3 2)) le_rfl) (by decide) (by decide) (workOf_sized (Cons 3) ⟨3, 3, 5⟩) (row 2)
  obtain ⟨T, k1, k2, k3⟩ := plain_step layoutX (EulerRun.fits (lift (tecno1 3 2)) le_rfl) (by decide) (by decide) (workOf_sized (Cons 3) ⟨5, 3, 3⟩) (row 0)
  have faceZ : ∀ d < 3, ∀ q : I3, face CudaRecon.noRecon (EulerRun.twoPoint (lift (tecno1 3 2))) (Step.extend .periodic ⟨3, 3, 5⟩ ⟨1, 1, 1⟩ 1 3 fun p : Step.Cells ⟨3, 3, 5⟩ ⟨1, 1, 1⟩ => row 2 p) d q =
      lift (tecno1 3 2) d (Step.extend .periodic ⟨3, 3, 5⟩ ⟨1, 1, 1⟩ 1 3 (fun p : Step.Cells ⟨3, 3, 5⟩ ⟨1, 1, 1⟩ => row 2 p) q)
        (Step.extend .periodic ⟨3, 3, 5⟩ ⟨1, 1, 1⟩ 1 3 (fun p : Step.Cells ⟨3, 3, 5⟩ ⟨1, 1, 1⟩ => row 2 p) (q + I3.dir d)) := fun d hd q => EulerRun.face_eq _ _ hd q
  have faceX : ∀ d < 3, ∀ q : I3, face CudaRecon.noRecon (EulerRun.twoPoint (lift (tecno1 3 2))) (Step.extend .periodic ⟨5, 3, 3⟩ ⟨1, 1, 1⟩ 1 3 fun p : Step.Cells ⟨5, 3, 3⟩ ⟨1, 1, 1⟩ => row 0 p) d q =
      lift (tecno1 3 2) d (Step.extend .periodic ⟨5, 3, 3⟩ ⟨1, 1, 1⟩ 1 3 (fun p : Step.Cells ⟨5, 3, 3⟩ ⟨1, 1, 1⟩ => row 0 p) q)
        (Step.extend .periodic ⟨5, 3, 3⟩ ⟨1, 1, 1⟩ 1 3 (fun p : Step.Cells ⟨5, 3, 3⟩ ⟨1, 1, 1⟩ => row 0 p) (q + I3.dir d)) := fun d hd q => EulerRun.face_eq _ _ hd q
  have z111 := key3 (n := ⟨3, 3, 5⟩) (G := ⟨1, 1, 1⟩) (row 2) ⟨1, 1, 1⟩ ⟨1, 1, 1⟩ (by decide) (by decide)
  have z112 := key3 (n := ⟨3, 3, 5⟩) (G := ⟨1, 1, 1⟩) (row 2) ⟨1, 1, 2⟩ ⟨1, 1, 2⟩ (by decide) (by decide)
  have z113 := key3 (n := ⟨3, 3, 5⟩) (G := ⟨1, 1, 1⟩) (row 2) ⟨1, 1, 3⟩ ⟨1, 1, 3⟩ (by decide) (by decide)
  have z012 := key3 (n := ⟨3, 3, 5⟩) (G := ⟨1, 1, 1⟩) (row 2) ⟨0, 1, 2⟩ ⟨1, 1, 2⟩ (by decide) (by decide)
  have z212 := key3 (n := ⟨3, 3, 5⟩) (G := ⟨1, 1, 1⟩) (row 2) ⟨2, 1, 2⟩ ⟨1, 1, 2⟩ (by decide) (by decide)
  have z102 := key3 (n := ⟨3, 3, 5⟩) (G := ⟨1, 1, 1⟩) (row 2) ⟨1, 0, 2⟩ ⟨1, 1, 2⟩ (by decide) (by decide)
  have z122 := key3 (n := ⟨3, 3, 5⟩) (G := ⟨1, 1, 1⟩) (row 2) ⟨1, 2, 2⟩ ⟨1, 1, 2⟩ (by decide) (by decide)
  have x111 := key3 (n := ⟨5, 3, 3⟩) (G := ⟨1, 1, 1⟩) (row 0) ⟨1, 1, 1⟩ ⟨1, 1, 1⟩ (by decide) (by decide)
  have x211 := key3 (n := ⟨5, 3, 3⟩) (G := ⟨1, 1, 1⟩) (row 0) ⟨2, 1, 1⟩ ⟨2, 1, 1⟩ (by decide) (by decide)
  have x311 := key3 (n := ⟨5, 3, 3⟩) (G := ⟨1, 1, 1⟩) (row 0) ⟨3, 1, 1⟩ ⟨3, 1, 1⟩ (by decide) (by decide)
  have x201 := key3 (n := ⟨5, 3, 3⟩) (G := ⟨1, 1, 1⟩) (row 0) ⟨2, 0, 1⟩ ⟨2, 1, 1⟩ (by decide) (by decide)
  have x221 := key3 (n := ⟨5, 3, 3⟩) (G := ⟨1, 1, 1⟩) (row 0) ⟨2, 2, 1⟩ ⟨2, 1, 1⟩ (by decide) (by decide)
  have x210 := key3 (n := ⟨5, 3, 3⟩) (G := ⟨1, 1, 1⟩) (row 0) ⟨2, 1, 0⟩ ⟨2, 1, 1⟩ (by decide) (by decide)
  have x212 := key3 (n := ⟨5, 3, 3⟩) (G := ⟨1, 1, 1⟩) (row 0) ⟨2, 1, 2⟩ ⟨2, 1, 1⟩ (by decide) (by decide)
  have rA : ∀ d < 3, ∀ q : I3, q.get d = 1 → row d q = restA := fun d _ q h => by simp [row, h]
  have rB : ∀ d < 3, ∀ q : I3, q.get d = 2 → row d q = restB := fun d _ q h => by simp [row, h]
  have rC : ∀ d < 3, ∀ q : I3, q.get d = 3 → row d q = restC := fun d _ q h => by simp [row, h]
  rw [rA 2 (by decide) _ rfl] at z111
  rw [rB 2 (by decide) _ rfl] at z112 z012 z212 z102 z122
  rw [rC 2 (by decide) _ rfl] at z113
  rw [rA 0 (by decide) _ rfl] at x111
  rw [rB 0 (by decide) _ rfl] at x211 x201 x221 x210 x212
  rw [rC 0 (by decide) _ rfl] at x311
  have hS : 0 < S 0 + S 1 + S 2 := by
    have a0 : 0 ≤ S 0 := (h1 0 (by decide)).2 (Or.inl rfl)
    have a2 : 0 ≤ S 2 := (h1 2 (by decide)).2 (Or.inl rfl)
    have a1 : (tecno1 3 2 1 restB restB).2 ≤ S 1 := (h1 1 (by decide)).2 (Or.inr ⟨⟨1, 1, 2⟩, by unfold IsFace; decide, by
      rw [faceZ 1 (by decide), z112, show (⟨1, 1, 2⟩ + I3.dir 1 : I3) = ⟨1, 2, 2⟩ from rfl, z122]; rfl⟩)
    have := restB_speed 1
    linarith
  have hT : 0 < T 0 + T 1 + T 2 := by
    have a0 : 0 ≤ T 0 := (k1 0 (by decide)).2 (Or.inl rfl)
    have a2 : 0 ≤ T 2 := (k1 2 (by decide)).2 (Or.inl rfl)
    have a1 : (tecno1 3 2 1 restB restB).2 ≤ T 1 := (k1 1 (by decide)).2 (Or.inr ⟨⟨2, 1, 1⟩, by unfold IsFace; decide, by
      rw [faceX 1 (by decide), x211, show (⟨2, 1, 1⟩ + I3.dir 1 : I3) = ⟨2, 2, 1⟩ from rfl, x221]; rfl⟩)
    have := restB_speed 1
    linarith
  have p1 : 0 < 1 / (S 0 + S 1 + S 2) := by positivity
  have p2 : 0 < 1 / (T 0 + T 1 + T 2) := by positivity
  refine ⟨min (1 / (S 0 + S 1 + S 2)) (1 / (T 0 + T 1 + T 2)), lt_min p1 p2, ?_, ?_⟩
  · obtain ⟨s, u, g1, g2, g3⟩ := h3 1 _ hS.ne' (lt_min p1 p2) (min_le_left _ _)
    refine ⟨s, u, g1, g2, ?_⟩
    rw [g3 ⟨1, 1, 2⟩ (by decide)]
    have hz : ∀ L R : Cons 3, L ≠ R → (lift (tecno1 3 2) 2 L R).1 = 0 := fun L R h => by
      change (tecno3D 2 2 L R).1 = 0
      simp [tecno3D, h]
    simp only [net, List.range_succ, List.range_zero, List.nil_append, List.map_cons, List.map_nil, List.sum_cons, List.sum_nil, List.cons_append,
      faceZ 0 (by decide), faceZ 1 (by decide), faceZ 2 (by decide)]
    simp only [show (⟨1, 1, 2⟩ - I3.dir 0 : I3) = ⟨0, 1, 2⟩ from rfl, show (⟨1, 1, 2⟩ - I3.dir 1 : I3) = ⟨1, 0, 2⟩ from rfl, show (⟨1, 1, 2⟩ - I3.dir 2 : I3) = ⟨1, 1, 1⟩ from rfl,
      show (⟨0, 1, 2⟩ + I3.dir 0 : I3) = ⟨1, 1, 2⟩ from rfl, show (⟨1, 0, 2⟩ + I3.dir 1 : I3) = ⟨1, 1, 2⟩ from rfl, show (⟨1, 1, 1⟩ + I3.dir 2 : I3) = ⟨1, 1, 2⟩ from rfl,
      show (⟨1, 1, 2⟩ + I3.dir 0 : I3) = ⟨2, 1, 2⟩ from rfl, show (⟨1, 1, 2⟩ + I3.dir 1 : I3) = ⟨1, 2, 2⟩ from rfl, show (⟨1, 1, 2⟩ + I3.dir 2 : I3) = ⟨1, 1, 3⟩ from rfl,
      z111, z112, z113, z012, z212, z102, z122, hz _ _ rest_ne.1, hz _ _ rest_ne.2, sub_self, add_zero, smul_zero]
    exact rB 2 (by decide) _ rfl
  · obtain ⟨s, u, g1, g2, g3⟩ := k3 1 _ hT.ne' (lt_min p1 p2) (min_le_right _ _)
    refine ⟨s, u, g1, g2, ?_⟩
    rw [g3 ⟨2, 1, 1⟩ (by decide)]
    simp only [net, List.range_succ, List.range_zero, List.nil_append, List.map_cons, List.map_nil, List.sum_cons, List.sum_nil, List.cons_append,
      faceX 0 (by decide), faceX 1 (by decide), faceX 2 (by decide)]
    simp only [show (⟨2, 1, 1⟩ - I3.dir 0 : I3) = ⟨1, 1, 1⟩ from rfl, show (⟨2, 1, 1⟩ - I3.dir 1 : I3) = ⟨2, 0, 1⟩ from rfl, show (⟨2, 1, 1⟩ - I3.dir 2 : I3) = ⟨2, 1, 0⟩ from rfl,
      show (⟨1, 1, 1⟩ + I3.dir 0 : I3) = ⟨2, 1, 1⟩ from rfl, show (⟨2, 0, 1⟩ + I3.dir 1 : I3) = ⟨2, 1, 1⟩ from rfl, show (⟨2, 1, 0⟩ + I3.dir 2 : I3) = ⟨2, 1, 1⟩ from rfl,
      show (⟨2, 1, 1⟩ + I3.dir 0 : I3) = ⟨3, 1, 1⟩ from rfl, show (⟨2, 1, 1⟩ + I3.dir 1 : I3) = ⟨2, 2, 1⟩ from rfl, show (⟨2, 1, 1⟩ + I3.dir 2 : I3) = ⟨2, 1, 2⟩ from rfl,
      x111, x211, x311, x201, x221, x210, x212, sub_self, add_zero]
    rw [rB 0 (by decide) _ rfl]
    change (0 : ℝ) + 1 / (T 0 + T 1 + T 2) * ((tecno3D 2 0 restA restB).1.2.1 0 - (tecno3D 2 0 restB restC).1.2.1 0) ≠ 0
    have pA : pressure 2 restA = 1 := by norm_num [pressure, dot, restA, Cons.m]
    have pB : pressure 2 restB = 1 / 4 := by norm_num [pressure, dot, restB, Cons.m]
    have pC : pressure 2 restC = 4 := by norm_num [pressure, dot, restC, Cons.m]
    have fA : zFirst 2 restA = 1 := by rw [zFirst, pA]; norm_num [restA]
    have fB : zFirst 2 restB = 4 := by rw [zFirst, pB, Real.sqrt_eq_iff_mul_self_eq (by norm_num [restB]) (by norm_num)]; norm_num [restB]
    have fC : zFirst 2 restC = 1 / 4 := by rw [zFirst, pC, Real.sqrt_eq_iff_mul_self_eq (by norm_num [restC]) (by norm_num)]; norm_num [restC]
    have lA : zLast 2 restA = 1 := by rw [zLast, pA]; norm_num [restA]
    have lB : zLast 2 restB = 1 := by rw [zLast, pB]; norm_num [restB]
    have lC : zLast 2 restC = 1 := by rw [zLast, pC]; norm_num [restC]
    have ln1 : ln 1 1 = 0 := by simp [ln]
    have e1 : (tecno3D 2 0 restA restB).1.2.1 0 = 2 / 5 := by
      simp only [tecno3D, if_neg rest_ne.1, if_true, lA, lB, ln1, fA, fB, bar]
      norm_num
    have e2 : (tecno3D 2 0 restB restC).1.2.1 0 = 8 / 17 := by
      simp only [tecno3D, if_neg rest_ne.2, if_true, lB, lC, ln1, fB, fC, bar]
      norm_num
    rw [e1, e2]
    intro h
    rw [zero_add, mul_eq_zero] at h
    rcases h with h | h
    · exact p2.ne' h
    · norm_num at h

end

end Symmetry
end Verif
