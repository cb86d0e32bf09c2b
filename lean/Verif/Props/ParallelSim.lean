import Verif.ParallelEuler
import Verif.Props.ParallelRun

/-!
C93: a whole run on several processes does what the run on one process does.
-/

namespace Verif.Props.ParallelSim
open Integrator Simulator NetFlux Halo ParallelRun Iterate Cartesian Props.Parallel Verif.ParallelSim

/-- C93, partial. A run on one process (`cS`) and a run of the same scheme on several processes (`cP`), from the same initial cells, with any integrator, any number of steps,
any writers (a writer is given the cells of all processes and does with them what it does in the run on one process) and any time step adjusters. In every evaluation of the
right hand side the messages may arrive in a different order (`sched n i` in substep `i` of step `n`), and nothing is assumed about the ghost cells the processes see before they arrive.
Then both runs fail with the same error, or both have not reached the end time, or both reach it with the same time and number of steps, the same state of the writers, the
same calls of writers with the same cells, and the same final cells.
Missing: parts thinner than the ghost layer or with fewer dimensions than the grid (false, C48 and C49), and the check of the states: the theorem takes the check of the several
processes to depend on the cells of the grid alone. The code also checks the ghost cells, which hold left over values at the time; with the Euler equations in three
dimensions the property is false, see `C93_fails_for_euler`. -/
theorem C93_run_partial {K σ : Type} [Field K] [LinearOrder K] [IsStrictOrderedRing K] (p : I3) (grid : Grid K) (bc : BC) (part : Int → Cartesian.Part K)
    (h : Decomposed p grid (fun _ => sideOf bc) part) (m : I3) (hm : m = localSize grid.dims p) (dims : Nat) (hdims : dims = activeDimension grid.dims)
    (hdimsm : dims = dimensionsOf m) (nvars g : Nat) (hg : ∀ d < dims, (g : Int) ≤ m.get d) (recon : Recon (Fin nvars → K)) (fl : FluxFn (Fin nvars → K) K)
    (hf : Fits recon fl g) (active : I3) (hact : ∀ d < 3, active.get d = if d < dims then 1 else 0) (kind : Kind) (cfl endTime : K) (adj : σ → List (Adjuster K))
    -- the single process
    (workS : NetFlux.State (Fin nvars → K) K) (hwS : Sized (totalOf grid.dims g) workS) (obeysS : (I3 → Fin nvars → K) → Bool)
    (writersS : List ((I3 → Fin nvars → K) → TimeInfo K → σ → Res σ)) (cS : Config (I3 → Fin nvars → K) K σ)
    (hcS : cS = ⟨kind, ⟨Step.cpuSystem dims recon fl (totalOf grid.dims g) (ghostsOf grid.dims g) active workS, [], lengthOf grid, cfl⟩,
      Step.cpuBoundary bc (totalOf grid.dims g) g dims, obeysS, writersS, adj, endTime⟩)
    -- several processes
    (work : Int → NetFlux.State (Fin nvars → K) K) (hw : ∀ r, IsRank p r → Sized (totalOf m g) (work r)) (sched : Nat → Nat → Schedule nvars K)
    (hsched : ∀ n i, Complete (allTransfers p part nvars g) (sched n i).events) (obeysP : Volumes nvars K → Bool)
    (hobeys : ∀ v0 v u, Step.cpuBoundary bc (totalOf grid.dims g) g dims v0 = .ok v → SameCells p part m g v u → obeysS v = obeysP u)
    (writersP : List (Volumes nvars K → TimeInfo K → σ → Res σ))
    (hwriters : List.Forall₂ (fun w w' => ∀ v u, SameCells p part m g v u → w v = w' u) writersS writersP) (cP : Config (Volumes nvars K) K σ)
    (hcP : cP = ⟨kind, ⟨jointSystem p part m g dims recon fl active work (sched 0 0), [], lengthOf (part 0).grid, cfl⟩, jointBoundary bc p part m g dims, obeysP, writersP, adj,
      endTime⟩)
    -- the same start
    (uS : I3 → Fin nvars → K) (uP : Volumes nvars K) (hu : SameCells p part m g uS uP) (spareS : List (I3 → Fin nvars → K)) (spareP : List (Volumes nvars K))
    (hspS : spareS.length = kind.substeps) (hspP : spareP.length = kind.substeps) (wst : σ) (fuel : Nat)
    (one : Res (Option (Sim (I3 → Fin nvars → K) K σ))) (hone : one = (start cS uS spareS wst >>= run cS fuel))
    (several : Res (Option (Sim (Volumes nvars K) K σ)))
    (hseveral : several = (start cP uP spareP wst >>= runWith cP (fun n i => jointSystem p part m g dims recon fl active work (sched n i)) fuel)) :
    (∀ e, one = .error e ↔ several = .error e) ∧ (one = .ok none ↔ several = .ok none) ∧
    ∀ s s', one = .ok (some s) → several = .ok (some s') → s.info = s'.info ∧ s.ws = s'.ws ∧
      List.Forall₂ (fun a b => a.writer = b.writer ∧ a.info = b.info ∧ SameCells p part m g a.state b.state) s.log s'.log ∧
      ∃ v u, s.vols[0]? = some v ∧ s'.vols[0]? = some u ∧ SameCells p part m g v u := by
  have hset : Setting p grid bc part m dims g := ⟨h, hm, hdims, hdimsm, hg⟩
  obtain ⟨hd1, hd3, hm1, hreg, hregD, hdD, hGD, hGe, hmD⟩ := hset.geometry
  have h3D : ∀ d < dims, 3 * (ghostsOf grid.dims g).get d ≤ (totalOf grid.dims g).get d := by
    intro d hd
    have h1 := volume_sizes h.dims hregD g (d := d) (by omega); have h2 := hg d hd; have h3 := hmD d (by omega)
    rw [h1.2.1, hGD, hGe d hd]; omega
  have hS0 := Step.sound (b := bc) (hset.layout_D hact) hf h3D hd1 hwS
  set N := totalOf grid.dims g
  set G := ghostsOf grid.dims g
  have hS : Sound (Step.cpuSystem dims recon fl N G active workS) (Step.cpuBoundary bc N g dims) (Step.int N G) (Step.rhs bc dims recon fl N G g)
      (Step.waves bc dims recon fl N G active g workS) (fun v => ∃ v0, Step.cpuBoundary bc N g dims v0 = .ok v) := by
    constructor
    · intro v
      obtain ⟨v', e1, e2, -⟩ := hS0.bc_ok v
      exact ⟨v', e1, e2, v, e1⟩
    · rintro v out ⟨v0, hv0⟩
      obtain ⟨v', e1, -, e3⟩ := hS0.bc_ok v0
      rw [hv0] at e1
      cases e1
      exact hS0.sys_ok v out e3
  have hP := fun n i => joint_sound hset hf hact hw hwS (hsched n i)
  have hlen : lengthOf grid = lengthOf (part 0).grid := by
    have hr : IsRank p 0 := by
      obtain ⟨p1, p2, p3⟩ := h.procs
      have h3 : 0 < p.x * p.y := by nlinarith
      exact ⟨le_refl _, by show 0 < p.x * p.y * p.z; nlinarith⟩
    unfold lengthOf
    rw [(h.facts hr).2.2.1]
  have ht : RunAgree.Twin cS cP (Step.int (K := K) N G) (assemble p part m grid.dims g) (fun v => ∃ v0, Step.cpuBoundary bc N g dims v0 = .ok v) (Ready bc p part m g dims) := by
    subst hcS hcP
    refine ⟨rfl, rfl, hlen, rfl, rfl, rfl, ?_, ?_⟩
    · rintro v u ⟨v0, hv0⟩ - e
      exact hobeys v0 v u hv0 ((hset.same_iff v u).2 e)
    · exact hwriters.imp fun w w' hw' v u info s _ _ e => by rw [hw' v u ((hset.same_iff v u).2 e)]
  have key := RunAgree.run_agree (c := cS) (c' := cP) (sys := fun _ _ => Step.cpuSystem dims recon fl N G active workS)
    (sys' := fun n i => jointSystem p part m g dims recon fl active work (sched n i)) (fun _ _ => by rw [hcS]; exact hS) (fun n i => by rw [hcP]; exact hP n i) ht
    uS uP ((hset.same_iff uS uP).1 hu) spareS spareP (by rw [hcS]; exact hspS) (by rw [hcS]; exact hspP) wst fuel
  have hrun : (start cS uS spareS wst >>= runWith cS (fun _ _ => Step.cpuSystem dims recon fl N G active workS) fuel) = one := by
    rw [hone]
    congr 1
    funext s
    rw [← RunAgree.runWith_const, hcS]
  rw [hrun, ← hseveral] at key
  clear hrun hone hseveral
  refine ⟨fun e => ?_, ?_, ?_⟩
  · cases one with
    | error e1 => cases several with
      | error e2 =>
        have : e1 = e2 := key
        rw [this]
        exact ⟨fun hh => by cases hh; rfl, fun hh => by cases hh; rfl⟩
      | ok b => exact key.elim
    | ok a => cases several with
      | error e2 => exact key.elim
      | ok b => exact ⟨fun hh => (nomatch hh), fun hh => (nomatch hh)⟩
  · cases one with
    | error e1 => exact ⟨fun hh => (nomatch hh), fun hh => by rw [hh] at key; exact key.elim⟩
    | ok a => cases several with
      | error e2 => exact key.elim
      | ok b =>
        cases a <;> cases b <;> first | exact key.elim | simp
  · rintro s s' rfl rfl
    obtain ⟨-, -, ⟨v, u, k1, k2, -, -, k3⟩, k4, k5, k6⟩ := (key : RunAgree.Rel _ _ _ _ _ s s')
    exact ⟨k4, k5, k6.imp fun a b hab => ⟨hab.1, hab.2.1, (hset.same_iff _ _).2 hab.2.2⟩, v, u, k1, k2, (hset.same_iff _ _).2 k3⟩

/-- Buffers, the messages and the two runs of the example: 6 by 4 cells on 2 by 2 processes, two variables, upwind flux, second order Runge-Kutta, until time 1/20. -/
def exSched (part : Int → Cartesian.Part ℚ) : Schedule 2 ℚ :=
  ⟨(List.range (allTransfers ⟨2, 2, 1⟩ part 2 1).length).map Event.read ++ (List.range (allTransfers ⟨2, 2, 1⟩ part 2 1).length).map Event.write, fun _ => 0, fun _ _ _ => 7⟩
/-- The run on one process. -/
def exOne : Config (I3 → Fin 2 → ℚ) ℚ Unit :=
  ⟨.rungeKutta2, ⟨Step.cpuSystem 2 (Props.Parallel.exRecon 2) (Props.Parallel.exUpwind 2) (totalOf exGrid.dims 1) (ghostsOf exGrid.dims 1) ⟨1, 1, 0⟩ (Props.Parallel.exZero (totalOf exGrid.dims 1) 2), [],
    lengthOf exGrid, 9 / 10⟩, Step.cpuBoundary .periodic (totalOf exGrid.dims 1) 1 2, fun _ => true, [], fun _ => [], 1 / 20⟩
/-- The run on four processes. -/
def exFour (part : Int → Cartesian.Part ℚ) : Config (Volumes 2 ℚ) ℚ Unit :=
  ⟨.rungeKutta2, ⟨jointSystem ⟨2, 2, 1⟩ part ⟨3, 2, 1⟩ 1 2 (Props.Parallel.exRecon 2) (Props.Parallel.exUpwind 2) ⟨1, 1, 0⟩ (fun _ => Props.Parallel.exZero (totalOf ⟨3, 2, 1⟩ 1) 2) (exSched part), [],
    lengthOf (part 0).grid, 9 / 10⟩, jointBoundary .periodic ⟨2, 2, 1⟩ part ⟨3, 2, 1⟩ 1 2, fun _ => true, [], fun _ => [], 1 / 20⟩

/-- Both runs reach the end, with the same cells. -/
example : ∃ part, Decomposed ⟨2, 2, 1⟩ exGrid (fun _ => sideOf .periodic) part ∧ ∃ s s' v u,
    (start exOne (fun c => Props.Parallel.exU (c - ⟨1, 1, 0⟩)) [0, 0] () >>= run exOne 1) = .ok (some s) ∧
    (start (exFour part) (fun r c => Props.Parallel.exU (c + (part r).grid.globalPosition - ⟨1, 1, 0⟩)) [0, 0] () >>= runWith (exFour part) (fun _ _ =>
      jointSystem ⟨2, 2, 1⟩ part ⟨3, 2, 1⟩ 1 2 (Props.Parallel.exRecon 2) (Props.Parallel.exUpwind 2) ⟨1, 1, 0⟩ (fun _ => Props.Parallel.exZero (totalOf ⟨3, 2, 1⟩ 1) 2) (exSched part)) 1) = .ok (some s') ∧
    s.vols[0]? = some v ∧ s'.vols[0]? = some u ∧ SameCells ⟨2, 2, 1⟩ part ⟨3, 2, 1⟩ 1 v u := by
  obtain ⟨part, h⟩ := exDecomposed
  refine ⟨part, h, ?_⟩
  obtain ⟨k1, k2, k3⟩ := C93_run_partial ⟨2, 2, 1⟩ exGrid .periodic part h ⟨3, 2, 1⟩ (by decide) 2 (by decide) (by decide) 2 1 (by decide) (Props.Parallel.exRecon 2)
    (Props.Parallel.exUpwind 2) (Props.Parallel.exFits 2) ⟨1, 1, 0⟩ (by decide) .rungeKutta2 (9 / 10) (1 / 20) (fun _ : Unit => []) (Props.Parallel.exZero _ 2) ⟨rfl, rfl, rfl, rfl⟩
    (fun _ => true) [] exOne rfl (fun _ => Props.Parallel.exZero (totalOf ⟨3, 2, 1⟩ 1) 2) (fun _ _ => ⟨rfl, rfl, rfl, rfl⟩) (fun _ _ => exSched part) (fun _ _ => complete_reads_writes _) (fun _ => true)
    (fun _ _ _ _ _ => rfl) [] .nil (exFour part) rfl (fun c => Props.Parallel.exU (c - ⟨1, 1, 0⟩)) (fun r c => Props.Parallel.exU (c + (part r).grid.globalPosition - ⟨1, 1, 0⟩))
    (fun _ _ _ _ => rfl) [0, 0] [0, 0] rfl rfl () 1 _ rfl _ rfl
  have hLD : Layout (totalOf exGrid.dims 1) (ghostsOf exGrid.dims 1) ⟨1, 1, 0⟩ 2 1 := ⟨by decide, by decide, by decide, by decide⟩
  have hND : ∀ d < 2, 3 * (ghostsOf exGrid.dims 1).get d ≤ (totalOf exGrid.dims 1).get d := by decide
  have hwD : Sized (totalOf exGrid.dims 1) (Props.Parallel.exZero (totalOf exGrid.dims 1) 2) := ⟨rfl, rfl, rfl, rfl⟩
  have hs := Step.sound (b := .periodic) hLD (Props.Parallel.exFits 2) hND (by decide) hwD
  obtain ⟨s, v, g1, -⟩ := WholeRun.run_one_step (c := exOne) hs rfl (fun _ => rfl) (fun c => Props.Parallel.exU (c - ⟨1, 1, 0⟩)) [0, 0] rfl () (9 / 100)
    (by
      rw [funext (waves_fixed hLD (Props.Parallel.exFits 2) hND (by decide) hwD _ 1 zero_le_one
        (fun k hk => ⟨⟨1, 1, 0⟩, by unfold IsFace; interval_cases k <;> decide⟩) (fun _ _ _ => rfl))]
      decide +kernel) (by decide +kernel) (by decide +kernel) (by decide +kernel)
  rw [g1] at k1 k2 k3
  generalize (start (exFour part) _ [0, 0] () >>= runWith (exFour part) _ 1) = several at *
  rcases several with e | _ | s'
  · exact absurd ((k1 e).2 rfl) (fun hh => (nomatch hh))
  · exact absurd (k2.2 rfl) (fun hh => (nomatch hh))
  · obtain ⟨-, -, -, v, u, q1, q2, q3⟩ := k3 s s' rfl rfl
    exact ⟨s, s', v, u, g1, rfl, q1, q2, q3⟩

/-! ### The Euler equations -/

/-- A box of 4 by 2 by 2 cells of length one. -/
noncomputable def boxGrid : Grid ℝ := Grid.make ⟨0, 0, 0⟩ ⟨4, 2, 2⟩ ⟨4, 2, 2⟩ 0 ⟨4, 2, 2⟩

/-- Gas at rest with density 1, pressure 5/7 and (for `γ = 7/5`) sound speed 1: density, momentum, energy. -/
noncomputable def gas : Fin 5 → ℝ := ![1, 0, 0, 0, 25 / 14]

/-- The check of one cell: positive density and pressure for `γ = 7/5`. -/
def Accepted (v : Fin 5 → ℝ) : Prop := EulerRun.Positive (7 / 5) (v 0, ![v 1, v 2, v 3], v 4)

/-- Zero buffers. -/
def zeroWork (n : I3) : NetFlux.State (Fin 5 → ℝ) ℝ := ⟨field n 0, field n 0, field n 0, field n 0, fun _ => 0⟩

open Classical in
/-- The run on one process: forward Euler, first order, CFL number 0.9, periodic, until time 0.3; all cells are checked after every step. -/
noncomputable def boxOne (F : Nat → (Fin 5 → ℝ) → (Fin 5 → ℝ) → (Fin 5 → ℝ) × ℝ) : Config (I3 → Fin 5 → ℝ) ℝ Unit :=
  ⟨.forwardEuler, ⟨Step.cpuSystem 3 CudaRecon.noRecon (Verif.EulerRun.twoPoint F) ⟨6, 4, 4⟩ ⟨1, 1, 1⟩ ⟨1, 1, 1⟩ (zeroWork ⟨6, 4, 4⟩), [], lengthOf boxGrid, 9 / 10⟩,
    Step.cpuBoundary .periodic ⟨6, 4, 4⟩ 1 3, fun v => decide (∀ c, inSize ⟨6, 4, 4⟩ c = true → Accepted (v c)), [], fun _ => [], 3 / 10⟩

open Classical in
/-- The same run on two processes, each with 2 by 2 by 2 cells; all cells of both processes are checked after every step. -/
noncomputable def boxTwo (F : Nat → (Fin 5 → ℝ) → (Fin 5 → ℝ) → (Fin 5 → ℝ) × ℝ) (part : Int → Cartesian.Part ℝ) (sched : Schedule 5 ℝ) : Config (Volumes 5 ℝ) ℝ Unit :=
  ⟨.forwardEuler, ⟨jointSystem ⟨2, 1, 1⟩ part ⟨2, 2, 2⟩ 1 3 CudaRecon.noRecon (Verif.EulerRun.twoPoint F) ⟨1, 1, 1⟩ (fun _ => zeroWork ⟨4, 4, 4⟩) sched, [], lengthOf (part 0).grid,
    9 / 10⟩, jointBoundary .periodic ⟨2, 1, 1⟩ part ⟨2, 2, 2⟩ 1 3,
    fun u => decide (∀ r, IsRank ⟨2, 1, 1⟩ r → ∀ c, inSize ⟨4, 4, 4⟩ c = true → Accepted (u r c)), [], fun _ => [], 3 / 10⟩

/-- C93 is false for the Euler equations in three dimensions: gas at rest, uniform, with periodic boundary, on one process and on two processes. The flux may be any flux of two states
with the wave speed of the gas. The volume the integrator writes to is new, so its cells hold 42 (alsfvm/src/memory/HostMemory.cpp:37), and so do its ghost cells after the flux has been
computed. The run on one process replaces them before the check, with the boundary condition, and reaches the end time. On two processes the ghost cells next to the other process are left to
the exchange, which only happens in the next step; when they are checked they hold 42 times `dt / dx` plus the gas, which has negative pressure, and the run is refused, whatever the order of messages. -/
theorem C93_fails_for_euler (F : Nat → (Fin 5 → ℝ) → (Fin 5 → ℝ) → (Fin 5 → ℝ) × ℝ) (hF : ∀ d < 3, (F d gas gas).2 = 1) :
    (∃ s u, (start (boxOne F) (fun _ => gas) [fun _ _ => 42] () >>= run (boxOne F) 1) = .ok (some s) ∧ s.vols[0]? = some u ∧
      ∀ c, IsInterior ⟨6, 4, 4⟩ ⟨1, 1, 1⟩ c → u c = gas) ∧
    ∃ part, Decomposed ⟨2, 1, 1⟩ boxGrid (fun _ => sideOf .periodic) part ∧
      ∀ sched : Nat → Nat → Schedule 5 ℝ, (∀ n i, Complete (allTransfers ⟨2, 1, 1⟩ part 5 1) (sched n i).events) →
        ∀ u : Volumes 5 ℝ, SameCells ⟨2, 1, 1⟩ part ⟨2, 2, 2⟩ 1 (fun _ => gas) u →
          (start (boxTwo F part (sched 0 0)) u [fun _ _ _ => 42] () >>= runWith (boxTwo F part (sched 0 0)) (fun n i =>
            jointSystem ⟨2, 1, 1⟩ part ⟨2, 2, 2⟩ 1 3 CudaRecon.noRecon (Verif.EulerRun.twoPoint F) ⟨1, 1, 1⟩ (fun _ => zeroWork ⟨4, 4, 4⟩) (sched n i)) 1) =
          .error .thrown := by
  have hf := Verif.EulerRun.fits (g := 1) F (le_refl 1)
  have hLD : Layout ⟨6, 4, 4⟩ ⟨1, 1, 1⟩ ⟨1, 1, 1⟩ 3 1 := ⟨by decide, by decide, by decide, by decide⟩
  have hND : ∀ d < 3, 3 * (⟨1, 1, 1⟩ : I3).get d ≤ (⟨6, 4, 4⟩ : I3).get d := by decide
  have hwD : Sized ⟨6, 4, 4⟩ (zeroWork ⟨6, 4, 4⟩) := ⟨rfl, rfl, rfl, rfl⟩
  have hlen : ∀ d, lengthOf boxGrid d = 1 := by
    intro d
    unfold lengthOf boxGrid Grid.make Grid.computeCellLengths
    norm_num
  have hws : ∀ k, Step.waves .periodic 3 CudaRecon.noRecon (Verif.EulerRun.twoPoint F) ⟨6, 4, 4⟩ ⟨1, 1, 1⟩ ⟨1, 1, 1⟩ 1 (zeroWork ⟨6, 4, 4⟩) (fun _ => gas) k = if k < 3 then 1 else 0 :=
    waves_uniform hLD hf hND (by decide) hwD gas 1 zero_le_one (fun k hk => ⟨⟨1, 1, 1⟩, by unfold IsFace; interval_cases k <;> decide⟩)
      (fun k hk q => by rw [Verif.EulerRun.face_eq F _ hk]; exact hF k hk)
  have hdt : computeTimestep [] [] (Step.waves .periodic 3 CudaRecon.noRecon (Verif.EulerRun.twoPoint F) ⟨6, 4, 4⟩ ⟨1, 1, 1⟩ ⟨1, 1, 1⟩ 1 (zeroWork ⟨6, 4, 4⟩) (fun _ => gas))
      (lengthOf boxGrid) (9 / 10) ⟨0, 0⟩ = ((3 / 10 : ℝ) : WithTop ℝ) := by
    rw [funext hws]
    simp only [computeTimestep, adjustTimestep, waveSpeedTotal, List.range_succ, List.range_zero, List.nil_append, List.cons_append, List.foldl_cons, List.foldl_nil, hlen]
    norm_num
  have hgas : Accepted gas := by
    unfold Accepted EulerRun.Positive gas
    simp [Fin.sum_univ_three]
    norm_num
  constructor
  · -- one process
    have hs := Step.sound (b := .periodic) hLD hf hND (by decide) hwD
    have hP : ∀ (w : Step.Cells ⟨6, 4, 4⟩ ⟨1, 1, 1⟩ → Fin 5 → ℝ) (L : ℝ) (dt : ℝ), w = (fun _ => gas) →
        textbook .forwardEuler (fun w => L • Step.rhs .periodic 3 CudaRecon.noRecon (Verif.EulerRun.twoPoint F) ⟨6, 4, 4⟩ ⟨1, 1, 1⟩ 1 w) dt w = fun _ => gas := by
      rintro w L dt rfl
      unfold textbook
      simp only [WholeRun.rhs_uniform hLD hf hND, smul_zero, add_zero]
    have hun := Verif.EulerRun.run_unchecked (c := boxOne F) (P := fun w => w = fun _ => gas) hs (fun w _ _ dt hw _ => hP w _ dt hw) (fun u hr hu => by
        obtain ⟨w, hw⟩ := hr
        refine @decide_eq_true _ (Classical.propDecidable _) fun c hc => ?_
        have hw' : w = fun _ => gas := by
          rw [← hu]
          funext q
          change w q = u q
          rw [hw q (Step.interior_inSize hLD q.2), Step.extend_interior hLD w q.2]
        rw [hw c hc, hw', Step.extend, dif_pos (Step.ghostSource_interior hLD hND hc)]
        exact hgas) (fun _ => gas) [fun _ _ => 42] rfl () rfl 1
    rw [hun]
    obtain ⟨s', u', g1, g2, g3⟩ := WholeRun.run_one_step (c := { boxOne F with obeys := fun _ => true }) hs rfl (fun _ => rfl) (fun _ => gas) [fun _ _ => 42] rfl () (3 / 10)
      hdt (by change lengthOf boxGrid 0 ≠ 0; rw [hlen]; exact one_ne_zero) (by change (0 : ℝ) < 3 / 10; norm_num) (le_refl _)
    refine ⟨s', u', g1, g2, fun c hc => ?_⟩
    have : Step.int (K := ℝ) ⟨6, 4, 4⟩ ⟨1, 1, 1⟩ u' = fun _ => gas := by rw [g3]; exact hP _ _ _ rfl
    exact congrFun this ⟨c, hc⟩
  · -- two processes
    obtain ⟨part, hparts, -⟩ := C45_tiles_partial ⟨2, 1, 1⟩ (by unfold ProcessGrid; decide) boxGrid (fun _ => .periodic) (by decide) (by decide)
    have hdec : Decomposed ⟨2, 1, 1⟩ boxGrid (fun _ => sideOf .periodic) part := ⟨by unfold ProcessGrid; decide, by decide, by decide, fun _ => rfl, hparts⟩
    refine ⟨part, hdec, fun sched hsched u hu => ?_⟩
    have hset : Setting ⟨2, 1, 1⟩ boxGrid .periodic part ⟨2, 2, 2⟩ 3 1 := ⟨hdec, by decide, by decide, by decide, by decide⟩
    have hr0 : IsRank ⟨2, 1, 1⟩ 0 := by unfold IsRank; decide
    have hlenP : lengthOf (part 0).grid = lengthOf boxGrid := by unfold lengthOf; rw [(hdec.facts hr0).2.2.1]
    have hsound := joint_sound hset hf (active := ⟨1, 1, 1⟩) (by decide) (work := fun _ => zeroWork ⟨4, 4, 4⟩) (fun _ _ => ⟨rfl, rfl, rfl, rfl⟩) (workS := zeroWork ⟨6, 4, 4⟩) hwD (hsched 0 0)
    obtain ⟨v, e1, e2, e3⟩ := hsound.bc_ok u
    have hint : assemble ⟨2, 1, 1⟩ part ⟨2, 2, 2⟩ boxGrid.dims 1 v = fun _ => gas := by rw [e2, ← (hset.same_iff _ u).1 hu]; rfl
    obtain ⟨x, x1, -, -, x4, x5, x6⟩ := jointSystem_ok hset hf (active := ⟨1, 1, 1⟩) (by decide) (work := fun _ => zeroWork ⟨4, 4, 4⟩) (fun _ _ => ⟨rfl, rfl, rfl, rfl⟩)
      (workS := zeroWork ⟨6, 4, 4⟩) hwD (hsched 0 0) v (fun _ _ _ => 42) e3
    rw [hint] at x4 x6
    obtain ⟨y, y1, y2⟩ := jointBoundary_ok hset (((3 / 10 : ℝ) / lengthOf (part 0).grid 0) • x.2.1 + x.1)
    have hst : start (boxTwo F part (sched 0 0)) u [fun _ _ _ => 42] () = .ok ⟨[v, fun _ _ _ => 42], ⟨0, 0⟩, (), []⟩ := by
      unfold start
      change (jointBoundary .periodic ⟨2, 1, 1⟩ part ⟨2, 2, 2⟩ 1 3 u >>= _) = _
      rw [e1]; rfl
    have hinc := forwardEuler_increment (boxTwo F part (sched 0 0)) rfl (fun i => jointSystem ⟨2, 1, 1⟩ part ⟨2, 2, 2⟩ 1 3 CudaRecon.noRecon (Verif.EulerRun.twoPoint F) ⟨1, 1, 1⟩
      (fun _ => zeroWork ⟨4, 4, 4⟩) (sched 0 i)) v (fun _ _ _ => 42) ⟨0, 0⟩ () [] x x1 (3 / 10) (by rw [x4]; change computeTimestep [] [] _ (lengthOf (part 0).grid) _ _ = _; rw [hlenP]; exact hdt)
      (by change lengthOf (part 0).grid 0 ≠ 0; rw [hlenP, hlen]; exact one_ne_zero) y y1
    -- a ghost cell of the first process
    have hex : exchanged (part 0) 0 = true := by
      obtain ⟨-, -, -, -, f5⟩ := hdec.facts hr0
      have := (f5 0 (by decide)).2 (by decide)
      unfold exchanged
      rw [this.1]; rfl
    have hval : y 0 ⟨0, 1, 1⟩ = fun i => 63 / 5 + gas i := by
      rw [y2 0 hr0 ⟨0, 1, 1⟩ (by decide)]
      have hgs : Boundary.ghostSource .periodic ((1 : Nat) : Int) ⟨2, 2, 2⟩ 3 (exchanged (part 0)) ⟨0, 1, 1⟩ = ⟨0, 1, 1⟩ := by
        rw [ghostSource_single (d := 0) (by decide) (by decide) (by decide)]
        simp [Boundary.imageDir, hex, I3.get, I3.set]
      rw [hgs]
      funext i
      show ((3 / 10 : ℝ) / lengthOf (part 0).grid 0) • x.2.1 0 ⟨0, 1, 1⟩ i + x.1 0 ⟨0, 1, 1⟩ i = _
      rw [x5 0 hr0 ⟨0, 1, 1⟩ (fun hh => by have := hh 0 (by decide); revert this; decide), x6 0 hr0 0 (by decide) ⟨0, 1, 1⟩ (by decide) (by decide), hlenP, hlen,
        Step.extend, dif_pos]
      · simp; norm_num
      · refine Step.ghostSource_interior (active := ⟨1, 1, 1⟩) (hset.layout_D (by decide)) hND ?_
        obtain ⟨-, f2, -⟩ := hdec.facts hr0
        have g0 := f2 0 (by decide); have g1 := f2 1 (by decide); have g2 := f2 2 (by decide)
        have hgp : (part 0).grid.globalPosition = ⟨0, 0, 0⟩ := by
          apply ext_get
          intro e he
          rw [f2 e he]
          interval_cases e <;> decide
        rw [hgp]
        decide
    have hrej : (boxTwo F part (sched 0 0)).obeys y = false := by
      refine @decide_eq_false _ (Classical.propDecidable _) fun hh => ?_
      have := (hh 0 hr0 ⟨0, 1, 1⟩ (by decide)).2
      rw [hval] at this
      simp [gas, Fin.sum_univ_three] at this
      norm_num at this
    rw [hst]
    simp only [bind, Except.bind]
    unfold runWith
    have hcw : callWriters (boxTwo F part (sched 0 0)) (⟨[v, fun _ _ _ => 42], ⟨0, 0⟩, (), []⟩ : Sim (Volumes 5 ℝ) ℝ Unit) = .ok ⟨[v, fun _ _ _ => 42], ⟨0, 0⟩, (), []⟩ := by
      simp [callWriters, boxTwo, at']
    rw [hcw]
    change loopWith _ _ 1 _ = _
    have hend : atEnd (boxTwo F part (sched 0 0)) (⟨[v, fun _ _ _ => 42], ⟨0, 0⟩, (), []⟩ : Sim (Volumes 5 ℝ) ℝ Unit) = false := by
      exact decide_eq_false (by change ¬ (3 / 10 : ℝ) ≤ 0; norm_num)
    unfold loopWith
    rw [hend]
    unfold performStepWith
    simp only [hinc]
    simp [checkConstraints, at', hrej]

/-- Such a flux is `hll` (with the state as density, momentum and energy). -/
example : ∀ d < 3, ((fun d (l r : Fin 5 → ℝ) => if h : d < 3 then
      let f := EulerFlux.hll (n := 3) (7 / 5) ⟨d, h⟩ (l 0, ![l 1, l 2, l 3], l 4) (r 0, ![r 1, r 2, r 3], r 4)
      (![f.1.1, f.1.2.1 0, f.1.2.1 1, f.1.2.1 2, f.1.2.2], f.2) else 0 : Nat → (Fin 5 → ℝ) → (Fin 5 → ℝ) → (Fin 5 → ℝ) × ℝ) d gas gas).2 = 1 := by
  intro d hd
  have hv : Euler.velocity (n := 3) ((1 : ℝ), ![0, 0, 0], 25 / 14) ⟨d, hd⟩ = 0 := by
    unfold Euler.velocity Euler.Cons.m
    interval_cases d <;> simp
  have hp : Euler.pressure (n := 3) (7 / 5) ((1 : ℝ), ![0, 0, 0], 25 / 14) = 5 / 7 := by
    simp [Euler.pressure, Euler.dot, Euler.Cons.m, Euler.Cons.E, Euler.Cons.rho, Fin.sum_univ_three]
    norm_num
  simp only [dif_pos hd, EulerFlux.hll, EulerFlux.hllSpeeds, EulerFlux.meanVelocity, EulerFlux.meanSound, EulerFlux.meanPressure, Euler.soundSpeed]
  simp [gas, hv, hp, Euler.Cons.rho]
  norm_num

end Verif.Props.ParallelSim
