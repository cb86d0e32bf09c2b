import Verif.PunctualWriters
import Verif.RunSetupOutput
import Verif.Props.WholeRun
import Verif.Props.EulerRun

/-! C80, C81, C82 and C88 for whole programs: the writers are those of a configuration. -/

namespace Verif.Props.RunBounds
open Verif Verif.Setup Verif.Integrator Verif.Simulator Verif.NetFlux Verif.ScalarRun Verif.Props.WholeRun Verif.EulerRun Verif.Euler Verif.EulerFlux Verif.Props.EulerRun

/-- C80, for a program: `C80_no_new_extrema_partial` with the writers of a configuration, which adjust the time steps to their save times. Every state handed to a writer lies between the bounds
of the initial data. Missing: as in `C80_no_new_extrema_partial`, and writers that are not `Timely`, which can ask for negative time steps (C37, C38). -/
theorem C80_program_partial {Fn : Type} (eval : Fn → (I3 → ℝ) → (I3 → ℝ) → ℝ → Res (I3 → ℝ)) (dx : ℝ) (s : Settings ℝ Fn) (ht : ∀ w ∈ s.writers, Timely dx w)
    (k : Kind) (b : BC) (dims g : Nat) (hg : 1 ≤ g) (e : Flux.ScalarName) (name : String)
    (F : Flux.Selected) (hsel : Flux.select e name = some F) (hcov : Covered e name) (hk : k = .rungeKutta4 → e = .linear ∧ name ≠ "roe") (n G active : I3) (hL : Layout n G active dims g)
    (hN : ∀ d < dims, 3 * G.get d ≤ n.get d) (hpos : 0 < dims) (work : NetFlux.State ℝ ℝ) (hw : Sized n work)
    (waveAdj : List (ℝ → ℝ)) (hwave : ∀ f ∈ waveAdj, ∀ w, w ≤ f w) (len : Nat → ℝ) (hlen : ∀ d, 0 ≤ len d) (hlen0 : 0 < len 0) (hcube : ∀ d < dims, len d = len 0)
    (cfl : ℝ) (hcfl0 : 0 < cfl) (hcfl : cfl ≤ 1) (obeys : (I3 → ℝ) → Bool)
    (u : I3 → ℝ) (others : List (I3 → ℝ)) (hothers : others.length = k.substeps) (m M : ℝ) (hu : ∀ p, IsInterior n G p → m ≤ u p ∧ u p ≤ M)
    (fuel : Nat) (sim : Sim (I3 → ℝ) ℝ (States (I3 → ℝ) s.writers))
    (h : program eval dx s k ⟨Step.cpuSystem dims CudaRecon.noRecon (asFlux F) n G active work, waveAdj, len, cfl⟩ (Step.cpuBoundary b n g dims) obeys u others fuel = .ok (some sim)) :
    (∃ u', sim.vols[0]? = some u' ∧ ∀ p, IsInterior n G p → m ≤ u' p ∧ u' p ≤ M) ∧ ∀ call ∈ sim.log, ∀ p, IsInterior n G p → m ≤ call.state p ∧ call.state p ≤ M := by
  obtain ⟨sim', h1, h2, h3⟩ := program_run h
  rw [h2, h3]
  exact C80_no_new_extrema_partial k b dims g hg e name F hsel hcov hk n G active hL hN hpos work hw waveAdj hwave len hlen hlen0 hcube cfl hcfl0 hcfl s.endTime obeys _ _ _ _
    (punctual_writers eval dx s k ⟨Step.cpuSystem dims CudaRecon.noRecon (asFlux F) n G active work, waveAdj, len, cfl⟩ (Step.cpuBoundary b n g dims) obeys ht) _ rfl u others hothers m M hu fuel sim' h1

/-- C81, for a program: `C81_variation_diminishing_partial` with the writers of a configuration. -/
theorem C81_program_partial {Fn : Type} (eval : Fn → (I3 → ℝ) → (I3 → ℝ) → ℝ → Res (I3 → ℝ)) (dx : ℝ) (s : Settings ℝ Fn) (ht : ∀ w ∈ s.writers, Timely dx w)
    (k : Kind) (b : BC) (N g : Nat) (hg : 1 ≤ g) (hN : g ≤ N) (e : Flux.ScalarName) (name : String)
    (F : Flux.Selected) (hsel : Flux.select e name = some F) (hcov : Covered e name) (hk : k = .rungeKutta4 → e = .linear ∧ name ≠ "roe") (work : NetFlux.State ℝ ℝ) (hw : Sized ⟨N + 2 * g, 1, 1⟩ work)
    (waveAdj : List (ℝ → ℝ)) (hwave : ∀ f ∈ waveAdj, ∀ w, w ≤ f w) (len : Nat → ℝ) (hlen : ∀ d, 0 ≤ len d) (hlen0 : 0 < len 0)
    (cfl : ℝ) (hcfl0 : 0 < cfl) (hcfl : cfl ≤ 1) (obeys : (I3 → ℝ) → Bool)
    (u : I3 → ℝ) (others : List (I3 → ℝ)) (hothers : others.length = k.substeps) (fuel : Nat) (sim : Sim (I3 → ℝ) ℝ (States (I3 → ℝ) s.writers))
    (h : program eval dx s k ⟨Step.cpuSystem 1 CudaRecon.noRecon (asFlux F) ⟨N + 2 * g, 1, 1⟩ ⟨g, 0, 0⟩ ⟨1, 0, 0⟩ work, waveAdj, len, cfl⟩ (Step.cpuBoundary b ⟨N + 2 * g, 1, 1⟩ g 1) obeys
      u others fuel = .ok (some sim)) :
    (∃ u', sim.vols[0]? = some u' ∧ jumps b N g u' ≤ jumps b N g u) ∧ ∀ call ∈ sim.log, jumps b N g call.state ≤ jumps b N g u := by
  obtain ⟨sim', h1, h2, h3⟩ := program_run h
  rw [h2, h3]
  exact C81_variation_diminishing_partial k b N g hg hN e name F hsel hcov hk work hw waveAdj hwave len hlen hlen0 cfl hcfl0 hcfl s.endTime obeys _ _ _ _
    (punctual_writers eval dx s k ⟨Step.cpuSystem 1 CudaRecon.noRecon (asFlux F) ⟨N + 2 * g, 1, 1⟩ ⟨g, 0, 0⟩ ⟨1, 0, 0⟩ work, waveAdj, len, cfl⟩ (Step.cpuBoundary b ⟨N + 2 * g, 1, 1⟩ g 1) obeys ht)
    _ rfl u others hothers fuel sim' h1

/-- C82, for a program: `C82_limited_no_new_extrema_partial` with the writers of a configuration. -/
theorem C82_program_partial {Fn : Type} (eval : Fn → (I3 → ℝ) → (I3 → ℝ) → ℝ → Res (I3 → ℝ)) (dx : ℝ) (s : Settings ℝ Fn) (ht : ∀ w ∈ s.writers, Timely dx w)
    (rec : ℝ → ℝ → ℝ → ℝ × ℝ) (hrec : rec = Limiter.mm ∨ rec = Limiter.mc) (k : Kind) (hk : k ≠ .rungeKutta4) (b : BC)
    (dims g : Nat) (hg : 2 ≤ g) (e : Flux.ScalarName) (name : String)
    (F : Flux.Selected) (hsel : Flux.select e name = some F) (hcov : Covered e name) (n G active : I3) (hL : Layout n G active dims g)
    (hN : ∀ d < dims, 3 * G.get d ≤ n.get d) (hpos : 0 < dims) (work : NetFlux.State ℝ ℝ) (hw : Sized n work)
    (waveAdj : List (ℝ → ℝ)) (hwave : ∀ f ∈ waveAdj, ∀ w, w ≤ f w) (len : Nat → ℝ) (hlen : ∀ d, 0 ≤ len d) (hlen0 : 0 < len 0) (hcube : ∀ d < dims, len d = len 0)
    (cfl : ℝ) (hcfl0 : 0 < cfl) (hcfl : cfl ≤ 1 / 2) (obeys : (I3 → ℝ) → Bool)
    (u : I3 → ℝ) (others : List (I3 → ℝ)) (hothers : others.length = k.substeps) (m M : ℝ) (hu : ∀ p, IsInterior n G p → m ≤ u p ∧ u p ≤ M)
    (fuel : Nat) (sim : Sim (I3 → ℝ) ℝ (States (I3 → ℝ) s.writers))
    (h : program eval dx s k ⟨Step.cpuSystem dims (LimitedRun.limited rec) (asFlux F) n G active work, waveAdj, len, cfl⟩ (Step.cpuBoundary b n g dims) obeys u others fuel = .ok (some sim)) :
    (∃ u', sim.vols[0]? = some u' ∧ ∀ p, IsInterior n G p → m ≤ u' p ∧ u' p ≤ M) ∧ ∀ call ∈ sim.log, ∀ p, IsInterior n G p → m ≤ call.state p ∧ call.state p ≤ M := by
  obtain ⟨sim', h1, h2, h3⟩ := program_run h
  rw [h2, h3]
  exact C82_limited_no_new_extrema_partial rec hrec k hk b dims g hg e name F hsel hcov n G active hL hN hpos work hw waveAdj hwave len hlen hlen0 hcube cfl hcfl0 hcfl s.endTime obeys _ _ _ _
    (punctual_writers eval dx s k ⟨Step.cpuSystem dims (LimitedRun.limited rec) (asFlux F) n G active work, waveAdj, len, cfl⟩ (Step.cpuBoundary b n g dims) obeys ht) _ rfl u others hothers m M hu
    fuel sim' h1

/-- C88, for a program: `C88_positive_partial` with the writers of a configuration. The check never refuses a state: the program does the same without it. -/
theorem C88_program_partial {Fn : Type} (γ : ℝ) (hγ : 1 < γ) (b : BC) (m dims g : Nat) (hm : dims ≤ m) (eval : Fn → (I3 → Cons m) → (I3 → Cons m) → ℝ → Res (I3 → Cons m)) (dx : ℝ)
    (s : Settings ℝ Fn) (ht : ∀ w ∈ s.writers, Timely dx w) (hg : 1 ≤ g) (n G active : I3) (hL : Layout n G active dims g)
    (hN : ∀ d < dims, 3 * G.get d ≤ n.get d) (hpos : 0 < dims) (work : NetFlux.State (Cons m) ℝ) (hw : Sized n work)
    (waveAdj : List (ℝ → ℝ)) (hwave : ∀ f ∈ waveAdj, ∀ w, w ≤ f w) (len : Nat → ℝ) (hlen : ∀ d, 0 ≤ len d) (hlen0 : 0 < len 0) (hcube : ∀ d < dims, len d = len 0)
    (cfl : ℝ) (hcfl0 : 0 < cfl) (hcfl : cfl < 1) (obeys : (I3 → Cons m) → Bool) (env : Env (I3 → Cons m) ℝ)
    (henv : env = ⟨Step.cpuSystem dims CudaRecon.noRecon (solverFlux m γ "hll") n G active work, waveAdj, len, cfl⟩)
    (u : I3 → Cons m) (spare : I3 → Cons m) (hu : ∀ p, IsInterior n G p → Positive γ (u p)) (fuel : Nat) :
    (∀ sim, program eval dx s .forwardEuler env (Step.cpuBoundary b n g dims) obeys u [spare] fuel = .ok (some sim) →
      (∃ u', sim.vols[0]? = some u' ∧ ∀ p, IsInterior n G p → Positive γ (u' p)) ∧ ∀ call ∈ sim.log, ∀ p, IsInterior n G p → Positive γ (call.state p)) ∧
    ((∀ v, (∀ p, inSize n p = true → Positive γ (v p)) → obeys v = true) →
      program eval dx s .forwardEuler env (Step.cpuBoundary b n g dims) obeys u [spare] fuel =
        program eval dx s .forwardEuler env (Step.cpuBoundary b n g dims) (fun _ => true) u [spare] fuel) := by
  have key := C88_positive_partial γ hγ b m dims g hm hg n G active hL hN hpos work hw waveAdj hwave len hlen hlen0 hcube cfl hcfl0 hcfl s.endTime obeys _ _ _ _
    (punctual_writers eval dx s .forwardEuler env (Step.cpuBoundary b n g dims) obeys ht) (simulator eval dx s .forwardEuler env (Step.cpuBoundary b n g dims) obeys)
    (by rw [henv]; rfl) u spare hu fuel
  refine ⟨fun sim h => ?_, fun hob => ?_⟩
  · obtain ⟨sim', h1, h2, h3⟩ := program_run h
    rw [h2, h3]
    exact key.1 sim' h1
  · have h := key.2 hob
    have e : ∀ ob, program eval dx s .forwardEuler env (Step.cpuBoundary b n g dims) ob u [spare] fuel =
        ((start (simulator eval dx s .forwardEuler env (Step.cpuBoundary b n g dims) ob) u [spare] (freshAll _ s.writers) >>=
          run (simulator eval dx s .forwardEuler env (Step.cpuBoundary b n g dims) ob) fuel) >>= fun r => match r with
            | none => .ok none
            | some sim => do
              let ws ← finalizeAll eval dx s.writers sim.info sim.ws
              .ok (some { sim with ws := ws })) := by
      intro ob
      simp only [program]
      rw [bind_assoc]
      refine bind_congr fun x => bind_congr fun r => ?_
      cases r <;> rfl
    rw [e, e, h]
    rfl

/-! ### Concrete programs -/

/-- Settings with the end time 1 and two outputs: saves at the times 1/2 and 1, and all steps. -/
noncomputable def exSettings : Settings ℝ Unit :=
  ⟨⟨"cpu", "linear", "upwind", "none", "rungekutta2", "periodic", "none", "none", ⟨3, 1, 1⟩⟩, ⟨⟨0, 0, 0⟩, ⟨3, 1, 1⟩, ⟨3, 1, 1⟩, true⟩, 1, 1 / 4, none, [], [], [],
    [.fixed (.base [] [] (.node [] [])) (some (1 / (2 : Nat))) 0 false, .base [] [] (.node [] [])], []⟩

theorem exAsked : ∀ w ∈ exSettings.writers, Asked exSettings.endTime w := by
  intro w hw
  simp only [exSettings, List.mem_cons, List.not_mem_nil, or_false] at hw ⊢
  rcases hw with rfl | rfl
  · exact .saves _ _ _ 2 false (by omega)
  · exact .everyStep _ _ _

theorem exTimely (dx : ℝ) : ∀ w ∈ exSettings.writers, Timely dx w := fun w hw => timely_of_asked (by norm_num [exSettings]) (exAsked w hw)

/-- The program of linear transport ends, also with a reconstruction. -/
theorem exEnds (r : NetFlux.Recon ℝ) (n G : I3) (g : Nat) (work : NetFlux.State ℝ ℝ) (hL : Layout n G ⟨1, 0, 0⟩ 1 g) (hf : Fits r (asFlux (Flux.two Flux.upwind)) g)
    (hN : ∀ d < 1, 3 * G.get d ≤ n.get d) (hw : Sized n work)
    (hws : ∀ u, Step.waves .periodic 1 r (asFlux (Flux.two Flux.upwind)) n G ⟨1, 0, 0⟩ g work u = fun k => if k < 1 then (1 : ℝ) else 0) (u : I3 → ℝ) :
    ∃ fuel sim, program (fun _ _ v _ => .ok v) 1 exSettings .rungeKutta2 ⟨Step.cpuSystem 1 r (asFlux (Flux.two Flux.upwind)) n G ⟨1, 0, 0⟩ work, [], fun _ => 1, 1 / 4⟩
      (Step.cpuBoundary .periodic n g 1) (fun _ => true) u [0, 0] fuel = .ok (some sim) := by
  have hs := Step.sound (b := .periodic) (active := ⟨1, 0, 0⟩) hL hf hN (by decide) hw
  obtain ⟨u0, hbc, -, hr⟩ := hs.bc_ok u
  obtain ⟨fuel, past, sim, h, -⟩ := program_ok (fun _ _ v _ => .ok v) 1 exSettings .rungeKutta2
    ⟨Step.cpuSystem 1 r (asFlux (Flux.two Flux.upwind)) n G ⟨1, 0, 0⟩ work, [], fun _ => 1, 1 / 4⟩ (Step.cpuBoundary .periodic n g 1) (fun _ => true) _ _ _ _ hs one_ne_zero (fun _ => True) (1 / 4)
    (.always (by norm_num) fun w => by simp [waveSpeedTotal, List.range_succ, hws]) (fun _ _ _ => rfl) (fun _ _ _ _ => ⟨_, rfl⟩) (by norm_num [exSettings]) exAsked
    ⟨_, List.mem_cons_self, trivial⟩ u u0 [0, 0] rfl hbc hr trivial
  exact ⟨fuel, sim, h⟩

/-- The hypotheses of `C80_program_partial` hold for a program from the data 1, 0, 1/11. -/
example : ∃ fuel sim, program (fun _ _ v _ => .ok v) 1 exSettings .rungeKutta2
      ⟨Step.cpuSystem 1 CudaRecon.noRecon (asFlux (Flux.two Flux.upwind)) ⟨5, 1, 1⟩ ⟨1, 0, 0⟩ ⟨1, 0, 0⟩ exWork3, [], fun _ => 1, 1 / 4⟩
      (Step.cpuBoundary .periodic ⟨5, 1, 1⟩ 1 1) (fun _ => true) exData [0, 0] fuel = .ok (some sim) ∧
    ∀ call ∈ sim.log, ∀ p, IsInterior ⟨5, 1, 1⟩ ⟨1, 0, 0⟩ p → 0 ≤ call.state p ∧ call.state p ≤ 1 := by
  obtain ⟨fuel, sim, h⟩ := exEnds CudaRecon.noRecon ⟨5, 1, 1⟩ ⟨1, 0, 0⟩ 1 exWork3 exLayout3 (fits _ (le_refl 1)) (by decide) exSized3 exLinear_waves exData
  exact ⟨fuel, sim, h, (C80_program_partial _ 1 exSettings (exTimely 1) .rungeKutta2 .periodic 1 1 (le_refl 1) .linear "upwind" (Flux.two Flux.upwind) rfl .linearUpwind (by simp)
    ⟨5, 1, 1⟩ ⟨1, 0, 0⟩ ⟨1, 0, 0⟩ exLayout3 (by decide) (by decide) exWork3 exSized3 [] (by simp) (fun _ => 1) (fun _ => zero_le_one) one_pos (fun _ _ => rfl) (1 / 4)
    (by norm_num) (by norm_num) _ exData [0, 0] rfl 0 1 (fun p _ => by unfold exData; split_ifs <;> norm_num) fuel sim h).2⟩

/-- The hypotheses of `C81_program_partial` hold for the same program: the jumps of the data 1, 0, 1/11 sum up to 2. -/
example : ∃ fuel sim, program (fun _ _ v _ => .ok v) 1 exSettings .rungeKutta2
      ⟨Step.cpuSystem 1 CudaRecon.noRecon (asFlux (Flux.two Flux.upwind)) ⟨5, 1, 1⟩ ⟨1, 0, 0⟩ ⟨1, 0, 0⟩ exWork3, [], fun _ => 1, 1 / 4⟩
      (Step.cpuBoundary .periodic ⟨5, 1, 1⟩ 1 1) (fun _ => true) exData [0, 0] fuel = .ok (some sim) ∧ ∀ call ∈ sim.log, jumps .periodic 3 1 call.state ≤ 2 := by
  obtain ⟨fuel, sim, h⟩ := exEnds CudaRecon.noRecon ⟨5, 1, 1⟩ ⟨1, 0, 0⟩ 1 exWork3 exLayout3 (fits _ (le_refl 1)) (by decide) exSized3 exLinear_waves exData
  refine ⟨fuel, sim, h, fun call hc => ((C81_program_partial _ 1 exSettings (exTimely 1) .rungeKutta2 .periodic 3 1 (le_refl 1) (by decide) .linear "upwind"
    (Flux.two Flux.upwind) rfl .linearUpwind (by simp) exWork3 exSized3 [] (by simp) (fun _ => 1) (fun _ => zero_le_one) one_pos (1 / 4)
    (by norm_num) (by norm_num) _ exData [0, 0] rfl fuel sim h).2 call hc).trans ?_⟩
  simp [jumps, Finset.sum_range_succ, exData]
  norm_num [abs_of_nonneg, abs_of_nonpos]

/-- The hypotheses of `C82_program_partial` hold for a program from the data 1, 2, 3. -/
example : ∃ fuel sim, program (fun _ _ v _ => .ok v) 1 exSettings .rungeKutta2
      ⟨Step.cpuSystem 1 (LimitedRun.limited Limiter.mc) (asFlux (Flux.two Flux.upwind)) ⟨7, 1, 1⟩ ⟨2, 0, 0⟩ ⟨1, 0, 0⟩ exWork4, [], fun _ => 1, 1 / 4⟩
      (Step.cpuBoundary .periodic ⟨7, 1, 1⟩ 2 1) (fun _ => true) (fun p => p.x - 1) [0, 0] fuel = .ok (some sim) ∧
    ∀ call ∈ sim.log, ∀ p, IsInterior ⟨7, 1, 1⟩ ⟨2, 0, 0⟩ p → 1 ≤ call.state p ∧ call.state p ≤ 3 := by
  obtain ⟨fuel, sim, h⟩ := exEnds (LimitedRun.limited Limiter.mc) ⟨7, 1, 1⟩ ⟨2, 0, 0⟩ 2 exWork4 exLayout4 (LimitedRun.fits Limiter.mc _ (le_refl 2)) (by decide) exSized4 exLimited_waves
    fun p => p.x - 1
  exact ⟨fuel, sim, h, (C82_program_partial _ 1 exSettings (exTimely 1) Limiter.mc (Or.inr rfl) .rungeKutta2 (by simp) .periodic 1 2 (le_refl 2) .linear "upwind" (Flux.two Flux.upwind)
    rfl .linearUpwind ⟨7, 1, 1⟩ ⟨2, 0, 0⟩ ⟨1, 0, 0⟩ exLayout4 (by decide) (by decide) exWork4 exSized4 [] (by simp) (fun _ => 1) (fun _ => zero_le_one) one_pos (fun _ _ => rfl) (1 / 4)
    (by norm_num) (by norm_num) _ _ [0, 0] rfl 1 3 (fun p hp => by
      have h := hp 0 (by decide)
      simp [I3.get] at h
      have h3 : (2 : ℝ) ≤ p.x := by exact_mod_cast h.1
      have h4 : ((p.x + 1 : Int) : ℝ) ≤ ((5 : Int) : ℝ) := by exact_mod_cast h.2
      push_cast at h4
      constructor <;> linarith) fuel sim h).2⟩

open Classical in
/-- The hypotheses of `C88_program_partial` hold with the same outputs for gas at rest between gas streaming to both sides: the check of the states never stops the program. -/
example (fuel : Nat) (env : Env (I3 → Cons 1) ℝ)
    (henv : env = ⟨Step.cpuSystem 1 CudaRecon.noRecon (solverFlux 1 2 "hll") ⟨5, 1, 1⟩ ⟨1, 0, 0⟩ ⟨1, 0, 0⟩ (work3 (Cons 1)), [], fun _ => 1, 9 / 10⟩) :
    program (fun _ _ v _ => .ok v) 1 exSettings .forwardEuler env (Step.cpuBoundary .periodic ⟨5, 1, 1⟩ 1 1)
        (fun v => decide (∀ p, inSize ⟨5, 1, 1⟩ p = true → Positive 2 (v p))) (data3 exLeft exMiddle exRight) [0] fuel =
      program (fun _ _ v _ => .ok v) 1 exSettings .forwardEuler env (Step.cpuBoundary .periodic ⟨5, 1, 1⟩ 1 1) (fun _ => true) (data3 exLeft exMiddle exRight) [0] fuel := by
  obtain ⟨hl, hm, hr⟩ := exPositive
  exact (C88_program_partial 2 (by norm_num) .periodic 1 1 1 le_rfl _ 1 exSettings (exTimely 1) le_rfl ⟨5, 1, 1⟩ ⟨1, 0, 0⟩ ⟨1, 0, 0⟩ layout3 (by decide) (by decide) (work3 (Cons 1)) sized3
    [] (by simp) (fun _ => 1) (fun _ => zero_le_one) one_pos (fun _ _ => rfl) (9 / 10) (by norm_num) (by norm_num) _ env henv
    (data3 exLeft exMiddle exRight) 0 (fun p hp => by
      have h := hp 0 (by decide)
      simp [I3.get] at h
      unfold data3
      split_ifs
      · exact hl
      · exact hm
      · exact hr
      · omega) fuel).2 (fun v hv => decide_eq_true hv)

end Verif.Props.RunBounds
