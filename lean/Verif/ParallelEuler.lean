import Verif.ParallelSimLemmas
import Verif.EulerRun
import Verif.Props.EulerRun

/-! Helper lemmas for the counterexample of C93: one step of the Euler equations in three dimensions on two processes. -/

namespace Verif.ParallelSim
open Integrator Simulator NetFlux Halo ParallelRun Iterate Cartesian Props.Parallel

/-- The wave speeds of a uniform state. -/
theorem waves_uniform {K V : Type} [Field K] [LinearOrder K] [IsStrictOrderedRing K] [AddCommGroup V] [Module K V] {b : BC} {n G active : I3} {g dims : Nat}
    {r : Recon V} {fl : FluxFn V K} (hL : Layout n G active dims g) (hf : Fits r fl g) (hN : ∀ d < dims, 3 * G.get d ≤ n.get d) (hpos : 0 < dims)
    {work : NetFlux.State V K} (hw : Sized n work) (a : V) (s : K) (hs : 0 ≤ s) (hq : ∀ k < dims, ∃ q, IsFace n G 0 0 k q)
    (hface : ∀ k < dims, ∀ q, (face r fl (fun _ => a) k q).2 = s) (k : Nat) :
    Step.waves b dims r fl n G active g work (fun _ => a) k = if k < dims then s else 0 := by
  obtain ⟨t, e1, -, -, e4, e5⟩ := Step.cpuSystem_ok hL hf hN hpos hw (Step.extend b n G g dims fun _ => a) 0
  simp only [Step.waves, e1]
  have hext : ∀ p, inSize n p = true → Step.extend b n G g dims (fun _ => a) p = a := fun p hp => by
    rw [Step.extend, dif_pos (Step.ghostSource_interior hL hN hp)]
  split_ifs with hk
  · refine (e4 k hk).unique ⟨Or.inr ?_, ?_⟩
    · obtain ⟨q, hq⟩ := hq k hk
      exact ⟨q, hq, by rw [Step.face_congr_full hL hf hk (v := fun _ => a) hext hq, hface k hk q]⟩
    · rintro x (rfl | ⟨q, hq, rfl⟩)
      · exact hs
      · rw [Step.face_congr_full hL hf hk (v := fun _ => a) hext hq, hface k hk q]
  · exact e5 k (by omega)

/-- The wave speeds of a flux with a fixed wave speed. -/
theorem waves_fixed {K V : Type} [Field K] [LinearOrder K] [IsStrictOrderedRing K] [AddCommGroup V] [Module K V] {b : BC} {n G active : I3} {g dims : Nat}
    {r : Recon V} {fl : FluxFn V K} (hL : Layout n G active dims g) (hf : Fits r fl g) (hN : ∀ d < dims, 3 * G.get d ≤ n.get d) (hpos : 0 < dims)
    {work : NetFlux.State V K} (hw : Sized n work) (u : Step.Cells n G → V) (s : K) (hs : 0 ≤ s) (hq : ∀ k < dims, ∃ q, IsFace n G 0 0 k q)
    (hface : ∀ u k q, (face r fl u k q).2 = s) (k : Nat) :
    Step.waves b dims r fl n G active g work u k = if k < dims then s else 0 := by
  obtain ⟨t, e1, -, -, e4, e5⟩ := Step.cpuSystem_ok hL hf hN hpos hw (Step.extend b n G g dims u) 0
  simp only [Step.waves, e1]
  split_ifs with hk
  · refine (e4 k hk).unique ⟨Or.inr ?_, ?_⟩
    · obtain ⟨q, hq⟩ := hq k hk
      exact ⟨q, hq, (hface _ _ _).symm⟩
    · rintro x (rfl | ⟨q, hq, rfl⟩)
      · exact hs
      · rw [hface]
  · exact e5 k (by omega)

/-- One step of forward Euler, with the contents of all cells. -/
theorem forwardEuler_increment {K V σ : Type} [Field K] [LinearOrder K] [AddCommGroup V] [Module K V] (c : Config V K σ) (hk : c.kind = .forwardEuler)
    (sys : Nat → System V K) (a b : V) (info : TimeInfo K) (wst : σ) (log : List (Call V K)) (r : V × V × (Nat → K)) (h1 : sys 0 a b = .ok r) (dt : K)
    (hdt : computeTimestep c.env.waveAdj (c.adjusters wst) r.2.2 c.env.len c.env.cfl info = dt) (hx : c.env.len 0 ≠ 0) (v : V)
    (hv : c.bc ((dt / c.env.len 0) • r.2.1 + r.1) = .ok v) : incrementWith c sys ⟨[a, b], info, wst, log⟩ = .ok ⟨[v, r.1], info.increment dt, wst, log⟩ := by
  have hfin : finite (dt : WithTop K) c.env.len = .ok dt := by
    change (if c.env.len 0 = 0 then _ else _) = _
    rw [if_neg hx]
  obtain ⟨kind, env, bc, obeys, writers, adjusters, endTime⟩ := c
  simp only at *
  subst hk
  simp [incrementWith, Kind.substeps, substepAndBoundary, performSubstep, at', h1, hdt, hfin, combine, hv, swapEnds, List.range_succ]

end Verif.ParallelSim
