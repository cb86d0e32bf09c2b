import Verif.Basic
import Mathlib.Algebra.Module.LinearMap.Defs
import Mathlib.Algebra.Order.Field.Basic
import Mathlib.Order.WithBot
import Mathlib.Tactic.Module
import Mathlib.Tactic.Linarith
import Mathlib.Tactic.NormNum

/-!
Model of the time integrators (alsfvm/src/integrator). A volume is an element of a module `V` over the field `K` of reals: the operations `+=`, `*=` and
`addLinearCombination` of volumes of equal size are the pointwise ones (C03). The right hand side and the boundary conditions are arbitrary functions that
may fail.
-/

namespace Verif
namespace Integrator
variable {K V : Type} [Field K] [LinearOrder K]

/-- `TimestepInformation` (alsfvm/src/simulator/TimestepInformation.cpp:21-43). -/
structure TimeInfo (K : Type) where
  time : K
  steps : Nat

/-- `incrementTime` (alsfvm/src/simulator/TimestepInformation.cpp:32-35). -/
def TimeInfo.increment (i : TimeInfo K) (dt : K) : TimeInfo K := ⟨i.time + dt, i.steps + 1⟩

/-- `TimestepAdjuster::adjustTimestep` (alsfvm/include/alsfvm/integrator/TimestepAdjuster.hpp:31-43). Time steps live in `WithTop K`: `⊤` stands for the infinite
quotient `cfl / 0`. -/
abbrev Adjuster (K : Type) := WithTop K → TimeInfo K → WithTop K

/-- `System::operator()` (alsfvm/include/alsfvm/integrator/System.hpp:46-49): from the input volume and the previous contents of the output volume to the input
volume (its ghost cells may have been exchanged), the output volume and the wave speeds. -/
abbrev System (V K : Type) := V → V → Res (V × V × (Nat → K))

/-- `waveSpeedTotal` (alsfvm/src/integrator/Integrator.cpp:23-38). -/
def waveSpeedTotal (waveAdj : List (K → K)) (ws len : Nat → K) : K :=
  (List.range 3).foldl (fun total d => if len d = 0 then total else total + waveAdj.foldl (fun w f => f w) (ws d) / len d) 0

/-- `adjustTimestep` (alsfvm/src/integrator/Integrator.cpp:57-66). -/
def adjustTimestep (adj : List (Adjuster K)) (dt : WithTop K) (info : TimeInfo K) : WithTop K := adj.foldl (fun dt f => f dt info) dt

/-- `computeTimestep` (alsfvm/src/integrator/Integrator.cpp:20-46). Division by a zero total gives an infinite time step (the model assumes a positive CFL number). -/
def computeTimestep (waveAdj : List (K → K)) (adj : List (Adjuster K)) (ws len : Nat → K) (cfl : K) (info : TimeInfo K) : WithTop K :=
  adjustTimestep adj (if waveSpeedTotal waveAdj ws len = 0 then ⊤ else ((cfl / waveSpeedTotal waveAdj ws len : K) : WithTop K)) info

/-- Element of `std::vector` without a bounds check. -/
def at' (vols : List V) (i : Nat) : Res V :=
  match vols[i]? with
  | some v => .ok v
  | none => .error .ub

/-- `cellScaling.x` (e.g. alsfvm/src/integrator/ForwardEuler.cpp:42-44) for a time step that may be infinite. An infinite time step or a zero cell length
fills the volume with values that are not finite, which the check at the end of the step refuses by throwing (alsfvm/src/simulator/Simulator.cpp:180-189, C64);
the model throws at once. -/
def finite (dt : WithTop K) (len : Nat → K) : Res K :=
  match dt with
  | none => .error .thrown
  | some dt => if len 0 = 0 then .error .thrown else .ok dt

/-- The integrators (alsfvm/src/integrator/IntegratorFactory.cpp:31-44). -/
inductive Kind
  | forwardEuler
  | rungeKutta2
  | rungeKutta3
  | rungeKutta4

/-- `getNumberOfSubsteps` (ForwardEuler.cpp:27-29, RungeKutta2.cpp:32-34, RungeKutta3.cpp:34-36, RungeKutta4.cpp:35-37). -/
def Kind.substeps : Kind → Nat
  | .forwardEuler => 1
  | .rungeKutta2 => 2
  | .rungeKutta3 => 3
  | .rungeKutta4 => 4

/-- Everything `performSubstep` depends on besides the volumes. -/
structure Env (V K : Type) where
  sys : System V K
  waveAdj : List (K → K)
  len : Nat → K
  cfl : K

variable [AddCommGroup V] [Module K V]

/-- `RungeKutta4::performSubstep`, the operations after the time step is known (alsfvm/src/integrator/RungeKutta4.cpp:68-93). -/
def rk4Combine (vols : List V) (c : K) (substep : Nat) (o : V) : Res V := do
  let o := if substep < 3 then c • o else o
  let o := if substep < 2 then (1 / 2 : K) • o else o
  let u0 ← at' vols 0
  let o := if substep < 3 then o + u0 else o
  if substep = 3 then do
    let u1 ← at' vols 1
    let u2 ← at' vols 2
    let u3 ← at' vols 3
    pure (((1 / 6) * c : K) • o + (1 / 3 : K) • u1 + (2 / 3 : K) • u2 + (1 / 3 : K) • u3 + (-1 / 3 : K) • u0)
  else pure o

/-- The operations of the integrators after the time step is known, `c = dt / dx`: ForwardEuler.cpp:46-47, RungeKutta2.cpp:57-64, RungeKutta3.cpp:69-83,
RungeKutta4.cpp:68-93. `o` is the output of the right hand side. -/
def combine (k : Kind) (vols : List V) (c : K) (substep : Nat) (o : V) : Res V :=
  match k with
  | .forwardEuler => do
    let u0 ← at' vols 0
    pure (c • o + u0)
  | .rungeKutta2 => do
    let u ← at' vols substep
    let o := c • o + u
    if substep = 1 then do
      let u0 ← at' vols 0
      pure ((1 / 2 : K) • (o + u0))
    else pure o
  | .rungeKutta3 => do
    let u ← at' vols substep
    let o := c • o + u
    if substep = 1 then do
      let u0 ← at' vols 0
      pure ((3 / 4 : K) • ((1 / 3 : K) • o + u0))
    else if substep = 2 then do
      let u0 ← at' vols 0
      pure ((1 / 3 : K) • ((2 : K) • o + u0))
    else pure o
  | .rungeKutta4 => rk4Combine vols c substep o

/-- `performSubstep` (ForwardEuler.cpp:32-51, RungeKutta2.cpp:37-67, RungeKutta3.cpp:49-86, RungeKutta4.cpp:50-96): the output volume is `vols[substep + 1]`
(alsfvm/src/simulator/Simulator.cpp:197-204). Returns the volumes and the time step; `ForwardEuler` evaluates `vols[0]` and recomputes the time step in every
substep, the others use `vols[substep]` and compute it in the first substep only. -/
def performSubstep (k : Kind) (e : Env V K) (adj : List (Adjuster K)) (info : TimeInfo K) (vols : List V) (dt : K) (substep : Nat) : Res (List V × K) := do
  let src := match k with
    | .forwardEuler => 0
    | _ => substep
  let u ← at' vols src
  let out ← at' vols (substep + 1)
  let r ← e.sys u out
  let vols := vols.set src r.1
  let first := match k with
    | .forwardEuler => true
    | _ => substep == 0
  let dt ← finite (if first then computeTimestep e.waveAdj adj r.2.2 e.len e.cfl info else (dt : WithTop K)) e.len
  let o ← combine k vols (dt / e.len 0) substep r.2.1
  pure (vols.set (substep + 1) o, dt)

end Integrator
end Verif
