import Verif.Integrator

/-!
Model of the writers that decide when to write: fixed interval, coarse graining, time integrated, time integrated functionals. The wrapped writer is an arbitrary function on
its own state `τ`.
-/

namespace Verif
namespace Writers
open Integrator
variable {K V O τ : Type} [Field K] [LinearOrder K]

/-- Parameters of `FixedIntervalWriter` (alsfvm/src/io/FixedIntervalWriter.cpp:23-31). -/
structure Fixed (K : Type) where
  interval : K
  start : K
  initial : Bool

/-- Initial `numberSaved` (FixedIntervalWriter.cpp:25-29). -/
def Fixed.init (p : Fixed K) : Nat := if p.initial then 0 else 1

/-- `numberSaved * timeInterval + startTime` (FixedIntervalWriter.cpp:38, 48). -/
def Fixed.next (p : Fixed K) (saved : Nat) : K := saved * p.interval + p.start

/-- `FixedIntervalWriter::write` (FixedIntervalWriter.cpp:33-43); the state is `numberSaved` and the state of the wrapped writer. -/
def Fixed.write (p : Fixed K) (inner : V → TimeInfo K → τ → Res τ) (u : V) (info : TimeInfo K) (s : Nat × τ) : Res (Nat × τ) :=
  if p.next s.1 ≤ info.time then do
    let t ← inner u info s.2
    pure (s.1 + 1, t)
  else pure s

/-- `FixedIntervalWriter::adjustTimestep` (FixedIntervalWriter.cpp:45-53). -/
def Fixed.adjust (p : Fixed K) (saved : Nat) : Adjuster K := fun dt info =>
  if 0 < saved then min dt ((p.next saved - info.time : K) : WithTop K) else dt

/-- Parameters of `CoarseGrainingIntervalWriter` (alsfvm/src/io/CoarseGrainingIntervalWriter.cpp:24-34). -/
structure Coarse (K : Type) where
  interval : K
  coarseSaves : Int
  skips : Int

/-- Its mutable state (alsfvm/include/alsfvm/io/CoarseGrainingIntervalWriter.hpp:74-77). `dx` is not initialised by the constructor: `none`. -/
structure CoarseState (K : Type) where
  saved : Int
  small : Int
  first : Bool
  dx : Option K

/-- State after construction. -/
def CoarseState.init : CoarseState K := ⟨0, 0, true, none⟩

/-- The next save time (CoarseGrainingIntervalWriter.cpp:45-46, 81-82). -/
def Coarse.next (p : Coarse K) (dx : K) (saved small : Int) : K := saved * p.interval + ((p.skips : K) + 1) * dx * small

/-- `CoarseGrainingIntervalWriter::write` (CoarseGrainingIntervalWriter.cpp:36-75); `dx` is the cell length of the grid passed in. -/
def Coarse.write (p : Coarse K) (inner : V → TimeInfo K → τ → Res τ) (dx : K) (u : V) (info : TimeInfo K) (s : CoarseState K × τ) : Res (CoarseState K × τ) := do
  let due := p.next dx s.1.saved s.1.small ≤ info.time
  let t ← if due then inner u info s.2 else pure s.2
  let small := if due then s.1.small + 1 else s.1.small
  let saved := if s.1.saved = 0 then s.1.saved + 1 else s.1.saved
  let small := if s.1.first then -p.coarseSaves else small
  if small = p.coarseSaves + 1 then pure (⟨saved + 1, -p.coarseSaves, false, some dx⟩, t)
  else pure (⟨saved, small, false, some dx⟩, t)

/-- `CoarseGrainingIntervalWriter::adjustTimestep` (CoarseGrainingIntervalWriter.cpp:77-88). Reading `dx` before it has been set is undefined behaviour. -/
def Coarse.adjust (p : Coarse K) (s : CoarseState K) (dt : WithTop K) (info : TimeInfo K) : Res (WithTop K) :=
  if 0 < s.saved then
    match s.dx with
    | none => .error .ub
    | some dx => .ok (min dt ((p.next dx s.saved s.small - info.time : K) : WithTop K))
  else .ok dt

/-- Mutable state of `TimeIntegratedWriter` (alsfvm/include/alsfvm/io/TimeIntegratedWriter.hpp:57-63); `acc` is the volume allocated at the first use. -/
structure IntegratedState (V K : Type) where
  acc : Option V
  last : K
  written : Bool

/-- State after construction. -/
def IntegratedState.init : IntegratedState V K := ⟨none, 0, false⟩

/-- `TimeIntegratedWriter::write` (alsfvm/src/io/TimeIntegratedWriter.cpp:28-66); `time` and `radius` are its parameters. Multiplying the volume that was never allocated
dereferences a null pointer. -/
def integratedWrite [AddCommGroup V] [Module K V] (time radius : K) (inner : V → TimeInfo K → τ → Res τ) (u : V) (info : TimeInfo K) (s : IntegratedState V K × τ) :
    Res (IntegratedState V K × τ) := do
  let acc := if |info.time - time| < radius then some (s.1.acc.getD 0 + (info.time - s.1.last) • u) else s.1.acc
  if s.1.written = false ∧ time + radius ≤ info.time then
    match acc with
    | none => .error .ub
    | some a => do
      let a := ((1 / 2) / radius : K) • a
      let t ← inner a ⟨time, 0⟩ s.2
      pure (⟨some a, info.time, true⟩, t)
  else pure (⟨acc, info.time, s.1.written⟩, s.2)

/-- `TimeIntegrationFunctional::write` (alsfvm/src/functional/TimeIntegrationFunctional.cpp:33-49). The functional `f` is called with the output volume, the state and the
weight; `zero` is the volume made at the first call. The state is the volume and `lastTime`. -/
def functionalWrite (time radius : K) (zero : O) (f : O → V → K → Res O) (u : V) (info : TimeInfo K) (s : Option O × K) : Res (Option O × K) := do
  let vol := s.1.getD zero
  if |info.time - time| ≤ radius then do
    let vol ← f vol u (info.time - s.2)
    pure (some vol, info.time)
  else pure (some vol, info.time)

/-- `TimeIntegrationFunctional::finalize` (TimeIntegrationFunctional.cpp:51-62): the volume that is written. -/
def functionalFinalize (s : Option O × K) : Res O :=
  match s.1 with
  | none => .error .ub
  | some o => .ok o

end Writers
end Verif
