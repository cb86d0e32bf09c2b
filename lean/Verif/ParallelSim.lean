import Verif.ParallelRun
import Verif.Step

/-!
Whole runs on several processes: the simulator loop of every rank, with the exchange of halos in every evaluation of the right hand side. Every evaluation waits for the
messages of the neighbours and the time step needs the wave speeds of all ranks, so the ranks go through the loop together; the model performs each operation on all
ranks before the next one. Within one evaluation the order in which the messages read and write the memory is arbitrary.
-/

namespace Verif.ParallelSim
open Integrator NetFlux Halo ParallelRun

/-- The ranks `0 … size-1` of the communicator. -/
def ranks (p : I3) : List Int := irange 0 (p.x * p.y * p.z)

/-- The same operation on every rank. An error on one rank is an error of the run. -/
def each {A : Type} (l : List Int) (f : Int → Res A) (init : Int → A) : Res (Int → A) :=
  l.foldlM (fun acc r => do
    let a ← f r
    pure (Function.update acc r a)) init

/-- The volumes of all ranks: rank, cell, variable. Every operation of the integrators acts on the volumes of each rank separately, and all ranks have the same number of
cells, cell lengths and (C49) time step. -/
abbrev Volumes (nvars : Nat) (K : Type) := Int → I3 → Fin nvars → K

/-- The cell at a position of the buffer of a volume of size `n`, the inverse of `index` (alsfvm/include/alsfvm/memory/View.hpp:116-118). -/
def cellAt (n : I3) (i : Int) : I3 := ⟨i % n.x, i / n.x % n.y, i / (n.x * n.y)⟩

/-- The memory of all ranks that holds these volumes. -/
def memoryOf {K : Type} [Zero K] {nvars : Nat} (n : I3) (u : Volumes nvars K) : Loc → K :=
  fun l => if h : l.2.1 < nvars then u l.1 (cellAt n l.2.2) ⟨l.2.1, h⟩ else 0

section
variable {K : Type} [Field K] [LinearOrder K] {nvars : Nat}

/-- `Boundary::applyBoundaryConditions` (alsfvm/src/boundary/BoundaryCPU.cpp:31-106) on every rank; the sides with a neighbour are left out
(alsfvm/src/boundary/BoundaryCPU.cpp:62-65). `m` is the number of cells of a part. -/
def jointBoundary (b : BC) (p : I3) (part : Int → Cartesian.Part K) (m : I3) (g dims : Nat) (u : Volumes nvars K) : Res (Volumes nvars K) :=
  each (ranks p) (fun r => do
    match ← Boundary.apply b (totalOf m g) g dims (exchanged (part r)) [field (totalOf m g) (u r)] with
    | [a] => pure a.val
    | _ => .error .ub) u

/-- What one exchange leaves open: the order in which the messages read and write the memory, what was in the buffers of the messages before, and what the numerical
flux sees in the ghost cells while the messages are under way (alsfvm/src/simulator/ConservedSystem.cpp:31-103 evaluates the inner cells meanwhile). -/
structure Schedule (nvars : Nat) (K : Type) where
  events : List Event
  transit : Nat → K
  seen : Volumes nvars K

/-- `ConservedSystem::operator()` (alsfvm/src/simulator/ConservedSystem.cpp:31-103) on every rank, with the halo exchange and with the diffusion operator `none`, followed by
the `MPI_Allreduce` of the wave speeds in `computeTimestep` (alsfvm/src/integrator/Integrator.cpp:26-37). The integrators compute the time step from the wave speeds
of the first substep only; the model takes the maximum in all of them. -/
def jointSystem (p : I3) (part : Int → Cartesian.Part K) (m : I3) (g dims : Nat) (recon : Recon (Fin nvars → K)) (fl : FluxFn (Fin nvars → K) K) (active : I3)
    (work : Int → NetFlux.State (Fin nvars → K) K) (sched : Schedule nvars K) : System (Volumes nvars K) K := fun u out => do
  let mem := after (allTransfers p part nvars g) (memoryOf (totalOf m g) u) sched.transit sched.events
  let R ← each (ranks p) (fun r => conservedSystem dims recon fl (totalOf m g) (ghostsOf m g) active
    (field (totalOf m g) fun c => if IsInterior (totalOf m g) (ghostsOf m g) c then u r c else sched.seen r c)
    (volumeOf (totalOf m g) nvars mem r) { work r with out := field (totalOf m g) (out r), ws := fun _ => 0 }) work
  pure (fun r => (volumeOf (totalOf m g) nvars mem r).val, fun r => (R r).out.val, fun d => allMax (p.x * p.y * p.z) fun r => (R r).ws d)

end

end Verif.ParallelSim
