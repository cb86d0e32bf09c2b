import Verif.Functionals
import Verif.Writers
import Mathlib.Data.String.Basic
import Mathlib.Data.Prod.Lex

/-!
Statistics over samples (alsuq/src/stats, alsuq/src/run/Runner.cpp).
-/

namespace Verif.Stats
open Verif.Structure Verif.Boundary Verif.Functionals Verif.Integrator Verif.Writers

/-- Key of a snapshot: `std::map<real, std::map<std::string, StatisticsSnapshot>>` (alsuq/include/alsuq/stats/StatisticsHelper.hpp:49) is one map with the pair as key,
ordered by time and then by name; `combineStatistics` goes through it in that order. -/
abbrev Key := ℝ ×ₗ String

/-- A `std::map` with ordered keys, as the list of its entries in order. -/
abbrev Snaps := List (Key × Vol)

/-- `findOrCreateSnapshot` (alsuq/src/stats/StatisticsHelper.cpp:102-161) followed by an update `f` of the volume of that snapshot. `zero` is the volume made if the snapshot does not
exist yet. -/
noncomputable def touch (key : Key) (zero : Vol) (f : Vol → Res Vol) : Snaps → Res Snaps
  | [] => do
    let v ← f zero
    pure [(key, v)]
  | (k, v) :: l =>
    if key < k then do
      let w ← f zero
      pure ((key, w) :: (k, v) :: l)
    else if key = k then do
      let w ← f v
      pure ((k, w) :: l)
    else do
      let l' ← touch key zero f l
      pure ((k, v) :: l')

/-- `snapshots[time][name]` for an existing snapshot. -/
noncomputable def find (key : Key) : Snaps → Option Vol
  | [] => none
  | (k, v) :: l => if key = k then some v else find key l

/-- What a statistic does with one of its snapshots: the name, the volume made for it, and the update with the state of a sample. -/
structure Part where
  name : String
  zero : Vol → Vol
  update : Vol → Vol → Res Vol

/-- `computeStatistics` at the time `t` with the state `u`. -/
noncomputable def compute (parts : List Part) (t : ℝ) (u : Vol) (snaps : Snaps) : Res Snaps :=
  parts.foldlM (fun s p => touch (toLex (t, p.name)) (p.zero u) (fun v => p.update v u) s) snaps

/-- `Volume::makeInstance()` and `makeZero` (alsfvm/src/volume/Volume.cpp:402-405, StatisticsHelper.cpp:112-119): same cells, ghost cells and variables, all zero. -/
def sameSize (u : Vol) : Vol := makeVolume u.n u.g u.areas.length

/-- `Volume::makeInstance(nx, ny, nz, platform)` and `makeZero` (Volume.cpp:407-422, StatisticsHelper.cpp:148-156): no ghost cells. -/
def ofSize (size : I3) (u : Vol) : Vol := makeVolume size 0 u.areas.length

/-- `MeanVariance` (alsuq/src/stats/MeanVariance.cpp:30-53): both snapshots are looked up before the first update. -/
noncomputable def meanVariance : List Part := [⟨"mean", sameSize, zipAdd fun x => x⟩, ⟨"variance", sameSize, zipAdd fun x => x ^ 2⟩]

/-- `OnePointMoment` (alsuq/src/stats/OnePointMoment.cpp:31-45). -/
noncomputable def onePointMoment (p : Nat) : List Part := [⟨"m" ++ toString p, sameSize, zipAdd fun x => x ^ p⟩]

/-- `BoundedVariation` (alsuq/src/stats/BoundedVariation.cpp:34-52). -/
noncomputable def boundedVariation (p : Nat) : List Part := [⟨"bv_" ++ toString p, ofSize ⟨1, 1, 1⟩, fun out u =>
  (List.range u.areas.length).foldlM (fun out var => do
    let m ← u.mem var
    let tv ← m.totalVariation p u.g (u.total - u.g)
    out.modify var fun o => addAt o 0 tv) out⟩]

/-- One direction of `BoundedVariationDirection` (alsuq/src/stats/BoundedVariationDirection.cpp:59-76): the value is assigned, not added. -/
noncomputable def bvDirectionUpdate (p direction : Nat) (dims : Nat) (out u : Vol) : Res Vol :=
  if direction < dims then
    (List.range u.areas.length).foldlM (fun out var => do
      let m ← u.mem var
      let tv ← m.totalVariationDir direction p u.g (u.total - u.g)
      out.modify var fun o => o.wr 0 tv) out
  else .ok out

/-- `BoundedVariationDirection` (BoundedVariationDirection.cpp:36-78); `dims` is the number of dimensions of the volumes. -/
noncomputable def boundedVariationDirection (p dims : Nat) : List Part :=
  [⟨"bv_x_" ++ toString p, ofSize ⟨1, 1, 1⟩, bvDirectionUpdate p 0 (max dims 1)⟩, ⟨"bv_y_" ++ toString p, ofSize ⟨1, 1, 1⟩, bvDirectionUpdate p 1 dims⟩,
    ⟨"bv_z_" ++ toString p, ofSize ⟨1, 1, 1⟩, bvDirectionUpdate p 2 dims⟩]

/-- `FunctionalStatistics` (alsuq/src/stats/FunctionalStatistics.cpp:43-67) with a functional `f` of output size `size`; the weight is 1. -/
noncomputable def functionalStatistics (name : String) (f : Vol → Vol → ℝ → Res Vol) (size : I3) : List Part := [⟨"mean_" ++ name, ofSize size, fun out u => f out u 1⟩]

/-- `StructureBasic` (alsuq/src/stats/StructureBasic.cpp:39-120); `std::to_string(p)` is left open (`name`). -/
noncomputable def structureBasic (name : String) (sides : Nat → Option BC) (p : ℝ) (direction : Nat) (numberOfH : Int) : List Part :=
  [⟨name, ofSize ⟨numberOfH, 1, 1⟩, fun out u => (List.range u.areas.length).foldlM (fun out var => do
    let viewIn ← u.view var
    out.modify var fun o => basic sides p direction numberOfH u.n u.g viewIn o) out⟩]

/-- `StructureCube` (alsuq/src/stats/StructureCube.cpp:37-76): here the output is not zeroed. -/
noncomputable def structureCube (name : String) (sides : Nat → Option BC) (p : ℝ) (dims : Nat) (numberOfH : Int) : List Part :=
  [⟨name, ofSize ⟨numberOfH, 1, 1⟩, fun out u => (List.range u.areas.length).foldlM (fun out var => do
    let viewIn ← u.view var
    out.modify var fun o => cubeChecked p sides dims u.n u.g numberOfH viewIn o) out⟩]

/-- `StructureTwoPoints` (alsuq/src/stats/StructureTwoPoints.cpp:39-101). -/
noncomputable def structureTwoPoints (direction1 direction2 : Nat) (numberOfH : Int) : List Part :=
  [⟨"structure_2pt", ofSize ⟨numberOfH, numberOfH, 1⟩, fun out u => (List.range u.areas.length).foldlM (fun out var => do
    let viewIn ← u.view var
    out.modify var fun o => twoPoints direction1 direction2 numberOfH u.n u.g viewIn o) out⟩]

/-- One rank: the samples of the rank one after another, the statistic computed at each of the times `times` (Runner.cpp:42-78; which times these are is the subject of C55).
`U s t` is the state of sample `s` at time `t`. -/
noncomputable def runRank {S : Type} (parts : List Part) (U : S → ℝ → Vol) (times : List ℝ) (samples : List S) : Res Snaps :=
  samples.foldlM (fun snaps s => times.foldlM (fun snaps t => compute parts t (U s t) snaps) snaps) []

/-- `MPI_Reduce` with `MPI_SUM` on two volumes (StatisticsHelper.cpp:61-72), variable by variable. Different counts of entries or different numbers of calls on the ranks are
undefined behaviour (sizes are compared by component). -/
noncomputable def reduceVolume (v w : Vol) : Res Vol :=
  if v.total = w.total ∧ v.areas.length = w.areas.length then .ok { v with areas := List.zipWith (fun f g c => f c + g c) v.areas w.areas }
  else .error .ub

/-- The sequence of reductions over the snapshots: entry `i` of one rank meets entry `i` of the other; names and times are not compared (StatisticsHelper.cpp:37-42). -/
noncomputable def reduceTwo : Snaps → Snaps → Res Snaps
  | [], [] => .ok []
  | (k, v) :: a, (_, w) :: b => do
    let x ← reduceVolume v w
    let r ← reduceTwo a b
    pure ((k, x) :: r)
  | _, _ => .error .ub

/-- `*statisticsData /= samples` (StatisticsHelper.cpp:74). -/
noncomputable def divideAll (samples : Nat) (s : Snaps) : Snaps := s.map fun e => (e.1, { e.2 with areas := e.2.areas.map fun f c => f c / samples })

/-- `combineStatistics` on all ranks (StatisticsHelper.cpp:35-79), rank 0 first; the sum is taken in the order of the ranks (the order does not matter for real numbers). -/
noncomputable def combine (samples : Nat) : List Snaps → Res (List Snaps)
  | [] => .ok []
  | r :: rest => do
    let total ← rest.foldlM reduceTwo r
    pure (divideAll samples total :: rest.map (divideAll samples))

/-- `MeanVariance::finalizeStatistics` (MeanVariance.cpp:55-67); entry by entry instead of time by time. A missing "mean" would be a null pointer. -/
noncomputable def finalizeMeanVariance (s : Snaps) : Res Snaps :=
  s.mapM fun e =>
    if (ofLex e.1).2 = "variance" then
      match find (toLex ((ofLex e.1).1, "mean")) s with
      | none => .error .ub
      | some m => do
        let v ← zipAdd (fun x => -x ^ 2) e.2 m
        pure (e.1, v)
    else pure e

section Times
variable {K V τ : Type} [Field K] [LinearOrder K]

/-- `FixedIntervalStatistics::adjustTimestep` (alsuq/src/stats/FixedIntervalStatistics.cpp:33-41) with `numberSaved = saved`. `rnd` is the rounding of the floating point operations
(the identity for exact arithmetic); the conversion of `numberSaved` is taken as exact. -/
def intervalAdjust (rnd : K → K) (interval : K) (saved : Nat) (dt : WithTop K) (time : K) : WithTop K :=
  if 0 < saved then min dt ((rnd (rnd (saved * interval) - time) : K) : WithTop K) else dt

/-- `FixedIntervalStatistics::computeStatistics` (FixedIntervalStatistics.cpp:64-86), called through `Statistics::write` (alsuq/src/stats/Statistics.cpp:21-26). The state is
`numberSaved` and the state of the wrapped statistic `inner`. -/
def intervalCompute (rnd : K → K) (interval : K) (initial : Bool) (inner : V → TimeInfo K → τ → Res τ) (u : V) (info : TimeInfo K) (s : Nat × τ) : Res (Nat × τ) :=
  let saved := if info.time = 0 then (if initial then 0 else 1) else s.1
  if rnd (saved * interval) ≤ info.time then do
    let t ← inner u info s.2
    pure (saved + 1, t)
  else pure (saved, s.2)

/-- `numberSaved` after construction (FixedIntervalStatistics.cpp:22-31, alsuq/include/alsuq/stats/FixedIntervalStatistics.hpp:74). -/
def intervalInit (initial : Bool) : Nat := if initial then 0 else 1

end Times

end Verif.Stats
