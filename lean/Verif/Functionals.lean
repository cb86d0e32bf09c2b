import Verif.Structure
import Verif.TotalVariation
import Verif.Iterate
import Mathlib.Analysis.SpecialFunctions.Log.Basic

/-!
Functionals of a field (alsfvm/src/functional): they add to an output volume, with a weight.
-/

namespace Verif.Functionals
open Verif.Structure Verif.Boundary

/-- A volume (alsfvm/src/volume/Volume.cpp:44-60): numbers of inner and ghost cells (on each side), and the contents of the variables by cell position, ghost cells included
(the first cell of the memory area is position zero). Contents outside of `total` have no meaning. -/
structure Vol where
  n : I3
  g : I3
  areas : List (I3 → ℝ)

/-- Size including ghost cells (alsfvm/src/volume/Volume.cpp:87-90). -/
def Vol.total (v : Vol) : I3 := v.n + v.g + v.g

/-- `getScalarMemoryArea(index)->getView()` (alsfvm/src/volume/Volume.cpp:107-123); the index is not checked. -/
def Vol.view (v : Vol) (var : Nat) : Res (Arr I3 ℝ) :=
  match v.areas[var]? with
  | none => .error .ub
  | some f => .ok (field v.total f)

/-- The memory area behind a view: the same contents by flat index (alsfvm/include/alsfvm/memory/View.hpp:65-84). -/
def toMem (size : I3) (f : I3 → ℝ) : Mem ℝ :=
  ⟨size.x.toNat, size.y.toNat, size.z.toNat, fun i => f ⟨(i % size.x.toNat : Nat), (i / size.x.toNat % size.y.toNat : Nat), (i / (size.x.toNat * size.y.toNat) : Nat)⟩⟩

/-- `getScalarMemoryArea(index)` (alsfvm/src/volume/Volume.cpp:107-123). -/
def Vol.mem (v : Vol) (var : Nat) : Res (Mem ℝ) :=
  match v.areas[var]? with
  | none => .error .ub
  | some f => .ok (toMem v.total f)

/-- A write access to the view of one variable of a volume (alsfvm/src/volume/Volume.cpp:107-110). -/
def Vol.modify (v : Vol) (var : Nat) (step : Arr I3 ℝ → Res (Arr I3 ℝ)) : Res Vol :=
  match v.areas[var]? with
  | none => .error .ub
  | some f => do
    let a ← step (field v.total f)
    pure { v with areas := v.areas.set var a.val }

/-- `Volume::makeZero` (alsfvm/src/volume/Volume.cpp:228-232). -/
def Vol.zero (v : Vol) : Vol := { v with areas := v.areas.map fun _ _ => 0 }

/-- The volume made for the output of a functional (alsfvm/src/functional/TimeIntegrationFunctional.cpp:64-74): `k` variables, all zero. -/
def makeVolume (n g : I3) (k : Nat) : Vol := ⟨n, g, List.replicate k fun _ => 0⟩

/-- `Identity::operator()` (alsfvm/src/functional/Identity.cpp:26-59). -/
def identity (out u : Vol) (weight : ℝ) : Res Vol :=
  (List.range u.areas.length).foldlM (fun out var => do
    let viewIn ← u.view var
    out.modify var fun o => (box 0 u.n).foldlM (fun o c => do
      let value ← viewIn.rd (c + u.g)
      addAt o c (weight * value)) o) out

/-- The element-wise operations `out[i] += F(u[i])` of volumes (alsfvm/src/volume/Volume.cpp:178-188, 378-399): the flat loop of the memory area is written with coordinates
(same order), and the sizes are compared by component (`CHECK_SIZE_AND_HOST`, alsfvm/src/memory/HostMemory.cpp:25-32, compares the number of entries). -/
def zipAdd (F : ℝ → ℝ) (out u : Vol) : Res Vol :=
  (List.range out.areas.length).foldlM (fun out var => do
    let viewIn ← u.view var
    if u.total ≠ out.total then .error .thrown
    else out.modify var fun o => (box 0 out.total).foldlM (fun o c => do
      let value ← viewIn.rd c
      addAt o c (F value)) o) out

/-- `Volume::addPower` with factor (alsfvm/src/volume/Volume.cpp:387-392, alsfvm/src/memory/HostMemory.cpp:293-301). -/
def addPower (out u : Vol) (power : Nat) (factor : ℝ) : Res Vol := zipAdd (fun x => factor * x ^ power) out u

/-- `Moment::operator()` (alsfvm/src/functional/Moment.cpp:31-45). -/
def moment (degree : Nat) (out u : Vol) (weight : ℝ) : Res Vol := addPower out u degree weight

/-- `BoundedVariation::operator()` (alsfvm/src/functional/BoundedVariation.cpp:12-36): the check looks at the cell length in z. -/
noncomputable def boundedVariation (degree : Nat) (lengths : V3 ℝ) (out u : Vol) (weight : ℝ) : Res Vol :=
  if 1 < lengths.z then .error .thrown
  else (List.range u.areas.length).foldlM (fun out var => do
    let m ← u.mem var
    let tv ← m.totalVariation degree u.g (u.total - u.g)
    out.modify var fun o => addAt o 0 (weight * tv)) out

/-- `Legendre::operator()` (alsfvm/src/functional/Legendre.cpp:38-91). `P` is `boost::math::legendre_p` (which throws outside of [-1,1]); `vars` the indices of the named
variables, all of which exist (the names are looked up in the input, an unknown name throws; input and output have the same variables). -/
noncomputable def legendre (P : Int → ℝ → Res ℝ) (minValue maxValue : ℝ) (k n m : Int) (vars : List Nat) (grid : Grid ℝ) (out u : Vol) (weight : ℝ) : Res Vol :=
  if 1 < grid.lengths.z ∨ grid.lengths.y = 1 then .error .thrown
  else vars.foldlM (fun out var => do
    let data ← u.mem var
    let integral ← Iterate.forEachMidpoint u.total u.g grid (fun (s : ℝ) p i _ => do
      let d ← data.arr.rd i
      let a ← P k (2 * (p.x - grid.origin.x) / (grid.top.x - grid.origin.x) - 1)
      let b ← P n (2 * (p.y - grid.origin.y) / (grid.top.y - grid.origin.y) - 1)
      let c ← P m ((d - minValue) / (maxValue - minValue))
      pure (s + a * b * c * (grid.lengths.x * grid.lengths.y * grid.lengths.z))) 0
    out.modify var fun o => addAt o 0 (weight * integral)) out

/-- `LegendrePointWise::operator()` (alsfvm/src/functional/LegendrePointWise.cpp:36-87). -/
noncomputable def legendrePointWise (P : Int → ℝ → Res ℝ) (minValue maxValue : ℝ) (degree : Int) (vars : List Nat) (lengths : V3 ℝ) (out u : Vol) (weight : ℝ) : Res Vol :=
  if 1 < lengths.z ∨ lengths.y = 1 then .error .thrown
  else vars.foldlM (fun out var => do
    let viewIn ← u.view var
    out.modify var fun o => (box 0 u.n).foldlM (fun o c => do
      let d ← viewIn.rd (c + u.g)
      let a ← P degree ((d - minValue) / (maxValue - minValue))
      addAt o c (a * weight)) o) out

/-- `LogEntropy::operator()` (alsfvm/src/functional/LogEntropy.cpp:14-79); `rho`, `E` and `momenta` are the indices of the variables (the pointers to the momenta are taken before the loop in the code). Quotients and logarithms are those of the
real numbers (`log` of a non-positive number is NaN in the code). -/
noncomputable def logEntropy (gamma : ℝ) (rho E : Nat) (momenta : List Nat) (grid : Grid ℝ) (out u : Vol) (weight : ℝ) : Res Vol := do
  let density ← u.mem rho
  let energy ← u.mem E
  let integral ← Iterate.forEachMidpoint u.total u.g grid (fun (s : ℝ) _ i _ => do
    let d ← density.arr.rd i
    let e ← energy.arr.rd i
    let squares ← momenta.foldlM (fun (t : ℝ) v => do
      let m ← u.mem v
      let x ← m.arr.rd i
      pure (t + x * x)) 0
    let pressure := (gamma - 1) * (e - 1 / (2 * d) * squares)
    let entropy := Real.log pressure - gamma * Real.log d
    pure (s + -d * entropy / (gamma - 1) * (grid.lengths.x * grid.lengths.y * grid.lengths.z))) 0
  out.modify E fun o => addAt o 0 (weight * integral)

/-- `StructureBase::operator()` (alsfvm/src/functional/StructureBase.cpp:32-88): the weight is not used. -/
noncomputable def structureBase (p : ℝ) (direction : Nat) (numberOfH : Int) (out u : Vol) (_weight : ℝ) : Res Vol :=
  (List.range u.areas.length).foldlM (fun out var => do
    let viewIn ← u.view var
    out.modify var fun o => base p direction numberOfH u.n u.g viewIn o) out

/-- `StructureCube::operator()` (alsfvm/src/functional/StructureCube.cpp:31-64, alsfvm/include/alsfvm/functional/structure_common.hpp:130-180): the output is set to zero first
and the weight is not used. `sides` are the boundary conditions. -/
noncomputable def structureCube (p : ℝ) (sides : Nat → Option BC) (dims : Nat) (numberOfH : Int) (out u : Vol) (_weight : ℝ) : Res Vol :=
  (List.range u.areas.length).foldlM (fun out var => do
    let viewIn ← u.view var
    out.modify var fun o => cubeChecked p sides dims u.n u.g numberOfH viewIn o) out.zero

end Verif.Functionals
