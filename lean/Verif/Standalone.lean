import Verif.Stats
import Verif.Params

/-!
Model of the example program that computes structure functions from a file with samples (library_examples/alsuq/structure_standalone/src/main.cpp). Requested sizes and lengths of
dimensions are natural numbers and do not overflow (the program takes `int`), `float` and `double` are real numbers, and the program options are given by their values.
-/

namespace Verif.Standalone
open Verif Functionals Stats Structure

/-- Type of a variable in a netCDF file, as far as the program tells them apart (main.cpp:229-243). -/
inductive Kind | double | float | other
  deriving DecidableEq

/-- A variable in a netCDF file: the lengths of its dimensions, its type, and the values in the order in which the library delivers them (last dimension fastest). -/
structure FileVar where
  dims : List Nat
  kind : Kind
  data : Nat → ℝ

/-- A variable of the file model of `Verif.Output`, as `nc_get_var_double` delivers it (library): the entries of the array with the last index fastest. -/
noncomputable def FileVar.ofFile (dims : I3) (kind : Kind) (file : Arr I3 ℝ) : FileVar :=
  ⟨[dims.x.toNat, dims.y.toNat, dims.z.toNat], kind, fun i => file.val ⟨(i / dims.z.toNat / dims.y.toNat : Nat), (i / dims.z.toNat % dims.y.toNat : Nat), (i % dims.z.toNat : Nat)⟩⟩

/-- `dimensionLengths[i]` (main.cpp:250-288): not checked, the number of dimensions is compared with three only afterwards (main.cpp:292). -/
def FileVar.dim (v : FileVar) (i : Nat) : Res Nat :=
  match v.dims[i]? with
  | some l => .ok l
  | none => .error .ub

/-- `THROW` if the condition does not hold. -/
def require (b : Bool) : Res Unit := if b then .ok () else .error .thrown

/-- Quotient of two sizes; the quotient by zero is undefined. -/
def quotient (a b : Nat) : Res Nat := if b = 0 then .error .ub else .ok (a / b)

/-- The vector `buffer` (main.cpp:221-243). It is filled with zeros and stays so for other types. -/
noncomputable def FileVar.buffer (v : FileVar) : Arr Nat ℝ := flat v.dims.prod (match v.kind with | .other => fun _ => 0 | _ => v.data)

/-- The loops over `z`, `y`, `x`, `k`, `j`, `i` (main.cpp:299-328), as the list of `(input index, output index)`. -/
def loops (nx ny dx dy dz cx cy cz : Nat) : List (Nat × Nat) :=
  (List.range dz).flatMap fun z => (List.range dy).flatMap fun y => (List.range dx).flatMap fun x =>
    (List.range cz).flatMap fun k => (List.range cy).flatMap fun j => (List.range cx).map fun i =>
      (z * dy * dx + y * dx + x, (z * cz + k) * nx * ny + (y * cy + j) * nx + (x * cx + i))

/-- One variable of `getSample` (main.cpp:207-328): the vector `bufferFinal`. The checks are made in the order of the program; `||` and `if` skip the later ones. -/
noncomputable def readVariable (nx ny nz : Nat) (v : FileVar) : Res (Arr Nat ℝ) := do
  require (!((ny == 1 && decide (nz > 1)) || (nx == 1 && (decide (ny > 1) || decide (nz > 1)))))
  let dx ← v.dim 0
  require (decide (dx ≤ nx))
  let dy ← v.dim 1
  require (decide (dy ≤ ny))
  let dz ← v.dim 2
  require (decide (dz ≤ nz))
  let cx ← quotient nx dx
  require (cx * dx == nx)
  let cy ← quotient ny dy
  require (cy * dy == ny)
  let cz ← quotient nz dz
  require (cz * dz == nz)
  require (decide (ny ≤ 1) || cy == cx)
  require (decide (ny ≤ 1) || decide (nz ≤ 1) || cz == cx)
  require (v.dims.length == 3)
  (loops nx ny dx dy dz cx cy cz).foldlM (fun b e => do let a ← v.buffer.rd e.1; b.wr e.2 a) (flat (nx * ny * nz) fun _ => 0)

/-- The name of the variable `name` of a sample in the file (main.cpp:189-190). -/
def variableName (sample : Nat) (name : Params.Str) : Params.Str := "sample_".toList ++ Nat.toDigits 10 sample ++ "_".toList ++ name

/-- `getSample` (main.cpp:172-346): a volume without ghost cells. A missing variable is an error of the library (`NETCDF_SAFE_CALL`). `names` are the names of the conserved
variables of the equation, `file` the variables of the file. -/
noncomputable def getSample (names : List Params.Str) (file : Params.Str → Option FileVar) (nx ny nz : Nat) (sample : Nat) : Res Vol := do
  let areas ← names.mapM fun name => do
    match file (variableName sample name) with
    | none => .error .thrown
    | some v => do
      let b ← readVariable nx ny nz v
      pure fun c : I3 => b.val (c.z.toNat * nx * ny + c.y.toNat * nx + c.x.toNat)
  pure ⟨⟨nx, ny, nz⟩, 0, areas⟩

/-- The samples of a rank (main.cpp:447-483). If the number of samples is not a multiple of the number of processors, a message is printed and the program goes on. -/
def samplesOf (numberOfSamples numberOfProcessors rank : Nat) : List Nat :=
  let samplesPerProcessor := numberOfSamples / numberOfProcessors
  List.range' (rank * samplesPerProcessor) ((rank + 1) * samplesPerProcessor - rank * samplesPerProcessor)

/-- The options of the program (main.cpp:370-389), but for the names of the files. -/
structure Options where
  samples : Nat
  p : ℝ
  numberOfH : Nat
  nx : Nat
  ny : Nat
  nz : Nat
  boundaryCondition : BC

/-- `Volume::getDimensions` of the volumes of the samples (alsfvm/src/volume/Volume.cpp:279-287), used in `computeStructureCubeCPU`. -/
def dimension (ny nz : Nat) : Nat := if ny = 1 then 1 else if nz = 1 then 2 else 3

/-- One rank up to `combineStatistics` (main.cpp:469-496). The grid is made without boundary conditions (main.cpp:475), hence with the default of `Grid`, periodic
(alsfvm/include/alsfvm/grid/Grid.hpp:47-50). All samples of the rank are read before the first is used; the program reads one at a time, which is the same unless a later sample can not be
read. -/
noncomputable def rankSnapshots (o : Options) (names : List Params.Str) (file : Params.Str → Option FileVar) (time : ℝ) (processors rank : Nat) : Res Snaps := do
  let vols ← (samplesOf o.samples processors rank).mapM (getSample names file o.nx o.ny o.nz)
  runRank (structureCube "structure_cube" (fun _ => some BC.periodic) o.p (dimension o.ny o.nz) o.numberOfH) (fun v _ => v) [time] vols

/-- The program on all ranks (main.cpp:469-504): the snapshots that rank 0 writes. The name of the statistic is shortened (it contains the value of `p`). -/
noncomputable def standalone (o : Options) (names : List Params.Str) (file : Params.Str → Option FileVar) (time : ℝ) (processors : Nat) : Res Snaps := do
  let ranks ← (List.range processors).mapM (rankSnapshots o names file time processors)
  let combined ← combine o.samples ranks
  match combined with
  | result :: _ => .ok result
  | [] => .error .ub

end Verif.Standalone
