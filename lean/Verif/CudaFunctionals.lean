import Verif.GpuLoop
import Verif.CudaCells
import Verif.Functionals
import Verif.AlsMath

/-!
Model of the functionals and structure functions on the graphics card: alsfvm/src/functional/IdentityCUDA.cu, LegendrePointWiseCUDA.cu,
LogEntropyCUDA.cu, StructureCubeCUDA.cu, alsfvm/include/alsfvm/functional/structure_common_cuda.hpp, alsuq/src/stats/StructureBasicCUDA.cu
and alsuq/src/stats/StructureCubeCUDA.cu.
-/

namespace Verif.CudaFunctionals
open Gpu CudaMemory Functionals Structure Boundary

/-- A volume whose memory areas are allocations of the card (alsfvm/src/volume/Volume.cpp:44-60): numbers of inner and ghost cells and the
allocation of each variable. Outputs that live on the processor (StructureBasicCUDA.cu:90-93) are allocations of the same heap. -/
structure CardVol where
  n : I3
  g : I3
  bufs : List Nat

/-- Size including ghost cells (alsfvm/src/volume/Volume.cpp:87-90). -/
def CardVol.total (v : CardVol) : I3 := v.n + v.g + v.g

/-- Flat index in a view of the given size (alsfvm/include/alsfvm/memory/View.hpp:65-84). -/
def at3 (size c : I3) : Int := index size.x.toNat size.y.toNat c

/-- The contents of a volume as the processor sees them (a copy to the host, alsfvm/src/cuda/CudaMemory.cpp). -/
def CardVol.values (h : Heap ℝ) (v : CardVol) : Vol := ⟨v.n, v.g, v.bufs.map fun b c => h.val (b, at3 v.total c)⟩

/-- The volume is allocated: its variables are different allocations of the right size. -/
structure CardVol.OnCard (h : Heap ℝ) (v : CardVol) : Prop where
  n : 0 ≤ v.n.x ∧ 0 ≤ v.n.y ∧ 0 ≤ v.n.z
  g : 0 ≤ v.g.x ∧ 0 ≤ v.g.y ∧ 0 ≤ v.g.z
  nodup : v.bufs.Nodup
  inb : ∀ b ∈ v.bufs, ∀ i : Int, h.inb (b, i) = decide (0 ≤ i ∧ i < v.total.x * v.total.y * v.total.z)

/-- What the code does one after the other: launches, and steps of the processor on the memory (copies and sums included). -/
inductive Action where
  | launch (k : Launch (Nat × Int) ℝ)
  | host (f : Heap ℝ → Res (Heap ℝ))

/-- The actions, performed one after the other, lead from `h` to `h'` whatever the interleaving of the threads of each launch. -/
def does : List Action → Heap ℝ → Heap ℝ → Prop
  | [], h, h' => h' = h
  | .launch k :: as, h, h' => ∃ h1, yields k h h1 ∧ does as h1 h'
  | .host f :: as, h, h' => ∃ h1, f h = .ok h1 ∧ does as h1 h'

/-- A launch of `size` threads in blocks of `blockSize`; further threads return at once (for instance IdentityCUDA.cu:29-33, 72-74). -/
def flatLaunch (size blockSize : Nat) (kernel : Nat → Prog (Nat × Int) ℝ) : Launch (Nat × Int) ℝ :=
  ⟨threadCount size blockSize, fun i => if size ≤ i then .done else kernel i⟩

/-- Number of cells of a block (`View::size`, alsfvm/include/alsfvm/memory/View.hpp). -/
def cells (size : I3) : Nat := size.x.toNat * size.y.toNat * size.z.toNat

/-- The cell of a thread, from the sizes of a view (for instance IdentityCUDA.cu:35-37). -/
def cellOf (size : I3) (i : Nat) : I3 := decode size.x.toNat size.y.toNat i

/-- `getScalarMemoryArea(index)` (alsfvm/src/volume/Volume.cpp:107-123). -/
def bufOf (u : CardVol) (var : Nat) : Res Nat :=
  match u.bufs[var]? with
  | some b => .ok b
  | none => .error .ub

/-- `addInnerKernel` and `legendreInnerKernel` for one thread (IdentityCUDA.cu:35-38, LegendrePointWiseCUDA.cu:39-44): `F` of the value of
the input is added to element `i` of the output. -/
def pointKernel (F : ℝ → ℝ) (out inp : Nat) (osize isize g : I3) (i : Nat) : Prog (Nat × Int) ℝ :=
  .read (inp, at3 isize (cellOf osize i + g)) fun v =>
  .read (out, (i : Int)) fun o =>
  .write (out, (i : Int)) (o + F v) .done

/-- Launch of a pointwise kernel over the whole output for one variable (IdentityCUDA.cu:69-78, LegendrePointWiseCUDA.cu:47-62, 148-152). `vars` in
the functions below are the indices of the variables, all of which exist (an unknown name throws). -/
def pointLaunch (F : ℝ → ℝ) (out u : CardVol) (var : Nat) : Res Action := do
  let inp ← bufOf u var
  let o ← bufOf out var
  pure (.launch (flatLaunch (cells out.total) 1024 (pointKernel F o inp out.total u.total u.g)))

/-- `IdentityCUDA::operator()` (IdentityCUDA.cu:50-87). -/
def identityCUDA (vars : List Nat) (out u : CardVol) (weight : ℝ) : Res (List Action) :=
  vars.mapM fun var => pointLaunch (fun v => weight * v) out u var

/-- `LegendrePointWiseCUDA::operator()` and `runLegendre` (LegendrePointWiseCUDA.cu:64-109, 124-161); the grid is not looked at. -/
noncomputable def legendrePointWiseCUDA (minValue maxValue : ℝ) (degree : Int) (vars : List Nat) (out u : CardVol) (weight : ℝ) : Res (List Action) :=
  vars.mapM fun var =>
    if 0 ≤ degree ∧ degree ≤ 11 then pointLaunch (fun v => weight * AlsMath.legendre degree.toNat ((v - minValue) / (maxValue - minValue))) out u var
    else .error .thrown

/-- The loop over the momenta (LogEntropyCUDA.cu:40-45). -/
def sumSquares : List (Nat × Int) → ℝ → (ℝ → Prog (Nat × Int) ℝ) → Prog (Nat × Int) ℝ
  | [], s, k => k s
  | l :: ls, s, k => .read l fun m => sumSquares ls (s + m * m) k

/-- `logEntropyKernel` for one thread (LogEntropyCUDA.cu:32-53). Quotients and logarithms are those of the real numbers. -/
noncomputable def entropyKernel (gamma dxdydz : ℝ) (buf rho E : Nat) (momenta : List Nat) (bsize isize g : I3) (i : Nat) : Prog (Nat × Int) ℝ :=
  let j := at3 isize (cellOf bsize i + g)
  .read (rho, j) fun density =>
  .read (E, j) fun energy =>
  sumSquares (momenta.map fun m => (m, j)) 0 fun squares =>
  let pressure := (gamma - 1) * (energy - 1 / (2 * density) * squares)
  let s := Real.log pressure - gamma * Real.log density
  .write (buf, (i : Int)) (-density * s / (gamma - 1) * dxdydz) .done

/-- `CudaMemory::makeZero` of an area of one element (alsfvm/src/cuda/CudaMemory.cpp:258-261; LogEntropyCUDA.cu:153). -/
def zeroOne (b : Nat) (h : Heap ℝ) : Res (Heap ℝ) := h.wr (b, 0) 0

/-- `cub::DeviceReduce::Sum` (LogEntropyCUDA.cu:180-184): sum of the first `size` elements of `buf` into the first element of `res`, in exact arithmetic. -/
noncomputable def cubSum (buf size res : Nat) (h : Heap ℝ) : Res (Heap ℝ) :=
  if ∀ i < size, h.inb (buf, ((i : Nat) : Int)) = true then h.wr (res, 0) (reduce h buf size) else .error .ub

/-- `LogEntropyCUDA::operator()` (LogEntropyCUDA.cu:56-101, 110-190). `buffer` (the size it was created with at the first call in `bsize`) and
`bufferOut` are the members of the class; `momenta` are the variables of the active directions. -/
noncomputable def logEntropyCUDA (gamma : ℝ) (rho E : Nat) (momenta : List Nat) (lengths : V3 ℝ) (buffer : Nat) (bsize : I3) (bufferOut : Nat) (out u : CardVol)
    (weight : ℝ) : Res (List Action) := do
  let r ← bufOf u rho
  let e ← bufOf u E
  let m ← momenta.mapM (bufOf u)
  let o ← bufOf out E
  if momenta.length = 0 ∨ 3 < momenta.length then .error .thrown
  else
    let one : Area := ⟨false, bufferOut, 1, 1, 1⟩
    let scale ← scalarAssign (· * ·) one weight
    let add ← binaryAssign (· + ·) ⟨false, o, out.total.x.toNat, out.total.y.toNat, out.total.z.toNat⟩ one
    pure [.host (zeroOne bufferOut),
      .launch (flatLaunch (cells bsize) 1024
        (entropyKernel gamma (lengths.x * lengths.y * lengths.z) buffer r e m bsize u.total u.g)),
      .host (cubSum buffer (cells u.n) bufferOut), .launch scale, .launch add]

/-- The cell `ValueAtBoundary<BoundaryType>::getValueAtBoundary` reads (alsfvm/include/alsfvm/boundary/ValueAtBoundary.hpp:20-96); the same function as on the processor,
here with the position as the value of every cell. -/
def positionAt (bc : BC) (pos n g : I3) : Res I3 := valueAt bc ⟨fun _ => true, fun p => p⟩ pos n g

/-- Reading the value at a position; a division by zero or endless loop in the computation of the position is written as an access that is never allowed. -/
def readAt (bc : BC) (inp : Nat) (isize n g pos : I3) (k : ℝ → Prog (Nat × Int) ℝ) : Prog (Nat × Int) ℝ :=
  match positionAt bc pos n g with
  | .ok q => .read (inp, at3 isize q) k
  | .error _ => .read (inp, -1) fun _ => .done

/-- `PowerClass::power` for the class chosen by `dispatchComputeStructureCubeCUDA` (structure_common_cuda.hpp:94-119): the unrolled powers
(alsutils/include/alsutils/math/FastPower.hpp:16-24) for 1, …, 5, otherwise `pow`. -/
noncomputable def cardPower (p x : ℝ) : ℝ :=
  if p = 1 then x else if p = 2 then x * x else if p = 3 then x * (x * x) else if p = 4 then x * (x * (x * x))
  else if p = 5 then x * (x * (x * (x * x))) else x ^ p

/-- The loop over the positions (structure_common_cuda.hpp:34-36): the sum is kept in the memory of the card. -/
noncomputable def cubeLoop (p : ℝ) (bc : BC) (buf inp : Nat) (isize n g : I3) (i : Nat) (u : ℝ) : List I3 → Prog (Nat × Int) ℝ
  | [] => .done
  | q :: qs => readAt bc inp isize n g q fun uh =>
    .read (buf, (i : Int)) fun o =>
    .write (buf, (i : Int)) (o + cardPower p |u - uh|) (cubeLoop p bc buf inp isize n g i u qs)

/-- `computeStructureCubeKernel` for one thread (structure_common_cuda.hpp:28-36, structure_common.hpp:30-100). -/
noncomputable def cubeKernel (p : ℝ) (bc : BC) (dims : Nat) (h : Int) (buf inp : Nat) (isize n g : I3) (i : Nat) : Prog (Nat × Int) ℝ :=
  .write (buf, (i : Int)) 0 (
  .read (inp, at3 isize (cellOf n i + g)) fun u =>
  cubeLoop p bc buf inp isize n g i u (cubePoints dims (cellOf n i) h))

/-- `outputView.at(h) += structureResult / (nx * ny * nz)` with the `thrust::reduce` before it (structure_common_cuda.hpp:79-83, StructureBasicCUDA.cu:143-147). -/
noncomputable def addAverage (buf : Nat) (n : I3) (o : Nat) (s : Int) (h : Heap ℝ) : Res (Heap ℝ) := do
  let x ← h.rd (o, s)
  h.wr (o, s) (x + reduce h buf (cells n) / ((n.x * n.y * n.z : Int) : ℝ))

/-- `computeStructureCubeCUDA` for one variable (structure_common_cuda.hpp:47-90): a launch and a sum for every distance. The copy of the output to the processor and back
is left out; `buf` is the buffer after `resize`. -/
noncomputable def cubeVariable (p : ℝ) (bc : BC) (dims : Nat) (numberOfH : Int) (buf : Nat) (out u : CardVol) (var : Nat) : Res (List Action) := do
  let inp ← bufOf u var
  let o ← bufOf out var
  pure ((irange 1 numberOfH).flatMap fun h =>
      [.launch (flatLaunch (cells u.n) (if p < 6 ∧ p = ⌊p⌋ then 1024 else 512) (cubeKernel p bc dims h buf inp u.total u.n u.g)), .host (addAverage buf u.n o h)])

/-- `StructureCubeCUDA::computeStatistics` for one snapshot (alsuq/src/stats/StructureCubeCUDA.cu:41-75). -/
noncomputable def cubeStatisticsCUDA (p : ℝ) (sides : Nat → Option BC) (dims : Nat) (numberOfH : Int) (buf : Nat) (out u : CardVol) : Res (List Action) :=
  if (List.range (2 * dims)).any fun s => sides s != sides 0 then .error .thrown
  else match sides 0 with
    | some bc => do
      let a ← (List.range u.bufs.length).mapM fun var => cubeVariable p bc dims numberOfH buf out u var
      pure a.flatten
    | none => .error .thrown

/-- `Volume::makeZero` (alsfvm/src/volume/Volume.cpp:228-232, alsfvm/src/cuda/CudaMemory.cpp:258-261). -/
def zeroVol (v : CardVol) (h : Heap ℝ) : Res (Heap ℝ) := .ok ⟨h.inb, fun l => if l.1 ∈ v.bufs then 0 else h.val l⟩

/-- `StructureCubeCUDA::operator()` (alsfvm/src/functional/StructureCubeCUDA.cu:31-65); the weight is not used. -/
noncomputable def structureCubeCUDA (p : ℝ) (sides : Nat → Option BC) (dims : Nat) (numberOfH : Int) (buf : Nat) (out u : CardVol) (_weight : ℝ) : Res (List Action) := do
  let a ← cubeStatisticsCUDA p sides dims numberOfH buf out u
  pure (.host (zeroVol out) :: a)

/-- `computeStructureBasic` for one thread (StructureBasicCUDA.cu:43-66). -/
noncomputable def basicKernel (p : ℝ) (bc : BC) (direction : Nat) (h : Int) (buf inp : Nat) (isize n g : I3) (i : Nat) : Prog (Nat × Int) ℝ :=
  .read (inp, at3 isize (cellOf n i + g)) fun u =>
  readAt bc inp isize n g (cellOf n i + ⟨h * (I3.dir direction).x, h * (I3.dir direction).y, h * (I3.dir direction).z⟩) fun uh =>
  .write (buf, (i : Int)) (|u - uh| ^ p) .done

/-- The numbers of cells `StructureBasicCUDA` computes with (StructureBasicCUDA.cu:126-128): the ghost cells are subtracted from the number of inner cells. -/
def basicCells (u : CardVol) : I3 := ⟨u.n.x - 2 * u.g.x, u.n.y - 2 * u.g.y, u.n.z - 2 * u.g.z⟩

/-- `StructureBasicCUDA::computeStructure` for one variable (StructureBasicCUDA.cu:118-152); `buf` is the buffer after `resize`. Numbers of cells are positive in
the theorems about it. -/
noncomputable def basicVariable (p : ℝ) (bc : BC) (direction : Nat) (numberOfH : Int) (buf : Nat) (out u : CardVol) (var : Nat) : Res (List Action) := do
  let inp ← bufOf u var
  let o ← bufOf out var
  pure ((irange 1 numberOfH).flatMap fun h =>
      [.launch (flatLaunch (cells (basicCells u)) 1024 (basicKernel p bc direction h buf inp u.total (basicCells u) u.g)), .host (addAverage buf (basicCells u) o h)])

/-- `StructureBasicCUDA::computeStatistics` for one snapshot (StructureBasicCUDA.cu:86-108). -/
noncomputable def basicStatisticsCUDA (p : ℝ) (sides : Nat → Option BC) (direction : Nat) (numberOfH : Int) (buf : Nat) (out u : CardVol) : Res (List Action) :=
  match sides direction with
  | some bc => do
    let a ← (List.range u.bufs.length).mapM fun var => basicVariable p bc direction numberOfH buf out u var
    pure a.flatten
  | none => .error .thrown

/-- `StructureCube::computeStatistics` on the processor for one snapshot, all variables (alsuq/src/stats/StructureCube.cpp:46-73, structure_common.hpp:105-180); the
boundary conditions are looked at once per variable instead of once. -/
noncomputable def cubeStatistics (p : ℝ) (sides : Nat → Option BC) (dims : Nat) (numberOfH : Int) (out u : Vol) : Res Vol :=
  (List.range u.areas.length).foldlM (fun out var => do
    let viewIn ← u.view var
    out.modify var fun o => cubeChecked p sides dims u.n u.g numberOfH viewIn o) out

/-- `StructureBasic::computeStatistics` on the processor for one snapshot, all variables (alsuq/src/stats/StructureBasic.cpp:48-60, 67-120). -/
noncomputable def basicStatistics (p : ℝ) (sides : Nat → Option BC) (direction : Nat) (numberOfH : Int) (out u : Vol) : Res Vol :=
  (List.range u.areas.length).foldlM (fun out var => do
    let viewIn ← u.view var
    out.modify var fun o => basic sides p direction numberOfH u.n u.g viewIn o) out

end Verif.CudaFunctionals
