import Verif.Memory
import Mathlib.Algebra.Order.Field.Basic

/-!
Model of the grid (alsfvm/src/grid/Grid.cpp), of the iteration helpers (alsfvm/include/alsfvm/volume/volume_foreach.hpp) and of how initial data is written
(alsfvm/src/init/PythonInitialData.cpp).
-/

namespace Verif

/-- `rvec3`. -/
@[ext] structure V3 (K : Type) where
  x : K
  y : K
  z : K

/-- `Grid` (alsfvm/src/grid/Grid.cpp:59-87): origin, top, number of cells, cell lengths, position and size of the global grid. -/
structure Grid (K : Type) where
  origin : V3 K
  top : V3 K
  dims : I3
  lengths : V3 K
  globalPosition : I3
  globalSize : I3

namespace Grid
variable {K : Type} [Field K]

/-- `computeCellLengths` (Grid.cpp:24-41). -/
def computeCellLengths (origin top : V3 K) (dims : I3) : V3 K :=
  ⟨(top.x - origin.x) / dims.x, if dims.y = 1 then 1 else (top.y - origin.y) / dims.y, if dims.z = 1 then 1 else (top.z - origin.z) / dims.z⟩

/-- Constructor with the cell lengths computed (Grid.cpp:59-69). -/
def make (origin top : V3 K) (dims globalPosition globalSize : I3) : Grid K := ⟨origin, top, dims, computeCellLengths origin top dims, globalPosition, globalSize⟩

/-- `position` in `getCellMidpoints` (Grid.cpp:159-161). -/
def midpoint (g : Grid K) (c : I3) : V3 K :=
  ⟨g.origin.x + g.lengths.x * c.x + g.lengths.x / 2, g.origin.y + g.lengths.y * c.y + g.lengths.y / 2, g.origin.z + g.lengths.z * c.z + g.lengths.z / 2⟩

/-- `getCellMidpoints` (Grid.cpp:148-171), first call. The number of cells is computed in `int` (Grid.cpp:154), so `2^31` cells or more is undefined behaviour. The vector is zero
initialised by `resize`; negative products cannot be allocated and are modelled as size zero. -/
def cellMidpoints (g : Grid K) : Res (Arr Nat (V3 K)) :=
  if 2 ^ 31 ≤ g.dims.x * g.dims.y * g.dims.z then .error .ub
  else (box 0 g.dims).foldlM (fun a c => a.wr (c.z * g.dims.x * g.dims.y + c.y * g.dims.x + c.x).toNat (g.midpoint c))
    (flat (g.dims.x * g.dims.y * g.dims.z).toNat fun _ => ⟨0, 0, 0⟩)

end Grid

namespace Iterate

/-- `size_t` arithmetic: modulo `2^64` (an `int` operand is converted the same way). -/
def toSize (i : Int) : Nat := (i % 2 ^ 64).toNat

/-- The values of `for (size_t i = a; i < b; i++)`. -/
def sizeRange (a b : Int) : List Int := irange (toSize a) (toSize b)

/-- Three nested loops over `size_t`. -/
def sizeBox (lo hi : I3) : List I3 :=
  (sizeRange lo.z hi.z).flatMap fun z => (sizeRange lo.y hi.y).flatMap fun y => (sizeRange lo.x hi.x).map fun x => ⟨x, y, z⟩

/-- `z * nx * ny + y * nx + x` in `size_t` arithmetic. -/
def sizeIndex (total c : I3) : Nat := toSize (c.z * total.x * total.y + c.y * total.x + c.x)

/-- The indices passed by `for_each_cell_index` (volume_foreach.hpp:43-62), in order; `total` is the size including ghost cells. -/
def cellIndices (total offsetStart offsetEnd : I3) : List Nat := (sizeBox offsetStart (total - offsetEnd)).map (sizeIndex total)

/-- The triples passed by `for_each_cell_index_with_neighbours<direction>` (volume_foreach.hpp:71-99; `View::index`, alsfvm/include/alsfvm/memory/View.hpp:116-118, without its
assertions). -/
def cellIndicesWithNeighbours (direction : Nat) (total offsetStart offsetEnd : I3) : List (Nat × Nat × Nat) :=
  (sizeBox offsetStart (total - offsetEnd)).map fun c => (sizeIndex total (c - I3.dir direction), sizeIndex total c, sizeIndex total (c + I3.dir direction))

/-- `ghostLayer` times the unit vector of the direction. -/
def layer (direction : Nat) (ghostLayer : Int) : I3 := (0 : I3).set direction ghostLayer

/-- The triples passed by `for_each_internal_volume_index<direction>` with a ghost layer (volume_foreach.hpp:564-604); a direction above 2 throws (volume_foreach.hpp:689-697). -/
def internalIndicesDir (direction : Nat) (ghostLayer : Int) (total : I3) : Res (List (Nat × Nat × Nat)) :=
  if 3 ≤ direction then .error .thrown
  else .ok ((sizeBox (layer direction ghostLayer) (total - layer direction ghostLayer)).map fun c =>
    (sizeIndex total (c - I3.dir direction), sizeIndex total c, sizeIndex total (c + I3.dir direction)))

/-- `for_each_internal_volume_index(volume, direction, function)` (volume_foreach.hpp:672-678, 700-706): the ghost layer is that of the x direction. -/
def internalIndicesDefault (direction : Nat) (total ghosts : I3) : Res (List (Nat × Nat × Nat)) := internalIndicesDir direction ghosts.x total

/-- The indices passed by `for_each_internal_volume_index(volume, function)` (volume_foreach.hpp:617-648). -/
def internalIndices (total ghosts : I3) : List Nat := (sizeBox ghosts (total - ghosts)).map (sizeIndex total)

variable {K σ : Type} [Field K]

/-- `for_each_midpoint` (volume_foreach.hpp:441-476) on a volume of `total` cells with the ghost widths `ghosts`: calls `f` with the midpoint, the index and the position without ghost
cells. Reading beyond the midpoints is undefined behaviour. -/
def forEachMidpoint (total ghosts : I3) (grid : Grid K) (f : σ → V3 K → Nat → I3 → Res σ) (s : σ) : Res σ := do
  let mids ← grid.cellMidpoints
  (sizeBox ghosts (total - ghosts)).foldlM (fun s c => do
    let m ← mids.rd (sizeIndex grid.dims (c - ghosts))
    f s m (sizeIndex total c) (c - ghosts)) s

/-- `fill_volume` (volume_foreach.hpp:512-539) and the snippet branch of `PythonInitialData::setInitialData` (PythonInitialData.cpp:248-271): the user's function gives the values
of the variables at a midpoint; value number `v` is stored in memory area `v`, fewer or more memory areas than values throw (volume_foreach.hpp:521-524). -/
def fillVolume (total ghosts : I3) (grid : Grid K) (user : V3 K → I3 → List K) (areas : List (Arr Nat K)) : Res (List (Arr Nat K)) :=
  forEachMidpoint total ghosts grid (fun areas m index p =>
    if (user m p).length = areas.length then (areas.zip (user m p)).mapM fun av => av.1.wr index av.2 else .error .thrown) areas

/-- Element `(i, j, k)` of the array handed to `init_global` (PythonInitialData.cpp:165-189): offset from the start of the memory area in units of `real`. The shape of the array is
the number of cells of the grid. -/
def pythonOffset (total ghosts e : I3) : Int :=
  (ghosts.x + ghosts.y * total.x + ghosts.z * total.y * total.x) + (e.x * 1 + e.y * total.x + e.z * (total.x * total.y))

end Iterate
end Verif
