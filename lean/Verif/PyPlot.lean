import Verif.Basic
import Mathlib.Algebra.Order.Field.Basic
import Mathlib.Tactic.FieldSimp
import Mathlib.Tactic.Linarith
import Mathlib.Tactic.Positivity
import Mathlib.Tactic.NormNum

/-!
The method `plot` of the Python driver (python/alsvinn/alsvinn.py:202-347) and the methods it uses. numpy, netCDF4 and matplotlib are library code: arrays are a shape and a function of the
indices, a picture is the list of the points that are handed to matplotlib. Numbers are exact, every Python exception is `thrown`.
-/

namespace Verif.PyPlot
variable {K α : Type}

/-- One direction of `self.fvmSettings["grid"]`: `lowerCorner[d]`, `upperCorner[d]` and `dimension[d]` (alsvinn.py:202-219). The lists have three entries and the numbers of cells are not
negative. -/
structure Axis (K : Type) where
  lower : K
  upper : K
  cells : Nat

/-- The entries of `self.fvmSettings["grid"]` for the three directions (alsvinn.py:77-80). -/
structure Box (K : Type) where
  x : Axis K
  y : Axis K
  z : Axis K

/-- A one-dimensional array of numpy. -/
structure Points (K : Type) where
  size : Nat
  entry : Nat → K

/-- `v[i]` for a natural number: an index behind the end raises an exception. -/
def Points.get (v : Points K) (i : Nat) : Res K := if i < v.size then .ok (v.entry i) else .error .thrown

/-- `numpy.linspace(lo, hi, n)` and, without its indices of further directions, `numpy.mgrid[lo:hi:n*1j]`: `n` points with both ends (alsvinn.py:207, 221). One point is the lower end. -/
def linspace [Field K] (lo hi : K) (n : Nat) : Points K := ⟨n, fun i => lo + i * (if n ≤ 1 then 0 else (hi - lo) / (n - 1))⟩

/-- `get_line_segment` (alsvinn.py:202-210). -/
def lineSegment [Field K] (a : Axis K) : Res (Points K) := do
  let x := linspace a.lower a.upper a.cells
  let x1 ← x.get 1
  let x0 ← x.get 0
  .ok ⟨x.size, fun i => x.entry i + 1 / 2 * (x1 - x0)⟩

/-- `get_dimension` (alsvinn.py:225-232): the loop with its `break`. -/
def leading : List Nat → Nat
  | [] => 0
  | n :: l => if 1 < n then leading l + 1 else 0

/-- A variable of a netCDF file with its shape. -/
structure Data (α : Type) where
  nx : Nat
  ny : Nat
  nz : Nat
  entry : Nat → Nat → Nat → α

/-- What `get_data` returns: an array of one, two or three dimensions. -/
inductive Slice (α : Type) where
  | line (n : Nat) (entry : Nat → α)
  | sheet (n m : Nat) (entry : Nat → Nat → α)
  | block (d : Data α)

/-- The end of `get_data` (alsvinn.py:289-302): the number of directions with more than one entry decides which indices are fixed. Finding the file and the variable is left out. -/
def slice (d : Data α) : Res (Slice α) :=
  let dimension := ([d.nx, d.ny, d.nz].filter (1 < ·)).length
  if dimension = 1 then
    if 0 < d.ny ∧ 0 < d.nz then .ok (.line d.nx fun i => d.entry i 0 0) else .error .thrown
  else if dimension = 2 then
    if 0 < d.nz then .ok (.sheet d.nx d.ny fun i j => d.entry i j 0) else .error .thrown
  else .ok (.block d)

/-- What is handed to matplotlib: lines through points, or points of the plane with their values. -/
inductive Picture (K α : Type) where
  | lines (l : List (List (K × α)))
  | mesh (l : List (K × K × α))

/-- `matplotlib.pyplot.plot(x, data)`: the sizes must agree; every column of an array of two dimensions is a line of its own; three dimensions are refused. -/
def drawLines (x : Points K) : Slice α → Res (Picture K α)
  | .line n f => if n = x.size then .ok (.lines [(List.range n).map fun i => (x.entry i, f i)]) else .error .thrown
  | .sheet n m f => if n = x.size then .ok (.lines ((List.range m).map fun j => (List.range n).map fun i => (x.entry i, f i j))) else .error .thrown
  | .block _ => .error .thrown

/-- `matplotlib.pyplot.pcolormesh(x, y, data)` with the arrays of `get_2d_grid` (alsvinn.py:212-224): the shapes must agree, the value of every entry is drawn around its point. -/
def drawMesh (x y : Points K) : Slice α → Res (Picture K α)
  | .sheet n m f =>
    if n = x.size ∧ m = y.size then .ok (.mesh ((List.range n).flatMap fun i => (List.range m).map fun j => (x.entry i, y.entry j, f i j))) else .error .thrown
  | _ => .error .thrown

/-- `plot` (alsvinn.py:322-347), without the titles and the time shown in them. -/
def plot [Field K] (b : Box K) (d : Data α) : Res (Picture K α) := do
  let data ← slice d
  let dimension := leading [b.x.cells, b.y.cells, b.z.cells]
  if dimension = 1 then
    let x ← lineSegment b.x
    drawLines x data
  else if dimension = 2 then
    drawMesh (linspace b.x.lower b.x.upper b.x.cells) (linspace b.y.lower b.y.upper b.y.cells) data
  else .error .thrown

end Verif.PyPlot
