import Verif.Basic

/-!
The script of the example that plots the density (examples/kelvinhelmholtz_plot_python/plotting.py): every process stores the picture of its part of the domain, and after a barrier
(alsfvm/src/io/PythonScript.cpp:85-93) the first process combines the pictures.

Numbers are as in Python 2, for which the script is written: the quotient of integers is an integer. (With Python 3 `range` in line 81 raises an exception.) Pictures are known by the parts of
the domain they show; trimming (`trim_image`, line 67) leaves the part. The first process calls `afterMPISync` alone in the model; the others do nothing there (line 75), and pictures of later times have other names.
-/

namespace Verif.Plotting
variable {B : Type}

/-- A picture made of pictures of parts: rows from top to bottom, each from left to right. -/
abbrev Picture (B : Type) := List (List B)

/-- The name of a file for the sample of the writer (plotting.py:40): colour map, position and number of the output. Different values give different names, since neither colour maps nor numbers contain an
underscore. -/
structure Name where
  cmap : String
  x : Nat
  y : Nat
  t : Nat
deriving DecidableEq

/-- The files. -/
abbrev Disk (B : Type) := Name → Option (Picture B)

/-- Pictures beside each other, from left to right, as `convert +append` puts them; the pictures have the same height. -/
def beside : List (Picture B) → Picture B
  | [] => []
  | [p] => p
  | p :: ps => List.zipWith (· ++ ·) p (beside ps)

/-- `combine_images` (plotting.py:7-13): files that do not exist are left out, and without any file there is no output. -/
def combineImages (images : List Name) (outfile : Name) (horiz : Bool) (disk : Disk B) : Disk B :=
  let pictures := images.filterMap disk
  if pictures.isEmpty then disk else Function.update disk outfile (some (if horiz then beside pictures else pictures.flatten))

/-- The files, the list `files_to_delete`, and whether an exception was raised. -/
structure Outcome (B : Type) where
  disk : Disk B
  toDelete : List Name
  raised : Bool

/-- One turn of `delete_files` (plotting.py:18-20): `os.remove` raises an exception if the file does not exist. -/
def deleteFile (o : Outcome B) (f : Name) : Outcome B :=
  if o.raised then o else match o.disk f with
    | none => { o with raised := true }
    | some _ => { o with disk := Function.update o.disk f none }

/-- One turn of the loop over the rows (plotting.py:81-87); `s` are the files, `x_files` and `files_to_delete`. -/
def combineRow (cmap : String) (nodesX ts : Nat) (s : Disk B × List Name × List Name) (i : Nat) : Disk B × List Name × List Name :=
  let files := (List.range nodesX).reverse.map fun j => (⟨cmap, j, i, ts⟩ : Name)
  let outputFile : Name := ⟨cmap, 0, i, ts⟩
  (combineImages files outputFile true s.1, s.2.1 ++ [outputFile], s.2.2 ++ files)

/-- One turn of the loop over the colour maps (plotting.py:79-93); `list.remove` raises an exception if there is no such element. -/
def combineMap (nodesX nodesY ts : Nat) (o : Outcome B) (cmap : String) : Outcome B :=
  if o.raised then o else
    let rows := (List.range nodesY).reverse.foldl (combineRow cmap nodesX ts) (o.disk, [], o.toDelete)
    let outputFile : Name := ⟨cmap, 0, 0, ts⟩
    let disk := combineImages rows.2.1 outputFile false rows.1
    if outputFile ∈ rows.2.2 then
      let toDelete := rows.2.2.erase outputFile
      toDelete.foldl deleteFile ⟨disk, toDelete, false⟩
    else ⟨disk, rows.2.2, true⟩

/-- `afterMPISync` of the first process (plotting.py:70-93). -/
def afterMPISync (colormaps : List String) (nodesX nodesY ts : Nat) (disk : Disk B) : Outcome B :=
  colormaps.foldl (combineMap nodesX nodesY ts) ⟨disk, [], false⟩

/-- `write` (plotting.py:42-69) of the process whose part of `nx` times `ny` cells begins at cell `(gx, gy)`: it stores the picture `picture cmap` of its part. -/
def write (colormaps : List String) (nx ny gx gy ts : Nat) (picture : String → B) (disk : Disk B) : Disk B :=
  colormaps.foldl (fun d cmap => Function.update d ⟨cmap, gx / nx, gy / ny, ts⟩ (some [[picture cmap]])) disk

/-- One output on all processes. `order` are the processes, by their position in the domain of `px` times `py` processes, in the order in which they happen to write; each has `nx` times `ny` cells
(alsfvm/src/mpi/domain/CartesianDecomposition.cpp:61-67, 132-139), and `picture cmap x y` is the picture of the part at this position. The barrier is between the two halves. -/
def output (colormaps : List String) (nx ny px py ts : Nat) (order : List (Nat × Nat)) (picture : String → Nat → Nat → B) (disk : Disk B) : Outcome B :=
  let disk := order.foldl (fun d p => write colormaps nx ny (p.1 * nx) (p.2 * ny) ts (fun c => picture c p.1 p.2) d) disk
  afterMPISync colormaps (px * nx / nx) (py * ny / ny) ts disk

/-- The colour maps (plotting.py:37). -/
def colormaps : List String := ["PuRd", "jet", "rainbow", "viridis"]

end Verif.Plotting
