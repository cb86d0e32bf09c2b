import Verif.Volume
import Verif.Cartesian

/-!
Model of the names and the layout of output files: alsfvm/src/io/io_utils.cpp, NetCDFWriter.cpp, NetCDFMPIWriter.cpp, HDF5Writer.cpp and HDF5MPIWriter.cpp.

A variable of a file is a three dimensional array (`Arr I3 α`) addressed by the indices of its declared dimensions. The netCDF and HDF5 libraries store a buffer in row-major order: the last declared
dimension varies fastest (trusted, documentation of `nc_put_var`, `ncmpi_put_vara`, `H5Dwrite`). Attributes and the time variable are dropped, conversions between `real` and the file type are
taken as exact.
-/

namespace Verif.Output
open Verif.Cartesian
variable {α : Type}

/-- `getOutputname` (alsfvm/src/io/io_utils.cpp:33-39): base name, underscore, decimal digits of the number. `snapshotNumber` is not bounded. -/
def getOutputname (filename : String) (snapshotNumber : Nat) : String := filename ++ "_" ++ Nat.repr snapshotNumber

/-- `NetCDFWriter::getFilename` (alsfvm/src/io/NetCDFWriter.cpp:134-141), used by `NetCDFMPIWriter` too: the name and the new `snapshotNumber`. -/
def netcdfFilename (basefileName : String) (snapshotNumber : Nat) : String × Nat := (getOutputname basefileName snapshotNumber ++ ".nc", snapshotNumber + 1)

/-- The name and the new `snapshotNumber` in `HDF5Writer::write` (alsfvm/src/io/HDF5Writer.cpp:40-48) and `HDF5MPIWriter::write` (alsfvm/src/io/HDF5MPIWriter.cpp:52-88). -/
def hdf5Filename (basefileName : String) (snapshotNumber : Nat) : String × Nat := (getOutputname basefileName snapshotNumber ++ ".h5", snapshotNumber + 1)

/-- The names of the files written by `k` calls of `write` of one writer, from `snapshotNumber` on. -/
def filenames (next : Nat → String × Nat) : Nat → Nat → List String
  | 0, _ => []
  | k + 1, snapshotNumber => (next snapshotNumber).1 :: filenames next k (next snapshotNumber).2

/-- Position in the buffer of the entry `p` of an array with the dimensions given, last index fastest (library). -/
def rowMajor (dims p : I3) : Nat := ((p.x * dims.y + p.y) * dims.z + p.z).toNat

/-- `ncmpi_put_vara_…_all` and `H5Dwrite` to a hyperslab (library): write the buffer to the block of size `count` at `start` of a variable with dimensions `dims`. A block that is not
inside the variable is an error, which `NETCDF_SAFE_CALL` and `HDF5_SAFE_CALL` turn into an exception. -/
def putVara (dims start count : I3) (data : Arr Nat α) (file : Arr I3 α) : Res (Arr I3 α) :=
  if (0 ≤ start.x ∧ start.x + count.x ≤ dims.x) ∧ (0 ≤ start.y ∧ start.y + count.y ≤ dims.y) ∧ (0 ≤ start.z ∧ start.z + count.z ≤ dims.z) then
    (box ⟨0, 0, 0⟩ count).foldlM (fun f p => do let v ← data.rd (rowMajor count p); f.wr (start + p) v) file
  else .error .thrown

/-- `nc_put_var_real` (library): write the whole variable. -/
def putVar (dims : I3) (data : Arr Nat α) (file : Arr I3 α) : Res (Arr I3 α) := putVara dims ⟨0, 0, 0⟩ dims data file

/-- The buffer made at the begin of `writeMemory` (NetCDFWriter.cpp:97-103, NetCDFMPIWriter.cpp:184-191, HDF5Writer.cpp:173-178): the interior cells, copied once more to a vector of the
same length. `fill` is the initial content of the vectors. -/
def interiorData (fill : α) (v : Volume α) (var : Nat) : Res (Arr Nat α) := do
  let tmp ← v.copyInternalCells var (fun _ => fill) (v.nx * v.ny * v.nz)
  pure (flat (v.nx * v.ny * v.nz) tmp.val)

/-- The declared dimensions of a variable in the serial writers, in the order x, y, z (NetCDFWriter.cpp:73-93, HDF5Writer.cpp:118-121). -/
def volumeDims (v : Volume α) : I3 := ⟨v.nx, v.ny, v.nz⟩

/-- One variable in `NetCDFWriter` (`createDimensions`, `makeDataset`, `writeMemory`, NetCDFWriter.cpp:73-132): the new variable in the file. -/
def netcdfWrite (fill : α) (v : Volume α) (var : Nat) : Res (Arr I3 α) := do
  let data ← interiorData fill v var
  putVar (volumeDims v) data (field (volumeDims v) fun _ => fill)

/-- One variable in `HDF5Writer` (`createDatasetForMemory`, `writeMemoryToDataset`, HDF5Writer.cpp:102-187): hyperslab at zero of the full size. -/
def hdf5Write (fill : α) (v : Volume α) (var : Nat) : Res (Arr I3 α) := do
  let data ← interiorData fill v var
  putVara (volumeDims v) ⟨0, 0, 0⟩ (volumeDims v) data (field (volumeDims v) fun _ => fill)

/-- The swaps of position and size in `NetCDFMPIWriter::writeMemory` (NetCDFMPIWriter.cpp:198-212). -/
def swapDims (active : Nat) (a : I3) : I3 := if active = 2 then ⟨a.y, a.x, a.z⟩ else if active = 3 then ⟨a.z, a.y, a.x⟩ else a

/-- `NetCDFMPIWriter::writeMemory` on one rank (NetCDFMPIWriter.cpp:179-218), into the variable with the global dimensions in the order x, y, z (`createDimensions`, NetCDFMPIWriter.cpp:100-124).
`grid` is the local grid. -/
def netcdfMpiWrite {K : Type} (fill : α) (grid : Grid K) (v : Volume α) (var : Nat) (file : Arr I3 α) : Res (Arr I3 α) := do
  let data ← interiorData fill v var
  putVara grid.globalSize (swapDims (activeDimension grid.dims) grid.globalPosition) (swapDims (activeDimension grid.dims) grid.dims) data file

/-- All ranks write to the variable in the order given; each call is collective, but the library may move the data of the ranks in any order. -/
def netcdfMpiWriteAll {K : Type} (fill : α) (part : Int → Grid K) (v : Int → Volume α) (var : Nat) (order : List Int) (dims : I3) : Res (Arr I3 α) :=
  order.foldlM (fun file r => netcdfMpiWrite fill (part r) (v r) var file) (field dims fun _ => fill)

/-- `HDF5MPIWriter` with several ranks in the same group (HDF5MPIWriter.cpp:92-189, then HDF5Writer.cpp:137-187): the dimensions of the dataset are those of the local volume, and every rank
writes at offset zero. All local volumes have the size `dims`. -/
def hdf5MpiWriteAll (fill : α) (v : Int → Volume α) (var : Nat) (order : List Int) (dims : I3) : Res (Arr I3 α) :=
  order.foldlM (fun file r => do
    let data ← interiorData fill (v r) var
    putVara dims ⟨0, 0, 0⟩ (volumeDims (v r)) data file) (field dims fun _ => fill)

end Verif.Output
