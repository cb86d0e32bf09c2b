import Verif.UQ
import Verif.Output
import Verif.Params

/-!
Model of the output files of a run with several samples: `FiniteVolumeSimulatorCreator` (alsuq/src/run/FiniteVolumeSimulatorCreator.cpp), `MPIWriterFactory` (alsuq/src/io/MPIWriterFactory.cpp) and
`NetCDFMPIWriter` (alsfvm/src/io/NetCDFMPIWriter.cpp). All samples are written to the same files, each to variables of its own. The variables of one sample are model `Output.netcdfMpiWriteAll`; here
what one sample stores in a variable is a parameter.

The calls of the PnetCDF library are collective: they are modelled for all processes at once. The data of a collective call arrive in any order, and different processes may write to different variables in
the same call (trusted, documentation of `ncmpi_put_vara_…_all`). If not all processes make the same calls the run hangs or worse; this is `Err.ub`. Attributes are left out.
-/

namespace Verif.SampleFiles
open Params

/-- A netCDF file: the content of the variable `time`, and the other variables in the order of their definition; the content of a variable is missing until it is written. -/
structure NcFile (K C : Type) where
  time : Option K
  vars : List (Str × Option C)

/-- The files by their names. -/
abbrev Disk (K C : Type) := String → Option (NcFile K C)

variable {K V C : Type}

/-- `makeGroupNames` (FiniteVolumeSimulatorCreator.cpp:68-85): `samples` are the samples the processes of the statistical communicator are at, gathered by `MPI_Allgather`. -/
def makeGroupNames (samples : List Nat) : List Str := samples.map fun sample => "sample_".toList ++ Nat.toDigits 10 sample

/-- `ncmpi_def_var` (library): a new variable and its number. A name that is in use is an error; `time` is always in use. -/
def defVar (file : NcFile K C) (name : Str) : Res (NcFile K C × Nat) :=
  if name = "time".toList ∨ name ∈ file.vars.map Prod.fst then .error .thrown else .ok ({ file with vars := file.vars ++ [(name, none)] }, file.vars.length)

/-- `NetCDFMPIWriter::makeDataset` (NetCDFMPIWriter.cpp:126-160): all processes define the variables of all groups and keep the numbers of their own. `names` are the names of the variables
of the volume. -/
def makeDataset (groupNames : List Str) (groupIndex : Nat) (names : List Str) (file : NcFile K C) : Res (NcFile K C × List Nat) :=
  (groupNames.flatMap fun groupName => names.map fun name => (groupName, name)).foldlM (fun s e => do
    let groupnamePrefix := if e.1.length > 0 then e.1 ++ "_".toList else []
    let d ← defVar s.1 (groupnamePrefix ++ e.2)
    match groupNames[groupIndex]? with
    | none => .error .ub
    | some own => .ok (d.1, if e.1 = own then s.2 ++ [d.2] else s.2)) (file, [])

/-- Writing a variable (library). -/
def putVar (id : Nat) (c : C) (file : NcFile K C) : Res (NcFile K C) :=
  match file.vars[id]? with
  | none => .error .thrown
  | some v => .ok { file with vars := file.vars.set id (v.1, some c) }

/-- One process in one of the collective calls of `writeVolume` (NetCDFMPIWriter.cpp:220-230): `file` is the file before the definitions, `store` what a sample stores in a variable. -/
def writeOne (store : V → Nat → Res C) (names : List Str) (groupNames : List Str) (us : Nat → Option (V × K)) (file : NcFile K C) (memoryIndex : Nat) (f : NcFile K C) (p : Nat) :
    Res (NcFile K C) := do
  let own ← makeDataset groupNames p names file
  match own.2[memoryIndex]?, us p with
  | some id, some u => do
    let c ← store u.1 memoryIndex
    putVar id c f
  | _, _ => .error .ub

/-- The begin of `NetCDFMPIWriter::write` (NetCDFMPIWriter.cpp:54-85): a new file replaces an old one of the same name (`NC_CLOBBER`); otherwise the file has to exist. -/
def openFile (newFile : Bool) (old : Option (NcFile K C)) : Res (NcFile K C) :=
  if newFile then .ok ⟨none, []⟩ else match old with
    | none => .error .thrown
    | some f => .ok f

/-- `NetCDFMPIWriter::write` on all processes (NetCDFMPIWriter.cpp:44-98, 162-177, 220-230): the file before (if it exists) and after. Process `p` has the group index `p` and gives `us p`, its solution and its
time. `order i` is the order in which the data of the processes arrive in the `i`-th collective call. The dimensions, which are the same for all samples, are left out. -/
def writeFile (store : V → Nat → Res C) (names : List Str) (order : Nat → List Nat) (groupNames : List Str) (newFile : Bool) (us : Nat → Option (V × K)) (old : Option (NcFile K C)) :
    Res (NcFile K C) := do
  let file ← openFile newFile old
  let defined ← makeDataset groupNames 0 names file
  let written ← (List.range names.length).foldlM (fun f i => (order i).foldlM (writeOne store names groupNames us file i) f) defined.1
  if newFile then
    (order names.length).foldlM (fun f p => match us p with
      | none => .error .ub
      | some u => .ok { f with time := some u.2 }) written
  else .ok written

/-- One sample on every process (Runner.cpp:46-78 with FiniteVolumeSimulatorCreator.cpp:39-66): the writers are made anew, so that they count from 0, and `runs s` are the solutions and times
that the run of sample `s` gives to its writer. `samples` are the samples of the processes, `newFile` the member `firstCall`. -/
def writeRound (store : V → Nat → Res C) (names : List Str) (order : Nat → Nat → List Nat) (base : String) (runs : Nat → List (V × K)) (newFile : Bool) (samples : List Nat)
    (disk : Disk K C) : Res (Disk K C) :=
  match samples with
  | [] => .ok disk
  | s :: _ =>
    if samples.all fun q => (runs q).length == (runs s).length then do
      let st ← (List.range (runs s).length).foldlM (fun (st : Nat × Disk K C) k => do
        let name := Output.netcdfFilename base st.1
        let f ← writeFile store names (order k) (makeGroupNames samples) newFile (fun p => samples[p]?.bind fun q => (runs q)[k]?) (st.2 name.1)
        .ok (name.2, Function.update st.2 name.1 (some f))) (0, disk)
      .ok st.2
    else .error .ub

/-- All samples (Runner.cpp:39-78): `shares` are the samples of the processes. The files are created for the first samples (`firstCall`, FiniteVolumeSimulatorCreator.cpp:44-49), and opened for the
others. -/
def writeShares (store : V → Nat → Res C) (names : List Str) (order : Nat → Nat → Nat → List Nat) (base : String) (runs : Nat → List (V × K)) (shares : List (List Nat)) (disk : Disk K C) :
    Res (Disk K C) :=
  match shares with
  | [] => .ok disk
  | share :: _ =>
    if shares.all fun q => q.length == share.length then do
      let st ← (List.range share.length).foldlM (fun (st : Bool × Disk K C) i => do
        let d ← writeRound store names (order i) base runs st.1 (shares.filterMap fun q => q[i]?) st.2
        .ok (false, d)) (true, disk)
      .ok st.2
    else .error .ub

/-- The files of the whole run (alsuq/src/config/Setup.cpp:70-83, Runner.cpp:39-78): `processes` groups of `np` processes each, of which the first one is taken for its samples. -/
def sampleFiles (store : V → Nat → Res C) (names : List Str) (order : Nat → Nat → Nat → List Nat) (base : String) (runs : Nat → List (V × K)) (first samples : Nat) (processes : Int)
    (multiSpatial : I3) (disk : Disk K C) : Res (Disk K C) := do
  let np := multiSpatial.x * multiSpatial.y * multiSpatial.z
  let shares ← (irange 0 processes).mapM fun g => do
    let mine ← UQ.loadBalance (UQ.sampleNumbers first samples) processes multiSpatial (processes * np) (g * np)
    .ok mine.1
  writeShares store names order base runs shares disk

end Verif.SampleFiles
