import Verif.Params
import Verif.Volume

/-!
Model of plug-in libraries: the writer that hands the solution to a loaded library (alsfvm/src/io/DLLWriter.cpp), the distribution that asks a loaded library for samples
(alsuq/src/distribution/DLLDistribution.cpp), the quasi Monte Carlo distributions (addons/qmc/src/alsuq/addons/qmc_generators/QMCDistribution.cpp) and the example library
(library_examples/dlls/writer). A library is known by the functions it exports and by what it answers; what the program does with it is the list of calls it receives.
-/

namespace Verif
namespace Plugin
open Params

/-- A `void*` that belongs to the library: the null pointer or the number of an object. -/
abbrev Ptr := Option Nat

/-- The types of functions the program imports (DLLWriter.cpp:22-98, DLLDistribution.cpp:34-89). -/
inductive Sig where
  | make
  | set
  | free
  | createWriter
  | createDistribution
  | step
  | mpi
  | host
  | write
  | generate
  deriving DecidableEq

/-- One call to the library with its arguments and the pointer it answers. The strings `simulator_name` and `simulator_version` (DLLWriter.cpp:50-53) and the communicator are left
out; `data` are the numbers behind the pointer that is handed over. -/
inductive Action (K : Type) where
  | make (result : Ptr)
  | set (parameters : Ptr) (key value : Str)
  | free (object : Ptr)
  | createWriter (parameters result : Ptr)
  | createDistribution (size dimension : Nat) (parameters result : Ptr)
  | step (data parameters : Ptr) (time : K) (number : Nat)
  | mpi (data parameters : Ptr)
  | host (data parameters : Ptr)
  | write (data parameters : Ptr) (time : K) (name : Str) (values : Arr Nat K) (cells ghosts : Nat × Nat × Nat) (lower upper : K × K × K) (gpu : Int)
  | generate (data : Ptr) (size dimension component sample : Nat) (parameters : Ptr)

/-- A call: the name of the function and what it is asked. -/
structure Call (K : Type) where
  name : Str
  action : Action K

/-- A library file: the functions it exports and its answers, which may depend on all the calls it has received. -/
structure Library (K : Type) where
  exports : Str → Str → Option Sig
  pointer : List (Call K) → Ptr
  onHost : List (Call K) → Bool
  sample : List (Call K) → K

/-- Code that calls libraries: it ends with a result or an error, and has made further calls in both cases. -/
def Act (K α : Type) := List (Call K) → Res α × List (Call K)

variable {K α β : Type}

instance : Monad (Act K) where
  pure a := fun h => (.ok a, h)
  bind x f := fun h => match x h with
    | (.ok a, h') => f a h'
    | (.error e, h') => (.error e, h')

/-- Code that makes no calls. -/
def lift (r : Res α) : Act K α := fun h => (r, h)

/-- One call. -/
def call (name : Str) (a : Action K) : Act K Unit := fun h => (.ok (), h ++ [⟨name, a⟩])

/-- A call that answers a pointer. -/
def ask (lib : Library K) (name : Str) (a : Ptr → Action K) : Act K Ptr := fun h => (.ok (lib.pointer h), h ++ [⟨name, a (lib.pointer h)⟩])

/-- A call that answers a number. -/
def draw (lib : Library K) (name : Str) (a : Action K) : Act K K := fun h => (.ok (lib.sample h), h ++ [⟨name, a⟩])

/-- `boost::dll::import<type>(file, name)` (library): an exception if there is no such file or symbol. Nothing checks the type; a call through a function of another type is undefined
behaviour, which the model reports when the function is imported. -/
def load (lib : Library K) (file name : Str) (s : Sig) : Act K Unit := lift
  (match lib.exports file name with
  | none => .error .thrown
  | some s' => if s' = s then .ok () else .error .ub)

/-- `boost::algorithm::to_lower_copy(name) != "none"` (DLLWriter.cpp:21, 59, 69, 78, 89, DLLDistribution.cpp:33, 75, 82). -/
def given (name : Str) : Bool := name.map Char.toLower != "none".toList

/-- `parameters.getString(name)`. -/
def param (name : String) (t : Tree) : Act K Str := lift (getString name.toList t)

/-- `getKeys` (alsutils/src/parameters/Parameters.cpp:58-66). -/
def keys (t : Tree) : List Str := t.children.map (·.1)

/-- `for (auto key : parameters.getKeys()) setParameterFunction(parametersStruct, key, parameters.getString(key))` (DLLWriter.cpp:39-43, DLLDistribution.cpp:67-71). -/
def setAll (name : Str) (p : Ptr) (t : Tree) : List Str → Act K Unit
  | [] => pure ()
  | k :: ks => do
    let v ← lift (getString k t)
    call name (.set p k v)
    setAll name p t ks

/-- `DLLWriter` (alsfvm/include/alsfvm/io/DLLWriter.hpp:109-145): the functions it holds by name. -/
structure Writer where
  dllData : Ptr
  parametersStruct : Ptr
  newTimestep : Option Str
  endTimestep : Option Str
  write : Str
  delete : Option Str
  deleteParameters : Option Str
  needsDataOnHost : Bool

/-- The functions for the parameters (DLLWriter.cpp:21-44): the parameter object and the function that deletes it. -/
def writerParameters (lib : Library K) (file makeName : Str) (t : Tree) : Act K (Ptr × Option Str) :=
  if given makeName then do
    load lib file makeName .make
    let p ← ask lib makeName .make
    let setName ← param "set_parameter_function" t
    load lib file setName .set
    let deleteName ← param "delete_parameters_function" t
    load lib file deleteName .free
    setAll setName p t (keys t)
    pure (p, some deleteName)
  else pure (none, none)

/-- A function that is only imported if its name is not `none` (DLLWriter.cpp:56-63, 65-74). -/
def optional (lib : Library K) (file : Str) (key : String) (s : Sig) (t : Tree) : Act K (Option Str) := do
  let name ← param key t
  if given name then do
    load lib file name s
    pure (some name)
  else pure none

/-- `setMpiCommFunction` (DLLWriter.cpp:76-84); `mpi` tells whether the writer was given a configuration. Without one the null pointer is dereferenced. -/
def setComm (lib : Library K) (file : Str) (mpi : Bool) (data p : Ptr) (t : Tree) : Act K Unit := do
  let f ← optional lib file "set_mpi_comm_function" .mpi t
  match f with
  | none => pure ()
  | some name => if mpi then call name (.mpi data p) else lift (.error .ub)

/-- `needsDataOnHostFunction` (DLLWriter.cpp:86-94); the member starts as `false` (DLLWriter.hpp:143). -/
def askHost (lib : Library K) (file : Str) (data p : Ptr) (t : Tree) : Act K Bool := do
  let f ← optional lib file "needs_data_on_host_function" .host t
  match f with
  | none => pure false
  | some name => fun h => (.ok (lib.onHost h), h ++ [⟨name, .host data p⟩])

/-- Constructor of `DLLWriter` (DLLWriter.cpp:11-99). The member `deleteFunction` is not assigned. -/
def Writer.make (lib : Library K) (mpi : Bool) (t : Tree) : Act K Writer := do
  let file ← param "library" t
  let createName ← param "create_function" t
  let makeName ← param "make_parameters_function" t
  let _ ← param "set_mpi_comm_function" t
  let (p, deleteParameters) ← writerParameters lib file makeName t
  load lib file createName .createWriter
  let data ← ask lib createName (.createWriter p)
  let newTimestep ← optional lib file "new_timestep_function" .step t
  let endTimestep ← optional lib file "end_timestep_function" .step t
  setComm lib file mpi data p t
  let host ← askHost lib file data p t
  let writeName ← param "write_function" t
  load lib file writeName .write
  pure ⟨data, p, newTimestep, endTimestep, writeName, none, deleteParameters, host⟩

/-- What `write` is given: the volume with the names of its variables and whether its memory is on the host, the corners of the grid, time and number of the step, and the number of
the current graphics card. -/
structure Frame (K : Type) where
  volume : Volume K
  names : List Str
  hostMemory : Bool
  origin : K × K × K
  top : K × K × K
  time : K
  number : Nat
  device : Nat

/-- A function call if the function is there. -/
def maybe (f : Option Str) (a : Action K) : Act K Unit := match f with
  | none => pure ()
  | some name => call name a

/-- One variable (DLLWriter.cpp:131-154): the memory is copied to the host if the library asks for it, with the same numbers. -/
def Writer.writeVariable (w : Writer) (f : Frame K) (name : Str) (m : Mem K) : Act K Unit :=
  let onHost := f.hostMemory || w.needsDataOnHost
  call w.write (.write w.dllData w.parametersStruct f.time name m.arr (f.volume.nx, f.volume.ny, f.volume.nz) (f.volume.gx, f.volume.gy, f.volume.gz) f.origin f.top
    (if onHost then -1 else (f.device : Int)))

/-- The loop over the variables (DLLWriter.cpp:131-154); a volume has a name for every variable. -/
def Writer.writeAll (w : Writer) (f : Frame K) : List Str → List (Mem K) → Act K Unit
  | n :: ns, m :: ms => do
    w.writeVariable f n m
    w.writeAll f ns ms
  | _, [] => pure ()
  | [], _ :: _ => lift (.error .ub)

/-- `DLLWriter::write` (DLLWriter.cpp:101-177). -/
def Writer.write' (w : Writer) (f : Frame K) : Act K Unit := do
  maybe w.newTimestep (.step w.dllData w.parametersStruct f.time f.number)
  w.writeAll f f.names f.volume.areas
  maybe w.endTimestep (.step w.dllData w.parametersStruct f.time f.number)

/-- `DLLWriter::finalize` (DLLWriter.cpp:179-189). -/
def Writer.finalize (w : Writer) : Act K Unit := do
  maybe w.delete (.free w.dllData)
  maybe w.deleteParameters (.free w.parametersStruct)

/-- Several calls of `write`. -/
def Writer.writeMany (w : Writer) : List (Frame K) → Act K Unit
  | [] => pure ()
  | f :: fs => do
    w.write' f
    w.writeMany fs

/-- A writer from its construction to its end: the simulator calls `write` some times and `finalize` once (`C87`). The class has no destructor. -/
def Writer.life (lib : Library K) (mpi : Bool) (t : Tree) (frames : List (Frame K)) : Act K Unit := do
  let w ← Writer.make lib mpi t
  w.writeMany frames
  w.finalize

/-- `DLLDistribution` (alsuq/include/alsuq/distribution/DLLDistribution.hpp:149-161). -/
structure Distribution where
  dllData : Ptr
  generator : Str
  delete : Option Str
  size : Nat
  dimension : Nat
  parametersStruct : Ptr
  deleteParameters : Option Str

/-- The functions for the parameters (DLLDistribution.cpp:33-73); `node` and `ranks` are the texts of rank and number of processes. -/
def distributionParameters (lib : Library K) (file makeName node ranks : Str) (t : Tree) : Act K (Ptr × Option Str) :=
  if given makeName then do
    load lib file makeName .make
    let p ← ask lib makeName .make
    let setName ← param "set_parameter_function" t
    load lib file setName .set
    let deleteName ← param "delete_parameters_function" t
    load lib file deleteName .free
    call setName (.set p "mpi_node".toList node)
    call setName (.set p "mpi_size".toList ranks)
    setAll setName p t (keys t)
    pure (p, some deleteName)
  else pure (none, none)

/-- The functions for the data (DLLDistribution.cpp:75-85). -/
def distributionData (lib : Library K) (file createName : Str) (size dimension : Nat) (p : Ptr) (t : Tree) : Act K (Ptr × Option Str) :=
  if given createName then do
    load lib file createName .createDistribution
    let d ← ask lib createName (.createDistribution size dimension p)
    let f ← optional lib file "delete_function" .free t
    pure (d, f)
  else pure (none, none)

/-- Constructor of `DLLDistribution` (DLLDistribution.cpp:26-90). Sizes are assumed to fit into an `int`. -/
def Distribution.make (lib : Library K) (size dimension : Nat) (node ranks : Str) (t : Tree) : Act K Distribution := do
  let file ← param "library" t
  let createName ← param "create_function" t
  let makeName ← param "make_parameters_function" t
  let (p, deleteParameters) ← distributionParameters lib file makeName node ranks t
  let (d, delete) ← distributionData lib file createName size dimension p t
  let generatorName ← param "generator_function" t
  load lib file generatorName .generate
  pure ⟨d, generatorName, delete, size, dimension, p, deleteParameters⟩

/-- `generate` (DLLDistribution.cpp:102-106). -/
def Distribution.generate (d : Distribution) (lib : Library K) (component sample : Nat) : Act K K :=
  draw lib d.generator (.generate d.dllData d.size d.dimension component sample d.parametersStruct)

/-- Several samples. -/
def Distribution.generateMany (d : Distribution) (lib : Library K) : List (Nat × Nat) → Act K (List K)
  | [] => pure []
  | c :: cs => do
    let x ← d.generate lib c.1 c.2
    let xs ← d.generateMany lib cs
    pure (x :: xs)

/-- Destructor (DLLDistribution.cpp:92-100). -/
def Distribution.destroy (d : Distribution) : Act K Unit := do
  maybe d.delete (.free d.dllData)
  if d.parametersStruct.isSome then maybe d.deleteParameters (.free d.parametersStruct) else pure ()

/-- A distribution from its construction to its destruction. If the constructor throws, the destructor does not run. -/
def Distribution.life (lib : Library K) (size dimension : Nat) (node ranks : Str) (t : Tree) (samples : List (Nat × Nat)) : Act K (List K) := do
  let d ← Distribution.make lib size dimension node ranks t
  let xs ← d.generateMany lib samples
  d.destroy
  pure xs

/-- The functions of one quasi Monte Carlo generator (addons/qmc/src/alsuq/addons/qmc_generators/QMCBaseTemplate.cpp.in:11-18). -/
structure QMCNames where
  make : Str
  set : Str
  deleteParameters : Str
  create : Str
  delete : Str
  generate : Str

/-- Constructor of `QMCDistribution` (QMCDistribution.cpp:28-74). -/
def qmcMake (lib : Library K) (n : QMCNames) (size dimension : Nat) (node ranks : Str) (t : Tree) : Act K (Ptr × Ptr) := do
  let p ← ask lib n.make .make
  call n.set (.set p "mpi_node".toList node)
  call n.set (.set p "mpi_size".toList ranks)
  setAll n.set p t (keys t)
  let d ← ask lib n.create (.createDistribution size dimension p)
  pure (d, p)

/-- `operator()` (QMCDistribution.cpp:80-84), several times. -/
def qmcMany (lib : Library K) (n : QMCNames) (size dimension : Nat) (d p : Ptr) : List (Nat × Nat) → Act K (List K)
  | [] => pure []
  | c :: cs => do
    let x ← draw lib n.generate (.generate d size dimension c.1 c.2 p)
    let xs ← qmcMany lib n size dimension d p cs
    pure (x :: xs)

/-- A `std::unique_ptr` is destroyed: the deleter runs unless the pointer is null. -/
def release (name : Str) (p : Ptr) : Act K Unit := if p.isSome then call name (.free p) else pure ()

/-- Destruction of the members in the reverse order of their declaration (QMCDistribution.hpp:52-65): `parametersStruct` before `qmcData`. -/
def qmcDestroy (n : QMCNames) (d p : Ptr) : Act K Unit := do
  release n.deleteParameters p
  release n.delete d

/-- A quasi Monte Carlo distribution from its construction to its destruction. -/
def qmcLife (lib : Library K) (n : QMCNames) (size dimension : Nat) (node ranks : Str) (t : Tree) (samples : List (Nat × Nat)) : Act K (List K) := do
  let (d, p) ← qmcMake lib n size dimension node ranks t
  let xs ← qmcMany lib n size dimension d p samples
  qmcDestroy n d p
  pure xs

/-- The loops of `write_data` of the example library (library_examples/dlls/writer/src/dll_writer_example.cpp:72-81): the lines of the file. A read outside the memory is undefined
behaviour. -/
def exampleLines (values : Arr Nat K) (cells ghosts : Nat × Nat × Nat) : Res (List K) :=
  let (nx, ny, nz) := cells
  let (ngx, ngy, ngz) := ghosts
  (List.range nz).foldlM (fun out z => (List.range ny).foldlM (fun out y => (List.range nx).foldlM (fun out x => do
    let v ← values.rd ((z + ngz) * (nx + 2 * ngx) * (ny + 2 * ngy) + (y + ngy) * (nx + 2 * ngx) + (x + ngx))
    pure (out ++ [v])) out) out) []

end Plugin
end Verif
