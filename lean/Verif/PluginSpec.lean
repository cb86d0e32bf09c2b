import Verif.Plugin

/-!
What C100 demands of the calls a plug-in library receives. The documentation is in alsfvm/include/alsfvm/io/DLLWriter.hpp:8-82 and
alsuq/include/alsuq/distribution/DLLDistribution.hpp:25-136.
-/

namespace Verif
namespace Props.Plugin
open Params Verif.Plugin

variable {K : Type}

/-- The entry of this name says `v`. -/
def Reads (t : Tree) (key : String) (v : Str) : Prop := getString key.toList t = .ok v

/-- The word "none", in capital or small letters. -/
def IsNone (v : Str) : Prop := v.map Char.toLower = "none".toList

/-- The entry of this name gives a function of the library, of the right type, or says "none". -/
inductive Gives (lib : Library K) (file : Str) (t : Tree) (key : String) (s : Sig) : Option Str → Prop
  | function {v : Str} : Reads t key v → ¬ IsNone v → lib.exports file v = some s → Gives lib file t key s (some v)
  | none {v : Str} : Reads t key v → IsNone v → Gives lib file t key s none

/-- The functions that make, fill and delete a parameter object. -/
structure ParameterFunctions where
  make : Str
  set : Str
  delete : Str

/-- The entries that tell the functions for the parameters, or say that there are none. -/
inductive GivesParameters (lib : Library K) (file : Str) (t : Tree) : Option ParameterFunctions → Prop
  | functions {n : ParameterFunctions} : Gives lib file t "make_parameters_function" .make (some n.make) → Reads t "set_parameter_function" n.set →
      lib.exports file n.set = some .set → Reads t "delete_parameters_function" n.delete → lib.exports file n.delete = some .free →
      GivesParameters lib file t (some n)
  | none : Gives lib file t "make_parameters_function" .make none → GivesParameters lib file t none

/-- The functions a writer uses, in the library `file`. -/
structure WriterFunctions where
  file : Str
  parameters : Option ParameterFunctions
  create : Str
  delete : Option Str
  newTimestep : Option Str
  endTimestep : Option Str
  setComm : Option Str
  needsHost : Option Str
  write : Str

/-- The node of a writer tells these functions, and the library has them. -/
structure WriterSays (lib : Library K) (t : Tree) (n : WriterFunctions) : Prop where
  library : Reads t "library" n.file
  parameters : GivesParameters lib n.file t n.parameters
  create : Reads t "create_function" n.create ∧ lib.exports n.file n.create = some .createWriter
  delete : Gives lib n.file t "delete_function" .free n.delete
  newTimestep : Gives lib n.file t "new_timestep_function" .step n.newTimestep
  endTimestep : Gives lib n.file t "end_timestep_function" .step n.endTimestep
  setComm : Gives lib n.file t "set_mpi_comm_function" .mpi n.setComm
  needsHost : Gives lib n.file t "needs_data_on_host_function" .host n.needsHost
  write : Reads t "write_function" n.write ∧ lib.exports n.file n.write = some .write

/-- The entries have different names, which are not empty and contain no dots. -/
def Plain (t : Tree) : Prop := (t.children.map (·.1)).Nodup ∧ ∀ c ∈ t.children, c.1 ≠ [] ∧ '.' ∉ c.1

/-- A call of a function that may be missing. -/
def optionally (f : Option Str) (a : Action K) : List (Call K) := match f with
  | none => []
  | some name => [⟨name, a⟩]

/-- The parameter object is made and gets every entry of the node, after the `extra` ones. -/
def parameterCalls (n : Option ParameterFunctions) (extra : List (Str × Str)) (t : Tree) (P : Ptr) : List (Call K) := match n with
  | none => []
  | some n => ⟨n.make, .make P⟩ :: (extra ++ t.children.map fun c => (c.1, c.2.data)).map fun e => ⟨n.set, .set P e.1 e.2⟩

/-- The pointer to the parameters is the answer of the library; it is null if there are no parameters. -/
def IsParameters (lib : Library K) (h : List (Call K)) (n : Option ParameterFunctions) (P : Ptr) : Prop := match n with
  | none => P = none
  | some _ => P = lib.pointer h

/-- What a writer asks of the library when it is made, before the question about the host. -/
def openingCalls (n : WriterFunctions) (t : Tree) (P D : Ptr) : List (Call K) :=
  parameterCalls n.parameters [] t P ++ [⟨n.create, .createWriter P D⟩] ++ optionally n.setComm (.mpi D P)

/-- Output of one time: the step begins, every variable is handed over with its name, its numbers, the sizes without ghost cells, the ghost cells and the domain, and the step ends. The
last number is -1 if the numbers are on the host, and otherwise the number of the graphics card; they are brought to the host if the library needs that. -/
def outputCalls (n : WriterFunctions) (P D : Ptr) (needs : Bool) (f : Frame K) : List (Call K) :=
  optionally n.newTimestep (.step D P f.time f.number) ++
  ((f.names.zip f.volume.areas).map fun v => ⟨n.write, .write D P f.time v.1 v.2.arr (f.volume.nx, f.volume.ny, f.volume.nz) (f.volume.gx, f.volume.gy, f.volume.gz) f.origin f.top
    (if f.hostMemory = true ∨ needs = true then -1 else f.device)⟩) ++
  optionally n.endTimestep (.step D P f.time f.number)

/-- The whole life of a writer: parameters and data are made, the solution is handed over at every output time, data and parameters are deleted. `delete` is the function that
deletes the data. -/
def writerCalls (n : WriterFunctions) (t : Tree) (P D : Ptr) (needs : Bool) (frames : List (Frame K)) (delete : Option Str) : List (Call K) :=
  openingCalls n t P D ++ optionally n.needsHost (.host D P) ++ frames.flatMap (outputCalls n P D needs) ++ optionally delete (.free D) ++
    optionally (n.parameters.map (·.delete)) (.free P)

/-- The functions a distribution uses, in the library `file`. -/
structure DistributionFunctions where
  file : Str
  parameters : Option ParameterFunctions
  create : Option Str
  delete : Option Str
  generate : Str

/-- The node of a distribution tells these functions, and the library has them. The function that deletes the data is only looked up if there is one that creates them. -/
structure DistributionSays (lib : Library K) (t : Tree) (n : DistributionFunctions) : Prop where
  library : Reads t "library" n.file
  parameters : GivesParameters lib n.file t n.parameters
  create : Gives lib n.file t "create_function" .createDistribution n.create
  delete : (n.create = none ∧ n.delete = none) ∨ (n.create ≠ none ∧ Gives lib n.file t "delete_function" .free n.delete)
  generate : Reads t "generator_function" n.generate ∧ lib.exports n.file n.generate = some .generate

/-- Rank and number of processes as further entries. -/
def rankEntries (node ranks : Str) : List (Str × Str) := [("mpi_node".toList, node), ("mpi_size".toList, ranks)]

/-- What a distribution asks of the library when it is made. -/
def distributionOpening (n : DistributionFunctions) (t : Tree) (size dimension : Nat) (node ranks : Str) (P D : Ptr) : List (Call K) :=
  parameterCalls n.parameters (rankEntries node ranks) t P ++ optionally n.create (.createDistribution size dimension P D)

/-- The questions for samples. -/
def sampleCalls (generate : Str) (size dimension : Nat) (P D : Ptr) (samples : List (Nat × Nat)) : List (Call K) :=
  samples.map fun s => ⟨generate, .generate D size dimension s.1 s.2 P⟩

/-- Every sample is what the library answered to the question for it. -/
def AreAnswers (lib : Library K) (h : List (Call K)) (generate : Str) (size dimension : Nat) (P D : Ptr) (samples : List (Nat × Nat)) (xs : List K) : Prop :=
  xs.length = samples.length ∧ ∀ i (hi : i < xs.length), xs[i] = lib.sample (h ++ sampleCalls generate size dimension P D (samples.take i))

/-- The pointer to the data is the answer of the library; it is null if the library creates none. -/
def IsData (lib : Library K) (h : List (Call K)) (create : Option Str) (D : Ptr) : Prop := match create with
  | none => D = none
  | some _ => D = lib.pointer h

/-- A deletion that is left out for the null pointer. -/
def deletion (f : Option Str) (p : Ptr) : List (Call K) := match p with
  | none => []
  | some _ => optionally f (.free p)

end Props.Plugin
end Verif
