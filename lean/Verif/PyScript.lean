import Verif.Volume
import Verif.Params

/-!
Model of the writer that hands the solution to a Python script (alsfvm/src/io/PythonScript.cpp). Python objects are addresses: the script may keep an array and look at it later.
-/

namespace Verif
namespace PyScript
open Params

variable {K : Type}

/-- A `numpy` array: its length and its elements. -/
structure NpArray (K : Type) where
  /-- Number of elements. -/
  length : Nat
  /-- The elements. -/
  val : Nat → K

/-- The arrays that have been made; the address is the position. -/
abbrev Heap (K : Type) := List (NpArray K)

/-- `datasetsConserved`, a Python dictionary of arrays (PythonScript.hpp:55). -/
abbrev Dict := List (Str × Nat)

/-- `dictionary[key] = value`. -/
def setKey (d : Dict) (key : Str) (value : Nat) : Dict :=
  if key ∈ d.map Prod.fst then d.map fun p => if p.1 = key then (key, value) else p else d ++ [(key, value)]

/-- The members of the writer that change (PythonScript.hpp:55-65). -/
structure State (K : Type) where
  /-- The arrays. -/
  heap : Heap K
  /-- `datasetsConserved`. -/
  datasets : Dict
  /-- `rawPointersConserved`. -/
  pointers : List Nat
  /-- `datasetsInitialized`. -/
  initialized : Bool

/-- One turn of the loop of `makeDatasets` (PythonScript.cpp:116-123). -/
def makeDataset [Zero K] (size : Nat) (s : State K) (name : Str) : State K :=
  { s with heap := s.heap ++ [⟨size, fun _ => 0⟩], pointers := s.pointers ++ [s.heap.length], datasets := setKey s.datasets name s.heap.length }

/-- `makeDatasets` (PythonScript.cpp:106-126); `names` are the names of the variables. -/
def makeDatasets [Zero K] (names : List Str) (v : Volume K) (s : State K) : State K :=
  { names.foldl (makeDataset (v.nx * v.ny * v.nz)) { s with pointers := [] } with initialized := true }

/-- One turn of the loop of `copyToDatasets` (PythonScript.cpp:138-143). The array has the length it was made with, whatever the size of the volume is now. -/
def copyVariable (v : Volume K) (s : State K) (var : Nat) : Res (State K) :=
  match s.pointers[var]? with
  | none => .error .ub
  | some p => match s.heap[p]? with
    | none => .error .ub
    | some a => do
      let out ← v.copyInternalCells var a.val a.length
      pure { s with heap := s.heap.set p ⟨a.length, out.val⟩ }

/-- `copyToDatasets` (PythonScript.cpp:128-145). -/
def copyToDatasets [Zero K] (names : List Str) (v : Volume K) (s : State K) : Res (State K) :=
  (List.range names.length).foldlM (copyVariable v) (if s.initialized then s else makeDatasets names v s)

/-- What the script and the other processes notice. -/
inductive Event (T : Type) where
  /-- The method `write` with the dictionary of arrays, the time and the number of steps; the description of the grid is left out. -/
  | write (datasets : Dict) (time : T) (steps : Nat)
  /-- `MPI_Barrier`. -/
  | barrier
  /-- The method `afterMPISync`. -/
  | afterMPISync
  /-- The method `finalize`. -/
  | finalize

/-- `write` (PythonScript.cpp:73-98): what has happened and the new state. `returns` tells whether a call of a method returns or raises an exception; `mpi` whether there is a configuration of
the processes (:87). -/
def write [Zero K] {T : Type} (names : List Str) (mpi : Bool) (returns : Event T → Bool) (v : Volume K) (time : T) (steps : Nat) (s : State K) :
    Res (State K) × List (Event T) :=
  match copyToDatasets names v s with
  | .error e => (.error e, [])
  | .ok s' =>
    if returns (.write s'.datasets time steps) then
      let before := .write s'.datasets time steps :: (if mpi then [.barrier] else [])
      if returns .afterMPISync then (.ok s', before ++ [.afterMPISync]) else (.error .thrown, before ++ [.afterMPISync])
    else (.error .thrown, [.write s'.datasets time steps])

/-- The state of a new writer (PythonScript.hpp:55-65). -/
def start : State K := ⟨[], [], [], false⟩

/-- One output: the solution, time and number of steps, and what the script does to the elements of the arrays it has been given, before the next output. -/
structure Output (K T : Type) where
  /-- The solution. -/
  volume : Volume K
  /-- The time. -/
  time : T
  /-- The number of steps. -/
  steps : Nat
  /-- Changes by the script. -/
  touch : Heap K → Heap K

/-- The outputs of a run one after the other. -/
def writeAll [Zero K] {T : Type} (names : List Str) (mpi : Bool) (returns : Event T → Bool) : List (Output K T) → State K → Res (State K) × List (Event T)
  | [], s => (.ok s, [])
  | o :: os, s => match write names mpi returns o.volume o.time o.steps s with
    | (.error e, es) => (.error e, es)
    | (.ok s', es) =>
      let r := writeAll names mpi returns os { s' with heap := o.touch s'.heap }
      (r.1, es ++ r.2)

/-- What the script finds in an array of a dictionary when it looks: the elements in their order. -/
def look (heap : Heap K) (address : Nat) : Option (List K) := heap[address]?.map fun a => (List.range a.length).map a.val

end PyScript
end Verif
