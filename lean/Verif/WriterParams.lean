import Verif.Params

/-!
The parameters that scripts and libraries get when they are used as writers: the factories of writers (alsfvm/src/io/WriterFactory.cpp, alsfvm/src/io/MpiWriterFactory.cpp,
alsuq/src/io/MPIWriterFactory.cpp), the dictionary for scripts (alsfvm/src/io/PythonScript.cpp:57-66) and what the script of an example reads from it
(examples/kelvinhelmholtz_plot_python/plotting.py:24-35).
-/

namespace Verif.WriterParams
open Params

/-- An integer as text (`ptree::put<int>`). -/
def decimal (i : Int) : Str := if i < 0 then '-' :: Nat.toDigits 10 i.natAbs else Nat.toDigits 10 i.natAbs

/-- `addIntegerParameter` (alsutils/src/parameters/Parameters.cpp:68-70). -/
def addInteger (name : Str) (i : Int) (t : Tree) : Tree := addString name (decimal i) t

/-- The parameters handed to `PythonScript` and `DLLWriter` by `MpiWriterFactory::createWriter` (alsfvm/src/io/MpiWriterFactory.cpp:34-46): a copy gets the numbers of the process and of all
processes, and the original is handed over. -/
def mpiParameters (rank size : Int) (parameters : Tree) : Tree :=
  let _parameterCopy := addInteger "mpi_size".toList size (addInteger "mpi_rank".toList rank parameters)
  parameters

/-- The parameters handed to them by `MPIWriterFactory::createWriter` of alsuq (alsuq/src/io/MPIWriterFactory.cpp:49-54, 69-75). -/
def uqParameters (groupNames : List Str) (groupIndex : Nat) (rank size : Int) (parameters : Tree) : Tree :=
  let parameterCopy := addInteger "mpi_rank".toList rank parameters
  let parameterCopy := addInteger "mpi_size".toList size parameterCopy
  let parameterCopy := addVector "group_names".toList groupNames parameterCopy
  addInteger "group_index".toList groupIndex parameterCopy

/-- `dictionary[key] = value`. -/
def setItem (d : List (Str × Str)) (key value : Str) : List (Str × Str) :=
  if key ∈ d.map Prod.fst then d.map fun p => if p.1 = key then (key, value) else p else d ++ [(key, value)]

/-- The dictionary given to the class of the script (PythonScript.cpp:59-63); `getKeys` (Parameters.cpp:58-66) lists the children of the root. -/
def dictionary (t : Tree) : Res (List (Str × Str)) :=
  (t.children.map Prod.fst).foldlM (fun d key => do
    let value ← getString key t
    .ok (setItem d key value)) []

/-- `dictionary.get(key)`. -/
def item (key : Str) (d : List (Str × Str)) : Option Str := (d.find? fun p => p.1 == key).map Prod.snd

/-- `dictionary[key]`: raises an exception if there is no such key. -/
def index (key : Str) (d : List (Str × Str)) : Res Str :=
  match item key d with
  | some v => .ok v
  | none => .error .thrown

/-- White space for `str.split()`; only ASCII. -/
def space (c : Char) : Bool := c == ' ' || c == '\t' || c == '\n' || c == '\r' || c == '\x0b' || c == '\x0c'

/-- `str.split()`: the longest pieces without white space; `w` is the piece begun. -/
def words (w : Str) : Str → List Str
  | [] => if w = [] then [] else [w]
  | c :: cs => if space c then (if w = [] then words [] cs else w :: words [] cs) else words (w ++ [c]) cs

/-- `int(text)`; only digits with or without a minus sign, everything else raises an exception. -/
def int (s : Str) : Res Int :=
  let digits := if s.head? == some '-' then s.drop 1 else s
  if digits ≠ [] ∧ digits.all Char.isDigit then .ok (if s.head? == some '-' then -(Nat.ofDigitChars 10 digits 0 : Int) else Nat.ofDigitChars 10 digits 0) else .error .thrown

/-- `list[i]` of Python: negative indices count from the end. -/
def nth (l : List Str) (i : Int) : Res Str :=
  let i := if i < 0 then i + l.length else i
  if i < 0 then .error .thrown else match l[i.toNat]? with
    | some s => .ok s
    | none => .error .thrown

/-- The members of `PlotKH` that say where it runs. -/
structure Told where
  rank : Int
  size : Int
  sample : Str
deriving DecidableEq

/-- `PlotKH.__init__` (plotting.py:24-35). -/
def plotInit (parameters : List (Str × Str)) : Res Told := do
  let told : Told := ⟨0, 0, "sample_0".toList⟩
  let told ← match item "mpi_rank".toList parameters with
    | none => .ok told
    | some r => do
      let rank ← int r
      let s ← index "mpi_size".toList parameters
      let size ← int s
      .ok { told with rank := rank, size := size }
  match item "group_names".toList parameters with
  | none => .ok told
  | some names => do
    let i ← index "group_index".toList parameters
    let i ← int i
    let sample ← nth (words [] names) i
    .ok { told with sample := sample }

end Verif.WriterParams
