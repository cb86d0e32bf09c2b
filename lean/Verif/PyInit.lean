import Verif.UQSetup
import Mathlib.Data.List.Infix

/-!
Model of initial data given as a Python program (alsfvm/src/init/PythonInitialData.cpp): the names the program can use. The loop over the cells and the layout of the arrays are the
subject of C62 (`Verif/Iterate.lean`). What the Python code does is arbitrary: it is given by what it computes from the names it can see. Values are not changed in place.
-/

namespace Verif
namespace PyInit
open Params

variable {K V : Type}

/-- The global names of the module `__main__`; there is one interpreter for the whole program (alsfvm/src/python/PythonInterpreter.cpp). -/
abbrev Names (V : Type) := Str → Option V

/-- What an installation of Python has: numbers and arrays as values, the names of the module `math`, and those of `numpy` if it is installed. -/
structure Python (K V : Type) where
  /-- A number as a Python object. -/
  number : K → V
  /-- An array as a Python object. -/
  array : List K → V
  /-- The names of `math`. -/
  math : Names V
  /-- The names of `numpy`. -/
  numpy : Option (Names V)

/-- The text of the configuration, and what it means as a part of a function and as a program of its own. Both can fail with an exception, and both can change global names. -/
structure Program (K V : Type) where
  /-- The text. -/
  text : Str
  /-- As part of a function: from the global and local names to the local names at the end. -/
  asFunction : Names V → Names V → Res (Names V × Names V)
  /-- As a program: `init_global` and its call, from the global names to the values of the variables. -/
  asProgram : Names V → Res (List (List K) × Names V)

/-- `mainModule.attr(name) = value`. -/
def assign (names : Names V) (name : Str) (value : V) : Names V := Function.update names name (some value)

/-- `from module import *`. -/
def importAll (module_ : Names V) (names : Names V) : Names V := fun n => match module_ n with
  | some v => some v
  | none => names n

/-- The Python object for a parameter (PythonInitialData.cpp:131-143). -/
def object (py : Python K V) : List K → V
  | [x] => py.number x
  | xs => py.array xs

/-- The loop over the parameters (PythonInitialData.cpp:126-144). -/
def setParameters (py : Python K V) (parameters : List (Str × List K)) (names : Names V) : Names V :=
  parameters.foldl (fun ns p => assign ns p.1 (object py p.2)) names

/-- The lines before the program (PythonInitialData.cpp:111-113). They are run with the program (:224), after the parameters have been set. -/
def imports (py : Python K V) (names : Names V) : Names V :=
  let names := importAll py.math names
  match py.numpy with
  | some m => importAll m names
  | none => names

/-- A cell: midpoint and indices, as Python objects in the order of the arguments. -/
structure Cell (V : Type) where
  /-- `x`, `y`, `z`, `i`, `j`, `k`. -/
  arguments : List V

/-- The names of the arguments of the function (PythonInitialData.cpp:116). -/
def argumentNames : List Str := ["x".toList, "y".toList, "z".toList, "i".toList, "j".toList, "k".toList]

/-- The local names when the program begins (PythonInitialData.cpp:116-122): the arguments, the dictionary `output`, and the variables with the value zero. -/
def locals (zero dictionary : V) (variableNames : List Str) (c : Cell V) : Names V :=
  variableNames.foldl (fun ns v => assign ns v zero) (assign ((argumentNames.zip c.arguments).foldl (fun ns p => assign ns p.1 p.2) fun _ => none) "output".toList dictionary)

/-- One call of the function (PythonInitialData.cpp:148-157, 259-268): the program, and then the local names of the variables. A name that is not there, or a value that is not a number, is an
exception. -/
def cellValues (extract : V → Option K) (zero dictionary : V) (program : Program K V) (variableNames : List Str) (globals : Names V) (c : Cell V) : Res (List K × Names V) := do
  let r ← program.asFunction globals (locals zero dictionary variableNames c)
  let values ← variableNames.mapM fun v => match (r.1 v).bind extract with
    | some x => (.ok x : Res K)
    | none => .error .thrown
  pure (values, r.2)

/-- The loop over the cells (PythonInitialData.cpp:251-270). -/
def cellLoop (extract : V → Option K) (zero dictionary : V) (program : Program K V) (variableNames : List Str) : List (Cell V) → Names V → Res (List (List K) × Names V)
  | [], g => .ok ([], g)
  | c :: cs, g => do
    let r ← cellValues extract zero dictionary program variableNames g c
    let rs ← cellLoop extract zero dictionary program variableNames cs r.2
    pure (r.1 :: rs.1, rs.2)

/-- The arrays for a program of its own (PythonInitialData.cpp:160-192). -/
def setArrays (arrays : Str → V) (variableNames : List Str) (names : Names V) : Names V :=
  variableNames.foldl (fun ns v => assign ns (v ++ "_global".toList) (arrays v)) names

/-- What stays the same for all samples. -/
structure Task (K V : Type) where
  /-- The number zero. -/
  zero : V
  /-- A dictionary. -/
  dictionary : V
  /-- The function object that the snippet is made into. -/
  function : V
  /-- `boost::python::extract<double>`. -/
  extract : V → Option K
  /-- The memory of the variables as arrays. -/
  arrays : Str → V
  /-- The program of the configuration. -/
  program : Program K V
  /-- The names of the primitive variables. -/
  variableNames : List Str
  /-- The cells. -/
  cells : List (Cell V)

/-- Whether the text is a program of its own (PythonInitialData.cpp:104-109): it has `init_global` somewhere. -/
def isProgram (text : Str) : Bool := decide ("init_global".toList <:+: text)

/-- `setInitialData` (PythonInitialData.cpp:84-281) up to the conversion of the variables: the values (by cells, or by variables for a program of its own) and the global names afterwards. -/
def setInitialData (py : Python K V) (task : Task K V) (parameters : List (Str × List K)) (names : Names V) : Res (List (List K) × Names V) :=
  if isProgram task.program.text then
    let names := setParameters py parameters names
    let names := setArrays task.arrays task.variableNames names
    task.program.asProgram (imports py names)
  else
    let names := setParameters py parameters names
    let names := assign (imports py names) "initial_data".toList task.function
    cellLoop task.extract task.zero task.dictionary task.program task.variableNames task.cells names

/-- The samples of one process one after the other (alsuq/src/run/Runner.cpp:42-78): the configuration is read again for each (alsuq/src/run/FiniteVolumeSimulatorCreator.cpp:50-63), the
parameters of the sample are added, and then comes everything that the rest of the program does to the names before the next sample (Python scripts that write output use the same names,
alsfvm/src/io/PythonScript.cpp:54-57). Gives the initial values of all samples. -/
def runSamples (py : Python K V) (task : Task K V) (configured : List (Str × List K)) : List (List (Str × List K) × (Names V → Names V)) → Names V → Res (List (List (List K)))
  | [], _ => .ok []
  | s :: ss, names => do
    let r ← setInitialData py task (UQSetup.setParameters configured s.1) names
    let rs ← runSamples py task configured ss (s.2 r.2)
    pure (r.1 :: rs)

end PyInit
end Verif
