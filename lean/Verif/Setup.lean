import Verif.Params
import Verif.Factories
import Verif.Iterate

/-!
Model of reading a configuration file (alsfvm/src/config/SimulatorSetup.cpp). The file is the property tree the XML parser makes of it (`Params.Tree`); conversions from text to
numbers, the contents of other files and the creators of the registered functionals are parameters.
-/

namespace Verif.Setup
open Params Factories

/-- Conversions from text to numbers. `real`, `int`, `size`, `bool` are those of `ptree::get` (reading from a stream), `realText` and `intText` those of `boost::lexical_cast`, `atof` is
`std::atof`. `none` means that the conversion throws. -/
structure Conv (K : Type) where
  real : Str → Option K
  int : Str → Option Int
  size : Str → Option Nat
  bool : Str → Option Bool
  realText : Str → Option K
  intText : Str → Option Int
  atof : Str → K

/-- `ptree::get_child(path)`, with the keys of the path separated already. -/
def child (path : List String) (t : Tree) : Res Tree := walk (path.map String.toList) t

/-- `ptree::get<std::string>(path)`: the text as it is. -/
def text (path : List String) (t : Tree) : Res Str := (child path t).map Tree.data

/-- A conversion that throws. -/
def convert {α : Type} (f : Str → Option α) (s : Str) : Res α :=
  match f s with
  | some x => .ok x
  | none => .error .thrown

/-- `ptree::get<T>(path)` for other types. -/
def get {α : Type} (f : Str → Option α) (path : List String) (t : Tree) : Res α := do convert f (← text path t)

/-- `node.find(key) != node.not_found()`. -/
def has (k : String) (t : Tree) : Bool := (find k.toList t).isSome

/-- `std::isspace` in the default locale. -/
def isSpace (c : Char) : Bool := c == ' ' || c == '\t' || c == '\n' || c == '\x0b' || c == '\x0c' || c == '\r'

/-- `boost::trim`. -/
def trim (s : Str) : Str := ((s.dropWhile isSpace).reverse.dropWhile isSpace).reverse

/-! ### `loadFiles` (SimulatorSetup.cpp:660-682) -/

mutual
/-- The body of the loop, without the key: a node without children whose text begins with `load:` gets the content of the file as its text. -/
def loadNode (load : Str → Option Str) : Tree → Res Tree
  | .node d [] => if d.take 5 = "load:".toList then do .ok (.node (← convert load (d.drop 5)) []) else .ok (.node d [])
  | .node d (p :: ps) => do
    let q ← loadPair load p
    let qs ← loadChildren load ps
    .ok (.node d (q :: qs))
/-- The loop over the children. -/
def loadChildren (load : Str → Option Str) : List (Str × Tree) → Res (List (Str × Tree))
  | [] => .ok []
  | p :: ps => do
    let q ← loadPair load p
    let qs ← loadChildren load ps
    .ok (q :: qs)
/-- One child. -/
def loadPair (load : Str → Option Str) : Str × Tree → Res (Str × Tree)
  | (k, t) => do .ok (k, ← loadNode load t)
end

/-- `loadFiles`: the node itself keeps its text. -/
def loadFiles (load : Str → Option Str) (t : Tree) : Res Tree := do .ok (.node t.data (← loadChildren load t.children))

/-! ### The grid -/

/-- `splitString[i]` followed by `lexical_cast` (SimulatorSetup.cpp:77-79): an access behind the last element is undefined behaviour. -/
def token {α : Type} (f : Str → Option α) (words : List Str) (i : Nat) : Res α :=
  match words[i]? with
  | some w => convert f w
  | none => .error .ub

/-- `parseVector` (SimulatorSetup.cpp:72-83). -/
def parseVector {α : Type} (f : Str → Option α) (s : Str) : Res (α × α × α) := do
  let words := split s
  let a ← token f words 0
  let b ← token f words 1
  let c ← token f words 2
  .ok (a, b, c)

/-- The arguments of the constructor of the grid. -/
structure GridObj (K : Type) where
  lower : V3 K
  upper : V3 K
  dims : I3
  periodic : Bool

/-- `createGrid` (SimulatorSetup.cpp:260-287), from the node `fvm`. -/
def createGrid {K : Type} (conv : Conv K) (fvm : Tree) : Res (GridObj K) := do
  let gridNode ← child ["grid"] fvm
  let lowerText ← text ["lowerCorner"] gridNode
  let upperText ← text ["upperCorner"] gridNode
  let dimsText ← text ["dimension"] gridNode
  let lower ← parseVector conv.realText lowerText
  let upper ← parseVector conv.realText upperText
  let dims ← parseVector conv.intText dimsText
  let boundary ← text ["boundary"] fvm
  let periodic ← (if boundary = "periodic".toList then .ok true else if boundary = "neumann".toList then .ok false else .error .thrown : Res Bool)
  .ok ⟨⟨lower.1, lower.2.1, lower.2.2⟩, ⟨upper.1, upper.2.1, upper.2.2⟩, ⟨dims.1, dims.2.1, dims.2.2⟩, periodic⟩

/-! ### Names and numbers -/

/-- `readReconstruciton` (SimulatorSetup.cpp:298-303). -/
def readReconstruction (fvm : Tree) : Res Str := do .ok (trim (← text ["reconstruction"] fvm))

/-- `readCFLNumber` (SimulatorSetup.cpp:305-319); the numbers 0.9 and 0.475 exactly. -/
def readCFLNumber {K : Type} [Field K] (conv : Conv K) (fvm : Tree) : Res K := do
  let cfl ← text ["cfl"] fvm
  if cfl = "auto".toList then
    let reconstruction ← readReconstruction fvm
    if reconstruction = "none".toList then .ok (9 / 10) else .ok (475 / 1000)
  else convert conv.realText cfl

/-- `readIntegrator` (SimulatorSetup.cpp:321-336). -/
def readIntegrator (fvm : Tree) : Res Str := do
  let integrator ← text ["integrator"] fvm
  if integrator = "auto".toList then
    let reconstruction ← readReconstruction fvm
    if reconstruction = "none".toList then .ok "forwardeuler".toList else .ok "rungekutta2".toList
  else .ok integrator

/-- The names for the diffusion operator in `createDiffusion` (SimulatorSetup.cpp:521-531). -/
def readDiffusion (fvm : Tree) : Res (Str × Str) :=
  if has "diffusion" fvm then do
    let name ← text ["diffusion", "name"] fvm
    let reconstruction ← text ["diffusion", "reconstruction"] fvm
    .ok (trim name, trim reconstruction)
  else .ok ("none".toList, "none".toList)

/-- `readEquationParameters` (SimulatorSetup.cpp:483-506): the adiabatic exponent that is set; `none` leaves the default. -/
def readGamma {K : Type} (conv : Conv K) (fvm : Tree) : Res (Option K) :=
  if has "equationParameters" fvm then do
    let equation ← text ["equation"] fvm
    if equation = "euler1".toList ∨ equation = "euler2".toList ∨ equation = "euler3".toList then
      let gamma ← get conv.real ["equationParameters", "gamma"] fvm
      .ok (some gamma)
    else .ok none
  else .ok none

/-! ### Initial data -/

/-- `boost::iequals`. -/
def iequals (a b : Str) : Bool := a.map Char.toLower == b.map Char.toLower

/-- `init::Parameters::addParameter` (alsfvm/src/init/Parameters.cpp:21-28) on the list of the parameters added so far. -/
def addParameter {K : Type} (ps : List (Str × List K)) (p : Str × List K) : Res (List (Str × List K)) :=
  if p.1 ∈ ps.map Prod.fst then .error .thrown else .ok (ps ++ [p])

/-- A single value is repeated (SimulatorSetup.cpp:470-472). `resize` with a negative `length` throws. -/
def fillValues {K : Type} (length : Int) : List K → Res (List K)
  | [x] => if length < 0 then .error .thrown else .ok (List.replicate length.toNat x)
  | xs => .ok xs

/-- One parameter of the initial data (SimulatorSetup.cpp:451-476). -/
def readParameter {K : Type} (conv : Conv K) (node : Tree) : Res (Str × List K) := do
  let name ← text ["name"] node
  let length ← get conv.int ["length"] node
  if length = 1 then
    let x ← get conv.real ["value"] node
    .ok (name, [x])
  else
    let values ← child ["values"] node
    let xs ← (values.children.filter fun p => iequals p.1 "value".toList).mapM fun p => convert conv.real p.2.data
    .ok (name, ← fillValues length xs)

/-- `readParameters` (SimulatorSetup.cpp:431-481). -/
def readParameters {K : Type} (conv : Conv K) (fvm : Tree) : Res (List (Str × List K)) := do
  let ps ← (if has "equationParameters" fvm then do
      let node ← child ["equationParameters"] fvm
      node.children.foldlM (fun ps p => addParameter ps (p.1, [conv.atof p.2.data])) []
    else .ok [])
  let initial ← child ["initialData"] fvm
  if has "parameters" initial then
    let node ← child ["parameters"] initial
    node.children.foldlM (fun ps p => do addParameter ps (← readParameter conv p.2)) ps
  else .ok ps

/-- `createInitialData` (SimulatorSetup.cpp:338-354): the program and its parameters. -/
def createInitialData {K : Type} (conv : Conv K) (load : Str → Option Str) (fvm : Tree) : Res (Str × List (Str × List K)) := do
  let node ← child ["initialData"] fvm
  if has "python" node then
    let file ← text ["python"] node
    let program ← convert load file
    let parameters ← readParameters conv fvm
    .ok (program, parameters)
  else .error .thrown

/-! ### Writers -/

/-- The writer objects. An interval of `none` stands for the quotient by zero, which is not a finite number; `F` are the functionals. -/
inductive WriterObj (K F : Type) where
  | base (type basename : Str) (parameters : Tree)
  | fixed (inner : WriterObj K F) (interval : Option K) (start : K) (initial : Bool)
  | coarse (inner : WriterObj K F) (interval : Option K) (saves skips : Int)
  | integrated (inner : WriterObj K F) (time radius : K)
  | timeFunctional (inner : WriterObj K F) (f : F) (time radius : K)
  | functional (inner : WriterObj K F) (f : F)

/-- Is the writer a `TimestepAdjuster` (alsfvm/include/alsfvm/io/FixedIntervalWriter.hpp:31, CoarseGrainingIntervalWriter.hpp:36-37)? -/
def WriterObj.isAdjuster {K F : Type} : WriterObj K F → Bool
  | .fixed .. => true
  | .coarse .. => true
  | _ => false

/-- `WriterFactory::createWriter` and `MpiWriterFactory::createWriter` (alsfvm/src/io/WriterFactory.cpp:25-44, MpiWriterFactory.cpp:29-52). The constructors of the writers (opening of
files, libraries and scripts) are left out. -/
def createBase {K F : Type} (mpi : Bool) (type basename : Str) (parameters : Tree) : Res (WriterObj K F) :=
  if mpi then
    if type = "netcdf".toList then .ok (.base type basename parameters)
    else if type = "python".toList then .ok (.base type basename parameters)
    else if type = "dll".toList then .ok (.base type basename parameters)
    else .error .thrown
  else
    if type = "hdf5".toList then .ok (.base type basename parameters)
    else if type = "netcdf".toList then .ok (.base type basename parameters)
    else if type = "python".toList then .ok (.base type basename parameters)
    else if type = "dll".toList then .ok (.base type basename parameters)
    else .error .thrown

/-- A quotient by a number of saves. -/
def quotient {K : Type} [Field K] (x : K) (n : Nat) : Option K := if n = 0 then none else some (x / n)

/-- Conversion from `size_t` to `int`. -/
def toInt32 (n : Nat) : Int := Int.bmod n (2 ^ 32)

/-- `createWriter` (SimulatorSetup.cpp:356-419), from the node `fvm`. -/
def createWriter {K F : Type} [Field K] [LinearOrder K] (mpi : Bool) (conv : Conv K) (fvm : Tree) : Res (Option (WriterObj K F)) :=
  if has "writer" fvm then do
    let type ← text ["writer", "type"] fvm
    let basename ← text ["writer", "basename"] fvm
    let writerNode ← child ["writer"] fvm
    let base ← createBase mpi type basename writerNode
    if has "numberOfSaves" writerNode then
      let numberOfSaves ← get conv.size ["numberOfSaves"] writerNode
      let endTime ← get conv.real ["endTime"] fvm
      let initial ← (if has "writeInitialTimestep" writerNode then get conv.bool ["writeInitialTimestep"] writerNode else .ok false : Res Bool)
      if has "numberOfCoarseSaves" writerNode then
        let saves ← get conv.size ["numberOfCoarseSaves"] writerNode
        let skips ← get conv.size ["numberOfSkips"] writerNode
        .ok (some (.coarse base (quotient endTime numberOfSaves) (toInt32 saves) (toInt32 skips)))
      else .ok (some (.fixed base (quotient endTime numberOfSaves) 0 initial))
    else if has "timeRadius" writerNode then
      let time ← get conv.real ["time"] writerNode
      let radius ← get conv.real ["timeRadius"] writerNode
      if has "numberOfSnapshots" writerNode then
        let snapshots ← get conv.size ["numberOfSnapshots"] writerNode
        .ok (some (.fixed (.integrated base time radius) (quotient radius snapshots) (max (time - radius) 0) false))
      else .ok (some base)
    else .ok (some base)
  else .ok none

/-- `readAllEquationParameters` (SimulatorSetup.cpp:85-99): the parameters of a functional with those of the equation put into them. -/
def functionalParameters (fvm node : Tree) : Res Tree :=
  if has "equationParameters" fvm then do
    let ps ← child ["equationParameters"] fvm
    .ok (ps.children.foldl (fun t p => addString p.1 p.2.data t) node)
  else .ok node

/-- One functional of `createFunctionals` (SimulatorSetup.cpp:571-632). `make` stands for the creators registered with the functional factory
(alsfvm/src/functional/FunctionalFactory.cpp:50-60). -/
def createFunctional {K F : Type} [Field K] [LinearOrder K] (mpi : Bool) (conv : Conv K) (make : Str → Str → Tree → Res F) (fvm node : Tree) : Res (WriterObj K F) := do
  let name ← text ["name"] node
  let type ← text ["writer", "type"] node
  let basename ← text ["writer", "basename"] node
  let writerNode ← child ["writer"] node
  let writer ← createBase mpi type basename writerNode
  let parameters ← functionalParameters fvm node
  let platform ← text ["platform"] fvm
  let f ← make platform name parameters
  if has "time" node then
    let time ← get conv.real ["time"] node
    let radius ← get conv.real ["timeRadius"] node
    if has "numberOfSnapshots" node then
      let snapshots ← get conv.size ["numberOfSnapshots"] node
      .ok (.fixed (.timeFunctional writer f time radius) (quotient radius snapshots) (max (time - radius) 0) false)
    else .ok (.timeFunctional writer f time radius)
  else if has "numberOfSaves" node then
    let numberOfSaves ← get conv.size ["numberOfSaves"] node
    let endTime ← get conv.real ["endTime"] fvm
    .ok (.fixed (.functional writer f) (quotient endTime numberOfSaves) 0 true)
  else .error .thrown

/-- `createFunctionals` (SimulatorSetup.cpp:545-639). -/
def createFunctionals {K F : Type} [Field K] [LinearOrder K] (mpi : Bool) (conv : Conv K) (make : Str → Str → Tree → Res F) (fvm : Tree) : Res (List (WriterObj K F)) :=
  if has "functionals" fvm then do
    let node ← child ["functionals"] fvm
    node.children.mapM fun p => createFunctional mpi conv make fvm p.2
  else .ok []

/-! ### The whole file -/

/-- What is read: names for the factories, numbers, initial data, writers in the order in which they are called, and those that adjust the time step in the order in which they are
asked. -/
structure Settings (K F : Type) where
  conf : Conf
  grid : GridObj K
  endTime : K
  cfl : K
  gamma : Option K
  program : Str
  parameters : List (Str × List K)
  name : Str
  writers : List (WriterObj K F)
  adjusters : List (WriterObj K F)

/-- The options accepted below `fvm` (SimulatorSetup.cpp:122-126). -/
def supportedNodes : List String :=
  ["name", "platform", "boundary", "flux", "endTime", "equation", "equationParameters", "reconstruction", "cfl", "integrator", "initialData", "writer", "grid", "diffusion",
    "functionals"]

/-- `readSetupFromFile` (SimulatorSetup.cpp:102-231) from the parsed file. `load` gives the contents of the files beside it, `cuda` and `mpi` tell how the program was built and
whether `enableMPI` was called (which also chooses the writer factory, :245-256; the decomposition of the grid, :137-148, is left out). The calls of the factories are those of
`assemble`, moved to one place: they only throw. `writers` and `adjusters` are the lists of the simulator (:204-228). -/
def readSetup {K F : Type} [Field K] [LinearOrder K] (cuda mpi : Bool) (conv : Conv K) (load : Str → Option Str) (make : Str → Str → Tree → Res F) (root : Tree) :
    Res (Settings K F) := do
  let raw ← child ["config"] root
  let configuration ← loadFiles load raw
  let fvm ← child ["fvm"] configuration
  let _ ← (if fvm.children.all fun p => supportedNodes.any fun k => p.1 == k.toList then .ok () else .error .thrown : Res Unit)
  let grid ← createGrid conv fvm
  let boundary ← text ["boundary"] fvm
  let endTime ← get conv.real ["endTime"] fvm
  let equation ← text ["equation"] fvm
  let flux ← text ["flux"] fvm
  let reconstruction ← readReconstruction fvm
  let cfl ← readCFLNumber conv fvm
  let integrator ← readIntegrator fvm
  let initial ← createInitialData conv load fvm
  let writer ← createWriter mpi conv fvm
  let platform ← text ["platform"] fvm
  let gamma ← readGamma conv fvm
  let diffusion ← readDiffusion fvm
  let name ← text ["name"] fvm
  let conf : Conf := ⟨String.ofList platform, String.ofList equation, String.ofList flux, String.ofList reconstruction, String.ofList integrator, String.ofList boundary,
    String.ofList diffusion.1, String.ofList diffusion.2, grid.dims⟩
  let _ ← assemble cuda conf
  let functionals ← createFunctionals mpi conv make fvm
  .ok ⟨conf, grid, endTime, cfl, gamma, initial.1, initial.2, trim name, writer.toList ++ functionals, (functionals ++ writer.toList).filter WriterObj.isAdjuster⟩

end Verif.Setup
