import Verif.Setup
import Verif.UQ
import Mathlib.Algebra.Order.Floor.Ring

/-!
Model of reading the part of a configuration file for runs with samples (alsuq/src/config/Setup.cpp). As in `Verif/Setup.lean` the file is a property tree; files to be loaded are not
replaced here. Conversions of numbers to and from text, the distributions of libraries and the creators of the statistics are parameters.
-/

namespace Verif.UQSetup
open Params Setup

variable {K S : Type}

/-- The conversion of a `real` to `size_t`: towards zero; undefined if the result does not fit. -/
def toSizeT [Field K] [LinearOrder K] [FloorRing K] (x : K) : Res Nat := if -1 < x ∧ x < 2 ^ 64 then .ok ⌊x⌋.toNat else .error .ub

/-- `readNumberOfSamples` (Setup.cpp:300-302): a `real` is read and converted on return. -/
def readNumberOfSamples [Field K] [LinearOrder K] [FloorRing K] (conv : Conv K) (config : Tree) : Res Nat := do
  let x ← get conv.real ["uq", "samples"] config
  toSizeT x

/-- `readSampleStart` (Setup.cpp:304-313). -/
def readSampleStart (conv : Conv K) (config : Tree) : Res Nat := do
  let uq ← child ["uq"] config
  if has "sampleStart" uq then get conv.size ["sampleStart"] uq else .ok 0

/-- `generators[name] = …` for a `std::map` with the names as keys, as the list of its entries in order. -/
def setEntry {α : Type} (name : Str) (x : α) : List (Str × α) → List (Str × α)
  | [] => [(name, x)]
  | e :: rest => if name < e.1 then (name, x) :: e :: rest else if name = e.1 then (name, x) :: rest else e :: setEntry name x rest

/-- `GeneratorFactory::makeGenerator` (alsuq/src/generator/GeneratorFactory.cpp:23-37). All generators made share one stream (`UQ.mersenne`). -/
def makeGenerator (name : Str) : Res Unit := if name = "stlmersenne".toList then .ok () else .error .thrown

/-- One parameter of `makeSampleGenerator` (Setup.cpp:162-187): its name, its number of components and its distribution. -/
def readRandom [Field K] (conv : Conv K) (print : K → Str) (library : Str → Nat → Nat → Tree → Res (UQ.Dist K)) (generator : Str) (samples : Nat) (node : Tree) :
    Res (Str × UQ.Param K) := do
  let name ← text ["name"] node
  let length ← get conv.size ["length"] node
  let type ← text ["type"] node
  let p ← UQ.makeParam print conv.real library type length samples node
  let _ ← makeGenerator generator
  .ok (name, p)

/-- `makeSampleGenerator` (Setup.cpp:146-195); the parameters are in the order of the map, in which `SampleGenerator::getParameterList` lists them
(alsuq/src/samples/SampleGenerator.cpp:58-66). -/
def makeSampleGenerator [Field K] [LinearOrder K] [FloorRing K] (conv : Conv K) (print : K → Str) (library : Str → Nat → Nat → Tree → Res (UQ.Dist K)) (config : Tree) :
    Res (List (Str × UQ.Param K)) := do
  let samples ← readNumberOfSamples conv config
  let generatorName ← text ["uq", "generator"] config
  let generator := if generatorName = "auto".toList then "stlmersenne".toList else generatorName
  let node ← child ["uq", "parameters"] config
  node.children.foldlM (fun ps c => do
    let p ← readRandom conv print library generator samples c.2
    .ok (setEntry p.1 p.2 ps)) []

/-- When a statistic is evaluated: `FixedIntervalStatistics` with its interval (`none` stands for the quotient by zero) or `TimeIntegratedWriter`. -/
inductive When (K : Type) where
  | fixed (interval : Option K) (initial : Bool)
  | window (time radius : K)

/-- A statistic with the file for each of its names. -/
structure StatSetup (K S : Type) where
  stat : S
  files : List (Str × WriterObj K Unit)
  times : When K

/-- One entry of `createStatistics` (Setup.cpp:238-292). `make` stands for the creators registered with the statistics factory
(alsuq/src/stats/StatisticsFactory.cpp:53-68), `names` for `getStatisticsNames`. The writer factory is the one for MPI (Setup.cpp:232). A statistic with neither `numberOfSaves` nor `time`
is made and dropped (`none`). -/
def createStatistic [Field K] [LinearOrder K] [FloorRing K] (conv : Conv K) (make : Str → Str → Nat → Tree → Res S) (names : S → List Str) (config : Tree) (platform : Str)
    (node : Tree) : Res (Option (StatSetup K S)) := do
  let name ← text ["name"] node
  let samples ← readNumberOfSamples conv config
  let stat ← make platform (trim name) samples node
  let type ← text ["writer", "type"] node
  let basename ← text ["writer", "basename"] node
  let files ← (names stat).mapM fun n => do
    let writerNode ← child ["writer"] node
    let w ← createBase true type (basename ++ "_".toList ++ n) writerNode
    .ok (n, w)
  if has "numberOfSaves" node then
    let initial ← (if has "writeInitialTimestep" node then get conv.bool ["writeInitialTimestep"] node else .ok false : Res Bool)
    let numberOfSaves ← get conv.size ["numberOfSaves"] node
    let endTime ← get conv.real ["fvm", "endTime"] config
    .ok (some ⟨stat, files, .fixed (quotient endTime numberOfSaves) initial⟩)
  else if has "time" node then
    let time ← get conv.real ["time"] node
    let radius ← get conv.real ["timeRadius"] node
    .ok (some ⟨stat, files, .window time radius⟩)
  else .ok none

/-- `createStatistics` (Setup.cpp:222-298). -/
def createStatistics [Field K] [LinearOrder K] [FloorRing K] (conv : Conv K) (make : Str → Str → Nat → Tree → Res S) (names : S → List Str) (config : Tree) :
    Res (List (StatSetup K S)) := do
  let node ← child ["uq", "stats"] config
  let platform ← text ["fvm", "platform"] config
  let made ← node.children.mapM fun c => createStatistic conv make names config platform c.2
  .ok (made.filterMap id)

/-- What is read for a run with samples. -/
structure UQSettings (K S : Type) where
  samples : Nat
  first : Nat
  parameters : List (Str × UQ.Param K)
  name : Str
  statistics : List (StatSetup K S)

/-- `makeRunner` (Setup.cpp:53-108) from the parsed file. The load balancing (:78-85) is the subject of C50, the simulators are made for each sample later (:88-94, C85). -/
def readUQ [Field K] [LinearOrder K] [FloorRing K] (conv : Conv K) (print : K → Str) (library : Str → Nat → Nat → Tree → Res (UQ.Dist K)) (make : Str → Str → Nat → Tree → Res S)
    (names : S → List Str) (root : Tree) : Res (UQSettings K S) := do
  let config ← child ["config"] root
  let parameters ← makeSampleGenerator conv print library config
  let samples ← readNumberOfSamples conv config
  let first ← readSampleStart conv config
  let name ← text ["fvm", "name"] config
  let statistics ← createStatistics conv make names config
  .ok ⟨samples, first, parameters, trim name, statistics⟩

/-- `setOrAddParameter` (alsfvm/src/init/Parameters.cpp:52-55) on a list of parameters. -/
def setOrAdd (ps : List (Str × List K)) (p : Str × List K) : List (Str × List K) :=
  if p.1 ∈ ps.map Prod.fst then ps.map fun q => if q.1 = p.1 then p else q else ps ++ [p]

/-- `PythonInitialData::setParameters` (alsfvm/src/init/PythonInitialData.cpp:283-290), called for every sample with the random parameters
(alsuq/src/run/FiniteVolumeSimulatorCreator.cpp:61): `ps` are the parameters of the configuration. -/
def setParameters (ps new : List (Str × List K)) : List (Str × List K) := new.foldl setOrAdd ps

end Verif.UQSetup
