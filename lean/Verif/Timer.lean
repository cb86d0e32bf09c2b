import Mathlib.Algebra.Order.Floor.Ring
import Verif.Report
import Verif.TimerSpec

/-!
Model of the timers (alsutils/src/timer/Timer.cpp, TimerData.cpp, TimerDatabase.cpp) and of the run report (alsutils/src/write_run_report.cpp). Times are exact.
-/

namespace Verif
namespace Timer
open Params TimerSpec

/-- `TimerData` (alsutils/include/alsutils/timer/TimerData.hpp:30-33): the members `children` (a map, sorted by the name), `usedTime` and `hasTimeData`. -/
inductive Data (K : Type) where
  | node (children : List (Str × Data K)) (usedTime : K) (hasTimeData : Bool)

/-- Members of the class. -/
def Data.children {K : Type} : Data K → List (Str × Data K)
  | .node c _ _ => c

variable {K : Type} [Field K] [LinearOrder K] [IsStrictOrderedRing K]

/-- `TimerData()` (TimerData.hpp:12). -/
def Data.empty : Data K := .node [] 0 false

/-- Changes `children[name]`; the map makes the entry if it is not there. -/
def change (name : Str) (f : Data K → Data K) : List (Str × Data K) → List (Str × Data K)
  | [] => [(name, f .empty)]
  | p :: ps => if p.1 = name then (name, f p.2) :: ps else if name < p.1 then (name, f .empty) :: p :: ps else p :: change name f ps

/-- Changes `getTimerData(names...)` (TimerData.hpp:14-19, TimerData.cpp:6-8, TimerDatabase.hpp:12-15). -/
def at_ : Name → (Data K → Data K) → Data K → Data K
  | [], f, t => f t
  | k :: ks, f, .node c u h => .node (change k (at_ ks f) c) u h

/-- `addTime` (TimerData.cpp:10-13). -/
def addTime (time : K) : Data K → Data K
  | .node c u _ => .node c (u + time) true

/-- `getTotalTime` (TimerData.cpp:15-27). -/
def Data.total : Data K → K
  | .node c u h => if h then u else c.attach.foldl (fun s p => s + p.1.2.total) u
termination_by t => sizeOf t
decreasing_by
  have h1 := List.sizeOf_lt_of_mem p.2
  have h2 : sizeOf p.1.2 < sizeOf p.1 := by
    rcases p with ⟨⟨a, b⟩, hp⟩
    simp only [Prod.mk.sizeOf_spec]
    omega
  simp only [Data.node.sizeOf_spec]
  omega

/-- The clock and the root of the database (alsutils/include/alsutils/timer/TimerDatabase.hpp:22-23). -/
structure State (K : Type) where
  now : K
  root : Data K

/-- A program in which every block makes a `Timer` (Timer.hpp:11-15, Timer.cpp:6-14): the constructor reads the clock and looks up the entry, which it thereby creates, the destructor
reads the clock again and adds the difference. The entry is a reference into a map, which stays valid while others are added. -/
def run : Program K → State K → State K
  | .finished, s => s
  | .work d n, s => run n { s with now := s.now + d }
  | .block name i n, s =>
    let s' := run i { s with root := at_ name id s.root }
    run n { s' with root := at_ name (addTime (s'.now - s.now)) s'.root }

/-- The database at the start of the program. -/
def start (now : K) : State K := ⟨now, .empty⟩

variable [FloorRing K]

/-- `int(std::ceil(100 * totalTime / programTotalTime))` (TimerData.cpp:46): a division by zero gives a value that is not a number or infinite, and the conversion of that, or of a value out
of the range of `int`, is undefined. -/
def percent (time total : K) : Res Int :=
  if total = 0 then .error .ub
  else if -2147483648 ≤ ⌈100 * time / total⌉ ∧ ⌈100 * time / total⌉ ≤ 2147483647 then .ok ⌈100 * time / total⌉ else .error .ub

/-- How numbers are printed. -/
structure Print (K : Type) where
  real : K → Str
  int : Int → Str

/-- `TimerData::getTimesAsPropertyTree` (TimerData.cpp:39-55). The names of blocks are identifiers of the program (Timer.hpp:35-45), so that `add_child` does not split them. -/
def Data.tree (pr : Print K) (total : K) : Data K → Res Tree
  | .node c u h => do
    let t := (Data.node c u h).total
    let pc ← percent t total
    let cs ← c.attach.mapM fun p => do
      let sub ← p.1.2.tree pr total
      pure (p.1.1, sub)
    pure (.node [] ([("totalTime".toList, .node (pr.real t) []), ("percentOfProgramTotalTime".toList, .node (pr.int pc) []),
      ("hasIndividualTimeData".toList, .node (if h then "true".toList else "false".toList) [])] ++ cs))
termination_by t => sizeOf t
decreasing_by
  have h1 := List.sizeOf_lt_of_mem p.2
  have h2 : sizeOf p.1.2 < sizeOf p.1 := by
    rcases p with ⟨⟨a, b⟩, hp⟩
    simp only [Prod.mk.sizeOf_spec]
    omega
  simp only [Data.node.sizeOf_spec]
  omega

/-- `TimerDatabase::getTimesAsPropertyTree` (TimerDatabase.cpp:18-25). -/
def timings (pr : Print K) (root : Data K) : Res Tree := do
  let t ← root.tree pr root.total
  pure (.node [] [("allTimedEvents".toList, t)])

/-- The command line (write_run_report.cpp:67-71): every argument is followed by a blank. -/
def commandLine (argv : List Str) : Str := argv.flatMap fun a => a ++ [' ']

/-- `writeRunReport` (write_run_report.cpp:42-85): the report that is written as JSON and as XML. `clock` has the two entries for the end of the run and the durations in words. -/
def runReport (basic timings : Tree) (executable name : Str) (cpu wall timesteps : Str) (clock : String → Str) (argv : List Str) : Tree :=
  let t := Report.addChild "timings" timings basic
  let t := addString "report.executable".toList executable t
  let t := addString "report.name".toList name t
  let t := addString "report.endTime".toList (clock "endTime") t
  let t := addString "report.cpuDuration".toList cpu t
  let t := addString "report.cpuDurationHuman".toList (clock "cpuDurationHuman") t
  let t := addString "report.wallTime".toList wall t
  let t := addString "report.wallTimeHuman".toList (clock "wallTimeHuman") t
  let t := addString "report.timesteps".toList timesteps t
  addString "report.command".toList (commandLine argv) t

/-- The names of the files of the report (write_run_report.cpp:79-82). -/
def reportFiles (executable name : Str) : List Str :=
  [executable ++ '_' :: name ++ "_report.json".toList, executable ++ '_' :: name ++ "_report.xml".toList]

/-! ### Threads -/

/-- The maps that are changed, or would be changed as far as the language is concerned, by looking up an entry: `operator[]` of `std::map` counts as a modification. A map is named by the
block it belongs to. -/
def lookups : Name → List Name
  | [] => []
  | k :: ks => [] :: (lookups ks).map (k :: ·)

/-- All maps a program modifies. -/
def modified : Program K → List Name
  | .finished => []
  | .work _ n => modified n
  | .block q i n => lookups q ++ modified i ++ modified n

/-- The timers of `ConservedSystem::operator()` in the thread that exchanges cells (alsfvm/src/simulator/ConservedSystem.cpp:45-57); the exchange takes `a` and the waiting `b`. -/
def exchange (a b : K) : Program K :=
  .block ["alsvinn".toList, "mpi".toList, "exchange".toList]
    (.work a (.block ["alsvinn".toList, "mpi".toList, "exchange".toList, "wait".toList] (.work b .finished) .finished)) .finished

/-- The timers of the main thread while the other one runs (ConservedSystem.cpp:59-60): reconstruction and flux (alsfvm/src/reconstruction/NoReconstruction.cpp:49,
alsfvm/src/numflux/NumericalFluxCPU.cpp:40). -/
def inner (a b : K) : Program K :=
  .block ["alsvinn".toList, "fvm".toList, "reconstruction".toList] (.work a .finished)
    (.block ["alsvinn".toList, "fvm".toList, "numflux".toList] (.work b .finished) .finished)

end Timer
end Verif
