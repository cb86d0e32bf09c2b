import Mathlib.Logic.Function.Basic
import Verif.Stats

/-!
Model of the tables of statistics and functionals (alsuq/src/stats/StatisticsFactory.cpp, alsfvm/src/functional/FunctionalFactory.cpp) and of the objects that fill them before `main`
(alsuq/include/alsuq/stats/stats_util.hpp:19-29, alsfvm/include/alsfvm/functional/register_functional.hpp:19-29). The two factories have the same text.
-/

namespace Verif.Registration
open Verif

/-- `creators` (StatisticsFactory.cpp:33-34, FunctionalFactory.cpp:30-31): a map of maps, from the platform and the name to the creator. -/
abbrev Table (C : Type) := String → Option (String → Option C)

/-- `list[platform]`: the map of the platform, and the table in which it has been inserted if it was not there. -/
def access {C : Type} (t : Table C) (platform : String) : (String → Option C) × Table C :=
  match t platform with
  | some row => (row, t)
  | none => (fun _ => none, Function.update t platform (some fun _ => none))

/-- One line with REGISTER_STATISTICS or REGISTER_FUNCTIONAL: platform, name and class. -/
structure Line where
  platform : String
  name : String
  cls : String
  deriving DecidableEq, Repr

/-- `registerStatistics` (StatisticsFactory.cpp:41-51) and `registerFunctional` (FunctionalFactory.cpp:38-48). -/
def register {C : Type} (t : Table C) (platform name : String) (maker : C) : Res (Table C) :=
  let (row, t') := access t platform
  match row name with
  | some _ => .error .thrown
  | none => .ok (Function.update t' platform (some (Function.update row name (some maker))))

/-- The constructors of the static objects (stats_util.hpp:20-28, register_functional.hpp:20-28), in the order in which they happen to run. The table is a local static object (StatisticsFactory.cpp:28-32),
so that it exists when the first of them runs. An exception here ends the program before `main`. `creator` is the function that calls the constructor of the class. -/
def startup {C : Type} (creator : String → C) (order : List Line) : Res (Table C) :=
  order.foldlM (fun t l => register t l.platform l.name (creator l.cls)) fun _ => none

/-- `makeStatistics` (StatisticsFactory.cpp:53-68; the timer around the object is not modelled) and `makeFunctional` (FunctionalFactory.cpp:50-60): the result, and the table afterwards. -/
def make {A B : Type} (t : Table (A → Res B)) (platform name : String) (args : A) : Res B × Table (A → Res B) :=
  let (row, t') := access t platform
  match row name with
  | none => (.error .thrown, t')
  | some maker => (maker args, t')

/-- Several calls one after the other, and the table after them; exceptions are caught by the caller. -/
def makeAll {A B : Type} (t : Table (A → Res B)) (calls : List (String × String × A)) : Table (A → Res B) := calls.foldl (fun t c => (make t c.1 c.2.1 c.2.2).2) t

/-- The lines with REGISTER_STATISTICS in alsuq/src/stats: BoundedVariation.cpp:57-58, BoundedVariationDirection.cpp:83-84, FunctionalStatistics.cpp:74-77, MeanVariance.cpp:68-69, OnePointMoment.cpp:51-52,
StructureBasic.cpp:121, StructureBasicCUDA.cu:154, StructureCube.cpp:82, StructureCubeCUDA.cu:81, StructureSurface.cpp:58, StructureTwoPoints.cpp:102, TimeIntegratedFunctionalStatistics.cpp:89-92; in a
program that is built without graphics cards those of the files with the ending `cu` are missing. -/
def statistics (cuda : Bool) : List Line :=
  [⟨"cpu", "bv", "BoundedVariation"⟩, ⟨"cuda", "bv", "BoundedVariation"⟩, ⟨"cpu", "bv_direction", "BoundedVariationDirection"⟩, ⟨"cuda", "bv_direction", "BoundedVariationDirection"⟩,
    ⟨"cuda", "functional", "FunctionalStatistics"⟩, ⟨"cpu", "functional", "FunctionalStatistics"⟩, ⟨"cpu", "meanvar", "MeanVariance"⟩, ⟨"cuda", "meanvar", "MeanVariance"⟩,
    ⟨"cpu", "onepointmoment", "OnePointMoment"⟩, ⟨"cuda", "onepointmoment", "OnePointMoment"⟩, ⟨"cpu", "structure_basic", "StructureBasic"⟩, ⟨"cpu", "structure_cube", "StructureCube"⟩,
    ⟨"cpu", "structure_surface", "StructureSurface"⟩, ⟨"cpu", "structure_2pt", "StructureTwoPoints"⟩,
    ⟨"cuda", "functional_time_integrated", "TimeIntegratedFunctionalStatistics"⟩, ⟨"cpu", "functional_time_integrated", "TimeIntegratedFunctionalStatistics"⟩] ++
  if cuda then [⟨"cuda", "structure_basic", "StructureBasicCUDA"⟩, ⟨"cuda", "structure_cube", "StructureCubeCUDA"⟩] else []

/-- The lines with REGISTER_FUNCTIONAL in alsfvm/src/functional: BoundedVariation.cpp:48-49, Identity.cpp:64, IdentityCUDA.cu:92, Legendre.cpp:97, LegendrePointWise.cpp:93, LegendrePointWiseCUDA.cu:167,
LogEntropy.cpp:84, LogEntropyCUDA.cu:195, Moment.cpp:56-57, StructureBase.cpp:92, StructureCube.cpp:71, StructureCubeCUDA.cu:72. -/
def functionals (cuda : Bool) : List Line :=
  [⟨"cpu", "bv", "BoundedVariation"⟩, ⟨"cuda", "bv", "BoundedVariation"⟩, ⟨"cpu", "identity", "Identity"⟩, ⟨"cpu", "legendre", "Legendre"⟩, ⟨"cpu", "legendre_pointwise", "LegendrePointWise"⟩,
    ⟨"cpu", "log_entropy", "LogEntropy"⟩, ⟨"cpu", "moment", "Moment"⟩, ⟨"cuda", "moment", "Moment"⟩, ⟨"cpu", "structure_base", "StructureBase"⟩, ⟨"cpu", "structure_cube", "StructureCube"⟩] ++
  if cuda then [⟨"cuda", "identity", "IdentityCUDA"⟩, ⟨"cuda", "legendre_pointwise", "LegendrePointWiseCUDA"⟩, ⟨"cuda", "log_entropy", "LogEntropyCUDA"⟩,
    ⟨"cuda", "structure_cube", "StructureCubeCUDA"⟩] else []

/-- `StructureSurface` (alsuq/src/stats/StructureSurface.cpp:22-57): the snapshot is made, and then `computeStructure` throws. `std::to_string(p)` is left open (`name`). -/
noncomputable def structureSurface (name : String) (numberOfH : Int) : List Stats.Part := [⟨name, Stats.ofSize ⟨numberOfH, 1, 1⟩, fun _ _ => .error .thrown⟩]

end Verif.Registration
