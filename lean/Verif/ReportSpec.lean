import Verif.Params

/-!
What the report of a run should contain, stated on its own: a program reads text files one after the other, and each output file has attributes with the texts.
-/

namespace Verif
namespace ReportSpec
open Params

/-- The program reads `path` while the disk holds `disk`. -/
structure Load where
  /-- The texts of the files at that time. -/
  disk : Str → Option Str
  /-- The file that is read. -/
  path : Str

/-- Names of files relative to a fixed working directory become full names: these begin with a slash and are not changed again. -/
structure FullNames (full : Str → Str) : Prop where
  slash : ∀ p, ∃ q, full p = '/' :: q
  again : ∀ p, full (full p) = full p

/-- `x` is the text that `path` had when it was first read with success among the loads. -/
def FirstText (full : Str → Str) (loads : List Load) (path x : Str) : Prop :=
  ∃ before l after, loads = before ++ l :: after ∧ full l.path = full path ∧ l.disk (full path) = some x ∧
    ∀ b ∈ before, full b.path = full path → b.disk (full path) = none

/-- The attribute for a file: slashes and dots are spelled out. -/
def attributeName (fullName : Str) : Str :=
  "alsvinn_report.loadedTextFiles.".toList ++ fullName.flatMap fun x => if x = '/' then "_dash_".toList else if x = '.' then "_DOT_".toList else [x]

/-- The name has no part that looks like a slash or dot spelled out. -/
def Unambiguous (name : Str) : Prop := ¬ "_dash".toList <:+: name ∧ ¬ "_DOT".toList <:+: name

/-- A configuration in which no two neighbouring entries have the same key, and no key has a dot. -/
inductive Distinct : Tree → Prop
  | node {d : Str} {c : List (Str × Tree)} : (c.map (·.1)).Nodup → (∀ p ∈ c, '.' ∉ p.1) → (∀ p ∈ c, Distinct p.2) → Distinct (.node d c)

/-- There is an entry without further entries at the path, with this value. -/
inductive Leaf : Tree → List Str → Str → Prop
  | here {d : Str} : Leaf (.node d []) [] d
  | inside {d : Str} {c : List (Str × Tree)} {k : Str} {t : Tree} {ks : List Str} {x : Str} : (k, t) ∈ c → Leaf t ks x → Leaf (.node d c) (k :: ks) x

/-- The name of an entry: the keys with dots between them. -/
def dotted (base : Str) (keys : List Str) : Str := base ++ keys.flatMap fun k => '.' :: k

end ReportSpec
end Verif
