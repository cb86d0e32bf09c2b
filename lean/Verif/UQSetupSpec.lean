import Verif.UQSetup
import Verif.SetupSpec

/-!
What the part of a configuration file for runs with samples says. Only the data types of `Verif/UQSetup.lean` are used, none of its functions.
-/

namespace Verif.UQSetup
open Params Setup
variable {K S : Type} [Field K] [LinearOrder K]

/-- `n` is `x` without the digits behind the point. -/
def Truncated (x : K) (n : Nat) : Prop := (0 ≤ x ∧ (n : K) ≤ x ∧ x < n + 1) ∨ (-1 < x ∧ x < 0 ∧ n = 0)

/-- The number found there, or the default if there is no such entry. -/
def OrDefault (conv : Conv K) (node : Tree) (k : String) (default x : K) : Prop := Value conv.real node [k] x ∨ Absent node k ∧ x = default

/-- The distribution one parameter describes. With `samples` samples the equidistant distribution has as many cells. -/
inductive DistributionMeant (conv : Conv K) (library : Str → Nat → Nat → Tree → Res (UQ.Dist K)) (samples length : Nat) (node : Tree) : UQ.Dist K → Prop
  | uniform {a b : K} : Says node ["type"] "uniform".toList → OrDefault conv node "lower" 0 a → OrDefault conv node "upper" 1 b →
      DistributionMeant conv library samples length node (.uniform a b)
  | equidistant {a b : K} : Says node ["type"] "uniform1d".toList → OrDefault conv node "a" 0 a → OrDefault conv node "b" 1 b →
      DistributionMeant conv library samples length node (.uniform1d a ((b - a) / samples))
  | library {type : Str} {d : UQ.Dist K} : Says node ["type"] type → (type = "dll".toList ∨ ∃ rest, type = "qmc_".toList ++ rest) → library type length samples node = .ok d →
      DistributionMeant conv library samples length node d

/-- The random parameter one entry describes. -/
def RandomMeant (conv : Conv K) (library : Str → Nat → Nat → Tree → Res (UQ.Dist K)) (samples : Nat) (node : Tree) (p : Str × UQ.Param K) : Prop :=
  Says node ["name"] p.1 ∧ Value conv.size node ["length"] p.2.dim ∧ DistributionMeant conv library samples p.2.dim node p.2.dist

/-- `sorted` has the entries of `l` by name; of several with one name the last. -/
def ByName {α : Type} (l sorted : List (Str × α)) : Prop :=
  (sorted.Pairwise fun a b => a.1 < b.1) ∧ ∀ name x, (name, x) ∈ sorted ↔ ∃ before after, l = before ++ (name, x) :: after ∧ ∀ q ∈ after, q.1 ≠ name

/-- The times at which a statistic is to be evaluated. -/
inductive TimesMeant (conv : Conv K) (config node : Tree) : When K → Prop
  | saves {n : Nat} {endTime : K} {i : Option K} {initial : Bool} : Value conv.size node ["numberOfSaves"] n → Value conv.real config ["fvm", "endTime"] endTime → IntervalMeant endTime n i →
      (Value conv.bool node ["writeInitialTimestep"] initial ∨ Absent node "writeInitialTimestep" ∧ initial = false) → TimesMeant conv config node (.fixed i initial)
  | window {time radius : K} : Absent node "numberOfSaves" → Value conv.real node ["time"] time → Value conv.real node ["timeRadius"] radius →
      TimesMeant conv config node (.window time radius)

/-- The statistic one entry describes: made from its name and parameters, with one file for each of its names. -/
structure StatisticMeant (conv : Conv K) (make : Str → Str → Nat → Tree → Res S) (names : S → List Str) (config : Tree) (samples : Nat) (node : Tree) (s : StatSetup K S) : Prop where
  stat : ∃ platform name, Says config ["fvm", "platform"] platform ∧ Word node ["name"] name ∧ make platform name samples node = .ok s.stat
  files : ∃ out type basename, First node "writer" out ∧ Says out ["type"] type ∧ Says out ["basename"] basename ∧ (names s.stat ≠ [] → FileType true type) ∧
    s.files = (names s.stat).map fun n => (n, .base type (basename ++ '_' :: n) out)
  times : TimesMeant conv config node s.times

/-- What the file says. -/
structure UQMeant (conv : Conv K) (library : Str → Nat → Nat → Tree → Res (UQ.Dist K)) (make : Str → Str → Nat → Tree → Res S) (names : S → List Str) (config uq : Tree)
    (s : UQSettings K S) : Prop where
  samples : ∃ x, Value conv.real uq ["samples"] x ∧ x < 2 ^ 64 ∧ Truncated x s.samples
  first : Value conv.size uq ["sampleStart"] s.first ∨ Absent uq "sampleStart" ∧ s.first = 0
  parameters : ∃ generator entries ps, Says uq ["generator"] generator ∧ First uq "parameters" entries ∧
    List.Forall₂ (fun (c : Str × Tree) p => RandomMeant conv library s.samples c.2 p) entries.children ps ∧
    (ps ≠ [] → generator = "auto".toList ∨ generator = "stlmersenne".toList) ∧ ByName ps s.parameters
  name : Word config ["fvm", "name"] s.name
  platform : ∃ platform, Says config ["fvm", "platform"] platform
  statistics : ∃ entries, First uq "stats" entries ∧
    List.Forall₂ (fun (c : Str × Tree) o => StatisticMeant conv make names config s.samples c.2 o) entries.children s.statistics

/-- What the file says, from its root. -/
def UQDescribed (conv : Conv K) (library : Str → Nat → Nat → Tree → Res (UQ.Dist K)) (make : Str → Str → Nat → Tree → Res S) (names : S → List Str) (root : Tree) (s : UQSettings K S) :
    Prop := ∃ config uq, First root "config" config ∧ First config "uq" uq ∧ UQMeant conv library make names config uq s

/-- No parameter gives bounds of its own. -/
def NoBounds (root : Tree) : Prop :=
  ∀ entries, At root ["config", "uq", "parameters"] entries → ∀ c ∈ entries.children, ∀ k ∈ ["lower", "upper", "a", "b"], Absent c.2 k

/-- The creators of libraries do not look at the values that are put into their parameters. -/
def LibraryIgnores (library : Str → Nat → Nat → Tree → Res (UQ.Dist K)) : Prop :=
  ∀ k ∈ ["lower", "upper", "a", "b", "mean", "sd"], ∀ type length samples v t, library type length samples (addString k.toList v t) = library type length samples t

/-- Every statistic says when it is to be evaluated. -/
def AllTimed (root : Tree) : Prop :=
  ∀ entries, At root ["config", "uq", "stats"] entries → ∀ c ∈ entries.children, ¬ (Absent c.2 "numberOfSaves" ∧ Absent c.2 "time")

/-- The number of samples is not too large or negative. -/
def CountFits (conv : Conv K) (root : Tree) : Prop := ∀ x, Value conv.real root ["config", "uq", "samples"] x → -1 < x ∧ x < 2 ^ 64

end Verif.UQSetup
