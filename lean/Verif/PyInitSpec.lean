import Verif.PyInit

/-!
What Python initial data should be able to rely on: it sees its parameters, and it does not notice what happened in the interpreter before.
-/

namespace Verif
namespace PyInitSpec
open Params PyInit

variable {K V : Type}

/-- Two states of the interpreter have the same objects under the names in `S`. -/
def Agree (S : Set Str) (g h : Names V) : Prop := ∀ n ∈ S, g n = h n

/-- Two outcomes are the same, and the names in `S` still have the same objects. -/
def SameOutcome {A : Type} (S : Set Str) : Res (A × Names V) → Res (A × Names V) → Prop
  | .ok a, .ok b => a.1 = b.1 ∧ Agree S a.2 b.2
  | .error e, .error f => e = f
  | _, _ => False

/-- The program uses no global names but those in `S`. -/
structure Uses (S : Set Str) (program : Program K V) : Prop where
  function : ∀ g h l, Agree S g h → SameOutcome S (program.asFunction g l) (program.asFunction h l)
  program : ∀ g h, Agree S g h → SameOutcome S (program.asProgram g) (program.asProgram h)

/-- The name comes from `math` or `numpy`. -/
def Imported (py : Python K V) (n : Str) : Prop := py.math n ≠ none ∨ ∃ m, py.numpy = some m ∧ m n ≠ none

/-- The snippet that sets the variable `v` to what it finds under `n`: local names come first, and a name that is not there is an exception. -/
def copySnippet (v n : Str) : Program K V where
  text := v ++ " = ".toList ++ n
  asFunction g l := match (match l n with | some x => some x | none => g n) with
    | some x => .ok (Function.update l v (some x), g)
    | none => .error .thrown
  asProgram _ := .error .thrown

end PyInitSpec
end Verif
