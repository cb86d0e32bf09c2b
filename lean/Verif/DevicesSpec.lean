import Verif.Devices

/-! Specification for C107: nodes and processes. -/

namespace Verif.Devices
open Params Setup

/-- A node with `n` cards on which all calls succeed. -/
def works (n : Nat) : Runtime := ⟨some n, true, true, fun _ => true⟩

/-- The environment variable Open MPI sets for the process number `r` of a node: the number in decimals. -/
def rankVariable (r : Nat) : Option Str := some (Nat.toDigits 10 r)

end Verif.Devices
