import Mathlib.Algebra.Order.Field.Basic
import Mathlib.Algebra.BigOperators.Group.List.Basic
import Verif.Params

/-!
What the timings of a run should be, stated on its own: a program works, and runs named blocks that contain further work and further blocks.
-/

namespace Verif
namespace TimerSpec
open Params

/-- The name of a block: the names of the groups it belongs to, from the largest to the block itself. -/
abbrev Name := List Str

/-- A program with timed blocks. -/
inductive Program (K : Type) where
  | finished
  /-- Works for a while. -/
  | work (duration : K) (next : Program K)
  /-- Runs `inner` as the block `name`. -/
  | block (name : Name) (inner next : Program K)

variable {K : Type} [Field K] [LinearOrder K] [IsStrictOrderedRing K]

/-- How long the program runs. -/
def Program.duration : Program K → K
  | .finished => 0
  | .work d n => d + n.duration
  | .block _ i n => i.duration + n.duration

/-- All blocks that were run, with their durations, in the order in which they end. -/
def Program.blocks : Program K → List (Name × K)
  | .finished => []
  | .work _ n => n.blocks
  | .block p i n => i.blocks ++ (p, i.duration) :: n.blocks

/-- The clock does not run backwards. -/
def Program.Steady : Program K → Prop
  | .finished => True
  | .work d n => 0 ≤ d ∧ n.Steady
  | .block _ i n => i.Steady ∧ n.Steady

/-- Within the group `p` the block `q` is not part of a larger timed block of the group. -/
def outermost (bs : List (Name × K)) (p q : Name) : Bool := p.isPrefixOf q && bs.all fun b => !(p.isPrefixOf b.1 && b.1.isPrefixOf q && b.1 != q)

/-- The time of a block is the sum of the times of its runs; the time of a group that is not timed itself is the sum over its outermost blocks. -/
def timeOf (bs : List (Name × K)) (p : Name) : K := ((bs.filter fun b => outermost bs p b.1).map (·.2)).sum

/-- How long at least one block among `C` was running. -/
def Program.spent (C : Name → Bool) : Program K → K
  | .finished => 0
  | .work _ n => n.spent C
  | .block q i n => (if C q then i.duration else i.spent C) + n.spent C

/-- No block among `C` runs inside another one. -/
def Program.Separate (C : Name → Bool) : Program K → Prop
  | .finished => True
  | .work _ n => n.Separate C
  | .block q i n => (C q = true → ∀ b ∈ i.blocks, C b.1 = false) ∧ i.Separate C ∧ n.Separate C

/-- All names in the program. -/
def Program.Names (P : Name → Prop) : Program K → Prop
  | .finished => True
  | .work _ n => n.Names P
  | .block q i n => P q ∧ i.Names P ∧ n.Names P

end TimerSpec
end Verif
