import Verif.IterateLemmas
import Verif.Euler
import Verif.Flux

/-!
Model of the admissibility check and the maximal wave speed (alsfvm/src/equation/CPUCellComputer.cpp), with values that can be NaN or infinite.
-/

namespace Verif
namespace CellComputer

/-- A `real` of the machine: a number, not a number, or infinite. Numbers are exact: no rounding, no overflow, one zero. -/
inductive Fl where
  | fin (x : ℝ)
  | nan
  | inf (negative : Bool)

namespace Fl

/-- `std::isnan(x) || std::isinf(x)` (CPUCellComputer.cpp:95, 113). -/
def bad : Fl → Bool
  | fin _ => false
  | nan => true
  | inf _ => true

open Classical in
/-- `<` of the machine: false when an operand is NaN. -/
noncomputable def lt : Fl → Fl → Bool
  | fin x, fin y => decide (x < y)
  | fin _, inf n => !n
  | inf n, fin _ => n
  | inf m, inf n => m && !n
  | _, _ => false

/-- Unary minus. -/
noncomputable def neg : Fl → Fl
  | fin x => fin (-x)
  | nan => nan
  | inf n => inf (!n)

/-- Addition. -/
noncomputable def add : Fl → Fl → Fl
  | fin x, fin y => fin (x + y)
  | inf m, inf n => if m = n then inf m else nan
  | inf m, fin _ => inf m
  | fin _, inf n => inf n
  | _, _ => nan

/-- Subtraction. -/
noncomputable def sub (a b : Fl) : Fl := add a (neg b)

open Classical in
/-- Multiplication. -/
noncomputable def mul : Fl → Fl → Fl
  | fin x, fin y => fin (x * y)
  | inf m, inf n => inf (xor m n)
  | inf m, fin y => if y = 0 then nan else inf (xor m (decide (y < 0)))
  | fin x, inf n => if x = 0 then nan else inf (xor (decide (x < 0)) n)
  | _, _ => nan

open Classical in
/-- Division. There is one zero, taken to be positive. -/
noncomputable def div : Fl → Fl → Fl
  | fin x, fin y => if y = 0 then (if x = 0 then nan else inf (decide (x < 0))) else fin (x / y)
  | inf m, fin y => inf (xor m (decide (y < 0)))
  | fin _, inf _ => fin 0
  | _, _ => nan

/-- Absolute value. -/
noncomputable def abs : Fl → Fl
  | fin x => fin |x|
  | nan => nan
  | inf _ => inf false

open Classical in
/-- Square root: NaN for negative arguments. -/
noncomputable def sqrt : Fl → Fl
  | fin x => if x < 0 then nan else fin (Real.sqrt x)
  | nan => nan
  | inf n => if n then nan else inf false

/-- `std::max(a, b)`: `b` if `a < b`, otherwise `a`. -/
noncomputable def max (a b : Fl) : Fl := if lt a b then b else a

end Fl

/-- What the cell computer uses of an equation: number of conserved variables, extra variables, wave speed in a direction, constraint. -/
structure Equation where
  size : Nat
  extra : List Fl → List Fl
  speed : Nat → List Fl → List Fl → Fl
  constraint : List Fl → List Fl → Bool

/-- `expandVariableStruct` (alsfvm/include/alsfvm/volume/volume_foreach.hpp:139-170): the variables of one cell. -/
def readCell (areas : List (Arr Nat Fl)) (index : Nat) : Res (List Fl) := areas.mapM fun a => a.rd index

/-- `for_each_cell` (volume_foreach.hpp:290-308): all cells, ghost cells included. -/
def forEachCell {σ : Type} (size : Nat) (total : I3) (areas : List (Arr Nat Fl)) (f : σ → List Fl → Nat → Res σ) (s : σ) : Res σ :=
  if areas.length ≠ size then .error .thrown
  else (Iterate.cellIndices total 0 0).foldlM (fun s index => do
    let cell ← readCell areas index
    f s cell index) s

/-- `obeysConstraints` (CPUCellComputer.cpp:79-125), without its messages. -/
def obeysConstraints (eq : Equation) (total : I3) (areas : List (Arr Nat Fl)) : Res Bool :=
  forEachCell eq.size total areas (fun obeys cell _ =>
    let obeys := cell.foldl (fun obeys x => if x.bad then false else obeys) obeys
    let obeys := (eq.extra cell).foldl (fun obeys x => if x.bad then false else obeys) obeys
    .ok (if !eq.constraint cell (eq.extra cell) then false else obeys)) true

/-- `computeMaxWaveSpeed` (CPUCellComputer.cpp:46-70); the assertion on the direction is not modelled: with a direction above 2 nothing is compared. -/
noncomputable def maxWaveSpeed (eq : Equation) (total : I3) (areas : List (Arr Nat Fl)) (direction : Nat) : Res Fl :=
  forEachCell eq.size total areas (fun m cell _ => .ok (if direction < 3 then Fl.max m (eq.speed direction cell (eq.extra cell)) else m)) (.fin 0)

/-- `Volume`-to-`Volume` map of `transform_volume` (volume_foreach.hpp:248-278), used by `computeExtraVariables` (CPUCellComputer.cpp:31-43) and `computeFromPrimitive`
(CPUCellComputer.cpp:127-140). The number of input variables is checked; a wrong number of output variables writes through a null pointer or past the pointer array. -/
def transformVolume (sizeIn sizeOut : Nat) (total : I3) (f : List Fl → List Fl) (input : List (Arr Nat Fl)) (out : List (Arr Nat Fl)) : Res (List (Arr Nat Fl)) :=
  if input.length ≠ sizeIn then .error .thrown
  else if out.length ≠ sizeOut then .error .ub
  else (Iterate.cellIndices total 0 0).foldlM (fun out index => do
    let cell ← readCell input index
    (out.zip (f cell)).mapM fun av => av.1.wr index av.2) out

/-! ### Equations -/

/-- The constraint of the scalar equations (alsfvm/include/alsfvm/equation/burgers/Burgers.hpp:220-224, cubic/Cubic.hpp:220-224, linear/Linear.hpp:220-224,
buckleyleverett/BuckleyLeverett.hpp:223-227): `u < INFINITY && u == u`. -/
noncomputable def scalarConstraint (cell : List Fl) (_ : List Fl) : Bool :=
  match cell with
  | [u] => Fl.lt u (.inf false) && !(match u with | .nan => true | _ => false)
  | _ => false

/-- A scalar equation; no extra variables. The wave speed of a NaN or infinite value is not a number (it plays no role: such a state is inadmissible). -/
noncomputable def scalar (e : Flux.ScalarEq) : Equation :=
  { size := 1, extra := fun _ => [], constraint := scalarConstraint
    speed := fun _ cell _ => match cell with
      | [.fin u] => .fin (e.speed u)
      | _ => .nan }

/-- `u.m.dot(u.m)` (alsutils/include/alsutils/vec3.hpp:102-104). -/
noncomputable def dotFl (m : List Fl) : Fl := m.foldl (fun s x => Fl.add s (Fl.mul x x)) (.fin 0)

/-- `Euler::computeExtra` (alsfvm/include/alsfvm/equation/euler/Euler.hpp:204-211); a cell is density, momenta, energy, the extra variables are pressure, velocities. -/
noncomputable def eulerExtra (γ : ℝ) (n : Nat) (cell : List Fl) : List Fl :=
  match cell with
  | rho :: rest =>
    let m := rest.take n
    let E := (rest.drop n).headD .nan
    let ie := Fl.sub E (Fl.div (Fl.mul (.fin 0.5) (dotFl m)) rho)
    Fl.mul (.fin (γ - 1)) ie :: m.map fun x => Fl.div x rho
  | [] => []

/-- Euler equations in `n` dimensions: wave speed (Euler.hpp:251-258), constraint (Euler.hpp:269-277). -/
noncomputable def euler (γ : ℝ) (n : Nat) : Equation :=
  { size := n + 2, extra := eulerExtra γ n
    speed := fun d cell extra => match cell, extra with
      | rho :: _, p :: u => Fl.add (Fl.abs (u.getD d .nan)) (Fl.sqrt (Fl.div (Fl.mul (.fin γ) p) rho))
      | _, _ => .nan
    constraint := fun cell extra => match cell, extra with
      | rho :: _, p :: _ => !rho.bad && Fl.lt (.fin 0) rho && Fl.lt (.fin 0) p
      | _, _ => false }

end CellComputer
end Verif
