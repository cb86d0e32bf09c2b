import Verif.PyScript

/-! What a Python script should get at each output. -/

namespace Verif
namespace PyScriptSpec
open Params PyScript

variable {K T : Type}

/-- The list holds variable number `var` of the solution: the cells without the ghost cells, x fastest. -/
def Shows (xs : List K) (v : Volume K) (var : Nat) : Prop :=
  ∃ m, v.areas[var]? = some m ∧ xs.length = v.nx * v.ny * v.nz ∧
    ∀ i j k, i < v.nx → j < v.ny → k < v.nz → xs[k * (v.nx * v.ny) + j * v.nx + i]? = some (v.interior m i j k)

/-- The dictionary has for each variable an array with the values of this solution. -/
def ShowsAll (names : List Str) (heap : Heap K) (datasets : Dict) (v : Volume K) : Prop :=
  datasets.map Prod.fst = names ∧ ∀ var name, names[var]? = some name → ∃ address xs, (name, address) ∈ datasets ∧ look heap address = some xs ∧ Shows xs v var

/-- All solutions of a run have the same size and variables, and the script keeps the lengths of the arrays. -/
def SameShape (names : List Str) (nx ny nz : Nat) (o : Output K T) : Prop :=
  o.volume.nx = nx ∧ o.volume.ny = ny ∧ o.volume.nz = nz ∧ o.volume.areas.length = names.length ∧ o.volume.WF ∧
    ∀ h, (o.touch h).map NpArray.length = h.map NpArray.length

/-- The calls for one output. -/
def calls (mpi : Bool) (datasets : Dict) (time : T) (steps : Nat) : List (Event T) :=
  if mpi then [.write datasets time steps, .barrier, .afterMPISync] else [.write datasets time steps, .afterMPISync]

end PyScriptSpec
end Verif
