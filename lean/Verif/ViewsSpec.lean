import Verif.Views

/-! Specification for C94: kernels on fields with vector values. -/

namespace Verif.Views
open Verif.Factories
variable {K : Type}

/-- The volume that stores a field with vector values (one memory area for each component). -/
def toVolume (e : Eqn) (u : Arr Nat (Fin (vars e) → K)) : Volume K := ⟨e.conserved, List.ofFn fun j => ⟨u.inb, fun i => u.val i j⟩⟩

/-- Reading a cell of one of several fields. -/
def rdCell {α : Type} (us : List (Arr Nat α)) (r : Nat × Nat) : Res α :=
  match us[r.1]? with
  | some u => u.rd r.2
  | none => .error .ub

/-- Writing a cell of one of several fields. -/
def wrCell {α : Type} (us : List (Arr Nat α)) (r : Nat × Nat) (x : α) : Res (List (Arr Nat α)) :=
  match us[r.1]? with
  | some u => do
    let u ← u.wr r.2 x
    pure (us.set r.1 u)
  | none => .error .ub

/-- What a step of a kernel does to fields with vector values. -/
def Cmd.meaning {k : Nat} [Add K] (us : List (Arr Nat (Fin k → K))) : Cmd k K → Res (List (Arr Nat (Fin k → K)))
  | .set reads dst f => do
    let xs ← reads.mapM (rdCell us)
    wrCell us dst (f xs)
  | .add reads dst f => do
    let xs ← reads.mapM (rdCell us)
    let old ← rdCell us dst
    wrCell us dst (old + f xs)
  | .each reads outs => do
    let xs ← reads.mapM (rdCell us)
    outs.foldlM (fun us o => wrCell us o.1 fun c => o.2 (xs.map fun x => x c)) us

end Verif.Views
