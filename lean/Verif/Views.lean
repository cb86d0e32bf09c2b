import Verif.Factories

/-!
Volumes store every variable in a memory area of its own. The kernels access the variables of a cell through views, which find the areas by name
(alsfvm/include/alsfvm/equation/*/Views.hpp).
-/

namespace Verif.Views
open Verif.Factories

/-- A volume (alsfvm/src/volume/Volume.cpp:44-60): the names of the variables and for each the flat buffer of its memory area. Sizes and ghost cells do not
matter to views with flat indices and are left out. -/
structure Volume (K : Type) where
  names : List String
  areas : List (Arr Nat K)

variable {K : Type}

/-- `Volume::getIndexFromName` (Volume.cpp:151-161): the first variable of that name. -/
def Volume.indexFromName (v : Volume K) (name : String) : Res Nat :=
  match v.names.findIdx? (· == name) with
  | some i => .ok i
  | none => .error .thrown

/-- `view.at(index)` for the view of the memory area with number `a` (Volume.cpp:107-123, alsfvm/include/alsfvm/memory/View.hpp:91-102). -/
def Volume.rd (v : Volume K) (a i : Nat) : Res K :=
  match v.areas[a]? with
  | some area => area.rd i
  | none => .error .ub

/-- `view.at(index) = x` (View.hpp:91-93). -/
def Volume.wr (v : Volume K) (a i : Nat) (x : K) : Res (Volume K) :=
  match v.areas[a]? with
  | some area => do
    let area ← area.wr i x
    pure { v with areas := v.areas.set a area }
  | none => .error .ub

/-- `numberOfConservedVariables` (alsfvm/include/alsfvm/equation/euler/Euler.hpp:77, burgers/Burgers.hpp:71; the other scalar equations alike). -/
def vars : Eqn → Nat
  | .euler1 => 3
  | .euler2 => 4
  | .euler3 => 5
  | _ => 1

/-- The views of an equation: the areas of the members, in the order in which `ConservedVariables` stores the variables: density, momentum, energy
(euler/ConservedVariables.hpp:92-94), or the one variable. -/
abbrev Members (e : Eqn) := Fin (vars e) → Nat

/-- The constructors of `Views` (euler/Views.hpp:50-57, 137-143, 216-221, burgers/Views.hpp:32-35; the other scalar equations alike). -/
def make (v : Volume K) : (e : Eqn) → Res (Members e)
  | .euler3 => do
    let rho ← v.indexFromName "rho"
    let mx ← v.indexFromName "mx"
    let my ← v.indexFromName "my"
    let mz ← v.indexFromName "mz"
    let E ← v.indexFromName "E"
    pure (![rho, mx, my, mz, E] : Fin 5 → Nat)
  | .euler2 => do
    let rho ← v.indexFromName "rho"
    let mx ← v.indexFromName "mx"
    let my ← v.indexFromName "my"
    let E ← v.indexFromName "E"
    pure (![rho, mx, my, E] : Fin 4 → Nat)
  | .euler1 => do
    let rho ← v.indexFromName "rho"
    let mx ← v.indexFromName "mx"
    let E ← v.indexFromName "E"
    pure (![rho, mx, E] : Fin 3 → Nat)
  | .burgers => do
    let u ← v.indexFromName "u"
    pure (![u] : Fin 1 → Nat)
  | .buckleyLeverett => do
    let u ← v.indexFromName "u"
    pure (![u] : Fin 1 → Nat)
  | .cubic => do
    let u ← v.indexFromName "u"
    pure (![u] : Fin 1 → Nat)
  | .linear => do
    let u ← v.indexFromName "u"
    pure (![u] : Fin 1 → Nat)

/-- `get(variableIndex)` (euler/Views.hpp:84-105, 167-185, 243-258, burgers/Views.hpp:46-49): the area of the variable with that number. A number that is too large fails
an assertion; without assertions the first member is returned. -/
def get : (e : Eqn) → Members e → Nat → Nat
  | .euler3, w, k => match k with
    | 0 => w (0 : Fin 5)
    | 1 => w (1 : Fin 5)
    | 2 => w (2 : Fin 5)
    | 3 => w (3 : Fin 5)
    | 4 => w (4 : Fin 5)
    | _ => w (0 : Fin 5)
  | .euler2, w, k => match k with
    | 0 => w (0 : Fin 4)
    | 1 => w (1 : Fin 4)
    | 2 => w (2 : Fin 4)
    | 3 => w (3 : Fin 4)
    | _ => w (0 : Fin 4)
  | .euler1, w, k => match k with
    | 0 => w (0 : Fin 3)
    | 1 => w (1 : Fin 3)
    | 2 => w (2 : Fin 3)
    | _ => w (0 : Fin 3)
  | .burgers, w, _ => w (0 : Fin 1)
  | .buckleyLeverett, w, _ => w (0 : Fin 1)
  | .cubic, w, _ => w (0 : Fin 1)
  | .linear, w, _ => w (0 : Fin 1)

/-- `get<variableIndex>()` (euler/Views.hpp:60-81, 146-164, 224-240, burgers/Views.hpp:38-43); `none`: a number for which it does not compile. A number without a case
fails an assertion; without assertions the first member is returned. -/
def getStatic : (e : Eqn) → Members e → Nat → Option Nat
  | .euler3, w, k => if k < 5 then some (match k with
    | 0 => w (0 : Fin 5)
    | 1 => w (1 : Fin 5)
    | 2 => w (2 : Fin 5)
    | 3 => w (3 : Fin 5)
    | 4 => w (4 : Fin 5)
    | _ => w (0 : Fin 5)) else none
  | .euler2, w, k => if k < 4 then some (match k with
    | 0 => w (0 : Fin 4)
    | 1 => w (1 : Fin 4)
    | 2 => w (2 : Fin 4)
    | 3 => w (3 : Fin 4)
    | _ => w (0 : Fin 4)) else none
  | .euler1, w, k => if k < 3 then some (match k with
    | 0 => w (0 : Fin 3)
    | 1 => w (1 : Fin 3)
    | 3 => w (2 : Fin 3)
    | _ => w (0 : Fin 3)) else none
  | .burgers, w, k => if k < 1 then some (w (0 : Fin 1)) else none
  | .buckleyLeverett, w, k => if k < 1 then some (w (0 : Fin 1)) else none
  | .cubic, w, k => if k < 1 then some (w (0 : Fin 1)) else none
  | .linear, w, k => if k < 1 then some (w (0 : Fin 1)) else none

/-- Evaluates one expression for each variable, in their order. -/
def collect {α : Type} : (k : Nat) → (Fin k → Res α) → Res (Fin k → α)
  | 0, _ => .ok Fin.elim0
  | k + 1, f => do
    let x ← f 0
    let rest ← collect k fun j => f j.succ
    pure (Fin.cons x rest)

/-- `fetchConservedVariables` (Euler.hpp:103-109, with `m(index)` of euler/Views.hpp:110-116, 190-196, 263-269; Burgers.hpp:109-113): the variables of a cell. -/
def fetch (v : Volume K) {k : Nat} (w : Fin k → Nat) (i : Nat) : Res (Fin k → K) := collect k fun j => v.rd (w j) i

/-- `setViewAt` (Euler.hpp:121-127, with the assignment of a vector of references in alsutils/include/alsutils/vec3.hpp:54-61; Burgers.hpp:123-126). -/
def setViewAt (v : Volume K) {k : Nat} (w : Fin k → Nat) (i : Nat) (x : Fin k → K) : Res (Volume K) :=
  (List.finRange k).foldlM (fun v j => v.wr (w j) i (x j)) v

/-- `addToViewAt` (Euler.hpp:143-149, with `+=` of a vector of references in vec3.hpp:113-120; Burgers.hpp:141-144). -/
def addToViewAt [Add K] (v : Volume K) {k : Nat} (w : Fin k → Nat) (i : Nat) (x : Fin k → K) : Res (Volume K) :=
  (List.finRange k).foldlM (fun v j => do
    let old ← v.rd (w j) i
    v.wr (w j) i (old + x j)) v

/-! ### Kernels -/

/-- One step of a kernel on several volumes: cells to read (number of the volume, index), and what is written to which cells. `set` and `add` use all variables of the cells together
(the fluxes, alsfvm/src/numflux/NumericalFluxCPU.cpp:56-118, and the conversions, alsfvm/src/equation/CPUCellComputer.cpp:30-144); `each` treats the variables one after the other with
`get` (alsfvm/include/alsfvm/reconstruction/MC.hpp:33-49, MM.hpp:32-47, WENO2.hpp:62-71): reads the variable, then writes it to one or more cells. -/
inductive Cmd (k : Nat) (K : Type) where
  | set (reads : List (Nat × Nat)) (dst : Nat × Nat) (f : List (Fin k → K) → Fin k → K)
  | add (reads : List (Nat × Nat)) (dst : Nat × Nat) (f : List (Fin k → K) → Fin k → K)
  | each (reads : List (Nat × Nat)) (outs : List ((Nat × Nat) × (List K → K)))

/-- Access to one of the volumes a kernel was given. -/
def volume (vs : List (Volume K)) (q : Nat) : Res (Volume K) :=
  match vs[q]? with
  | some v => .ok v
  | none => .error .ub

/-- Runs one step on volumes of the equation `e`. -/
def Cmd.run [Add K] (e : Eqn) (vs : List (Volume K)) : Cmd (vars e) K → Res (List (Volume K))
  | .set reads dst f => do
    let xs ← reads.mapM fun r => do
      let v ← volume vs r.1
      let w ← make v e
      fetch v w r.2
    let v ← volume vs dst.1
    let w ← make v e
    let v ← setViewAt v w dst.2 (f xs)
    pure (vs.set dst.1 v)
  | .add reads dst f => do
    let xs ← reads.mapM fun r => do
      let v ← volume vs r.1
      let w ← make v e
      fetch v w r.2
    let v ← volume vs dst.1
    let w ← make v e
    let v ← addToViewAt v w dst.2 (f xs)
    pure (vs.set dst.1 v)
  | .each reads outs => (List.range (vars e)).foldlM (fun vs var => do
      let xs ← reads.mapM fun r => do
        let v ← volume vs r.1
        let w ← make v e
        v.rd (get e w var) r.2
      outs.foldlM (fun vs o => do
        let v ← volume vs o.1.1
        let w ← make v e
        let v ← v.wr (get e w var) o.1.2 (o.2 xs)
        pure (vs.set o.1.1 v)) vs) vs

/-- Runs the steps of a kernel one after the other. -/
def runAll [Add K] (e : Eqn) (vs : List (Volume K)) (cs : List (Cmd (vars e) K)) : Res (List (Volume K)) := cs.foldlM (fun vs c => c.run e vs) vs

end Verif.Views
