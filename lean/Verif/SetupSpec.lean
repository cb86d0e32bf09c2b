import Verif.Setup
import Verif.FactoriesSpec

/-!
What a configuration file says. Only the data types of `Verif/Setup.lean` are used, none of its functions, and the tables of `Verif/FactoriesSpec.lean`.
-/

namespace Verif.Setup
open Params Factories
variable {K F : Type}

/-- `c` is the first child of `t` with this key. -/
def First (t : Tree) (k : String) (c : Tree) : Prop := ∃ before after, t.children = before ++ (k.toList, c) :: after ∧ ∀ p ∈ before, p.1 ≠ k.toList

/-- `c` is found from `t` by following the keys, taking the first child each time. -/
def At : Tree → List String → Tree → Prop
  | t, [], c => c = t
  | t, k :: ks, c => ∃ d, First t k d ∧ At d ks c

/-- The text found there. -/
def Says (t : Tree) (path : List String) (s : Str) : Prop := ∃ c, At t path c ∧ c.data = s

/-- The number (or other value) found there. -/
def Value {α : Type} (f : Str → Option α) (t : Tree) (path : List String) (x : α) : Prop := ∃ s, Says t path s ∧ f s = some x

/-- There is no child with this key. -/
def Absent (t : Tree) (k : String) : Prop := ∀ p ∈ t.children, p.1 ≠ k.toList

/-- The entries below an optional node. -/
def Entries (t : Tree) (k : String) (l : List (Str × Tree)) : Prop := (∃ c, First t k c ∧ c.children = l) ∨ (Absent t k ∧ l = [])

/-- `r` is `s` without the white space at both ends. -/
def Trimmed (s r : Str) : Prop :=
  ∃ a b, s = a ++ r ++ b ∧ (∀ c ∈ a ++ b, isSpace c = true) ∧ (∀ c, r.head? = some c → isSpace c = false) ∧ ∀ c, r.getLast? = some c → isSpace c = false

/-- The text found there without the white space at both ends. -/
def Word (t : Tree) (path : List String) (r : Str) : Prop := ∃ s, Says t path s ∧ Trimmed s r

mutual
/-- `t'` is `t` with the contents of the files filled in: a text `load:name` of a node without children is replaced by the content of the file. -/
inductive Filled (load : Str → Option Str) : Tree → Tree → Prop
  | file {name content : Str} : load name = some content → Filled load (.node ("load:".toList ++ name) []) (.node content [])
  | text {d : Str} : (∀ name, d ≠ "load:".toList ++ name) → Filled load (.node d []) (.node d [])
  | inner {d : Str} {c c' : List (Str × Tree)} : c ≠ [] → FilledAll load c c' → Filled load (.node d c) (.node d c')

/-- The same for all children, which keep their keys and their order. -/
inductive FilledAll (load : Str → Option Str) : List (Str × Tree) → List (Str × Tree) → Prop
  | nil : FilledAll load [] []
  | cons {k : Str} {t t' : Tree} {c c' : List (Str × Tree)} : Filled load t t' → FilledAll load c c' → FilledAll load ((k, t) :: c) ((k, t') :: c')
end

/-- Three numbers separated by single blanks or tabulators; anything may follow after another separator. -/
def Three {α : Type} (f : Str → Option α) (s : Str) (a b c : α) : Prop :=
  ∃ (w1 w2 w3 : Str) (s1 s2 : Char) (rest : Str), s = w1 ++ s1 :: w2 ++ s2 :: w3 ++ rest ∧ (∀ x ∈ w1 ++ w2 ++ w3, x ≠ ' ' ∧ x ≠ '\t') ∧ (s1 = ' ' ∨ s1 = '\t') ∧ (s2 = ' ' ∨ s2 = '\t') ∧
    (rest = [] ∨ ∃ s3 more, rest = s3 :: more ∧ (s3 = ' ' ∨ s3 = '\t')) ∧ f w1 = some a ∧ f w2 = some b ∧ f w3 = some c

/-- The grid: its corners, its numbers of cells and whether it is periodic. -/
structure GridMeant (conv : Conv K) (fvm : Tree) (g : GridObj K) : Prop where
  lower : ∃ s, Says fvm ["grid", "lowerCorner"] s ∧ Three conv.realText s g.lower.x g.lower.y g.lower.z
  upper : ∃ s, Says fvm ["grid", "upperCorner"] s ∧ Three conv.realText s g.upper.x g.upper.y g.upper.z
  dims : ∃ s, Says fvm ["grid", "dimension"] s ∧ Three conv.intText s g.dims.x g.dims.y g.dims.z
  periodic : Says fvm ["boundary"] "periodic".toList ∧ g.periodic = true ∨ Says fvm ["boundary"] "neumann".toList ∧ g.periodic = false

/-- The values of one parameter of the initial data: one value, or the list of values, where a single entry is repeated. -/
def ParameterMeant (conv : Conv K) (node : Tree) (p : Str × List K) : Prop :=
  Says node ["name"] p.1 ∧ ∃ length, Value conv.int node ["length"] length ∧
    ((length = 1 ∧ ∃ x, Value conv.real node ["value"] x ∧ p.2 = [x]) ∨
     (length ≠ 1 ∧ ∃ values xs, First node "values" values ∧
       List.Forall₂ (fun (c : Str × Tree) x => conv.real c.2.data = some x) (values.children.filter fun c => c.1.map Char.toLower = "value".toList) xs ∧
       ((∃ x, xs = [x] ∧ 0 ≤ length ∧ p.2 = List.replicate length.toNat x) ∨ (xs.length ≠ 1 ∧ p.2 = xs))))

/-- The parameters of the initial data: those of the equation and then those of the initial data, no name twice. -/
def ParametersMeant (conv : Conv K) (fvm : Tree) (ps : List (Str × List K)) : Prop :=
  (ps.map Prod.fst).Nodup ∧ ∃ eqs initial inits qs, Entries fvm "equationParameters" eqs ∧ First fvm "initialData" initial ∧ Entries initial "parameters" inits ∧
    List.Forall₂ (fun (c : Str × Tree) p => ParameterMeant conv c.2 p) inits qs ∧ ps = (eqs.map fun c => (c.1, [conv.atof c.2.data])) ++ qs

/-- The types of output files: without MPI also HDF5. -/
def FileType (mpi : Bool) (type : Str) : Prop := type ∈ ["netcdf", "python", "dll"].map String.toList ∨ mpi = false ∧ type = "hdf5".toList

/-- The file a writer node describes. -/
def FileMeant (mpi : Bool) (node : Tree) (w : WriterObj K F) : Prop :=
  ∃ type basename, Says node ["type"] type ∧ Says node ["basename"] basename ∧ FileType mpi type ∧ w = .base type basename node

variable [Field K] [LinearOrder K]

/-- The interval between two saves; not a finite number if there are none. -/
def IntervalMeant (x : K) (n : Nat) (i : Option K) : Prop := (n = 0 ∧ i = none) ∨ (n ≠ 0 ∧ ∃ y, y * n = x ∧ i = some y)

/-- `i` is `n` as an `int` of 32 bits. -/
def Int32 (n : Nat) (i : Int) : Prop := -2 ^ 31 ≤ i ∧ i < 2 ^ 31 ∧ ∃ k : Int, (n : Int) = i + k * 2 ^ 32

/-- The writer the node `writer` describes (see C86 for what is wrong with the fourth case). -/
inductive WriterMeant (mpi : Bool) (conv : Conv K) (endTime : K) (node : Tree) : WriterObj K F → Prop
  | saves {base : WriterObj K F} {n : Nat} {i : Option K} {initial : Bool} : FileMeant mpi node base → Value conv.size node ["numberOfSaves"] n → IntervalMeant endTime n i →
      (Value conv.bool node ["writeInitialTimestep"] initial ∨ Absent node "writeInitialTimestep" ∧ initial = false) → Absent node "numberOfCoarseSaves" →
      WriterMeant mpi conv endTime node (.fixed base i 0 initial)
  | coarse {base : WriterObj K F} {n saves skips : Nat} {i : Option K} {a b : Int} : FileMeant mpi node base → Value conv.size node ["numberOfSaves"] n → IntervalMeant endTime n i →
      ((∃ initial, Value conv.bool node ["writeInitialTimestep"] initial) ∨ Absent node "writeInitialTimestep") → Value conv.size node ["numberOfCoarseSaves"] saves →
      Value conv.size node ["numberOfSkips"] skips → Int32 saves a → Int32 skips b → WriterMeant mpi conv endTime node (.coarse base i a b)
  | snapshots {base : WriterObj K F} {n : Nat} {i : Option K} {time radius : K} : FileMeant mpi node base → Absent node "numberOfSaves" → Value conv.real node ["time"] time →
      Value conv.real node ["timeRadius"] radius → Value conv.size node ["numberOfSnapshots"] n → IntervalMeant radius n i →
      WriterMeant mpi conv endTime node (.fixed (.integrated base time radius) i (max (time - radius) 0) false)
  | radius {base : WriterObj K F} {time radius : K} : FileMeant mpi node base → Absent node "numberOfSaves" → Value conv.real node ["time"] time →
      Value conv.real node ["timeRadius"] radius → Absent node "numberOfSnapshots" → WriterMeant mpi conv endTime node base
  | every {base : WriterObj K F} : FileMeant mpi node base → Absent node "numberOfSaves" → Absent node "timeRadius" → WriterMeant mpi conv endTime node base

/-- The parameters a functional gets: its own node, with the parameters of the equation put into it. -/
def WithEquation (eqs : List (Str × Tree)) (node : Tree) : Tree := eqs.foldl (fun t p => addString p.1 p.2.data t) node

/-- The writer one entry of `functionals` describes. -/
inductive FunctionalMeant (mpi : Bool) (conv : Conv K) (make : Str → Str → Tree → Res F) (fvm : Tree) (endTime : K) (node : Tree) : WriterObj K F → Prop
  | window {base : WriterObj K F} {platform name : Str} {eqs : List (Str × Tree)} {out : Tree} {f : F} {time radius : K} : First node "writer" out → FileMeant mpi out base →
      Says node ["name"] name → Says fvm ["platform"] platform → Entries fvm "equationParameters" eqs → make platform name (WithEquation eqs node) = .ok f →
      Value conv.real node ["time"] time → Value conv.real node ["timeRadius"] radius → Absent node "numberOfSnapshots" →
      FunctionalMeant mpi conv make fvm endTime node (.timeFunctional base f time radius)
  | snapshots {base : WriterObj K F} {platform name : Str} {eqs : List (Str × Tree)} {out : Tree} {f : F} {time radius : K} {n : Nat} {i : Option K} : First node "writer" out →
      FileMeant mpi out base → Says node ["name"] name → Says fvm ["platform"] platform → Entries fvm "equationParameters" eqs →
      make platform name (WithEquation eqs node) = .ok f → Value conv.real node ["time"] time → Value conv.real node ["timeRadius"] radius →
      Value conv.size node ["numberOfSnapshots"] n → IntervalMeant radius n i →
      FunctionalMeant mpi conv make fvm endTime node (.fixed (.timeFunctional base f time radius) i (max (time - radius) 0) false)
  | saves {base : WriterObj K F} {platform name : Str} {eqs : List (Str × Tree)} {out : Tree} {f : F} {n : Nat} {i : Option K} : First node "writer" out →
      FileMeant mpi out base → Says node ["name"] name → Says fvm ["platform"] platform → Entries fvm "equationParameters" eqs →
      make platform name (WithEquation eqs node) = .ok f → Absent node "time" → Value conv.size node ["numberOfSaves"] n → IntervalMeant endTime n i →
      FunctionalMeant mpi conv make fvm endTime node (.fixed (.functional base f) i 0 true)

/-- The writer changes the time step. -/
def Adjusts : WriterObj K F → Bool
  | .fixed _ _ _ _ => true
  | .coarse _ _ _ _ => true
  | _ => false

/-- The names a configuration gives to the factories, with the automatic choices. -/
structure NamesMeant (fvm : Tree) (c : Conf) : Prop where
  platform : Says fvm ["platform"] c.platform.toList
  equation : Says fvm ["equation"] c.equation.toList
  flux : Says fvm ["flux"] c.flux.toList
  reconstruction : Word fvm ["reconstruction"] c.reconstruction.toList
  integrator : ∃ s, Says fvm ["integrator"] s ∧
    c.integrator = if s = "auto".toList then (if c.reconstruction = "none" then "forwardeuler" else "rungekutta2") else String.ofList s
  boundary : Says fvm ["boundary"] c.boundary.toList
  diffusion : (∃ d, First fvm "diffusion" d ∧ Word d ["name"] c.diffusion.toList ∧ Word d ["reconstruction"] c.diffusionReconstruction.toList) ∨
    (Absent fvm "diffusion" ∧ c.diffusion = "none" ∧ c.diffusionReconstruction = "none")

/-- What the node `fvm` says. -/
structure FvmMeant (cuda mpi : Bool) (conv : Conv K) (load : Str → Option Str) (make : Str → Str → Tree → Res F) (fvm : Tree) (s : Settings K F) : Prop where
  /-- every option is known -/
  known : ∀ p ∈ fvm.children, p.1 ∈ ["name", "platform", "boundary", "flux", "endTime", "equation", "equationParameters", "reconstruction", "cfl", "integrator", "initialData", "writer",
    "grid", "diffusion", "functionals"].map String.toList
  grid : GridMeant conv fvm s.grid
  dims : s.conf.dims = s.grid.dims
  names : NamesMeant fvm s.conf
  offered : Offered cuda s.conf
  endTime : Value conv.real fvm ["endTime"] s.endTime
  cfl : ∃ t, Says fvm ["cfl"] t ∧ if t = "auto".toList then s.cfl = (if s.conf.reconstruction = "none" then 9 / 10 else 475 / 1000) else conv.realText t = some s.cfl
  gamma : (∃ g eqs, s.conf.equation ∈ ["euler1", "euler2", "euler3"] ∧ First fvm "equationParameters" eqs ∧ Value conv.real eqs ["gamma"] g ∧ s.gamma = some g) ∨
    ((s.conf.equation ∉ ["euler1", "euler2", "euler3"] ∨ Absent fvm "equationParameters") ∧ s.gamma = none)
  program : ∃ file, Says fvm ["initialData", "python"] file ∧ load file = some s.program
  parameters : ParametersMeant conv fvm s.parameters
  name : Word fvm ["name"] s.name
  /-- first the writer, then the functionals in their order; those that change the time step are asked in the other order -/
  output : ∃ (main : List (WriterObj K F)) (fs : List (WriterObj K F)) (entries : List (Str × Tree)),
    ((∃ node w, First fvm "writer" node ∧ WriterMeant mpi conv s.endTime node w ∧ main = [w]) ∨ (Absent fvm "writer" ∧ main = [])) ∧
    Entries fvm "functionals" entries ∧ List.Forall₂ (fun (c : Str × Tree) w => FunctionalMeant mpi conv make fvm s.endTime c.2 w) entries fs ∧
    s.writers = main ++ fs ∧ s.adjusters = (fs ++ main).filter Adjusts

/-- What the file says. -/
def Described (cuda mpi : Bool) (conv : Conv K) (load : Str → Option Str) (make : Str → Str → Tree → Res F) (root : Tree) (s : Settings K F) : Prop :=
  ∃ raw children fvm, First root "config" raw ∧ FilledAll load raw.children children ∧
    First (.node raw.data children) "fvm" fvm ∧ FvmMeant cuda mpi conv load make fvm s

/-- The three vectors of the grid have at least two separators. -/
def CompleteVectors (load : Str → Option Str) (root : Tree) : Prop :=
  ∀ raw children fvm, First root "config" raw → FilledAll load raw.children children → First (.node raw.data children) "fvm" fvm →
    ∀ k ∈ ["lowerCorner", "upperCorner", "dimension"], ∀ s, Says fvm ["grid", k] s → 2 ≤ (s.filter fun c => c = ' ' ∨ c = '\t').length

end Verif.Setup
