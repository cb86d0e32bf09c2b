import Verif.Basic

/-!
Model of parameters (alsutils/src/parameters/Parameters.cpp, alsfvm/src/init/Parameters.cpp) and of the class registry (alsutils/include/alsutils/base/impl/FactoryRegistry.hpp).
Strings are lists of characters.
-/

namespace Verif
namespace Params

/-- Strings. -/
abbrev Str := List Char

/-- `boost::property_tree::ptree`: a value and named children in order. -/
inductive Tree where
  | node (data : Str) (children : List (Str × Tree))

/-- Value of a node. -/
def Tree.data : Tree → Str
  | .node d _ => d

/-- Children of a node. -/
def Tree.children : Tree → List (Str × Tree)
  | .node _ c => c

/-- The keys of a path separated by dots (boost `string_path::reduce`). -/
def fragments (path : Str) : List Str :=
  match h : path with
  | [] => []
  | c :: cs => (c :: cs).takeWhile (· ≠ '.') :: fragments (((c :: cs).dropWhile (· ≠ '.')).drop 1)
termination_by path.length
decreasing_by
  have : ((c :: cs).dropWhile (· ≠ '.')).length ≤ (c :: cs).length := (List.dropWhile_sublist _).length_le
  simp only [List.length_drop] at *
  simp only [List.length_cons] at *
  omega

/-- `ptree.find(key)`: the first child with this key. -/
def find (key : Str) (t : Tree) : Option Tree := (t.children.find? fun p => p.1 == key).map (·.2)

/-- `get_child` along a path: reports an error if a key is missing (`ptree_bad_path`). -/
def walk : List Str → Tree → Res Tree
  | [], t => .ok t
  | k :: ks, t => match find k t with
    | some c => walk ks c
    | none => .error .thrown

/-- `ptree.get<std::string>(path)`. -/
def getData (path : Str) (t : Tree) : Res Str := (walk (fragments path) t).map Tree.data

/-- Changes the first child with this key, adding it at the end if there is none. -/
def updateChild (key : Str) (f : Tree → Tree) : List (Str × Tree) → List (Str × Tree)
  | [] => [(key, f (.node [] []))]
  | p :: ps => if p.1 == key then (key, f p.2) :: ps else p :: updateChild key f ps

/-- `ptree.put(path, value)`: replaces the value at the path, creating nodes as needed. -/
def putAt : List Str → Str → Tree → Tree
  | [], v, .node _ c => .node v c
  | k :: ks, v, .node d c => .node d (updateChild k (putAt ks v) c)

/-- `addStringParameter` (Parameters.cpp:76-79). -/
def addString (name value : Str) (t : Tree) : Tree := putAt (fragments name) value t

/-- `getString` (Parameters.cpp:40-42). -/
def getString (name : Str) (t : Tree) : Res Str := getData name t

/-- `contains` (Parameters.cpp:44-46): looks at the children of the root only, without splitting the name. -/
def contains (name : Str) (t : Tree) : Bool := (find name t).isSome

/-- `boost::algorithm::join(values, " ")`. -/
def join : List Str → Str
  | [] => []
  | [w] => w
  | w :: ws => w ++ ' ' :: join ws

/-- The separators of `boost::is_any_of(" \t")`. -/
def blank (c : Char) : Bool := c == ' ' || c == '\t'

/-- `boost::split(strings, input, boost::is_any_of(" \t"))` without token compression: one more token than there are separators. -/
def split : Str → List Str
  | [] => [[]]
  | c :: cs => if blank c then [] :: split cs else match split cs with
    | [] => [[c]]
    | w :: ws => (c :: w) :: ws

/-- `addVectorParameter` (Parameters.cpp:81-85). -/
def addVector (name : Str) (values : List Str) (t : Tree) : Tree := addString name (join values) t

/-- `getStringVectorFromString` (Parameters.cpp:48-56). -/
def getVector (name : Str) (t : Tree) : Res (List Str) := (getString name t).map split

/-! ### Registries -/

/-- `FactoryRegistry::creators` (FactoryRegistry.hpp:77). -/
abbrev Registry (C : Type) := Str → Option C

/-- `registerClass` (FactoryRegistry.hpp:36-45). -/
def registerClass {C : Type} (r : Registry C) (name : Str) (creator : C) : Res (Registry C) :=
  match r name with
  | some _ => .error .thrown
  | none => .ok (Function.update r name (some creator))

/-- `createInstance` (FactoryRegistry.hpp:62-69): calls the creator. -/
def createInstance {A B : Type} (r : Registry (A → Res B)) (name : Str) (args : A) : Res B :=
  match r name with
  | none => .error .thrown
  | some creator => creator args

/-- The registry after a registration; one that reports an error leaves the registry as it was. -/
def registerStep {C : Type} (r : Registry C) (p : Str × C) : Registry C :=
  match registerClass r p.1 p.2 with
  | .ok r' => r'
  | .error _ => r

/-- A history of registrations. -/
def registerAll {C : Type} (history : List (Str × C)) : Registry C := history.foldl registerStep fun _ => none

/-- Operations on `init::Parameters` (alsfvm/src/init/Parameters.cpp:21-28, 52-55). -/
inductive Op (V : Type) where
  | add (name : Str) (value : V)
  | setOrAdd (name : Str) (value : V)

/-- `addParameter` (init/Parameters.cpp:21-28) and `setOrAddParameter` (init/Parameters.cpp:52-55). -/
def perform {V : Type} (m : Str → Option V) : Op V → Res (Str → Option V)
  | .add name value => match m name with
    | some _ => .error .thrown
    | none => .ok (Function.update m name (some value))
  | .setOrAdd name value => .ok (Function.update m name (some value))

/-- `getParameter` (init/Parameters.cpp:43-50). -/
def getParameter {V : Type} (m : Str → Option V) (name : Str) : Res V :=
  match m name with
  | none => .error .thrown
  | some v => .ok v

/-- The map after an operation; one that reports an error leaves the map as it was. -/
def performStep {V : Type} (m : Str → Option V) (op : Op V) : Str → Option V :=
  match perform m op with
  | .ok m' => m'
  | .error _ => m

/-- A history of operations. -/
def performAll {V : Type} (history : List (Op V)) : Str → Option V := history.foldl performStep fun _ => none

end Params
end Verif
