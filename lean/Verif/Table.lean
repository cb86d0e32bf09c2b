import Verif.PyConfig
import Verif.Setup

/-!
The LaTeX table of a configuration file (utils/make_table.py), and the property tree the program makes of the same file. The file is its tree of nodes; attributes are left out. Letters are those of ASCII.
-/

namespace Verif.Table
open PyConfig Params

/-! ### The table -/

mutual
/-- The elements with this name among a node and everything inside it, in the order of the file. -/
def named (name : Text) : Node → List Node
  | .elem tag cs => if tag = name then .elem tag cs :: namedIn name cs else namedIn name cs
  | .text _ => []
  | .comment _ => []
/-- `getElementsByTagName(name)` (xml.dom.minidom, used in make_table.py:25,46) on the children of the element: all elements with this name at any depth. -/
def namedIn (name : Text) : List Node → List Node
  | [] => []
  | c :: cs => named name c ++ namedIn name cs
end

/-- `[0]` on such a list, which must not be empty (make_table.py:25,46); the children of the element. -/
def first : List Node → Res (List Node)
  | .elem _ cs :: _ => .ok cs
  | _ => .error .thrown

/-- `nodeValue` (xml.dom.minidom): elements have none. -/
def nodeValue : Node → Option Text
  | .text s => some s
  | .comment s => some s
  | .elem _ _ => none

/-- `fvm.getElementsByTagName(field)[0].firstChild.nodeValue` (make_table.py:46): an empty element has no first child. -/
def value (fvm : List Node) (field : String) : Res (Option Text) := do
  match ← first (namedIn field.toList fvm) with
  | [] => .error .thrown
  | c :: _ => .ok (nodeValue c)

/-- `usedValues` (make_table.py:42). -/
structure Values where
  equation : Option Text
  reconstruction : Option Text
  integrator : Option Text
  cfl : Option Text
  endTime : Option Text
  flux : Option Text

/-- The loop over the fields (make_table.py:45-47). -/
def readValues (fvm : List Node) : Res Values := do
  let equation ← value fvm "equation"
  let reconstruction ← value fvm "reconstruction"
  let integrator ← value fvm "integrator"
  let cfl ← value fvm "cfl"
  let endTime ← value fvm "endTime"
  let flux ← value fvm "flux"
  .ok ⟨equation, reconstruction, integrator, cfl, endTime, flux⟩

/-- The automatic choice of the integrator (make_table.py:48-52). -/
def autoIntegrator (v : Values) : Option Text :=
  if v.integrator = some "auto".toList then
    if v.reconstruction ≠ some "none".toList then some "rungekutta2".toList else some "forwardeuler".toList
  else v.integrator

/-- The automatic choice of the CFL number (make_table.py:55-59). -/
def autoCfl (v : Values) : Option Text :=
  if v.cfl = some "auto".toList then
    if v.reconstruction ≠ some "none".toList then some "0.475".toList else some "0.9".toList
  else v.cfl

/-- `prettyNames` (make_table.py:61). -/
def prettyNames : List (Text × Text) :=
  [("forwardeuler".toList, "Forward-Euler".toList), ("rungekutta2".toList, "SSP RK 2".toList), ("burgers".toList, "Burgers".toList), ("euler1".toList, "1D Euler".toList),
    ("euler2".toList, "2D Euler".toList), ("euler3".toList, "3D Euler".toList)]

/-- `upper()` (make_table.py:69). -/
def upper (s : Text) : Text := s.map Char.toUpper

/-- `title()` (make_table.py:71): the first letter of every group of letters is a capital, the others are not. -/
def titleFrom (inside : Bool) : Text → Text
  | [] => []
  | c :: cs => (if inside then c.toLower else c.toUpper) :: titleFrom c.isAlpha cs

/-- One entry of the table (make_table.py:64-73); `"%s" % None` is `None`, which has no `upper` or `title`. -/
def cell (field : String) : Option Text → Res Text
  | none => if field = "reconstruction" ∨ field = "flux" then .error .thrown else .ok "None".toList
  | some s =>
    match prettyNames.lookup s with
    | some p => .ok p
    | none => .ok (if field = "reconstruction" then upper s else if field = "flux" then titleFrom false s else s)

/-- The entries of a line with the separators (make_table.py:32-39, 73-78). -/
def line : List Text → Text
  | [] => []
  | [x] => x ++ "\\\\ \n".toList
  | x :: y :: xs => x ++ '&' :: line (y :: xs)

/-- The whole program (make_table.py:15-83) on the children of the document: what it prints, if it does not fail in between. The names of the fields are in lines 21-24. -/
def table (document : List Node) : Res Text := do
  let config ← first (namedIn "config".toList document)
  let fvm ← first (namedIn "fvm".toList config)
  let v ← readValues fvm
  let equation ← cell "equation" v.equation
  let flux ← cell "flux" v.flux
  let reconstruction ← cell "reconstruction" v.reconstruction
  let integrator ← cell "integrator" (autoIntegrator v)
  let cfl ← cell "cfl" (autoCfl v)
  let endTime ← cell "endTime" v.endTime
  .ok ("\\begin{table}\n\n\\begin{tabular}{llllll}\n \\toprule\n".toList ++
    line ["Equation".toList, "Numerical flux".toList, "Reconstruction".toList, "Time integrator".toList, "CFL".toList, "$T$".toList] ++
    "\\midrule\n".toList ++ line [equation, flux, reconstruction, integrator, cfl, endTime] ++
    ("\\bottomrule\n\\end{tabular}\n\\caption{Parameters to the Finite Volume simulation used for the experiment INSERT EXPERIMENT NAME HERE. " ++
      "\\label{tbl:TABLENAME}}\n\\end{table}\n").toList)

/-! ### The tree of the program -/

/-- The text of an element (boost `read_xml`, called in alsfvm/src/config/XMLParser.cpp:22-24, without flags): the texts in it one after the other; those of white space only are not seen. -/
def dataOf : List Node → Str
  | [] => []
  | .text s :: cs => if s.all Setup.isSpace then dataOf cs else s ++ dataOf cs
  | _ :: cs => dataOf cs

mutual
/-- An element as a node of the property tree (alsfvm/src/config/XMLParser.cpp:22-24). -/
def treeOf : Node → Tree
  | .elem _ cs => .node (dataOf cs) (childrenOf cs)
  | .comment s => .node s []
  | .text s => .node s []
/-- The children: elements and comments, in the order of the file (alsfvm/src/config/XMLParser.cpp:22-24). -/
def childrenOf : List Node → List (Str × Tree)
  | [] => []
  | .elem tag cs :: ns => (tag, treeOf (.elem tag cs)) :: childrenOf ns
  | .comment s :: ns => ("<xmlcomment>".toList, treeOf (.comment s)) :: childrenOf ns
  | .text _ :: ns => childrenOf ns
end

/-- The property tree of the file (alsfvm/src/config/XMLParser.cpp:22-24). -/
def parse (document : List Node) : Tree := .node [] (childrenOf document)

end Verif.Table
