import Verif.PyConfig
import Verif.Params

/-! What the table of a configuration file should say. Only data types of the model are used. -/

namespace Verif.Table
open PyConfig

/-- There is an element with this name among the nodes or somewhere inside them. -/
inductive Inside (name : Text) : List Node → Prop
  | here {l : List Node} {cs : List Node} : .elem name cs ∈ l → Inside name l
  | deeper {l : List Node} {tag : Text} {cs : List Node} : .elem tag cs ∈ l → Inside name cs → Inside name l

/-- Among the nodes is an element with this name and this content, and no element of this name comes earlier in the file. -/
def Leads (name : String) (nodes content : List Node) : Prop :=
  ∃ before after, nodes = before ++ .elem name.toList content :: after ∧ ¬ Inside name.toList before

/-- An element with one text, which is more than white space and is not the name of a file to load. -/
def Plain (name : String) (fvm : List Node) (s : Text) : Prop :=
  Leads name fvm [.text s] ∧ (∃ c ∈ s, c ∉ [' ', '\t', '\n', '\x0b', '\x0c', '\r']) ∧ ∀ file, s ≠ "load:".toList ++ file

/-- The name in the paper of an equation or an integrator; others are printed as they are. -/
def paperName (s : Text) (other : Text) : Text :=
  if s = "forwardeuler".toList then "Forward-Euler".toList
  else if s = "rungekutta2".toList then "SSP RK 2".toList
  else if s = "burgers".toList then "Burgers".toList
  else if s = "euler1".toList then "1D Euler".toList
  else if s = "euler2".toList then "2D Euler".toList
  else if s = "euler3".toList then "3D Euler".toList
  else other

/-- `t` is `s` with every letter at the beginning of a group of letters as a capital and all others small. -/
def Capitalised (s t : Text) : Prop :=
  t.length = s.length ∧ ∀ i (hi : i < s.length) (hj : i < t.length), t[i] = if ∃ j, ∃ hj : j < s.length, j + 1 = i ∧ s[j].isAlpha then s[i].toLower else s[i].toUpper

/-- The table with the six entries of its only line. -/
def Shows (out : Text) (equation flux reconstruction integrator cfl endTime : Text) : Prop :=
  out = "\\begin{table}\n\n\\begin{tabular}{llllll}\n \\toprule\n".toList ++ "Equation&Numerical flux&Reconstruction&Time integrator&CFL&$T$\\\\ \n\\midrule\n".toList ++
    (equation ++ "&".toList ++ flux ++ "&".toList ++ reconstruction ++ "&".toList ++ integrator ++ "&".toList ++ cfl ++ "&".toList ++ endTime ++ "\\\\ \n".toList) ++
    ("\\bottomrule\n\\end{tabular}\n\\caption{Parameters to the Finite Volume simulation used for the experiment INSERT EXPERIMENT NAME HERE. " ++
      "\\label{tbl:TABLENAME}}\n\\end{table}\n").toList

end Verif.Table
