import Verif.Basic

/-!
The Python driver (python/alsvinn/alsvinn.py): reading a configuration file into nested dictionaries and writing them to a file again for a run. Parsing and printing of XML (xml.dom.minidom,
dicttoxml) are library code; files are the trees these libraries give. Every Python exception is `thrown`.
-/

namespace Verif.PyConfig

/-- Strings of Python. -/
abbrev Text := List Char

/-- A node of `xml.dom.minidom`. -/
inductive Node where
  | text (s : Text)
  | comment (s : Text)
  | elem (tag : Text) (children : List Node)

/-- The values in the settings. A number read by `__make_float` or `__make_int` is kept as the text Python prints for it, a vector of numbers as a list of such texts. -/
inductive Val where
  | str (s : Text)
  | dict (l : List (Text × Val))
  | list (l : List Val)

/-- Dictionaries, with their keys in the order of insertion (python/alsvinn/alsvinn.py:28-30). -/
abbrev Dict := List (Text × Val)

/-- `d[key]`; the key must be present. -/
def Dict.get : Dict → Text → Res Val
  | [], _ => .error .thrown
  | (k, v) :: d, key => if k = key then .ok v else Dict.get d key

/-- `d[key] = value`: a new key comes last, an old one keeps its place. -/
def Dict.set : Dict → Text → Val → Dict
  | [], key, v => [(key, v)]
  | (k, w) :: d, key, v => if k = key then (k, v) :: d else (k, w) :: Dict.set d key v

/-- `d[key]` where the next access needs a dictionary. -/
def Dict.getDict (d : Dict) (key : Text) : Res Dict := do
  match ← d.get key with
  | .dict l => pure l
  | _ => .error .thrown

/-- `d[key]` where the next access needs a string. -/
def Dict.getText (d : Dict) (key : Text) : Res Text := do
  match ← d.get key with
  | .str s => pure s
  | _ => .error .thrown

/-- `strip` of Python. -/
def strip (s : Text) : Text := ((s.dropWhile Char.isWhitespace).reverse.dropWhile Char.isWhitespace).reverse

/-- `nodeType == COMMENT_NODE` (xml.dom.minidom). -/
def Node.isComment : Node → Bool
  | .comment _ => true
  | _ => false

/-- `nodeType == TEXT_NODE` -/
def Node.isText : Node → Bool
  | .text _ => true
  | _ => false

/-- The text nodes skipped in alsvinn.py:368-371: those of blanks only. -/
def Node.isBlank : Node → Bool
  | .text s => (strip s).isEmpty
  | _ => false

/-- The `tagName`s of the elements among the nodes. -/
def tags : List Node → List Text
  | [] => []
  | .elem tag _ :: cs => tag :: tags cs
  | _ :: cs => tags cs

/-- `value.firstChild.nodeValue` (alsvinn.py:387) -/
def firstText : List Node → Res Val
  | .text s :: _ => .ok (.str s)
  | _ => .error .thrown

mutual
/-- The value stored for one element in `__readValues` (alsvinn.py:363-391). A comment among its children has no `tagName`. With text among the children, the first child that is not blank must
be text; otherwise elements with different names become a dictionary, and others a list. -/
def valueOf : Node → Res Val
  | .elem _ cs =>
    if cs.any Node.isComment then .error .thrown
    else if cs.any fun c => c.isText && !c.isBlank then
      match cs.find? fun c => !c.isBlank with
      | some (.text s) => .ok (.str (strip s))
      | _ => .error .thrown
    else if (tags cs).Nodup then do
      let d ← readValues cs []
      pure (.dict d)
    else do
      let l ← itemsOf cs
      pure (.list l)
  | _ => .error .thrown

/-- `__readValues(output, document)` (alsvinn.py:357-391) on the children of `document`. -/
def readValues : List Node → Dict → Res Dict
  | [], output => .ok output
  | .text _ :: cs, output => readValues cs output
  | .comment _ :: _, _ => .error .thrown
  | .elem tag children :: cs, output => do
    let v ← valueOf (.elem tag children)
    readValues cs (output.set tag v)

/-- The loop over the values of a list (alsvinn.py:384-391): an element with text nodes only (`__isPureTextNode`, alsvinn.py:349-355) gives its first text, which must exist, others a dictionary. -/
def itemsOf : List Node → Res (List Val)
  | [] => .ok []
  | .text _ :: cs => itemsOf cs
  | .comment _ :: _ => .error .thrown
  | .elem _ children :: cs => do
    let v ← (if children.all Node.isText then firstText children else (readValues children []).map .dict)
    let rest ← itemsOf cs
    pure (v :: rest)
end

mutual
/-- `dicttoxml` (called in alsvinn.py:155) for one value under the given name: the elements of a list get the name of the list without its last letter (`__xml_item_func`, alsvinn.py:45-46). -/
def write (tag : Text) : Val → Node
  | .str s => .elem tag [.text s]
  | .dict d => .elem tag (writeDict d)
  | .list l => .elem tag (writeItems tag.dropLast l)

/-- The entries of a dictionary. -/
def writeDict : List (Text × Val) → List Node
  | [] => []
  | (k, v) :: d => write k v :: writeDict d

/-- The elements of a list. -/
def writeItems (tag : Text) : List Val → List Node
  | [] => []
  | v :: l => write tag v :: writeItems tag l
end

mutual
/-- `getElementsByTagName(tag)[0]`: the first of the elements of that name, an element before those inside of it. -/
def firstNamed (tag : Text) : List Node → Option Node
  | [] => none
  | c :: cs => (inside tag c).or (firstNamed tag cs)

/-- The node itself or the first of the name inside. -/
def inside (tag : Text) : Node → Option Node
  | .elem t cs => if t = tag then some (.elem t cs) else firstNamed tag cs
  | _ => none
end

/-- The key and tag `fvm` (alsvinn.py:28-29, 87). -/
def fvmTag : Text := "fvm".toList
/-- The key and tag `uq` (alsvinn.py:28). -/
def uqTag : Text := "uq".toList
/-- The key `parameters` (alsvinn.py:92-93). -/
def parametersTag : Text := "parameters".toList
/-- The key `grid` (alsvinn.py:78, 102). -/
def gridTag : Text := "grid".toList
/-- The key `lowerCorner` (alsvinn.py:102, 110). -/
def lowerCornerTag : Text := "lowerCorner".toList
/-- The key `upperCorner` (alsvinn.py:103, 113). -/
def upperCornerTag : Text := "upperCorner".toList
/-- The key `dimension` (alsvinn.py:116, 147). -/
def dimensionTag : Text := "dimension".toList
/-- The key `endTime` (alsvinn.py:106). -/
def endTimeTag : Text := "endTime".toList
/-- The key `name` (alsvinn.py:250, 534). -/
def nameTag : Text := "name".toList
/-- The key `initialData` (alsvinn.py:93, 151). -/
def initialDataTag : Text := "initialData".toList
/-- The key `python` (alsvinn.py:151-153). -/
def pythonTag : Text := "python".toList
/-- The root of the file (alsvinn.py:155). -/
def configTag : Text := "config".toList

/-- `text.split(" ")`: the words between single blanks. -/
def split : Text → List Text
  | [] => [[]]
  | c :: s => if c = ' ' then [] :: split s else
    match split s with
    | w :: ws => (c :: w) :: ws
    | [] => [[c]]

/-- `__make_float` and `__make_int` (alsvinn.py:119-140). `conv` is `float` or `int` followed by printing; it fails for words that are no numbers. -/
def makeNumbers (conv : Text → Option Text) (s : Text) : Res Val := do
  let words ← (split (strip s)).mapM fun w => match conv w with
    | some w => Except.ok w
    | none => .error .thrown
  match words with
  | [w] => pure (.str w)
  | ws => pure (.list (ws.map .str))

/-- Python's `not value`. -/
def Val.isEmpty : Val → Bool
  | .str s => s.isEmpty
  | .dict d => d.isEmpty
  | .list l => l.isEmpty

/-- An `Alsvinn` object: the members `fvmSettings` and `uqSettings` and the value of `settings["fvm"]`, which `run` writes (alsvinn.py:28-30). -/
structure Obj where
  fvm : Dict
  uq : Dict
  written : Dict

/-- The section `uq` in `read_xml` (alsvinn.py:88-95). The settings of a file without parameters of the uncertainty are taken from those of the initial data, which have not been read yet at this point:
`self.fvmSettings` is still empty. -/
def readUq (config : List Node) : Res Dict :=
  match firstNamed uqTag config with
  | some (.elem _ cs) => do
    let uq ← readValues cs []
    let p ← uq.get parametersTag
    if p.isEmpty then do
      let init ← Dict.getDict [] initialDataTag
      let _ ← init.get parametersTag
      .error .thrown
    else pure uq
  | _ => .ok []

/-- The conversions at the end of `read_xml` (alsvinn.py:100-106). -/
def adjust (float int : Text → Option Text) (d : Dict) : Res Dict := do
  let grid ← d.getDict gridTag
  let lower ← makeNumbers float (← grid.getText lowerCornerTag)
  let grid := grid.set lowerCornerTag lower
  let upper ← makeNumbers float (← grid.getText upperCornerTag)
  let grid := grid.set upperCornerTag upper
  let dim ← makeNumbers int (← grid.getText dimensionTag)
  let grid := grid.set dimensionTag dim
  let d := d.set gridTag (.dict grid)
  let time ← makeNumbers float (← d.getText endTimeTag)
  pure (d.set endTimeTag time)

/-- `read_xml` (alsvinn.py:83-106) on the children of `<config>`. -/
def readXml (float int : Text → Option Text) (config : List Node) : Res Obj :=
  match firstNamed fvmTag config with
  | some (.elem _ fvm) => do
    let uq ← readUq config
    let d ← readValues fvm []
    let d ← adjust float int d
    pure ⟨d, uq, d⟩
  | _ => .error .thrown

/-- The constructor (alsvinn.py:23-39): from a file, from a dictionary, or empty. A given dictionary becomes `fvmSettings`, while `settings["fvm"]` stays the empty dictionary. -/
def construct (float int : Text → Option Text) : Option (List Node) → Option Dict → Res Obj
  | some config, _ => readXml float int config
  | none, some configuration => .ok ⟨configuration, [], []⟩
  | none, none => .ok ⟨[], [], []⟩

/-- `__make_string` for one key (alsvinn.py:195-200): the first three numbers of the vector. -/
def makeString (d : Dict) (key : Text) : Res Dict := do
  match ← d.get key with
  | .list (.str a :: .str b :: .str c :: _) => pure (d.set key (.str (a ++ ' ' :: b ++ ' ' :: c)))
  | _ => .error .thrown

/-- The file written by `run` (alsvinn.py:142-159): the vectors as text, and the Python file of the initial data replaced by a copy with the name of the run. -/
def writtenFile (o : Obj) : Res (List Node) := do
  let name ← o.fvm.getText nameTag
  let grid ← o.written.getDict gridTag
  let grid ← makeString grid lowerCornerTag
  let grid ← makeString grid upperCornerTag
  let grid ← makeString grid dimensionTag
  let d := o.written.set gridTag (.dict grid)
  let newPythonFile := name ++ ".py".toList
  let init ← d.getDict initialDataTag
  let old ← init.getText pythonTag
  let d := if old ≠ newPythonFile then d.set initialDataTag (.dict (init.set pythonTag (.str newPythonFile))) else d
  pure [write fvmTag (.dict d), write uqTag (.dict o.uq)]

end Verif.PyConfig
