import Verif.Params

/-!
Model of the scripts that add a class to one of the libraries: alsfvm/make_class.py, alsuq/make_class.py and alsutils/make_class.py. The three differ in the name of the library (and in blanks
of messages), which is the parameter `lib`. Lines are those of alsfvm/make_class.py.
Left out: the messages and `git add` (lines 15-17, 127-128), whose result the script ignores.
-/

namespace Verif.NewClass
open Verif.Params (Str)

/-- `qualifiedClassname.split("::")` (alsfvm/make_class.py:47, 62, 74, 100). -/
def parts : Str → List Str
  | [] => [[]]
  | [c] => [[c]]
  | c :: c' :: r =>
    if c = ':' ∧ c' = ':' then [] :: parts r
    else
      match parts (c' :: r) with
      | [] => [[c]]
      | h :: t => (c :: h) :: t

/-- The loop `path += "%s/" % name` (alsfvm/make_class.py:49-50, 65-66). -/
def follow (names : List Str) : Str := names.flatMap fun n => n ++ ['/']

/-- `getHppFilename` (alsfvm/make_class.py:46-54); `path[:-1]` drops the last letter. -/
def headerFile (cls : Str) : Str := ("include/".toList ++ follow (parts cls)).dropLast ++ ".hpp".toList

/-- `getCppFilename` (alsfvm/make_class.py:61-70). -/
def sourceFile (cls : Str) : Str := ("src/".toList ++ follow (parts cls).tail).dropLast ++ ".cpp".toList

/-- `text.replace(pattern, "")`: all occurrences from the left, which do not overlap, are left out (alsfvm/make_class.py:98). `skip` letters still belong to the last occurrence. -/
def remove (pattern : Str) : Nat → Str → Str
  | _, [] => []
  | skip + 1, _ :: r => remove pattern skip r
  | 0, c :: r => if pattern.isPrefixOf (c :: r) then remove pattern (pattern.length - 1) r else c :: remove pattern 0 r

/-- The opening of the namespaces (alsfvm/make_class.py:77-78, 101-102). -/
def openings (names : List Str) : Str := names.flatMap fun n => "namespace ".toList ++ n ++ " { ".toList

/-- `createClassTextHpp` (alsfvm/make_class.py:72-94). `splitName` is never empty, so that `splitName[-1]` is there. -/
def headerText (cls : Str) : Str :=
  "#pragma once\n\n".toList ++ openings (parts cls).dropLast ++ "\n\n".toList ++ "    class ".toList ++ (parts cls).getLastD [] ++ " {".toList ++ "\n    public:\n\n    };\n".toList ++
    (parts cls).dropLast.reverse.flatMap fun n => "} // namespace ".toList ++ n ++ ['\n']

/-- `createClassTextCpp` (alsfvm/make_class.py:97-111). -/
def sourceText (cls : Str) : Str :=
  "#include \"".toList ++ remove "include/".toList 0 (headerFile cls) ++ "\"".toList ++ "\n\n".toList ++ openings (parts cls).dropLast ++ "\n\n".toList ++
    (parts cls).dropLast.flatMap fun _ => "}\n".toList

/-! ### Files -/

/-- What is at a place of the file system. Links, permissions and full disks are left out. -/
inductive Node where
  | file (text : Str)
  | dir
  deriving DecidableEq

/-- The file system below the working directory: what is at the place given by the names of the directories that lead to it and its own. -/
abbrev Disk := List Str → Option Node

/-- A path cut at the slashes, `filename.split("/")` (alsfvm/make_class.py:32). -/
def slashes : Str → List Str
  | [] => [[]]
  | c :: r =>
    if c = '/' then [] :: slashes r
    else
      match slashes r with
      | [] => [[c]]
      | h :: t => (c :: h) :: t

/-- The place a path names: empty names between slashes do not count. The names `.` and `..` are taken as ordinary ones. -/
def place (path : Str) : List Str := (slashes path).filter (· ≠ [])

/-- `os.path.isdir`; the working directory is one. -/
def isDir (d : Disk) (p : List Str) : Bool := p.isEmpty || d p == some .dir

/-- The disk with a node at a place. -/
def put (d : Disk) (p : List Str) (n : Node) : Disk := fun q => if q = p then some n else d q

/-- What a command leaves on the disk, and whether it ended without an exception. -/
abbrev Act := Disk → Disk × Bool

/-- One command after the other; an exception ends the script. -/
def Act.andThen (a b : Act) : Act := fun d => if (a d).2 then b (a d).1 else a d

/-- `os.mkdir` (alsfvm/make_class.py:24-25): an exception if something is there or the parent is no directory. -/
def createDirectory (p : List Str) : Act := fun d => if d p = none ∧ isDir d p.dropLast = true then (put d p .dir, true) else (d, false)

/-- A turn of the loop of `writeToFile` (alsfvm/make_class.py:36-37): the directory is created unless it is there. `directoryExists` (19-22) is asked for a path that ends with a slash: for a
file `os.path.exists` is false then, so that its exception does not occur, but that of `os.mkdir` does. -/
def ensure (p : List Str) : Act := fun d => if isDir d p then (d, true) else createDirectory p d

/-- The loop of `writeToFile` (alsfvm/make_class.py:33-37); `full` is `fullPath`. -/
def ensureAll : Str → List Str → Act
  | _, [] => fun d => (d, true)
  | full, n :: r => (ensure (place (full ++ n ++ ['/']))).andThen (ensureAll (full ++ n ++ ['/']) r)

/-- `open(filename, "w")` and `write` (alsfvm/make_class.py:38-39): an exception if there is a directory or no parent; a file that is there would be overwritten. -/
def openWrite (p : List Str) (text : Str) : Act := fun d => if isDir d p = false ∧ isDir d p.dropLast = true then (put d p (.file text), true) else (d, false)

/-- `writeToFile` (alsfvm/make_class.py:27-39). -/
def writeToFile (filename text : Str) : Act := fun d =>
  if d (place filename) ≠ none then (d, false)
  else (Act.andThen (ensureAll [] (slashes filename).dropLast) (openWrite (place filename) text)) d

/-- The name of the class from the argument of the script (alsfvm/make_class.py:114-116; alsuq and alsutils: the same with their names). -/
def className (lib arg : Str) : Str := if lib.isPrefixOf arg then arg else lib ++ "::".toList ++ arg

/-- The script (alsfvm/make_class.py:113-128). -/
def makeClass (lib arg : Str) : Act :=
  let cls := className lib arg
  Act.andThen (writeToFile (headerFile cls) (headerText cls)) (writeToFile (sourceFile cls) (sourceText cls))

end Verif.NewClass
