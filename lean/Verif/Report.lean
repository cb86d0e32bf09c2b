import Verif.Params

/-!
Model of the report that every NetCDF file carries: the cache of text files (alsutils/src/io/TextFileCache.cpp), the report (alsutils/src/make_basic_report.cpp) and the attributes of
the file (alsfvm/src/io/netcdf_write_report.cpp, netcdf_write_attributes.cpp; the parallel versions differ in the calls to the library only).
-/

namespace Verif
namespace Report
open Params

/-- The files on the disk at some time: name to text. -/
abbrev Disk := Str → Option Str

/-- `std::map<std::string, std::string> loadedTextFiles` (alsutils/include/alsutils/io/TextFileCache.hpp:53), sorted by the name. -/
abbrev Cache := List (Str × Str)

/-- `map[key] = value` for a key that is not in the map. -/
def insertKey (key value : Str) : Cache → Cache
  | [] => [(key, value)]
  | p :: ps => if p.1 < key then p :: insertKey key value ps else (key, value) :: p :: ps

/-- `loadTextFile` (TextFileCache.cpp:36-57); `absolute` is `boost::filesystem::absolute`, which depends on the working directory. -/
def loadTextFile (absolute : Str → Str) (disk : Disk) (path : Str) (c : Cache) : Res Str × Cache :=
  match c.find? fun p => p.1 == absolute path with
  | some p => (.ok p.2, c)
  | none => match disk (absolute path) with
    | none => (.error .thrown, c)
    | some text => (.ok text, insertKey (absolute path) text c)

/-- The files a program loads, each with the state of the disk at that time, and what it gets. -/
def loadAll (absolute : Str → Str) : List (Disk × Str) → Cache → List (Res Str) × Cache
  | [], c => ([], c)
  | l :: ls, c =>
    let r := loadTextFile absolute l.1 l.2 c
    let rs := loadAll absolute ls r.2
    (r.1 :: rs.1, rs.2)

/-- `getAllLoadedFiles` (TextFileCache.cpp:60-70). -/
def loadedFiles (c : Cache) : List Str := c.map (·.1)

/-- `boost::algorithm::replace_all_copy(text, from, to)` for one letter `from`. -/
def replaceAll (fromLetter : Char) (by_ : Str) (text : Str) : Str := text.flatMap fun x => if x = fromLetter then by_ else [x]

/-- The name of a file in the report (make_basic_report.cpp:124-128). -/
def escape (filename : Str) : Str := replaceAll '.' "_DOT_".toList (replaceAll '/' "_dash_".toList filename)

/-- `propertyTree.put("report." + key, value)`. -/
def put (info : String → Str) (t : Tree) (key : String) : Tree := addString ("report.".toList ++ key.toList) (info key) t

/-- `propertyTree.add_child("report." + key, child)`: a new child at the end. -/
def addChild (key : String) (sub : Tree) : Tree → Tree
  | .node d c => .node d (updateChild "report".toList (fun r => .node r.data (r.children ++ [(key.toList, sub)])) c)

/-- The entries before the child `boost` (make_basic_report.cpp:49-81). -/
def entries1 : List String := ["software", "softwareVersion", "currentWorkingDirectory", "operatingSystem", "username", "host", "standardCLibrary", "generatedAt", "CPU", "revision",
  "versionControlStatus", "buildType", "cxxFlags", "cxxFlagsDebug", "cxxFlagsRelease", "cxxFlagsMinSizeRel", "cxxFlagsRelWithDebInfo", "cudaFlags", "cudaVersion", "cxxCompiler",
  "cudaCompiler"]

/-- The entries after it (make_basic_report.cpp:85-91). -/
def entries2 : List String := ["floatingPointPrecisionDescription", "floatingPointType", "floatingPointMax", "floatingPointMin", "floatingPointEpsilon"]

/-- The entries about processes and threads (make_basic_report.cpp:100-117). -/
def entries3 : List String := ["mpiEnabled", "mpiProcesses", "mpiVersion", "ompEnabled", "ompThreads"]

/-- The last entries (make_basic_report.cpp:134-141). -/
def entries4 : List String := ["pythonVersion", "alsvinnInDocker"]

/-- One loaded file (make_basic_report.cpp:122-131). The text is loaded again, which the cache answers. -/
def putFile (absolute : Str → Str) (disk : Disk) (c : Cache) (t : Tree) (filename : Str) : Res Tree := do
  let text ← (loadTextFile absolute disk filename c).1
  pure (addString ("report.loadedTextFiles.".toList ++ escape filename) text t)

/-- `makeBasicReport` (make_basic_report.cpp:46-143), with arbitrary values for the entries about machine and build; `cuda` is the child with the properties of the graphics card, if the
program is built for one. -/
def makeBasicReport (absolute : Str → Str) (disk : Disk) (info : String → Str) (boost : Tree) (cuda : Option Tree) (c : Cache) : Res Tree := do
  let t := entries1.foldl (put info) (.node [] [])
  let t := addChild "boost" boost t
  let t := entries2.foldl (put info) t
  let t := match cuda with
    | none => t
    | some p => addChild "cudaProperties" p t
  let t := entries3.foldl (put info) t
  let t ← (loadedFiles c).foldlM (putFile absolute disk c) t
  pure (entries4.foldl (put info) t)

/-- `netcdfWriteAttributes` (netcdf_write_attributes.cpp:24-41): the calls of `nc_put_att_text` in order. -/
def writeAttributes (basename : Str) : Tree → List (Str × Str)
  | .node d c => if c.isEmpty then [(basename, d)] else c.attach.flatMap fun p => writeAttributes (basename ++ '.' :: p.1.1) p.1.2
termination_by t => sizeOf t
decreasing_by
  have h1 := List.sizeOf_lt_of_mem p.2
  have h2 : sizeOf p.1.2 < sizeOf p.1 := by
    rcases p with ⟨⟨a, b⟩, hp⟩
    simp only [Prod.mk.sizeOf_spec]
    omega
  simp only [Tree.node.sizeOf_spec]
  omega

/-- `netcdfWriteReport` and the loop over the attributes of the writer (netcdf_write_report.cpp:25-29, alsfvm/src/io/NetCDFWriter.cpp:41-45). -/
def fileAttributes (absolute : Str → Str) (disk : Disk) (info : String → Str) (boost : Tree) (cuda : Option Tree) (c : Cache) (attributes : List (Str × Tree)) :
    Res (List (Str × Str)) := do
  let t ← makeBasicReport absolute disk info boost cuda c
  match find "report".toList t with
  | none => .error .thrown
  | some r => pure (writeAttributes "alsvinn_report".toList r ++ attributes.flatMap fun a => writeAttributes a.1 a.2)

/-- An attribute of the file: of several calls with the same name the last one counts (NetCDF). -/
def attr (calls : List (Str × Str)) (name : Str) : Option Str := ((calls.filter fun p => p.1 == name).map (·.2)).getLast?

end Report
end Verif
