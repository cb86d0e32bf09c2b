import Verif.PyConfig

/-!
The function `run` of the Python driver (python/alsvinn/alsvinn.py:425-603): the settings of a run are those of a base file or defaults, changed by the arguments.
-/

namespace Verif.PyConfig

/-- The arguments of `run` (alsvinn.py:425-459); `none` is Python's `None`. Numbers and names are values as in the settings. `writeInitialTimestep` is the argument after `int(...)`. -/
structure Args where
  name : Option Text := none
  equation : Option Val := none
  lowerCorner : Option Val := none
  upperCorner : Option Val := none
  dimension : Option Val := none
  flux : Option Val := none
  endTime : Option Val := none
  boundary : Option Val := none
  reconstruction : Option Val := none
  cfl : Option Val := none
  integrator : Option Val := none
  initialParameters : Option (List (Text × List Val)) := none
  numberOfSaves : Option Val := none
  initialDataFile : Option Text := none
  initialDataScript : Option Text := none
  equationParameters : Option Val := none
  platform : Option Val := none
  sampleStart : Option Val := none
  statistics : Option (List Val) := none
  samples : Option Val := none
  generator : Option Val := none
  diffusionOperator : Option Val := none
  diffusionReconstruction : Option Val := none
  functionals : Option (List Val) := none
  writeInitialTimestep : Val := .str ['1']

/-- A string of the code as a value. -/
def text (s : String) : Val := .str s.toList

/-- The defaults without a base file (alsvinn.py:469-530). `temporary` is the name of the temporary file, which is used where no file is given. -/
def Args.defaults (a : Args) (temporary : Text) : Args := { a with
  lowerCorner := a.lowerCorner.or (some (.list [text "-5", text "0", text "0"]))
  upperCorner := a.upperCorner.or (some (.list [text "5", text "0", text "0"]))
  dimension := a.dimension.or (some (.list [text "128", text "1", text "1"]))
  flux := a.flux.or (some (text "hll3"))
  endTime := a.endTime.or (some (text "1.3"))
  boundary := a.boundary.or (some (text "neumann"))
  reconstruction := a.reconstruction.or (some (text "weno2"))
  cfl := a.cfl.or (some (text "auto"))
  integrator := a.integrator.or (some (text "auto"))
  initialParameters := a.initialParameters.or (some [])
  numberOfSaves := a.numberOfSaves.or (some (text "1"))
  initialDataFile := a.initialDataFile.or (some temporary)
  equationParameters := a.equationParameters.or (some (.dict [("gamma".toList, text "1.4")]))
  equation := a.equation.or (some (text "euler1"))
  platform := a.platform.or (some (text "cpu"))
  samples := a.samples.or (some (text "1"))
  generator := a.generator.or (some (text "auto"))
  statistics := a.statistics.or (some [text "meanvar"])
  name := a.name.or (some "alsvinn_experiment".toList)
  diffusionOperator := a.diffusionOperator.or (some (text "none"))
  diffusionReconstruction := a.diffusionReconstruction.or (some (text "none")) }

/-- `if value is not None: settings[key] = value` -/
def setOpt (d : Dict) (key : Text) : Option Val → Dict
  | some v => d.set key v
  | none => d

/-- `set_fvm_writer` (alsvinn.py:69-74). -/
def writerVal (type basename saves initial : Val) : Val :=
  .dict [("type".toList, type), ("basename".toList, basename), ("numberOfSaves".toList, saves), ("writeInitialTimestep".toList, initial)]

/-- `settings["grid"][key] = value` (`set_lower_corner` and the two after it, alsvinn.py:109-116). -/
def setGridKey (d : Dict) (key : Text) (v : Val) : Res Dict := do
  let grid ← d.getDict gridTag
  pure (d.set gridTag (.dict (grid.set key v)))

/-- The choice between the parts of the grid (alsvinn.py:556-563) with `set_cartesian_grid` (alsvinn.py:77-80). -/
def setGrid (d : Dict) (lower upper dimension : Option Val) : Res Dict :=
  match dimension, upper, lower with
  | some n, some u, some l => .ok (d.set gridTag (.dict [(lowerCornerTag, l), (upperCornerTag, u), (dimensionTag, n)]))
  | some n, _, _ => setGridKey d dimensionTag n
  | none, _, some l => setGridKey d lowerCornerTag l
  | none, some u, none => setGridKey d upperCornerTag u
  | none, none, none => .ok d

/-- `set_initial_data` (alsvinn.py:50-60). The loop over the values of a parameter uses the name `key`, which does not exist. -/
def setInitialData (d : Dict) (file : Text) : Option (List (Text × List Val)) → Res Dict
  | none => .ok (d.set initialDataTag (.dict [(pythonTag, .str file)]))
  | some [] => .ok (d.set initialDataTag (.dict [(pythonTag, .str file), (parametersTag, .list [])]))
  | some (_ :: _) => .error .thrown

/-- What `add_statistics` (alsvinn.py:397-408) appends to the list of statistics, which `run` has set to the empty list before. -/
def statVal (stat type basename saves initial : Val) : Val :=
  .dict [(nameTag, stat), ("numberOfSaves".toList, saves), ("writeInitialTimestep".toList, initial), ("writer".toList, .dict [("type".toList, type), ("basename".toList, basename)])]

/-- `set_diffusion` (alsvinn.py:420-422). For an absent reconstruction (`None`) an empty element is written. -/
def diffusionVal (operator : Val) (reconstruction : Option Val) : Val :=
  .dict [(nameTag, operator), ("reconstruction".toList, reconstruction.getD (.str []))]

/-- The names of the files that exist. -/
abbrev Files := List Text

/-- `shutil.copyfile` -/
def copyFile (fs : Files) (src dst : Text) : Res Files :=
  if src ∈ fs then .ok (if dst ∈ fs then fs else fs ++ [dst]) else .error .thrown

/-- The name of the copy of the initial data. -/
def pyName (name : Text) : Text := name ++ ".py".toList

/-- The name of the run (alsvinn.py:531-534). -/
def nameOf (a : Args) (d : Dict) : Res Text :=
  match a.name with
  | some name => .ok name
  | none => d.getText nameTag

/-- The settings before the grid (alsvinn.py:531-554). -/
def simpleSettings (a : Args) (name : Text) (d : Dict) : Dict :=
  let d := setOpt d nameTag (a.name.map .str)
  let d := setOpt d "equation".toList a.equation
  let d := setOpt d "flux".toList a.flux
  let d := setOpt d endTimeTag a.endTime
  let d := setOpt d "boundary".toList a.boundary
  let d := setOpt d "reconstruction".toList a.reconstruction
  let d := setOpt d "cfl".toList a.cfl
  let d := setOpt d "platform".toList a.platform
  let d := setOpt d "integrator".toList a.integrator
  setOpt d "writer".toList (a.numberOfSaves.map fun n => writerVal (text "netcdf") (.str name) n a.writeInitialTimestep)

/-- The initial data (alsvinn.py:564-572). Gives also the value of `initial_data_file` at the end. -/
def initialSettings (a : Args) (name : Text) (d : Dict) (fs : Files) : Res (Dict × Files × Option Text) :=
  match a.initialDataScript, a.initialDataFile with
  | some _, _ => do
    let d ← setInitialData d (pyName name) a.initialParameters
    pure (d, if pyName name ∈ fs then fs else fs ++ [pyName name], some (pyName name))
  | none, some file => do
    let fs ← copyFile fs file (pyName name)
    let d ← setInitialData d (pyName name) a.initialParameters
    pure (d, fs, some (pyName name))
  | none, none => .ok (d, fs, none)

/-- The settings after the initial data (alsvinn.py:573-574, 583-588, 597-598). -/
def lastSettings (a : Args) (d : Dict) : Dict :=
  let d := setOpt d "equationParameters".toList a.equationParameters
  let d := setOpt d "functionals".toList (a.functionals.map .list)
  setOpt d "diffusion".toList (a.diffusionOperator.map fun p => diffusionVal p a.diffusionReconstruction)

/-- The settings of the section `uq` (alsvinn.py:576-582, 589-595). -/
def uqSettings (a : Args) (name : Text) (uq : Dict) : Dict :=
  let saves := a.numberOfSaves.getD (text "1")
  let uq := setOpt uq "stats".toList (a.statistics.map fun l => .list (l.map fun s => statVal s (text "netcdf") (.str name) saves a.writeInitialTimestep))
  let uq := setOpt uq "samples".toList a.samples
  let uq := setOpt uq "generator".toList a.generator
  setOpt uq "sampleStart".toList a.sampleStart

/-- The settings made by `run` (alsvinn.py:531-598) on the dictionaries of the object, which share `settings["fvm"]` with `fvmSettings`. -/
def settings (a : Args) (o : Obj) (fs : Files) : Res (Text × Obj × Files × Option Text) := do
  let name ← nameOf a o.fvm
  let d ← setGrid (simpleSettings a name o.fvm) a.lowerCorner a.upperCorner a.dimension
  let r ← initialSettings a name d fs
  pure (name, ⟨lastSettings a r.1, uqSettings a name o.uq, lastSettings a r.1⟩, r.2.1, r.2.2)

/-- `run` (alsvinn.py:461-603) with the object of the base file, or without. `temporary` is the name of the temporary file, which does not exist before. The program that is started writes the files `outputs`. -/
def runWith (a : Args) (base : Option Obj) (temporary : Text) (outputs : Text → Files) (fs : Files) : Res (Obj × Files) := do
  let a' := match base with
    | some _ => a
    | none => a.defaults temporary
  let isTemporary := base.isNone && a.initialDataFile.isNone
  let fs := if isTemporary then fs ++ [temporary] else fs
  let r ← settings a' (base.getD ⟨[], [], []⟩) fs
  let _ ← writtenFile r.2.1
  let fs := r.2.2.1 ++ outputs r.1
  pure (r.2.1, if isTemporary then match r.2.2.2 with
    | some file => fs.filter (· ≠ file)
    | none => fs else fs)

end Verif.PyConfig
