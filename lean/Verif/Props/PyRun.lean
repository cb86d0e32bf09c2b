import Verif.PyRunLemmas
import Verif.Props.PyConfig

/-!
C96: `run` of the Python driver uses the arguments it is given, and leaves the other settings as they are.
-/

namespace Verif.Props.PyRun
open Verif.PyConfig Verif.Props.PyConfig

/-- The settings of the section `fvm` that stand for one argument each. -/
def fvmArguments (a : Args) : List (String × Option Val) :=
  [("name", a.name.map .str), ("equation", a.equation), ("flux", a.flux), ("endTime", a.endTime), ("boundary", a.boundary), ("reconstruction", a.reconstruction), ("cfl", a.cfl),
    ("platform", a.platform), ("integrator", a.integrator), ("equationParameters", a.equationParameters), ("functionals", a.functionals.map .list)]

/-- The settings of the section `uq` that stand for one argument each. -/
def uqArguments (a : Args) : List (String × Option Val) := [("samples", a.samples), ("generator", a.generator), ("sampleStart", a.sampleStart)]

/-- `after` has the given value, or what `before` has where none is given. -/
def Uses (before after : Dict) (key : Text) : Option Val → Prop
  | some v => after.get key = .ok v
  | none => after.get key = before.get key

theorem uses_of {before after : Dict} {key : Text} {v : Option Val} (h : after.get key = match v with | some v => .ok v | none => before.get key) : Uses before after key v := by
  cases v <;> exact h

/-- Every given argument is used, and a setting without an argument stays as it was: whenever making the settings succeeds, for every set of arguments and every settings before. -/
theorem C96_arguments (a : Args) (o : Obj) (fs : Files) (r : Text × Obj × Files × Option Text) (h : settings a o fs = .ok r) :
    (∀ p ∈ fvmArguments a, Uses o.fvm r.2.1.fvm p.1.toList p.2) ∧ (∀ p ∈ uqArguments a, Uses o.uq r.2.1.uq p.1.toList p.2) ∧ r.2.1.written = r.2.1.fvm := by
  obtain ⟨d, q, h1, h2, h3, h4, -⟩ := settings_parts h
  have hq : ∀ k, k ≠ gridTag → k ≠ initialDataTag → q.1.get k = (simpleSettings a r.1 o.fvm).get k := fun k hk hk' => (get_initialSettings h3 k hk').trans (get_setGrid h2 k hk)
  rw [h4]
  refine ⟨?_, ?_, rfl⟩
  · intro p hp
    simp only [fvmArguments, List.mem_cons, List.not_mem_nil, or_false] at hp
    rcases hp with rfl | rfl | rfl | rfl | rfl | rfl | rfl | rfl | rfl | rfl | rfl
    all_goals
      refine uses_of ?_
      simp (decide := true) only [lastSettings, get_setOpt, if_true, if_false]
      try rw [hq _ (by decide) (by decide)]
      try simp (decide := true) only [simpleSettings, get_setOpt, if_true, if_false]
      rfl
  · intro p hp
    simp only [uqArguments, List.mem_cons, List.not_mem_nil, or_false] at hp
    rcases hp with rfl | rfl | rfl
    all_goals
      refine uses_of ?_
      simp (decide := true) only [uqSettings, get_setOpt, if_true, if_false]
      rfl

/-- Settings with a grid, and arguments for the flux, the number of samples and the lower corner. -/
def exObj : Obj := ⟨[(nameTag, text "kh"), (gridTag, .dict [(lowerCornerTag, .list [text "0", text "0", text "0"]), (upperCornerTag, .list [text "1", text "1", text "0"]),
  (dimensionTag, .list [text "8", text "8", text "1"])])], [], []⟩

/-- The arguments of this run. -/
def exArgs : Args := { flux := some (text "hll"), samples := some (text "4"), lowerCorner := some (.list [text "-1", text "0", text "0"]) }

example : ∃ r, settings exArgs exObj [] = .ok r ∧ r.2.1.fvm.get "flux".toList = .ok (text "hll") := ⟨_, rfl, rfl⟩

/-- The arguments that are used together: the writer with the name of the run, the number of saves and whether the initial state is written; the statistics; the operator of diffusion with its reconstruction. -/
theorem C96_combined_arguments (a : Args) (o : Obj) (fs : Files) (r : Text × Obj × Files × Option Text) (h : settings a o fs = .ok r) :
    Uses o.fvm r.2.1.fvm "writer".toList (a.numberOfSaves.map fun saves =>
      .dict [("type".toList, text "netcdf"), ("basename".toList, .str r.1), ("numberOfSaves".toList, saves), ("writeInitialTimestep".toList, a.writeInitialTimestep)]) ∧
    Uses o.uq r.2.1.uq "stats".toList (a.statistics.map fun l => .list (l.map fun stat => .dict [("name".toList, stat), ("numberOfSaves".toList, a.numberOfSaves.getD (text "1")),
      ("writeInitialTimestep".toList, a.writeInitialTimestep), ("writer".toList, .dict [("type".toList, text "netcdf"), ("basename".toList, .str r.1)])])) ∧
    Uses o.fvm r.2.1.fvm "diffusion".toList (a.diffusionOperator.map fun operator =>
      .dict [("name".toList, operator), ("reconstruction".toList, a.diffusionReconstruction.getD (.str []))]) ∧
    r.2.1.fvm.getText "name".toList = .ok r.1 := by
  obtain ⟨d, q, h1, h2, h3, h4, -⟩ := settings_parts h
  have hq : ∀ k, k ≠ gridTag → k ≠ initialDataTag → q.1.get k = (simpleSettings a r.1 o.fvm).get k := fun k hk hk' => (get_initialSettings h3 k hk').trans (get_setGrid h2 k hk)
  have hname := (C96_arguments a o fs r h).1 ("name", a.name.map .str) (by simp [fvmArguments])
  rw [h4] at hname ⊢
  refine ⟨uses_of ?_, uses_of ?_, uses_of ?_, ?_⟩
  · simp (decide := true) only [lastSettings, get_setOpt, if_true, if_false]
    rw [hq _ (by decide) (by decide)]
    simp (decide := true) only [simpleSettings, get_setOpt, if_true, if_false]
    rfl
  · simp (decide := true) only [uqSettings, get_setOpt, if_true, if_false]
    rfl
  · simp (decide := true) only [lastSettings, get_setOpt, if_true, if_false]
    rw [hq _ (by decide) (by decide)]
    simp (decide := true) only [simpleSettings, get_setOpt, if_true, if_false]
    rfl
  · unfold Dict.getText
    unfold nameOf at h1
    cases ha : a.name with
    | some n =>
      rw [ha] at h1 hname
      obtain rfl := Except.ok.inj h1
      have hname : Dict.get _ _ = .ok (.str r.1) := hname
      rw [hname]; rfl
    | none =>
      rw [ha] at h1 hname
      have hname : Dict.get _ _ = Dict.get _ _ := hname
      rw [hname]
      exact h1

example : ∃ r, settings { exArgs with numberOfSaves := some (text "3"), statistics := some [text "meanvar"] } exObj [] = .ok r ∧ r.1 = "kh".toList := ⟨_, rfl, rfl⟩

/-- The part of the grid called `key`, where there is a grid. -/
def gridPart (d : Dict) (key : Text) : Res Val := do
  let g ← d.getDict gridTag
  g.get key

theorem gridPart_congr {d e : Dict} (h : e.get gridTag = d.get gridTag) (k : Text) : gridPart e k = gridPart d k := by
  unfold gridPart Dict.getDict; rw [h]

theorem gridPart_set (d g : Dict) (k : Text) : gridPart (d.set gridTag (.dict g)) k = g.get k := by
  unfold gridPart Dict.getDict; rw [get_set, if_pos rfl]; rfl

theorem gridPart_setGridKey {d e : Dict} {t : Text} {v : Val} (h : setGridKey d t v = .ok e) (k : Text) : gridPart e k = if k = t then .ok v else gridPart d k := by
  unfold setGridKey at h
  cases hg : d.getDict gridTag with
  | error x => rw [hg] at h; cases h
  | ok g =>
    rw [hg] at h
    obtain rfl := Except.ok.inj h
    rw [gridPart_set, get_set]
    unfold gridPart
    rw [hg]; rfl

/-- The grid after the settings is that of the choice between its parts. -/
theorem grid_of_settings {a : Args} {o : Obj} {fs : Files} {r : Text × Obj × Files × Option Text} (h : settings a o fs = .ok r) :
    ∃ d₀ d, (∀ k, gridPart d₀ k = gridPart o.fvm k) ∧ setGrid d₀ a.lowerCorner a.upperCorner a.dimension = .ok d ∧ ∀ k, gridPart r.2.1.fvm k = gridPart d k := by
  obtain ⟨d, q, h1, h2, h3, h4, -⟩ := settings_parts h
  refine ⟨_, d, gridPart_congr ?_, h2, gridPart_congr ?_⟩
  · simp (decide := true) only [simpleSettings, get_setOpt, if_false]
  · rw [h4]
    simp (decide := true) only [lastSettings, get_setOpt, if_false]
    exact get_initialSettings h3 _ (by decide)

/-- The grid, if all three of its arguments are given or at most one of them: the given ones are used, the others stay as they were. Missing: exactly two of them (`C96_corner_lost`, `C96_corners_lost`). -/
theorem C96_grid_partial (a : Args) (o : Obj) (fs : Files) (r : Text × Obj × Files × Option Text) (h : settings a o fs = .ok r)
    (ha : (a.lowerCorner.isSome ∧ a.upperCorner.isSome ∧ a.dimension.isSome) ∨ (a.lowerCorner.isNone ∧ a.upperCorner.isNone) ∨ (a.lowerCorner.isNone ∧ a.dimension.isNone) ∨
      (a.upperCorner.isNone ∧ a.dimension.isNone)) :
    ∀ p ∈ [("lowerCorner", a.lowerCorner), ("upperCorner", a.upperCorner), ("dimension", a.dimension)],
      gridPart r.2.1.fvm p.1.toList = match p.2 with
        | some v => .ok v
        | none => gridPart o.fvm p.1.toList := by
  obtain ⟨d₀, d, h0, h1, h2⟩ := grid_of_settings h
  intro p hp
  rw [h2]
  simp only [List.mem_cons, List.not_mem_nil, or_false] at hp
  cases hl : a.lowerCorner <;> cases hu : a.upperCorner <;> cases hn : a.dimension <;> rw [hl, hu, hn] at ha hp h1 <;> simp at ha <;> unfold setGrid at h1 <;> simp only at h1
  · obtain rfl := Except.ok.inj h1
    rcases hp with rfl | rfl | rfl <;> exact h0 _
  · rcases hp with rfl | rfl | rfl <;> rw [gridPart_setGridKey h1] <;> simp (decide := true) only [if_true, if_false, h0]
  · rcases hp with rfl | rfl | rfl <;> rw [gridPart_setGridKey h1] <;> simp (decide := true) only [if_true, if_false, h0]
  · rcases hp with rfl | rfl | rfl <;> rw [gridPart_setGridKey h1] <;> simp (decide := true) only [if_true, if_false, h0]
  · obtain rfl := Except.ok.inj h1
    rcases hp with rfl | rfl | rfl <;> rw [gridPart_set] <;> simp (decide := true) only [Dict.get, if_true, if_false]

example : exArgs.upperCorner.isNone ∧ exArgs.dimension.isNone ∧ ∃ r, settings exArgs exObj [] = .ok r := ⟨rfl, rfl, _, rfl⟩

/-- Where both corners are given without the number of cells, the upper corner is ignored. -/
theorem C96_corner_lost (a : Args) (o : Obj) (fs : Files) (r : Text × Obj × Files × Option Text) (h : settings a o fs = .ok r) (l u : Val) (hl : a.lowerCorner = some l)
    (_hu : a.upperCorner = some u) (hn : a.dimension = none) :
    gridPart r.2.1.fvm "lowerCorner".toList = .ok l ∧ gridPart r.2.1.fvm "upperCorner".toList = gridPart o.fvm "upperCorner".toList := by
  obtain ⟨d₀, d, h0, h1, h2⟩ := grid_of_settings h
  rw [hl, hn] at h1
  unfold setGrid at h1
  simp only at h1
  rw [h2, h2, gridPart_setGridKey h1, gridPart_setGridKey h1, h0]
  simp (decide := true) only [if_true, if_false, true_and]
  exact h0 _

/-- Where the number of cells is given with one corner only, the corner is ignored. -/
theorem C96_corners_lost (a : Args) (o : Obj) (fs : Files) (r : Text × Obj × Files × Option Text) (h : settings a o fs = .ok r) (n : Val) (hn : a.dimension = some n)
    (hc : a.lowerCorner = none ∨ a.upperCorner = none) :
    gridPart r.2.1.fvm "lowerCorner".toList = gridPart o.fvm "lowerCorner".toList ∧ gridPart r.2.1.fvm "upperCorner".toList = gridPart o.fvm "upperCorner".toList := by
  obtain ⟨d₀, d, h0, h1, h2⟩ := grid_of_settings h
  have h1 : setGridKey d₀ dimensionTag n = .ok d := by
    rw [hn] at h1
    rcases hc with hc | hc <;> rw [hc] at h1
    · cases hu : a.upperCorner <;> rw [hu] at h1 <;> exact h1
    · exact h1
  rw [h2, h2, gridPart_setGridKey h1, gridPart_setGridKey h1, h0, h0]
  simp (decide := true) only [if_false, and_self]

example : ∃ r, settings { exArgs with upperCorner := some (.list [text "2", text "2", text "0"]) } exObj [] = .ok r ∧
    gridPart r.2.1.fvm "upperCorner".toList = .ok (.list [text "1", text "1", text "0"]) := ⟨_, rfl, rfl⟩

/-! ### Initial data -/

/-- With a script or a file for the initial data and without parameters the settings name a copy with the name of the run, which exists afterwards. -/
theorem C96_initial_data_partial (a : Args) (o : Obj) (fs : Files) (r : Text × Obj × Files × Option Text) (h : settings a o fs = .ok r)
    (hd : a.initialDataScript.isSome ∨ a.initialDataFile.isSome) (hp : a.initialParameters = none ∨ a.initialParameters = some []) :
    (∃ init, r.2.1.fvm.getDict "initialData".toList = .ok init ∧ init.getText "python".toList = .ok (r.1 ++ ".py".toList)) ∧ r.1 ++ ".py".toList ∈ r.2.2.1 := by
  obtain ⟨d, q, h1, h2, h3, h4, h5⟩ := settings_parts h
  have key : ∀ e e' : Dict, setInitialData e (pyName r.1) a.initialParameters = .ok e' → ∃ init, (lastSettings a e').getDict "initialData".toList = .ok init ∧ init.getText "python".toList = .ok (r.1 ++ ".py".toList) := by
    intro e e' he
    rcases hp with hp | hp <;> rw [hp] at he <;> obtain rfl := Except.ok.inj he
    · refine ⟨[(pythonTag, .str (pyName r.1))], ?_, rfl⟩
      unfold Dict.getDict
      simp (decide := true) only [lastSettings, get_setOpt, get_set, if_true, if_false]
      rfl
    · refine ⟨[(pythonTag, .str (pyName r.1)), (parametersTag, .list [])], ?_, rfl⟩
      unfold Dict.getDict
      simp (decide := true) only [lastSettings, get_setOpt, get_set, if_true, if_false]
      rfl
  have hfiles : r.2.2.1 = q.2.1 := by rw [h5]
  rw [h4, hfiles]
  unfold initialSettings at h3
  cases hs : a.initialDataScript with
  | some s =>
    rw [hs] at h3
    simp only at h3
    cases hi : setInitialData d (pyName r.1) a.initialParameters with
    | error x => rw [hi] at h3; cases h3
    | ok e =>
      rw [hi] at h3
      obtain rfl := Except.ok.inj h3
      refine ⟨key _ _ hi, ?_⟩
      change pyName r.1 ∈ if pyName r.1 ∈ fs then fs else fs ++ [pyName r.1]
      split_ifs with hm
      · exact hm
      · simp
  | none =>
    rw [hs] at h3 hd
    cases hf : a.initialDataFile with
    | none => rw [hf] at hd; simp at hd
    | some f =>
      rw [hf] at h3
      simp only at h3
      unfold copyFile at h3
      by_cases hm : f ∈ fs
      · rw [if_pos hm, Res.ok_bind] at h3
        cases hi : setInitialData d (pyName r.1) a.initialParameters with
        | error x => rw [hi] at h3; cases h3
        | ok e =>
          rw [hi] at h3
          obtain rfl := Except.ok.inj h3
          refine ⟨key _ _ hi, ?_⟩
          change pyName r.1 ∈ if pyName r.1 ∈ fs then fs else fs ++ [pyName r.1]
          split_ifs with hm
          · exact hm
          · simp
      · rw [if_neg hm] at h3; cases h3

example : ∃ r, settings { exArgs with initialDataFile := some "a.py".toList } exObj ["a.py".toList] = .ok r ∧ r.2.2.1 = ["a.py".toList, "kh.py".toList] := ⟨_, rfl, by decide⟩

/-- Parameters of the initial data cannot be given: whenever there is at least one, with a script or a file, the settings fail. -/
theorem C96_initial_parameters_fail (a : Args) (o : Obj) (fs : Files) (hd : a.initialDataScript.isSome ∨ a.initialDataFile.isSome) (p : Text × List Val) (ps : List (Text × List Val))
    (hp : a.initialParameters = some (p :: ps)) : ∀ r, settings a o fs ≠ .ok r := by
  intro r h
  obtain ⟨d, q, h1, h2, h3, -, -⟩ := settings_parts h
  have key : setInitialData d (pyName r.1) a.initialParameters = .error .thrown := by rw [hp]; rfl
  unfold initialSettings at h3
  rw [key] at h3
  cases hs : a.initialDataScript with
  | some s => rw [hs] at h3; cases h3
  | none =>
    rw [hs] at h3 hd
    cases hf : a.initialDataFile with
    | none => rw [hf] at hd; simp at hd
    | some f =>
      rw [hf] at h3
      simp only at h3
      cases hc : copyFile fs f (pyName r.1) <;> rw [hc] at h3 <;> cases h3

example : ({ initialDataFile := some "a.py".toList, initialParameters := some [("a".toList, [text "1"])] } : Args).initialDataFile.isSome := rfl

/-- Without a base file and without a file for the initial data, the temporary file that is made is left behind, and the copy the run used is removed: for all other arguments, names and files. -/
theorem C96_temporary_file_left (a : Args) (ha : a.initialDataFile = none) (hs : a.initialDataScript = none) (temporary : Text) (outputs : Text → Files) (fs : Files) (o : Obj) (fs' : Files)
    (ht : temporary ≠ a.name.getD "alsvinn_experiment".toList ++ ".py".toList) (h : runWith a none temporary outputs fs = .ok (o, fs')) :
    temporary ∈ fs' ∧ o.fvm.getText "name".toList = .ok (a.name.getD "alsvinn_experiment".toList) ∧ a.name.getD "alsvinn_experiment".toList ++ ".py".toList ∉ fs' := by
  unfold runWith at h
  simp only [Option.isNone_none, ha, Bool.and_true, if_true, Option.getD_none] at h
  cases hr : settings (a.defaults temporary) ⟨[], [], []⟩ (fs ++ [temporary]) with
  | error x => rw [hr] at h; cases h
  | ok r =>
    rw [hr, Res.ok_bind] at h
    cases hw : writtenFile r.2.1 with
    | error x => rw [hw] at h; cases h
    | ok w =>
      rw [hw, Res.ok_bind] at h
      obtain ⟨d, q, h1, h2, h3, h4, h5⟩ := settings_parts hr
      have hname := (C96_combined_arguments _ _ _ _ hr).2.2.2
      unfold initialSettings at h3
      simp only [Args.defaults, hs, ha, Option.none_or] at h3
      unfold copyFile at h3
      rw [if_pos (by simp), Res.ok_bind] at h3
      have hq : q.2.2 = some (pyName r.1) ∧ temporary ∈ q.2.1 := by
        cases hi : setInitialData d (pyName r.1) (a.initialParameters.or (some [])) with
        | error x => rw [hi] at h3; cases h3
        | ok e =>
          rw [hi] at h3
          obtain rfl := Except.ok.inj h3
          refine ⟨rfl, ?_⟩
          change temporary ∈ if pyName r.1 ∈ fs ++ [temporary] then fs ++ [temporary] else fs ++ [temporary] ++ [pyName r.1]
          split_ifs <;> simp
      rw [show r.2.2 = (q.2.1, q.2.2) from h5, hq.1] at h
      obtain ⟨rfl, rfl⟩ := Prod.mk.inj (Except.ok.inj h)
      have hr1 : a.name.getD "alsvinn_experiment".toList = r.1 := by
        unfold nameOf at h1
        simp only [Args.defaults] at h1
        cases hn : a.name <;> rw [hn] at h1 <;> exact Except.ok.inj h1
      rw [hr1] at ht ⊢
      refine ⟨?_, hname, ?_⟩
      · simp only [List.mem_filter, List.mem_append]
        exact ⟨.inl hq.2, decide_eq_true (by simpa [pyName] using ht)⟩
      · simp [pyName]

/-- The default run succeeds. -/
example : ∃ o, runWith {} none "/tmp/x.py".toList (fun n => [n ++ ".xml".toList]) [] = .ok (o, ["/tmp/x.py".toList, "alsvinn_experiment.xml".toList]) := ⟨_, rfl⟩

/-- The settings without a base file that stand for one argument each, with the value given and the documented default: the shock tube of Sod. -/
def defaultArguments (a : Args) : List (String × Option Val × Val) :=
  [("name", a.name.map .str, text "alsvinn_experiment"), ("equation", a.equation, text "euler1"), ("flux", a.flux, text "hll3"), ("endTime", a.endTime, text "1.3"),
    ("boundary", a.boundary, text "neumann"), ("reconstruction", a.reconstruction, text "weno2"), ("cfl", a.cfl, text "auto"), ("platform", a.platform, text "cpu"),
    ("integrator", a.integrator, text "auto"), ("equationParameters", a.equationParameters, .dict [("gamma".toList, text "1.4")])]

/-- Without a base file every argument that is given is used, and every other setting has its default: for every set of arguments for which the run is started. The corners and the number of cells can
be given one by one. -/
theorem C96_defaults (a : Args) (temporary : Text) (outputs : Text → Files) (fs : Files) (o : Obj) (fs' : Files) (h : runWith a none temporary outputs fs = .ok (o, fs')) :
    (∀ p ∈ defaultArguments a, o.fvm.get p.1.toList = .ok (p.2.1.getD p.2.2)) ∧
    (∀ p ∈ [("lowerCorner", a.lowerCorner, ["-5", "0", "0"]), ("upperCorner", a.upperCorner, ["5", "0", "0"]), ("dimension", a.dimension, ["128", "1", "1"])],
      gridPart o.fvm p.1.toList = .ok (p.2.1.getD (.list (p.2.2.map text)))) ∧
    o.uq.get "samples".toList = .ok (a.samples.getD (text "1")) ∧ o.uq.get "generator".toList = .ok (a.generator.getD (text "auto")) ∧
    o.fvm.get "writer".toList = .ok (.dict [("type".toList, text "netcdf"), ("basename".toList, .str (a.name.getD "alsvinn_experiment".toList)),
      ("numberOfSaves".toList, a.numberOfSaves.getD (text "1")), ("writeInitialTimestep".toList, a.writeInitialTimestep)]) ∧
    o.uq.get "stats".toList = .ok (.list ((a.statistics.getD [text "meanvar"]).map fun stat => .dict [("name".toList, stat), ("numberOfSaves".toList, a.numberOfSaves.getD (text "1")),
      ("writeInitialTimestep".toList, a.writeInitialTimestep), ("writer".toList, .dict [("type".toList, text "netcdf"), ("basename".toList, .str (a.name.getD "alsvinn_experiment".toList))])])) ∧
    o.fvm.get "diffusion".toList = .ok (.dict [("name".toList, a.diffusionOperator.getD (text "none")), ("reconstruction".toList, a.diffusionReconstruction.getD (text "none"))]) := by
  have or_some : ∀ {α : Type} (x : Option α) (y : α), x.or (some y) = some (x.getD y) := fun x y => by cases x <;> rfl
  unfold runWith at h
  simp only [Option.getD_none] at h
  generalize (if (Option.isNone none && a.initialDataFile.isNone) = true then fs ++ [temporary] else fs) = gs at h
  cases hr : settings (a.defaults temporary) ⟨[], [], []⟩ gs with
  | error x => rw [hr] at h; cases h
  | ok r =>
    rw [hr, Res.ok_bind] at h
    cases hw : writtenFile r.2.1 with
    | error x => rw [hw] at h; cases h
    | ok w =>
      rw [hw, Res.ok_bind] at h
      obtain rfl : r.2.1 = o := (Prod.mk.inj (Except.ok.inj h)).1
      have hname : r.1 = a.name.getD "alsvinn_experiment".toList := by
        obtain ⟨d, q, h1, -⟩ := settings_parts hr
        unfold nameOf at h1
        simp only [Args.defaults, or_some] at h1
        exact (Except.ok.inj h1).symm
      obtain ⟨h1, h2, -⟩ := C96_arguments _ _ _ _ hr
      obtain ⟨g1, g2, g3, -⟩ := C96_combined_arguments _ _ _ _ hr
      have h3 := C96_grid_partial _ _ _ _ hr (.inl ⟨by simp [Args.defaults, or_some], by simp [Args.defaults, or_some], by simp [Args.defaults, or_some]⟩)
      simp only [fvmArguments, uqArguments, Args.defaults, or_some, List.forall_mem_cons, Option.map_some, Uses] at h1 h2 h3 g1 g2 g3
      rw [hname] at g1 g2
      simp only [defaultArguments, List.forall_mem_cons, List.map_cons, List.map_nil]
      obtain ⟨e1, e2, e3, e4, e5, e6, e7, e8, e9, e10, -⟩ := h1
      refine ⟨⟨?_, e2, e3, e4, e5, e6, e7, e8, e9, e10, by simp⟩, ⟨h3.1, h3.2.1, h3.2.2.1, by simp⟩, h2.1, h2.2.1, g1, g2, g3⟩
      rw [e1]
      cases a.name <;> rfl

/-- A run with another flux. -/
example : ∃ r, runWith { flux := some (text "hll") } none "/tmp/x.py".toList (fun n => [n ++ ".xml".toList]) [] = .ok r ∧ r.1.fvm.get "flux".toList = .ok (text "hll") ∧
    r.1.fvm.get "endTime".toList = .ok (text "1.3") := ⟨_, rfl, rfl, rfl⟩

end Verif.Props.PyRun
