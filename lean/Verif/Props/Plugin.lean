import Verif.PluginLemmas

/-! C100: plug-in libraries are called as documented. -/

namespace Verif
namespace Props.Plugin
open Params Verif.Plugin

variable {K : Type}

/-! ### The example library and its configuration -/

/-- The library of library_examples/dlls/writer, which numbers its objects by the calls it has received. -/
def exampleLibrary : Library Int where
  exports file name := if file = "libdll_writer_example.so".toList then
      ([("create", Sig.createWriter), ("delete_data", .free), ("write_data", .write), ("make_parameters", .make), ("delete_parameters", .free), ("needs_data_on_host", .host),
        ("set_parameter", .set), ("set_mpi_comm", .mpi), ("new_timestep", .step), ("end_timestep", .step)].find? fun p => p.1.toList == name).map (·.2)
    else none
  pointer h := some h.length
  onHost _ := true
  sample _ := 0

/-- The writer of library_examples/dlls/writer/examples/1d/sodshocktube/sodshocktube.xml. -/
def exampleNode : Tree := .node [] ([("type", "dll"), ("library", "libdll_writer_example.so"), ("create_function", "create"), ("delete_function", "delete_data"),
  ("write_function", "write_data"), ("make_parameters_function", "make_parameters"), ("delete_parameters_function", "delete_parameters"),
  ("needs_data_on_host_function", "needs_data_on_host"), ("set_parameter_function", "set_parameter"), ("set_mpi_comm_function", "set_mpi_comm"),
  ("new_timestep_function", "new_timestep"), ("end_timestep_function", "end_timestep"), ("basename", "sodshocktube"), ("numberOfSaves", "10")].map fun e =>
  (e.1.toList, .node e.2.toList []))

/-- The functions of the example. -/
def exampleFunctions : WriterFunctions where
  file := "libdll_writer_example.so".toList
  parameters := some ⟨"make_parameters".toList, "set_parameter".toList, "delete_parameters".toList⟩
  create := "create".toList
  delete := some "delete_data".toList
  newTimestep := some "new_timestep".toList
  endTimestep := some "end_timestep".toList
  setComm := some "set_mpi_comm".toList
  needsHost := some "needs_data_on_host".toList
  write := "write_data".toList

theorem example_plain : Plain exampleNode := ⟨by decide +kernel, by decide +kernel⟩

theorem example_says : WriterSays exampleLibrary exampleNode exampleFunctions where
  library := reads_of (by decide) (by decide) (by decide +kernel)
  parameters := .functions (.function (reads_of (by decide) (by decide) (by decide +kernel)) (by unfold IsNone; decide +kernel) (by decide +kernel))
    (reads_of (by decide) (by decide) (by decide +kernel)) (by decide +kernel) (reads_of (by decide) (by decide) (by decide +kernel)) (by decide +kernel)
  create := ⟨reads_of (by decide) (by decide) (by decide +kernel), by decide +kernel⟩
  delete := .function (reads_of (by decide) (by decide) (by decide +kernel)) (by unfold IsNone; decide +kernel) (by decide +kernel)
  newTimestep := .function (reads_of (by decide) (by decide) (by decide +kernel)) (by unfold IsNone; decide +kernel) (by decide +kernel)
  endTimestep := .function (reads_of (by decide) (by decide) (by decide +kernel)) (by unfold IsNone; decide +kernel) (by decide +kernel)
  setComm := .function (reads_of (by decide) (by decide) (by decide +kernel)) (by unfold IsNone; decide +kernel) (by decide +kernel)
  needsHost := .function (reads_of (by decide) (by decide) (by decide +kernel)) (by unfold IsNone; decide +kernel) (by decide +kernel)
  write := ⟨reads_of (by decide) (by decide) (by decide +kernel), by decide +kernel⟩

/-- Four cells with one layer of ghost cells and two variables. -/
def exampleFrame : Frame Int where
  volume := Volume.mk' 4 1 1 1 [fun i => i, fun i => 2 * i]
  names := ["rho".toList, "mx".toList]
  hostMemory := false
  origin := (0, 0, 0)
  top := (1, 0, 0)
  time := 3
  number := 7
  device := 0

/-- C100, writers, except for the last but one call: a plug-in writer makes exactly the documented calls, in the documented order, with the pointers the library answered, but it
never calls the function that deletes the data (`C100_writer_never_deletes`). Functions given as "none" are not called; the function that creates the data has to be there
(`C100_writer_needs_create`), and the writer must have been given a communicator if there is a function for it (`C100_writer_without_communicator`). -/
theorem C100_writer_partial (lib : Library K) (t : Tree) (n : WriterFunctions) (hn : WriterSays lib t n) (ht : Plain t) (mpi : Bool) (hm : n.setComm ≠ none → mpi = true)
    (frames : List (Frame K)) (hf : ∀ f ∈ frames, f.names.length = f.volume.areas.length) (h : List (Call K)) :
    ∃ (P D : Ptr) (needs : Bool), IsParameters lib h n.parameters P ∧ D = lib.pointer (h ++ parameterCalls n.parameters [] t P) ∧
      (needs = true ↔ n.needsHost ≠ none ∧ lib.onHost (h ++ openingCalls n t P D) = true) ∧
      Writer.life lib mpi t frames h = (.ok (), h ++ writerCalls n t P D needs frames none) := by
  obtain ⟨P, hP, hpar⟩ := parameters_made hn.parameters ht h
  obtain ⟨D, hD⟩ : ∃ D, D = lib.pointer (h ++ parameterCalls n.parameters [] t P) := ⟨_, rfl⟩
  obtain ⟨makeName, hmake⟩ := parameters_name hn.parameters
  obtain ⟨commName, hcomm⟩ := hn.setComm.reads
  refine ⟨P, D, n.needsHost.isSome && lib.onHost (h ++ openingCalls n t P D), hP, hD, by cases n.needsHost <;> simp, ?_⟩
  simp only [Writer.life, Writer.make, bind_apply, param_apply hn.library, param_apply hn.create.1, param_apply hmake, param_apply hcomm, hpar makeName hmake,
    load_apply hn.create.2, ask, ← hD, optional_gives hn.newTimestep, optional_gives hn.endTimestep, setComm_gives hn.setComm hm, askHost_gives hn.needsHost,
    param_apply hn.write.1, load_apply hn.write.2, pure_apply]
  simp only [writeMany_apply _ _ hf, Writer.finalize, bind_apply, maybe_apply, optionally_map]
  simp only [writerCalls, optionally_none, List.append_nil]
  have hframes : ∀ w : Writer, w.newTimestep = n.newTimestep → w.endTimestep = n.endTimestep → w.write = n.write → w.dllData = D → w.parametersStruct = P →
      w.needsDataOnHost = (n.needsHost.isSome && lib.onHost (h ++ openingCalls n t P D)) →
      frameCalls w = outputCalls (K := K) n P D (n.needsHost.isSome && lib.onHost (h ++ openingCalls n t P D)) := by
    intro w e1 e2 e3 e4 e5 e6
    funext f
    simp only [frameCalls, outputCalls, e1, e2, e3, e4, e5, e6, optionally_map, Bool.or_eq_true]
  rw [hframes _ rfl rfl rfl rfl rfl (by simp [openingCalls])]
  simp [openingCalls]

example : WriterSays exampleLibrary exampleNode exampleFunctions ∧ Plain exampleNode ∧ (exampleFunctions.setComm ≠ none → true = true) ∧
    ∀ f ∈ [exampleFrame, exampleFrame], f.names.length = f.volume.areas.length := ⟨example_says, example_plain, fun _ => rfl, by simp [exampleFrame, Volume.mk']⟩

/-- C100 fails for writers: whatever the library and the configuration, a plug-in writer that is given a function to delete its data does not make the documented calls. -/
theorem C100_writer_never_deletes (lib : Library K) (t : Tree) (n : WriterFunctions) (hn : WriterSays lib t n) (hd : n.delete ≠ none) (ht : Plain t) (mpi : Bool)
    (hm : n.setComm ≠ none → mpi = true) (frames : List (Frame K)) (hf : ∀ f ∈ frames, f.names.length = f.volume.areas.length) (h : List (Call K)) (P D : Ptr) (needs : Bool) :
    (Writer.life lib mpi t frames h).2 ≠ h ++ writerCalls n t P D needs frames n.delete := by
  obtain ⟨P', D', needs', _, _, _, h4⟩ := C100_writer_partial lib t n hn ht mpi hm frames hf h
  rw [h4]
  intro e
  obtain ⟨d, hd⟩ := Option.ne_none_iff_exists'.1 hd
  have e1 := congrArg List.length (List.append_cancel_left e)
  have e2 := writerCalls_length n t P' D' needs' frames none
  have e3 := writerCalls_length n t P D needs frames n.delete
  rw [hd] at e1 e3
  simp only [Option.toList_none, Option.toList_some, List.length_nil, List.length_cons] at e2 e3
  omega

example : exampleFunctions.delete ≠ none := Option.some_ne_none _

/-- C100 fails for writers without a function that creates data: the documentation allows "none", but the writer then looks for a function of this name and throws. -/
theorem C100_writer_needs_create (lib : Library K) (t : Tree) (file comm : Str) (h1 : Reads t "library" file) (h2 : Gives lib file t "create_function" .createWriter none)
    (hx : ∀ v, IsNone v → lib.exports file v = none) (h3 : Gives lib file t "make_parameters_function" .make none) (h4 : Reads t "set_mpi_comm_function" comm) (mpi : Bool)
    (frames : List (Frame K)) (h : List (Call K)) : (Writer.life lib mpi t frames h).1 = .error .thrown := by
  cases h2 with
  | none q1 q2 =>
    cases h3 with
    | none r1 r2 =>
      simp [Writer.life, Writer.make, bind_apply, param_apply h1, param_apply q1, param_apply h4, param_apply r1, writerParameters, (given_false _).2 r2, pure_apply, load, lift,
        hx _ q2]

example : ∃ t : Tree, Reads t "library" "libdll_writer_example.so".toList ∧ Gives exampleLibrary "libdll_writer_example.so".toList t "create_function" .createWriter none ∧
    (∀ v, IsNone v → exampleLibrary.exports "libdll_writer_example.so".toList v = none) ∧
    Gives exampleLibrary "libdll_writer_example.so".toList t "make_parameters_function" .make none ∧ Reads t "set_mpi_comm_function" "None".toList := by
  refine ⟨.node [] ([("library", "libdll_writer_example.so"), ("create_function", "NONE"), ("make_parameters_function", "none"), ("set_mpi_comm_function", "None")].map fun e =>
    (e.1.toList, .node e.2.toList [])), reads_of (by decide) (by decide) (by decide +kernel), .none (v := "NONE".toList) (reads_of (by decide) (by decide) (by decide +kernel)) (by unfold IsNone; decide +kernel), ?_,
    .none (v := "none".toList) (reads_of (by decide) (by decide) (by decide +kernel)) (by unfold IsNone; decide +kernel), reads_of (by decide) (by decide) (by decide +kernel)⟩
  intro v hv
  cases he : exampleLibrary.exports "libdll_writer_example.so".toList v with
  | none => rfl
  | some s =>
    exfalso
    simp only [exampleLibrary, if_true, Option.map_eq_some_iff] at he
    obtain ⟨p, hp, -⟩ := he
    have h1 := List.mem_of_find?_eq_some hp
    have h2 := List.find?_some hp
    have h3 : p.1.toList = v := by simpa using h2
    subst h3
    revert hv
    unfold IsNone
    simp only [List.mem_cons, List.not_mem_nil, or_false] at h1
    rcases h1 with rfl | rfl | rfl | rfl | rfl | rfl | rfl | rfl | rfl | rfl <;> decide +kernel

/-! ### A distribution -/

/-- A library with a generator of samples. -/
def samplesLibrary (generates : Bool) : Library Int where
  exports file name := if file = "libsamples.so".toList then
      ([("create", Sig.createDistribution), ("delete_data", .free), ("make_parameters", .make), ("delete_parameters", .free), ("set_parameter", .set)].find? fun p =>
        p.1.toList == name).map (·.2) <|> (if generates = true ∧ name = "generate".toList then some .generate else none)
    else none
  pointer h := some h.length
  onHost _ := true
  sample h := h.length

/-- The node of a distribution of this library. -/
def samplesNode : Tree := .node [] ([("type", "dll"), ("library", "libsamples.so"), ("create_function", "create"), ("delete_function", "delete_data"),
  ("make_parameters_function", "make_parameters"), ("delete_parameters_function", "delete_parameters"), ("set_parameter_function", "set_parameter"),
  ("generator_function", "generate"), ("scramble", "true")].map fun e => (e.1.toList, .node e.2.toList []))

/-- Its functions. -/
def samplesFunctions : DistributionFunctions where
  file := "libsamples.so".toList
  parameters := some ⟨"make_parameters".toList, "set_parameter".toList, "delete_parameters".toList⟩
  create := some "create".toList
  delete := some "delete_data".toList
  generate := "generate".toList

theorem samples_plain : Plain samplesNode := ⟨by decide +kernel, by decide +kernel⟩

theorem samples_parameters (g : Bool) : GivesParameters (samplesLibrary g) samplesFunctions.file samplesNode samplesFunctions.parameters := by
  cases g <;> exact .functions (.function (reads_of (by decide) (by decide) (by decide +kernel)) (by unfold IsNone; decide +kernel) (by decide +kernel))
    (reads_of (by decide) (by decide) (by decide +kernel)) (by decide +kernel) (reads_of (by decide) (by decide) (by decide +kernel)) (by decide +kernel)

theorem samples_create (g : Bool) : Gives (samplesLibrary g) samplesFunctions.file samplesNode "create_function" .createDistribution samplesFunctions.create := by
  cases g <;> exact .function (reads_of (by decide) (by decide) (by decide +kernel)) (by unfold IsNone; decide +kernel) (by decide +kernel)

theorem samples_delete (g : Bool) : Gives (samplesLibrary g) samplesFunctions.file samplesNode "delete_function" .free samplesFunctions.delete := by
  cases g <;> exact .function (reads_of (by decide) (by decide) (by decide +kernel)) (by unfold IsNone; decide +kernel) (by decide +kernel)

theorem samples_says : DistributionSays (samplesLibrary true) samplesNode samplesFunctions where
  library := reads_of (by decide) (by decide) (by decide +kernel)
  parameters := samples_parameters true
  create := samples_create true
  delete := .inr ⟨Option.some_ne_none _, samples_delete true⟩
  generate := ⟨reads_of (by decide) (by decide) (by decide +kernel), by decide +kernel⟩

/-- C100, distributions: a plug-in distribution makes exactly the documented calls, in the documented order (rank and number of processes come before the entries of the node), and
returns the answers of the library. The data is deleted before the parameters; parameters that are null are not deleted. -/
theorem C100_distribution (lib : Library K) (t : Tree) (n : DistributionFunctions) (hn : DistributionSays lib t n) (ht : Plain t) (size dimension : Nat) (node ranks : Str)
    (samples : List (Nat × Nat)) (h : List (Call K)) :
    ∃ (P D : Ptr) (xs : List K), IsParameters lib h n.parameters P ∧ IsData lib (h ++ parameterCalls n.parameters (rankEntries node ranks) t P) n.create D ∧
      AreAnswers lib (h ++ distributionOpening n t size dimension node ranks P D) n.generate size dimension P D samples xs ∧
      Distribution.life lib size dimension node ranks t samples h = (.ok xs, h ++ distributionOpening n t size dimension node ranks P D ++
        sampleCalls n.generate size dimension P D samples ++ optionally n.delete (.free D) ++ deletion (n.parameters.map (·.delete)) P) := by
  obtain ⟨P, hP, hpar⟩ := distribution_parameters hn.parameters ht node ranks h
  obtain ⟨makeName, hmake⟩ := parameters_name hn.parameters
  obtain ⟨createName, hcreate⟩ := hn.create.reads
  obtain ⟨D, hD, hdat⟩ := distribution_data hn.create hn.delete size dimension P (h ++ parameterCalls n.parameters (rankEntries node ranks) t P)
  obtain ⟨xs, h1, h2, h3⟩ := generateMany_apply ⟨D, n.generate, n.delete, size, dimension, P, n.parameters.map (·.delete)⟩ lib samples
    (h ++ distributionOpening n t size dimension node ranks P D)
  refine ⟨P, D, xs, hP, hD, ⟨h2, h3⟩, ?_⟩
  simp only [Distribution.life, Distribution.make, bind_apply, param_apply hn.library, param_apply hcreate, param_apply hmake, hpar makeName hmake, hdat createName hcreate,
    param_apply hn.generate.1, load_apply hn.generate.2, pure_apply]
  have e : h ++ parameterCalls n.parameters (rankEntries node ranks) t P ++ optionally n.create (.createDistribution size dimension P D) =
      h ++ distributionOpening n t size dimension node ranks P D := by simp [distributionOpening]
  rw [e, h1]
  simp only [Distribution.destroy, bind_apply, maybe_apply, optionally_map]
  cases P with
  | none => simp [pure_apply, deletion, sampleCalls]
  | some p => simp only [Option.isSome_some, if_true, maybe_apply, optionally_map, deletion, sampleCalls, List.append_assoc]

example : DistributionSays (samplesLibrary true) samplesNode samplesFunctions ∧ Plain samplesNode := ⟨samples_says, samples_plain⟩

/-- C100, quasi Monte Carlo distributions, except for the order of the deletions: the parameters are deleted before the data that was made from them
(`C100_qmc_deletes_parameters_first`). -/
theorem C100_qmc_partial (lib : Library K) (n : QMCNames) (t : Tree) (ht : Plain t) (size dimension : Nat) (node ranks : Str) (samples : List (Nat × Nat)) (h : List (Call K)) :
    ∃ (P D : Ptr) (xs : List K), P = lib.pointer h ∧
      (let opening := parameterCalls (some ⟨n.make, n.set, n.deleteParameters⟩) (rankEntries node ranks) t P
       D = lib.pointer (h ++ opening) ∧
       AreAnswers lib (h ++ opening ++ [⟨n.create, .createDistribution size dimension P D⟩]) n.generate size dimension P D samples xs ∧
       qmcLife lib n size dimension node ranks t samples h = (.ok xs, h ++ opening ++ [⟨n.create, .createDistribution size dimension P D⟩] ++
        sampleCalls n.generate size dimension P D samples ++ deletion (some n.deleteParameters) P ++ deletion (some n.delete) D)) := by
  have hc : ∀ c ∈ t.children, getString c.1 t = .ok c.2.data := fun c hc => getString_child ht.1 hc (ht.2 c hc).1 (ht.2 c hc).2
  obtain ⟨P, hP⟩ : ∃ P, P = lib.pointer h := ⟨_, rfl⟩
  obtain ⟨D, hD⟩ : ∃ D, D = lib.pointer (h ++ parameterCalls (some ⟨n.make, n.set, n.deleteParameters⟩) (rankEntries node ranks) t P) := ⟨_, rfl⟩
  obtain ⟨xs, h1, h2, h3⟩ := qmcMany_apply lib n size dimension D P samples
    (h ++ parameterCalls (some ⟨n.make, n.set, n.deleteParameters⟩) (rankEntries node ranks) t P ++ [⟨n.create, .createDistribution size dimension P D⟩])
  refine ⟨P, D, xs, hP, hD, ⟨h2, h3⟩, ?_⟩
  have e : h ++ [⟨n.make, .make P⟩] ++ [⟨n.set, .set P "mpi_node".toList node⟩] ++ [⟨n.set, .set P "mpi_size".toList ranks⟩] ++
      (t.children.map fun c => ⟨n.set, .set P c.1 c.2.data⟩) =
      h ++ parameterCalls (some ⟨n.make, n.set, n.deleteParameters⟩) (rankEntries node ranks) t P := by
    simp [parameterCalls, rankEntries, Function.comp_def]
  simp only [qmcLife, qmcMake, bind_apply, ask, ← hP, call, keys, setAll_children _ _ _ _ hc, pure_apply, e, ← hD, h1, qmcDestroy, release]
  cases P <;> cases D <;> simp [pure_apply, call, deletion, optionally, sampleCalls]

example : Plain samplesNode := samples_plain

/-- C100 fails for the quasi Monte Carlo distributions: if both objects exist, the parameters are deleted first, so that the order is never the documented one. -/
theorem C100_qmc_deletes_parameters_first (lib : Library K) (hl : ∀ h, lib.pointer h ≠ none) (n : QMCNames) (t : Tree) (ht : Plain t)
    (size dimension : Nat) (node ranks : Str) (samples : List (Nat × Nat)) (h : List (Call K)) :
    ∃ (before : List (Call K)) (P D : Ptr), P ≠ none ∧ D ≠ none ∧ ⟨n.create, .createDistribution size dimension P D⟩ ∈ before ∧
      (qmcLife lib n size dimension node ranks t samples h).2 = before ++ [⟨n.deleteParameters, .free P⟩, ⟨n.delete, .free D⟩] := by
  obtain ⟨P, D, xs, h1, h2, h3, h4⟩ := C100_qmc_partial lib n t ht size dimension node ranks samples h
  have hP : P ≠ none := h1 ▸ hl _
  have hD : D ≠ none := h2 ▸ hl _
  refine ⟨h ++ parameterCalls (some ⟨n.make, n.set, n.deleteParameters⟩) (rankEntries node ranks) t P ++ [⟨n.create, .createDistribution size dimension P D⟩] ++
        sampleCalls n.generate size dimension P D samples, P, D, hP, hD, by simp, ?_⟩
  obtain ⟨p, rfl⟩ := Option.ne_none_iff_exists'.1 hP
  obtain ⟨d, rfl⟩ := Option.ne_none_iff_exists'.1 hD
  rw [h4]
  simp [deletion, optionally]

example : (∀ h, (samplesLibrary true).pointer h ≠ none) ∧ Plain samplesNode := ⟨fun _ => Option.some_ne_none _, samples_plain⟩

/-- C100 fails for writers without a configuration of the processes: `WriterFactory` passes none, and the function for the communicator is called with the null pointer. -/
theorem C100_writer_without_communicator (lib : Library K) (t : Tree) (n : WriterFunctions) (hn : WriterSays lib t n) (hc : n.setComm ≠ none) (ht : Plain t)
    (frames : List (Frame K)) (h : List (Call K)) : (Writer.life lib false t frames h).1 = .error .ub := by
  obtain ⟨P, hP, hpar⟩ := parameters_made hn.parameters ht h
  obtain ⟨makeName, hmake⟩ := parameters_name hn.parameters
  obtain ⟨commName, hcomm⟩ := hn.setComm.reads
  obtain ⟨c, hc⟩ := Option.ne_none_iff_exists'.1 hc
  simp only [Writer.life, Writer.make, bind_apply, param_apply hn.library, param_apply hn.create.1, param_apply hmake, param_apply hcomm, hpar makeName hmake,
    load_apply hn.create.2, ask, optional_gives hn.newTimestep, optional_gives hn.endTimestep, setComm, optional_gives hn.setComm, hc, Bool.false_eq_true, if_false, lift]

example : WriterSays exampleLibrary exampleNode exampleFunctions ∧ exampleFunctions.setComm ≠ none ∧ Plain exampleNode := ⟨example_says, Option.some_ne_none _, example_plain⟩

/-- C100 fails if the construction fails: when the library has no function that generates samples, the exception leaves the parameters and the data that were made undeleted. -/
theorem C100_failed_construction_keeps_objects (lib : Library K) (t : Tree) (n : DistributionFunctions) (hl : Reads t "library" n.file)
    (hp : GivesParameters lib n.file t n.parameters) (hc : Gives lib n.file t "create_function" .createDistribution n.create) (hd : n.create ≠ none)
    (hdel : Gives lib n.file t "delete_function" .free n.delete) (hg : Reads t "generator_function" n.generate) (hx : lib.exports n.file n.generate = none) (ht : Plain t)
    (size dimension : Nat) (node ranks : Str) (samples : List (Nat × Nat)) (h : List (Call K)) :
    ∃ P D : Ptr, IsParameters lib h n.parameters P ∧ IsData lib (h ++ parameterCalls n.parameters (rankEntries node ranks) t P) n.create D ∧
      Distribution.life lib size dimension node ranks t samples h = (.error .thrown, h ++ distributionOpening n t size dimension node ranks P D) := by
  obtain ⟨P, hP, hpar⟩ := distribution_parameters hp ht node ranks h
  obtain ⟨makeName, hmake⟩ := parameters_name hp
  obtain ⟨createName, hcreate⟩ := hc.reads
  obtain ⟨D, hD, hdat⟩ := distribution_data hc (.inr ⟨hd, hdel⟩) size dimension P (h ++ parameterCalls n.parameters (rankEntries node ranks) t P)
  refine ⟨P, D, hP, hD, ?_⟩
  simp only [Distribution.life, Distribution.make, bind_apply, param_apply hl, param_apply hcreate, param_apply hmake, hpar makeName hmake, hdat createName hcreate,
    param_apply hg, load, lift, hx, distributionOpening, List.append_assoc]

example : Reads samplesNode "library" samplesFunctions.file ∧ GivesParameters (samplesLibrary false) samplesFunctions.file samplesNode samplesFunctions.parameters ∧
    Gives (samplesLibrary false) samplesFunctions.file samplesNode "create_function" .createDistribution samplesFunctions.create ∧ samplesFunctions.create ≠ none ∧
    Gives (samplesLibrary false) samplesFunctions.file samplesNode "delete_function" .free samplesFunctions.delete ∧
    Reads samplesNode "generator_function" samplesFunctions.generate ∧ (samplesLibrary false).exports samplesFunctions.file samplesFunctions.generate = none ∧ Plain samplesNode :=
  ⟨samples_says.library, samples_parameters false, samples_create false, Option.some_ne_none _, samples_delete false, samples_says.generate.1, by decide +kernel, samples_plain⟩

/-- C100 fails for entries that occur twice: the library gets the first value both times, and never the second one. -/
theorem C100_fails_for_repeated_entries (setName key v w : Str) (hne : key ≠ []) (hdot : '.' ∉ key) (P : Ptr) (h : List (Call K)) :
    let t : Tree := .node [] [(key, .node v []), (key, .node w [])]
    setAll setName P t (keys t) h = (.ok (), h ++ [⟨setName, .set P key v⟩, ⟨setName, .set P key v⟩]) := by
  intro t
  have e : getString key t = .ok v := by
    rw [getString_plain hne hdot]
    simp [t, find, Tree.children, Tree.data]
  simp only [t, keys, Tree.children, List.map_cons, List.map_nil, setAll, bind_apply, lift, call, pure_apply] at e ⊢
  simp [e]

example : ∃ key v w : Str, key ≠ [] ∧ '.' ∉ key ∧ v ≠ w := ⟨"seed".toList, "1".toList, "2".toList, by decide, by decide, by decide⟩

/-- The values of the interior cells, the first coordinate fastest. -/
def interior (m : Mem K) (cells ghosts : Nat × Nat × Nat) : List K :=
  (List.range cells.2.2).flatMap fun z => (List.range cells.2.1).flatMap fun y => (List.range cells.1).map fun x =>
    m.val (calculateIndex (x + ghosts.1) (y + ghosts.2.1) (z + ghosts.2.2) m.nx m.ny)

/-- C100, the example library: from what the writer hands over, it writes the values of the interior cells, and never reads outside the memory. -/
theorem C100_example_library (n : WriterFunctions) (P D : Ptr) (needs : Bool) (f : Frame K) (hv : f.volume.WF) (hl : f.names.length = f.volume.areas.length) (i : Nat)
    (hi : i < f.volume.areas.length) :
    ∃ (time : K) (name : Str) (values : Arr Nat K) (cells ghosts : Nat × Nat × Nat) (lower upper : K × K × K) (gpu : Int),
      ⟨n.write, .write D P time name values cells ghosts lower upper gpu⟩ ∈ outputCalls n P D needs f ∧ f.names[i]? = some name ∧
      exampleLines values cells ghosts = .ok (interior f.volume.areas[i] (f.volume.nx, f.volume.ny, f.volume.nz) (f.volume.gx, f.volume.gy, f.volume.gz)) := by
  refine ⟨f.time, f.names[i], f.volume.areas[i].arr, _, _, f.origin, f.top, _, List.mem_append_left _ (List.mem_append_right _ (List.mem_map.2 ⟨(f.names[i], f.volume.areas[i]),
    ?_, rfl⟩)), by simp, ?_⟩
  · rw [List.mem_iff_getElem]
    exact ⟨i, by simp [hl, hi], by simp⟩
  · obtain ⟨e1, e2, e3⟩ := hv _ (List.getElem_mem hi)
    simp only [exampleLines, interior]
    rw [foldlM_append (fun z => (List.range f.volume.ny).flatMap fun y => (List.range f.volume.nx).map fun x => f.volume.areas[i].val
      (calculateIndex (x + f.volume.gx) (y + f.volume.gy) (z + f.volume.gz) f.volume.areas[i].nx f.volume.areas[i].ny))]
    · simp
    · intro z hz out
      rw [foldlM_append (fun y => (List.range f.volume.nx).map fun x => f.volume.areas[i].val
        (calculateIndex (x + f.volume.gx) (y + f.volume.gy) (z + f.volume.gz) f.volume.areas[i].nx f.volume.areas[i].ny))]
      intro y hy out
      rw [foldlM_append (fun x => [f.volume.areas[i].val
        (calculateIndex (x + f.volume.gx) (y + f.volume.gy) (z + f.volume.gz) f.volume.areas[i].nx f.volume.areas[i].ny)])]
      · simp [List.map_eq_flatMap]
      · intro x hx out
        have hx := List.mem_range.1 hx
        have hy := List.mem_range.1 hy
        have hz := List.mem_range.1 hz
        have hlt : calculateIndex (x + f.volume.gx) (y + f.volume.gy) (z + f.volume.gz) f.volume.areas[i].nx f.volume.areas[i].ny < f.volume.areas[i].size := by
          refine calculateIndex_lt ?_ ?_ ?_
          · rw [e1, Volume.tx]; omega
          · rw [e2, Volume.ty]; omega
          · rw [e3, Volume.tz]; omega
        have e : (z + f.volume.gz) * (f.volume.nx + 2 * f.volume.gx) * (f.volume.ny + 2 * f.volume.gy) + (y + f.volume.gy) * (f.volume.nx + 2 * f.volume.gx) + (x + f.volume.gx) =
            calculateIndex (x + f.volume.gx) (y + f.volume.gy) (z + f.volume.gz) f.volume.areas[i].nx f.volume.areas[i].ny := by
          rw [calculateIndex, e1, e2, Volume.tx, Volume.ty]
        rw [e, Arr.rd_ok (by simpa [Mem.arr, flat] using hlt)]
        rfl

example : exampleFrame.volume.WF ∧ exampleFrame.names.length = exampleFrame.volume.areas.length ∧
    interior exampleFrame.volume.areas[1] (4, 1, 1) (1, 0, 0) = [2, 4, 6, 8] := ⟨Volume.wf_mk' _ _ _ _ _, rfl, by decide +kernel⟩

end Props.Plugin
end Verif
