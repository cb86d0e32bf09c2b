import Verif.PluginSpec
import Mathlib.Data.List.TakeWhile

/-! Helper lemmas about plug-in libraries. -/

namespace Verif
namespace Plugin
open Params
variable {K α β : Type}

theorem bind_apply (x : Act K α) (f : α → Act K β) (h : List (Call K)) :
    (x >>= f) h = match x h with
      | (.ok a, h') => f a h'
      | (.error e, h') => (.error e, h') := rfl

theorem pure_apply (a : α) (h : List (Call K)) : (pure a : Act K α) h = (.ok a, h) := rfl

theorem param_apply {key : String} {t : Tree} {v : Str} (hv : getString key.toList t = .ok v) (h : List (Call K)) : param key t h = (.ok v, h) := by
  simp only [param, lift, hv]

theorem load_apply {lib : Library K} {file name : Str} {s : Sig} (hs : lib.exports file name = some s) (h : List (Call K)) : load lib file name s h = (.ok (), h) := by
  simp only [load, lift, hs, if_true]

theorem optional_some {lib : Library K} {file : Str} {key : String} {s : Sig} {t : Tree} {v : Str} (hv : getString key.toList t = .ok v) (hg : given v = true)
    (hs : lib.exports file v = some s) (h : List (Call K)) : optional lib file key s t h = (.ok (some v), h) := by
  simp only [optional, bind_apply, param_apply hv, hg, if_true, load_apply hs, pure_apply]

theorem optional_none {lib : Library K} {file : Str} {key : String} {s : Sig} {t : Tree} {v : Str} (hv : getString key.toList t = .ok v) (hg : given v = false)
    (h : List (Call K)) : optional lib file key s t h = (.ok none, h) := by
  simp only [optional, bind_apply, param_apply hv, hg, Bool.false_eq_true, if_false, pure_apply]

theorem maybe_apply (f : Option Str) (a : Action K) (h : List (Call K)) : maybe f a h = (.ok (), h ++ (f.map fun n => (⟨n, a⟩ : Call K)).toList) := by
  cases f <;> simp [maybe, pure_apply, call]

theorem writeAll_apply (w : Writer) (f : Frame K) (ns : List Str) (ms : List (Mem K)) (hl : ns.length = ms.length) (h : List (Call K)) :
    w.writeAll f ns ms h = (.ok (), h ++ (ns.zip ms).map fun p => ⟨w.write, .write w.dllData w.parametersStruct f.time p.1 p.2.arr
      (f.volume.nx, f.volume.ny, f.volume.nz) (f.volume.gx, f.volume.gy, f.volume.gz) f.origin f.top (if f.hostMemory || w.needsDataOnHost then -1 else (f.device : Int))⟩) := by
  induction ns generalizing ms h with
  | nil => cases ms with
    | nil => simp [Writer.writeAll, pure_apply]
    | cons _ _ => simp at hl
  | cons n ns ih => cases ms with
    | nil => simp at hl
    | cons m ms =>
      simp only [Writer.writeAll, bind_apply, Writer.writeVariable, call]
      rw [ih ms (by simpa using hl)]
      simp

/-- The calls of one `write`. -/
def frameCalls (w : Writer) (f : Frame K) : List (Call K) :=
  (w.newTimestep.map fun n => (⟨n, .step w.dllData w.parametersStruct f.time f.number⟩ : Call K)).toList ++
  ((f.names.zip f.volume.areas).map fun p => ⟨w.write, .write w.dllData w.parametersStruct f.time p.1 p.2.arr
      (f.volume.nx, f.volume.ny, f.volume.nz) (f.volume.gx, f.volume.gy, f.volume.gz) f.origin f.top (if f.hostMemory || w.needsDataOnHost then -1 else (f.device : Int))⟩) ++
  (w.endTimestep.map fun n => (⟨n, .step w.dllData w.parametersStruct f.time f.number⟩ : Call K)).toList

theorem write_apply (w : Writer) (f : Frame K) (hl : f.names.length = f.volume.areas.length) (h : List (Call K)) : w.write' f h = (.ok (), h ++ frameCalls w f) := by
  simp only [Writer.write', bind_apply, maybe_apply, writeAll_apply w f _ _ hl, frameCalls, List.append_assoc]

theorem writeMany_apply (w : Writer) (fs : List (Frame K)) (hl : ∀ f ∈ fs, f.names.length = f.volume.areas.length) (h : List (Call K)) :
    w.writeMany fs h = (.ok (), h ++ fs.flatMap (frameCalls w)) := by
  induction fs generalizing h with
  | nil => simp [Writer.writeMany, pure_apply]
  | cons f fs ih =>
    simp only [Writer.writeMany, bind_apply, write_apply w f (hl f (by simp))]
    rw [ih fun f hf => hl f (by simp [hf])]
    simp

theorem generateMany_apply (d : Distribution) (lib : Library K) (cs : List (Nat × Nat)) (h : List (Call K)) :
    ∃ xs, d.generateMany lib cs h = (.ok xs, h ++ cs.map fun c => ⟨d.generator, .generate d.dllData d.size d.dimension c.1 c.2 d.parametersStruct⟩) ∧ xs.length = cs.length ∧
      ∀ i (hi : i < xs.length), xs[i] = lib.sample (h ++ (cs.take i).map fun c => ⟨d.generator, .generate d.dllData d.size d.dimension c.1 c.2 d.parametersStruct⟩) := by
  induction cs generalizing h with
  | nil => exact ⟨[], by simp [Distribution.generateMany, pure_apply], rfl, by simp⟩
  | cons c cs ih =>
    obtain ⟨xs, h1, h2, h3⟩ := ih (h ++ [⟨d.generator, .generate d.dllData d.size d.dimension c.1 c.2 d.parametersStruct⟩])
    refine ⟨lib.sample h :: xs, ?_, by simp [h2], ?_⟩
    · simp only [Distribution.generateMany, bind_apply, Distribution.generate, draw, h1, pure_apply]
      simp
    · intro i hi
      cases i with
      | zero => simp
      | succ i => simpa using h3 i (by simpa using hi)

theorem qmcMany_apply (lib : Library K) (n : QMCNames) (size dimension : Nat) (d p : Ptr) (cs : List (Nat × Nat)) (h : List (Call K)) :
    ∃ xs, qmcMany lib n size dimension d p cs h = (.ok xs, h ++ cs.map fun c => ⟨n.generate, .generate d size dimension c.1 c.2 p⟩) ∧ xs.length = cs.length ∧
      ∀ i (hi : i < xs.length), xs[i] = lib.sample (h ++ (cs.take i).map fun c => ⟨n.generate, .generate d size dimension c.1 c.2 p⟩) := by
  induction cs generalizing h with
  | nil => exact ⟨[], by simp [qmcMany, pure_apply], rfl, by simp⟩
  | cons c cs ih =>
    obtain ⟨xs, h1, h2, h3⟩ := ih (h ++ [⟨n.generate, .generate d size dimension c.1 c.2 p⟩])
    refine ⟨lib.sample h :: xs, ?_, by simp [h2], ?_⟩
    · simp only [qmcMany, bind_apply, draw, h1, pure_apply]
      simp
    · intro i hi
      cases i with
      | zero => simp
      | succ i => simpa using h3 i (by simpa using hi)

theorem foldlM_append {ι : Type} (f : ι → List β) (g : List β → ι → Res (List β)) (l : List ι) (out : List β) (hg : ∀ i ∈ l, ∀ out, g out i = .ok (out ++ f i)) :
    l.foldlM g out = .ok (out ++ l.flatMap f) := by
  induction l generalizing out with
  | nil => simp
  | cons i l ih =>
    simp only [List.foldlM_cons, hg i (by simp), Res.ok_bind]
    rw [ih _ fun j hj => hg j (by simp [hj])]
    simp

theorem fragments_plain {name : Str} (hne : name ≠ []) (hdot : '.' ∉ name) : fragments name = [name] := by
  rcases name with _ | ⟨c, cs⟩
  · exact absurd rfl hne
  · have h1 : (c :: cs).takeWhile (· ≠ '.') = c :: cs := by
      rw [List.takeWhile_eq_self_iff]
      intro x hx
      simpa using fun e : x = '.' => hdot (e ▸ hx)
    have h2 : (c :: cs).dropWhile (· ≠ '.') = [] := by
      rw [List.dropWhile_eq_nil_iff]
      intro x hx
      simpa using fun e : x = '.' => hdot (e ▸ hx)
    rw [fragments, h1, h2]
    simp [fragments]

theorem getString_plain {name : Str} (hne : name ≠ []) (hdot : '.' ∉ name) (t : Tree) :
    getString name t = match find name t with
      | some c => .ok c.data
      | none => .error .thrown := by
  rw [getString, getData, fragments_plain hne hdot, walk]
  cases find name t <;> rfl

theorem find_child {l : List (Str × Tree)} (hd : (l.map (·.1)).Nodup) {c : Str × Tree} (hc : c ∈ l) : l.find? (fun p => p.1 == c.1) = some c := by
  induction l with
  | nil => simp at hc
  | cons p l ih =>
    simp only [List.map_cons, List.nodup_cons, List.mem_map, not_exists, not_and] at hd
    rcases List.mem_cons.1 hc with rfl | hc
    · simp
    · have : (p.1 == c.1) = false := by simpa using fun e : p.1 = c.1 => hd.1 c hc e.symm
      rw [List.find?_cons, this]
      exact ih hd.2 hc

theorem getString_child {t : Tree} (hd : (t.children.map (·.1)).Nodup) {c : Str × Tree} (hc : c ∈ t.children) (hne : c.1 ≠ []) (hdot : '.' ∉ c.1) :
    getString c.1 t = .ok c.2.data := by
  rw [getString_plain hne hdot, find, find_child hd hc]
  rfl

theorem setAll_children (name : Str) (p : Ptr) (t : Tree) (l : List (Str × Tree)) (hl : ∀ c ∈ l, getString c.1 t = .ok c.2.data) (h : List (Call K)) :
    setAll name p t (l.map (·.1)) h = (.ok (), h ++ l.map fun c => ⟨name, .set p c.1 c.2.data⟩) := by
  induction l generalizing h with
  | nil => simp [setAll, pure_apply]
  | cons k ks ih =>
    simp only [List.map_cons, setAll, bind_apply, lift, hl k (by simp), call]
    rw [ih fun k hk' => hl k (by simp [hk'])]
    simp

end Plugin

namespace Props.Plugin
open Params Verif.Plugin
variable {K : Type}

theorem given_iff (v : Str) : given v = true ↔ ¬ IsNone v := by simp [given, IsNone]

theorem given_false (v : Str) : given v = false ↔ IsNone v := by simp [given, IsNone]

theorem reads_of {t : Tree} {key : String} {v : Str} (hne : key.toList ≠ []) (hdot : '.' ∉ key.toList) (hf : (find key.toList t).map Tree.data = some v) : Reads t key v := by
  rw [Reads, getString_plain hne hdot]
  cases hc : find key.toList t with
  | none => rw [hc] at hf; simp at hf
  | some c => rw [hc] at hf; simpa using hf

theorem Gives.reads {lib : Library K} {file : Str} {t : Tree} {key : String} {s : Sig} {o : Option Str} (hg : Gives lib file t key s o) :
    ∃ v, getString key.toList t = .ok v := by
  cases hg with
  | function h1 _ _ => exact ⟨_, h1⟩
  | none h1 _ => exact ⟨_, h1⟩

theorem optional_gives {lib : Library K} {file : Str} {t : Tree} {key : String} {s : Sig} {o : Option Str} (hg : Gives lib file t key s o) (h : List (Call K)) :
    optional lib file key s t h = (.ok o, h) := by
  cases hg with
  | function h1 h2 h3 => exact optional_some h1 ((given_iff _).2 h2) h3 h
  | none h1 h2 => exact optional_none h1 ((given_false _).2 h2) h

theorem setComm_gives {lib : Library K} {file : Str} {t : Tree} {o : Option Str} (hg : Gives lib file t "set_mpi_comm_function" .mpi o) {mpi : Bool} (hm : o ≠ none → mpi = true)
    (D P : Ptr) (h : List (Call K)) : setComm lib file mpi D P t h = (.ok (), h ++ optionally o (.mpi D P)) := by
  simp only [setComm, bind_apply, optional_gives hg]
  cases o with
  | none => simp [pure_apply, optionally]
  | some name => simp [hm (by simp), call, optionally]

theorem askHost_gives {lib : Library K} {file : Str} {t : Tree} {o : Option Str} (hg : Gives lib file t "needs_data_on_host_function" .host o) (D P : Ptr) (h : List (Call K)) :
    askHost lib file D P t h = (.ok (o.isSome && lib.onHost h), h ++ optionally o (.host D P)) := by
  simp only [askHost, bind_apply, optional_gives hg]
  cases o <;> simp [pure_apply, optionally]

theorem optionally_none (a : Action K) : optionally none a = [] := rfl

theorem optionally_length (o : Option Str) (a : Action K) : (optionally o a).length = o.toList.length := by cases o <;> rfl

theorem parameterCalls_length (n : Option ParameterFunctions) (t : Tree) (P : Ptr) :
    (parameterCalls (K := K) n [] t P).length = (parameterCalls (K := K) n [] t none).length := by
  cases n <;> simp [parameterCalls]

theorem writerCalls_length (n : WriterFunctions) (t : Tree) (P D : Ptr) (needs : Bool) (frames : List (Frame K)) (d : Option Str) :
    (writerCalls n t P D needs frames d).length = (writerCalls n t none none false frames none).length + d.toList.length := by
  have hfr : (frames.flatMap (outputCalls n P D needs)).length = (frames.flatMap (outputCalls n none none false)).length := by
    simp only [List.length_flatMap]
    congr 1
    refine List.map_congr_left fun f _ => ?_
    simp only [outputCalls, List.length_append, List.length_map, optionally_length]
  simp only [writerCalls, openingCalls, List.length_append, optionally_length, hfr, parameterCalls_length n.parameters t P, Option.toList_none, List.length_nil, List.length_cons]
  omega

theorem optionally_map (f : Option Str) (a : Action K) : (f.map fun n => (⟨n, a⟩ : Call K)).toList = optionally f a := by cases f <;> rfl

theorem parameters_name {lib : Library K} {file : Str} {t : Tree} {n : Option ParameterFunctions} (hg : GivesParameters lib file t n) :
    ∃ v, getString "make_parameters_function".toList t = .ok v := by
  cases hg with
  | functions h1 _ _ _ _ => exact h1.reads
  | none h1 => exact h1.reads

theorem parameters_made {lib : Library K} {file : Str} {t : Tree} {n : Option ParameterFunctions} (hg : GivesParameters lib file t n) (ht : Plain t) (h : List (Call K)) :
    ∃ P, IsParameters lib h n P ∧ ∀ v, getString "make_parameters_function".toList t = .ok v →
      writerParameters lib file v t h = (.ok (P, n.map (·.delete)), h ++ parameterCalls n [] t P) := by
  have hc : ∀ c ∈ t.children, getString c.1 t = .ok c.2.data := fun c hc => getString_child ht.1 hc (ht.2 c hc).1 (ht.2 c hc).2
  cases hg with
  | @functions n h1 h2 h3 h4 h5 =>
    refine ⟨lib.pointer h, rfl, fun v hv => ?_⟩
    cases h1 with
    | function r1 r2 r3 =>
      cases hv.symm.trans r1
      simp only [writerParameters, (given_iff _).2 r2, if_true, bind_apply, load_apply r3, ask, param_apply h2, load_apply h3, param_apply h4, load_apply h5, keys,
        setAll_children _ _ _ _ hc, pure_apply, parameterCalls, Option.map_some]
      simp [Function.comp_def]
  | none h1 =>
    refine ⟨none, rfl, fun v hv => ?_⟩
    cases h1 with
    | none r1 r2 =>
      cases hv.symm.trans r1
      simp [writerParameters, (given_false _).2 r2, pure_apply, parameterCalls]

theorem distribution_parameters {lib : Library K} {file : Str} {t : Tree} {n : Option ParameterFunctions} (hg : GivesParameters lib file t n) (ht : Plain t) (node ranks : Str)
    (h : List (Call K)) : ∃ P, IsParameters lib h n P ∧ ∀ v, getString "make_parameters_function".toList t = .ok v →
      distributionParameters lib file v node ranks t h = (.ok (P, n.map (·.delete)), h ++ parameterCalls n (rankEntries node ranks) t P) := by
  have hc : ∀ c ∈ t.children, getString c.1 t = .ok c.2.data := fun c hc => getString_child ht.1 hc (ht.2 c hc).1 (ht.2 c hc).2
  cases hg with
  | @functions n h1 h2 h3 h4 h5 =>
    refine ⟨lib.pointer h, rfl, fun v hv => ?_⟩
    cases h1 with
    | function r1 r2 r3 =>
      cases hv.symm.trans r1
      simp only [distributionParameters, (given_iff _).2 r2, if_true, bind_apply, load_apply r3, ask, param_apply h2, load_apply h3, param_apply h4, load_apply h5, keys, call,
        setAll_children _ _ _ _ hc, pure_apply, parameterCalls, Option.map_some, rankEntries]
      simp [Function.comp_def]
  | none h1 =>
    refine ⟨none, rfl, fun v hv => ?_⟩
    cases h1 with
    | none r1 r2 =>
      cases hv.symm.trans r1
      simp [distributionParameters, (given_false _).2 r2, pure_apply, parameterCalls]

theorem distribution_data {lib : Library K} {t : Tree} {n : DistributionFunctions} (hg : Gives lib n.file t "create_function" .createDistribution n.create)
    (hd : (n.create = none ∧ n.delete = none) ∨ (n.create ≠ none ∧ Gives lib n.file t "delete_function" .free n.delete)) (size dimension : Nat) (P : Ptr) (h : List (Call K)) :
    ∃ D, IsData lib h n.create D ∧ ∀ v, getString "create_function".toList t = .ok v →
      distributionData lib n.file v size dimension P t h = (.ok (D, n.delete), h ++ optionally n.create (.createDistribution size dimension P D)) := by
  rcases hd with ⟨h1, h2⟩ | ⟨h1, h2⟩
  · refine ⟨none, by rw [h1]; rfl, fun v hv => ?_⟩
    rw [h1] at hg
    cases hg with
    | none r1 r2 =>
      cases hv.symm.trans r1
      simp [distributionData, (given_false _).2 r2, pure_apply, h1, h2, optionally]
  · obtain ⟨c, hc⟩ := Option.ne_none_iff_exists'.1 h1
    refine ⟨lib.pointer h, by rw [hc]; rfl, fun v hv => ?_⟩
    rw [hc] at hg
    cases hg with
    | function r1 r2 r3 =>
      cases hv.symm.trans r1
      simp only [distributionData, (given_iff _).2 r2, if_true, bind_apply, load_apply r3, ask, optional_gives h2, pure_apply, hc, optionally]

end Props.Plugin
end Verif
