import Verif.PyScriptSpec

/-! Lemmas for the writer of Python scripts. -/

namespace Verif
namespace PyScript
open Params PyScriptSpec

variable {K T : Type}

/-- The state after the arrays have been made. -/
structure Ready (names : List Str) (size : Nat) (s : State K) : Prop where
  initialized : s.initialized = true
  pointers : s.pointers = List.range names.length
  datasets : s.datasets = names.zip (List.range names.length)
  heap : s.heap.map NpArray.length = List.replicate names.length size

theorem setKey_new {d : Dict} {key : Str} (h : key ∉ d.map Prod.fst) (value : Nat) : setKey d key value = d ++ [(key, value)] := by rw [setKey, if_neg h]

theorem make_all [Zero K] (size : Nat) (names done : List Str) (hn : (done ++ names).Nodup) (s : State K) (h1 : s.pointers = List.range done.length)
    (h2 : s.datasets = done.zip (List.range done.length)) (h3 : s.heap.map NpArray.length = List.replicate done.length size) :
    let s' := names.foldl (makeDataset size) s
    s'.pointers = List.range (done ++ names).length ∧ s'.datasets = (done ++ names).zip (List.range (done ++ names).length) ∧
      s'.heap.map NpArray.length = List.replicate (done ++ names).length size := by
  induction names generalizing done s with
  | nil => simpa using ⟨h1, h2, h3⟩
  | cons n names ih =>
    have hl : s.heap.length = done.length := by
      have := congrArg List.length h3
      simpa using this
    have hnew : n ∉ s.datasets.map Prod.fst := by
      rw [h2, List.map_fst_zip (by simp)]
      rw [List.nodup_append] at hn
      exact fun h => hn.2.2 n h n (by simp) rfl
    have := ih (done ++ [n]) (by simpa using hn) (makeDataset size s n) (by
        simp [makeDataset, h1, hl, List.range_succ]) (by
        simp only [makeDataset]
        rw [setKey_new hnew, h2, hl, List.length_append, List.length_singleton, List.range_succ, List.zip_append (by simp)]
        rfl) (by
        simp only [makeDataset, List.map_append, h3]
        simp [List.replicate_succ'])
    simpa using this

theorem ready_make [Zero K] {names : List Str} (hn : names.Nodup) (v : Volume K) : Ready names (v.nx * v.ny * v.nz) (makeDatasets names v start) := by
  have h := make_all (K := K) (v.nx * v.ny * v.nz) names [] (by simpa using hn) { start with pointers := [] } rfl rfl rfl
  simp only [List.nil_append] at h
  exact ⟨rfl, h.1, h.2.1, h.2.2⟩

theorem heap_length {names : List Str} {size : Nat} {s : State K} (h : Ready names size s) : s.heap.length = names.length := by
  have := congrArg List.length h.heap
  simpa using this

theorem array_length {names : List Str} {size : Nat} {s : State K} (h : Ready names size s) {p : Nat} {a : NpArray K} (ha : s.heap[p]? = some a) : a.length = size := by
  have : a.length ∈ s.heap.map NpArray.length := List.mem_map.2 ⟨a, List.mem_of_getElem? ha, rfl⟩
  rw [h.heap] at this
  exact List.eq_of_mem_replicate this

/-- One variable is copied. -/
theorem copyVariable_ok {names : List Str} {v : Volume K} (hv : v.WF) (hlen : v.areas.length = names.length) {s : State K} (h : Ready names (v.nx * v.ny * v.nz) s) {var : Nat}
    (hvar : var < names.length) :
    ∃ s' xs, copyVariable v s var = .ok s' ∧ Ready names (v.nx * v.ny * v.nz) s' ∧ look s'.heap var = some xs ∧ Shows xs v var ∧ ∀ q, q ≠ var → s'.heap[q]? = s.heap[q]? := by
  obtain ⟨m, hm⟩ : ∃ m, v.areas[var]? = some m := ⟨_, List.getElem?_eq_getElem (by omega)⟩
  obtain ⟨a, ha⟩ : ∃ a, s.heap[var]? = some a := ⟨_, List.getElem?_eq_getElem (by rw [heap_length h]; exact hvar)⟩
  have hal := array_length h ha
  obtain ⟨h1, h2, h3⟩ := hv m (List.mem_of_getElem? hm)
  obtain ⟨out, ho, hc, -⟩ := Volume.mem_copyInternalCells_ok m v.nx v.ny v.nz v.gx v.gy v.gz h1 h2 h3 a.val a.length (by rw [hal])
  have ho' : v.copyInternalCells var a.val a.length = .ok out := by
    simp only [Volume.copyInternalCells, hm]
    rw [← ho, h1, h2, h3]
  have hlt : var < s.heap.length := by rw [heap_length h]; exact hvar
  refine ⟨{ s with heap := s.heap.set var ⟨a.length, out.val⟩ }, (List.range a.length).map out.val, ?_, ⟨h.initialized, h.pointers, h.datasets, ?_⟩, ?_, ?_, ?_⟩
  · rw [copyVariable, h.pointers, List.getElem?_range hvar]
    simp only [ha, ho', Res.ok_bind]
    rfl
  · rw [List.map_set, h.heap, hal]
    apply List.ext_getElem?
    intro i
    by_cases e : var = i
    · subst e
      rw [List.getElem?_set_self (by simpa using hvar), List.getElem?_replicate, if_pos hvar]
    · rw [List.getElem?_set_ne e]
  · simp only [look]
    rw [List.getElem?_set_self hlt]
    rfl
  · refine ⟨m, hm, by simp [hal], fun i j k hi hj hk => ?_⟩
    have hlt' := calculateIndex_lt hi hj hk
    have e : calculateIndex i j k v.nx v.ny = k * (v.nx * v.ny) + j * v.nx + i := by
      rw [calculateIndex, Nat.mul_assoc]
    rw [e] at hlt'
    rw [List.getElem?_map, List.getElem?_range (by rw [hal]; exact hlt'), Option.map_some, ← e, hc i j k hi hj hk, Volume.interior, h1, h2]
  · intro q hq
    exact List.getElem?_set_ne (Ne.symm hq)

/-- All variables are copied. -/
theorem copyAll_ok {names : List Str} {v : Volume K} (hv : v.WF) (hlen : v.areas.length = names.length) {s : State K} (h : Ready names (v.nx * v.ny * v.nz) s) (n : Nat)
    (hn : n ≤ names.length) :
    ∃ s', (List.range n).foldlM (copyVariable v) s = .ok s' ∧ Ready names (v.nx * v.ny * v.nz) s' ∧ ∀ p < n, ∃ xs, look s'.heap p = some xs ∧ Shows xs v p := by
  induction n with
  | zero => exact ⟨s, rfl, h, by simp⟩
  | succ n ih =>
    obtain ⟨s1, e1, r1, g1⟩ := ih (by omega)
    obtain ⟨s2, xs, e2, r2, l2, x2, o2⟩ := copyVariable_ok hv hlen r1 (var := n) (by omega)
    refine ⟨s2, ?_, r2, fun p hp => ?_⟩
    · rw [List.range_succ, List.foldlM_append, e1, Res.ok_bind, List.foldlM_cons, e2, Res.ok_bind]
      rfl
    · by_cases e : p = n
      · subst e
        exact ⟨xs, l2, x2⟩
      · obtain ⟨ys, hy, hs⟩ := g1 p (by omega)
        refine ⟨ys, ?_, hs⟩
        rw [look, o2 p e]
        exact hy

/-- New, or with arrays of the right length. -/
def Usable (names : List Str) (size : Nat) (s : State K) : Prop := s = start ∨ Ready names size s

theorem copyToDatasets_ok [Zero K] {names : List Str} (hn : names.Nodup) {v : Volume K} (hv : v.WF) (hlen : v.areas.length = names.length) {s : State K}
    (h : Usable names (v.nx * v.ny * v.nz) s) :
    ∃ s', copyToDatasets names v s = .ok s' ∧ Ready names (v.nx * v.ny * v.nz) s' ∧ ∀ p < names.length, ∃ xs, look s'.heap p = some xs ∧ Shows xs v p := by
  rw [copyToDatasets]
  rcases h with rfl | h
  · rw [if_neg (by simp [start])]
    exact copyAll_ok hv hlen (ready_make hn v) _ le_rfl
  · rw [if_pos h.initialized]
    exact copyAll_ok hv hlen h _ le_rfl

theorem showsAll_of {names : List Str} {size : Nat} {v : Volume K} {s : State K} (h : Ready names size s) (hp : ∀ p < names.length, ∃ xs, look s.heap p = some xs ∧ Shows xs v p) :
    ShowsAll names s.heap s.datasets v := by
  rw [ShowsAll, h.datasets]
  refine ⟨List.map_fst_zip (by simp), fun var name hv => ?_⟩
  have hlt : var < names.length := (List.getElem?_eq_some_iff.1 hv).1
  obtain ⟨xs, h1, h2⟩ := hp var hlt
  refine ⟨var, xs, ?_, h1, h2⟩
  refine List.mem_of_getElem? (i := var) ?_
  rw [List.getElem?_zip_eq_some]
  exact ⟨hv, List.getElem?_range hlt⟩

theorem ready_touch {names : List Str} {size : Nat} {s : State K} (h : Ready names size s) {t : Heap K → Heap K} (ht : ∀ h, (t h).map NpArray.length = h.map NpArray.length) :
    Ready names size { s with heap := t s.heap } := ⟨h.initialized, h.pointers, h.datasets, by rw [ht]; exact h.heap⟩

theorem write_ok [Zero K] {names : List Str} (hn : names.Nodup) (mpi : Bool) {returns : Event T → Bool} (hr : ∀ e, returns e = true) {nx ny nz : Nat} {o : Output K T}
    (ho : SameShape names nx ny nz o) {s : State K} (h : Usable names (nx * ny * nz) s) :
    ∃ s', write names mpi returns o.volume o.time o.steps s = (.ok s', calls mpi s'.datasets o.time o.steps) ∧ Ready names (nx * ny * nz) s' ∧
      ShowsAll names s'.heap s'.datasets o.volume ∧ s'.datasets = names.zip (List.range names.length) := by
  obtain ⟨rfl, rfl, rfl, hl, hw, -⟩ := ho
  obtain ⟨s', e, r, p⟩ := copyToDatasets_ok hn hw hl h
  refine ⟨s', ?_, r, showsAll_of r p, r.datasets⟩
  rw [write, e]
  simp only [hr, if_true, calls]
  cases mpi <;> rfl

theorem writeAll_ok [Zero K] {names : List Str} (hn : names.Nodup) (mpi : Bool) {returns : Event T → Bool} (hr : ∀ e, returns e = true) {nx ny nz : Nat} (os : List (Output K T))
    (ho : ∀ o ∈ os, SameShape names nx ny nz o) {s : State K} (h : Usable names (nx * ny * nz) s) :
    ∃ s', writeAll names mpi returns os s = (.ok s', os.flatMap fun o => calls mpi (names.zip (List.range names.length)) o.time o.steps) ∧ Usable names (nx * ny * nz) s' := by
  induction os generalizing s with
  | nil => exact ⟨s, rfl, h⟩
  | cons o os ih =>
    obtain ⟨s1, e1, r1, -, d1⟩ := write_ok hn mpi hr (ho o (by simp)) h
    obtain ⟨s2, e2, u2⟩ := ih (fun o h => ho o (by simp [h])) (s := { s1 with heap := o.touch s1.heap }) (.inr (ready_touch r1 (ho o (by simp)).2.2.2.2.2))
    refine ⟨s2, ?_, u2⟩
    rw [writeAll, e1]
    simp only [e2]
    simp only [d1, List.flatMap_cons]

end PyScript
end Verif
