import Verif.SampleFiles
import Verif.Standalone
import Verif.Props.Output
import Verif.Props.UQ
import Mathlib.Data.List.Perm.Basic

/-!
Lemmas on the model of the output files of a run with several samples.
-/

namespace Verif.SampleFiles
open Params
open Standalone (variableName)
variable {K V C : Type}

/-- Entry `i` of part `p` of parts of the same length. -/
theorem flatMap_get? {α β : Type} (l : List α) (f : α → List β) (m : Nat) (hm : ∀ a ∈ l, (f a).length = m) (p i : Nat) (hi : i < m) :
    (l.flatMap f)[p * m + i]? = l[p]?.bind fun a => (f a)[i]? := by
  induction l generalizing p with
  | nil => simp
  | cons a l ih =>
    have ha := hm a (by simp)
    rw [List.flatMap_cons]
    rcases p with _ | p
    · rw [Nat.zero_mul, Nat.zero_add, List.getElem?_append_left (by omega)]
      simp
    · have e : (p + 1) * m + i = m + (p * m + i) := by rw [Nat.succ_mul]; omega
      rw [e, List.getElem?_append_right (by omega), ha, Nat.add_sub_cancel_left, ih fun b hb => hm b (by simp [hb])]
      simp

theorem flatMap_length {α β : Type} (l : List α) (f : α → List β) (m : Nat) (hm : ∀ a ∈ l, (f a).length = m) : (l.flatMap f).length = l.length * m := by
  induction l with
  | nil => simp
  | cons a l ih =>
    rw [List.flatMap_cons, List.length_append, ih fun b hb => hm b (by simp [hb]), hm a (by simp), List.length_cons, Nat.succ_mul]
    omega

/-! ### The names -/

theorem digits_inj {m n : Nat} {a b : List Char} (h : Nat.toDigits 10 m ++ '_' :: a = Nat.toDigits 10 n ++ '_' :: b) : m = n ∧ a = b := by
  have key : ∀ (x y a b : List Char), '_' ∉ x → '_' ∉ y → x ++ '_' :: a = y ++ '_' :: b → x = y ∧ a = b := by
    intro x
    induction x with
    | nil =>
      rintro (_ | ⟨c, y⟩) a b - hy h
      · simpa using h
      · simp only [List.nil_append, List.cons_append, List.cons.injEq] at h
        exact absurd (List.mem_cons.2 (.inl h.1)) hy
    | cons d x ih =>
      rintro (_ | ⟨c, y⟩) a b hx hy h
      · simp only [List.nil_append, List.cons_append, List.cons.injEq] at h
        exact absurd (List.mem_cons.2 (.inl h.1.symm)) hx
      · simp only [List.cons_append, List.cons.injEq] at h
        obtain ⟨e1, e2⟩ := ih y a b (fun hm => hx (by simp [hm])) (fun hm => hy (by simp [hm])) h.2
        exact ⟨by rw [h.1, e1], e2⟩
  obtain ⟨e1, e2⟩ := key _ _ _ _ Nat.underscore_not_in_toDigits Nat.underscore_not_in_toDigits h
  exact ⟨by rw [← Nat.ofDigitChars_ten_toDigits (n := m), e1, Nat.ofDigitChars_ten_toDigits], e2⟩

/-- The names of the variables are different for different samples or variables. -/
theorem variableName_inj {s t : Nat} {a b : Str} (h : variableName s a = variableName t b) : s = t ∧ a = b := by
  unfold variableName at h
  rw [List.append_assoc, List.append_assoc, List.append_assoc, List.append_assoc, show "_".toList = ['_'] by decide, List.singleton_append, List.singleton_append] at h
  exact digits_inj (List.append_cancel_left h)

theorem variableName_time (s : Nat) (a : Str) : variableName s a ≠ "time".toList := by
  intro h
  have hl : ("sample_".toList ++ Nat.toDigits 10 s ++ "_".toList ++ a).head? = some 's' := by
    rw [List.append_assoc, List.append_assoc, show "sample_".toList = ['s', 'a', 'm', 'p', 'l', 'e', '_'] by decide]
    rfl
  have := (congrArg List.head? h).symm.trans hl
  rw [show "time".toList = ['t', 'i', 'm', 'e'] by decide] at this
  exact absurd (Option.some.inj this) (by decide)

/-- The name of the group of a sample. -/
def groupName (s : Nat) : Str := "sample_".toList ++ Nat.toDigits 10 s

theorem groupName_inj {s t : Nat} (h : groupName s = groupName t) : s = t :=
  (variableName_inj (a := []) (b := []) (congrArg (fun x => x ++ "_".toList ++ []) h)).1

theorem groupName_length (s : Nat) : (groupName s).length > 0 := by
  unfold groupName
  rw [show "sample_".toList = ['s', 'a', 'm', 'p', 'l', 'e', '_'] by decide]
  exact Nat.succ_pos _

/-! ### The definitions -/

/-- The entries of the list of variables that are made for a sample, with the contents given. -/
def block (names : List Str) (c : Nat → Option C) (s : Nat) : List (Str × Option C) := names.zipIdx.map fun e => (variableName s e.1, c e.2)

theorem block_length (names : List Str) (c : Nat → Option C) (s : Nat) : (block names c s).length = names.length := by simp [block]

theorem block_get (names : List Str) (c : Nat → Option C) (s i : Nat) : (block names c s)[i]? = names[i]?.map fun n => (variableName s n, c i) := by
  simp only [block, List.getElem?_map, List.getElem?_zipIdx, Nat.zero_add, Option.map_map]
  rfl

theorem mem_block {names : List Str} {c : Nat → Option C} {s : Nat} {v : Str × Option C} : v ∈ block names c s ↔ ∃ i n, names[i]? = some n ∧ v = (variableName s n, c i) := by
  rw [List.mem_iff_getElem?]
  constructor
  · rintro ⟨i, hi⟩
    rw [block_get, Option.map_eq_some_iff] at hi
    obtain ⟨n, h1, h2⟩ := hi
    exact ⟨i, n, h1, h2.symm⟩
  · rintro ⟨i, n, h1, h2⟩
    exact ⟨i, by rw [block_get, h1, h2]; rfl⟩

/-- What `makeDataset` does for one variable. -/
def defineOne (groupNames : List Str) (groupIndex : Nat) (s : NcFile K C × List Nat) (e : Str × Str) : Res (NcFile K C × List Nat) := do
  let groupnamePrefix := if e.1.length > 0 then e.1 ++ "_".toList else []
  let d ← defVar s.1 (groupnamePrefix ++ e.2)
  match groupNames[groupIndex]? with
  | none => .error .ub
  | some own => .ok (d.1, if e.1 = own then s.2 ++ [d.2] else s.2)

theorem defineOne_ok {samples : List Nat} {p own : Nat} (hp : samples[p]? = some own) (f : NcFile K C) (ids : List Nat) (s : Nat) (n : Str)
    (hnew : ∀ v ∈ f.vars, v.1 ≠ variableName s n) :
    defineOne (makeGroupNames samples) p (f, ids) (groupName s, n) =
      .ok ({ f with vars := f.vars ++ [(variableName s n, none)] }, if s = own then ids ++ [f.vars.length] else ids) := by
  have hname : groupName s ++ "_".toList ++ n = variableName s n := by unfold groupName variableName; rfl
  have hget : (makeGroupNames samples)[p]? = some (groupName own) := by
    rw [makeGroupNames, List.getElem?_map, hp]
    rfl
  have hdef : defVar f (variableName s n) = .ok ({ f with vars := f.vars ++ [(variableName s n, none)] }, f.vars.length) := by
    unfold defVar
    rw [if_neg]
    rintro (h | h)
    · exact variableName_time s n h
    · obtain ⟨v, hv, he⟩ := List.mem_map.1 h
      exact hnew v hv he
  unfold defineOne
  simp only [if_pos (groupName_length s), hname, hdef, Res.ok_bind, hget]
  by_cases h : s = own
  · rw [if_pos (congrArg groupName h), if_pos h]
  · rw [if_neg fun e => h (groupName_inj e), if_neg h]

theorem defineGroup_ok {samples : List Nat} {p own : Nat} (hp : samples[p]? = some own) (s : Nat) : ∀ (names : List Str) (f : NcFile K C) (ids : List Nat), names.Nodup →
    (∀ v ∈ f.vars, ∀ n ∈ names, v.1 ≠ variableName s n) →
    (names.map fun n => (groupName s, n)).foldlM (defineOne (makeGroupNames samples) p) (f, ids) =
      .ok ({ f with vars := f.vars ++ block names (fun _ => none) s }, if s = own then ids ++ List.range' f.vars.length names.length else ids) := by
  intro names
  induction names with
  | nil => intro f ids _ _; simp [block, Res.pure_eq]
  | cons n names ih =>
    intro f ids hnd hnew
    rw [List.nodup_cons] at hnd
    rw [List.map_cons, List.foldlM_cons, defineOne_ok hp f ids s n fun v hv => hnew v hv n (by simp), Res.ok_bind, ih _ _ hnd.2]
    · have hb : block (C := C) (n :: names) (fun _ => none) s = (variableName s n, none) :: block names (fun _ => none) s := by
        simp only [block, List.zipIdx_cons, List.map_cons, List.cons.injEq, true_and]
        rw [List.zipIdx_succ, List.map_map]
        rfl
      by_cases h : s = own
      · simp only [h, if_true, List.length_append, List.length_cons, List.length_nil, List.append_assoc, List.cons_append, List.nil_append]
        subst h
        rw [hb, List.range'_succ]
      · simp only [if_neg h, hb, List.append_assoc, List.cons_append, List.nil_append]
    · intro v hv m hm
      rcases List.mem_append.1 hv with hv | hv
      · exact hnew v hv m (by simp [hm])
      · rw [List.mem_singleton.1 hv]
        intro e
        exact hnd.1 ((variableName_inj e).2 ▸ hm)

theorem defineGroups_ok {samples : List Nat} {p own : Nat} (hp : samples[p]? = some own) {names : List Str} (hnames : names.Nodup) : ∀ (l : List Nat) (f : NcFile K C) (ids : List Nat), l.Nodup →
    (∀ v ∈ f.vars, ∀ s ∈ l, ∀ n ∈ names, v.1 ≠ variableName s n) →
    (l.flatMap fun s => names.map fun n => (groupName s, n)).foldlM (defineOne (makeGroupNames samples) p) (f, ids) =
      .ok ({ f with vars := f.vars ++ l.flatMap (block names fun _ => none) },
        if own ∈ l then ids ++ List.range' (f.vars.length + l.idxOf own * names.length) names.length else ids) := by
  intro l
  induction l with
  | nil => intro f ids _ _; simp [Res.pure_eq]
  | cons s l ih =>
    intro f ids hnd hnew
    rw [List.nodup_cons] at hnd
    rw [List.flatMap_cons, List.foldlM_append, defineGroup_ok hp s names f ids hnames fun v hv n hn => hnew v hv s (by simp) n hn, Res.ok_bind, ih _ _ hnd.2]
    · simp only [List.length_append, block_length, List.append_assoc, List.flatMap_cons]
      by_cases h : s = own
      · subst h
        rw [if_neg hnd.1, if_pos rfl, if_pos (by simp), List.idxOf_cons_self, Nat.zero_mul, Nat.add_zero]
      · by_cases hl : own ∈ l
        · rw [if_pos hl, if_neg h, if_pos (by simp [hl]), List.idxOf_cons_ne _ h, Nat.succ_mul, Nat.add_assoc, Nat.add_comm names.length]
        · rw [if_neg hl, if_neg h, if_neg (by simp [hl, Ne.symm h])]
    · intro v hv t ht n hn
      rcases List.mem_append.1 hv with hv | hv
      · exact hnew v hv t (by simp [ht]) n hn
      · obtain ⟨i, m, -, rfl⟩ := mem_block.1 hv
        intro e
        exact hnd.1 ((variableName_inj e).1 ▸ ht)

theorem makeDataset_ok {samples : List Nat} (hs : samples.Nodup) {names : List Str} (hnames : names.Nodup) (p : Nat) (hp : p < samples.length) (f : NcFile K C)
    (hnew : ∀ v ∈ f.vars, ∀ s ∈ samples, ∀ n ∈ names, v.1 ≠ variableName s n) :
    makeDataset (makeGroupNames samples) p names f =
      .ok ({ f with vars := f.vars ++ samples.flatMap (block names fun _ => none) }, List.range' (f.vars.length + p * names.length) names.length) := by
  have h := defineGroups_ok (List.getElem?_eq_getElem hp) hnames samples f [] hs hnew
  rw [if_pos (List.getElem_mem hp), List.nil_append, List.Nodup.idxOf_getElem hs] at h
  rw [← h]
  unfold makeDataset makeGroupNames
  rw [List.flatMap_map]
  rfl

/-! ### The contents -/

theorem putVar_ok {id : Nat} {f : NcFile K C} {v : Str × Option C} (c : C) (h : f.vars[id]? = some v) : putVar id c f = .ok { f with vars := f.vars.set id (v.1, some c) } := by
  unfold putVar
  rw [h]

/-- Writing the variables, in any order: every variable of a process gets its content. -/
theorem puts_ok {store : V → Nat → Res C} {value : V → Nat → C} {samples : List Nat} (hs : samples.Nodup) {names : List Str} (hnames : names.Nodup) (us : Nat → Option (V × K))
    (file : NcFile K C) (hnew : ∀ v ∈ file.vars, ∀ s ∈ samples, ∀ n ∈ names, v.1 ≠ variableName s n) (state : Nat → V)
    (hus : ∀ p < samples.length, ∃ t, us p = some (state p, t)) (hstore : ∀ p < samples.length, ∀ i < names.length, store (state p) i = .ok (value (state p) i))
    (order : Nat → List Nat) (horder : ∀ i, (order i).Perm (List.range samples.length)) (f : NcFile K C)
    (hf : f.vars = file.vars ++ samples.flatMap (block names fun _ => none)) :
    ∃ f', (List.range names.length).foldlM (fun f i => (order i).foldlM (writeOne store names (makeGroupNames samples) us file i) f) f = .ok f' ∧ f'.time = f.time ∧
      f'.vars.length = f.vars.length ∧ (∀ j < file.vars.length, f'.vars[j]? = file.vars[j]?) ∧
      ∀ p i s n, samples[p]? = some s → names[i]? = some n → f'.vars[file.vars.length + (p * names.length + i)]? = some (variableName s n, some (value (state p) i)) := by
  set m := names.length with hm
  set a := file.vars.length with ha
  have hget : ∀ p i s n, samples[p]? = some s → names[i]? = some n → f.vars[a + (p * m + i)]? = some (variableName s n, none) := by
    intro p i s n hp hi
    have him : i < m := (List.getElem?_eq_some_iff.1 hi).1
    rw [hf, List.getElem?_append_right (by omega), ← ha, Nat.add_sub_cancel_left, flatMap_get? _ _ m (fun s _ => block_length names _ s) p i him, hp, Option.bind_some,
      block_get, hi]
    rfl
  -- what holds after the writes `done`
  let P : (Nat → Nat → Prop) → NcFile K C → Prop := fun done g => g.time = f.time ∧ g.vars.length = f.vars.length ∧ (∀ j < a, g.vars[j]? = file.vars[j]?) ∧
    ∀ p i s n, samples[p]? = some s → names[i]? = some n →
      (done i p → g.vars[a + (p * m + i)]? = some (variableName s n, some (value (state p) i))) ∧
      ∃ c, g.vars[a + (p * m + i)]? = some (variableName s n, c)
  have step : ∀ done g p i, P done g → p < samples.length → i < m →
      ∃ g', writeOne store names (makeGroupNames samples) us file i g p = .ok g' ∧ P (fun j q => done j q ∨ (j = i ∧ q = p)) g' := by
    rintro done g p i ⟨h1, h2, h3, h4⟩ hp hi
    obtain ⟨t, hu⟩ := hus p hp
    obtain ⟨-, c, hc⟩ := h4 p i _ _ (List.getElem?_eq_getElem hp) (List.getElem?_eq_getElem hi)
    refine ⟨{ g with vars := g.vars.set (a + (p * m + i)) (variableName samples[p] names[i], some (value (state p) i)) }, ?_, ?_⟩
    · unfold writeOne
      rw [makeDataset_ok hs hnames p hp file hnew, Res.ok_bind]
      have : (List.range' (file.vars.length + p * names.length) names.length)[i]? = some (a + (p * m + i)) := by
        rw [List.getElem?_range' hi, Nat.one_mul, ← ha, ← hm, Nat.add_assoc]
      simp only [this, hu, hstore p hp i hi, Res.ok_bind]
      exact putVar_ok _ hc
    · refine ⟨h1, by simpa using h2, fun j hj => ?_, fun q j s n hq hj => ?_⟩
      · simp only [List.getElem?_set]
        rw [if_neg (by omega)]
        exact h3 j hj
      · have hjm : j < m := (List.getElem?_eq_some_iff.1 hj).1
        by_cases he : j = i ∧ q = p
        · obtain ⟨rfl, rfl⟩ := he
          have hlt : a + (q * m + j) < g.vars.length := (List.getElem?_eq_some_iff.1 hc).1
          obtain ⟨-, c', hc'⟩ := h4 q j s n hq hj
          have e : variableName samples[q] names[j] = variableName s n := congrArg Prod.fst (Option.some.inj (hc.symm.trans hc'))
          simp only [List.getElem?_set, if_true, if_pos hlt, e]
          exact ⟨fun _ => trivial, _, rfl⟩
        · have hne : a + (p * m + i) ≠ a + (q * m + j) := by
            intro e
            apply he
            have e' : p * m + i = q * m + j := by omega
            have h1 : (p * m + i) / m = (q * m + j) / m := by rw [e']
            rw [Nat.mul_comm p, Nat.mul_comm q, Nat.mul_add_div (by omega), Nat.mul_add_div (by omega), Nat.div_eq_of_lt hi, Nat.div_eq_of_lt hjm] at h1
            have : p = q := by omega
            subst this
            exact ⟨by omega, rfl⟩
          simp only [List.getElem?_set, if_neg hne]
          refine ⟨fun hd => (h4 q j s n hq hj).1 ?_, (h4 q j s n hq hj).2⟩
          rcases hd with hd | hd
          · exact hd
          · exact absurd hd he
  have inner : ∀ i < m, ∀ (l : List Nat), (∀ p ∈ l, p < samples.length) → ∀ done g, P done g →
      ∃ g', l.foldlM (writeOne store names (makeGroupNames samples) us file i) g = .ok g' ∧ P (fun j q => done j q ∨ (j = i ∧ q ∈ l)) g' := by
    intro i hi l
    induction l with
    | nil => exact fun _ done g h => ⟨g, rfl, by simpa using h⟩
    | cons p l ih =>
      intro hl done g h
      obtain ⟨g1, e1, h1⟩ := step done g p i h (hl p (by simp)) hi
      obtain ⟨g2, e2, h2⟩ := ih (fun q hq => hl q (by simp [hq])) _ g1 h1
      refine ⟨g2, by rw [List.foldlM_cons, e1]; exact e2, ?_⟩
      have : (fun j q => done j q ∨ (j = i ∧ q ∈ p :: l)) = fun j q => (done j q ∨ (j = i ∧ q = p)) ∨ (j = i ∧ q ∈ l) := by
        funext j q
        simp only [List.mem_cons, eq_iff_iff]
        tauto
      rw [this]
      exact h2
  obtain ⟨g, e, h1, h2, h3, h4⟩ := foldlM_inv (fun f i => (order i).foldlM (writeOne store names (makeGroupNames samples) us file i) f) (List.range m) f
    (fun pre g => P (fun j q => j ∈ pre ∧ q < samples.length) g)
    (by
      refine ⟨rfl, rfl, fun j hj => ?_, fun p i s n hp hi => ⟨fun h => absurd h.1 (by simp), none, hget p i s n hp hi⟩⟩
      rw [hf, List.getElem?_append_left hj])
    (by
      intro pre i post g hl h
      have hi : i < m := List.mem_range.1 (by rw [hl]; simp)
      obtain ⟨g', e, h'⟩ := inner i hi (order i) (fun p hp => List.mem_range.1 ((horder i).mem_iff.1 hp)) _ g h
      refine ⟨g', e, ?_⟩
      have : (fun j q => j ∈ pre ++ [i] ∧ q < samples.length) = fun j q => (j ∈ pre ∧ q < samples.length) ∨ (j = i ∧ q ∈ order i) := by
        funext j q
        simp only [List.mem_append, List.mem_singleton, (horder i).mem_iff, List.mem_range, eq_iff_iff]
        tauto
      rw [this]
      exact h')
  refine ⟨g, e, h1, h2, h3, fun p i s n hp hi => (h4 p i s n hp hi).1 ⟨List.mem_range.2 (List.getElem?_eq_some_iff.1 hi).1, (List.getElem?_eq_some_iff.1 hp).1⟩⟩

/-- One write of all processes: the variables of their samples are added. If the file is new it gets the time of one of the processes. -/
theorem writeFile_ok {store : V → Nat → Res C} {value : V → Nat → C} {samples : List Nat} (hs : samples.Nodup) (hne : samples ≠ []) {names : List Str} (hnames : names.Nodup)
    (runs : Nat → List (V × K)) (k : Nat) (state : Nat → V) (time : Nat → K) (hruns : ∀ s ∈ samples, (runs s)[k]? = some (state s, time s))
    (hstore : ∀ s ∈ samples, ∀ i < names.length, store (state s) i = .ok (value (state s) i))
    (order : Nat → List Nat) (horder : ∀ i, (order i).Perm (List.range samples.length)) (newFile : Bool) (old : Option (NcFile K C)) (file : NcFile K C)
    (hfile : if newFile then file = ⟨none, []⟩ else old = some file) (hnew : ∀ v ∈ file.vars, ∀ s ∈ samples, ∀ n ∈ names, v.1 ≠ variableName s n) :
    ∃ f, writeFile store names order (makeGroupNames samples) newFile (fun p => samples[p]?.bind fun q => (runs q)[k]?) old = .ok f ∧
      f.vars = file.vars ++ samples.flatMap (fun s => block names (fun i => some (value (state s) i)) s) ∧
      if newFile then ∃ s ∈ samples, f.time = some (time s) else f.time = file.time := by
  have hpos : 0 < samples.length := List.length_pos_iff.2 hne
  let st : Nat → V := fun p => state (samples.getD p 0)
  have hst : ∀ (p s : Nat), samples[p]? = some s → st p = state s := by
    intro p s hp
    simp only [st, List.getD_eq_getElem?_getD, hp, Option.getD_some]
  have hus : ∀ (p s : Nat), samples[p]? = some s → (samples[p]?.bind fun q => (runs q)[k]?) = some (state s, time s) := by
    intro p s hp
    rw [hp, Option.bind_some]
    exact hruns s (List.mem_of_getElem? hp)
  obtain ⟨f', e, h1, h2, h3, h4⟩ := puts_ok (store := store) (value := value) hs hnames (fun p => samples[p]?.bind fun q => (runs q)[k]?) file hnew st
    (fun p hp => ⟨time samples[p], by
      have hp' := List.getElem?_eq_getElem hp
      rw [hst p _ hp']
      exact hus p _ hp'⟩)
    (fun p hp i hi => by
      have hp' := List.getElem?_eq_getElem hp
      rw [hst p _ hp']
      exact hstore _ (List.getElem_mem hp) i hi)
    order horder { file with vars := file.vars ++ samples.flatMap (block names fun _ => none) } rfl
  have hvars : f'.vars = file.vars ++ samples.flatMap (fun s => block names (fun i => some (value (state s) i)) s) := by
    apply List.ext_getElem?
    intro j
    by_cases hj : j < file.vars.length
    · rw [h3 j hj, List.getElem?_append_left hj]
    · set m := names.length with hm
      rw [List.getElem?_append_right (by omega)]
      by_cases hend : j < f'.vars.length
      · have hlen : f'.vars.length = file.vars.length + samples.length * m := by
          rw [h2, List.length_append, flatMap_length _ _ m fun s _ => block_length names _ s]
        have hmpos : 0 < m := by
          rcases Nat.eq_zero_or_pos m with h0 | h0
          · rw [h0, Nat.mul_zero] at hlen
            omega
          · exact h0
        set d := j - file.vars.length with hd
        have hdj : j = file.vars.length + d := by omega
        have hdec : d = d / m * m + d % m := by rw [Nat.mul_comm]; exact (Nat.div_add_mod d m).symm
        have hp : d / m < samples.length := by
          rw [Nat.div_lt_iff_lt_mul hmpos]
          omega
        have hi : d % m < m := Nat.mod_lt _ hmpos
        have := h4 (d / m) (d % m) _ _ (List.getElem?_eq_getElem hp) (List.getElem?_eq_getElem hi)
        rw [← hdec, ← hdj, hst _ _ (List.getElem?_eq_getElem hp)] at this
        rw [this]
        conv_rhs => rw [hdec]
        rw [flatMap_get? _ _ m (fun s _ => block_length names _ s) _ _ hi, List.getElem?_eq_getElem hp, Option.bind_some, block_get, List.getElem?_eq_getElem hi]
        rfl
      · rw [List.getElem?_eq_none (by omega), List.getElem?_eq_none]
        rw [flatMap_length _ _ m fun s _ => block_length names _ s]
        rw [h2, List.length_append, flatMap_length _ _ m fun s _ => block_length names _ s] at hend
        omega
  have hdef := makeDataset_ok hs hnames 0 hpos file hnew
  have hopen : openFile newFile old = .ok file := by
    unfold openFile
    cases newFile
    · simp only [Bool.false_eq_true, if_false] at hfile ⊢
      simp only [hfile]
    · simp only [if_true] at hfile ⊢
      rw [hfile]
  unfold writeFile
  rw [hopen, Res.ok_bind, hdef, Res.ok_bind, e, Res.ok_bind]
  cases newFile
  · simp only [Bool.false_eq_true, if_false]
    exact ⟨f', rfl, hvars, h1⟩
  · simp only [if_true]
    obtain ⟨g, e', h5, h6⟩ := foldlM_inv (fun (f : NcFile K C) p => match samples[p]?.bind fun q => (runs q)[k]? with
        | none => (.error .ub : Res (NcFile K C))
        | some u => .ok { f with time := some u.2 }) (order names.length) f'
      (fun pre g => g.vars = f'.vars ∧ (pre ≠ [] → ∃ s ∈ samples, g.time = some (time s))) ⟨rfl, fun h => absurd rfl h⟩ (by
        rintro pre p post g hl ⟨i1, -⟩
        have hp : p < samples.length := List.mem_range.1 ((horder _).mem_iff.1 (by rw [hl]; simp))
        refine ⟨{ g with time := some (time samples[p]) }, by rw [hus p _ (List.getElem?_eq_getElem hp)], i1, fun _ => ⟨_, List.getElem_mem hp, rfl⟩⟩)
    refine ⟨g, e', h5.trans hvars, h6 fun h0 => ?_⟩
    have := (horder names.length).length_eq
    rw [h0, List.length_range] at this
    simp at this
    omega

/-! ### The run -/

/-- The name of the file of a save. -/
def fileName (base : String) (k : Nat) : String := (Output.netcdfFilename base k).1

theorem fileName_inj {base : String} {k l : Nat} (h : fileName base k = fileName base l) : k = l := by
  by_contra hne
  refine Props.Output.C42_names_differ base base k l (by simpa using hne) ?_
  have := congrArg String.toList h
  simp only [fileName, Output.netcdfFilename, String.toList_append] at this
  exact String.toList_injective (List.append_cancel_right this)

/-- The variables of a sample in the file of a save. -/
def made (names : List Str) (value : V → Nat → C) (runs : Nat → List (V × K)) (k s : Nat) : List (Str × Option C) :=
  block names (fun i => (runs s)[k]?.map fun e => value e.1 i) s

/-- A round of samples. -/
theorem writeRound_ok {store : V → Nat → Res C} {value : V → Nat → C} {samples : List Nat} (hs : samples.Nodup) (hne : samples ≠ []) {names : List Str} (hnames : names.Nodup)
    (runs : Nat → List (V × K)) (L : Nat) (hL : ∀ s ∈ samples, (runs s).length = L)
    (hstore : ∀ s ∈ samples, ∀ e ∈ runs s, ∀ i < names.length, store e.1 i = .ok (value e.1 i))
    (order : Nat → Nat → List Nat) (horder : ∀ k i, (order k i).Perm (List.range samples.length)) (base : String) (newFile : Bool) (disk : Disk K C) (file : Nat → NcFile K C)
    (hfile : ∀ k < L, if newFile then file k = ⟨none, []⟩ else disk (fileName base k) = some (file k))
    (hnew : ∀ k < L, ∀ v ∈ (file k).vars, ∀ s ∈ samples, ∀ n ∈ names, v.1 ≠ variableName s n) :
    ∃ disk', writeRound store names order base runs newFile samples disk = .ok disk' ∧
      (∀ k < L, ∃ f, disk' (fileName base k) = some f ∧ f.vars = (file k).vars ++ samples.flatMap (made names value runs k) ∧
        if newFile then ∃ s ∈ samples, ∃ e, (runs s)[k]? = some e ∧ f.time = some e.2 else f.time = (file k).time) ∧
      ∀ name, (∀ k < L, name ≠ fileName base k) → disk' name = disk name := by
  obtain ⟨s, rest, rfl⟩ := List.exists_cons_of_ne_nil hne
  have hall : ((s :: rest).all fun q => (runs q).length == L) = true := by
    rw [List.all_eq_true]
    intro q hq
    simp [hL q hq]
  unfold writeRound
  simp only [hL s (by simp), hall, if_true]
  obtain ⟨st, e, h1, h2, h3⟩ := foldlM_inv (fun (st : Nat × Disk K C) k => do
        let name := Output.netcdfFilename base st.1
        let f ← writeFile store names (order k) (makeGroupNames (s :: rest)) newFile (fun p => (s :: rest)[p]?.bind fun q => (runs q)[k]?) (st.2 name.1)
        .ok (name.2, Function.update st.2 name.1 (some f))) (List.range L) (0, disk)
    (fun pre st => st.1 = pre.length ∧ (∀ k < pre.length, ∃ f, st.2 (fileName base k) = some f ∧ f.vars = (file k).vars ++ (s :: rest).flatMap (made names value runs k) ∧
        if newFile then ∃ s' ∈ s :: rest, ∃ e, (runs s')[k]? = some e ∧ f.time = some e.2 else f.time = (file k).time) ∧
      ∀ name, (∀ k < pre.length, name ≠ fileName base k) → st.2 name = disk name)
    ⟨rfl, fun k hk => absurd hk (Nat.not_lt_zero k), fun _ _ => rfl⟩ (by
      rintro pre k post ⟨n, d⟩ hl ⟨i1, i2, i3⟩
      have hk : k = pre.length := by
        have := congrArg (fun l => l[pre.length]?) hl
        simp only [List.getElem?_append_right (Nat.le_refl _), Nat.sub_self, List.getElem?_cons_zero] at this
        obtain ⟨hlt, he⟩ := List.getElem?_eq_some_iff.1 this
        simpa using he.symm
      simp only at i1 i2 i3
      have hkL : k < L := List.mem_range.1 (by rw [hl]; simp)
      rw [← hk] at i1 i2 i3
      subst i1
      have hex : ∀ q ∈ s :: rest, ∃ e, (runs q)[n]? = some e := fun q hq => ⟨_, List.getElem?_eq_getElem (by rw [hL q hq]; exact hkL)⟩
      obtain ⟨e0, -⟩ := hex s (by simp)
      have hrun : ∀ q ∈ s :: rest, (runs q)[n]? = some (((runs q)[n]?.getD e0).1, ((runs q)[n]?.getD e0).2) := by
        intro q hq
        obtain ⟨e, he⟩ := hex q hq
        rw [he]
        rfl
      obtain ⟨f, e, g1, g2⟩ := writeFile_ok (store := store) (value := value) hs hne hnames runs n (fun q => ((runs q)[n]?.getD e0).1) (fun q => ((runs q)[n]?.getD e0).2) hrun
        (fun q hq i hi => hstore q hq _ (List.mem_of_getElem? (hrun q hq)) i hi) (order n) (horder n) newFile (d (fileName base n)) (file n)
        (by
          have := hfile n hkL
          cases newFile
          · simp only [Bool.false_eq_true, if_false] at this ⊢
            rw [i3 _ fun j hj h => by have := fileName_inj h; omega]
            exact this
          · exact this)
        (hnew n hkL)
      refine ⟨(n + 1, Function.update d (fileName base n) (some f)), ?_, ?_, ?_, ?_⟩
      · show (writeFile store names (order n) _ newFile _ (d (fileName base n)) >>= _) = _
        rw [e]
        rfl
      · simp [← hk]
      · intro j hj
        rw [List.length_append, List.length_singleton, ← hk] at hj
        by_cases hjn : j = n
        · subst hjn
          refine ⟨f, Function.update_self .., ?_, ?_⟩
          · rw [g1]
            congr 1
            rw [List.flatMap_def, List.flatMap_def]
            congr 1
            apply List.map_congr_left
            intro q hq
            unfold made
            congr 1
            funext i
            rw [hrun q hq]
            rfl
          · cases newFile
            · exact g2
            · obtain ⟨q, hq, ht⟩ := g2
              exact ⟨q, hq, _, hrun q hq, ht⟩
        · obtain ⟨f', a, b⟩ := i2 j (by omega)
          exact ⟨f', by
            show Function.update d _ _ _ = _
            rw [Function.update_of_ne fun h => hjn (fileName_inj h)]
            exact a, b⟩
      · intro name hname
        rw [List.length_append, List.length_singleton, ← hk] at hname
        show Function.update d _ _ _ = _
        rw [Function.update_of_ne (hname n (by omega))]
        exact i3 name fun j hj => hname j (by omega))
  rw [e, Res.ok_bind]
  rw [List.length_range] at h2 h3
  exact ⟨st.2, rfl, h2, h3⟩

/-- The samples of all processes, round by round, are the samples process by process in another order. -/
theorem rounds_perm {α : Type} (n : Nat) : ∀ (shares : List (List α)), (∀ q ∈ shares, q.length = n) →
    ((List.range n).map fun i => shares.filterMap fun q => q[i]?).flatten.Perm shares.flatten := by
  intro shares
  induction shares with
  | nil => intro _; simp
  | cons q shares ih =>
    intro h
    have hq := h q (by simp)
    have hcol : (List.range n).flatMap (fun i => q[i]?.toList) = q := by
      rw [← hq]
      clear h hq ih
      induction q with
      | nil => rfl
      | cons a q ih =>
        rw [List.length_cons, List.range_succ_eq_map, List.flatMap_cons, List.flatMap_map]
        simpa using ih
    have hstep : ((List.range n).map fun i => (q :: shares).filterMap fun q => q[i]?).flatten = (List.range n).flatMap fun i => q[i]?.toList ++ shares.filterMap fun q => q[i]? := by
      rw [List.flatMap_def]
      congr 1
      apply List.map_congr_left
      intro i _
      rw [List.filterMap_cons]
      rcases q[i]? with _ | a <;> rfl
    rw [hstep, List.flatten_cons]
    refine (List.flatMap_append_perm _ _ _).symm.trans ?_
    rw [hcol]
    refine List.Perm.append_left q ?_
    rw [List.flatMap_def]
    exact ih fun r hr => h r (by simp [hr])

/-- All rounds. -/
theorem rounds_ok {store : V → Nat → Res C} {value : V → Nat → C} (rounds : Nat → List Nat) (n P : Nat) (hP : 0 < P) (hn : 0 < n) (hlen : ∀ i < n, (rounds i).length = P)
    (hnd : ((List.range n).map rounds).flatten.Nodup) {names : List Str} (hnames : names.Nodup)
    (runs : Nat → List (V × K)) (L : Nat) (hL : ∀ i < n, ∀ s ∈ rounds i, (runs s).length = L)
    (hstore : ∀ i < n, ∀ s ∈ rounds i, ∀ e ∈ runs s, ∀ j < names.length, store e.1 j = .ok (value e.1 j))
    (order : Nat → Nat → Nat → List Nat) (horder : ∀ i k j, (order i k j).Perm (List.range P)) (base : String) (disk : Disk K C) :
    ∃ disk', ((List.range n).foldlM (fun (st : Bool × Disk K C) i => do
        let d ← writeRound store names (order i) base runs st.1 (rounds i) st.2
        .ok (false, d)) (true, disk)) = .ok (false, disk') ∧
      (∀ k < L, ∃ f, disk' (fileName base k) = some f ∧ f.vars = ((List.range n).map rounds).flatten.flatMap (made names value runs k) ∧
        ∃ s ∈ rounds 0, ∃ e, (runs s)[k]? = some e ∧ f.time = some e.2) ∧
      ∀ name, (∀ k < L, name ≠ fileName base k) → disk' name = disk name := by
  obtain ⟨st, e, h⟩ := foldlM_inv (fun (st : Bool × Disk K C) i => do
        let d ← writeRound store names (order i) base runs st.1 (rounds i) st.2
        .ok (false, d)) (List.range n) (true, disk)
    (fun pre st => st.1 = decide (pre = []) ∧ (pre ≠ [] → ∀ k < L, ∃ f, st.2 (fileName base k) = some f ∧ f.vars = (pre.map rounds).flatten.flatMap (made names value runs k) ∧
        ∃ s ∈ rounds 0, ∃ e, (runs s)[k]? = some e ∧ f.time = some e.2) ∧
      ∀ name, (∀ k < L, name ≠ fileName base k) → st.2 name = disk name)
    ⟨rfl, fun h => absurd rfl h, fun _ _ => rfl⟩ (by
      rintro pre i post ⟨b, d⟩ hl ⟨i1, i2, i3⟩
      simp only at i1 i2 i3
      have hi : i < n := List.mem_range.1 (by rw [hl]; simp)
      rw [hl, List.map_append, List.map_cons, List.flatten_append, List.flatten_cons] at hnd
      have hnd1 := List.nodup_append.1 hnd
      have hnd2 := (List.nodup_append.1 hnd1.2.1).1
      have hne : rounds i ≠ [] := by
        intro h0
        have := hlen i hi
        rw [h0] at this
        simp at this
        omega
      let file : Nat → NcFile K C := fun k => if b then ⟨none, []⟩ else (d (fileName base k)).getD ⟨none, []⟩
      have hold : b = false → ∀ k < L, ∃ f, d (fileName base k) = some f ∧ file k = f ∧ f.vars = (pre.map rounds).flatten.flatMap (made names value runs k) ∧
          ∃ s ∈ rounds 0, ∃ e, (runs s)[k]? = some e ∧ f.time = some e.2 := by
        intro hb k hk
        rw [hb] at i1
        obtain ⟨f, a1, a2⟩ := i2 (by simpa using i1.symm) k hk
        exact ⟨f, a1, by simp [file, hb, a1], a2⟩
      obtain ⟨d', e, g1, g2⟩ := writeRound_ok (store := store) (value := value) hnd2 hne hnames runs L (hL i hi) (hstore i hi) (order i)
        (fun k j => by rw [hlen i hi]; exact horder i k j) base b d file
        (by
          intro k hk
          cases hb : b
          · obtain ⟨f, a1, a2, -⟩ := hold hb k hk
            simp only [Bool.false_eq_true, if_false]
            rw [a1, a2]
          · simp [file, hb])
        (by
          intro k hk v hv s hs nm hnm hvn
          cases hb : b
          · obtain ⟨f, -, a2, a3, -⟩ := hold hb k hk
            rw [a2, a3] at hv
            obtain ⟨s', hs', hv'⟩ := List.mem_flatMap.1 hv
            obtain ⟨j, nm', -, rfl⟩ := mem_block.1 hv'
            have := (variableName_inj hvn).1
            subst this
            exact hnd1.2.2 s' hs' s' (by simp [hs]) rfl
          · simp [file, hb] at hv)
      refine ⟨(false, d'), ?_, by simp, fun _ k hk => ?_, fun name hname => (g2 name hname).trans (i3 name hname)⟩
      · show (writeRound store names (order i) base runs b (rounds i) d >>= _) = _
        rw [e]
        rfl
      · obtain ⟨f, a1, a2, a3⟩ := g1 k hk
        refine ⟨f, a1, ?_, ?_⟩
        · rw [a2, List.map_append, List.flatten_append, List.flatMap_append, List.map_singleton, List.flatten_singleton]
          congr 1
          cases hb : b
          · obtain ⟨f', -, b2, b3, -⟩ := hold hb k hk
            rw [b2, b3]
          · rw [hb] at i1
            have : pre = [] := by simpa using i1.symm
            simp [file, hb, this]
        · cases hb : b
          · obtain ⟨f', -, b2, -, b3⟩ := hold hb k hk
            rw [hb] at a3
            simp only [Bool.false_eq_true, if_false] at a3
            rw [a3, b2]
            exact b3
          · rw [hb] at a3 i1
            have hpre : pre = [] := by simpa using i1.symm
            have hi0 : i = 0 := by
              rw [hpre] at hl
              have := congrArg List.head? hl
              simp only [List.nil_append, List.head?_cons, List.head?_range] at this
              split at this
              · cases this
              · exact (Option.some.inj this).symm
            rw [hi0] at a3
            exact a3)
  obtain ⟨b, d⟩ := st
  have hne : List.range n ≠ [] := by
    intro h0
    have := congrArg List.length h0
    simp at this
    omega
  obtain ⟨h1, h2, h3⟩ := h
  simp only [hne, decide_false] at h1
  subst h1
  exact ⟨d, e, h2 hne, h3⟩

end Verif.SampleFiles
