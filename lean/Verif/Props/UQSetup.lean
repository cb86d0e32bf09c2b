import Verif.UQSetupLemmas
import Verif.Props.Setup

/-!
C91: the configuration of a run with samples is read as it says.
-/

namespace Verif.Props.UQSetup
open Params Verif.Setup Verif.UQSetup
variable {K S : Type} [Field K] [LinearOrder K] [IsStrictOrderedRing K] [FloorRing K]

/-- C91: reading the file succeeds exactly for a file that describes a run with samples, and gives what the file says. `NoBounds`: no parameter has bounds of its own (they would be
ignored: `C91_fails_for_bounds`); `AllTimed`: every statistic says when it is to be evaluated (it would be dropped: `C91_statistic_dropped`). `print` writes a number as text. -/
theorem C91_as_described_partial (conv : Conv K) (print : K → Str) (library : Str → Nat → Nat → Tree → Res (UQ.Dist K)) (make : Str → Str → Nat → Tree → Res S) (names : S → List Str)
    (root : Tree) (h0 : conv.real (print 0) = some 0) (h1 : conv.real (print 1) = some 1) (hl : LibraryIgnores library) (hb : NoBounds root) (ht : AllTimed root) (s : UQSettings K S) :
    readUQ conv print library make names root = .ok s ↔ UQDescribed conv library make names root s := readUQ_iff h0 h1 hl hb ht s

/-- C91: a file that does not describe a run with samples is refused with an exception, if the number of samples can be converted. -/
theorem C91_otherwise_refused_partial (conv : Conv K) (print : K → Str) (library : Str → Nat → Nat → Tree → Res (UQ.Dist K)) (make : Str → Str → Nat → Tree → Res S) (names : S → List Str)
    (root : Tree) (h0 : conv.real (print 0) = some 0) (h1 : conv.real (print 1) = some 1) (hl : LibraryIgnores library) (hb : NoBounds root) (ht : AllTimed root)
    (hc : CountFits conv root) (hlib : ∀ a b c d, library a b c d ≠ .error .ub) (hm : ∀ a b c d, make a b c d ≠ .error .ub)
    (h : ∀ s : UQSettings K S, ¬ UQDescribed conv library make names root s) : readUQ conv print library make names root = .error .thrown := by
  have hs : Safe (readUQ conv print library make names root) := readUQ_safe hlib hm hc
  cases hr : readUQ conv print library make names root with
  | ok s => exact absurd ((readUQ_iff h0 h1 hl hb ht s).1 hr) (h s)
  | error e =>
    cases e with
    | thrown => rfl
    | ub => exact absurd hr hs

omit [IsStrictOrderedRing K] in
/-- C91 fails for a number of samples that is negative or too large: its conversion is undefined behaviour, whatever else the file says. -/
theorem C91_undefined_number (conv : Conv K) (print : K → Str) (library : Str → Nat → Nat → Tree → Res (UQ.Dist K)) (make : Str → Str → Nat → Tree → Res S) (names : S → List Str)
    (root : Tree) (x : K) (hx : Value conv.real root ["config", "uq", "samples"] x) (h : x ≤ -1 ∨ 2 ^ 64 ≤ x) : readUQ conv print library make names root = .error .ub := by
  obtain ⟨config, hc, hx⟩ := value_cons.1 hx
  unfold readUQ makeSampleGenerator readNumberOfSamples toSizeT
  rw [child_one hc, Res.ok_bind, get_iff.2 hx, Res.ok_bind, if_neg]
  · rfl
  · rintro ⟨h1, h2⟩
    rcases h with h | h
    · exact absurd h1 (not_lt.2 h)
    · exact absurd h2 (not_lt.2 h)

omit [Field K] [LinearOrder K] [IsStrictOrderedRing K] [FloorRing K] in
theorem mapM_none {α β : Type} {f : α → Res (Option β)} : ∀ {l : List α} {os : List (Option β)}, l.mapM f = .ok os → (∃ a ∈ l, ∀ o, f a = .ok o → o = none) →
    (os.filterMap id).length < l.length := by
  intro l os h
  rw [mapM_iff] at h
  induction h with
  | nil => rintro ⟨a, ha, -⟩; cases ha
  | @cons a o l os h1 h2 ih =>
    rintro ⟨b, hb, hn⟩
    have hle : (os.filterMap id).length ≤ l.length := (List.length_filterMap_le _ _).trans_eq h2.length_eq.symm
    rcases List.mem_cons.1 hb with rfl | hb
    · cases hn o h1
      simpa using Nat.lt_succ_of_le hle
    · have := ih ⟨b, hb, hn⟩
      cases o <;> simp at this ⊢ <;> omega

omit [IsStrictOrderedRing K] in
/-- C91 fails for a statistic that does not say when it is to be evaluated: it is dropped without an error, whatever else the file says. -/
theorem C91_statistic_dropped (conv : Conv K) (print : K → Str) (library : Str → Nat → Nat → Tree → Res (UQ.Dist K)) (make : Str → Str → Nat → Tree → Res S) (names : S → List Str)
    (root entries : Tree) (he : At root ["config", "uq", "stats"] entries) (c : Str × Tree) (hc : c ∈ entries.children) (h1 : Absent c.2 "numberOfSaves") (h2 : Absent c.2 "time")
    (s : UQSettings K S) (hs : readUQ conv print library make names root = .ok s) : s.statistics.length < entries.children.length := by
  obtain ⟨config, hcfg, uq, hu, e, he, rfl⟩ := he
  unfold readUQ at hs
  simp only [bind_iff, child_one hcfg, Except.ok.injEq, exists_eq_left'] at hs
  obtain ⟨ps, -, n, -, first, -, name, -, ss, hss, rfl⟩ := hs
  unfold createStatistics at hss
  simp only [bind_iff, Except.ok.injEq] at hss
  obtain ⟨node, hnode, platform, -, os, hos, rfl⟩ := hss
  rw [child_iff] at hnode
  cases At.unique hnode (show At config ["uq", "stats"] entries from ⟨uq, hu, entries, he, rfl⟩)
  refine mapM_none hos ⟨c, hc, fun o ho => ?_⟩
  unfold createStatistic at ho
  simp only [bind_iff, if_neg (has_not.2 h1), if_neg (has_not.2 h2), Except.ok.injEq] at ho
  obtain ⟨_, _, _, _, _, _, _, _, _, _, _, _, rfl⟩ := ho
  rfl

omit [Field K] [LinearOrder K] [IsStrictOrderedRing K] [FloorRing K] in
theorem setOrAdd_spec (ps : List (Str × List K)) (p : Str × List K) (hn : (ps.map Prod.fst).Nodup) :
    ((setOrAdd ps p).map Prod.fst).Nodup ∧ ∀ e, e ∈ setOrAdd ps p ↔ e = p ∨ (e ∈ ps ∧ e.1 ≠ p.1) := by
  unfold setOrAdd
  split
  · rename_i h
    have hk : (ps.map fun q => if q.1 = p.1 then p else q).map Prod.fst = ps.map Prod.fst := by
      rw [List.map_map]
      refine List.map_congr_left fun q _ => ?_
      simp only [Function.comp_apply]
      split
      · exact Eq.symm ‹_›
      · rfl
    refine ⟨hk ▸ hn, fun e => ?_⟩
    rw [List.mem_map]
    constructor
    · rintro ⟨q, hq, rfl⟩
      split
      · exact .inl rfl
      · exact .inr ⟨hq, ‹_›⟩
    · rintro (rfl | ⟨he, hne⟩)
      · obtain ⟨q, hq, e⟩ := List.mem_map.1 h
        exact ⟨q, hq, if_pos e⟩
      · exact ⟨e, he, if_neg hne⟩
  · rename_i h
    refine ⟨?_, fun e => ?_⟩
    · rw [List.map_append, List.nodup_append]
      refine ⟨hn, by simp, ?_⟩
      rintro a ha b hb rfl
      simp only [List.map_cons, List.map_nil, List.mem_singleton] at hb
      exact h (hb ▸ ha)
    · rw [List.mem_append, List.mem_singleton]
      constructor
      · rintro (he | rfl)
        · exact .inr ⟨he, fun hh => h (List.mem_map.2 ⟨e, he, hh⟩)⟩
        · exact .inl rfl
      · rintro (rfl | he)
        · exact .inr rfl
        · exact .inl he.1

omit [Field K] [LinearOrder K] [IsStrictOrderedRing K] [FloorRing K] in
/-- C91: the initial data of a sample get the drawn values for the random parameters and the values of the configuration for all others, each name once. -/
theorem C91_parameters (ps drawn : List (Str × List K)) (h : (ps.map Prod.fst).Nodup) (h' : (drawn.map Prod.fst).Nodup) :
    ((setParameters ps drawn).map Prod.fst).Nodup ∧
    ∀ name values, (name, values) ∈ setParameters ps drawn ↔ (name, values) ∈ drawn ∨ ((name, values) ∈ ps ∧ ∀ q ∈ drawn, q.1 ≠ name) := by
  unfold setParameters
  induction drawn generalizing ps with
  | nil => simp [h]
  | cons p drawn ih =>
    obtain ⟨hp, hd⟩ := List.nodup_cons.1 h'
    obtain ⟨h1, h2⟩ := setOrAdd_spec ps p h
    obtain ⟨ih1, ih2⟩ := ih (setOrAdd ps p) h1 hd
    refine ⟨ih1, fun name values => ?_⟩
    rw [List.foldl_cons, ih2, h2, List.mem_cons]
    constructor
    · rintro (h | ⟨h | h, hq⟩)
      · exact .inl (.inr h)
      · exact .inl (.inl h)
      · refine .inr ⟨h.1, fun q hq' => ?_⟩
        rcases List.mem_cons.1 hq' with rfl | hq'
        · exact fun e => h.2 e.symm
        · exact hq q hq'
    · rintro ((h | h) | ⟨h, hq⟩)
      · refine .inr ⟨.inl h, fun q hq e => hp (List.mem_map.2 ⟨q, hq, ?_⟩)⟩
        rw [e, ← h]
      · exact .inl h
      · exact .inr ⟨.inr ⟨h, fun e => hq p (by simp) e.symm⟩, fun q hq' => hq q (List.mem_cons_of_mem _ hq')⟩

example : setParameters [("X".toList, [(1 : ℚ)]), ("Y".toList, [2])] [("Y".toList, [5]), ("Z".toList, [6])] = [("X".toList, [1]), ("Y".toList, [5]), ("Z".toList, [6])] := by decide +kernel

/-! A file. -/

open Props.Setup (leaf inner digits)

/-- A random parameter with further options. -/
def parameter (name type : String) (more : List (Str × Tree)) : Str × Tree := inner "parameter" ([leaf "name" name, leaf "length" "1", leaf "type" type] ++ more)

/-- A statistic with further options. -/
def statistic (more : List (Str × Tree)) : Str × Tree := inner "stat" ([leaf "name" " mean ", inner "writer" [leaf "type" "netcdf", leaf "basename" "out"]] ++ more)

/-- A file with these parameters and statistics. -/
def uqFile (samples : String) (parameters statistics : List (Str × Tree)) : Tree :=
  .node [] [inner "config" [inner "fvm" [leaf "name" "shock", leaf "platform" "cpu", leaf "endTime" "1"],
    inner "uq" [leaf "samples" samples, leaf "generator" "auto", inner "parameters" parameters, inner "stats" statistics]]]

/-- Writes 0 and 1. -/
def printed (x : ℚ) : Str := if x = 0 then ['0'] else ['1']

/-- A library without distributions. -/
def noLibrary : Str → Nat → Nat → Tree → Res (UQ.Dist ℚ) := fun _ _ _ _ => .error .thrown

/-- The statistic is its name; it writes a file `mean` and a file `size`. -/
def byName : Str → Str → Nat → Tree → Res Str := fun _ name _ _ => .ok name
/-- The names of the two files. -/
def twoFiles : Str → List Str := fun _ => ["mean".toList, "size".toList]

example : digits.real (printed 0) = some 0 ∧ digits.real (printed 1) = some 1 := by decide +kernel
example : LibraryIgnores noLibrary := fun _ _ _ _ _ _ _ => rfl

/-- What the file says. -/
theorem sample_described (p : Str × Tree) (name : Str) (q : UQ.Param ℚ) (hp : RandomMeant digits noLibrary 16 p.2 (name, q)) :
    UQDescribed digits noLibrary byName twoFiles (uqFile "16" [p] [statistic [leaf "numberOfSaves" "2"]])
      ⟨16, 0, [(name, q)], "shock".toList, [⟨"mean".toList,
        [("mean".toList, .base "netcdf".toList "out_mean".toList (.node [] [leaf "type" "netcdf", leaf "basename" "out"])),
         ("size".toList, .base "netcdf".toList "out_size".toList (.node [] [leaf "type" "netcdf", leaf "basename" "out"]))], .fixed (some (1 / 2)) false⟩]⟩ := by
  refine ⟨_, _, at_one.1 (child_iff.1 rfl), at_one.1 (child_iff.1 rfl), ?_⟩
  refine ⟨⟨16, get_iff.1 (by rfl), by norm_num, .inl (by norm_num)⟩, .inr ⟨has_not.1 (Bool.eq_false_iff.1 rfl), rfl⟩,
    ⟨"auto".toList, _, [(name, q)], text_iff.1 rfl, at_one.1 (child_iff.1 rfl), .cons hp .nil, fun _ => .inl rfl, byName_snoc byName_nil _⟩,
    ⟨_, text_iff.1 rfl, trim_iff.1 (by rfl)⟩, ⟨_, text_iff.1 rfl⟩, ⟨_, at_one.1 (child_iff.1 rfl), .cons ?_ .nil⟩⟩
  refine ⟨⟨_, "mean".toList, text_iff.1 rfl, ⟨" mean ".toList, text_iff.1 rfl, trim_iff.1 (by decide +kernel)⟩, rfl⟩,
    ⟨_, _, _, at_one.1 (child_iff.1 rfl), text_iff.1 rfl, text_iff.1 rfl, fun _ => .inl (by decide), rfl⟩, ?_⟩
  refine .saves (n := 2) (endTime := 1) (get_iff.1 (by rfl)) (get_iff.1 (by rfl)) (quotient_iff.1 ?_) (.inr ⟨has_not.1 (by decide +kernel), rfl⟩)
  decide +kernel

/-- A parameter without bounds is uniform between 0 and 1. -/
theorem sample_random (more : List (Str × Tree)) (a b : ℚ) (h1 : OrDefault digits (parameter "X" "uniform" more).2 "lower" 0 a) (h2 : OrDefault digits (parameter "X" "uniform" more).2 "upper" 1 b) :
    RandomMeant digits noLibrary 16 (parameter "X" "uniform" more).2 ("X".toList, ⟨1, .uniform a b⟩) :=
  ⟨text_iff.1 rfl, get_iff.1 rfl, .uniform (text_iff.1 rfl) h1 h2⟩

example : ∃ s, UQDescribed digits noLibrary byName twoFiles (uqFile "16" [parameter "X" "uniform" []] [statistic [leaf "numberOfSaves" "2"]]) s :=
  ⟨_, sample_described _ _ _ (sample_random [] 0 1 (.inr ⟨has_not.1 (by decide +kernel), rfl⟩) (.inr ⟨has_not.1 (by decide +kernel), rfl⟩))⟩

/-- No bounds, and every statistic with its times. -/
theorem sample_complete (samples : String) : NoBounds (uqFile samples [parameter "X" "uniform" []] [statistic [leaf "numberOfSaves" "2"]]) ∧
    AllTimed (uqFile samples [parameter "X" "uniform" []] [statistic [leaf "numberOfSaves" "2"]]) := by
  refine ⟨fun e he c hc k hk => ?_, fun e he c hc => ?_⟩
  · cases he.unique (child_iff.1 (show child ["config", "uq", "parameters"] _ = .ok (.node [] [parameter "X" "uniform" []]) from rfl))
    cases List.mem_singleton.1 hc
    refine has_not.1 ?_
    revert k
    decide +kernel
  · cases he.unique (child_iff.1 (show child ["config", "uq", "stats"] _ = .ok (.node [] [statistic [leaf "numberOfSaves" "2"]]) from rfl))
    cases List.mem_singleton.1 hc
    exact fun h => has_not.2 h.1 (by decide +kernel)

example : CountFits digits (uqFile "16" [parameter "X" "uniform" []] [statistic [leaf "numberOfSaves" "2"]]) := by
  intro x hx
  cases hx.unique (get_iff.1 (show get digits.real ["config", "uq", "samples"] _ = .ok 16 from rfl))
  norm_num

/-- A file that describes nothing: no number of samples. -/
example : (∀ s : UQSettings ℚ Str, ¬ UQDescribed digits noLibrary byName twoFiles (uqFile "many" [parameter "X" "uniform" []] [statistic [leaf "numberOfSaves" "2"]]) s) ∧
    CountFits digits (uqFile "many" [parameter "X" "uniform" []] [statistic [leaf "numberOfSaves" "2"]]) := by
  refine ⟨fun s hs => ?_, fun x hx => ?_⟩
  · have hs := (C91_as_described_partial digits printed noLibrary byName twoFiles _ (by decide +kernel) (by decide +kernel) (fun _ _ _ _ _ _ _ => rfl) (sample_complete _).1 (sample_complete _).2 s).2 hs
    exact absurd hs (by rw [show readUQ digits printed noLibrary byName twoFiles _ = .error .thrown from rfl]; exact fun h => (by cases h))
  · exact absurd (get_iff.2 hx) (by rw [show get digits.real ["config", "uq", "samples"] _ = .error .thrown from rfl]; exact fun h => (by cases h))

/-- Reading with a negative number. -/
def signed : Conv ℚ := { digits with real := fun s => if s = "-2".toList then some (-2) else digits.real s }

example : Value signed.real (uqFile "-2" [] []) ["config", "uq", "samples"] (-2) ∧ (-2 : ℚ) ≤ -1 := ⟨get_iff.1 (by rfl), by norm_num⟩

/-- The bounds of the first parameter. -/
def firstBounds (s : UQSettings ℚ Str) : Option (Str × Nat × ℚ × ℚ) := match s.parameters with
  | [(name, ⟨n, .uniform a b⟩)] => some (name, n, a, b)
  | _ => none

/-- C91 fails for bounds: the file asks for values between 1 and 2, values between 0 and 1 are drawn. -/
theorem C91_fails_for_bounds : ∃ (root : Tree) (s s' : UQSettings ℚ Str), UQDescribed digits noLibrary byName twoFiles root s ∧ s.parameters = [("X".toList, ⟨1, .uniform 1 2⟩)] ∧
    readUQ digits printed noLibrary byName twoFiles root = .ok s' ∧ s'.parameters = [("X".toList, ⟨1, .uniform 0 1⟩)] := by
  have h : (readUQ digits printed noLibrary byName twoFiles
      (uqFile "16" [parameter "X" "uniform" [leaf "lower" "1", leaf "upper" "2"]] [statistic [leaf "numberOfSaves" "2"]])).map firstBounds = .ok (some ("X".toList, 1, 0, 1)) := by
    decide +kernel
  cases hr : readUQ digits printed noLibrary byName twoFiles
      (uqFile "16" [parameter "X" "uniform" [leaf "lower" "1", leaf "upper" "2"]] [statistic [leaf "numberOfSaves" "2"]]) with
  | error e => rw [hr] at h; cases h
  | ok s' =>
    refine ⟨_, _, s', sample_described _ _ _ (sample_random _ 1 2 (.inl (get_iff.1 (by rfl))) (.inl (get_iff.1 (by rfl)))), rfl, hr, ?_⟩
    rw [hr] at h
    replace h : firstBounds s' = some ("X".toList, 1, 0, 1) := Except.ok.inj h
    unfold firstBounds at h
    split at h
    · rename_i e
      cases h
      exact e
    · cases h

/-- A statistic without times. -/
example : ∃ (root entries : Tree) (c : Str × Tree) (s : UQSettings ℚ Str), At root ["config", "uq", "stats"] entries ∧ c ∈ entries.children ∧ Absent c.2 "numberOfSaves" ∧ Absent c.2 "time" ∧
    readUQ digits printed noLibrary byName twoFiles root = .ok s := by
  have h : (readUQ digits printed noLibrary byName twoFiles (uqFile "16" [] [statistic []])).map (fun s => s.statistics.length) = .ok 0 := by decide +kernel
  cases hr : readUQ digits printed noLibrary byName twoFiles (uqFile "16" [] [statistic []]) with
  | error e => rw [hr] at h; cases h
  | ok s => exact ⟨_, .node [] [statistic []], statistic [], s, child_iff.1 rfl, List.mem_singleton_self _, has_not.1 (by decide +kernel), has_not.1 (by decide +kernel), hr⟩

end Verif.Props.UQSetup
