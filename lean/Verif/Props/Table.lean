import Verif.TableLemmas
import Verif.Props.Setup

/-! C108: the table of a configuration file says what the run uses. -/

namespace Verif.Props.Table
open Verif Verif.PyConfig Verif.Params Verif.Setup Verif.Table
variable {K F : Type} [Field K] [LinearOrder K] [IsStrictOrderedRing K]

/-- C108, partial: the table of a file that the program accepts shows the equation, the flux, the reconstruction, the integrator, the CFL number and the end time the program uses, with the automatic choices
filled in. Missing: files in which an element of one of these names comes earlier inside another element (`C108_fails_for_diffusion`), a reconstruction with white space around it (`C108_fails_for_white_space`),
elements with more than one text or with a comment (`C108_fails_for_comments`), and texts loaded from other files. -/
theorem C108_partial (cuda mpi : Bool) (conv : Conv K) (load : Str → Option Str) (make : Str → Str → Params.Tree → Res F) (document config fvm : List Node) (s : Settings K F)
    (hread : readSetup cuda mpi conv load make (parse document) = .ok s)
    (h1 : Leads "config" document config) (h2 : Leads "fvm" config fvm) (equation flux reconstruction integrator cfl endTime : Text)
    (he : Plain "equation" fvm equation) (hf : Plain "flux" fvm flux) (hr : Plain "reconstruction" fvm reconstruction) (hi : Plain "integrator" fvm integrator)
    (hc : Plain "cfl" fvm cfl) (hT : Plain "endTime" fvm endTime)
    (hclean : ∀ c, reconstruction.head? = some c ∨ reconstruction.getLast? = some c → c ∉ [' ', '\t', '\n', '\x0b', '\x0c', '\r'])
    (hconv : conv.realText "0.9".toList = some (9 / 10) ∧ conv.realText "0.475".toList = some (475 / 1000))
    (hnames : ∀ n ∈ ["forwardeuler", "rungekutta2", "burgers", "euler1", "euler2", "euler3"], conv.realText n.toList = none ∧ conv.real n.toList = none) :
    ∃ out capitals number time, table document = .ok out ∧ Capitalised s.conf.flux.toList capitals ∧ conv.realText number = some s.cfl ∧ conv.real time = some s.endTime ∧
      Shows out (paperName s.conf.equation.toList s.conf.equation.toList) (paperName s.conf.flux.toList capitals)
        (paperName s.conf.reconstruction.toList (s.conf.reconstruction.toList.map Char.toUpper)) (paperName s.conf.integrator.toList s.conf.integrator.toList) number time := by
  obtain ⟨raw, ch, t, hraw, hch, ht, hm⟩ := (Props.Setup.C85_as_described ..).1 hread
  obtain rfl := (first_tree (by decide) h1 []).unique hraw
  obtain ⟨t', ht', hfill⟩ := filledAll_first (d' := dataOf config) (first_tree (by decide) h2 []) hch
  obtain rfl := ht'.unique ht
  have e1 := says_unique (says_plain (by decide) he hfill) hm.names.equation
  have e2 := says_unique (says_plain (by decide) hf hfill) hm.names.flux
  have e3 : reconstruction = s.conf.reconstruction.toList := by
    obtain ⟨r, hr', htr⟩ := hm.names.reconstruction
    obtain rfl := says_unique (says_plain (by decide) hr hfill) hr'
    have : Trimmed reconstruction reconstruction := ⟨[], [], by simp, by simp, fun c hc => by simpa using mt (isSpace_iff c).1 (hclean c (.inl hc)),
      fun c hc => by simpa using mt (isSpace_iff c).1 (hclean c (.inr hc))⟩
    exact (trim_iff.2 this).symm.trans (trim_iff.2 htr)
  obtain ⟨i, hi', hin⟩ := hm.names.integrator
  obtain rfl := says_unique (says_plain (by decide) hi hfill) hi'
  obtain ⟨c, hc', hcfl⟩ := hm.cfl
  obtain rfl := says_unique (says_plain (by decide) hc hfill) hc'
  obtain ⟨T, hT', hend⟩ := hm.endTime
  obtain rfl := says_unique (says_plain (by decide) hT hfill) hT'
  have hnone : reconstruction = "none".toList ↔ s.conf.reconstruction = "none" := by rw [e3, String.toList_inj]
  have hint : (if integrator = "auto".toList then (if reconstruction = "none".toList then "forwardeuler".toList else "rungekutta2".toList) else integrator) = s.conf.integrator.toList := by
    rw [hin]
    by_cases ha : integrator = "auto".toList
    · rw [if_pos ha, if_pos ha]
      by_cases hn : s.conf.reconstruction = "none"
      · rw [if_pos hn, if_pos (hnone.2 hn)]
      · rw [if_neg hn, if_neg (mt hnone.1 hn)]
    · rw [if_neg ha, if_neg ha, String.toList_ofList]
  have hnum : conv.realText (if cfl = "auto".toList then (if reconstruction = "none".toList then "0.9".toList else "0.475".toList) else cfl) = some s.cfl := by
    by_cases ha : cfl = "auto".toList
    · rw [if_pos ha] at hcfl ⊢
      by_cases hn : s.conf.reconstruction = "none"
      · rw [if_pos (hnone.2 hn), hcfl, if_pos hn]; exact hconv.1
      · rw [if_neg (mt hnone.1 hn), hcfl, if_neg hn]; exact hconv.2
    · rw [if_neg ha] at hcfl ⊢
      exact hcfl
  have plainName : ∀ x : Text, (∃ y, conv.realText x = some y) ∨ (∃ y, conv.real x = some y) → paperName x x = x := by
    intro x hx
    have : ∀ n ∈ ["forwardeuler", "rungekutta2", "burgers", "euler1", "euler2", "euler3"], x ≠ n.toList := by
      rintro n hn rfl
      rcases hx with ⟨y, hy⟩ | ⟨y, hy⟩
      · rw [(hnames n hn).1] at hy; cases hy
      · rw [(hnames n hn).2] at hy; cases hy
    rw [List.forall_mem_cons, List.forall_mem_cons, List.forall_mem_cons, List.forall_mem_cons, List.forall_mem_cons, List.forall_mem_cons] at this
    unfold paperName
    rw [if_neg this.1, if_neg this.2.1, if_neg this.2.2.1, if_neg this.2.2.2.1, if_neg this.2.2.2.2.1, if_neg this.2.2.2.2.2.1]
  have hv := readValues_plain he hf hr hi hc hT
  obtain ⟨out, ho, hs⟩ := table_shows (first_leads h1) (first_leads h2) hv (cell_equation _) (cell_flux _) (cell_reconstruction _) ((congrArg _ (autoIntegrator_some _ _ _ _ _ _)).trans (cell_integrator _))
    ((congrArg _ (autoCfl_some _ _ _ _ _ _)).trans (cell_cfl _)) (cell_endTime _)
  rw [plainName _ (.inl ⟨_, hnum⟩), plainName _ (.inr ⟨_, hend⟩), hint, e1, e2, e3] at hs
  refine ⟨out, _, _, _, ho, titleFrom_capitalised _, hnum, hend, ?_⟩
  rw [e3]
  exact hs

omit [IsStrictOrderedRing K] in
/-- A comment between the options is an option that is not known: the program refuses every such file, although a table is printed for it. -/
theorem C108_comments_are_refused (cuda mpi : Bool) (conv : Conv K) (load : Str → Option Str) (make : Str → Str → Params.Tree → Res F) (document config fvm : List Node) (c : Text)
    (h1 : Leads "config" document config) (h2 : Leads "fvm" config fvm) (hc : .comment c ∈ fvm) : readSetup cuda mpi conv load make (parse document) = .error .thrown := by
  have hraw := first_tree (by decide) h1 []
  cases hl : loadChildren load (childrenOf config) with
  | error e =>
    have : e = .thrown := by
      cases e with
      | thrown => rfl
      | ub => exact absurd hl (safe_loadChildren load _)
    unfold readSetup loadFiles parse
    rw [child_one hraw, Res.ok_bind, Params.Tree.children, hl, this]
    rfl
  | ok ch =>
    have hch := (loadChildren_iff load _ _).1 hl
    obtain ⟨t, ht, hfill⟩ := filledAll_first (d' := dataOf config) (first_tree (by decide) h2 []) hch
    have hmem : ∃ p ∈ childrenOf fvm, p.1 = "<xmlcomment>".toList := by
      obtain ⟨b, a, rfl⟩ := List.append_of_mem hc
      exact ⟨("<xmlcomment>".toList, treeOf (.comment c)), by rw [childrenOf_append, childrenOf]; simp, rfl⟩
    obtain ⟨p, hp, hk⟩ : ∃ p ∈ t.children, p.1 = "<xmlcomment>".toList := filled_key hfill hmem
    exact Props.Setup.C85_unknown_option cuda mpi conv load make _ _ t ch hraw hch ht p hp (by rw [hk]; decide)

/-! Files. -/

/-- An element with a text. -/
def leaf (k v : String) : Node := .elem k.toList [.text v.toList]

/-- An element with elements between white space. -/
def inner (k : String) (c : List Node) : Node := .elem k.toList (.text ['\n', ' '] :: c ++ [.text ['\n']])

/-- The options of Burgers' equation; the CFL number and further options are left open. -/
def options (cfl : Node) (more : List Node) : List Node :=
  [.text ['\n', ' '], leaf "name" "shock", leaf "platform" "cpu", leaf "boundary" "periodic", leaf "flux" "tecno1", leaf "endTime" "1", leaf "equation" "burgers", cfl, leaf "integrator" "auto",
    inner "initialData" [leaf "python" "shock.py"], inner "grid" [leaf "lowerCorner" "0 0 0", leaf "upperCorner" "1 1 0", leaf "dimension" "16 1 1"]] ++ more

/-- The file with these options. -/
def file (cfl : Node) (more : List Node) : List Node := [inner "config" [.elem "fvm".toList (options cfl more)]]

/-- Reading of the numbers in the files. -/
def numbers : Conv ℚ := { Props.Setup.digits with realText := fun s => if s = "0.9".toList then some (9 / 10) else if s = "0.475".toList then some (475 / 1000) else Props.Setup.digits.realText s }

/-- The settings of a file. -/
abbrev settings (document : List Node) : Res (Settings ℚ Unit) := readSetup false false numbers (fun _ => some ['p']) (fun _ _ _ => .ok ()) (parse document)

theorem plain (name : String) (before after : List Node) (s : Text) (h1 : namedIn name.toList before = []) (h2 : s.any fun c => !(isSpace c)) (h3 : s.take 5 ≠ "load:".toList) :
    Plain name (before ++ .elem name.toList [.text s] :: after) s := by
  refine ⟨⟨_, _, rfl, not_inside h1⟩, ?_, ?_⟩
  · obtain ⟨c, hc, h⟩ := List.any_eq_true.1 h2
    exact ⟨c, hc, fun hm => by rw [(isSpace_iff c).2 hm] at h; cases h⟩
  · rintro f rfl
    exact h3 (by rfl)

/-- A file of the kind of `C108_partial`: the diffusion comes after the reconstruction. -/
example : ∃ s out number, settings (file (leaf "cfl" "auto") [leaf "reconstruction" "none", inner "diffusion" [leaf "name" "tecnoroe", leaf "reconstruction" "eno2"]]) = .ok s ∧
    table (file (leaf "cfl" "auto") [leaf "reconstruction" "none", inner "diffusion" [leaf "name" "tecnoroe", leaf "reconstruction" "eno2"]]) = .ok out ∧
      numbers.realText number = some s.cfl ∧ s.cfl = 9 / 10 := by
  obtain ⟨s, hs, hcfl⟩ : ∃ s, settings (file (leaf "cfl" "auto") [leaf "reconstruction" "none", inner "diffusion" [leaf "name" "tecnoroe", leaf "reconstruction" "eno2"]]) = .ok s ∧ s.cfl = 9 / 10 :=
    ⟨_, by rfl, by rfl⟩
  obtain ⟨out, -, number, -, ho, -, hn, -⟩ := C108_partial false false numbers _ _ _ _
    (options (leaf "cfl" "auto") [leaf "reconstruction" "none", inner "diffusion" [leaf "name" "tecnoroe", leaf "reconstruction" "eno2"]]) s hs
    ⟨[], [], rfl, not_inside (by rfl)⟩ ⟨[_], [_], rfl, not_inside (by rfl)⟩ "burgers".toList "tecno1".toList "none".toList "auto".toList "auto".toList "1".toList
    (plain "equation" ((options (leaf "cfl" "auto") []).take 6) _ _ (by rfl) (by rfl) (by decide)) (plain "flux" ((options (leaf "cfl" "auto") []).take 4) _ _ (by rfl) (by rfl) (by decide))
    (plain "reconstruction" (options (leaf "cfl" "auto") []) _ _ (by rfl) (by rfl) (by decide)) (plain "integrator" ((options (leaf "cfl" "auto") []).take 8) _ _ (by rfl) (by rfl) (by decide))
    (plain "cfl" ((options (leaf "cfl" "auto") []).take 7) _ _ (by rfl) (by rfl) (by decide)) (plain "endTime" ((options (leaf "cfl" "auto") []).take 5) _ _ (by rfl) (by rfl) (by decide))
    (by rintro c (h | h) <;> cases h <;> decide) ⟨by rfl, by rfl⟩
    (by
      simp only [List.forall_mem_cons]
      exact ⟨⟨by rfl, by rfl⟩, ⟨by rfl, by rfl⟩, ⟨by rfl, by rfl⟩, ⟨by rfl, by rfl⟩, ⟨by rfl, by rfl⟩, ⟨by rfl, by rfl⟩, by simp⟩)
  exact ⟨s, out, number, hs, ho, hn, hcfl⟩

/-- C108 is false if the diffusion comes before the reconstruction, as the program reads the options in any order: the run uses no reconstruction, hence the forward Euler method with the CFL number 0.9,
and the table shows the reconstruction of the diffusion and the automatic choices for it. -/
theorem C108_fails_for_diffusion :
    (∃ s, settings (file (leaf "cfl" "auto") [inner "diffusion" [leaf "name" "tecnoroe", leaf "reconstruction" "eno2"], leaf "reconstruction" "none"]) = .ok s ∧
      s.conf.reconstruction = "none" ∧ s.conf.integrator = "forwardeuler" ∧ s.cfl = 9 / 10) ∧
    ∃ out, table (file (leaf "cfl" "auto") [inner "diffusion" [leaf "name" "tecnoroe", leaf "reconstruction" "eno2"], leaf "reconstruction" "none"]) = .ok out ∧
      Shows out "Burgers".toList "Tecno1".toList "ENO2".toList "SSP RK 2".toList "0.475".toList "1".toList :=
  ⟨⟨_, by rfl, by rfl, by rfl, by rfl⟩, _, by rfl, by rfl⟩

/-- C108 is false for white space around the reconstruction, which the program removes and the table does not. -/
theorem C108_fails_for_white_space :
    (∃ s, settings (file (leaf "cfl" "auto") [leaf "reconstruction" " none "]) = .ok s ∧ s.conf.reconstruction = "none" ∧ s.conf.integrator = "forwardeuler" ∧ s.cfl = 9 / 10) ∧
    ∃ out, table (file (leaf "cfl" "auto") [leaf "reconstruction" " none "]) = .ok out ∧
      Shows out "Burgers".toList "Tecno1".toList " NONE ".toList "SSP RK 2".toList "0.475".toList "1".toList :=
  ⟨⟨_, by rfl, by rfl, by rfl, by rfl⟩, _, by rfl, by rfl⟩

/-- C108 is false for a comment before the text of an option: the program does not see it, and the table shows the comment. -/
theorem C108_fails_for_comments :
    (∃ s, settings (file (.elem "cfl".toList [.comment "0.475".toList, .text "0.9".toList]) [leaf "reconstruction" "none"]) = .ok s ∧ s.cfl = 9 / 10) ∧
    ∃ out, table (file (.elem "cfl".toList [.comment "0.475".toList, .text "0.9".toList]) [leaf "reconstruction" "none"]) = .ok out ∧
      Shows out "Burgers".toList "Tecno1".toList "NONE".toList "Forward-Euler".toList "0.475".toList "1".toList :=
  ⟨⟨_, by rfl, by rfl⟩, _, by rfl, by rfl⟩

/-- A file with a comment between the options. -/
example : settings (file (leaf "cfl" "auto") [leaf "reconstruction" "none", .comment "none".toList]) = .error .thrown :=
  C108_comments_are_refused false false numbers _ _ _ _ (options (leaf "cfl" "auto") [leaf "reconstruction" "none", .comment "none".toList]) "none".toList
    ⟨[], [], rfl, not_inside (by rfl)⟩ ⟨[_], [_], rfl, not_inside (by rfl)⟩ (by simp [options])

end Verif.Props.Table
