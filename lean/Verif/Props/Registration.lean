import Verif.RegistrationLemmas

/-!
Property C113: the statistics and functionals that a configuration can name.
-/

namespace Verif.Props.Registration
open Verif Verif.Registration

/-- C113, starting: the program starts if and only if no two lines have the same platform and the same name. -/
theorem C113_starts {C : Type} (creator : String → C) (order : List Line) :
    (∃ t, startup creator order = .ok t) ↔ ∀ i j (hi : i < order.length) (hj : j < order.length), i ≠ j →
      order[i].platform ≠ order[j].platform ∨ order[i].name ≠ order[j].name := by
  rw [startup, (startup_from creator order _).1]
  have h0 : ∀ l ∈ order, entry (fun _ => none : Table C) l.platform l.name = none := fun _ _ => rfl
  rw [and_iff_left h0, List.nodup_iff_injective_get]
  constructor
  · intro h i j hi hj hij
    by_contra hc
    simp only [not_or, not_not] at hc
    have := @h ⟨i, by simpa using hi⟩ ⟨j, by simpa using hj⟩ (by simp [Line.key, hc])
    exact hij (by simpa using this)
  · rintro h ⟨i, hi⟩ ⟨j, hj⟩ he
    simp only [List.length_map] at hi hj
    by_contra hc
    rcases h i j hi hj (by simpa using hc) with g | g <;> simp [Line.key] at he <;> [exact g he.1; exact g he.2]

-- two lines for the same platform and name stop the program, on two platforms they do not
example : (∃ t, startup id [⟨"cpu", "bv", "A"⟩, ⟨"cuda", "bv", "A"⟩] = .ok t) ∧ ¬∃ t, startup id [⟨"cpu", "bv", "A"⟩, ⟨"cpu", "bv", "B"⟩] = .ok t := by
  constructor
  · rw [C113_starts]
    rintro (_ | _ | i) (_ | _ | j) hi hj hij <;> simp at hi hj hij ⊢
  · rw [C113_starts]
    intro h
    simpa using h 0 1 (by simp) (by simp) (by decide)

/-- The lines of the statistics, or of the functionals, of a program built with or without graphics cards. -/
def lines (functional cuda : Bool) : List Line := if functional then functionals cuda else statistics cuda

/-- C113, lookup. In whatever order the static objects are constructed, the program starts; and in whatever order statistics or functionals have been asked for before, with or without success, the
constructor that is called is that of the one line with the platform and the name of the configuration, and if there is no such line there is an exception. -/
theorem C113_lookup {A B : Type} (functional cuda : Bool) (construct : String → A → Res B) (order : List Line) (horder : order.Perm (lines functional cuda)) :
    ∃ t, startup construct order = .ok t ∧ ∀ (before : List (String × String × A)) (platform name : String) (args : A),
      (∀ cls, (⟨platform, name, cls⟩ : Line) ∈ lines functional cuda → (make (makeAll t before) platform name args).1 = construct cls args) ∧
      ((∀ cls, (⟨platform, name, cls⟩ : Line) ∉ lines functional cuda) → (make (makeAll t before) platform name args).1 = .error .thrown) := by
  have hnd : ((lines functional cuda).map Line.key).Nodup := by cases functional <;> cases cuda <;> decide +kernel
  have hno : (order.map Line.key).Nodup := (horder.map _).nodup_iff.2 hnd
  obtain ⟨h1, -, h3⟩ := startup_from construct order (fun _ => none)
  obtain ⟨t, ht⟩ := h1.2 ⟨hno, fun _ _ => rfl⟩
  refine ⟨t, ht, fun before platform name args => ?_⟩
  rw [(make_eq _ _ _ _).1, makeAll_entry, h3 t ht]
  constructor
  · intro cls hc
    have hm := horder.mem_iff.2 hc
    rcases hf : order.find? (fun l => l.platform == platform && l.name == name) with _ | l
    · rw [List.find?_eq_none] at hf
      exact absurd (by simp) (hf _ hm)
    · have hb := List.find?_some hf
      simp only [Bool.and_eq_true, beq_iff_eq] at hb
      have := List.inj_on_of_nodup_map hno (List.mem_of_find?_eq_some hf) hm (by simp [Line.key, hb])
      simp only [hf, this]
  · intro hc
    rcases hf : order.find? (fun l => l.platform == platform && l.name == name) with _ | l
    · simp only [hf]
      rfl
    · have hb := List.find?_some hf
      simp only [Bool.and_eq_true, beq_iff_eq] at hb
      refine absurd (horder.mem_iff.1 (List.mem_of_find?_eq_some hf)) ?_
      have : l = ⟨platform, name, l.cls⟩ := by rw [← hb.1, ← hb.2]
      rw [this]
      exact hc _

-- the statistic `structure_basic` on a card is there in programs built for cards, also after somebody has asked for one on another platform
example (order : List Line) (horder : order.Perm (lines false true)) : ∃ t, startup (fun cls (_ : Nat) => .ok cls) order = .ok t ∧
    (make (makeAll t [("tpu", "bv", 3)]) "cuda" "structure_basic" 5).1 = .ok "StructureBasicCUDA" ∧ (make t "cuda" "structure_2pt" 5).1 = .error .thrown := by
  obtain ⟨t, h1, h2⟩ := C113_lookup false true (fun cls (_ : Nat) => .ok cls) order horder
  exact ⟨t, h1, (h2 [("tpu", "bv", 3)] _ _ 5).1 "StructureBasicCUDA" (by decide +kernel), (h2 [] _ _ 5).2 fun cls hc => by
    simp [lines, statistics] at hc⟩

/-- C113, partial: whatever a configuration can name on a card it can name on the processor as well. Missing: the converse (false, see `C113_fails_on_cards`). -/
theorem C113_portable_partial (functional cuda : Bool) (name cls : String) (h : (⟨"cuda", name, cls⟩ : Line) ∈ lines functional cuda) :
    ∃ cls', (⟨"cpu", name, cls'⟩ : Line) ∈ lines functional cuda := by
  have key : ∀ l ∈ lines functional cuda, ∃ l' ∈ lines functional cuda, l.platform = "cuda" → l'.platform = "cpu" ∧ l'.name = l.name := by
    cases functional <;> cases cuda <;> decide +kernel
  obtain ⟨l', h1, h2⟩ := key _ h
  obtain ⟨h3, h4⟩ := h2 rfl
  exact ⟨l'.cls, by rw [← h3, ← show l'.name = name from h4]; exact h1⟩

example : ∃ cls', (⟨"cpu", "log_entropy", cls'⟩ : Line) ∈ lines true true := C113_portable_partial true true "log_entropy" "LogEntropyCUDA" (by decide +kernel)

/-- C113 is false for cards: the names the processor has and a card has not are exactly these four, and in programs built without cards, where the platform `cuda` still has statistics and functionals,
six more. -/
theorem C113_fails_on_cards (functional cuda : Bool) (name : String) :
    ((∃ cls, (⟨"cpu", name, cls⟩ : Line) ∈ lines functional cuda) ∧ ¬∃ cls, (⟨"cuda", name, cls⟩ : Line) ∈ lines functional cuda) ↔
      (functional = false ∧ (name = "structure_surface" ∨ name = "structure_2pt")) ∨ (functional = true ∧ (name = "legendre" ∨ name = "structure_base")) ∨
      (cuda = false ∧ ((functional = false ∧ (name = "structure_basic" ∨ name = "structure_cube")) ∨
        (functional = true ∧ (name = "identity" ∨ name = "legendre_pointwise" ∨ name = "log_entropy" ∨ name = "structure_cube")))) := by
  cases functional <;> cases cuda <;> simp [lines, functionals, statistics]
  all_goals
    constructor
    · rintro ⟨⟨cls, h1⟩, h2⟩
      repeat' (rcases h1 with ⟨rfl, rfl⟩ | h1)
      all_goals first | (simp; done) | simp at h2
    · intro h
      repeat' first | subst h | (rcases h with h | h)
      all_goals simp

/-- C113 is false for `structure_surface`: the name is registered, but a rank that computes the statistic for at least one sample and at one time gets an exception, whatever the states and the
parameters are. -/
theorem C113_structure_surface_unusable {S : Type} (name : String) (numberOfH : Int) (U : S → ℝ → Functionals.Vol) (times : List ℝ) (samples : List S) (ht : times ≠ []) (hs : samples ≠ []) :
    (⟨"cpu", "structure_surface", "StructureSurface"⟩ : Line) ∈ lines false false ∧ Stats.runRank (structureSurface name numberOfH) U times samples = .error .thrown := by
  refine ⟨by decide +kernel, ?_⟩
  obtain ⟨t, ts, rfl⟩ := List.exists_cons_of_ne_nil ht
  obtain ⟨s, ss, rfl⟩ := List.exists_cons_of_ne_nil hs
  simp only [Stats.runRank, List.foldlM_cons, surface_thrown]
  rfl

example : Stats.runRank (structureSurface "structure_surface_2.000000" 8) (fun (_ : Nat) _ => ⟨⟨4, 1, 1⟩, 0, [fun _ => 1]⟩) [0, 1] [0, 1, 2] = .error .thrown :=
  (C113_structure_surface_unusable _ _ _ _ _ (by simp) (by simp)).2

end Verif.Props.Registration
