import Verif.ViewsLemmas

/-!
C94: the views of an equation address the variables their names say, and kernels on volumes with a memory area for each variable compute what the same kernels compute on fields with
vector values.

The specification is `Verif/ViewsSpec.lean`: `toVolume` stores a field with vector values in a volume, `Cmd.meaning` is what a step of a kernel does to such fields.
-/

namespace Verif.Props.Views
open Verif.Views Verif.Factories
variable {K : Type}

/-- `view` shows the variable called `name` of the volume `v`. -/
def Shows (v : Volume K) (view : Nat) (name : String) : Prop := v.names[view]? = some name

/-- For every volume that has the variables of the equation, in any order and among any others, the views can be made, there is one for each variable of the equation, each shows the
variable of that name, and `get` called with the number of a variable gives the view that shows it. -/
theorem C94_views (e : Eqn) (v : Volume K) (h : ∀ name ∈ e.conserved, name ∈ v.names) :
    vars e = e.conserved.length ∧
      ∃ w, make v e = .ok w ∧ ∀ (j : Fin (vars e)) (name : String), e.conserved[j.val]? = some name → Shows v (w j) name ∧ Shows v (get e w j.val) name := by
  have key : ∀ name, name ∈ e.conserved → ∃ a, v.indexFromName name = .ok a ∧ v.names[a]? = some name := fun name hn => indexFromName_ok (h name hn)
  unfold Shows
  cases e <;> refine ⟨rfl, ?_⟩
  case euler1 =>
    obtain ⟨a, ha, ha'⟩ := key "rho" (by simp [Eqn.conserved])
    obtain ⟨b, hb, hb'⟩ := key "mx" (by simp [Eqn.conserved])
    obtain ⟨c, hc, hc'⟩ := key "E" (by simp [Eqn.conserved])
    refine ⟨(![a, b, c] : Fin 3 → Nat), by simp [make, ha, hb, hc, pure, Except.pure], fun j name hn => ?_⟩
    fin_cases j <;> (obtain rfl := Option.some.inj hn) <;> refine ⟨?_, ?_⟩ <;> assumption
  case euler2 =>
    obtain ⟨a, ha, ha'⟩ := key "rho" (by simp [Eqn.conserved])
    obtain ⟨b, hb, hb'⟩ := key "mx" (by simp [Eqn.conserved])
    obtain ⟨d, hd, hd'⟩ := key "my" (by simp [Eqn.conserved])
    obtain ⟨c, hc, hc'⟩ := key "E" (by simp [Eqn.conserved])
    refine ⟨(![a, b, d, c] : Fin 4 → Nat), by simp [make, ha, hb, hc, hd, pure, Except.pure], fun j name hn => ?_⟩
    fin_cases j <;> (obtain rfl := Option.some.inj hn) <;> refine ⟨?_, ?_⟩ <;> assumption
  case euler3 =>
    obtain ⟨a, ha, ha'⟩ := key "rho" (by simp [Eqn.conserved])
    obtain ⟨b, hb, hb'⟩ := key "mx" (by simp [Eqn.conserved])
    obtain ⟨d, hd, hd'⟩ := key "my" (by simp [Eqn.conserved])
    obtain ⟨f, hf, hf'⟩ := key "mz" (by simp [Eqn.conserved])
    obtain ⟨c, hc, hc'⟩ := key "E" (by simp [Eqn.conserved])
    refine ⟨(![a, b, d, f, c] : Fin 5 → Nat), by simp [make, ha, hb, hc, hd, hf, pure, Except.pure], fun j name hn => ?_⟩
    fin_cases j <;> (obtain rfl := Option.some.inj hn) <;> refine ⟨?_, ?_⟩ <;> assumption
  all_goals
    obtain ⟨a, ha, ha'⟩ := key "u" (by simp [Eqn.conserved])
    refine ⟨(![a] : Fin 1 → Nat), by simp [make, ha, pure, Except.pure], fun j name hn => ?_⟩
    fin_cases j
    obtain rfl := Option.some.inj hn
    exact ⟨ha', ha'⟩

/-- A volume whose variables are in another order, with one more. -/
def exShuffled : Volume ℤ := ⟨["E", "p", "mx", "rho"], [⟨fun i => i < 2, fun _ => 7⟩, ⟨fun i => i < 2, fun _ => 1⟩, ⟨fun i => i < 2, fun _ => 3⟩, ⟨fun i => i < 2, fun _ => 2⟩]⟩

example : ∀ name ∈ Eqn.conserved .euler1, name ∈ exShuffled.names := by decide

example : ∃ w, make exShuffled .euler1 = .ok w ∧ (w (0 : Fin 3), w (1 : Fin 3), w (2 : Fin 3)) = (3, 2, 0) := ⟨_, rfl, rfl⟩

/-- Where the volume lacks one of the variables, making the views throws. -/
theorem C94_missing (e : Eqn) (v : Volume K) (name : String) (hn : name ∈ e.conserved) (h : name ∉ v.names) : make v e = .error .thrown := by
  have key : ∀ m, (∃ a, v.indexFromName m = .ok a) ∨ v.indexFromName m = .error .thrown := fun m => by
    by_cases hm : m ∈ v.names
    · obtain ⟨a, ha, _⟩ := indexFromName_ok hm; exact .inl ⟨a, ha⟩
    · exact .inr (indexFromName_thrown hm)
  have hx := indexFromName_thrown h
  cases e <;> simp only [Eqn.conserved, List.mem_cons, List.not_mem_nil, or_false] at hn <;> unfold make
  case euler1 =>
    rcases key "rho" with ⟨a, ha⟩ | ha <;> rcases key "mx" with ⟨b, hb⟩ | hb <;> rcases key "E" with ⟨c, hc⟩ | hc <;> simp only [ha, hb, hc, Res.ok_bind, Res.error_bind] <;>
      rcases hn with rfl | rfl | rfl <;> simp_all
  case euler2 =>
    rcases key "rho" with ⟨a, ha⟩ | ha <;> rcases key "mx" with ⟨b, hb⟩ | hb <;> rcases key "my" with ⟨d, hd⟩ | hd <;> rcases key "E" with ⟨c, hc⟩ | hc <;>
      simp only [ha, hb, hc, hd, Res.ok_bind, Res.error_bind] <;> rcases hn with rfl | rfl | rfl | rfl <;> simp_all
  case euler3 =>
    rcases key "rho" with ⟨a, ha⟩ | ha <;> rcases key "mx" with ⟨b, hb⟩ | hb <;> rcases key "my" with ⟨d, hd⟩ | hd <;> rcases key "mz" with ⟨f, hf⟩ | hf <;>
      rcases key "E" with ⟨c, hc⟩ | hc <;>
      simp only [ha, hb, hc, hd, hf, Res.ok_bind, Res.error_bind] <;> rcases hn with rfl | rfl | rfl | rfl | rfl <;> simp_all
  all_goals
    subst hn
    rw [hx]; rfl

example : "my" ∈ Eqn.conserved .euler2 ∧ "my" ∉ exShuffled.names := by decide

/-- Kernels on volumes compute what they compute on fields with vector values: any sequence of steps, on any number of volumes (also where a step reads and writes the same volume), stops
for an index outside of the cells exactly where it does so on the fields, and otherwise leaves the volumes that store the resulting fields. -/
theorem C94_kernels [Add K] [Nonempty K] (e : Eqn) (us : List (Arr Nat (Fin (vars e) → K))) (cs : List (Cmd (vars e) K)) :
    runAll e (us.map (toVolume e)) cs = (cs.foldlM Cmd.meaning us).map (List.map (toVolume e)) :=
  foldlM_map_res (List.map (toVolume e)) (fun us c => run_meaning e us c) cs us

/-- The volumes `toVolume` gives are all volumes with the variables of the equation and memory areas of one size. -/
theorem C94_all_volumes (e : Eqn) (v : Volume K) (hn : v.names = e.conserved) (ha : v.areas.length = e.conserved.length) (inb : Nat → Bool) (hi : ∀ area ∈ v.areas, area.inb = inb) :
    ∃ u : Arr Nat (Fin (vars e) → K), u.inb = inb ∧ toVolume e u = v := by
  have hv : v.areas.length = vars e := by rw [ha]; cases e <;> rfl
  refine ⟨⟨inb, fun i j => (v.areas[j.val]'(by rw [hv]; exact j.2)).val i⟩, rfl, ?_⟩
  obtain ⟨names, areas⟩ := v
  simp only [toVolume, Volume.mk.injEq]
  refine ⟨hn.symm, ?_⟩
  apply List.ext_getElem
  · simpa using hv.symm
  · intro q h1 h2
    simp only [List.getElem_ofFn]
    have := hi areas[q] (List.getElem_mem h2)
    subst this
    rfl

/-- A field with two cells for the Euler equations in one dimension. -/
def exField : Arr Nat (Fin (vars .euler1) → ℤ) := ⟨fun i => i < 2, fun i j => 10 * i + j.val⟩

example : (toVolume .euler1 exField).names = Eqn.conserved .euler1 ∧ (toVolume .euler1 exField).areas.length = (Eqn.conserved .euler1).length ∧
    ∀ area ∈ (toVolume .euler1 exField).areas, area.inb = fun i => decide (i < 2) := by
  refine ⟨rfl, rfl, ?_⟩
  intro area h
  simp only [toVolume, List.mem_ofFn] at h
  obtain ⟨j, rfl⟩ := h
  rfl

/-- A sequence of steps on two volumes: the sum of the two cells of the first is added to a cell of the second, then each variable of that cell is copied, doubled, to the other cell. -/
def exSteps : List (Cmd (vars .euler1) ℤ) :=
  [.add [(0, 0), (0, 1)] (1, 0) fun xs => xs.foldl (· + ·) 0, .each [(1, 0)] [((1, 1), fun xs => 2 * xs.foldl (· + ·) 0)]]

/-- The steps succeed; the last cell of the second field holds twice the sum of its other cell and the two cells of the first field. -/
example : ∃ out, exSteps.foldlM Cmd.meaning [exField, exField] = .ok out ∧ (out[1]?).map (fun u => (u.val 1 (0 : Fin 3), u.val 1 (1 : Fin 3), u.val 1 (2 : Fin 3))) = some (20, 26, 32) :=
  ⟨_, rfl, by decide⟩

/-- A step that reads beyond the end is undefined behaviour, on the volumes as on the fields. -/
example : runAll .euler1 ([exField].map (toVolume .euler1)) [.set [(0, 2)] (0, 0) fun xs => xs.headD 0] = .error .ub := by
  rw [C94_kernels]; rfl

/-! ### Access with a number known at compile time -/

/-- `get<number>()` gives the view of the variable with that number, for every equation and every number below the number of variables. Missing: the energy of the Euler equations in one
dimension, for which it does not (`C94_fails_for_energy`). -/
theorem C94_static_partial (e : Eqn) (w : Members e) (j : Fin (vars e)) (h : ¬ (e = .euler1 ∧ j.val = 2)) : getStatic e w j.val = some (w j) := by
  cases e <;> fin_cases j <;> first | rfl | exact absurd ⟨rfl, rfl⟩ h

example : ¬ (Eqn.euler3 = .euler1 ∧ (4 : Fin 5).val = 2) := by decide

/-- For the Euler equations in one dimension `get<2>()` gives the view of the density instead of the energy: on any volume with these variables. -/
theorem C94_fails_for_energy (v : Volume K) (h : ∀ name ∈ Eqn.conserved .euler1, name ∈ v.names) :
    ∃ w a, make v .euler1 = .ok w ∧ getStatic .euler1 w 2 = some a ∧ Shows v a "rho" ∧ ¬ Shows v a "E" := by
  obtain ⟨-, w, hw, hs⟩ := C94_views .euler1 v h
  have := (hs (0 : Fin 3) "rho" rfl).1
  refine ⟨w, w (0 : Fin 3), hw, rfl, this, fun hE => ?_⟩
  unfold Shows at this hE
  rw [this] at hE
  exact absurd (Option.some.inj hE) (by decide)

example : ∀ name ∈ Eqn.conserved .euler1, name ∈ (toVolume .euler1 exField).names := fun _ h => h

end Verif.Props.Views
