import Verif.Params
import Mathlib.Data.List.Induction
import Mathlib.Data.List.TakeWhile

/-! C61, C65, C67: parameter lists and registries. -/

namespace Verif.Props
open Verif Params

/-! ### C61 -/

/-- A word: not empty and without blanks. -/
def IsWord (w : Str) : Prop := w ≠ [] ∧ ' ' ∉ w ∧ '\t' ∉ w

theorem split_word (w : Str) (h : ' ' ∉ w ∧ '\t' ∉ w) : split w = [w] := by
  induction w with
  | nil => rfl
  | cons c w ih =>
    simp only [List.mem_cons, not_or] at h
    have hb : blank c = false := by
      simp only [blank, Bool.or_eq_false_iff, beq_eq_false_iff_ne]
      exact ⟨fun e => h.1.1 e.symm, fun e => h.2.1 e.symm⟩
    rw [split, ih ⟨h.1.2, h.2.2⟩, hb]
    rfl

theorem split_append (w rest : Str) (h : ' ' ∉ w ∧ '\t' ∉ w) : split (w ++ ' ' :: rest) = w :: split rest := by
  induction w with
  | nil => rfl
  | cons c w ih =>
    simp only [List.mem_cons, not_or] at h
    have hb : blank c = false := by
      simp only [blank, Bool.or_eq_false_iff, beq_eq_false_iff_ne]
      exact ⟨fun e => h.1.1 e.symm, fun e => h.2.1 e.symm⟩
    rw [List.cons_append, split, ih ⟨h.1.2, h.2.2⟩, hb]
    rfl

theorem split_join (ws : List Str) (hne : ws ≠ []) (h : ∀ w ∈ ws, ' ' ∉ w ∧ '\t' ∉ w) : split (join ws) = ws := by
  induction ws with
  | nil => exact absurd rfl hne
  | cons w ws ih =>
    rcases ws with _ | ⟨v, ws⟩
    · exact split_word w (h w (by simp))
    · rw [join, split_append w _ (h w (by simp)), ih (by simp) fun w' hw' => h w' (by simp [hw'])]
      exact List.cons_ne_nil _ _

theorem find_update (k : Str) (f : Tree → Tree) (d : Str) (c : List (Str × Tree)) :
    find k (.node d (updateChild k f c)) = some (f ((find k (.node d c)).getD (.node [] []))) := by
  induction c with
  | nil => simp [updateChild, find, Tree.children]
  | cons p ps ih =>
    by_cases h : p.1 = k
    · simp [updateChild, find, Tree.children, h]
    · have hb : (p.1 == k) = false := by simpa using h
      simp only [find, Tree.children, updateChild, hb] at ih ⊢
      simpa [List.find?_cons, hb] using ih

theorem walk_put (ks : List Str) (v : Str) (t : Tree) : (walk ks (putAt ks v t)).map Tree.data = .ok v := by
  induction ks generalizing t with
  | nil => rcases t with ⟨d, c⟩; rfl
  | cons k ks ih =>
    rcases t with ⟨d, c⟩
    rw [putAt, walk, find_update]
    exact ih _

/-- A stored value is read back, whatever the name and whatever was stored before. -/
theorem C61_value_round_trip (name value : Str) (t : Tree) : getString name (addString name value t) = .ok value := walk_put _ _ _

/-- C61, for lists with at least one word. The empty list is read back as a list with one empty word (`C61_fails_for_the_empty_list`). -/
theorem C61_list_round_trip_partial (name : Str) (words : List Str) (t : Tree) (hne : words ≠ []) (h : ∀ w ∈ words, IsWord w) : getVector name (addVector name words t) = .ok words := by
  rw [getVector, addVector, C61_value_round_trip]
  exact congrArg Except.ok (split_join words hne fun w hw => (h w hw).2)

example : ∃ words : List Str, words ≠ [] ∧ ∀ w ∈ words, IsWord w :=
  ⟨["rho".toList, "mx".toList, "E".toList], by simp, by simp [IsWord]⟩

/-- C61 fails for the empty list. -/
theorem C61_fails_for_the_empty_list (name : Str) (t : Tree) : getVector name (addVector name [] t) = .ok [[]] ∧ getVector name (addVector name [] t) ≠ .ok [] := by
  have h : getVector name (addVector name [] t) = .ok [[]] := by
    rw [getVector, addVector, C61_value_round_trip]
    rfl
  exact ⟨h, by rw [h]; simp⟩

/-! ### C67 -/

/-- C67, for names without dots: a parameter is reported as present exactly when it can be read. -/
theorem C67_contains_partial (name : Str) (t : Tree) (hne : name ≠ []) (hdot : '.' ∉ name) : contains name t = true ↔ ∃ v, getString name t = .ok v := by
  have hf : fragments name = [name] := by
    rcases name with _ | ⟨c, cs⟩
    · exact absurd rfl hne
    · have h1 : (c :: cs).takeWhile (· ≠ '.') = c :: cs := by
        rw [List.takeWhile_eq_self_iff]
        intro x hx
        simpa using fun e : x = '.' => hdot (e ▸ hx)
      have h2 : (c :: cs).dropWhile (· ≠ '.') = [] := by
        rw [List.dropWhile_eq_nil_iff]
        intro x hx
        simpa using fun e : x = '.' => hdot (e ▸ hx)
      rw [fragments, h1, h2]
      simp [fragments]
  rw [getString, getData, hf, contains, walk]
  rcases find name t with _ | c
  · simp [Except.map]
  · simp [walk, Except.map]

example : contains "order".toList (addString "order".toList "2".toList (.node [] [])) = true :=
  (C67_contains_partial _ _ (by simp) (by decide)).2 ⟨_, C61_value_round_trip _ _ _⟩

/-- C67 fails for names with dots: a parameter that was stored and can be read is reported as absent. -/
theorem C67_fails_for_names_with_dots :
    ∃ t, getString "fvm.order".toList t = .ok "2".toList ∧ contains "fvm.order".toList t = false := by
  refine ⟨addString "fvm.order".toList "2".toList (.node [] []), C61_value_round_trip _ _ _, ?_⟩
  have hf : fragments "fvm.order".toList = ["fvm".toList, "order".toList] := by
    simp [fragments]
  rw [addString, hf]
  decide

/-! ### C65 -/

/-- C65, registering. The registration succeeds exactly when the name was not registered before; a second one reports an error. -/
theorem C65_registering_twice_fails {C : Type} (history : List (Str × C)) (name : Str) (creator : C) :
    (∃ r, registerClass (registerAll history) name creator = .ok r) ↔ ∀ p ∈ history, p.1 ≠ name := by
  have hreg : ∀ (l : List (Str × C)) (r : Registry C), (l.foldl registerStep r) name = none ↔ r name = none ∧ ∀ p ∈ l, p.1 ≠ name := by
    intro l
    induction l with
    | nil => intro r; simp
    | cons p l ih =>
      intro r
      rw [List.foldl_cons, ih]
      simp only [List.mem_cons, forall_eq_or_imp, registerStep, registerClass]
      by_cases hp : p.1 = name
      · rcases hr : r p.1 with _ | c
        · simp [hp]
        · rw [← hp]; simp [hr]
      · rcases hr : r p.1 with _ | c
        · simp [hp, Function.update_of_ne (Ne.symm hp)]
        · simp [hp]
  have := hreg history fun _ => none
  simp only [true_and] at this
  rw [← this, registerClass, registerAll]
  rcases history.foldl registerStep (fun _ => none) name with _ | c <;> simp

/-- C65, creating. An unknown name reports an error; otherwise the creator that is called is the first one registered under the name. -/
theorem C65_creator_is_the_registered_one {A B : Type} (history : List (Str × (A → Res B))) (name : Str) (args : A) :
    createInstance (registerAll history) name args = match history.find? (fun p => p.1 == name) with
      | some p => p.2 args
      | none => .error .thrown := by
  have hreg : ∀ (l : List (Str × (A → Res B))) (r : Registry (A → Res B)), (l.foldl registerStep r) name = (r name).or ((l.find? fun p => p.1 == name).map (·.2)) := by
    intro l
    induction l with
    | nil => intro r; simp
    | cons p l ih =>
      intro r
      rw [List.foldl_cons, ih]
      by_cases hp : p.1 = name
      · rcases hr : r p.1 with _ | c
        · have hb : (p.1 == name) = true := by simpa using hp
          simp only [registerStep, registerClass, hr, List.find?_cons, hb, Option.map_some]
          rw [← hp, hr]
          simp
        · simp only [registerStep, registerClass, hr, List.find?_cons]
          rw [← hp, hr]
          simp
      · have hb : (p.1 == name) = false := by simpa using hp
        simp only [List.find?_cons, hb]
        rcases hr : r p.1 with _ | c
        · simp [registerStep, registerClass, hr, Function.update_of_ne (Ne.symm hp)]
        · simp [registerStep, registerClass, hr]
  have := hreg history fun _ => none
  rw [createInstance, show registerAll history name = _ from this]
  rcases h : history.find? (fun p => p.1 == name) with _ | p <;> simp [h]

/-- One registered name and one unknown name. -/
example : createInstance (registerAll [("none".toList, fun n : Nat => (.ok n : Res Nat)), ("eno".toList, fun n => .ok (n + 1))]) "eno".toList 3 = .ok 4 ∧
    createInstance (registerAll [("none".toList, fun n : Nat => (.ok n : Res Nat))]) "weno".toList 3 = .error .thrown := by
  constructor <;> rw [C65_creator_is_the_registered_one] <;> rfl

/-- The value a parameter has after a history: that of the last operation that set it; adding a name that already has a value changes nothing. -/
def valueAfter {V : Type} (name : Str) : List (Op V) → Option V
  | [] => none
  | op :: before => match op with
    | .setOrAdd n v => if n = name then some v else valueAfter name before
    | .add n v => if n = name then (valueAfter name before).or (some v) else valueAfter name before

theorem performAll_apply {V : Type} (history : List (Op V)) (name : Str) : performAll history name = valueAfter name history.reverse := by
  induction history using List.reverseRecOn with
  | nil => rfl
  | append_singleton l op ih =>
    rw [List.reverse_append, List.reverse_singleton, List.singleton_append]
    simp only [performAll, List.foldl_append, List.foldl_cons, List.foldl_nil] at ih ⊢
    rcases op with ⟨n, v⟩ | ⟨n, v⟩
    · simp only [performStep, perform, valueAfter]
      by_cases hn : n = name
      · subst hn
        rw [if_pos rfl, ← ih]
        rcases hr : l.foldl performStep (fun _ => none) n with _ | w <;> simp [hr]
      · rw [if_neg hn, ← ih]
        rcases hr : l.foldl performStep (fun _ => none) n with _ | w
        · simp [Function.update_of_ne (Ne.symm hn)]
        · simp
    · simp only [performStep, perform, valueAfter]
      by_cases hn : n = name
      · subst hn; simp
      · rw [if_neg hn, Function.update_of_ne (Ne.symm hn), ih]

/-- C65, parameters of initial data: reading an unknown name reports an error, adding a known name reports an error, and otherwise the value read is the one stored last. -/
theorem C65_parameters {V : Type} (history : List (Op V)) (name : Str) (v : V) :
    (getParameter (performAll history) name = match valueAfter name history.reverse with
      | some w => .ok w
      | none => .error .thrown) ∧
    ((∃ m, perform (performAll history) (.add name v) = .ok m) ↔ valueAfter name history.reverse = none) := by
  rw [← performAll_apply]
  constructor
  · rw [getParameter]
    rcases performAll history name with _ | w <;> rfl
  · rw [perform]
    rcases h : performAll history name with _ | w <;> simp

example : getParameter (performAll [.add "a".toList 1, .setOrAdd "a".toList 2, .add "a".toList 3, .add "b".toList 4]) "a".toList = (.ok 2 : Res Nat) := by
  rw [(C65_parameters _ _ 0).1]; rfl

end Verif.Props
