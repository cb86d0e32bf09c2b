import Verif.Table
import Verif.TableSpec
import Verif.SetupReaders

/-! Helper lemmas for the table of a configuration file. -/

namespace Verif.Table
open PyConfig Params Setup

mutual
theorem named_none {name : Text} : ∀ n : Node, ¬ Inside name [n] → named name n = []
  | .text _, _ => by simp [named]
  | .comment _, _ => by simp [named]
  | .elem tag cs, h => by
    have ht : tag ≠ name := fun e => h (.here (cs := cs) (by simp [e]))
    rw [named, if_neg ht]
    exact namedIn_none cs fun hi => h (.deeper (tag := tag) (cs := cs) (by simp) hi)
theorem namedIn_none {name : Text} : ∀ l : List Node, ¬ Inside name l → namedIn name l = []
  | [], _ => by simp [namedIn]
  | c :: cs, h => by
    rw [namedIn, named_none c, namedIn_none cs]
    · rfl
    · intro hi
      cases hi with
      | here hm => exact h (.here (List.mem_cons_of_mem _ hm))
      | deeper hm hi => exact h (.deeper (List.mem_cons_of_mem _ hm) hi)
    · intro hi
      cases hi with
      | here hm => rw [List.mem_singleton] at hm; exact h (hm ▸ .here List.mem_cons_self)
      | deeper hm hi => rw [List.mem_singleton] at hm; exact h (hm ▸ .deeper List.mem_cons_self hi)
end

theorem namedIn_mem {name : Text} {l : List Node} {n : Node} (h : n ∈ l) (hn : named name n ≠ []) : namedIn name l ≠ [] := by
  induction l with
  | nil => simp at h
  | cons c l ih =>
    rw [namedIn]
    rcases List.mem_cons.1 h with rfl | h
    · exact fun e => hn (List.append_eq_nil_iff.1 e).1
    · exact fun e => ih h (List.append_eq_nil_iff.1 e).2

theorem not_inside {name : Text} {l : List Node} (h : namedIn name l = []) : ¬ Inside name l := by
  intro hi
  suffices H : ∀ l, Inside name l → namedIn name l ≠ [] from H l hi h
  intro l hi
  induction hi with
  | here hm => exact namedIn_mem hm (by rw [named, if_pos rfl]; simp)
  | deeper hm _ ih => exact namedIn_mem hm (by rw [named]; split_ifs <;> simp [ih])

theorem namedIn_append (name : Text) (l l' : List Node) : namedIn name (l ++ l') = namedIn name l ++ namedIn name l' := by
  induction l with
  | nil => simp [namedIn]
  | cons c l ih => simp [namedIn, ih]

theorem first_leads {name : String} {nodes content : List Node} (h : Leads name nodes content) : first (namedIn name.toList nodes) = .ok content := by
  obtain ⟨b, a, rfl, hb⟩ := h
  rw [namedIn_append, namedIn_none b hb, List.nil_append, namedIn, named, if_pos rfl]
  rfl

theorem value_plain {name : String} {fvm : List Node} {s : Text} (h : Plain name fvm s) : value fvm name = .ok (some s) := by
  rw [value, first_leads h.1]
  rfl

theorem childrenOf_append (l l' : List Node) : childrenOf (l ++ l') = childrenOf l ++ childrenOf l' := by
  induction l with
  | nil => simp [childrenOf]
  | cons c l ih => cases c <;> simp [childrenOf, ih]

theorem childrenOf_key {name : Text} (hn : name ≠ "<xmlcomment>".toList) : ∀ l : List Node, ¬ Inside name l → ∀ p ∈ childrenOf l, p.1 ≠ name
  | [], _, p, hp => by simp [childrenOf] at hp
  | c :: l, h, p, hp => by
    have ih := childrenOf_key hn l (fun hi => h (by
      cases hi with
      | here hm => exact .here (List.mem_cons_of_mem _ hm)
      | deeper hm hi => exact .deeper (List.mem_cons_of_mem _ hm) hi))
    cases c with
    | text s => rw [childrenOf] at hp; exact ih p hp
    | comment s =>
      rw [childrenOf] at hp
      rcases List.mem_cons.1 hp with rfl | hp
      · exact Ne.symm hn
      · exact ih p hp
    | elem tag cs =>
      rw [childrenOf] at hp
      rcases List.mem_cons.1 hp with rfl | hp
      · exact fun e => h (.here (cs := cs) (by simp [← e]))
      · exact ih p hp

theorem first_tree {name : String} (hn : name.toList ≠ "<xmlcomment>".toList) {nodes content : List Node} (h : Leads name nodes content) (d : Str) :
    First (.node d (childrenOf nodes)) name (.node (dataOf content) (childrenOf content)) := by
  obtain ⟨b, a, rfl, hb⟩ := h
  exact ⟨childrenOf b, childrenOf a, by rw [Tree.children, childrenOf_append, childrenOf, treeOf], childrenOf_key hn b hb⟩

theorem filledAll_first {load : Str → Option Str} {k : String} {t : Tree} : ∀ {c c' : List (Str × Tree)} {d d' : Str}, First (.node d c) k t → FilledAll load c c' →
    ∃ t', First (.node d' c') k t' ∧ Filled load t t'
  | c, c', d, d', ⟨b, a, e, hb⟩, hf => by
    simp only [Tree.children] at e
    subst e
    induction b generalizing c' with
    | nil =>
      cases hf with
      | cons h1 h2 => exact ⟨_, ⟨[], _, rfl, by simp⟩, h1⟩
    | cons q b ih =>
      obtain ⟨qk, qt⟩ := q
      cases hf with
      | @cons _ _ qt' _ c2 h1 h2 =>
        obtain ⟨t', ⟨b', a', e', hb'⟩, ht'⟩ := ih _ (fun p hp => hb p (by simp [hp])) h2
        simp only [Tree.children] at e'
        subst e'
        refine ⟨t', ⟨(qk, qt') :: b', a', rfl, ?_⟩, ht'⟩
        intro p hp
        rcases List.mem_cons.1 hp with rfl | hp
        · exact hb (qk, qt) (by simp)
        · exact hb' p hp

theorem filledAll_key {load : Str → Option Str} {k : Str} : ∀ {c c' : List (Str × Params.Tree)}, FilledAll load c c' → (∃ p ∈ c, p.1 = k) → ∃ p ∈ c', p.1 = k
  | _, _, .nil, h => h
  | _, _, .cons _ h2, ⟨p, hp, e⟩ => by
    rcases List.mem_cons.1 hp with rfl | hp
    · exact ⟨_, List.mem_cons_self, e⟩
    · obtain ⟨q, hq, e'⟩ := filledAll_key h2 ⟨p, hp, e⟩
      exact ⟨q, List.mem_cons_of_mem _ hq, e'⟩

theorem filled_key {load : Str → Option Str} {k d : Str} {c : List (Str × Params.Tree)} {t : Params.Tree} (h : Filled load (.node d c) t) (hk : ∃ p ∈ c, p.1 = k) : ∃ p ∈ t.children, p.1 = k := by
  cases h with
  | file _ => obtain ⟨p, hp, -⟩ := hk; simp at hp
  | text _ => obtain ⟨p, hp, -⟩ := hk; simp at hp
  | inner _ hall => exact filledAll_key hall hk

theorem isSpace_iff (c : Char) : isSpace c = true ↔ c ∈ [' ', '\t', '\n', '\x0b', '\x0c', '\r'] := by
  simp [isSpace, or_assoc]

theorem dataOf_plain {s : Text} (h : ∃ c ∈ s, c ∉ [' ', '\t', '\n', '\x0b', '\x0c', '\r']) : dataOf [.text s] = s := by
  rw [dataOf, if_neg, dataOf, List.append_nil]
  rw [List.all_eq_true]
  obtain ⟨c, hc, hn⟩ := h
  exact fun hall => hn ((isSpace_iff c).1 (hall c hc))

/-- The text of a plain element in the tree after loading of the files. -/
theorem says_plain {load : Str → Option Str} {name : String} (hn : name.toList ≠ "<xmlcomment>".toList) {fvm : List Node} {s : Text} (h : Plain name fvm s) {t : Tree} {d : Str}
    (hf : Filled load (.node d (childrenOf fvm)) t) : Says t [name] s := by
  obtain ⟨h1, h2, h3⟩ := h
  have hF := first_tree hn h1 d
  rw [dataOf_plain h2] at hF
  simp only [childrenOf] at hF
  have hne : childrenOf fvm ≠ [] := by
    intro e
    obtain ⟨b, a, e', -⟩ := hF
    rw [Tree.children, e] at e'
    simp at e'
  generalize hc : childrenOf fvm = c at hf hF hne
  cases hf with
  | file _ => exact absurd rfl hne
  | text _ => exact absurd rfl hne
  | inner _ hall =>
    obtain ⟨t', ht', hft⟩ := filledAll_first (d' := d) hF hall
    refine ⟨t', at_one.2 ht', ?_⟩
    generalize hu : Params.Tree.node s [] = u at hft
    cases hft with
    | file _ => cases hu; exact absurd rfl (h3 _)
    | text _ => cases hu; rfl
    | inner hne' _ => cases hu; exact absurd rfl hne'

theorem pretty_lookup (s other : Text) : (match prettyNames.lookup s with | some p => p | none => other) = paperName s other := by
  unfold prettyNames paperName
  simp only [List.lookup_cons, List.lookup_nil]
  split_ifs with h1 h2 h3 h4 h5 h6 <;> simp_all [beq_eq_false_iff_ne.2]

theorem cell_some (field : String) (s : Text) :
    cell field (some s) = .ok (paperName s (if field = "reconstruction" then upper s else if field = "flux" then titleFrom false s else s)) := by
  rw [← pretty_lookup, cell]
  cases prettyNames.lookup s <;> rfl

theorem says_unique {t : Tree} {k : String} {a b : Str} (h : Says t [k] a) (h' : Says t [k] b) : a = b := by
  obtain ⟨c, hc, rfl⟩ := h
  obtain ⟨c', hc', rfl⟩ := h'
  rw [(at_one.1 hc).unique (at_one.1 hc')]

theorem titleFrom_length (b : Bool) (s : Text) : (titleFrom b s).length = s.length := by
  induction s generalizing b with
  | nil => rfl
  | cons c s ih => simp [titleFrom, ih]

theorem titleFrom_get (b : Bool) (s : Text) (i : Nat) (hi : i < s.length) (hj : i < (titleFrom b s).length) :
    (titleFrom b s)[i] = if (if i = 0 then b = true else ∃ j, ∃ hj : j < s.length, j + 1 = i ∧ s[j].isAlpha) then s[i].toLower else s[i].toUpper := by
  induction s generalizing b i with
  | nil => simp at hi
  | cons c s ih =>
    cases i with
    | zero => simp [titleFrom]
    | succ i =>
      simp only [titleFrom, List.getElem_cons_succ]
      rw [ih]
      · congr 1
        apply propext
        simp only [Nat.succ_ne_zero, if_false]
        cases i with
        | zero =>
          simp only [if_true]
          constructor
          · intro h; exact ⟨0, by simp, rfl, h⟩
          · rintro ⟨j, hj, e, h⟩
            obtain rfl : j = 0 := by omega
            exact h
        | succ i =>
          simp only [Nat.succ_ne_zero, if_false]
          constructor
          · rintro ⟨j, hj, e, h⟩
            exact ⟨j + 1, by simpa using hj, by omega, h⟩
          · rintro ⟨j, hj, e, h⟩
            cases j with
            | zero => omega
            | succ j => exact ⟨j, by simpa using hj, by omega, h⟩
      · simpa using hi

theorem titleFrom_capitalised (s : Text) : Capitalised s (titleFrom false s) := by
  refine ⟨titleFrom_length _ _, fun i hi hj => ?_⟩
  rw [titleFrom_get _ _ _ hi]
  congr 1
  apply propext
  cases i with
  | zero => simp
  | succ i => simp

theorem auto_choice {α : Type} (a r i none' auto' : Text) (x y : α) (w : Text → α) :
    (if some i = some auto' then if some r ≠ some none' then some x else some y else some (w a)) = some (if i = auto' then (if r = none' then y else x) else w a) := by
  by_cases h : i = auto'
  · rw [if_pos (congrArg some h), if_pos h]
    by_cases h' : r = none'
    · rw [if_neg (not_not.2 (congrArg some h')), if_pos h']
    · rw [if_pos (fun e => h' (Option.some.inj e)), if_neg h']
  · rw [if_neg (fun e => h (Option.some.inj e)), if_neg h]

theorem autoIntegrator_some (e c T f : Option Text) (r i : Text) : autoIntegrator ⟨e, some r, some i, c, T, f⟩ =
    some (if i = "auto".toList then (if r = "none".toList then "forwardeuler".toList else "rungekutta2".toList) else i) :=
  auto_choice i r i "none".toList "auto".toList "rungekutta2".toList "forwardeuler".toList id

theorem autoCfl_some (e i T f : Option Text) (r c : Text) : autoCfl ⟨e, some r, i, some c, T, f⟩ =
    some (if c = "auto".toList then (if r = "none".toList then "0.9".toList else "0.475".toList) else c) :=
  auto_choice c r c "none".toList "auto".toList "0.475".toList "0.9".toList id

theorem line_six (a b c d e f : Text) : line [a, b, c, d, e, f] =
    a ++ "&".toList ++ b ++ "&".toList ++ c ++ "&".toList ++ d ++ "&".toList ++ e ++ "&".toList ++ f ++ "\\\\ \n".toList := by
  have h : "&".toList = ['&'] := rfl
  generalize hx : "\\\\ \n".toList = x
  simp only [line, h, hx, List.append_assoc, List.cons_append, List.nil_append]

theorem heading : line ["Equation".toList, "Numerical flux".toList, "Reconstruction".toList, "Time integrator".toList, "CFL".toList, "$T$".toList] ++ "\\midrule\n".toList =
    "Equation&Numerical flux&Reconstruction&Time integrator&CFL&$T$\\\\ \n\\midrule\n".toList := by rfl

theorem assembled (top head mid bottom row row' : Text) (h : row = row') (head' : Text) (hh : head ++ mid = head') : top ++ head ++ mid ++ row ++ bottom = top ++ head' ++ row' ++ bottom := by
  subst h hh
  simp only [List.append_assoc]

/-- What the table shows for six values with a text. -/
theorem table_shows {document config fvm : List Node} (h1 : first (namedIn "config".toList document) = .ok config) (h2 : first (namedIn "fvm".toList config) = .ok fvm) {v : Values}
    (hv : readValues fvm = .ok v) {a b c d e f : Text} (ha : cell "equation" v.equation = .ok a) (hb : cell "flux" v.flux = .ok b) (hc : cell "reconstruction" v.reconstruction = .ok c)
    (hd : cell "integrator" (autoIntegrator v) = .ok d) (he : cell "cfl" (autoCfl v) = .ok e) (hf : cell "endTime" v.endTime = .ok f) : ∃ out, table document = .ok out ∧ Shows out a b c d e f := by
  unfold table
  rw [h1, Res.ok_bind, h2, Res.ok_bind, hv, Res.ok_bind, ha, Res.ok_bind, hb, Res.ok_bind, hc, Res.ok_bind, hd, Res.ok_bind, he, Res.ok_bind, hf, Res.ok_bind]
  exact ⟨_, rfl, assembled _ _ _ _ _ _ (line_six a b c d e f) _ heading⟩

theorem readValues_plain {fvm : List Node} {equation flux reconstruction integrator cfl endTime : Text}
    (he : Plain "equation" fvm equation) (hf : Plain "flux" fvm flux) (hr : Plain "reconstruction" fvm reconstruction) (hi : Plain "integrator" fvm integrator)
    (hc : Plain "cfl" fvm cfl) (hT : Plain "endTime" fvm endTime) : readValues fvm = .ok ⟨some equation, some reconstruction, some integrator, some cfl, some endTime, some flux⟩ := by
  unfold readValues
  rw [value_plain he, Res.ok_bind, value_plain hr, Res.ok_bind, value_plain hi, Res.ok_bind, value_plain hc, Res.ok_bind, value_plain hT, Res.ok_bind, value_plain hf, Res.ok_bind]

theorem cell_equation (s : Text) : cell "equation" (some s) = .ok (paperName s s) := by rw [cell_some, if_neg (by decide), if_neg (by decide)]
theorem cell_integrator (s : Text) : cell "integrator" (some s) = .ok (paperName s s) := by rw [cell_some, if_neg (by decide), if_neg (by decide)]
theorem cell_cfl (s : Text) : cell "cfl" (some s) = .ok (paperName s s) := by rw [cell_some, if_neg (by decide), if_neg (by decide)]
theorem cell_endTime (s : Text) : cell "endTime" (some s) = .ok (paperName s s) := by rw [cell_some, if_neg (by decide), if_neg (by decide)]
theorem cell_flux (s : Text) : cell "flux" (some s) = .ok (paperName s (titleFrom false s)) := by rw [cell_some, if_neg (by decide), if_pos rfl]
theorem cell_reconstruction (s : Text) : cell "reconstruction" (some s) = .ok (paperName s (s.map Char.toUpper)) := by rw [cell_some, if_pos rfl]; rfl

end Verif.Table
