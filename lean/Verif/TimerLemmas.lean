import Mathlib.Data.List.Lex
import Mathlib.Order.Basic
import Mathlib.Data.Char
import Mathlib.Tactic.Linarith
import Mathlib.Tactic.Positivity
import Mathlib.Tactic.FieldSimp
import Verif.ReportLemmas
import Verif.SetupLemmas
import Verif.Timer

/-!
Helper lemmas for the timers.
-/

namespace Verif
namespace Timer
open Params TimerSpec

variable {K : Type} [Field K] [LinearOrder K] [IsStrictOrderedRing K]

/-! ### Maps -/

/-- Sorted by the key. -/
def Sorted (c : List (Str × Data K)) : Prop := c.Pairwise fun a b => a.1 < b.1

omit [LinearOrder K] [IsStrictOrderedRing K] in
theorem mem_change_key {k : Str} {f : Data K → Data K} {c : List (Str × Data K)} {p : Str × Data K} (h : p ∈ change k f c) : p.1 = k ∨ p ∈ c := by
  induction c with
  | nil => simp only [change, List.mem_singleton] at h; simp [h]
  | cons a c ih =>
    rw [change] at h
    split at h
    · rcases List.mem_cons.1 h with h | h
      · simp [h]
      · exact .inr (List.mem_cons_of_mem _ h)
    · split at h
      · rcases List.mem_cons.1 h with h | h
        · simp [h]
        · exact .inr h
      · rcases List.mem_cons.1 h with h | h
        · simp [h]
        · rcases ih h with h | h
          · exact .inl h
          · exact .inr (List.mem_cons_of_mem _ h)

omit [LinearOrder K] [IsStrictOrderedRing K] in
theorem sorted_change {k : Str} {f : Data K → Data K} {c : List (Str × Data K)} (h : Sorted c) : Sorted (change k f c) := by
  induction c with
  | nil => simp [change, Sorted]
  | cons a c ih =>
    obtain ⟨ha, hc⟩ := List.pairwise_cons.1 h
    rw [change]
    split
    · next e => exact List.pairwise_cons.2 ⟨fun b hb => e ▸ ha b hb, hc⟩
    · split
      · next hlt =>
        refine List.pairwise_cons.2 ⟨fun b hb => ?_, h⟩
        rcases List.mem_cons.1 hb with rfl | hb
        · exact hlt
        · exact lt_trans hlt (ha b hb)
      · next hne hlt =>
        refine List.pairwise_cons.2 ⟨fun b hb => ?_, ih hc⟩
        rcases mem_change_key hb with e | hb
        · rw [e]
          rcases lt_trichotomy a.1 k with h' | h' | h'
          · exact h'
          · exact absurd h' hne
          · exact absurd h' hlt
        · exact ha b hb

omit [LinearOrder K] [IsStrictOrderedRing K] in
theorem mem_change {k : Str} {f : Data K → Data K} {c : List (Str × Data K)} (h : Sorted c) {p : Str × Data K} :
    p ∈ change k f c ↔ (p.1 ≠ k ∧ p ∈ c) ∨ (p.1 = k ∧ ((∃ t, (k, t) ∈ c ∧ p.2 = f t) ∨ (k ∉ c.map (·.1) ∧ p.2 = f .empty))) := by
  obtain ⟨k', t'⟩ := p
  simp only
  induction c with
  | nil => simp [change]
  | cons a c ih =>
    obtain ⟨a1, a2⟩ := a
    obtain ⟨ha, hc⟩ := List.pairwise_cons.1 h
    have ih := ih hc
    rw [change]
    split
    · next e =>
      simp only at e
      subst e
      have hn : ∀ t, (a1, t) ∉ c := fun t ht => lt_irrefl a1 (ha (a1, t) ht)
      simp only [List.mem_cons, Prod.mk.injEq, List.map_cons, true_or, not_true, false_and, or_false, true_and]
      constructor
      · rintro (⟨h1, h2⟩ | h1)
        · exact .inr ⟨h1, a2, .inl rfl, h2⟩
        · exact .inl ⟨fun e => hn t' (e ▸ h1), .inr h1⟩
      · rintro (⟨h1, h2 | h2⟩ | ⟨h1, t, h2 | h2, h3⟩)
        · exact absurd h2.1 h1
        · exact .inr h2
        · exact .inl ⟨h1, by rw [h3, h2]⟩
        · exact absurd h2 (hn t)
    · next e =>
      simp only at e
      split
      · next hlt =>
        simp only at hlt
        have hn : ∀ t, (k, t) ∉ c := fun t ht => lt_irrefl _ (lt_trans hlt (ha _ ht))
        have hk : k ∉ c.map (·.1) := by
          intro hm
          obtain ⟨⟨x, y⟩, hx, rfl⟩ := List.mem_map.1 hm
          exact hn y hx
        simp only [List.mem_cons, Prod.mk.injEq, List.map_cons]
        constructor
        · rintro (⟨h1, h2⟩ | ⟨h1, h2⟩ | h1)
          · exact .inr ⟨h1, .inr ⟨by rintro (h | h); exacts [e h.symm, hk h], h2⟩⟩
          · exact .inl ⟨by rw [h1]; exact e, .inl ⟨h1, h2⟩⟩
          · exact .inl ⟨by rintro rfl; exact hn _ h1, .inr h1⟩
        · rintro (⟨h1, h2 | h2⟩ | ⟨h1, ⟨t, h2 | h2, h3⟩ | ⟨h2, h3⟩⟩)
          · exact .inr (.inl h2)
          · exact .inr (.inr h2)
          · exact absurd h2.1.symm e
          · exact absurd h2 (hn t)
          · exact .inl ⟨h1, h3⟩
      · simp only [List.mem_cons, ih, Prod.mk.injEq, List.map_cons]
        constructor
        · rintro (⟨h1, h2⟩ | ⟨h1, h2⟩ | ⟨h1, ⟨t, h2, h3⟩ | ⟨h2, h3⟩⟩)
          · exact .inl ⟨by rw [h1]; exact e, .inl ⟨h1, h2⟩⟩
          · exact .inl ⟨h1, .inr h2⟩
          · exact .inr ⟨h1, .inl ⟨t, .inr h2, h3⟩⟩
          · exact .inr ⟨h1, .inr ⟨by rintro (h | h); exacts [e h.symm, h2 h], h3⟩⟩
        · rintro (⟨h1, h2 | h2⟩ | ⟨h1, ⟨t, h2 | h2, h3⟩ | ⟨h2, h3⟩⟩)
          · exact .inl h2
          · exact .inr (.inl ⟨h1, h2⟩)
          · exact absurd h2.1.symm e
          · exact .inr (.inr ⟨h1, .inl ⟨t, h2, h3⟩⟩)
          · exact .inr (.inr ⟨h1, .inr ⟨fun h => h2 (.inr h), h3⟩⟩)

/-! ### What a node knows -/

/-- The blocks of a list that lie below `k`. -/
def sub (k : Str) (L : List (Name × K)) : List (Name × K) :=
  L.filterMap fun b => match b.1 with
    | [] => none
    | k' :: ks => if k' = k then some (ks, b.2) else none

/-- The node has the times of the blocks in the list. -/
inductive Holds : Data K → List (Name × K) → Prop
  | node {c : List (Str × Data K)} {u : K} {h : Bool} {L : List (Name × K)} : Sorted c → (∀ b ∈ L, ∀ k ks, b.1 = k :: ks → k ∈ c.map (·.1)) →
      u = (L.map fun b => if b.1 = [] then b.2 else 0).sum → h = L.any (fun b => b.1 = []) → (∀ p ∈ c, Holds p.2 (sub p.1 L)) → Holds (.node c u h) L

omit [Field K] [LinearOrder K] [IsStrictOrderedRing K] in
theorem sub_append (k : Str) (L M : List (Name × K)) : sub k (L ++ M) = sub k L ++ sub k M := List.filterMap_append ..

omit [Field K] [LinearOrder K] [IsStrictOrderedRing K] in
theorem sub_nil_of {k : Str} {L : List (Name × K)} (h : ∀ b ∈ L, ∀ k' ks, b.1 = k' :: ks → k' ≠ k) : sub k L = [] := by
  rw [sub, List.filterMap_eq_nil_iff]
  intro b hb
  rcases hbb : b.1 with _ | ⟨k', ks⟩
  · rfl
  · simp [h b hb k' ks hbb]

omit [LinearOrder K] [IsStrictOrderedRing K] in
theorem holds_empty : Holds (Data.empty : Data K) [] := .node List.Pairwise.nil (by simp) (by simp) (by simp) (by simp)

omit [LinearOrder K] [IsStrictOrderedRing K] in
/-- Adding the times `E` at the place `q`. -/
theorem holds_at {f : Data K → Data K} {E : List K} (hf : ∀ t L, Holds t L → Holds (f t) (L ++ E.map fun d => ([], d))) (q : Name) :
    ∀ t L, Holds t L → Holds (at_ q f t) (L ++ E.map fun d => (q, d)) := by
  induction q with
  | nil => exact hf
  | cons k ks ih =>
    intro t L h
    cases h with
    | @node c u h L hs hk hu hh hc =>
      rw [at_]
      refine .node (sorted_change hs) ?_ ?_ ?_ ?_
      · intro b hb k' ks' hb'
        have key : ∀ k', (k' ∈ c.map (·.1) ∨ k' = k) → k' ∈ (change k (at_ ks f) c).map (·.1) := by
          intro k' hk'
          by_cases e : k' = k
          · subst e
            by_cases hin : k' ∈ c.map (·.1)
            · obtain ⟨⟨x, y⟩, hx, rfl⟩ := List.mem_map.1 hin
              exact List.mem_map.2 ⟨(x, at_ ks f y), (mem_change hs).2 (.inr ⟨rfl, .inl ⟨y, hx, rfl⟩⟩), rfl⟩
            · exact List.mem_map.2 ⟨(k', at_ ks f .empty), (mem_change hs).2 (.inr ⟨rfl, .inr ⟨hin, rfl⟩⟩), rfl⟩
          · obtain ⟨⟨x, y⟩, hx, rfl⟩ := List.mem_map.1 (hk'.resolve_right e)
            exact List.mem_map.2 ⟨(x, y), (mem_change hs).2 (.inl ⟨e, hx⟩), rfl⟩
        rcases List.mem_append.1 hb with hb | hb
        · exact key _ (.inl (hk b hb k' ks' hb'))
        · obtain ⟨d, -, rfl⟩ := List.mem_map.1 hb
          simp only [List.cons.injEq] at hb'
          exact key _ (.inr hb'.1.symm)
      · rw [List.map_append, List.sum_append, ← hu]
        simp [Function.comp_def]
      · rw [List.any_append, ← hh]
        simp
      · rintro ⟨k', t'⟩ hp
        have hsub : ∀ k', sub k' (E.map fun d => (k :: ks, d)) = if k' = k then E.map (fun d => (ks, d)) else [] := by
          intro k'
          split
          · next e =>
            subst e
            simp [sub, List.filterMap_map]
          · next e =>
            refine sub_nil_of ?_
            intro b hb k'' ks'' hb'
            obtain ⟨d, -, rfl⟩ := List.mem_map.1 hb
            simp only [List.cons.injEq] at hb'
            rw [← hb'.1]
            exact fun e' => e e'.symm
        simp only [sub_append, hsub]
        rcases (mem_change hs).1 hp with ⟨h1, h2⟩ | ⟨h1, ⟨t, h2, h3⟩ | ⟨h2, h3⟩⟩
        · simp only at h1
          rw [if_neg h1, List.append_nil]
          exact hc _ h2
        · simp only at h1 h3
          subst h1
          rw [if_pos rfl, h3]
          exact ih _ _ (hc _ h2)
        · simp only at h1 h3
          subst h1
          have : sub k' L = [] := sub_nil_of fun b hb k'' ks'' hb' e => h2 (e ▸ hk b hb k'' ks'' hb')
          rw [if_pos rfl, h3, this]
          exact ih _ _ holds_empty

omit [LinearOrder K] [IsStrictOrderedRing K] in
theorem holds_touch (q : Name) {t : Data K} {L : List (Name × K)} (h : Holds t L) : Holds (at_ q id t) L := by
  have := holds_at (f := id) (E := []) (fun t L h => by simpa using h) q t L h
  simpa using this

omit [LinearOrder K] [IsStrictOrderedRing K] in
theorem holds_add (q : Name) (d : K) {t : Data K} {L : List (Name × K)} (h : Holds t L) : Holds (at_ q (addTime d) t) (L ++ [(q, d)]) := by
  refine holds_at (f := addTime d) (E := [d]) (fun t L h => ?_) q t L h
  cases h with
  | @node c u h L hs hk hu hh hc =>
    rw [addTime]
    refine .node hs ?_ ?_ ?_ ?_
    · intro b hb k ks hb'
      rcases List.mem_append.1 hb with hb | hb
      · exact hk b hb k ks hb'
      · simp only [List.map_cons, List.map_nil, List.mem_singleton] at hb
        rw [hb] at hb'
        cases hb'
    · simp [hu]
    · simp
    · intro p hp
      have : sub p.1 ([d].map fun d => (([] : Name), d)) = [] := sub_nil_of (by simp)
      rw [sub_append, this, List.append_nil]
      exact hc p hp

omit [LinearOrder K] [IsStrictOrderedRing K] in
theorem run_holds (P : Program K) : ∀ (s : State K) (L : List (Name × K)), Holds s.root L →
    Holds (run P s).root (L ++ P.blocks) ∧ (run P s).now = s.now + P.duration := by
  induction P with
  | finished => intro s L h; simpa [run, Program.blocks, Program.duration] using h
  | work d n ih =>
    intro s L h
    obtain ⟨h1, h2⟩ := ih { s with now := s.now + d } L h
    exact ⟨h1, by rw [run, h2, Program.duration]; simp only; ring⟩
  | block q i n ihi ihn =>
    intro s L h
    obtain ⟨h1, h2⟩ := ihi { s with root := at_ q id s.root } L (holds_touch q h)
    have h2' : (run i { s with root := at_ q id s.root }).now - s.now = i.duration := by rw [h2]; ring
    obtain ⟨h3, h4⟩ := ihn { run i { s with root := at_ q id s.root } with
      root := at_ q (addTime ((run i { s with root := at_ q id s.root }).now - s.now)) (run i { s with root := at_ q id s.root }).root } _ (holds_add q _ h1)
    refine ⟨?_, ?_⟩
    · rw [run, Program.blocks]
      rw [h2'] at h3 ⊢
      simpa [List.append_assoc] using h3
    · rw [run, Program.duration]
      rw [h4, h2]
      ring

/-! ### Totals -/

omit [LinearOrder K] [IsStrictOrderedRing K] in
theorem timeOf_eq (L : List (Name × K)) (p : Name) : timeOf L p = (L.map fun b => if outermost L p b.1 then b.2 else 0).sum := by
  rw [timeOf]
  generalize outermost L p = C
  induction L with
  | nil => rfl
  | cons b L ih =>
    by_cases h : C b.1 = true
    · simp [h, ih]
    · simp [h, ih]

omit [LinearOrder K] [IsStrictOrderedRing K] in
theorem sum_one {ks : List Str} (hn : ks.Nodup) {k : Str} (hk : k ∈ ks) (x : K) : (ks.map fun k' => if k = k' then x else 0).sum = x := by
  induction ks with
  | nil => cases hk
  | cons a ks ih =>
    obtain ⟨ha, hn⟩ := List.nodup_cons.1 hn
    rcases List.mem_cons.1 hk with rfl | hk
    · have : (ks.map fun k' => if k = k' then x else 0).sum = 0 := by
        refine List.sum_eq_zero fun y hy => ?_
        obtain ⟨k', hk', rfl⟩ := List.mem_map.1 hy
        rw [if_neg]
        rintro rfl
        exact ha hk'
      simp [this]
    · have : k ≠ a := fun e => ha (e ▸ hk)
      simp [this, ih hn hk]

omit [LinearOrder K] [IsStrictOrderedRing K] in
/-- A sum over all blocks, sorted by the first key. -/
theorem sum_sub {ks : List Str} (hn : ks.Nodup) (g : Str → Name → K → K) (L : List (Name × K)) (hL : ∀ b ∈ L, ∀ k t, b.1 = k :: t → k ∈ ks) :
    (ks.map fun k => ((sub k L).map fun b => g k b.1 b.2).sum).sum = (L.map fun b => match b.1 with
      | [] => 0
      | k :: t => g k t b.2).sum := by
  induction L with
  | nil => exact List.sum_eq_zero (by simp [sub])
  | cons b L ih =>
    have ih := ih fun b hb => hL b (List.mem_cons_of_mem _ hb)
    obtain ⟨q, d⟩ := b
    rcases q with _ | ⟨k, t⟩
    · simpa [sub] using ih
    · have : ∀ k', ((sub k' ((k :: t, d) :: L)).map fun b => g k' b.1 b.2).sum = (if k = k' then g k t d else 0) + ((sub k' L).map fun b => g k' b.1 b.2).sum := by
        intro k'
        by_cases e : k = k'
        · subst e; simp [sub]
        · simp [sub, e]
      rw [List.map_cons, List.sum_cons, ← ih, List.map_congr_left fun k' _ => this k', List.sum_map_add, sum_one hn (hL _ List.mem_cons_self k t rfl) (g k t d)]

omit [Field K] [LinearOrder K] [IsStrictOrderedRing K] in
theorem mem_sub {k : Str} {L : List (Name × K)} {t : Name} {d : K} : (t, d) ∈ sub k L ↔ (k :: t, d) ∈ L := by
  rw [sub, List.mem_filterMap]
  constructor
  · rintro ⟨⟨q, e⟩, h, h'⟩
    rcases q with _ | ⟨k', ks⟩
    · cases h'
    · simp only at h'
      split at h'
      · next e' =>
        simp only [Option.some.injEq, Prod.mk.injEq] at h'
        rw [← h'.1, ← h'.2, ← e']
        exact h
      · cases h'
  · intro h
    exact ⟨_, h, by simp⟩

omit [Field K] [LinearOrder K] [IsStrictOrderedRing K] in
theorem outermost_iff {L : List (Name × K)} {p q : Name} : outermost L p q = true ↔ p <+: q ∧ ∀ b ∈ L, p <+: b.1 → b.1 <+: q → b.1 = q := by
  simp only [outermost, Bool.and_eq_true, List.isPrefixOf_iff_prefix, List.all_eq_true, Bool.not_eq_true', Bool.and_eq_false_imp, bne_eq_false_iff_eq, and_imp]

omit [Field K] [LinearOrder K] [IsStrictOrderedRing K] in
theorem outermost_sub {L : List (Name × K)} {k : Str} {p q : Name} : outermost (sub k L) p q = true ↔ outermost L (k :: p) (k :: q) = true := by
  simp only [outermost_iff, List.cons_prefix_cons, true_and, Prod.forall]
  refine and_congr_right fun _ => ⟨fun h b d hb h1 h2 => ?_, fun h t d ht h1 h2 => ?_⟩
  · rcases b with _ | ⟨k', b⟩
    · simp at h1
    · obtain ⟨rfl, h1'⟩ := List.cons_prefix_cons.1 h1
      obtain ⟨-, h2'⟩ := List.cons_prefix_cons.1 h2
      rw [h b d (mem_sub.2 hb) h1' h2']
  · have := h (k :: t) d (mem_sub.1 ht) (List.cons_prefix_cons.2 ⟨rfl, h1⟩) (List.cons_prefix_cons.2 ⟨rfl, h2⟩)
    exact (List.cons.inj this).2

omit [Field K] [LinearOrder K] [IsStrictOrderedRing K] in
theorem outermost_sub_nil {L : List (Name × K)} (hL : ∀ b ∈ L, b.1 ≠ []) {k : Str} {q : Name} : outermost (sub k L) [] q = true ↔ outermost L [] (k :: q) = true := by
  simp only [outermost_iff, List.nil_prefix, true_and, Prod.forall, forall_const]
  refine ⟨fun h b d hb h2 => ?_, fun h t d ht h2 => ?_⟩
  · rcases b with _ | ⟨k', b⟩
    · exact absurd rfl (hL _ hb)
    · obtain ⟨rfl, h2'⟩ := List.cons_prefix_cons.1 h2
      rw [h b d (mem_sub.2 hb) h2']
  · have := h (k :: t) d (mem_sub.1 ht) (List.cons_prefix_cons.2 ⟨rfl, h2⟩)
    exact (List.cons.inj this).2

omit [LinearOrder K] [IsStrictOrderedRing K] in
theorem timeOf_sub (L : List (Name × K)) (k : Str) (p : Name) : timeOf (sub k L) p = timeOf L (k :: p) := by
  have h := sum_sub (ks := k :: ((L.filterMap fun b => b.1.head?).dedup.filter (· ≠ k)))
    (List.nodup_cons.2 ⟨by simp, (List.nodup_dedup _).filter _⟩) (fun k' t d => if k' = k ∧ outermost (sub k L) p t = true then d else 0) L ?_
  · rw [List.map_cons, List.sum_cons, List.sum_eq_zero (l := List.map _ (List.filter _ _)), add_zero] at h
    · rw [timeOf_eq, timeOf_eq]
      simp only [true_and] at h
      rw [h]
      refine congrArg List.sum (List.map_congr_left fun b _ => ?_)
      rcases hb : b.1 with _ | ⟨k', t⟩
      · rw [if_neg]
        simp [outermost_iff]
      · simp only
        refine if_congr ?_ rfl rfl
        constructor
        · rintro ⟨rfl, h⟩
          exact outermost_sub.1 h
        · intro h
          have := (outermost_iff.1 h).1
          obtain ⟨rfl, -⟩ := List.cons_prefix_cons.1 this
          exact ⟨rfl, outermost_sub.2 h⟩
    · intro x hx
      obtain ⟨k', hk', rfl⟩ := List.mem_map.1 hx
      have : k' ≠ k := by simpa using (List.mem_filter.1 hk').2
      exact List.sum_eq_zero (by simp [this])
  · intro b hb k' t hb'
    by_cases e : k' = k
    · exact e ▸ List.mem_cons_self
    · refine List.mem_cons_of_mem _ (List.mem_filter.2 ⟨List.mem_dedup.2 (List.mem_filterMap.2 ⟨b, hb, by rw [hb']; rfl⟩), by simpa using e⟩)

omit [LinearOrder K] [IsStrictOrderedRing K] in
theorem total_node (c : List (Str × Data K)) (u : K) (h : Bool) : (Data.node c u h).total = if h then u else u + (c.map fun p => p.2.total).sum := by
  rw [Data.total]
  congr 1
  have : ∀ (l : List {x // x ∈ c}) (s : K), l.foldl (fun s p => s + p.1.2.total) s = s + (l.map fun p => p.1.2.total).sum := by
    intro l
    induction l with
    | nil => simp
    | cons a l ih => intro s; rw [List.foldl_cons, ih, List.map_cons, List.sum_cons]; ring
  rw [this]
  congr 1
  conv_rhs => rw [← List.attach_map_subtype_val c, List.map_map]
  rfl

omit [Field K] [LinearOrder K] [IsStrictOrderedRing K] in
theorem nodup_keys {c : List (Str × Data K)} (h : Sorted c) : (c.map (·.1)).Nodup := by
  rw [List.Nodup, List.pairwise_map]
  exact List.Pairwise.imp (R := fun a b : Str × Data K => a.1 < b.1) (fun h e => by rw [e] at h; exact lt_irrefl _ h) h

omit [LinearOrder K] [IsStrictOrderedRing K] in
theorem total_eq {t : Data K} {L : List (Name × K)} (h : Holds t L) : t.total = timeOf L [] := by
  induction h with
  | @node c u h L hs hk hu hh hc ih =>
    rw [total_node]
    rcases Bool.eq_false_or_eq_true h with e | e
    · rw [if_pos e, hu, timeOf_eq]
      refine congrArg List.sum (List.map_congr_left fun b _ => if_congr ?_ rfl rfl)
      rw [e] at hh
      obtain ⟨b', hb', e'⟩ := List.any_eq_true.1 hh.symm
      have e' : b'.1 = [] := by simpa using e'
      constructor
      · intro eb
        rw [outermost_iff, eb]
        exact ⟨List.prefix_rfl, fun b _ _ h => List.prefix_nil.1 h⟩
      · intro ho
        have := (outermost_iff.1 ho).2 b' hb' List.nil_prefix (by rw [e']; exact List.nil_prefix)
        rw [← this, e']
    · have hne : ∀ b ∈ L, b.1 ≠ [] := by
        intro b hb eb
        have : L.any (fun b => b.1 = []) = true := List.any_eq_true.2 ⟨b, hb, by simpa using eb⟩
        rw [← hh, e] at this
        cases this
      have hu0 : u = 0 := by
        rw [hu]
        refine List.sum_eq_zero fun x hx => ?_
        obtain ⟨b, hb, rfl⟩ := List.mem_map.1 hx
        rw [if_neg (hne b hb)]
      rw [if_neg (by simp [e]), hu0, zero_add]
      have h1 : (c.map fun p => p.2.total) = (c.map (·.1)).map fun k => ((sub k L).map fun b => if outermost (sub k L) [] b.1 then b.2 else 0).sum := by
        rw [List.map_map]
        refine List.map_congr_left fun p hp => ?_
        rw [ih p hp, timeOf_eq]
        rfl
      rw [h1, sum_sub (nodup_keys hs) (fun k t d => if outermost (sub k L) [] t then d else 0) L hk, timeOf_eq]
      refine congrArg List.sum (List.map_congr_left fun b hb => ?_)
      rcases hb' : b.1 with _ | ⟨k', t⟩
      · exact absurd hb' (hne b hb)
      · exact if_congr (outermost_sub_nil hne) rfl rfl

/-! ### Places in the database -/

/-- The node for a name. -/
def look : Name → Data K → Option (Data K)
  | [], t => some t
  | k :: ks, .node c _ _ => match c.find? fun p => p.1 == k with
    | none => none
    | some p => look ks p.2

omit [LinearOrder K] [IsStrictOrderedRing K] in
theorem look_holds {p : Name} : ∀ {t t' : Data K} {L : List (Name × K)}, Holds t L → look p t = some t' → t'.total = timeOf L p := by
  induction p with
  | nil =>
    intro t t' L h hl
    rw [look, Option.some.injEq] at hl
    rw [← hl, total_eq h]
  | cons k ks ih =>
    intro t t' L h hl
    cases h with
    | @node c u h L hs hk hu hh hc =>
      rw [look] at hl
      rcases hf : c.find? fun p => p.1 == k with _ | p
      · rw [hf] at hl; cases hl
      · rw [hf] at hl
        have hp := List.mem_of_find?_eq_some hf
        have e : p.1 = k := by simpa using List.find?_some hf
        rw [ih (hc p hp) hl, e, timeOf_sub]

omit [LinearOrder K] [IsStrictOrderedRing K] in
theorem look_some {p : Name} : ∀ {t : Data K} {L : List (Name × K)}, Holds t L → ∀ b ∈ L, p <+: b.1 → ∃ t', look p t = some t' := by
  induction p with
  | nil => exact fun {t L} _ _ _ _ => ⟨t, rfl⟩
  | cons k ks ih =>
    intro t L h b hb hp
    cases h with
    | @node c u h L hs hk hu hh hc =>
      rw [look]
      obtain ⟨q, d⟩ := b
      rcases q with _ | ⟨k', q⟩
      · simp at hp
      · obtain ⟨rfl, hq⟩ := List.cons_prefix_cons.1 hp
        obtain ⟨y, hy, e⟩ := List.mem_map.1 (hk _ hb k q rfl)
        rcases hf : c.find? fun p => p.1 == k with _ | p'
        · have := List.find?_eq_none.1 hf y hy
          simp [e] at this
        · have hp' := List.mem_of_find?_eq_some hf
          have e : p'.1 = k := by simpa using List.find?_some hf
          simp only [hf]
          exact ih (hc p' hp') (q, d) (mem_sub.2 (by rw [e]; exact hb)) hq

/-! ### The tree -/

theorem attach_mapM {α β : Type} (l : List α) (g : α → Res β) : (l.attach.mapM fun p => g p.1) = l.mapM g := by
  conv_rhs => rw [← List.attach_map_subtype_val l, List.mapM_map]
  rfl

variable [FloorRing K]

omit [IsStrictOrderedRing K] in
theorem tree_iff {pr : Print K} {total : K} {c : List (Str × Data K)} {u : K} {h : Bool} {T : Tree} : (Data.node c u h).tree pr total = .ok T ↔
    ∃ pc cs, percent (Data.node c u h).total total = .ok pc ∧ List.Forall₂ (fun p q => q.1 = p.1 ∧ p.2.tree pr total = .ok q.2) c cs ∧
      T = .node [] ([("totalTime".toList, .node (pr.real (Data.node c u h).total) []), ("percentOfProgramTotalTime".toList, .node (pr.int pc) []),
        ("hasIndividualTimeData".toList, .node (if h then "true".toList else "false".toList) [])] ++ cs) := by
  rw [Data.tree, attach_mapM c fun p => do
      let sub ← p.2.tree pr total
      pure (p.1, sub)]
  have hf : ∀ cs : List (Str × Tree), List.Forall₂ (fun p q => q.1 = p.1 ∧ p.2.tree pr total = .ok q.2) c cs ↔ (c.mapM fun p => do
      let sub ← p.2.tree pr total
      pure (p.1, sub)) = Except.ok cs := by
    intro cs
    rw [Setup.mapM_iff]
    refine ⟨fun h => h.imp fun p q hpq => ?_, fun h => h.imp fun p q hpq => ?_⟩
    · rw [hpq.2]
      simp [pure, Except.pure, ← hpq.1]
    · rcases ht : p.2.tree pr total with e | t
      · rw [ht] at hpq; cases hpq
      · rw [ht] at hpq
        simp only [Res.ok_bind, pure, Except.pure, Except.ok.injEq] at hpq
        rw [← hpq]
        exact ⟨rfl, rfl⟩
  constructor
  · intro hT
    rcases hp : percent (Data.node c u h).total total with e | pc
    · rw [hp] at hT; cases hT
    · rw [hp, Res.ok_bind] at hT
      rcases hm : (c.mapM fun p => do
          let sub ← p.2.tree pr total
          pure (p.1, sub)) with e | cs
      · rw [hm] at hT; cases hT
      · rw [hm, Res.ok_bind] at hT
        refine ⟨pc, cs, rfl, (hf cs).2 hm, ?_⟩
        cases hT
        rfl
  · rintro ⟨pc, cs, hp, hm, rfl⟩
    rw [hp, Res.ok_bind, (hf cs).1 hm, Res.ok_bind]
    rfl

/-- Entries of the report that are not names of blocks. -/
def reserved : List Str := ["totalTime".toList, "percentOfProgramTotalTime".toList, "hasIndividualTimeData".toList]

omit [IsStrictOrderedRing K] in
theorem tree_walk {pr : Print K} {total : K} {p : Name} (hr : ∀ k ∈ p, k ∉ reserved) : ∀ {t t' : Data K} {T : Tree}, t.tree pr total = .ok T → look p t = some t' →
    ∃ T', walk p T = .ok T' ∧ t'.tree pr total = .ok T' := by
  induction p with
  | nil =>
    intro t t' T hT hl
    rw [look, Option.some.injEq] at hl
    exact ⟨T, rfl, hl ▸ hT⟩
  | cons k ks ih =>
    rintro ⟨c, u, h⟩ t' T hT hl
    obtain ⟨pc, cs, -, hcs, rfl⟩ := tree_iff.1 hT
    have hk := hr k List.mem_cons_self
    simp only [reserved, List.mem_cons, List.not_mem_nil, or_false, not_or] at hk
    rw [look] at hl
    rcases hf : c.find? fun p => p.1 == k with _ | p
    · rw [hf] at hl; cases hl
    · rw [hf] at hl
      have key : ∀ {c : List (Str × Data K)} {cs : List (Str × Tree)}, List.Forall₂ (fun p q => q.1 = p.1 ∧ p.2.tree pr total = .ok q.2) c cs →
          (c.find? fun p => p.1 == k) = some p → ∃ q, (cs.find? fun p => p.1 == k) = some q ∧ p.2.tree pr total = .ok q.2 := by
        intro c cs hcs
        induction hcs with
        | nil => intro h; cases h
        | @cons a b c cs hab _ ih =>
          intro h
          rw [List.find?_cons] at h ⊢
          rw [hab.1]
          split at h
          · rw [Option.some.injEq] at h
            exact ⟨b, rfl, h ▸ hab.2⟩
          · exact ih h
      obtain ⟨q, hq, hqt⟩ := key hcs hf
      obtain ⟨T', hT', ht'⟩ := ih (fun k hk => hr k (List.mem_cons_of_mem _ hk)) hqt hl
      refine ⟨T', ?_, ht'⟩
      rw [walk]
      have : find k (.node [] ([("totalTime".toList, .node (pr.real (Data.node c u h).total) []), ("percentOfProgramTotalTime".toList, .node (pr.int pc) []),
        ("hasIndividualTimeData".toList, .node (if h then "true".toList else "false".toList) [])] ++ cs)) = some q.2 := by
        have e1 : ("totalTime".toList == k) = false := by simpa using fun e => hk.1 e.symm
        have e2 : ("percentOfProgramTotalTime".toList == k) = false := by simpa using fun e => hk.2.1 e.symm
        have e3 : ("hasIndividualTimeData".toList == k) = false := by simpa using fun e => hk.2.2 e.symm
        simp only [find, Tree.children, List.cons_append, List.nil_append, List.find?_cons, e1, e2, e3, hq, Option.map_some]
      rw [this]
      exact hT'

omit [IsStrictOrderedRing K] in
/-- The tree exists if all percentages do. -/
theorem tree_ok {pr : Print K} {total : K} (n : Nat) : ∀ {t : Data K} {L : List (Name × K)}, sizeOf t ≤ n → Holds t L →
    (∀ p t', look p t = some t' → ∃ pc, percent t'.total total = .ok pc) → ∃ T, t.tree pr total = .ok T := by
  induction n with
  | zero =>
    rintro ⟨c, u, h⟩ L hn
    simp at hn
  | succ n ih =>
    rintro ⟨c, u, h⟩ L hn hL hp
    cases hL with
    | node hs hk hu hh hc =>
      obtain ⟨pc, hpc⟩ := hp [] _ rfl
      have hcs : ∀ p ∈ c, ∃ q : Str × Tree, q.1 = p.1 ∧ p.2.tree pr total = .ok q.2 := by
        intro p hpc
        have h1 := List.sizeOf_lt_of_mem hpc
        have h2 : sizeOf p.2 < sizeOf p := by
          rcases p with ⟨a, b⟩
          simp only [Prod.mk.sizeOf_spec]
          omega
        simp only [Data.node.sizeOf_spec] at hn
        obtain ⟨T, hT⟩ := ih (by omega) (hc p hpc) (fun q t' hq => hp (p.1 :: q) t' (by
          rw [look]
          rcases hf : c.find? fun p' => p'.1 == p.1 with _ | p'
          · exact absurd (List.find?_eq_none.1 hf p hpc) (by simp)
          · have hp' := List.mem_of_find?_eq_some hf
            have e : p'.1 = p.1 := by simpa using List.find?_some hf
            have : p' = p := List.inj_on_of_nodup_map (nodup_keys hs) hp' hpc e
            rw [hf, this]
            exact hq))
        exact ⟨(p.1, T), rfl, hT⟩
      have : ∃ cs : List (Str × Tree), List.Forall₂ (fun p q => q.1 = p.1 ∧ p.2.tree pr total = .ok q.2) c cs := by
        clear hs hk hc hp hpc hn
        induction c with
        | nil => exact ⟨[], .nil⟩
        | cons a c ih =>
          obtain ⟨q, hq⟩ := hcs a List.mem_cons_self
          obtain ⟨cs, hcs⟩ := ih fun p hp => hcs p (List.mem_cons_of_mem _ hp)
          exact ⟨q :: cs, .cons hq hcs⟩
      obtain ⟨cs, hcs⟩ := this
      exact ⟨_, tree_iff.2 ⟨pc, cs, hpc, hcs, rfl⟩⟩

omit [IsStrictOrderedRing K] in
/-- The entries of one block. -/
theorem tree_entries {pr : Print K} {total : K} {t : Data K} {T : Tree} (h : t.tree pr total = .ok T) : ∃ pc, percent t.total total = .ok pc ∧
    walk ["totalTime".toList] T = .ok (.node (pr.real t.total) []) ∧ walk ["percentOfProgramTotalTime".toList] T = .ok (.node (pr.int pc) []) := by
  obtain ⟨c, u, h'⟩ := t
  obtain ⟨pc, cs, hpc, -, rfl⟩ := tree_iff.1 h
  have e : ("totalTime".toList == "percentOfProgramTotalTime".toList) = false := by decide
  refine ⟨pc, hpc, ?_, ?_⟩
  · simp only [walk, find, Tree.children, List.cons_append, List.find?_cons, beq_self_eq_true, Option.map_some]
  · simp only [walk, find, Tree.children, List.cons_append, List.find?_cons, e, beq_self_eq_true, Option.map_some]

theorem walk_append (p q : List Str) : ∀ {T T' : Tree}, walk p T = .ok T' → walk (p ++ q) T = walk q T' := by
  induction p with
  | nil => intro T T' h; cases h; rfl
  | cons k p ih =>
    intro T T' h
    rw [List.cons_append, walk]
    rw [walk] at h
    split at h
    · exact ih h
    · cases h

/-! ### Durations -/

omit [FloorRing K] in
theorem duration_nonneg {P : Program K} (h : P.Steady) : 0 ≤ P.duration := by
  induction P with
  | finished => exact le_rfl
  | work d n ih => exact add_nonneg h.1 (ih h.2)
  | block q i n ihi ihn => exact add_nonneg (ihi h.1) (ihn h.2)

omit [FloorRing K] in
theorem spent_bounds (C : Name → Bool) {P : Program K} (h : P.Steady) : 0 ≤ P.spent C ∧ P.spent C ≤ P.duration := by
  induction P with
  | finished => exact ⟨le_rfl, le_rfl⟩
  | work d n ih =>
    have := ih h.2
    exact ⟨this.1, by rw [Program.spent, Program.duration]; linarith [h.1, this.2]⟩
  | block q i n ihi ihn =>
    have h1 := ihi h.1
    have h2 := ihn h.2
    have h3 := duration_nonneg h.1
    rw [Program.spent, Program.duration]
    split
    · exact ⟨by linarith, by linarith⟩
    · exact ⟨by linarith, by linarith⟩

omit [FloorRing K] [LinearOrder K] [IsStrictOrderedRing K] in
theorem spent_eq {C : Name → Bool} {P : Program K} (h : P.Separate C) : (P.blocks.map fun b => if C b.1 then b.2 else 0).sum = P.spent C := by
  induction P with
  | finished => rfl
  | work d n ih => exact ih h
  | block q i n ihi ihn =>
    rw [Program.blocks, Program.spent, List.map_append, List.sum_append, List.map_cons, List.sum_cons, ihn h.2.2]
    split
    · next e =>
      have : (i.blocks.map fun b => if C b.1 then b.2 else 0).sum = 0 := by
        refine List.sum_eq_zero fun x hx => ?_
        obtain ⟨b, hb, rfl⟩ := List.mem_map.1 hx
        rw [h.1 e b hb]
        rfl
      rw [this]
      ring
    · rw [ihi h.2.1]
      ring

theorem percent_ok {a b : K} (h0 : 0 ≤ a) (h1 : a ≤ b) (hb : 0 < b) : percent a b = .ok ⌈100 * a / b⌉ ∧ 0 ≤ ⌈100 * a / b⌉ ∧ ⌈100 * a / b⌉ ≤ 100 := by
  have h2 : 0 ≤ ⌈100 * a / b⌉ := Int.ceil_nonneg (by positivity)
  have h3 : ⌈100 * a / b⌉ ≤ 100 := by
    rw [Int.ceil_le, div_le_iff₀ hb]
    push_cast
    linarith
  exact ⟨by rw [percent, if_neg hb.ne', if_pos ⟨by omega, by omega⟩], h2, h3⟩

omit [FloorRing K] in
theorem timeOf_bounds {L : List (Name × K)} (h : ∀ b ∈ L, 0 ≤ b.2) (p : Name) : 0 ≤ timeOf L p ∧ timeOf L p ≤ (L.map (·.2)).sum := by
  rw [timeOf_eq]
  generalize outermost L p = C
  induction L with
  | nil => simp
  | cons b L ih =>
    have hb := h b List.mem_cons_self
    have := ih fun b hb => h b (List.mem_cons_of_mem _ hb)
    rw [List.map_cons, List.sum_cons, List.map_cons, List.sum_cons]
    split
    · exact ⟨by linarith, by linarith⟩
    · exact ⟨by linarith, by linarith⟩

/-- The names follow the nesting. -/
def Nested : Program K → Prop
  | .finished => True
  | .work _ n => Nested n
  | .block q i n => (∀ b ∈ i.blocks, q <+: b.1 ∧ q ≠ b.1) ∧ Nested i ∧ Nested n

omit [FloorRing K] [LinearOrder K] [IsStrictOrderedRing K] in
theorem separate_of_nested {L : List (Name × K)} (p : Name) {P : Program K} (h : Nested P) (hL : ∀ b ∈ P.blocks, b ∈ L) : P.Separate (outermost L p) := by
  induction P with
  | finished => trivial
  | work d n ih => exact ih h hL
  | block q i n ihi ihn =>
    refine ⟨fun hq b hb => ?_, ihi h.2.1 fun b hb => hL b (by simp [Program.blocks, hb]), ihn h.2.2 fun b hb => hL b (by simp [Program.blocks, hb])⟩
    rw [← Bool.not_eq_true]
    intro ho
    obtain ⟨h1, h2⟩ := h.1 b hb
    exact h2 ((outermost_iff.1 ho).2 (q, i.duration) (hL _ (by simp [Program.blocks])) (outermost_iff.1 hq).1 h1)

/-! ### The run report -/

theorem find_update_ne {k k' : Str} (h : k ≠ k') (f : Tree → Tree) (d : Str) (c : List (Str × Tree)) : find k' (.node d (updateChild k f c)) = find k' (.node d c) := by
  induction c with
  | nil => simp [updateChild, find, Tree.children, h]
  | cons p c ih =>
    rw [updateChild]
    simp only [find, Tree.children] at ih ⊢
    split
    · next hp =>
      have hp : p.1 = k := by simpa using hp
      have e1 : (k == k') = false := by simpa using h
      simp only [List.find?_cons, hp, e1]
    · simp only [List.find?_cons]
      split
      · rfl
      · exact ih

theorem find_update_self (k : Str) (f : Tree → Tree) (d : Str) (c : List (Str × Tree)) :
    find k (.node d (updateChild k f c)) = some (f ((find k (.node d c)).getD (.node [] []))) := by
  induction c with
  | nil => simp [updateChild, find, Tree.children]
  | cons p ps ih =>
    by_cases h : p.1 = k
    · simp [updateChild, find, Tree.children, h]
    · have hb : (p.1 == k) = false := by simpa using h
      simp only [find, Tree.children, updateChild, hb] at ih ⊢
      simpa [List.find?_cons, hb] using ih

/-- An entry of the report. -/
abbrev entry (t : Tree) (k : Str) : Res Tree := walk ["report".toList, k] t

theorem entry_put_ne {k k' : Str} (h : k' ≠ k) (ks : List Str) (v : Str) (t : Tree) : entry (putAt ("report".toList :: k' :: ks) v t) k = entry t k := by
  rcases t with ⟨d, c⟩
  rw [putAt, entry, walk, find_update_self, entry, walk]
  rcases find "report".toList (.node d c) with _ | ⟨d', c'⟩
  · simp [walk, putAt, find, Tree.children, updateChild, h]
  · simp only [Option.getD_some, putAt, walk]
    rw [find_update_ne h]

theorem entry_put (k v : Str) (t : Tree) : (entry (putAt ["report".toList, k] v t) k).map Tree.data = .ok v := by
  rcases t with ⟨d, c⟩
  rw [putAt, entry, walk, find_update_self]
  simp only
  generalize (find "report".toList (.node d c)).getD (.node [] []) = r
  rcases r with ⟨d', c'⟩
  rw [putAt, walk, find_update_self]
  simp only
  generalize (find k (.node d' c')).getD (.node [] []) = r
  rcases r with ⟨d'', c''⟩
  rfl

theorem entry_addChild_ne {k : Str} {k' : String} (h : k'.toList ≠ k) (sub t : Tree) : entry (Report.addChild k' sub t) k = entry t k := by
  have e : (k'.toList == k) = false := by simpa using h
  rcases t with ⟨d, c⟩
  rw [Report.addChild, entry, walk, find_update_self, entry, walk]
  rcases find "report".toList (.node d c) with _ | ⟨d', c'⟩
  · simp [walk, find, Tree.children, h]
  · simp only [Option.getD_some, walk, find, Tree.children, List.find?_append, List.find?_cons, e, List.find?_nil, Option.or_none]

theorem entry_addChild {k : String} (sub : Tree) {t : Tree} (h : entry t k.toList = .error .thrown) : entry (Report.addChild k sub t) k.toList = .ok sub := by
  rcases t with ⟨d, c⟩
  rw [Report.addChild, entry, walk, find_update_self]
  rw [entry, walk] at h
  rcases hr : find "report".toList (.node d c) with _ | ⟨d', c'⟩
  · simp [walk, find, Tree.children]
  · rw [hr] at h
    simp only [walk, find, Tree.children] at h
    rcases hf : c'.find? (fun p => p.1 == k.toList) with _ | p
    · simp only [Option.getD_some, walk, find, Tree.children, List.find?_append, hf, List.find?_cons, beq_self_eq_true, Option.none_or, Option.map_some]
    · rw [hf] at h
      cases h

theorem entry_puts {k : Str} (info : String → Str) {ks : List String} (hks : ∀ x ∈ ks, x.toList ≠ [] ∧ '.' ∉ x.toList ∧ x.toList ≠ k) (t : Tree) :
    entry (ks.foldl (Report.put info) t) k = entry t k := by
  induction ks generalizing t with
  | nil => rfl
  | cons x ks ih =>
    obtain ⟨h1, h2, h3⟩ := hks x List.mem_cons_self
    rw [List.foldl_cons, ih fun x hx => hks x (List.mem_cons_of_mem _ hx), Report.put, addString, Report.fragments_report h1 h2, entry_put_ne h3]

theorem entry_files {k : Str} (hk : "loadedTextFiles".toList ≠ k) (full : Str → Str) (disk : Report.Disk) (c : Report.Cache) : ∀ (fs : List Str) {t t' : Tree},
    fs.foldlM (Report.putFile full disk c) t = .ok t' → entry t' k = entry t k := by
  intro fs
  induction fs with
  | nil => intro t t' h; cases h; rfl
  | cons f fs ih =>
    intro t t' h
    rw [List.foldlM_cons, Report.putFile] at h
    rcases hl : (Report.loadTextFile full disk f c).1 with e | text
    · rw [hl] at h; cases h
    · rw [hl] at h
      have := ih h
      rw [this, addString]
      have : "report.loadedTextFiles.".toList ++ Report.escape f = "report".toList ++ '.' :: ("loadedTextFiles".toList ++ '.' :: Report.escape f) := rfl
      rw [this, Report.fragments_cons (by decide) (by decide), Report.fragments_cons (by decide) (by decide), entry_put_ne hk]

theorem basic_entry {full : Str → Str} {disk : Report.Disk} {info : String → Str} {boost : Tree} {cuda : Option Tree} {c : Report.Cache} {basic : Tree}
    (h : Report.makeBasicReport full disk info boost cuda c = .ok basic) : entry basic "timings".toList = .error .thrown := by
  simp only [Report.makeBasicReport] at h
  rcases hf : (Report.loadedFiles c).foldlM (Report.putFile full disk c) (Report.entries3.foldl (Report.put info) (match cuda with
    | none => Report.entries2.foldl (Report.put info) (Report.addChild "boost" boost (Report.entries1.foldl (Report.put info) (.node [] [])))
    | some p => Report.addChild "cudaProperties" p (Report.entries2.foldl (Report.put info) (Report.addChild "boost" boost
      (Report.entries1.foldl (Report.put info) (.node [] [])))))) with e | t
  · rcases cuda with _ | p
    · simp only at hf h; rw [hf] at h; cases h
    · simp only at hf h; rw [hf] at h; cases h
  · have hb : basic = Report.entries4.foldl (Report.put info) t := by
      rcases cuda with _ | p
      · simp only at hf h; rw [hf] at h; cases h; rfl
      · simp only at hf h; rw [hf] at h; cases h; rfl
    rw [hb, entry_puts info (by decide), entry_files (by decide) full disk c _ hf, entry_puts info (by decide)]
    rcases cuda with _ | p
    · simp only
      rw [entry_puts info (by decide), entry_addChild_ne (by decide), entry_puts info (by decide)]
      rfl
    · simp only
      rw [entry_addChild_ne (by decide), entry_puts info (by decide), entry_addChild_ne (by decide), entry_puts info (by decide)]
      rfl

end Timer
end Verif
