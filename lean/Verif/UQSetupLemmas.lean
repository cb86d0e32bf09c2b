import Verif.UQSetupSpec
import Verif.SetupReaders
import Verif.Props.UQ
import Mathlib.Data.Char
import Mathlib.Data.List.Lex

/-!
The readers of `Verif/UQSetup.lean` give what `Verif/UQSetupSpec.lean` says.
-/

namespace Verif.UQSetup
open Params Setup
variable {K S : Type}

theorem str_lt_irrefl (a : Str) : ¬ a < a := lt_irrefl a
theorem str_lt_trans {a b c : Str} (h : a < b) (h' : b < c) : a < c := lt_trans h h'
theorem str_trichotomy {a b : Str} (h : ¬ a < b) (h' : a ≠ b) : b < a := by
  rcases lt_trichotomy a b with h1 | h1 | h1
  · exact absurd h1 h
  · exact absurd h1 h'
  · exact h1

theorem setEntry_mem {α : Type} (name : Str) (x : α) : ∀ (l : List (Str × α)), (l.Pairwise fun a b => a.1 < b.1) →
    ∀ e, e ∈ setEntry name x l ↔ e = (name, x) ∨ (e ∈ l ∧ e.1 ≠ name)
  | [], _, e => by simp [setEntry]
  | f :: rest, hl, e => by
    obtain ⟨h1, h2⟩ := List.pairwise_cons.1 hl
    unfold setEntry
    split
    · rename_i h
      have : ∀ g ∈ f :: rest, g.1 ≠ name := by
        rintro g hg rfl
        rcases List.mem_cons.1 hg with rfl | hg
        · exact str_lt_irrefl _ h
        · exact str_lt_irrefl _ (str_lt_trans h (h1 g hg))
      rw [List.mem_cons]
      constructor
      · rintro (h | h)
        · exact .inl h
        · exact .inr ⟨h, this _ h⟩
      · rintro (h | h)
        · exact .inl h
        · exact .inr h.1
    · split
      · rename_i _ h
        have : ∀ g ∈ rest, g.1 ≠ name := by
          rintro g hg rfl
          exact str_lt_irrefl _ (h ▸ h1 g hg)
        rw [List.mem_cons]
        constructor
        · rintro (h | h)
          · exact .inl h
          · exact .inr ⟨List.mem_cons_of_mem _ h, this _ h⟩
        · rintro (h' | ⟨h', hn⟩)
          · exact .inl h'
          · rcases List.mem_cons.1 h' with rfl | h'
            · exact absurd h.symm hn
            · exact .inr h'
      · rename_i hne
        rw [List.mem_cons, setEntry_mem name x rest h2 e, List.mem_cons]
        constructor
        · rintro (rfl | h | h)
          · exact .inr ⟨.inl rfl, fun h => hne h.symm⟩
          · exact .inl h
          · exact .inr ⟨.inr h.1, h.2⟩
        · rintro (h | ⟨h | h, hn⟩)
          · exact .inr (.inl h)
          · exact .inl h
          · exact .inr (.inr ⟨h, hn⟩)

theorem setEntry_sorted {α : Type} (name : Str) (x : α) : ∀ (l : List (Str × α)), (l.Pairwise fun a b => a.1 < b.1) → (setEntry name x l).Pairwise fun a b => a.1 < b.1
  | [], _ => by simp [setEntry]
  | f :: rest, hl => by
    obtain ⟨h1, h2⟩ := List.pairwise_cons.1 hl
    unfold setEntry
    split
    · rename_i h
      refine List.pairwise_cons.2 ⟨fun g hg => ?_, hl⟩
      rcases List.mem_cons.1 hg with rfl | hg
      · exact h
      · exact str_lt_trans h (h1 g hg)
    · split
      · rename_i h
        exact List.pairwise_cons.2 ⟨fun g hg => by simpa [h] using h1 g hg, h2⟩
      · rename_i hlt hne
        refine List.pairwise_cons.2 ⟨fun g hg => ?_, setEntry_sorted name x rest h2⟩
        rcases (setEntry_mem name x rest h2 g).1 hg with rfl | ⟨hg, -⟩
        · exact str_trichotomy hlt hne
        · exact h1 g hg

theorem byName_snoc {α : Type} {l m : List (Str × α)} (h : ByName l m) (p : Str × α) : ByName (l ++ [p]) (setEntry p.1 p.2 m) := by
  obtain ⟨h1, h2⟩ := h
  refine ⟨setEntry_sorted _ _ _ h1, fun name x => ?_⟩
  rw [setEntry_mem _ _ _ h1]
  constructor
  · rintro (h | ⟨h, hn⟩)
    · cases h
      exact ⟨l, [], rfl, by simp⟩
    · obtain ⟨before, after, rfl, ha⟩ := (h2 name x).1 h
      refine ⟨before, after ++ [p], by simp, fun q hq => ?_⟩
      rcases List.mem_append.1 hq with hq | hq
      · exact ha q hq
      · rw [List.mem_singleton.1 hq]; exact fun h => hn h.symm
  · rintro ⟨before, after, e, ha⟩
    rcases List.eq_nil_or_concat after with rfl | ⟨after, q, e0⟩
    · have := List.append_inj_right' e rfl
      left
      simpa using this.symm
    · rw [List.concat_eq_append] at e0
      subst e0
      rw [show before ++ (name, x) :: (after ++ [q]) = (before ++ (name, x) :: after) ++ [q] by simp] at e
      have e1 := List.append_inj_left' e rfl
      have e2 := List.append_inj_right' e rfl
      right
      simp only [List.cons.injEq, and_true] at e2
      subst e2
      exact ⟨(h2 name x).2 ⟨before, after, e1, fun q hq => ha q (by simp [hq])⟩, fun h => ha p (by simp) h.symm⟩

theorem byName_nil {α : Type} : ByName ([] : List (Str × α)) [] := ⟨.nil, fun name x => by simp⟩

theorem byName_fold {α : Type} (l : List (Str × α)) : ByName l (l.foldl (fun ps p => setEntry p.1 p.2 ps) []) := by
  induction l using List.reverseRecOn with
  | nil => exact byName_nil
  | append_singleton l p ih => rw [List.foldl_append]; exact byName_snoc ih p

theorem byName_unique {α : Type} {l m m' : List (Str × α)} (h : ByName l m) (h' : ByName l m') : m = m' := by
  have hm : ∀ e, e ∈ m ↔ e ∈ m' := fun e => (h.2 e.1 e.2).trans (h'.2 e.1 e.2).symm
  have n1 : m.Nodup := h.1.imp fun h => by rintro rfl; exact str_lt_irrefl _ h
  have n2 : m'.Nodup := h'.1.imp fun h => by rintro rfl; exact str_lt_irrefl _ h
  exact ((List.perm_ext_iff_of_nodup n1 n2).2 hm).eq_of_pairwise (fun a b _ _ h h' => absurd (str_lt_trans h h') (str_lt_irrefl _)) h.1 h'.1

theorem fold_random {α : Type} {g : α → Res (Str × UQ.Param K)} : ∀ {l : List α} {ps qs : List (Str × UQ.Param K)},
    (l.foldlM (fun ps a => do
      let p ← g a
      .ok (setEntry p.1 p.2 ps)) ps = .ok qs ↔ ∃ rs, List.Forall₂ (fun a r => g a = .ok r) l rs ∧ qs = rs.foldl (fun ps p => setEntry p.1 p.2 ps) ps)
  | [], ps, qs => by
    simp only [List.foldlM_nil, Res.pure_eq, Except.ok.injEq]
    constructor
    · rintro rfl; exact ⟨[], .nil, rfl⟩
    · rintro ⟨rs, h, rfl⟩; cases h; rfl
  | a :: l, ps, qs => by
    rw [List.foldlM_cons]
    simp only [bind_iff, fold_random]
    constructor
    · rintro ⟨_, ⟨r, hr, h⟩, rs, h2, rfl⟩
      cases h
      exact ⟨r :: rs, .cons hr h2, rfl⟩
    · rintro ⟨rs, h2, rfl⟩
      cases h2 with
      | @cons _ r _ rs hr h2 => exact ⟨_, ⟨r, hr, rfl⟩, rs, h2, rfl⟩

section
variable [Field K] [LinearOrder K] [IsStrictOrderedRing K] [FloorRing K]

theorem toSizeT_iff {x : K} {n : Nat} : toSizeT x = .ok n ↔ x < 2 ^ 64 ∧ Truncated x n := by
  unfold toSizeT Truncated
  split
  · rename_i h
    simp only [h.2, true_and, Except.ok.injEq]
    rcases lt_or_ge x 0 with hx | hx
    · have hf : ⌊x⌋ = -1 := by
        rw [Int.floor_eq_iff]
        push_cast
        exact ⟨h.1.le, by simpa using hx⟩
      rw [hf]
      constructor
      · rintro rfl; exact .inr ⟨h.1, hx, rfl⟩
      · rintro (⟨h0, -⟩ | ⟨-, -, rfl⟩)
        · exact absurd hx (not_lt.2 h0)
        · rfl
    · have hf : 0 ≤ ⌊x⌋ := Int.floor_nonneg.2 hx
      constructor
      · rintro rfl
        left
        have e : ((⌊x⌋.toNat : Nat) : K) = ((⌊x⌋ : Int) : K) := by
          rw [← Int.cast_natCast, Int.toNat_of_nonneg hf]
        rw [e]
        exact ⟨hx, Int.floor_le x, Int.lt_floor_add_one x⟩
      · rintro (⟨-, h1, h2⟩ | ⟨-, h1, -⟩)
        · have : ⌊x⌋ = (n : Int) := by
            rw [Int.floor_eq_iff]
            push_cast
            exact ⟨h1, h2⟩
          omega
        · exact absurd hx (not_le.2 h1)
  · rename_i h
    constructor
    · intro h; cases h
    · rintro ⟨h1, h2⟩
      refine absurd ⟨?_, h1⟩ h
      rcases h2 with ⟨h2, -⟩ | ⟨h2, -⟩
      · linarith
      · exact h2

theorem readNumber_iff {conv : Conv K} {config uq : Tree} (hu : First config "uq" uq) {n : Nat} :
    readNumberOfSamples conv config = .ok n ↔ ∃ x, Value conv.real uq ["samples"] x ∧ x < 2 ^ 64 ∧ Truncated x n := by
  unfold readNumberOfSamples
  rw [get_cons hu]
  simp only [bind_iff, get_iff, toSizeT_iff]
end

theorem readStart_iff {conv : Conv K} {config uq : Tree} (hu : First config "uq" uq) {n : Nat} :
    readSampleStart conv config = .ok n ↔ (Value conv.size uq ["sampleStart"] n ∨ Absent uq "sampleStart" ∧ n = 0) := by
  unfold readSampleStart
  rw [child_one hu, Res.ok_bind]
  by_cases h : has "sampleStart" uq = true
  · rw [if_pos h, get_iff]
    have : ¬ Absent uq "sampleStart" := fun ha => has_not.2 ha h
    tauto
  · rw [if_neg h]
    have ha := has_not.1 h
    constructor
    · intro hx; cases hx; exact .inr ⟨ha, rfl⟩
    · rintro (hv | ⟨-, rfl⟩)
      · obtain ⟨c, hc, -⟩ := value_cons.1 hv
        exact absurd ⟨c, hc⟩ (absent_iff.1 ha)
      · rfl

theorem makeGenerator_iff {g : Str} {u : Unit} : makeGenerator (if g = "auto".toList then "stlmersenne".toList else g) = .ok u ↔ (g = "auto".toList ∨ g = "stlmersenne".toList) := by
  unfold makeGenerator
  by_cases h : g = "auto".toList
  · simp [h]
  · rw [if_neg h]
    by_cases h' : g = "stlmersenne".toList
    · simp [h']
    · rw [if_neg h']
      exact ⟨fun e => (by cases e), fun e => (e.elim h h').elim⟩


/-! ### Parameters -/

section
variable [Field K]

theorem library_same {library : Str → Nat → Nat → Tree → Res (UQ.Dist K)} (hl : LibraryIgnores library) (print : K → Str) (type : Str) (length samples : Nat) (t : Tree) :
    library type length samples (UQ.distributionParameters print t) = library type length samples t := by
  unfold UQ.distributionParameters
  rw [hl "sd" (by simp), hl "mean" (by simp), hl "b" (by simp), hl "a" (by simp), hl "upper" (by simp), hl "lower" (by simp)]

theorem take_qmc {d : Str} : d.take 4 = "qmc_".toList ↔ ∃ rest, d = "qmc_".toList ++ rest := by
  constructor
  · intro h; exact ⟨d.drop 4, by rw [← h, List.take_append_drop]⟩
  · rintro ⟨name, rfl⟩; exact List.take_left' rfl

omit [Field K] in
theorem default_iff {conv : Conv K} {node : Tree} {k : String} {d x : K} (ha : Absent node k) : OrDefault conv node k d x ↔ x = d := by
  unfold OrDefault
  constructor
  · rintro (hv | ⟨-, rfl⟩)
    · obtain ⟨c, hc, -⟩ := value_cons.1 hv
      exact absurd ⟨c, hc⟩ (absent_iff.1 ha)
    · rfl
  · rintro rfl; exact .inr ⟨ha, rfl⟩

theorem makeParam_iff [LinearOrder K] {conv : Conv K} {print : K → Str} {library : Str → Nat → Nat → Tree → Res (UQ.Dist K)} (h0 : conv.real (print 0) = some 0)
    (h1 : conv.real (print 1) = some 1) (hl : LibraryIgnores library) {type : Str} {length samples : Nat} {node : Tree} (ht : Says node ["type"] type)
    (hb : ∀ k ∈ ["lower", "upper", "a", "b"], Absent node k) {p : UQ.Param K} :
    UQ.makeParam print conv.real library type length samples node = .ok p ↔ p.dim = length ∧ DistributionMeant conv library samples p.dim node p.dist := by
  have hd : ∀ d x k, k ∈ ["lower", "upper", "a", "b"] → (OrDefault conv node k d x ↔ x = d) := fun d x k hk => default_iff (hb k hk)
  by_cases e1 : type = "uniform".toList
  · subst e1
    rw [(Props.UQ.C52_bounds_are_overwritten print conv.real library h0 h1 length samples node).1]
    constructor
    · intro h; cases h
      exact ⟨rfl, .uniform ht ((hd _ _ _ (by simp)).2 rfl) ((hd _ _ _ (by simp)).2 rfl)⟩
    · obtain ⟨dim, dist⟩ := p
      rintro ⟨rfl, hm⟩
      cases hm with
      | uniform _ h2 h3 => rw [(hd _ _ _ (by simp)).1 h2, (hd _ _ _ (by simp)).1 h3]
      | equidistant h2 => exact absurd (h2.unique ht) (by decide)
      | library h2 h3 =>
        cases h2.unique ht
        rcases h3 with h3 | h3
        · exact absurd h3 (by decide)
        · exact absurd (take_qmc.2 h3) (by decide)
  by_cases e2 : type = "uniform1d".toList
  · subst e2
    rw [(Props.UQ.C52_bounds_are_overwritten print conv.real library h0 h1 length samples node).2]
    constructor
    · intro h; cases h
      refine ⟨rfl, ?_⟩
      have := DistributionMeant.equidistant (library := library) (samples := samples) (length := length) ht ((hd 0 _ "a" (by simp)).2 rfl) ((hd 1 _ "b" (by simp)).2 rfl)
      rwa [sub_zero] at this
    · obtain ⟨dim, dist⟩ := p
      rintro ⟨rfl, hm⟩
      cases hm with
      | uniform h2 => exact absurd (h2.unique ht) (by decide)
      | equidistant _ h2 h3 => rw [(hd _ _ _ (by simp)).1 h2, (hd _ _ _ (by simp)).1 h3, sub_zero]
      | library h2 h3 =>
        cases h2.unique ht
        rcases h3 with h3 | h3
        · exact absurd h3 (by decide)
        · exact absurd (take_qmc.2 h3) (by decide)
  unfold UQ.makeParam UQ.createDistribution
  by_cases e3 : type = "normal".toList
  · subst e3
    rw [if_pos rfl]
    constructor
    · intro h; cases h
    · rintro ⟨-, hm⟩
      generalize p.dist = dist at hm
      cases hm with
      | uniform h2 => exact absurd (h2.unique ht) (by decide)
      | equidistant h2 => exact absurd (h2.unique ht) (by decide)
      | library h2 h3 =>
        cases h2.unique ht
        rcases h3 with h3 | h3
        · exact absurd h3 (by decide)
        · exact absurd (take_qmc.2 h3) (by decide)
  rw [if_neg e3, if_neg e1, if_neg e2, library_same hl]
  split
  · rename_i e
    obtain ⟨dim, dist⟩ := p
    simp only [bind_iff]
    constructor
    · rintro ⟨d, hd, h⟩
      cases h
      exact ⟨rfl, .library ht (e.imp id take_qmc.1) hd⟩
    · rintro ⟨rfl, hm⟩
      cases hm with
      | uniform h2 => exact absurd (ht.unique h2) e1
      | equidistant h2 => exact absurd (ht.unique h2) e2
      | library h2 _ h4 => cases h2.unique ht; exact ⟨_, h4, rfl⟩
  · rename_i e
    constructor
    · intro h; cases h
    · rintro ⟨-, hm⟩
      generalize p.dist = dist at hm
      cases hm with
      | uniform h2 => exact absurd (ht.unique h2) e1
      | equidistant h2 => exact absurd (ht.unique h2) e2
      | library h2 h3 _ =>
        cases h2.unique ht
        exact absurd (h3.imp id take_qmc.2) e

theorem readRandom_iff [LinearOrder K] {conv : Conv K} {print : K → Str} {library : Str → Nat → Nat → Tree → Res (UQ.Dist K)} (h0 : conv.real (print 0) = some 0)
    (h1 : conv.real (print 1) = some 1) (hl : LibraryIgnores library) {generator : Str} {samples : Nat} {node : Tree} (hb : ∀ k ∈ ["lower", "upper", "a", "b"], Absent node k)
    {p : Str × UQ.Param K} : readRandom conv print library generator samples node = .ok p ↔ RandomMeant conv library samples node p ∧ makeGenerator generator = .ok () := by
  obtain ⟨name, param⟩ := p
  unfold readRandom RandomMeant
  simp only [bind_iff, text_iff, get_iff, Except.ok.injEq, Prod.mk.injEq]
  constructor
  · rintro ⟨n, hn, length, hle, type, ht, q, hq, _, hg, rfl, rfl⟩
    obtain ⟨hq1, hq2⟩ := (makeParam_iff h0 h1 hl ht hb).1 hq
    subst hq1
    exact ⟨⟨hn, hle, hq2⟩, hg⟩
  · rintro ⟨⟨hn, hle, hd⟩, hg⟩
    have ⟨type, ht⟩ : ∃ type, Says node ["type"] type := by
      generalize param.dist = dist at hd
      cases hd with
      | uniform h => exact ⟨_, h⟩
      | equidistant h => exact ⟨_, h⟩
      | library h => exact ⟨_, h⟩
    exact ⟨name, hn, _, hle, type, ht, param, (makeParam_iff h0 h1 hl ht hb).2 ⟨rfl, hd⟩, _, hg, rfl, rfl⟩

theorem forall₂_and {α β : Type} {R : α → β → Prop} {P : Prop} : ∀ {l : List α} {m : List β}, List.Forall₂ (fun a b => R a b ∧ P) l m ↔ List.Forall₂ R l m ∧ (m ≠ [] → P)
  | [], m => by
    constructor
    · intro h; cases h; exact ⟨.nil, fun h => absurd rfl h⟩
    · rintro ⟨h, -⟩; cases h; exact .nil
  | a :: l, m => by
    constructor
    · intro h
      cases h with
      | cons h h' => exact ⟨.cons h.1 (forall₂_and.1 h').1, fun _ => h.2⟩
    · rintro ⟨h, hp⟩
      cases h with
      | cons h h' => exact .cons ⟨h, hp (by simp)⟩ (forall₂_and.2 ⟨h', fun _ => hp (by simp)⟩)

theorem forall₂_congr_mem {α β : Type} {R R' : α → β → Prop} : ∀ {l : List α} {m : List β}, (∀ a ∈ l, ∀ b, R a b ↔ R' a b) → (List.Forall₂ R l m ↔ List.Forall₂ R' l m)
  | [], m, _ => by constructor <;> intro h <;> cases h <;> exact .nil
  | a :: l, m, h => by
    have ih : ∀ m, List.Forall₂ R l m ↔ List.Forall₂ R' l m := fun m => forall₂_congr_mem fun a ha => h a (List.mem_cons_of_mem _ ha)
    constructor
    · intro h'
      cases h' with
      | cons h1 h2 => exact .cons ((h a (by simp) _).1 h1) ((ih _).1 h2)
    · intro h'
      cases h' with
      | cons h1 h2 => exact .cons ((h a (by simp) _).2 h1) ((ih _).2 h2)

end

section
variable [Field K] [LinearOrder K] [IsStrictOrderedRing K] [FloorRing K]

omit [IsStrictOrderedRing K] in
theorem makeSampleGenerator_iff {conv : Conv K} {print : K → Str} {library : Str → Nat → Nat → Tree → Res (UQ.Dist K)} (h0 : conv.real (print 0) = some 0)
    (h1 : conv.real (print 1) = some 1) (hl : LibraryIgnores library) {config uq : Tree} (hu : First config "uq" uq) {samples : Nat}
    (hs : readNumberOfSamples conv config = .ok samples)
    (hb : ∀ entries, First uq "parameters" entries → ∀ c ∈ entries.children, ∀ k ∈ ["lower", "upper", "a", "b"], Absent c.2 k) {ps : List (Str × UQ.Param K)} :
    makeSampleGenerator conv print library config = .ok ps ↔ ∃ generator entries qs, Says uq ["generator"] generator ∧ First uq "parameters" entries ∧
      List.Forall₂ (fun (c : Str × Tree) p => RandomMeant conv library samples c.2 p) entries.children qs ∧
      (qs ≠ [] → generator = "auto".toList ∨ generator = "stlmersenne".toList) ∧ ByName qs ps := by
  unfold makeSampleGenerator
  rw [hs, Res.ok_bind, text_cons hu]
  simp only [bind_iff, text_iff, child_iff, At, fold_random]
  have key : ∀ generator (entries : Tree), First uq "parameters" entries → ∀ qs, (List.Forall₂ (fun (c : Str × Tree) r =>
      readRandom conv print library (if generator = "auto".toList then "stlmersenne".toList else generator) samples c.2 = .ok r) entries.children qs ↔
      List.Forall₂ (fun (c : Str × Tree) p => RandomMeant conv library samples c.2 p) entries.children qs ∧
      (qs ≠ [] → generator = "auto".toList ∨ generator = "stlmersenne".toList)) := by
    intro generator entries he qs
    rw [← forall₂_and]
    exact forall₂_congr_mem fun c hc p => by rw [readRandom_iff h0 h1 hl (hb entries he c hc), makeGenerator_iff]
  constructor
  · rintro ⟨generator, hg, entries, ⟨u, hu', e, he, rfl⟩, qs, hq, rfl⟩
    cases hu.unique hu'
    obtain ⟨h2, h3⟩ := (key _ _ he _).1 hq
    exact ⟨generator, _, qs, hg, he, h2, h3, byName_fold _⟩
  · rintro ⟨generator, entries, qs, hg, he, h2, h3, h4⟩
    exact ⟨generator, hg, entries, ⟨uq, hu, _, he, rfl⟩, qs, (key _ _ he _).2 ⟨h2, h3⟩, byName_unique h4 (byName_fold _)⟩

/-! ### Statistics -/

omit [Field K] [LinearOrder K] [IsStrictOrderedRing K] [FloorRing K] in
theorem files_iff {node out : Tree} {type basename : Str} (hout : First node "writer" out) : ∀ {l : List Str} {files : List (Str × WriterObj K Unit)},
    (l.mapM fun n => do
      let writerNode ← child ["writer"] node
      let w ← createBase true type (basename ++ "_".toList ++ n) writerNode
      .ok (n, w)) = .ok files ↔ (l ≠ [] → FileType true type) ∧ files = l.map fun n => (n, .base type (basename ++ '_' :: n) out) := by
  intro l files
  rw [mapM_iff]
  simp only [child_one hout, Res.ok_bind, bind_iff, createBase_iff, Except.ok.injEq]
  have hn : ∀ n : Str, basename ++ "_".toList ++ n = basename ++ '_' :: n := by intro n; simp
  simp only [hn]
  induction l generalizing files with
  | nil => simp
  | cons n l ih =>
    constructor
    · intro h
      cases h with
      | cons h h' =>
        obtain ⟨w, ⟨hf, rfl⟩, rfl⟩ := h
        obtain ⟨-, rfl⟩ := ih.1 h'
        exact ⟨fun _ => hf, rfl⟩
    · rintro ⟨hf, rfl⟩
      have hf := hf (by simp)
      exact .cons ⟨_, ⟨hf, rfl⟩, rfl⟩ (ih.2 ⟨fun _ => hf, rfl⟩)

omit [Field K] [LinearOrder K] [IsStrictOrderedRing K] [FloorRing K] in
theorem initial_iff {conv : Conv K} {node : Tree} {b : Bool} :
    (if has "writeInitialTimestep" node = true then get conv.bool ["writeInitialTimestep"] node else .ok false : Res Bool) = .ok b ↔
      (Value conv.bool node ["writeInitialTimestep"] b ∨ Absent node "writeInitialTimestep" ∧ b = false) := by
  by_cases h : has "writeInitialTimestep" node = true
  · rw [if_pos h, get_iff]
    have : ¬ Absent node "writeInitialTimestep" := fun ha => has_not.2 ha h
    tauto
  · rw [if_neg h]
    have ha := has_not.1 h
    constructor
    · intro hx; cases hx; exact .inr ⟨ha, rfl⟩
    · rintro (hv | ⟨-, rfl⟩)
      · obtain ⟨c, hc, -⟩ := value_cons.1 hv
        exact absurd ⟨c, hc⟩ (absent_iff.1 ha)
      · rfl

theorem createStatistic_iff {conv : Conv K} {make : Str → Str → Nat → Tree → Res S} {names : S → List Str} {config node : Tree} {platform : Str}
    (hp : Says config ["fvm", "platform"] platform) {samples : Nat} (hs : readNumberOfSamples conv config = .ok samples)
    (ht : ¬ (Absent node "numberOfSaves" ∧ Absent node "time")) {o : Option (StatSetup K S)} :
    createStatistic conv make names config platform node = .ok o ↔ ∃ s, o = some s ∧ StatisticMeant conv make names config samples node s := by
  have hpos : ∀ {α : Type} {f : Str → Option α} {k : String} {x : α}, Value f node [k] x → has k node = true := by
    intro α f k x hv
    obtain ⟨c, hc, -⟩ := value_cons.1 hv
    exact has_iff.2 ⟨c, hc⟩
  unfold createStatistic
  rw [hs]
  simp only [Res.ok_bind, bind_iff, text_iff]
  constructor
  · rintro ⟨name, hn, stat, hst, type, hty, basename, hba, files, hfi, h⟩
    obtain ⟨out, hout, hty⟩ := says_cons.1 hty
    obtain ⟨out', hout', hba⟩ := says_cons.1 hba
    cases hout.unique hout'
    obtain ⟨hft, hfi⟩ := (files_iff hout).1 hfi
    have h1 : ∃ platform name, Says config ["fvm", "platform"] platform ∧ Word node ["name"] name ∧ make platform name samples node = .ok stat :=
      ⟨platform, trim name, hp, ⟨name, hn, trim_iff.1 rfl⟩, hst⟩
    have h2 : ∃ out type basename, First node "writer" out ∧ Says out ["type"] type ∧ Says out ["basename"] basename ∧ (names stat ≠ [] → FileType true type) ∧
        files = (names stat).map fun n => (n, .base type (basename ++ '_' :: n) out) := ⟨out, type, basename, hout, hty, hba, hft, hfi⟩
    by_cases hsv : has "numberOfSaves" node = true
    · rw [if_pos hsv] at h
      simp only [bind_iff, initial_iff, get_iff] at h
      obtain ⟨initial, hi, n, hnn, e, he, h⟩ := h
      cases h
      exact ⟨_, rfl, h1, h2, .saves hnn he (quotient_iff.1 rfl) hi⟩
    · rw [if_neg hsv] at h
      by_cases htm : has "time" node = true
      · rw [if_pos htm] at h
        simp only [bind_iff, get_iff] at h
        obtain ⟨t, h3, r, h4, h⟩ := h
        cases h
        exact ⟨_, rfl, h1, h2, .window (has_not.1 hsv) h3 h4⟩
      · exact absurd ⟨has_not.1 hsv, has_not.1 htm⟩ ht
  · rintro ⟨⟨stat, files, times⟩, rfl, ⟨pf, w, hpf, ⟨name, hn, hw⟩, hst⟩, ⟨out, type, basename, hout, hty, hba, hft, hfi⟩, htm⟩
    cases hp.unique hpf
    have hw := trim_iff.2 hw
    subst hw
    refine ⟨name, hn, stat, hst, type, says_cons.2 ⟨_, hout, hty⟩, basename, says_cons.2 ⟨_, hout, hba⟩, files, (files_iff hout).2 ⟨hft, hfi⟩, ?_⟩
    cases htm with
    | saves h2 h3 h4 h5 =>
      rw [if_pos (hpos h2)]
      simp only [bind_iff, initial_iff, get_iff]
      exact ⟨_, h5, _, h2, _, h3, by rw [quotient_iff.2 h4]⟩
    | window h2 h3 h4 =>
      rw [if_neg (has_not.2 h2), if_pos (hpos h3)]
      simp only [bind_iff, get_iff]
      exact ⟨_, h3, _, h4, rfl⟩

theorem forall₂_some {α β : Type} {R : α → β → Prop} : ∀ {l : List α} {ss : List β},
    (∃ os : List (Option β), List.Forall₂ (fun a o => ∃ s, o = some s ∧ R a s) l os ∧ os.filterMap id = ss) ↔ List.Forall₂ R l ss
  | [], ss => by
    constructor
    · rintro ⟨os, h, rfl⟩; cases h; exact .nil
    · intro h; cases h; exact ⟨[], .nil, rfl⟩
  | a :: l, ss => by
    constructor
    · rintro ⟨os, h, rfl⟩
      cases h with
      | cons h h' =>
        obtain ⟨s, rfl, hs⟩ := h
        exact .cons hs (forall₂_some.1 ⟨_, h', rfl⟩)
    · intro h
      cases h with
      | @cons _ s _ ss hs h' =>
        obtain ⟨os, ho, rfl⟩ := forall₂_some.2 h'
        exact ⟨some s :: os, .cons ⟨s, rfl, hs⟩ ho, rfl⟩

theorem createStatistics_iff {conv : Conv K} {make : Str → Str → Nat → Tree → Res S} {names : S → List Str} {config uq : Tree} (hu : First config "uq" uq) {samples : Nat}
    (hs : readNumberOfSamples conv config = .ok samples)
    (ht : ∀ entries, First uq "stats" entries → ∀ c ∈ entries.children, ¬ (Absent c.2 "numberOfSaves" ∧ Absent c.2 "time")) {ss : List (StatSetup K S)} :
    createStatistics conv make names config = .ok ss ↔ (∃ platform, Says config ["fvm", "platform"] platform) ∧ ∃ entries, First uq "stats" entries ∧
      List.Forall₂ (fun (c : Str × Tree) o => StatisticMeant conv make names config samples c.2 o) entries.children ss := by
  unfold createStatistics
  simp only [bind_iff, text_iff, child_iff, At, mapM_iff, Except.ok.injEq]
  have key : ∀ platform (entries : Tree), Says config ["fvm", "platform"] platform → First uq "stats" entries → ∀ os,
      (List.Forall₂ (fun (c : Str × Tree) o => createStatistic conv make names config platform c.2 = .ok o) entries.children os ↔
      List.Forall₂ (fun (c : Str × Tree) o => ∃ s, o = some s ∧ StatisticMeant conv make names config samples c.2 s) entries.children os) :=
    fun platform entries hp he os => forall₂_congr_mem fun c hc o => createStatistic_iff hp hs (ht entries he c hc)
  constructor
  · rintro ⟨_, ⟨u, hu', e, he, rfl⟩, platform, hp, os, ho, rfl⟩
    cases hu.unique hu'
    exact ⟨⟨platform, hp⟩, _, he, forall₂_some.1 ⟨os, (key _ _ hp he _).1 ho, rfl⟩⟩
  · rintro ⟨⟨platform, hp⟩, entries, he, h⟩
    obtain ⟨os, ho, e⟩ := forall₂_some.2 h
    exact ⟨entries, ⟨uq, hu, _, he, rfl⟩, platform, hp, os, (key _ _ hp he _).2 ho, e⟩

theorem readUQ_iff {conv : Conv K} {print : K → Str} {library : Str → Nat → Nat → Tree → Res (UQ.Dist K)} {make : Str → Str → Nat → Tree → Res S} {names : S → List Str} {root : Tree}
    (h0 : conv.real (print 0) = some 0) (h1 : conv.real (print 1) = some 1) (hl : LibraryIgnores library) (hb : NoBounds root) (ht : AllTimed root) (s : UQSettings K S) :
    readUQ conv print library make names root = .ok s ↔ UQDescribed conv library make names root s := by
  unfold readUQ UQDescribed
  simp only [bind_iff, child_iff, at_one]
  constructor
  · rintro ⟨config, hc, ps, hps, n, hn, first, hf, name, hna, ss, hss, h⟩
    cases h
    have ⟨uq, hu⟩ : ∃ uq, First config "uq" uq := by
      have hn := hn
      unfold readNumberOfSamples at hn
      simp only [bind_iff, get_iff] at hn
      obtain ⟨x, hx, -⟩ := hn
      obtain ⟨uq, hu, -⟩ := value_cons.1 hx
      exact ⟨uq, hu⟩
    have hb' := fun entries (he : First uq "parameters" entries) => hb entries ⟨config, hc, uq, hu, entries, he, rfl⟩
    have ht' := fun entries (he : First uq "stats" entries) => ht entries ⟨config, hc, uq, hu, entries, he, rfl⟩
    obtain ⟨hp, hss⟩ := (createStatistics_iff hu hn ht').1 hss
    exact ⟨config, uq, hc, hu, (readNumber_iff hu).1 hn, (readStart_iff hu).1 hf, (makeSampleGenerator_iff h0 h1 hl hu hn hb').1 hps, ⟨name, text_iff.1 hna, trim_iff.1 rfl⟩, hp, hss⟩
  · rintro ⟨config, uq, hc, hu, hm⟩
    have hb' := fun entries (he : First uq "parameters" entries) => hb entries ⟨config, hc, uq, hu, entries, he, rfl⟩
    have ht' := fun entries (he : First uq "stats" entries) => ht entries ⟨config, hc, uq, hu, entries, he, rfl⟩
    have hn := (readNumber_iff hu).2 hm.samples
    obtain ⟨name, hna, htr⟩ := hm.name
    refine ⟨config, hc, _, (makeSampleGenerator_iff h0 h1 hl hu hn hb').2 hm.parameters, _, hn, _, (readStart_iff hu).2 hm.first, name, text_iff.2 hna, _,
      (createStatistics_iff hu hn ht').2 ⟨hm.platform, hm.statistics⟩, ?_⟩
    rw [trim_iff.2 htr]

/-! ### No undefined behaviour -/

omit [IsStrictOrderedRing K] in
theorem safe_number {conv : Conv K} {config : Tree} (h : ∀ x, Value conv.real config ["uq", "samples"] x → -1 < x ∧ x < 2 ^ 64) : Safe (readNumberOfSamples conv config) := by
  unfold readNumberOfSamples
  refine (safe_get _ _ _).bind fun x hx => ?_
  unfold toSizeT
  rw [if_pos (h x (get_iff.1 hx))]
  exact safe_ok _

omit [LinearOrder K] [IsStrictOrderedRing K] [FloorRing K] in
theorem safe_makeParam (print : K → Str) (parse : Str → Option K) {library : Str → Nat → Nat → Tree → Res (UQ.Dist K)} (hl : ∀ a b c d, Safe (library a b c d)) (type : Str) (length n : Nat)
    (node : Tree) : Safe (UQ.makeParam print parse library type length n node) := by
  have hg : ∀ k t, Safe (UQ.getDouble parse k t) := by
    intro k t
    unfold UQ.getDouble getString getData
    refine Safe.bind (safe_map _ ?_) fun s _ => ?_
    · generalize fragments k = path
      induction path generalizing t with
      | nil => exact safe_ok _
      | cons k ks ih =>
        rw [walk]
        split
        · exact ih _
        · exact safe_thrown
    · cases parse s
      · exact safe_thrown
      · exact safe_ok _
  unfold UQ.makeParam UQ.createDistribution
  refine Safe.bind ?_ fun _ _ => safe_ok _
  refine safe_ite (fun _ => safe_thrown) fun _ => safe_ite (fun _ => (hg _ _).bind fun _ _ => (hg _ _).bind fun _ _ => safe_ok _) fun _ =>
    safe_ite (fun _ => (hg _ _).bind fun _ _ => (hg _ _).bind fun _ _ => safe_ok _) fun _ => safe_ite (fun _ => hl _ _ _ _) fun _ => safe_thrown

omit [IsStrictOrderedRing K] in
theorem readUQ_safe {conv : Conv K} {print : K → Str} {library : Str → Nat → Nat → Tree → Res (UQ.Dist K)} {make : Str → Str → Nat → Tree → Res S} {names : S → List Str} {root : Tree}
    (hl : ∀ a b c d, Safe (library a b c d)) (hm : ∀ a b c d, Safe (make a b c d)) (hc : CountFits conv root) : Safe (readUQ conv print library make names root) := by
  unfold readUQ
  refine (safe_child _ _).bind fun config hcfg => ?_
  have hn : Safe (readNumberOfSamples conv config) := safe_number fun x hx => hc x (value_cons.2 ⟨config, at_one.1 (child_iff.1 hcfg), hx⟩)
  refine Safe.bind ?_ fun _ _ => hn.bind fun _ _ => Safe.bind ?_ fun _ _ => (safe_text _ _).bind fun _ _ => Safe.bind ?_ fun _ _ => safe_ok _
  · unfold makeSampleGenerator
    refine hn.bind fun _ _ => (safe_text _ _).bind fun _ _ => (safe_child _ _).bind fun _ _ => safe_foldlM (fun _ _ => Safe.bind ?_ fun _ _ => safe_ok _) _ _
    unfold readRandom
    refine (safe_text _ _).bind fun _ _ => (safe_get _ _ _).bind fun _ _ => (safe_text _ _).bind fun _ _ => (safe_makeParam _ _ hl _ _ _ _).bind fun _ _ => Safe.bind ?_ fun _ _ => safe_ok _
    unfold makeGenerator
    exact safe_ite (fun _ => safe_ok _) fun _ => safe_thrown
  · unfold readSampleStart
    exact (safe_child _ _).bind fun _ _ => safe_ite (fun _ => safe_get _ _ _) fun _ => safe_ok _
  · unfold createStatistics
    refine (safe_child _ _).bind fun _ _ => (safe_text _ _).bind fun _ _ => (safe_mapM (fun c => ?_) _).bind fun _ _ => safe_ok _
    unfold createStatistic
    refine (safe_text _ _).bind fun _ _ => hn.bind fun _ _ => (hm _ _ _ _).bind fun _ _ => (safe_text _ _).bind fun _ _ => (safe_text _ _).bind fun _ _ =>
      (safe_mapM (fun _ => (safe_child _ _).bind fun _ _ => (safe_createBase _ _ _ _).bind fun _ _ => safe_ok _) _).bind fun _ _ =>
      safe_ite (fun _ => Safe.bind (safe_ite (fun _ => safe_get _ _ _) fun _ => safe_ok _) fun _ _ => (safe_get _ _ _).bind fun _ _ => (safe_get _ _ _).bind fun _ _ => safe_ok _) fun _ =>
      safe_ite (fun _ => (safe_get _ _ _).bind fun _ _ => (safe_get _ _ _).bind fun _ _ => safe_ok _) fun _ => safe_ok _

end

end Verif.UQSetup
