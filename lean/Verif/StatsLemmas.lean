import Verif.Stats
import Verif.FunctionalsLemmas
import Mathlib.Algebra.BigOperators.Group.List.Basic
import Mathlib.Data.List.Sort

/-! Helper lemmas for C53 and C54. -/

namespace Verif.Stats
open Verif.Structure Verif.Boundary Verif.Functionals

/-- The keys are in increasing order. -/
def Sorted (s : Snaps) : Prop := (s.map Prod.fst).Pairwise (· < ·)

theorem find_of_not_mem {key : Key} {s : Snaps} (h : key ∉ s.map Prod.fst) : find key s = none := by
  induction s with
  | nil => rfl
  | cons a l ih =>
    obtain ⟨k, v⟩ := a
    simp only [List.map_cons, List.mem_cons, not_or] at h
    rw [find, if_neg h.1, ih h.2]

theorem find_of_mem {key : Key} {s : Snaps} (h : key ∈ s.map Prod.fst) : ∃ v, find key s = some v := by
  induction s with
  | nil => simp at h
  | cons a l ih =>
    obtain ⟨k, v⟩ := a
    by_cases hk : key = k
    · exact ⟨v, by rw [find, if_pos hk]⟩
    · simp only [List.map_cons, List.mem_cons, hk, false_or] at h
      obtain ⟨w, hw⟩ := ih h
      exact ⟨w, by rw [find, if_neg hk, hw]⟩

theorem touch_ok (key : Key) (zero : Vol) (f : Vol → Res Vol) (s : Snaps) (hs : Sorted s) (w : Vol) (hf : f ((find key s).getD zero) = .ok w) :
    ∃ s', touch key zero f s = .ok s' ∧ Sorted s' ∧ (∀ k, k ∈ s'.map Prod.fst ↔ k = key ∨ k ∈ s.map Prod.fst) ∧ ∀ k, find k s' = if k = key then some w else find k s := by
  induction s with
  | nil =>
    refine ⟨[(key, w)], ?_, by simp [Sorted], by simp, fun k => rfl⟩
    simp only [touch]
    rw [show f zero = .ok w from hf]; rfl
  | cons a l ih =>
    obtain ⟨k0, v⟩ := a
    have hsl : Sorted l := (List.pairwise_cons.1 hs).2
    have hlt : ∀ x ∈ l.map Prod.fst, k0 < x := (List.pairwise_cons.1 hs).1
    by_cases h1 : key < k0
    · have hnm : key ∉ ((k0, v) :: l).map Prod.fst := by
        simp only [List.map_cons, List.mem_cons, not_or]
        exact ⟨h1.ne, fun hm => absurd (hlt key hm) (not_lt.2 h1.le)⟩
      rw [find_of_not_mem hnm] at hf
      refine ⟨(key, w) :: (k0, v) :: l, ?_, ?_, by simp, fun k => rfl⟩
      · rw [touch, if_pos h1, show f zero = .ok w from hf]; rfl
      · refine List.pairwise_cons.2 ⟨?_, hs⟩
        intro x hx
        simp only [List.map_cons, List.mem_cons] at hx
        rcases hx with rfl | hx
        · exact h1
        · exact h1.trans (hlt x hx)
    · by_cases h2 : key = k0
      · subst h2
        have : find key ((key, v) :: l) = some v := by rw [find, if_pos rfl]
        rw [this] at hf
        refine ⟨(key, w) :: l, ?_, hs, by simp, fun k => ?_⟩
        · rw [touch, if_neg h1, if_pos rfl, show f v = .ok w from hf]; rfl
        · by_cases hk : k = key <;> simp [find, hk]
      · have : find key ((k0, v) :: l) = find key l := by rw [find, if_neg h2]
        rw [this] at hf
        obtain ⟨s', e, hs', hm, hfd⟩ := ih hsl hf
        refine ⟨(k0, v) :: s', ?_, ?_, ?_, fun k => ?_⟩
        · rw [touch, if_neg h1, if_neg h2, e]; rfl
        · refine List.pairwise_cons.2 ⟨fun x hx => ?_, hs'⟩
          rcases (hm x).1 hx with rfl | hx
          · exact lt_of_le_of_ne (not_lt.1 h1) (Ne.symm h2)
          · exact hlt x hx
        · intro k
          simp only [List.map_cons, List.mem_cons, hm]
          tauto
        · by_cases hk : k = k0
          · subst hk
            simp [find, Ne.symm h2]
          · rw [find, if_neg hk, hfd, find, if_neg hk]

/-- One update of one snapshot, with what it is meant to add. -/
structure Op where
  key : Key
  zero : Vol
  f : Vol → Res Vol
  δ : Nat → I3 → ℝ

/-- The updates in order. -/
noncomputable def runOps (ops : List Op) (s : Snaps) : Res Snaps := ops.foldlM (fun s o => touch o.key o.zero o.f s) s

/-- The shape of the volumes of a snapshot. -/
structure Dim where
  n : I3
  g : I3
  k : Nat

/-- The volume has these sizes. -/
def Dim.Fits (d : Dim) (v : Vol) : Prop := v.Shape d.n d.g d.k
/-- `var` and `c` are a variable and a cell of the volumes. -/
def Dim.Has (d : Dim) (var : Nat) (c : I3) : Prop := var < d.k ∧ inSize (d.n + d.g + d.g) c = true

/-- The update adds what it is meant to, and the new volume would be zero. -/
def Op.Adds (o : Op) (d : Dim) : Prop :=
  o.zero = makeVolume d.n d.g d.k ∧ ∀ v, d.Fits v → ∃ w, o.f v = .ok w ∧ d.Fits w ∧ Added o.δ v w

/-- The snapshots are those with a key in `keys`, and have the given values. -/
def Holds (dim : Key → Dim) (keys : List Key) (val : Key → Nat → I3 → ℝ) (s : Snaps) : Prop :=
  Sorted s ∧ (∀ k, k ∈ s.map Prod.fst ↔ k ∈ keys) ∧ ∀ k ∈ keys, ∃ v, find k s = some v ∧ (dim k).Fits v ∧ ∀ var c, (dim k).Has var c → v.at var c = some (val k var c)

theorem runOps_holds (dim : Key → Dim) (ops : List Op) (h : ∀ o ∈ ops, o.Adds (dim o.key)) :
    ∀ (keys : List Key) (val : Key → Nat → I3 → ℝ) (s : Snaps), Holds dim keys val s → (∀ k, k ∉ keys → ∀ var c, val k var c = 0) →
      ∃ s', runOps ops s = .ok s' ∧ Holds dim (keys ++ ops.map Op.key) (fun k var c => val k var c + ((ops.filter fun o => o.key = k).map fun o => o.δ var c).sum) s' := by
  induction ops with
  | nil =>
    intro keys val s hs _
    exact ⟨s, rfl, by simpa using hs⟩
  | cons o l ih =>
    intro keys val s hs hz
    obtain ⟨s1, s2, s3⟩ := hs
    obtain ⟨hzero, hadd⟩ := h o (by simp)
    obtain ⟨v, hv, hfit, hval⟩ : ∃ v, (find o.key s).getD o.zero = v ∧ (dim o.key).Fits v ∧ ∀ var c, (dim o.key).Has var c → v.at var c = some (val o.key var c) := by
      by_cases hk : o.key ∈ keys
      · obtain ⟨v, e, f, g⟩ := s3 o.key hk
        exact ⟨v, by rw [e]; rfl, f, g⟩
      · refine ⟨o.zero, by rw [find_of_not_mem (fun hm => hk ((s2 _).1 hm))]; rfl, by rw [hzero]; exact makeVolume_shape _ _ _, fun var c hc => ?_⟩
        rw [hzero, makeVolume_at hc.1 hc.2, hz o.key hk]
    obtain ⟨w, ew, fw, aw⟩ := hadd v hfit
    obtain ⟨t, e, t1, t2, t3⟩ := touch_ok o.key o.zero o.f s s1 w (by rw [hv]; exact ew)
    obtain ⟨s', e', hs'⟩ := ih (fun o ho => h o (by simp [ho])) (keys ++ [o.key]) (fun k var c => val k var c + if k = o.key then o.δ var c else 0) t (by
      refine ⟨t1, fun k => by rw [t2, s2]; simp; tauto, fun k hk => ?_⟩
      by_cases hko : k = o.key
      · subst hko
        refine ⟨w, by rw [t3, if_pos rfl], fw, fun var c hc => ?_⟩
        rw [aw, hval var c hc]
        simp
      · have hk' : k ∈ keys := by simpa [hko] using hk
        obtain ⟨v', e', f', g'⟩ := s3 k hk'
        refine ⟨v', by rw [t3, if_neg hko, e'], f', fun var c hc => ?_⟩
        rw [g' var c hc]
        simp [hko]) (by
      intro k hk var c
      simp only [List.mem_append, List.mem_singleton, not_or] at hk
      simp [hz k hk.1, hk.2])
    refine ⟨s', ?_, ?_⟩
    · rw [runOps, List.foldlM_cons, e, Res.ok_bind]; exact e'
    · have e1 : keys ++ [o.key] ++ l.map Op.key = keys ++ (o :: l).map Op.key := by simp
      have e2 : (fun k var c => (val k var c + if k = o.key then o.δ var c else 0) + ((l.filter fun o => o.key = k).map fun o => o.δ var c).sum) =
          fun k var c => val k var c + (((o :: l).filter fun o => o.key = k).map fun o => o.δ var c).sum := by
        funext k var c
        by_cases hk : o.key = k
        · simp [hk, add_assoc]
        · simp [hk, Ne.symm hk]
      rw [← e1, ← e2]
      exact hs'

theorem holds_nil (dim : Key → Dim) : Holds dim [] (fun _ _ _ => 0) [] := ⟨by simp [Sorted], by simp, by simp⟩

theorem foldlM_append' {σ ι : Type} (f : σ → ι → Res σ) (a b : List ι) (s : σ) : (a ++ b).foldlM f s = a.foldlM f s >>= fun s => b.foldlM f s := by
  rw [List.foldlM_append]

theorem foldlM_flatMap' {σ ι κ : Type} (f : σ → κ → Res σ) (g : ι → List κ) (l : List ι) (s : σ) : (l.flatMap g).foldlM f s = l.foldlM (fun s i => (g i).foldlM f s) s := by
  induction l generalizing s with
  | nil => rfl
  | cons a l ih =>
    rw [List.flatMap_cons, List.foldlM_append, List.foldlM_cons]
    congr 1
    funext s'
    exact ih s'

/-- The updates of a rank. -/
def rankOps {S : Type} (φ : Part → Vol → Nat → I3 → ℝ) (parts : List Part) (U : S → ℝ → Vol) (times : List ℝ) (samples : List S) : List Op :=
  samples.flatMap fun s => times.flatMap fun t => parts.map fun p => ⟨toLex (t, p.name), p.zero (U s t), fun v => p.update v (U s t), φ p (U s t)⟩

theorem runRank_eq {S : Type} (φ : Part → Vol → Nat → I3 → ℝ) (parts : List Part) (U : S → ℝ → Vol) (times : List ℝ) (samples : List S) :
    runRank parts U times samples = runOps (rankOps φ parts U times samples) [] := by
  rw [runRank, runOps, rankOps, foldlM_flatMap']
  congr 1
  funext snaps s
  rw [foldlM_flatMap']
  congr 1
  funext snaps t
  rw [List.foldlM_map]
  rfl

theorem sorted_eq {a b : Snaps} (ha : Sorted a) (hb : Sorted b) (h : ∀ k, k ∈ a.map Prod.fst ↔ k ∈ b.map Prod.fst) : a.map Prod.fst = b.map Prod.fst := by
  have na : (a.map Prod.fst).Nodup := ha.imp fun h => h.ne
  have nb : (b.map Prod.fst).Nodup := hb.imp fun h => h.ne
  have hp := (List.perm_ext_iff_of_nodup na nb).2 h
  exact hp.eq_of_pairwise (fun x y _ _ h1 h2 => absurd h1 (not_lt.2 h2.le)) ha hb

theorem reduceTwo_find (a : Snaps) : ∀ b : Snaps, a.map Prod.fst = b.map Prod.fst → (a.map Prod.fst).Nodup →
    (∀ k v w, find k a = some v → find k b = some w → ∃ x, reduceVolume v w = .ok x) →
    ∃ r, reduceTwo a b = .ok r ∧ r.map Prod.fst = a.map Prod.fst ∧ ∀ k v w x, find k a = some v → find k b = some w → reduceVolume v w = .ok x → find k r = some x := by
  induction a with
  | nil =>
    intro b hb _ _
    cases b with
    | nil => exact ⟨[], rfl, rfl, fun k v w x h => by simp [find] at h⟩
    | cons e l => simp at hb
  | cons e l ih =>
    obtain ⟨k0, v0⟩ := e
    intro b hb hn hx
    cases b with
    | nil => simp at hb
    | cons e' l' =>
      obtain ⟨k1, w0⟩ := e'
      simp only [List.map_cons, List.cons.injEq] at hb
      obtain ⟨rfl, hb⟩ := hb
      simp only [List.map_cons, List.nodup_cons] at hn
      obtain ⟨x0, hx0⟩ := hx k0 v0 w0 (by simp [find]) (by simp [find])
      obtain ⟨r, e, hr, hf⟩ := ih l' hb hn.2 (by
        intro k v w hv hw
        have hk : k ≠ k0 := by
          rintro rfl
          rw [find_of_not_mem hn.1] at hv
          cases hv
        exact hx k v w (by rw [find, if_neg hk, hv]) (by rw [find, if_neg hk, hw]))
      refine ⟨(k0, x0) :: r, ?_, by simp [hr], fun k v w x hv hw hxx => ?_⟩
      · simp only [reduceTwo, hx0, e, Res.ok_bind, Res.pure_eq]
      · by_cases hk : k = k0
        · subst hk
          simp only [find, if_true, Option.some.injEq] at hv hw ⊢
          subst hv hw
          exact Except.ok.inj (hx0.symm.trans hxx)
        · simp only [find, if_neg hk] at hv hw ⊢
          exact hf k v w x hv hw hxx

theorem reduceVolume_ok (d : Dim) (v w : Vol) (hv : d.Fits v) (hw : d.Fits w) :
    ∃ x, reduceVolume v w = .ok x ∧ d.Fits x ∧ ∀ var c, d.Has var c → ∀ p q, v.at var c = some p → w.at var c = some q → x.at var c = some (p + q) := by
  have h1 := Vol.Shape.total hv
  have h2 := Vol.Shape.total hw
  obtain ⟨a1, a2, a3⟩ := hv
  obtain ⟨b1, b2, b3⟩ := hw
  refine ⟨{ v with areas := List.zipWith (fun f g c => f c + g c) v.areas w.areas }, ?_, ⟨a1, a2, by simp [a3, b3]⟩, fun var c hc p q hp hq => ?_⟩
  · rw [reduceVolume, if_pos ⟨h1.trans h2.symm, a3.trans b3.symm⟩]
  · have ht : (⟨v.n, v.g, List.zipWith (fun f g c => f c + g c) v.areas w.areas⟩ : Vol).total = d.n + d.g + d.g := h1
    rw [Vol.at, h1, if_pos hc.2, List.getElem?_eq_getElem (by rw [a3]; exact hc.1)] at hp
    rw [Vol.at, h2, if_pos hc.2, List.getElem?_eq_getElem (by rw [b3]; exact hc.1)] at hq
    simp only [Option.map_some, Option.some.injEq] at hp hq
    rw [Vol.at, ht, if_pos hc.2, List.getElem?_eq_getElem (by simp [a3, b3]; exact hc.1)]
    simp [hp, hq]

/-- Two sets of snapshots with the same keys meet key by key. -/
theorem reduceTwo_holds (dim : Key → Dim) (keys keys' : List Key) (hk : ∀ k, k ∈ keys ↔ k ∈ keys') (val val' : Key → Nat → I3 → ℝ) (a b : Snaps) (ha : Holds dim keys val a)
    (hb : Holds dim keys' val' b) : ∃ r, reduceTwo a b = .ok r ∧ Holds dim keys (fun k var c => val k var c + val' k var c) r := by
  obtain ⟨a1, a2, a3⟩ := ha
  obtain ⟨b1, b2, b3⟩ := hb
  have hkeys : a.map Prod.fst = b.map Prod.fst := sorted_eq a1 b1 fun k => by rw [a2, b2, hk]
  have fits : ∀ k v w, find k a = some v → find k b = some w → k ∈ keys ∧ (dim k).Fits v ∧ (dim k).Fits w ∧ (∀ var c, (dim k).Has var c → v.at var c = some (val k var c)) ∧
      ∀ var c, (dim k).Has var c → w.at var c = some (val' k var c) := by
    intro k v w hv hw
    have hm : k ∈ keys := by
      by_contra hn
      rw [find_of_not_mem (fun h => hn ((a2 k).1 h))] at hv
      cases hv
    obtain ⟨v', e1, f1, g1⟩ := a3 k hm
    obtain ⟨w', e2, f2, g2⟩ := b3 k ((hk k).1 hm)
    rw [hv] at e1
    rw [hw] at e2
    cases e1
    cases e2
    exact ⟨hm, f1, f2, g1, g2⟩
  obtain ⟨r, e, hr, hf⟩ := reduceTwo_find a b hkeys (a1.imp fun h => h.ne) (by
    intro k v w hv hw
    obtain ⟨-, f1, f2, -, -⟩ := fits k v w hv hw
    obtain ⟨x, hx, -⟩ := reduceVolume_ok _ v w f1 f2
    exact ⟨x, hx⟩)
  refine ⟨r, e, by rw [Sorted, hr]; exact a1, by rw [hr]; exact a2, fun k hm => ?_⟩
  obtain ⟨v, e1, -, -⟩ := a3 k hm
  obtain ⟨w, e2, -, -⟩ := b3 k ((hk k).1 hm)
  obtain ⟨-, f1, f2, g1, g2⟩ := fits k v w e1 e2
  obtain ⟨x, hx, hxf, hxv⟩ := reduceVolume_ok _ v w f1 f2
  exact ⟨x, hf k v w x e1 e2 hx, hxf, fun var c hc => hxv var c hc _ _ (g1 var c hc) (g2 var c hc)⟩

/-- The reduction over all ranks. -/
theorem reduce_holds (dim : Key → Dim) {ι : Type} (rest : List ι) (snaps : ι → Snaps) (keys : List Key) (ks : ι → List Key) (vals : ι → Key → Nat → I3 → ℝ)
    (hk : ∀ i ∈ rest, ∀ k, k ∈ keys ↔ k ∈ ks i) (h : ∀ i ∈ rest, Holds dim (ks i) (vals i) (snaps i)) :
    ∀ (val : Key → Nat → I3 → ℝ) (a : Snaps), Holds dim keys val a →
      ∃ r, (rest.map snaps).foldlM reduceTwo a = .ok r ∧ Holds dim keys (fun k var c => val k var c + (rest.map fun i => vals i k var c).sum) r := by
  induction rest with
  | nil =>
    intro val a ha
    exact ⟨a, rfl, by simpa using ha⟩
  | cons i l ih =>
    intro val a ha
    obtain ⟨r1, e1, h1⟩ := reduceTwo_holds dim keys (ks i) (hk i (by simp)) val (vals i) a (snaps i) ha (h i (by simp))
    obtain ⟨r, e, hr⟩ := ih (fun j hj => hk j (by simp [hj])) (fun j hj => h j (by simp [hj])) _ r1 h1
    refine ⟨r, ?_, ?_⟩
    · rw [List.map_cons, List.foldlM_cons, e1, Res.ok_bind, e]
    · simpa [add_assoc] using hr

theorem find_divideAll (N : Nat) (k : Key) (s : Snaps) : find k (divideAll N s) = (find k s).map fun v => { v with areas := v.areas.map fun f c => f c / N } := by
  induction s with
  | nil => rfl
  | cons e l ih =>
    obtain ⟨k0, v⟩ := e
    have : divideAll N ((k0, v) :: l) = (k0, { v with areas := v.areas.map fun f c => f c / N }) :: divideAll N l := rfl
    rw [this, find, find]
    split_ifs
    · rfl
    · exact ih

theorem divide_holds (dim : Key → Dim) (N : Nat) (keys : List Key) (val : Key → Nat → I3 → ℝ) (s : Snaps) (h : Holds dim keys val s) :
    Holds dim keys (fun k var c => val k var c / N) (divideAll N s) := by
  obtain ⟨h1, h2, h3⟩ := h
  have hm : (divideAll N s).map Prod.fst = s.map Prod.fst := by simp [divideAll, Function.comp_def]
  refine ⟨by rw [Sorted, hm]; exact h1, by rw [hm]; exact h2, fun k hk => ?_⟩
  obtain ⟨v, e, f, g⟩ := h3 k hk
  have ht := Vol.Shape.total f
  refine ⟨{ v with areas := v.areas.map fun f c => f c / (N : ℝ) }, by rw [find_divideAll, e]; rfl, ⟨f.1, f.2.1, by simpa using f.2.2⟩, fun var c hc => ?_⟩
  have := g var c hc
  have ht' : (⟨v.n, v.g, v.areas.map fun f c => f c / (N : ℝ)⟩ : Vol).total = (dim k).n + (dim k).g + (dim k).g := ht
  rw [Vol.at, ht, if_pos hc.2, List.getElem?_eq_getElem (by rw [f.2.2]; exact hc.1)] at this
  simp only [Option.map_some, Option.some.injEq] at this
  rw [Vol.at, ht', if_pos hc.2, List.getElem?_eq_getElem (by simp [f.2.2]; exact hc.1)]
  simp [this]

/-- The part adds `φ u` to its snapshot, for every state satisfying `In`. -/
def Part.Adds (p : Part) (In : Vol → Prop) (d : Dim) (φ : Vol → Nat → I3 → ℝ) : Prop :=
  ∀ u, In u → p.zero u = makeVolume d.n d.g d.k ∧ ∀ v, d.Fits v → ∃ w, p.update v u = .ok w ∧ d.Fits w ∧ Added (φ u) v w

theorem sum_filter_parts (parts : List Part) (hn : (parts.map Part.name).Nodup) (p : Part) (hp : p ∈ parts) (x : Part → ℝ) :
    ((parts.filter fun q => q.name = p.name).map x).sum = x p := by
  induction parts with
  | nil => simp at hp
  | cons a l ih =>
    simp only [List.map_cons, List.nodup_cons] at hn
    rcases List.mem_cons.1 hp with rfl | hp
    · have : l.filter (fun q => q.name = p.name) = [] := by
        rw [List.filter_eq_nil_iff]
        intro q hq h
        exact hn.1 (List.mem_map.2 ⟨q, hq, by simpa using h⟩)
      simp [this]
    · have : a.name ≠ p.name := fun h => hn.1 (h ▸ List.mem_map.2 ⟨p, hp, rfl⟩)
      simp [this, ih hn.2 hp]

theorem sum_single {ι : Type} [DecidableEq ι] (l : List ι) (hn : l.Nodup) (a : ι) (ha : a ∈ l) (y : ℝ) : (l.map fun x => if x = a then y else 0).sum = y := by
  induction l with
  | nil => simp at ha
  | cons b l ih =>
    obtain ⟨hb, hl⟩ := List.nodup_cons.1 hn
    rcases List.mem_cons.1 ha with rfl | ha
    · have : (l.map fun x => if x = a then y else 0).sum = 0 := by
        refine List.sum_eq_zero fun z hz => ?_
        obtain ⟨x, hx, rfl⟩ := List.mem_map.1 hz
        have hxa : x ≠ a := by rintro rfl; exact hb hx
        rw [if_neg hxa]
      simp [this]
    · have : b ≠ a := fun h => hb (h ▸ ha)
      simp [this, ih hl ha]

theorem sum_flatMap' {ι κ : Type} (l : List ι) (g : ι → List κ) (P : κ → Bool) (x : κ → ℝ) :
    (((l.flatMap g).filter P).map x).sum = (l.map fun i => (((g i).filter P).map x).sum).sum := by
  induction l with
  | nil => rfl
  | cons a l ih => rw [List.flatMap_cons, List.filter_append, List.map_append, List.sum_append, ih, List.map_cons, List.sum_cons]

/-- What the updates of a rank add to the snapshot of a part at a time: the contributions of the samples. -/
theorem rank_sum {S : Type} (φ : Part → Vol → Nat → I3 → ℝ) (parts : List Part) (hn : (parts.map Part.name).Nodup) (U : S → ℝ → Vol) (times : List ℝ) (ht : times.Nodup) (samples : List S)
    (p : Part) (hp : p ∈ parts) (t : ℝ) (htm : t ∈ times) (var : Nat) (c : I3) :
    (((rankOps φ parts U times samples).filter fun o => o.key = toLex (t, p.name)).map fun o => o.δ var c).sum = (samples.map fun s => φ p (U s t) var c).sum := by
  rw [rankOps, sum_flatMap']
  congr 1
  refine List.map_congr_left fun s _ => ?_
  rw [sum_flatMap']
  rw [← sum_single times ht t htm (φ p (U s t) var c)]
  congr 1
  refine List.map_congr_left fun t' _ => ?_
  rw [List.filter_map, List.map_map]
  by_cases h : t' = t
  · subst h
    rw [if_pos rfl, ← sum_filter_parts parts hn p hp fun q => φ q (U s t') var c]
    congr 2
    refine List.filter_congr fun q _ => ?_
    simp [Function.comp]
  · rw [if_neg h]
    have : parts.filter ((fun o : Op => decide (o.key = toLex (t, p.name))) ∘ fun p => ⟨toLex (t', p.name), p.zero (U s t'), fun v => p.update v (U s t'), φ p (U s t')⟩) = [] := by
      rw [List.filter_eq_nil_iff]
      intro q _
      simp [Function.comp, h]
    rw [this]
    rfl

/-- The keys of a statistic. -/
def allKeys (parts : List Part) (times : List ℝ) : List Key := times.flatMap fun t => parts.map fun p => toLex (t, p.name)

theorem mem_rank_keys {S : Type} (φ : Part → Vol → Nat → I3 → ℝ) (parts : List Part) (U : S → ℝ → Vol) (times : List ℝ) (samples : List S) (hs : samples ≠ []) (k : Key) :
    k ∈ (rankOps φ parts U times samples).map Op.key ↔ k ∈ allKeys parts times := by
  obtain ⟨s0, hs0⟩ := List.exists_mem_of_ne_nil samples hs
  simp only [rankOps, allKeys, List.mem_map, List.mem_flatMap]
  constructor
  · rintro ⟨o, ⟨s, _, t, ht, p, hp, rfl⟩, rfl⟩
    exact ⟨t, ht, p, hp, rfl⟩
  · rintro ⟨t, ht, p, hp, rfl⟩
    exact ⟨_, ⟨s0, hs0, t, ht, p, hp, rfl⟩, rfl⟩

theorem rank_holds {S : Type} (φ : Part → Vol → Nat → I3 → ℝ) (In : Vol → Prop) (dim : Key → Dim) (parts : List Part) (hadd : ∀ p ∈ parts, ∀ t, p.Adds In (dim (toLex (t, p.name))) (φ p))
    (U : S → ℝ → Vol) (times : List ℝ) (samples : List S) (hin : ∀ s ∈ samples, ∀ t ∈ times, In (U s t)) :
    ∃ r, runRank parts U times samples = .ok r ∧ Holds dim ((rankOps φ parts U times samples).map Op.key)
      (fun k var c => (((rankOps φ parts U times samples).filter fun o => o.key = k).map fun o => o.δ var c).sum) r := by
  rw [runRank_eq φ]
  obtain ⟨r, e, h⟩ := runOps_holds dim (rankOps φ parts U times samples) (by
    intro o ho
    simp only [rankOps, List.mem_flatMap, List.mem_map] at ho
    obtain ⟨s, hs, t, ht, p, hp, rfl⟩ := ho
    exact hadd p hp t (U s t) (hin s hs t ht)) [] (fun _ _ _ => 0) [] (holds_nil dim) (fun _ _ _ _ => rfl)
  exact ⟨r, e, by simpa using h⟩

theorem mapM_ok {α β : Type} (f : α → Res β) (g : α → β) (l : List α) (h : ∀ a ∈ l, f a = .ok (g a)) : l.mapM f = .ok (l.map g) := by
  induction l with
  | nil => rfl
  | cons a l ih =>
    rw [List.mapM_cons, h a (by simp), Res.ok_bind, ih fun b hb => h b (by simp [hb])]
    rfl

/-- The combined statistic on rank 0: the sum over all samples of all ranks, divided by `N`. -/
theorem combined {S : Type} (φ : Part → Vol → Nat → I3 → ℝ) (In : Vol → Prop) (dim : Key → Dim) (parts : List Part) (hn : (parts.map Part.name).Nodup)
    (hadd : ∀ p ∈ parts, ∀ t, p.Adds In (dim (toLex (t, p.name))) (φ p)) (U : S → ℝ → Vol) (times : List ℝ) (ht : times.Nodup) (first : List S) (rest : List (List S))
    (hne : ∀ r ∈ first :: rest, r ≠ []) (hin : ∀ r ∈ first :: rest, ∀ s ∈ r, ∀ t ∈ times, In (U s t)) (N : Nat) :
    ∃ snaps result others, (first :: rest).mapM (runRank parts U times) = .ok snaps ∧ combine N snaps = .ok (result :: others) ∧ Sorted result ∧
      (∀ k, k ∈ result.map Prod.fst ↔ k ∈ allKeys parts times) ∧
      ∀ t ∈ times, ∀ p ∈ parts, ∃ v, find (toLex (t, p.name)) result = some v ∧ (dim (toLex (t, p.name))).Fits v ∧
        ∀ var c, (dim (toLex (t, p.name))).Has var c → v.at var c = some (((first :: rest).flatten.map fun s => φ p (U s t) var c).sum / N) := by
  have key : ∀ r : List S, ∃ x, r ∈ first :: rest → runRank parts U times r = .ok x ∧ Holds dim ((rankOps φ parts U times r).map Op.key)
      (fun k var c => (((rankOps φ parts U times r).filter fun o => o.key = k).map fun o => o.δ var c).sum) x := by
    intro r
    by_cases hr : r ∈ first :: rest
    · obtain ⟨x, h⟩ := rank_holds φ In dim parts hadd U times r (hin r hr)
      exact ⟨x, fun _ => h⟩
    · exact ⟨[], fun h => absurd h hr⟩
  choose g hg using key
  have hkeys : ∀ r ∈ first :: rest, ∀ k, k ∈ (rankOps φ parts U times r).map Op.key ↔ k ∈ allKeys parts times := fun r hr k => mem_rank_keys φ parts U times r (hne r hr) k
  obtain ⟨total, e, hh⟩ := reduce_holds dim rest g ((rankOps φ parts U times first).map Op.key) (fun r => (rankOps φ parts U times r).map Op.key)
    (fun r k var c => (((rankOps φ parts U times r).filter fun o => o.key = k).map fun o => o.δ var c).sum)
    (fun r hr k => (hkeys first (by simp) k).trans (hkeys r (by simp [hr]) k).symm) (fun r hr => (hg r (by simp [hr])).2) _ (g first) (hg first (by simp)).2
  have hd := divide_holds dim N _ _ _ hh
  refine ⟨(first :: rest).map g, divideAll N total, (rest.map g).map (divideAll N), mapM_ok _ g _ fun r hr => (hg r hr).1, ?_, hd.1, fun k => (hd.2.1 k).trans (hkeys first (by simp) k), ?_⟩
  · rw [List.map_cons, combine, e]; rfl
  · intro t htm p hp
    have hk : toLex (t, p.name) ∈ (rankOps φ parts U times first).map Op.key :=
      (hkeys first (by simp) _).2 (by simp only [allKeys, List.mem_flatMap, List.mem_map]; exact ⟨t, htm, p, hp, rfl⟩)
    obtain ⟨v, e1, e2, e3⟩ := hd.2.2 _ hk
    refine ⟨v, e1, e2, fun var c hc => ?_⟩
    rw [e3 var c hc]
    congr 1
    show (_ + _) / (N : ℝ) = _
    congr 1
    rw [rank_sum φ parts hn U times ht first p hp t htm]
    have : (rest.map fun i => (((rankOps φ parts U times i).filter fun o => o.key = toLex (t, p.name)).map fun o => o.δ var c).sum) =
        rest.map fun i => (i.map fun s => φ p (U s t) var c).sum := List.map_congr_left fun r _ => rank_sum φ parts hn U times ht r p hp t htm var c
    rw [this, List.flatten_cons, List.map_append, List.sum_append, List.map_flatten, List.sum_flatten, List.map_map]
    rfl

/-! Statistics that assign instead of adding. -/

/-- The snapshots have the right shapes. -/
def Good (dim : Key → Dim) (s : Snaps) : Prop := Sorted s ∧ ∀ k v, find k s = some v → (dim k).Fits v

/-- The update works on volumes of the right shape. -/
def Op.Works (o : Op) (d : Dim) : Prop := d.Fits o.zero ∧ ∀ v, d.Fits v → ∃ w, o.f v = .ok w ∧ d.Fits w

theorem runOps_good (dim : Key → Dim) (ops : List Op) (h : ∀ o ∈ ops, o.Works (dim o.key)) :
    ∀ s, Good dim s → ∃ s', runOps ops s = .ok s' ∧ Good dim s' ∧ (∀ k, k ∈ s'.map Prod.fst ↔ k ∈ s.map Prod.fst ∨ k ∈ ops.map Op.key) ∧
      ∀ k, k ∉ ops.map Op.key → find k s' = find k s := by
  induction ops with
  | nil => intro s hs; exact ⟨s, rfl, hs, by simp, fun _ _ => rfl⟩
  | cons o l ih =>
    intro s hs
    obtain ⟨hz, hw⟩ := h o (by simp)
    have hfit : (dim o.key).Fits ((find o.key s).getD o.zero) := by
      cases e : find o.key s with
      | none => exact hz
      | some v => exact hs.2 _ _ e
    obtain ⟨w, ew, fw⟩ := hw _ hfit
    obtain ⟨t, e, t1, t2, t3⟩ := touch_ok o.key o.zero o.f s hs.1 w ew
    obtain ⟨s', e', g', k', f'⟩ := ih (fun o ho => h o (by simp [ho])) t ⟨t1, by
      intro k v hv
      rw [t3] at hv
      by_cases hk : k = o.key
      · rw [if_pos hk] at hv; cases hv; rw [hk]; exact fw
      · rw [if_neg hk] at hv; exact hs.2 k v hv⟩
    refine ⟨s', ?_, g', fun k => ?_, fun k hk => ?_⟩
    · rw [runOps, List.foldlM_cons, e, Res.ok_bind]; exact e'
    · rw [k', t2]; simp; tauto
    · simp only [List.map_cons, List.mem_cons, not_or] at hk
      rw [f' k hk.2, t3, if_neg hk.1]

theorem runOps_append (a b : List Op) (s : Snaps) : runOps (a ++ b) s = runOps a s >>= runOps b := by
  rw [runOps, List.foldlM_append]; rfl

/-- The last update of a snapshot, if it assigns, determines the entries. -/
theorem runOps_last (dim : Key → Dim) (pre : List Op) (o : Op) (post : List Op) (h : ∀ q ∈ pre ++ o :: post, q.Works (dim q.key)) (hpost : o.key ∉ post.map Op.key) (var : Nat) (c : I3) (x : ℝ)
    (hset : ∀ v w, (dim o.key).Fits v → o.f v = .ok w → w.at var c = some x) :
    ∃ s', runOps (pre ++ o :: post) [] = .ok s' ∧ Good dim s' ∧ (∀ k, k ∈ s'.map Prod.fst ↔ k ∈ (pre ++ o :: post).map Op.key) ∧ ∃ v, find o.key s' = some v ∧ v.at var c = some x := by
  have hg : Good dim [] := ⟨by simp [Sorted], by simp [find]⟩
  obtain ⟨s1, e1, g1, k1, -⟩ := runOps_good dim pre (fun q hq => h q (by simp [hq])) [] hg
  obtain ⟨hz, hw⟩ := h o (by simp)
  have hfit : (dim o.key).Fits ((find o.key s1).getD o.zero) := by
    cases e : find o.key s1 with
    | none => exact hz
    | some v => exact g1.2 _ _ e
  obtain ⟨w, ew, fw⟩ := hw _ hfit
  obtain ⟨t, e, t1, t2, t3⟩ := touch_ok o.key o.zero o.f s1 g1.1 w ew
  obtain ⟨s', e', g', k', f'⟩ := runOps_good dim post (fun q hq => h q (by simp [hq])) t ⟨t1, by
    intro k v hv
    rw [t3] at hv
    by_cases hk : k = o.key
    · rw [if_pos hk] at hv; cases hv; rw [hk]; exact fw
    · rw [if_neg hk] at hv; exact g1.2 k v hv⟩
  refine ⟨s', ?_, g', fun k => ?_, w, ?_, hset _ w hfit ew⟩
  · rw [runOps_append, e1, Res.ok_bind, runOps, List.foldlM_cons, e, Res.ok_bind]; exact e'
  · rw [k', t2, k1]
    simp only [List.map_append, List.map_cons, List.mem_append, List.mem_cons, List.map_nil, List.not_mem_nil, false_or]
    tauto
  · rw [f' _ hpost, t3, if_pos rfl]

/-- What a rank has at the end. -/
noncomputable def entries (s : Snaps) (k : Key) (var : Nat) (c : I3) : ℝ := ((find k s).bind fun v => v.at var c).getD 0

theorem good_holds (dim : Key → Dim) (s : Snaps) (h : Good dim s) : Holds dim (s.map Prod.fst) (entries s) s := by
  refine ⟨h.1, fun _ => Iff.rfl, fun k hk => ?_⟩
  obtain ⟨v, hv⟩ := find_of_mem hk
  have hf := h.2 k v hv
  refine ⟨v, hv, hf, fun var c hc => ?_⟩
  obtain ⟨x, hx⟩ := at_ok hf hc.1 hc.2
  rw [entries, hv, Option.bind_some, hx]
  rfl

/-- The part works on states satisfying `In`. -/
def Part.Works (p : Part) (In : Vol → Prop) (d : Dim) : Prop := ∀ u, In u → d.Fits (p.zero u) ∧ ∀ v, d.Fits v → ∃ w, p.update v u = .ok w ∧ d.Fits w

/-- The part assigns. -/
def Part.Sets (p : Part) (In : Vol → Prop) (d : Dim) (var : Nat) (c : I3) (φ : Vol → ℝ) : Prop := ∀ u, In u → ∀ v w, d.Fits v → p.update v u = .ok w → w.at var c = some (φ u)

theorem rank_last {S : Type} (In : Vol → Prop) (dim : Key → Dim) (parts : List Part) (hn : (parts.map Part.name).Nodup) (hw : ∀ p ∈ parts, ∀ t, p.Works In (dim (toLex (t, p.name))))
    (U : S → ℝ → Vol) (times : List ℝ) (ht : times.Nodup) (init : List S) (s : S) (hin : ∀ s' ∈ init ++ [s], ∀ t ∈ times, In (U s' t)) (p : Part) (hp : p ∈ parts) (t : ℝ) (htm : t ∈ times)
    (var : Nat) (c : I3) (φ : Vol → ℝ) (hset : p.Sets In (dim (toLex (t, p.name))) var c φ) :
    ∃ r, runRank parts U times (init ++ [s]) = .ok r ∧ Good dim r ∧ (∀ k, k ∈ r.map Prod.fst ↔ k ∈ allKeys parts times) ∧ entries r (toLex (t, p.name)) var c = φ (U s t) := by
  let op : S → ℝ → Part → Op := fun s t p => ⟨toLex (t, p.name), p.zero (U s t), fun v => p.update v (U s t), fun _ _ => 0⟩
  obtain ⟨t1, t2, rfl⟩ := List.append_of_mem htm
  obtain ⟨p1, p2, rfl⟩ := List.append_of_mem hp
  have key : rankOps (fun _ _ _ _ => 0) (p1 ++ p :: p2) U (t1 ++ t :: t2) (init ++ [s]) =
      (rankOps (fun _ _ _ _ => 0) (p1 ++ p :: p2) U (t1 ++ t :: t2) init ++ (t1.flatMap fun t => (p1 ++ p :: p2).map (op s t)) ++ p1.map (op s t)) ++ op s t p ::
        (p2.map (op s t) ++ t2.flatMap fun t => (p1 ++ p :: p2).map (op s t)) := by
    simp [rankOps, op, List.flatMap_append]
  have works : ∀ q ∈ rankOps (fun _ _ _ _ => 0) (p1 ++ p :: p2) U (t1 ++ t :: t2) (init ++ [s]), q.Works (dim q.key) := by
    intro q hq
    simp only [rankOps, List.mem_flatMap, List.mem_map] at hq
    obtain ⟨s', hs', t', ht', p', hp', rfl⟩ := hq
    exact hw p' hp' t' _ (hin s' hs' t' ht')
  have hk := mem_rank_keys (fun _ _ _ _ => 0) (p1 ++ p :: p2) U (t1 ++ t :: t2) (init ++ [s]) (by simp)
  rw [runRank_eq fun _ _ _ _ => 0]
  rw [key] at works hk ⊢
  obtain ⟨r, e, g, k, v, hv, hx⟩ := runOps_last dim _ (op s t p) _ works (by
    intro hm
    obtain ⟨o, ho, hqe⟩ := List.mem_map.1 hm
    rcases List.mem_append.1 ho with ho | ho
    on_goal 1 => obtain ⟨q, hq, rfl⟩ := List.mem_map.1 ho
    on_goal 2 =>
      obtain ⟨t', ht', ho⟩ := List.mem_flatMap.1 ho
      obtain ⟨q, _, rfl⟩ := List.mem_map.1 ho
    · have : q.name = p.name := by simpa [op] using hqe
      rw [List.map_append, List.map_cons, List.nodup_append] at hn
      exact (List.nodup_cons.1 hn.2.1).1 (List.mem_map.2 ⟨q, hq, this⟩)
    · have : t' = t := (by simpa [op] using hqe : t' = t ∧ _).1
      rw [List.nodup_append] at ht
      exact (List.nodup_cons.1 ht.2.1).1 (this ▸ ht')) var c (φ (U s t)) (fun v w hv hw => hset _ (hin s (by simp) t (by simp)) v w hv hw)
  refine ⟨r, e, g, fun x => (k x).trans (hk x), ?_⟩
  rw [entries, show (toLex (t, p.name) : Key) = (op s t p).key from rfl, hv, Option.bind_some, hx]
  rfl

/-- The combined statistic, if the part assigns: the sum over the ranks of the value for the last sample of the rank, divided by `N`. A rank is its earlier samples and its last one. -/
theorem combined_last {S : Type} (In : Vol → Prop) (dim : Key → Dim) (parts : List Part) (hn : (parts.map Part.name).Nodup) (hw : ∀ p ∈ parts, ∀ t, p.Works In (dim (toLex (t, p.name))))
    (U : S → ℝ → Vol) (times : List ℝ) (ht : times.Nodup) (first : List S × S) (rest : List (List S × S)) (hin : ∀ r ∈ first :: rest, ∀ s ∈ r.1 ++ [r.2], ∀ t ∈ times, In (U s t))
    (p : Part) (hp : p ∈ parts) (t : ℝ) (htm : t ∈ times) (var : Nat) (c : I3) (hc : (dim (toLex (t, p.name))).Has var c) (φ : Vol → ℝ) (hset : p.Sets In (dim (toLex (t, p.name))) var c φ) (N : Nat) :
    ∃ snaps result others, ((first :: rest).map fun r => r.1 ++ [r.2]).mapM (runRank parts U times) = .ok snaps ∧ combine N snaps = .ok (result :: others) ∧
      ∃ v, find (toLex (t, p.name)) result = some v ∧ v.at var c = some (((first :: rest).map fun r => φ (U r.2 t)).sum / N) := by
  have key : ∀ r : List S × S, ∃ x, r ∈ first :: rest → runRank parts U times (r.1 ++ [r.2]) = .ok x ∧ Good dim x ∧ (∀ k, k ∈ x.map Prod.fst ↔ k ∈ allKeys parts times) ∧
      entries x (toLex (t, p.name)) var c = φ (U r.2 t) := by
    intro r
    by_cases hr : r ∈ first :: rest
    · obtain ⟨x, h⟩ := rank_last In dim parts hn hw U times ht r.1 r.2 (hin r hr) p hp t htm var c φ hset
      exact ⟨x, fun _ => h⟩
    · exact ⟨[], fun h => absurd h hr⟩
  choose g hg using key
  obtain ⟨total, e, hh⟩ := reduce_holds dim rest g ((g first).map Prod.fst) (fun r => (g r).map Prod.fst) (fun r => entries (g r))
    (fun r hr k => ((hg first (by simp)).2.2.1 k).trans ((hg r (by simp [hr])).2.2.1 k).symm) (fun r hr => good_holds dim _ (hg r (by simp [hr])).2.1) _ (g first)
    (good_holds dim _ (hg first (by simp)).2.1)
  have hd := divide_holds dim N _ _ _ hh
  refine ⟨(first :: rest).map g, divideAll N total, (rest.map g).map (divideAll N), ?_, ?_, ?_⟩
  · have : ((first :: rest).map fun r => r.1 ++ [r.2]).mapM (runRank parts U times) = (first :: rest).mapM fun r => runRank parts U times (r.1 ++ [r.2]) := List.mapM_map
    rw [this]
    exact mapM_ok _ g _ fun r hr => (hg r hr).1
  · rw [List.map_cons, combine, e]; rfl
  · obtain ⟨v, e1, -, e3⟩ := hd.2.2 (toLex (t, p.name)) (((hg first (by simp)).2.2.1 _).2 (by simp only [allKeys, List.mem_flatMap, List.mem_map]; exact ⟨t, htm, p, hp, rfl⟩))
    refine ⟨v, e1, ?_⟩
    rw [e3 var c hc]
    congr 1
    show (_ + _) / (N : ℝ) = _
    congr 1
    rw [List.map_cons, List.sum_cons, (hg first (by simp)).2.2.2]
    congr 2
    exact List.map_congr_left fun r hr => (hg r (by simp [hr])).2.2.2

/-- The variation of interior data in one direction. -/
noncomputable def dirVariation (p d : Nat) (n : I3) (v : I3 → ℝ) : ℝ :=
  ∑ z ∈ Finset.Ico (if d = 2 then 1 else 0) n.z, ∑ y ∈ Finset.Ico (if d = 1 then 1 else 0) n.y, ∑ x ∈ Finset.Ico (if d = 0 then 1 else 0) n.x,
    |v ⟨x, y, z⟩ - v (⟨x, y, z⟩ - I3.dir d)| ^ p

theorem sum_shift (a b s : Int) (F : Int → ℝ) : ∑ x ∈ Finset.Ico a b, F x = ∑ x ∈ Finset.Ico (s + a) (b + s), F (x - s) := by
  refine Finset.sum_bij (fun x _ => x + s) ?_ ?_ ?_ ?_
  · intro x hx; simp only [Finset.mem_Ico] at hx ⊢; omega
  · intro x _ y _ h; omega
  · intro y hy; simp only [Finset.mem_Ico] at hy; exact ⟨y - s, by simp only [Finset.mem_Ico]; omega, by omega⟩
  · intro x _; simp

theorem dirVariation_ok (p d : Nat) (n g : I3) (hn : 1 ≤ n.x ∧ 1 ≤ n.y ∧ 1 ≤ n.z) (hg : 0 ≤ g.x ∧ 0 ≤ g.y ∧ 0 ≤ g.z) (hd : d = 0 ∨ (d = 1 ∧ 1 < n.y) ∨ (d = 2 ∧ 1 < n.y ∧ 1 < n.z)) (f : I3 → ℝ) :
    (toMem (n + g + g) f).totalVariationDir d p g (n + g + g - g) = .ok (dirVariation p d n fun c => f (c + g)) := by
  obtain ⟨bv, h, -, e⟩ := Props.C06_total_variation_direction (toMem (n + g + g) f) d p g (n + g + g - g)
    (by
      have h1 : (1 < (toMem (n + g + g) f).ny) ↔ 1 < n.y + 2 * g.y := by simp [toMem]; omega
      have h2 : (1 < (toMem (n + g + g) f).nz) ↔ 1 < n.z + 2 * g.z := by simp [toMem]; omega
      simp only [h1, h2]
      split_ifs <;> omega) hg (by simp [toMem]; omega)
  rw [h, e]
  congr 1
  symm
  rw [dirVariation, sum_shift _ _ g.z]
  have ex : (n + g + g - g).x = n.x + g.x := by simp
  have ey : (n + g + g - g).y = n.y + g.y := by simp
  have ez : (n + g + g - g).z = n.z + g.z := by simp
  rw [ex, ey, ez]
  refine Finset.sum_congr rfl fun z hz => ?_
  rw [sum_shift _ _ g.y]
  refine Finset.sum_congr rfl fun y hy => ?_
  rw [sum_shift _ _ g.x]
  refine Finset.sum_congr rfl fun x hx => ?_
  simp only [Finset.mem_Ico] at hx hy hz
  have cell : ∀ a b c : Int, 0 ≤ a → a < n.x + g.x → 0 ≤ b → b < n.y + g.y → 0 ≤ c → c < n.z + g.z → (toMem (n + g + g) f).cell a b c = f ⟨a, b, c⟩ := by
    intro a b c a0 a1 b0 b1 c0 c1
    exact toMem_val (size := n + g + g) (c := ⟨a, b, c⟩) (by refine ⟨?_, ?_, ?_⟩ <;> simp <;> omega) f
  have hx0 : 0 ≤ x - (if d = 0 then 1 else 0) := by split_ifs at hx ⊢ <;> omega
  have hy0 : 0 ≤ y - (if d = 1 then 1 else 0) := by split_ifs at hy ⊢ <;> omega
  have hz0 : 0 ≤ z - (if d = 2 then 1 else 0) := by split_ifs at hz ⊢ <;> omega
  have hx1 : x - (if d = 0 then 1 else 0) < n.x + g.x := by split_ifs at hx ⊢ <;> omega
  have hy1 : y - (if d = 1 then 1 else 0) < n.y + g.y := by split_ifs at hy ⊢ <;> omega
  have hz1 : z - (if d = 2 then 1 else 0) < n.z + g.z := by split_ifs at hz ⊢ <;> omega
  rw [cell x y z (by split_ifs at hx <;> omega) (by omega) (by split_ifs at hy <;> omega) (by omega) (by split_ifs at hz <;> omega) (by omega), cell _ _ _ hx0 hx1 hy0 hy1 hz0 hz1]
  congr 3
  · congr 1; ext <;> simp
  · congr 1; ext <;> simp [I3.dir] <;> ring

/-- A loop over the variables that assigns the entry 0. -/
theorem numbers_set (k : Nat) (value : Nat → Res ℝ) (x : Nat → ℝ) (hx : ∀ v < k, value v = .ok (x v)) (out : Vol) (ho : out.Shape ⟨1, 1, 1⟩ 0 k) :
    ∃ out', (List.range k).foldlM (fun out var => do
        let t ← value var
        out.modify var fun o => o.wr 0 t) out = .ok out' ∧ out'.Shape ⟨1, 1, 1⟩ 0 k ∧ ∀ var < k, out'.at var 0 = some (x var) := by
  have e0 : (⟨1, 1, 1⟩ : I3) + 0 + 0 = ⟨1, 1, 1⟩ := by ext <;> simp
  have hin : inSize ⟨1, 1, 1⟩ 0 = true := by decide
  have key : ∀ (l : List Nat), (∀ v ∈ l, v < k) → ∀ out : Vol, out.Shape ⟨1, 1, 1⟩ 0 k →
      ∃ out', l.foldlM (fun out var => do
        let t ← value var
        out.modify var fun o => o.wr 0 t) out = .ok out' ∧ out'.Shape ⟨1, 1, 1⟩ 0 k ∧ ∀ var < k, out'.at var 0 = if var ∈ l then some (x var) else out.at var 0 := by
    intro l
    induction l with
    | nil => intro _ out ho; exact ⟨out, rfl, ho, by simp⟩
    | cons a l ih =>
      intro hl out ho
      have ha := hl a (by simp)
      have hmod : ∃ v', (out.modify a fun o => o.wr 0 (x a)) = .ok v' ∧ v'.Shape ⟨1, 1, 1⟩ 0 k ∧ ∀ var < k, v'.at var 0 = if var = a then some (x a) else out.at var 0 := by
        have ht := ho.total
        obtain ⟨h1, h2, h3⟩ := ho
        have hal : a < out.areas.length := by omega
        have hw : (field (⟨1, 1, 1⟩ : I3) out.areas[a]).wr 0 (x a) = .ok ⟨inSize ⟨1, 1, 1⟩, Function.update out.areas[a] 0 (x a)⟩ := Arr.wr_ok hin
        refine ⟨{ out with areas := out.areas.set a (Function.update out.areas[a] 0 (x a)) }, ?_, ⟨h1, h2, by simpa using h3⟩, fun var hv => ?_⟩
        · rw [Vol.modify, List.getElem?_eq_getElem hal]
          simp only [ht, e0, hw, Res.ok_bind, Res.pure_eq]
        · have ht' : (⟨out.n, out.g, out.areas.set a (Function.update out.areas[a] 0 (x a))⟩ : Vol).total = ⟨1, 1, 1⟩ := ht.trans e0
          rw [Vol.at, ht', if_pos hin, Vol.at, ht, e0, if_pos hin]
          by_cases hva : var = a
          · subst hva; simp [hal]
          · rw [List.getElem?_set_ne (Ne.symm hva), if_neg hva]
      obtain ⟨v', e1, s1, h1⟩ := hmod
      obtain ⟨out', e2, s2, h2⟩ := ih (fun v hv => hl v (by simp [hv])) v' s1
      refine ⟨out', ?_, s2, fun var hv => ?_⟩
      · rw [List.foldlM_cons, hx a ha, Res.ok_bind, e1, Res.ok_bind, e2]
      · rw [h2 var hv, h1 var hv]
        by_cases h3 : var ∈ l <;> by_cases h4 : var = a <;> simp [h3, h4]
  obtain ⟨out', e, s, h⟩ := key (List.range k) (fun v hv => List.mem_range.1 hv) out ho
  exact ⟨out', e, s, fun var hv => by rw [h var hv, if_pos (by simpa using hv)]⟩

theorem find_map (h : Key → Vol → Vol) (k : Key) (s : Snaps) : find k (s.map fun e => (e.1, h e.1 e.2)) = (find k s).map (h k) := by
  induction s with
  | nil => rfl
  | cons e l ih =>
    rw [List.map_cons, find, find]
    split_ifs with hk
    · rw [hk]; rfl
    · exact ih

theorem find_mem_sorted {s : Snaps} (hs : Sorted s) {e : Key × Vol} (he : e ∈ s) : find e.1 s = some e.2 := by
  induction s with
  | nil => simp at he
  | cons a l ih =>
    obtain ⟨h1, h2⟩ := List.pairwise_cons.1 hs
    rcases List.mem_cons.1 he with rfl | he
    · rw [find, if_pos rfl]
    · have : e.1 ≠ a.1 := (h1 e.1 (List.mem_map_of_mem he)).ne'
      rw [find, if_neg this, ih h2 he]

theorem finalize_find (n g : I3) (k : Nat) (s : Snaps) (hs : Sorted s)
    (h : ∀ key ∈ s.map Prod.fst, ∃ v m, find key s = some v ∧ find (toLex ((ofLex key).1, "mean")) s = some m ∧ v.Shape n g k ∧ m.Shape n g k) :
    ∃ r, finalizeMeanVariance s = .ok r ∧ ∀ t, find (toLex (t, "mean")) r = find (toLex (t, "mean")) s ∧
      ∀ m v, find (toLex (t, "mean")) s = some m → find (toLex (t, "variance")) s = some v → ∃ w, find (toLex (t, "variance")) r = some w ∧
        ∀ var c, var < k → inSize (n + g + g) c = true → w.at var c = (v.at var c).bind fun x => (m.at var c).map fun y => x - y ^ 2 := by
  let H : Key → Vol → Vol := fun key v => if (ofLex key).2 = "variance" then
    (match find (toLex ((ofLex key).1, "mean")) s with
      | none => v
      | some m => match zipAdd (fun x => -x ^ 2) v m with
        | .ok w => w
        | .error _ => v) else v
  refine ⟨s.map fun e => (e.1, H e.1 e.2), ?_, fun t => ⟨?_, ?_⟩⟩
  · refine mapM_ok _ _ _ fun e he => ?_
    obtain ⟨v, m, h1, h2, h3, h4⟩ := h e.1 (List.mem_map_of_mem he)
    rw [find_mem_sorted hs he] at h1
    cases h1
    by_cases hv : (ofLex e.1).2 = "variance"
    · obtain ⟨w, hw, -⟩ := zipAdd_added (fun x => -x ^ 2) n g k e.2 m h3 h4
      simp only [if_pos hv, h2, H, hw, Res.ok_bind, Res.pure_eq]
    · simp only [if_neg hv, H, Res.pure_eq]
  · rw [find_map]
    have : H (toLex (t, "mean")) = id := by
      funext v
      simp [H]
    rw [this, Option.map_id, id]
  · intro m v hm hv
    have hmem : toLex (t, "variance") ∈ s.map Prod.fst := by
      by_contra hn
      rw [find_of_not_mem hn] at hv
      cases hv
    obtain ⟨v', m', h1, h2, h3, h4⟩ := h _ hmem
    rw [hv] at h1
    rw [ofLex_toLex, hm] at h2
    cases h1
    cases h2
    obtain ⟨w, hw, -, ha⟩ := zipAdd_added (fun x => -x ^ 2) n g k v m h3 h4
    refine ⟨w, ?_, fun var c hvar hc => ?_⟩
    · rw [find_map, hv, Option.map_some]
      simp only [H, ofLex_toLex, if_true, hm, hw]
    · rw [ha]
      have hbox : c ∈ box 0 (n + g + g) := by
        rw [inSize_iff] at hc
        rw [mem_box]
        simp only [I3.zero_x, I3.zero_y, I3.zero_z]
        omega
      have hm' : m.at var c = some ((m.areas.getD var fun _ => 0) c) := by
        rw [Vol.at, Vol.Shape.total h4, if_pos hc]
        have : var < m.areas.length := by rw [h4.2.2]; exact hvar
        simp [this]
      obtain ⟨x, hx⟩ := at_ok h3 hvar hc
      rw [hx, hm']
      simp only [hvar, hbox, and_self, if_true, Option.map_some, Option.bind_some, sub_eq_add_neg]

end Verif.Stats
