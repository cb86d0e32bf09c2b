import Verif.HaloLemmas
import Verif.Props.Cartesian
import Verif.NetFluxSplit

/-! Lemmas on the halo exchange between the parts of a decomposed grid: which value arrives where. -/

namespace Verif.Halo
open Iterate Cartesian Props.Parallel

/-- `part r` is the part of the grid rank `r` gets. The two sides of a direction have the same boundary condition. -/
structure Decomposed {K : Type} [Field K] (p : I3) (grid : Grid K) (user : Nat → Side) (part : Int → Part K) : Prop where
  procs : ProcessGrid p
  dims : 1 ≤ grid.dims.x ∧ 1 ≤ grid.dims.y ∧ 1 ≤ grid.dims.z
  div : p.x ∣ grid.dims.x ∧ p.y ∣ grid.dims.y ∧ p.z ∣ grid.dims.z
  same : ∀ d, user (2 * d) = user (2 * d + 1)
  parts : ∀ r, IsRank p r → decompose p r grid user = .ok (part r)

theorem get_add (a b : I3) (d : Nat) : (a + b).get d = a.get d + b.get d := by unfold I3.get; split_ifs <;> rfl
theorem get_sub (a b : I3) (d : Nat) : (a - b).get d = a.get d - b.get d := by unfold I3.get; split_ifs <;> rfl

section
variable {K : Type} [Field K] {p : I3} {grid : Grid K} {user : Nat → Side} {part : Int → Part K}

theorem Decomposed.sizes (h : Decomposed p grid user part) {d : Nat} (hd : d < 3) :
    1 ≤ p.get d ∧ 1 ≤ (localSize grid.dims p).get d ∧ (localSize grid.dims p).get d * p.get d = grid.dims.get d := by
  obtain ⟨⟨p1, p2, p3⟩, ⟨d1, d2, d3⟩, ⟨v1, v2, v3⟩, -, -⟩ := h
  have key : ∀ {a b : Int}, 1 ≤ b → 1 ≤ a → b ∣ a → 1 ≤ b ∧ 1 ≤ a / b ∧ a / b * b = a := fun {a b} hb ha hv => by
    refine ⟨hb, ?_, Int.ediv_mul_cancel hv⟩
    have := Int.ediv_mul_cancel hv
    by_contra hc
    nlinarith
  interval_cases d
  · exact key p1 d1 v1
  · exact key p2 d2 v2
  · exact key p3 d3 v3

theorem Decomposed.facts (h : Decomposed p grid user part) {r : Int} (hr : IsRank p r) :
    (part r).grid.dims = localSize grid.dims p ∧
    (∀ d < 3, (part r).grid.globalPosition.get d = (localSize grid.dims p).get d * (position p r).get d) ∧
    (part r).grid.lengths = grid.lengths ∧ Inside p (position p r) ∧
    ∀ side < 2 * activeDimension grid.dims,
      (physical p user (position p r) side → (part r).bc side = user side ∧ (part r).neighbour side = -1) ∧
      (¬physical p user (position p r) side → (part r).bc side = .mpi ∧ (part r).neighbour side = getRankIndex (across p (position p r) side) p) := by
  obtain ⟨q, h1, h2, h3, -, h4, -, h5⟩ := decompose_ok h.procs grid user ⟨by have := h.dims.1; omega, by have := h.dims.2.1; omega, by have := h.dims.2.2; omega⟩
    h.div hr.1 hr.2
  rw [h.parts r hr] at h1
  cases h1
  refine ⟨h2, ?_, h4, position_inside h.procs hr.1 hr.2, h5⟩
  intro d hd
  rw [h3]
  interval_cases d <;> rfl

theorem Decomposed.dimensions_le (h : Decomposed p grid user part) : dimensionsOf (localSize grid.dims p) ≤ activeDimension grid.dims := by
  have h1 := h.sizes (d := 1) (by omega)
  have h2 := h.sizes (d := 2) (by omega)
  simp only [I3.get, one_ne_zero, if_false, if_true, OfNat.ofNat_ne_zero, OfNat.ofNat_ne_one] at h1 h2
  have k : ∀ {a b c : Int}, 1 ≤ b → 1 ≤ a → a * b = c → a ≤ c := fun {a b c} hb ha e => by nlinarith
  have k1 := k h1.1 h1.2.1 h1.2.2
  have k2 := k h2.1 h2.2.1 h2.2.2
  unfold dimensionsOf activeDimension
  split_ifs <;> omega

theorem dimensionsOf_bounds (m : I3) : 1 ≤ dimensionsOf m ∧ dimensionsOf m ≤ 3 := by unfold dimensionsOf; split_ifs <;> omega

theorem oppositeSide_eq (s : Nat) : oppositeSide s = opposite s := by unfold oppositeSide opposite; rcases Nat.mod_two_eq_zero_or_one s with h | h <;> simp only [h] <;> simp <;> omega

theorem Decomposed.symmetric (h : Decomposed p grid user part) {a : Int} (ha : IsRank p a) {side : Nat} (hs : side < 2 * activeDimension grid.dims)
    (hb : (part a).neighbour side > -1) : IsRank p ((part a).neighbour side) ∧ (part ((part a).neighbour side)).neighbour (oppositeSide side) = a := by
  obtain ⟨h1, B, hB, h2⟩ := C46_symmetric_partial p h.procs grid user h.same h.dims h.div a ha (part a) (h.parts a ha) side ((hasSide_iff _ _).2 hs) (by omega)
  refine ⟨h1, ?_⟩
  rw [h.parts _ h1] at hB
  cases hB
  rw [oppositeSide_eq]; exact h2

end

/-- Sizes of a volume whose cells in y are not a single layer when there are several layers in z. -/
theorem volume_sizes {m : I3} (hm : 1 ≤ m.x ∧ 1 ≤ m.y ∧ 1 ≤ m.z) (hreg : m.y = 1 → m.z = 1) (g : Nat) {d : Nat} (hd : d < 3) :
    (ghostsOf m g).get d = (if d < dimensionsOf m then (g : Int) else 0) ∧ (totalOf m g).get d = m.get d + 2 * (ghostsOf m g).get d ∧
      (dimensionsOf m ≤ d → m.get d = 1) ∧ 1 ≤ m.get d := by
  unfold dimensionsOf totalOf ghostsOf
  interval_cases d <;> simp only [I3.get, one_ne_zero, if_false, if_true, OfNat.ofNat_ne_zero, OfNat.ofNat_ne_one]
  · split_ifs <;> simp <;> omega
  · refine ⟨?_, trivial, ?_, by omega⟩ <;> split_ifs <;> omega
  · refine ⟨?_, trivial, ?_, by omega⟩ <;> split_ifs <;> omega

theorem mem_slab {n : I3} {g : Int} {side : Nat} (hs : side < 6) {c : I3} :
    c ∈ box (slabLo n g 0 side) (slabHi n g 0 side) ↔
      (∀ e < 3, e ≠ side / 2 → 0 ≤ c.get e ∧ c.get e < n.get e) ∧
      (if side % 2 = 0 then 0 ≤ c.get (side / 2) ∧ c.get (side / 2) < g
        else n.get (side / 2) - g ≤ c.get (side / 2) ∧ c.get (side / 2) < n.get (side / 2)) := by
  have hb : ∀ lo hi : I3, c ∈ box lo hi ↔ ∀ e < 3, lo.get e ≤ c.get e ∧ c.get e < hi.get e := by
    intro lo hi
    rw [mem_box]
    constructor
    · rintro ⟨h1, h2, h3⟩ e he
      interval_cases e <;> simp_all [I3.get]
    · intro h
      have h0 := h 0 (by omega); have h1 := h 1 (by omega); have h2 := h 2 (by omega)
      simp [I3.get] at h0 h1 h2
      exact ⟨h0, h1, h2⟩
  have hd : side / 2 < 3 := by omega
  have hz : ∀ e, (0 : I3).get e = 0 := fun e => by unfold I3.get; split_ifs <;> rfl
  rw [hb]
  simp only [slabLo, slabHi]
  constructor
  · intro h
    refine ⟨fun e he hne => ?_, ?_⟩
    · have := h e he
      rw [get_set hd he, get_set hd he, if_neg hne, if_neg hne, hz] at this
      exact this
    · have := h (side / 2) hd
      rw [get_set hd hd, get_set hd hd, if_pos rfl, if_pos rfl] at this
      split_ifs at this ⊢ <;> omega
  · rintro ⟨h1, h2⟩ e he
    rw [get_set hd he, get_set hd he]
    split
    · next heq => subst heq; split_ifs at h2 ⊢ <;> omega
    · next hne => rw [hz]; exact h1 e he hne

theorem get_shift {n : I3} {g : Int} {side e : Nat} (hs : side < 6) (he : e < 3) :
    (shift n g side).get e = if e = side / 2 then (if side % 2 = 0 then n.get e - 2 * g else -(n.get e - 2 * g)) else 0 := by
  have hz : (0 : I3).get e = 0 := by unfold I3.get; split_ifs <;> rfl
  rw [shift, get_set (by omega) he]
  split
  · next h => subst h; rfl
  · exact hz

theorem inBlock_get {n c : I3} : InBlock n c ↔ ∀ d < 3, 0 ≤ c.get d ∧ c.get d < n.get d := inside_get

section
variable {K α : Type} [Field K] {p : I3} {grid : Grid K} {user : Nat → Side} {part : Int → Part K}

/-- The element copies between the parts. -/
theorem Decomposed.mem_transfers (h : Decomposed p grid user part) (hreg : (localSize grid.dims p).y = 1 → (localSize grid.dims p).z = 1) (nvars g : Nat)
    {t : Loc × Loc} :
    t ∈ transfers (fun r => if 0 ≤ r ∧ r < count p then partPosts nvars g (part r) else []) (count p) ↔
      ∃ b, IsRank p b ∧ ∃ side < 2 * dimensionsOf (localSize grid.dims p), ∃ var < nvars, (part b).neighbour side > -1 ∧
        ∃ c ∈ box (slabLo (totalOf (localSize grid.dims p) g) g 0 side) (slabHi (totalOf (localSize grid.dims p) g) g 0 side),
          t = (((part b).neighbour side, var, flatI (totalOf (localSize grid.dims p) g) (c + shift (totalOf (localSize grid.dims p) g) g side)),
            (b, var, flatI (totalOf (localSize grid.dims p) g) c)) := by
  have hm : 1 ≤ (localSize grid.dims p).x ∧ 1 ≤ (localSize grid.dims p).y ∧ 1 ≤ (localSize grid.dims p).z :=
    ⟨(h.sizes (d := 0) (by omega)).2.1, (h.sizes (d := 1) (by omega)).2.1, (h.sizes (d := 2) (by omega)).2.1⟩
  have hle := h.dimensions_le
  generalize hmm : localSize grid.dims p = m at *
  have hvs := fun {d} (hd : d < 3) => volume_sizes hm hreg g hd
  obtain ⟨hd1, hd3⟩ := dimensionsOf_bounds m
  have hG : ∀ side, side < 2 * dimensionsOf m → (ghostsOf m g).get (side / 2) = g := fun side hs => by
    rw [(hvs (d := side / 2) (by omega)).1, if_pos (by omega)]
  have hposts : ∀ r, IsRank p r → partPosts nvars g (part r) = posts (dimensionsOf m) nvars (totalOf m g) (ghostsOf m g) (part r).neighbour := fun r hr => by
    rw [partPosts, (h.facts hr).1, hmm]
  have e : transfers (fun r => if 0 ≤ r ∧ r < count p then partPosts nvars g (part r) else []) (count p) =
      transfers (fun r => posts (dimensionsOf m) nvars (totalOf m g) (ghostsOf m g)
        ((fun (r : Int) side => if 0 ≤ r ∧ r < count p then (part r).neighbour side else -1) r)) (count p) := by
    congr 1
    funext r
    by_cases hr : 0 ≤ r ∧ r < count p
    · simp only [hr, and_self, if_true]
      exact hposts r hr
    · simp only [hr, if_false]
      simp [posts, postsAt]
  rw [e, Halo.mem_transfers hd1 hd3]
  · constructor
    · rintro ⟨b, h0, h1, side, hs, var, hv, hnb, c, hc, rfl⟩
      simp only [h0, h1, and_self, if_true] at hnb ⊢
      rw [hG side hs] at hc ⊢
      exact ⟨b, ⟨h0, h1⟩, side, hs, var, hv, hnb, c, hc, rfl⟩
    · rintro ⟨b, ⟨h0, h1⟩, side, hs, var, hv, hnb, c, hc, rfl⟩
      have h1' : b < count p := h1
      refine ⟨b, h0, h1, side, hs, var, hv, by simpa [h0, h1'] using hnb, c, by rw [hG side hs]; exact hc, ?_⟩
      simp only [h0, h1', and_self, if_true, hG side hs]
  · have h0 := hvs (d := 0) (by omega); have h1 := hvs (d := 1) (by omega); have h2 := hvs (d := 2) (by omega)
    simp only [I3.get, one_ne_zero, if_false, if_true, OfNat.ofNat_ne_zero, OfNat.ofNat_ne_one] at h0 h1 h2
    refine ⟨?_, ?_, ?_⟩
    · rw [h0.2.1, h0.1]; split_ifs <;> omega
    · rw [h1.2.1, h1.1]; split_ifs <;> omega
    · rw [h2.2.1, h2.1]; split_ifs <;> omega
  · intro d hd hd'
    have := hvs hd'
    rw [this.2.1, this.1, if_neg (by omega), this.2.2.1 hd]; ring
  · intro d
    rcases Nat.lt_or_ge d 3 with hd | hd
    · rw [(hvs hd).1]; split_ifs <;> omega
    · have : (ghostsOf m g).get d = (ghostsOf m g).get 2 := by unfold I3.get; rw [if_neg (by omega), if_neg (by omega)]; rfl
      rw [this, (hvs (d := 2) (by omega)).1]; split_ifs <;> omega
  · intro a ha0 ha1 side hs hnb
    simp only [ha0, ha1, and_self, if_true] at hnb ⊢
    have := h.symmetric ⟨ha0, ha1⟩ (show side < 2 * activeDimension grid.dims by omega) hnb
    have h' : 0 ≤ (part a).neighbour side ∧ (part a).neighbour side < count p := this.1
    exact ⟨h'.2, by rw [if_pos h']; exact this.2⟩

omit [Field K] in
/-- What a cell of the receiving slab of some side looks like, given that no other coordinate is a ghost coordinate. -/
theorem slab_inBlock {n : I3} {g : Int} {side : Nat} (hs : side < 6) (_hg : 0 ≤ g) (hn : g ≤ n.get (side / 2)) {c : I3}
    (hc : c ∈ box (slabLo n g 0 side) (slabHi n g 0 side)) : InBlock n c := by
  obtain ⟨h1, h2⟩ := (mem_slab hs).1 hc
  rw [inBlock_get]
  intro d hd
  by_cases e : d = side / 2
  · subst e; split_ifs at h2 <;> omega
  · exact h1 d hd e

/-- Cells that are in no receiving slab keep their values. -/
theorem Decomposed.unchanged (h : Decomposed p grid user part) (hreg : (localSize grid.dims p).y = 1 → (localSize grid.dims p).z = 1) {nvars g : Nat}
    {evs : List Event} (hc : Complete (allTransfers p part nvars g) evs) (mem : Loc → α) (tr : Nat → α) (r : Int) (v : Nat) {c : I3}
    (hin : InBlock (totalOf (localSize grid.dims p) g) c)
    (hout : ∀ side < 2 * dimensionsOf (localSize grid.dims p), (part r).neighbour side > -1 →
      c ∉ box (slabLo (totalOf (localSize grid.dims p) g) g 0 side) (slabHi (totalOf (localSize grid.dims p) g) g 0 side)) :
    after (allTransfers p part nvars g) mem tr evs (r, v, flatI (totalOf (localSize grid.dims p) g) c) =
      mem (r, v, flatI (totalOf (localSize grid.dims p) g) c) := by
  apply after_unwritten hc
  intro t ht
  obtain ⟨b, hb, side, hs, var, hv, hnb, c', hc', rfl⟩ := (h.mem_transfers hreg nvars g).1 ht
  intro heq
  simp only [Prod.mk.injEq] at heq
  obtain ⟨rfl, rfl, heq⟩ := heq
  have hm : 1 ≤ (localSize grid.dims p).x ∧ 1 ≤ (localSize grid.dims p).y ∧ 1 ≤ (localSize grid.dims p).z :=
    ⟨(h.sizes (d := 0) (by omega)).2.1, (h.sizes (d := 1) (by omega)).2.1, (h.sizes (d := 2) (by omega)).2.1⟩
  have hd3 := (dimensionsOf_bounds (localSize grid.dims p)).2
  have hvs := volume_sizes hm hreg g (d := side / 2) (by omega)
  rw [if_pos (by omega)] at hvs
  have hin' := slab_inBlock (by omega) (by omega) (by omega) hc'
  rw [flatI_inj hin' hin heq] at hc'
  exact hout side hs hnb hc'

/-- A ghost cell of a side with a neighbour, all other coordinates not ghost coordinates, gets the value of the corresponding cell of the neighbour. -/
theorem Decomposed.delivered (h : Decomposed p grid user part) (hreg : (localSize grid.dims p).y = 1 → (localSize grid.dims p).z = 1) {nvars g : Nat}
    (hg : ∀ d < dimensionsOf (localSize grid.dims p), (g : Int) ≤ (localSize grid.dims p).get d)
    {evs : List Event} (hc : Complete (allTransfers p part nvars g) evs) (mem : Loc → α) (tr : Nat → α) {r : Int} (hr : IsRank p r) {v : Nat} (hv : v < nvars)
    {side : Nat} (hs : side < 2 * dimensionsOf (localSize grid.dims p)) (hnb : (part r).neighbour side > -1) {c : I3}
    (hcs : c ∈ box (slabLo (totalOf (localSize grid.dims p) g) g 0 side) (slabHi (totalOf (localSize grid.dims p) g) g 0 side))
    (hface : ∀ e < 3, e ≠ side / 2 → (ghostsOf (localSize grid.dims p) g).get e ≤ c.get e ∧
      c.get e < (totalOf (localSize grid.dims p) g).get e - (ghostsOf (localSize grid.dims p) g).get e) :
    after (allTransfers p part nvars g) mem tr evs (r, v, flatI (totalOf (localSize grid.dims p) g) c) =
      mem ((part r).neighbour side, v, flatI (totalOf (localSize grid.dims p) g) (c + shift (totalOf (localSize grid.dims p) g) g side)) := by
  have hm : 1 ≤ (localSize grid.dims p).x ∧ 1 ≤ (localSize grid.dims p).y ∧ 1 ≤ (localSize grid.dims p).z :=
    ⟨(h.sizes (d := 0) (by omega)).2.1, (h.sizes (d := 1) (by omega)).2.1, (h.sizes (d := 2) (by omega)).2.1⟩
  have hd3 := (dimensionsOf_bounds (localSize grid.dims p)).2
  have hvs := fun {d} (hd : d < 3) => volume_sizes hm hreg g hd
  have hmt := @Decomposed.mem_transfers _ _ _ _ _ _ h hreg nvars g
  generalize localSize grid.dims p = m at *
  generalize totalOf m g = n at *
  generalize ghostsOf m g = G at *
  have hsl := (mem_slab (show side < 6 by omega)).1 hcs
  have hvd := hvs (d := side / 2) (by omega)
  have hgd := hg (side / 2) (by omega)
  rw [if_pos (by omega)] at hvd
  have hin := slab_inBlock (n := n) (by omega) (by omega) (by omega) hcs
  -- a cell that is not a ghost coordinate of direction `d` is in no slab of this direction
  have hnot : ∀ {side' : Nat} {c' : I3}, side' < 2 * dimensionsOf m → c' ∈ box (slabLo n g 0 side') (slabHi n g 0 side') →
      G.get (side' / 2) ≤ c'.get (side' / 2) → c'.get (side' / 2) < n.get (side' / 2) - G.get (side' / 2) → False := by
    intro side' c' hs' hc' h1 h2
    have := ((mem_slab (show side' < 6 by omega)).1 hc').2
    have hvd' := hvs (d := side' / 2) (by omega)
    rw [if_pos (by omega)] at hvd'
    split_ifs at this <;> omega
  -- the source is not written
  have hsrcIn : ∀ d < 3, G.get d ≤ (c + shift n g side).get d ∧ (c + shift n g side).get d < n.get d - G.get d := by
    intro d hd
    rw [get_add, get_shift (by omega) hd]
    by_cases e : d = side / 2
    · subst e
      have := hsl.2
      rw [if_pos rfl]
      split_ifs at this ⊢ <;> omega
    · rw [if_neg e]
      have := hface d hd e
      omega
  have hsrcBlock : InBlock n (c + shift n g side) := by
    rw [inBlock_get]
    intro d hd
    have h1 := hsrcIn d hd
    have h2 := (hvs hd).1
    split_ifs at h2 <;> omega
  apply after_written hc
  · intro t ht htl
    obtain ⟨b, hb, side', hs', var, hv', hnb', c', hc', rfl⟩ := hmt.1 ht
    simp only [Prod.mk.injEq] at htl
    obtain ⟨rfl, rfl, heq⟩ := htl
    have hvd' := hvs (d := side' / 2) (by omega)
    rw [if_pos (by omega)] at hvd'
    have hgd' := hg (side' / 2) (by omega)
    have hcc : c' = c := flatI_inj (slab_inBlock (n := n) (by omega) (by omega) (by omega) hc') hin heq
    subst hcc
    have hss : side' = side := by
      by_cases e : side' / 2 = side / 2
      · have h1 := ((mem_slab (show side' < 6 by omega)).1 hc').2
        have h2 := hsl.2
        rw [e] at h1
        by_contra hne
        rcases Nat.mod_two_eq_zero_or_one side' with e1 | e1 <;> rcases Nat.mod_two_eq_zero_or_one side with e2 | e2 <;>
          simp only [e1, e2, if_true, one_ne_zero, if_false] at h1 h2 <;> omega
      · exact (hnot hs' hc' (hface _ (by omega) e).1 (hface _ (by omega) e).2).elim
    subst hss
    rfl
  · intro t ht htl
    obtain ⟨b, hb, side', hs', var, hv', hnb', c', hc', rfl⟩ := hmt.1 ht
    simp only [Prod.mk.injEq] at htl
    obtain ⟨-, -, heq⟩ := htl
    have hvd' := hvs (d := side' / 2) (by omega)
    rw [if_pos (by omega)] at hvd'
    have hgd' := hg (side' / 2) (by omega)
    have hcc : c' = c + shift n g side := flatI_inj (slab_inBlock (n := n) (by omega) (by omega) (by omega) hc') hsrcBlock heq
    have := hsrcIn (side' / 2) (by omega)
    rw [← hcc] at this
    exact hnot hs' hc' this.1 this.2
  · exact hmt.2 ⟨r, hr, side, hs, v, hv, hnb, c, hcs, rfl⟩

/-- Where the neighbour has the cell: the same cell of the whole grid, wrapped around in the direction of the side. -/
theorem Decomposed.wrapped (h : Decomposed p grid user part) (hreg : (localSize grid.dims p).y = 1 → (localSize grid.dims p).z = 1) {g : Nat}
    (hg : ∀ d < dimensionsOf (localSize grid.dims p), (g : Int) ≤ (localSize grid.dims p).get d) {r : Int} (hr : IsRank p r)
    {side : Nat} (hs : side < 2 * dimensionsOf (localSize grid.dims p)) (hnb : (part r).neighbour side > -1) {c : I3}
    (hcs : c ∈ box (slabLo (totalOf (localSize grid.dims p) g) g 0 side) (slabHi (totalOf (localSize grid.dims p) g) g 0 side)) :
    c + shift (totalOf (localSize grid.dims p) g) g side - ghostsOf (localSize grid.dims p) g + (part ((part r).neighbour side)).grid.globalPosition =
      (c - ghostsOf (localSize grid.dims p) g + (part r).grid.globalPosition).set (side / 2)
        ((c - ghostsOf (localSize grid.dims p) g + (part r).grid.globalPosition).get (side / 2) % grid.dims.get (side / 2)) := by
  have hm : 1 ≤ (localSize grid.dims p).x ∧ 1 ≤ (localSize grid.dims p).y ∧ 1 ≤ (localSize grid.dims p).z :=
    ⟨(h.sizes (d := 0) (by omega)).2.1, (h.sizes (d := 1) (by omega)).2.1, (h.sizes (d := 2) (by omega)).2.1⟩
  have hd3 := (dimensionsOf_bounds (localSize grid.dims p)).2
  have hdl := h.dimensions_le
  have hvs := fun {d} (hd : d < 3) => volume_sizes hm hreg g hd
  obtain ⟨-, f2, -, f4, f5⟩ := h.facts hr
  have hnp : ¬physical p user (position p r) side := fun hph => by have := ((f5 side (by omega)).1 hph).2; omega
  have hacr := across_inside f4 (side := side) (by omega)
  have hrk : IsRank p ((part r).neighbour side) := by rw [((f5 side (by omega)).2 hnp).2]; exact rank_bounds hacr
  have hposn : position p ((part r).neighbour side) = across p (position p r) side := by
    rw [((f5 side (by omega)).2 hnp).2, position_rank hacr]
  obtain ⟨-, g2, -, -, -⟩ := h.facts hrk
  have hsz := fun {d} (hd : d < 3) => h.sizes (d := d) hd
  generalize localSize grid.dims p = m at *
  apply ext_get
  intro d hd
  rw [get_set (by omega) hd, get_add, get_sub, get_add, get_shift (by omega) hd, g2 d hd, hposn, across, get_set (by omega) hd]
  have hslab := ((mem_slab (show side < 6 by omega)).1 hcs).2
  by_cases e : d = side / 2
  · simp only [e, if_true]
    rw [get_add, get_sub, f2 _ (by omega)]
    have hpos := inside_get.1 f4 (side / 2) (by omega)
    obtain ⟨s1, s2, s3⟩ := hsz (d := side / 2) (by omega)
    have hvd := hvs (d := side / 2) (by omega)
    rw [if_pos (by omega)] at hvd
    have hgd := hg (side / 2) (by omega)
    generalize (position p r).get (side / 2) = x at *
    generalize p.get (side / 2) = P at *
    generalize m.get (side / 2) = M at *
    generalize grid.dims.get (side / 2) = D at *
    generalize c.get (side / 2) = cc at *
    generalize (ghostsOf m g).get (side / 2) = gg at *
    generalize (totalOf m g).get (side / 2) = nn at *
    obtain ⟨rfl, hnn, -, -⟩ := hvd
    -- the left hand side lies in the domain and differs from the unwrapped value by a multiple of its length
    have hfin : ∀ (y k : Int), 0 ≤ y → y < D → y = cc - g + M * x + k * D → y = (cc - g + M * x) % D := by
      intro y k h0 h1 h2
      rw [← Int.emod_eq_of_lt h0 h1, h2, Int.add_mul_emod_self_right]
    have hcell : ∀ z : Int, 0 ≤ z → z < P → ∀ w : Int, 0 ≤ w → w < M → 0 ≤ w + M * z ∧ w + M * z < D := by
      intro z hz0 hz1 w hw0 hw1
      constructor
      · nlinarith
      · rw [← s3]; nlinarith
    rcases Nat.mod_two_eq_zero_or_one side with e1 | e1
    · simp only [e1, if_true] at hslab ⊢
      by_cases hx : x = 0
      · have e2 : (x + -1) % P = P - 1 := by
          rw [hx, zero_add, ← Int.add_emod_right, Int.emod_eq_of_lt (by omega) (by omega)]; omega
        rw [e2]
        have := hcell (P - 1) (by omega) (by omega) (cc + (nn - 2 * g) - g) (by omega) (by omega)
        refine hfin _ 1 this.1 this.2 ?_
        rw [hx, hnn, ← s3]; ring
      · have e2 : (x + -1) % P = x - 1 := by rw [Int.emod_eq_of_lt (by omega) (by omega)]; ring
        rw [e2]
        have := hcell (x - 1) (by omega) (by omega) (cc + (nn - 2 * g) - g) (by omega) (by omega)
        refine hfin _ 0 this.1 this.2 ?_
        rw [hnn]; ring
    · simp only [e1, one_ne_zero, if_false] at hslab ⊢
      by_cases hx : x = P - 1
      · have e2 : (x + 1) % P = 0 := by rw [hx, sub_add_cancel, Int.emod_self]
        rw [e2]
        have := hcell 0 (by omega) (by omega) (cc + -(nn - 2 * g) - g) (by omega) (by omega)
        refine hfin _ (-1) this.1 this.2 ?_
        rw [hx, hnn, ← s3]; ring
      · have e2 : (x + 1) % P = x + 1 := Int.emod_eq_of_lt (by omega) (by omega)
        rw [e2]
        have := hcell (x + 1) (by omega) (by omega) (cc + -(nn - 2 * g) - g) (by omega) (by omega)
        refine hfin _ 0 this.1 this.2 ?_
        rw [hnn]; ring
  · rw [if_neg e, if_neg e, if_neg e, get_add, get_sub, f2 d hd]; ring

end

end Verif.Halo
