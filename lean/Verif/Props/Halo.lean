import Verif.HaloField

/-! C47 and C48: the messages of the halo exchange and what they deliver. -/

namespace Verif.Props.Parallel
open Verif Verif.Cartesian Verif.Halo

/-- The messages rank `a` sends to rank `b` with this tag in one exchange. -/
def sent {K : Type} (part : Int → Part K) (nvars g : Nat) (a b : Int) (tag : Nat) : List Post :=
  (partPosts nvars g (part a)).filter fun s => s.isSend && decide (s.peer = b) && decide (s.tag = tag)

/-- The messages rank `b` expects from rank `a` with this tag in one exchange. -/
def expected {K : Type} (part : Int → Part K) (nvars g : Nat) (a b : Int) (tag : Nat) : List Post :=
  (partPosts nvars g (part b)).filter fun r => !r.isSend && decide (r.peer = a) && decide (r.tag = tag)

/-- C47: for any two ranks and any tag there is at most one message, it is sent exactly when it is expected, and both sides agree on the variable and the
number of elements. The messages are non-blocking and all of them are posted before the first wait, so no wait can last forever. -/
theorem C47_messages_match {K : Type} [Field K] (p : I3) (grid : Grid K) (user : Nat → Side) (part : Int → Part K) (h : Decomposed p grid user part)
    (nvars g : Nat) (a b : Int) (ha : IsRank p a) (hb : IsRank p b) (tag : Nat) :
    (sent part nvars g a b tag).length ≤ 1 ∧ (sent part nvars g a b tag).length = (expected part nvars g a b tag).length ∧
      ∀ s ∈ sent part nvars g a b tag, ∀ r ∈ expected part nvars g a b tag, s.var = r.var ∧ s.map.length = r.map.length := by
  have hdl := h.dimensions_le
  obtain ⟨hd1, hd3⟩ := dimensionsOf_bounds (localSize grid.dims p)
  have hposts : ∀ r, IsRank p r → partPosts nvars g (part r) = posts (dimensionsOf (localSize grid.dims p)) nvars (totalOf (localSize grid.dims p) g)
      (ghostsOf (localSize grid.dims p) g) (part r).neighbour := fun r hr => by rw [partPosts, (h.facts hr).1]
  have h1 : (sent part nvars g a b tag).length ≤ 1 := by
    rw [sent, hposts a ha]
    refine filter_le_one (nodup_tags hd3) true tag _ fun q hq => ?_
    simp only [Bool.and_eq_true, decide_eq_true_eq] at hq
    exact ⟨hq.1.1, hq.2⟩
  have h2 : (expected part nvars g a b tag).length ≤ 1 := by
    rw [expected, hposts b hb]
    refine filter_le_one (nodup_tags hd3) false tag _ fun q hq => ?_
    simp only [Bool.and_eq_true, decide_eq_true_eq, Bool.not_eq_true'] at hq
    exact ⟨hq.1.1, hq.2⟩
  have ms : ∀ s, s ∈ sent part nvars g a b tag ↔ ∃ side < 2 * dimensionsOf (localSize grid.dims p), ∃ var < nvars, (part a).neighbour side > -1 ∧
      s = ⟨true, (part a).neighbour side, side + var * 6, var, sendMap (dimensionsOf (localSize grid.dims p)) (totalOf (localSize grid.dims p) g)
        (ghostsOf (localSize grid.dims p) g) side⟩ ∧ (part a).neighbour side = b ∧ side + var * 6 = tag := by
    intro s
    rw [sent, hposts a ha]
    simp only [List.mem_filter, Bool.and_eq_true, decide_eq_true_eq]
    constructor
    · rintro ⟨q1, ⟨q2, q3⟩, q4⟩
      obtain ⟨side, hs, var, hv, hnb, rfl⟩ := mem_send.1 ⟨q1, q2⟩
      exact ⟨side, hs, var, hv, hnb, rfl, q3, q4⟩
    · rintro ⟨side, hs, var, hv, hnb, rfl, q3, q4⟩
      exact ⟨(mem_send.2 ⟨side, hs, var, hv, hnb, rfl⟩).1, ⟨rfl, q3⟩, q4⟩
  have mr : ∀ r, r ∈ expected part nvars g a b tag ↔ ∃ side < 2 * dimensionsOf (localSize grid.dims p), ∃ var < nvars, (part b).neighbour side > -1 ∧
      r = ⟨false, (part b).neighbour side, oppositeSide side + var * 6, var, recvMap (dimensionsOf (localSize grid.dims p)) (totalOf (localSize grid.dims p) g)
        (ghostsOf (localSize grid.dims p) g) side⟩ ∧ (part b).neighbour side = a ∧ oppositeSide side + var * 6 = tag := by
    intro s
    rw [expected, hposts b hb]
    simp only [List.mem_filter, Bool.and_eq_true, decide_eq_true_eq, Bool.not_eq_true']
    constructor
    · rintro ⟨q1, ⟨q2, q3⟩, q4⟩
      obtain ⟨side, hs, var, hv, hnb, rfl⟩ := mem_recv.1 ⟨q1, q2⟩
      exact ⟨side, hs, var, hv, hnb, rfl, q3, q4⟩
    · rintro ⟨side, hs, var, hv, hnb, rfl, q3, q4⟩
      exact ⟨(mem_recv.2 ⟨side, hs, var, hv, hnb, rfl⟩).1, ⟨rfl, q3⟩, q4⟩
  have hiff : (sent part nvars g a b tag ≠ []) ↔ (expected part nvars g a b tag ≠ []) := by
    constructor
    · intro hne
      obtain ⟨s, hs⟩ := List.exists_mem_of_ne_nil _ hne
      obtain ⟨side, h3, var, h4, h5, -, h6, h7⟩ := (ms s).1 hs
      have hback := (h.symmetric ha (show side < 2 * activeDimension grid.dims by omega) h5).2
      rw [h6] at hback
      refine List.ne_nil_of_mem ((mr _).2 ⟨oppositeSide side, oppositeSide_lt h3, var, h4, ?_, rfl, hback, by rw [oppositeSide_opp]; exact h7⟩)
      rw [hback]; have := ha.1; omega
    · intro hne
      obtain ⟨s, hs⟩ := List.exists_mem_of_ne_nil _ hne
      obtain ⟨side, h3, var, h4, h5, -, h6, h7⟩ := (mr s).1 hs
      have hback := (h.symmetric hb (show side < 2 * activeDimension grid.dims by omega) h5).2
      rw [h6] at hback
      refine List.ne_nil_of_mem ((ms _).2 ⟨oppositeSide side, oppositeSide_lt h3, var, h4, ?_, rfl, hback, h7⟩)
      rw [hback]; have := hb.1; omega
  refine ⟨h1, ?_, ?_⟩
  · rw [← List.length_pos_iff, ← List.length_pos_iff] at hiff
    omega
  · intro s hs r hr
    obtain ⟨side, s1, var, s2, -, rfl, -, s3⟩ := (ms s).1 hs
    obtain ⟨side', r1, var', r2, -, rfl, -, r3⟩ := (mr r).1 hr
    have := oppositeSide_lt r1
    have e1 : side = oppositeSide side' := by omega
    have e2 : var = var' := by omega
    subst e1 e2
    exact ⟨rfl, length_maps _ _ _ _⟩

/-- C47: every message goes to or comes from a rank that exists. -/
theorem C47_partners_exist {K : Type} [Field K] (p : I3) (grid : Grid K) (user : Nat → Side) (part : Int → Part K) (h : Decomposed p grid user part)
    (nvars g : Nat) (a : Int) (ha : IsRank p a) : ∀ m ∈ partPosts nvars g (part a), IsRank p m.peer := by
  intro m hm
  have hdl := h.dimensions_le
  rw [partPosts, (h.facts ha).1] at hm
  rcases hs : m.isSend with _ | _
  · obtain ⟨side, h1, var, -, h2, rfl⟩ := mem_recv.1 ⟨hm, hs⟩
    exact (h.symmetric ha (show side < 2 * activeDimension grid.dims by omega) h2).1
  · obtain ⟨side, h1, var, -, h2, rfl⟩ := mem_send.1 ⟨hm, hs⟩
    exact (h.symmetric ha (show side < 2 * activeDimension grid.dims by omega) h2).1

/-- A grid of 6 by 4 cells on 2 by 2 processes. -/
def exGrid : Grid Rat := Grid.make ⟨0, 0, 0⟩ ⟨1, 1, 0⟩ ⟨6, 4, 1⟩ 0 ⟨6, 4, 1⟩

theorem exDecomposed : ∃ part, Decomposed ⟨2, 2, 1⟩ exGrid (fun _ => .periodic) part := by
  obtain ⟨part, h, -⟩ := C45_tiles_partial ⟨2, 2, 1⟩ (by unfold ProcessGrid; decide) exGrid (fun _ => .periodic) (by decide) (by decide)
  exact ⟨part, by unfold ProcessGrid; decide, by decide, by decide, fun _ => rfl, h⟩

/-- Rank 0 sends two messages to rank 1 for each variable, one for each side. -/
example : ∃ A, decompose ⟨2, 2, 1⟩ 0 exGrid (fun _ => .periodic) = .ok A ∧
    ((partPosts 1 1 A).filter fun s => s.isSend && decide (s.peer = 1)).map (·.tag) = [0, 1] := ⟨_, rfl, by decide +kernel⟩

example : ∃ part, Decomposed ⟨2, 2, 1⟩ exGrid (fun _ => .periodic) part ∧ IsRank ⟨2, 2, 1⟩ 3 := by
  obtain ⟨part, h⟩ := exDecomposed
  exact ⟨part, h, by unfold IsRank; decide⟩

/-- Place of the cell `c` in the memory of a volume of total size `n`: x fastest. -/
def place (n c : I3) : Int := c.z * n.x * n.y + c.y * n.x + c.x

/-- C48, segments: for a volume of `m` interior cells (total size `n`, ghost width `g`), the memory sent at a side is exactly the layer of `g` cells next to the
ghost layer, the memory received is exactly the ghost layer; both over the full extent in the other directions, listed in the same order. Everything lies inside the
memory of the volume. Excluded are volumes with one layer in y and several in z, which the code takes for one-dimensional. -/
theorem C48_segments (m : I3) (hm : 1 ≤ m.x ∧ 1 ≤ m.y ∧ 1 ≤ m.z) (hreg : m.y = 1 → m.z = 1) (g : Nat) (side : Nat) (hs : side < 2 * dimensionsOf m)
    (n : I3) (hn : n = totalOf m g) (N : Int) (hN : N = n.get (side / 2)) :
    sendMap (dimensionsOf m) n (ghostsOf m g) side =
      (box (I3.set 0 (side / 2) (if side % 2 = 0 then (g : Int) else N - 2 * g)) (n.set (side / 2) (if side % 2 = 0 then (2 * g : Int) else N - g))).map (place n) ∧
    recvMap (dimensionsOf m) n (ghostsOf m g) side =
      (box (I3.set 0 (side / 2) (if side % 2 = 0 then (0 : Int) else N - g)) (n.set (side / 2) (if side % 2 = 0 then (g : Int) else N))).map (place n) ∧
    ((g : Int) ≤ m.get (side / 2) → ∀ i ∈ sendMap (dimensionsOf m) n (ghostsOf m g) side, 0 ≤ i ∧ i < n.x * n.y * n.z) ∧
    ∀ i ∈ recvMap (dimensionsOf m) n (ghostsOf m g) side, 0 ≤ i ∧ i < n.x * n.y * n.z := by
  subst hn hN
  obtain ⟨hd1, hd3⟩ := dimensionsOf_bounds m
  have hvs := fun {d} (hd : d < 3) => volume_sizes hm hreg g hd
  have hvd := hvs (d := side / 2) (by omega)
  rw [if_pos (by omega)] at hvd
  have hall : ∀ d < 3, 1 ≤ (totalOf m g).get d := by
    intro d hd
    have := hvs hd
    rw [this.2.1, this.1]; split_ifs <;> omega
  have hpos : 0 ≤ (totalOf m g).x ∧ 0 ≤ (totalOf m g).y ∧ 0 ≤ (totalOf m g).z := by
    have h0 := hall 0 (by omega); have h1 := hall 1 (by omega); have h2 := hall 2 (by omega)
    simp [I3.get] at h0 h1 h2
    omega
  have hflat : ∀ d, dimensionsOf m ≤ d → d < 3 → (totalOf m g).get d = 1 := by
    intro d hd hd'
    have := hvs hd'
    rw [this.2.1, this.1, if_neg (by omega), this.2.2.1 hd]; ring
  have e1 : sendMap (dimensionsOf m) (totalOf m g) (ghostsOf m g) side =
      (box (slabLo (totalOf m g) g g side) (slabHi (totalOf m g) g g side)).map (flatI (totalOf m g)) := by
    rw [sendMap, hvd.1]; exact typemap_slab hd1 hd3 hs hpos hflat (by omega)
  have e2 : recvMap (dimensionsOf m) (totalOf m g) (ghostsOf m g) side =
      (box (slabLo (totalOf m g) g 0 side) (slabHi (totalOf m g) g 0 side)).map (flatI (totalOf m g)) := by
    rw [recvMap, hvd.1]; exact typemap_slab hd1 hd3 hs hpos hflat (by omega)
  have hb : ∀ {i : Int} {lo hi : I3}, (∀ d < 3, 0 ≤ lo.get d ∧ hi.get d ≤ (totalOf m g).get d) → i ∈ (box lo hi).map (flatI (totalOf m g)) →
      0 ≤ i ∧ i < (totalOf m g).x * (totalOf m g).y * (totalOf m g).z := by
    intro i lo hi hlh hi'
    obtain ⟨c, hc, rfl⟩ := List.mem_map.1 hi'
    rw [mem_box] at hc
    have hin : Iterate.InBlock (totalOf m g) c := by
      have h0 := hlh 0 (by omega); have h1 := hlh 1 (by omega); have h2 := hlh 2 (by omega)
      simp [I3.get] at h0 h1 h2
      exact ⟨⟨by omega, by omega⟩, ⟨by omega, by omega⟩, by omega, by omega⟩
    rw [flatI_cast hin]
    exact ⟨by omega, Iterate.cellIndex_lt hin⟩
  have hz : ∀ e, (0 : I3).get e = 0 := fun e => by unfold I3.get; split_ifs <;> rfl
  have hslab : ∀ base : Int, 0 ≤ base → base + g ≤ (totalOf m g).get (side / 2) →
      ∀ d < 3, 0 ≤ (slabLo (totalOf m g) g base side).get d ∧ (slabHi (totalOf m g) g base side).get d ≤ (totalOf m g).get d := by
    intro base h0 h1 d hd
    have hside : side / 2 < 3 := by omega
    rw [slabLo, slabHi, get_set hside hd, get_set hside hd]
    split
    · next e => subst e; split_ifs <;> omega
    · rw [hz]; omega
  refine ⟨?_, ?_, ?_, ?_⟩
  · rw [e1]
    congr 2
    · rw [slabLo]; congr 1; split_ifs <;> ring
    · rw [slabHi]; congr 1; split_ifs <;> ring
  · rw [e2]
    congr 2
    · rw [slabLo]; congr 1; split_ifs <;> ring
    · rw [slabHi]; congr 1; split_ifs <;> ring
  · intro hgm i hi
    rw [e1] at hi
    exact hb (hslab g (by omega) (by omega)) hi
  · intro i hi
    rw [e2] at hi
    exact hb (hslab 0 (by omega) (by omega)) hi

example : sendMap 2 ⟨5, 4, 1⟩ ⟨1, 1, 0⟩ 1 = [3, 8, 13, 18] ∧ recvMap 2 ⟨5, 4, 1⟩ ⟨1, 1, 0⟩ 1 = [4, 9, 14, 19] ∧ totalOf ⟨3, 2, 1⟩ 1 = ⟨5, 4, 1⟩ := by decide

/-- `c` is a ghost cell of the given side but no corner: its coordinate in the direction of the side is in the ghost layer, all others are not. -/
def FaceGhost (m : I3) (g : Nat) (side : Nat) (c : I3) : Prop :=
  (∀ e < 3, e ≠ side / 2 → (ghostsOf m g).get e ≤ c.get e ∧ c.get e < m.get e + (ghostsOf m g).get e) ∧
  if side % 2 = 0 then 0 ≤ c.get (side / 2) ∧ c.get (side / 2) < g
  else m.get (side / 2) + g ≤ c.get (side / 2) ∧ c.get (side / 2) < m.get (side / 2) + 2 * g

/-- `c` is not a ghost cell. -/
def Inner (m : I3) (g : Nat) (c : I3) : Prop := ∀ e < 3, (ghostsOf m g).get e ≤ c.get e ∧ c.get e < m.get e + (ghostsOf m g).get e

/-- C48, values: before the exchange every rank has in its interior cells the values `U` of the whole grid (variable, cell of the whole grid). Then after the exchange, in whatever
order the elements of the messages are read and written, interior cells are unchanged, and every ghost cell of a side with a neighbour that is no corner cell holds
the value of the cell of the whole grid it stands for, where the grid is continued periodically in the direction of the side.
Missing for the full statement: subdomains thinner than the ghost layer (false, see below), and with one layer in y and several in z. -/
theorem C48_ghost_cells_partial {K α : Type} [Field K] (p : I3) (grid : Grid K) (user : Nat → Side) (part : Int → Part K) (h : Decomposed p grid user part)
    (m : I3) (hm : m = localSize grid.dims p) (hreg : m.y = 1 → m.z = 1) (nvars g : Nat) (hg : ∀ d < dimensionsOf m, (g : Int) ≤ m.get d)
    (evs : List Event) (hc : Complete (allTransfers p part nvars g) evs) (U : Nat → I3 → α) (mem : Loc → α) (tr : Nat → α)
    (hU : ∀ r, IsRank p r → ∀ v < nvars, ∀ c, Inner m g c → mem (r, v, place (totalOf m g) c) = U v (c - ghostsOf m g + (part r).grid.globalPosition))
    (r : Int) (hr : IsRank p r) (v : Nat) (hv : v < nvars) :
    (∀ c, Inner m g c → after (allTransfers p part nvars g) mem tr evs (r, v, place (totalOf m g) c) = mem (r, v, place (totalOf m g) c)) ∧
    ∀ side < 2 * dimensionsOf m, (part r).neighbour side ≠ -1 → ∀ c, FaceGhost m g side c → ∀ q, q = c - ghostsOf m g + (part r).grid.globalPosition →
      after (allTransfers p part nvars g) mem tr evs (r, v, place (totalOf m g) c) = U v (q.set (side / 2) (q.get (side / 2) % grid.dims.get (side / 2))) := by
  have hm1 : 1 ≤ m.x ∧ 1 ≤ m.y ∧ 1 ≤ m.z := by
    rw [hm]; exact ⟨(h.sizes (d := 0) (by omega)).2.1, (h.sizes (d := 1) (by omega)).2.1, (h.sizes (d := 2) (by omega)).2.1⟩
  obtain ⟨hd1, hd3⟩ := dimensionsOf_bounds m
  have hvs := fun {d} (hd : d < 3) => volume_sizes hm1 hreg g hd
  have hdl := h.dimensions_le
  have hun := @Decomposed.unchanged K α _ p grid user part h (by rw [← hm]; exact hreg) nvars g evs hc mem tr r v
  have hde := @Decomposed.delivered K α _ p grid user part h (by rw [← hm]; exact hreg) nvars g (by rw [← hm]; exact hg) evs hc mem tr r hr v hv
  have hwr := @Decomposed.wrapped K _ p grid user part h (by rw [← hm]; exact hreg) g (by rw [← hm]; exact hg) r hr
  rw [← hm] at hun hde hwr hdl
  have hinner : ∀ c, Inner m g c → Iterate.InBlock (totalOf m g) c ∧
      ∀ side < 2 * dimensionsOf m, c ∉ box (slabLo (totalOf m g) g 0 side) (slabHi (totalOf m g) g 0 side) := by
    intro c hcI
    constructor
    · rw [inBlock_get]
      intro d hd
      have h1 := hcI d hd; have h2 := hvs hd
      have h3 := h2.1
      split_ifs at h3 <;> omega
    · intro side hs hmem
      have h1 := ((mem_slab (show side < 6 by omega)).1 hmem).2
      have h2 := hvs (d := side / 2) (by omega)
      have h3 := hcI (side / 2) (by omega)
      rw [if_pos (by omega)] at h2
      split_ifs at h1 <;> omega
  refine ⟨fun c hcI => hun (hinner c hcI).1 fun side hs _ => (hinner c hcI).2 side hs, ?_⟩
  rintro side hs hnb c ⟨hc1, hc2⟩ q rfl
  have hnb' : (part r).neighbour side > -1 := by
    by_contra hcon
    have f5 := (h.facts hr).2.2.2.2 side (by omega)
    by_cases hph : physical p user (position p r) side
    · exact hnb (f5.1 hph).2
    · have := rank_bounds (across_inside (h.facts hr).2.2.2.1 (side := side) (by omega))
      rw [← (f5.2 hph).2] at this
      omega
  have hvd := hvs (d := side / 2) (by omega)
  rw [if_pos (by omega)] at hvd
  have hcs : c ∈ box (slabLo (totalOf m g) g 0 side) (slabHi (totalOf m g) g 0 side) := by
    rw [mem_slab (by omega)]
    refine ⟨fun e he hne => ?_, ?_⟩
    · have h1 := hc1 e he hne; have h2 := hvs he
      have h3 := h2.1
      split_ifs at h3 <;> omega
    · split_ifs at hc2 ⊢ <;> omega
  have hface : ∀ e < 3, e ≠ side / 2 → (ghostsOf m g).get e ≤ c.get e ∧ c.get e < (totalOf m g).get e - (ghostsOf m g).get e := by
    intro e he hne
    have h1 := hc1 e he hne; have h2 := hvs he
    omega
  have e1 := hde hs hnb' hcs hface
  have hrk := (h.symmetric hr (show side < 2 * activeDimension grid.dims by omega) hnb').1
  have hsrc : Inner m g (c + shift (totalOf m g) g side) := by
    intro d hd
    rw [get_add, get_shift (by omega) hd]
    by_cases e : d = side / 2
    · subst e
      have := hg (side / 2) (by omega)
      rw [if_pos rfl]
      split_ifs at hc2 ⊢ <;> omega
    · rw [if_neg e]
      have := hc1 d hd e
      omega
  show after (allTransfers p part nvars g) mem tr evs (r, v, flatI (totalOf m g) c) = _
  rw [e1, ← hwr hs hnb' hcs]
  exact hU _ hrk v hv _ hsrc

/-- The ranks exchange their data on the grid of `exDecomposed` with ghost width two. -/
example : ∃ part, Decomposed ⟨2, 2, 1⟩ exGrid (fun _ => .periodic) part ∧ (⟨3, 2, 1⟩ : I3) = localSize exGrid.dims ⟨2, 2, 1⟩ ∧
    (∀ d < dimensionsOf ⟨3, 2, 1⟩, ((2 : Nat) : Int) ≤ I3.get ⟨3, 2, 1⟩ d) ∧ (∃ evs, Complete (allTransfers ⟨2, 2, 1⟩ part 1 2) evs) ∧
    FaceGhost ⟨3, 2, 1⟩ 2 3 ⟨2, 5, 0⟩ := by
  obtain ⟨part, h⟩ := exDecomposed
  exact ⟨part, h, by decide, by decide, ⟨_, complete_reads_writes _⟩, by unfold FaceGhost; decide⟩

/-- The parts of a small one-dimensional periodic grid with three cells on three processes. -/
def thinGrid : Grid Rat := Grid.make ⟨0, 0, 0⟩ ⟨1, 1, 0⟩ ⟨3, 1, 1⟩ 0 ⟨3, 1, 1⟩

/-- What `decompose` returns for a rank. -/
def partOf (p : I3) (grid : Grid Rat) (r : Int) : Part Rat :=
  match decompose p r grid fun _ => .periodic with
  | .ok A => A
  | .error _ => ⟨grid, fun _ => .neumann, fun _ => -1⟩

theorem partOf_decomposed (p : I3) (grid : Grid Rat) (hp : ProcessGrid p) (hdims : 1 ≤ grid.dims.x ∧ 1 ≤ grid.dims.y ∧ 1 ≤ grid.dims.z)
    (hdiv : p.x ∣ grid.dims.x ∧ p.y ∣ grid.dims.y ∧ p.z ∣ grid.dims.z) : Decomposed p grid (fun _ => .periodic) (partOf p grid) := by
  refine ⟨hp, hdims, hdiv, fun _ => rfl, fun r hr => ?_⟩
  obtain ⟨A, hA, -⟩ := decompose_ok hp grid (fun _ => .periodic) ⟨by omega, by omega, by omega⟩ hdiv hr.1 hr.2
  rw [partOf, hA]

/-- C48 is false for subdomains thinner than the ghost layer (nothing in the code refuses them): with one cell per process and two ghost cells the outer ghost cell
gets what the neighbour had in its own ghost cell before, here zero, and not the value 2 of the cell it stands for. -/
theorem C48_fails_for_thin_subdomains :
    Decomposed ⟨3, 1, 1⟩ thinGrid (fun _ => .periodic) (partOf ⟨3, 1, 1⟩ thinGrid) ∧ localSize thinGrid.dims ⟨3, 1, 1⟩ = ⟨1, 1, 1⟩ ∧
    ∃ (U : I3 → Int) (mem : Loc → Int) (evs : List Event), Complete (allTransfers ⟨3, 1, 1⟩ (partOf ⟨3, 1, 1⟩ thinGrid) 1 2) evs ∧
      (∀ r, IsRank ⟨3, 1, 1⟩ r → ∀ c, Inner ⟨1, 1, 1⟩ 2 c →
        mem (r, 0, place (totalOf ⟨1, 1, 1⟩ 2) c) = U (c - ghostsOf ⟨1, 1, 1⟩ 2 + (partOf ⟨3, 1, 1⟩ thinGrid r).grid.globalPosition)) ∧
      (partOf ⟨3, 1, 1⟩ thinGrid 0).neighbour 0 = 2 ∧ FaceGhost ⟨1, 1, 1⟩ 2 0 ⟨0, 0, 0⟩ ∧
      ((0 : I3) - ghostsOf ⟨1, 1, 1⟩ 2 + (partOf ⟨3, 1, 1⟩ thinGrid 0).grid.globalPosition).x % 3 = 1 ∧ U ⟨1, 0, 0⟩ = 2 ∧
      after (allTransfers ⟨3, 1, 1⟩ (partOf ⟨3, 1, 1⟩ thinGrid) 1 2) mem (fun _ => 0) evs (0, 0, place (totalOf ⟨1, 1, 1⟩ 2) ⟨0, 0, 0⟩) = 0 := by
  refine ⟨partOf_decomposed _ _ (by unfold ProcessGrid; decide) (by decide) (by decide), by decide, fun q => q.x + 1, fun l => if l.2.2 = 2 then l.1 + 1 else 0, _,
    complete_reads_writes _, ?_, by decide +kernel, by unfold FaceGhost; decide, by decide +kernel, rfl, by decide +kernel⟩
  intro r hr c hc
  have h0 := hc 0 (by omega); have h1 := hc 1 (by omega); have h2 := hc 2 (by omega)
  simp [I3.get, ghostsOf] at h0 h1 h2
  have hcc : c = ⟨2, 0, 0⟩ := by ext <;> simp <;> omega
  subst hcc
  have hr' : 0 ≤ r ∧ r < 3 := by unfold IsRank at hr; simpa using hr
  obtain ⟨hr0, hr1⟩ := hr'
  interval_cases r <;> decide +kernel

/-- Corner ghost cells depend on the order of the messages: the segments sent extend over the ghost cells of the other directions while these are being received. (No
numerical flux in the code reads them.) -/
theorem C48_corner_cells_depend_on_the_order :
    ∃ (mem : Loc → Int) (evs evs' : List Event),
      Complete (allTransfers ⟨2, 2, 1⟩ (partOf ⟨2, 2, 1⟩ exGrid) 1 1) evs ∧ Complete (allTransfers ⟨2, 2, 1⟩ (partOf ⟨2, 2, 1⟩ exGrid) 1 1) evs' ∧
      after (allTransfers ⟨2, 2, 1⟩ (partOf ⟨2, 2, 1⟩ exGrid) 1 1) mem (fun _ => 0) evs (0, 0, 0) = 0 ∧
      after (allTransfers ⟨2, 2, 1⟩ (partOf ⟨2, 2, 1⟩ exGrid) 1 1) mem (fun _ => 0) evs' (0, 0, 0) = 7 := by
  refine ⟨fun l => if l = (3, 0, place (totalOf ⟨3, 2, 1⟩ 1) ⟨3, 2, 0⟩) then 7 else 0, _, _, complete_reads_writes _,
    complete_one_by_one _ (List.range (allTransfers ⟨2, 2, 1⟩ (partOf ⟨2, 2, 1⟩ exGrid) 1 1).length).reverse (by simp), by decide +kernel, by decide +kernel⟩

example : ∃ part, Decomposed ⟨2, 2, 1⟩ exGrid (fun _ => .periodic) part ∧ (sent part 3 1 0 1 0).length = (expected part 3 1 0 1 0).length := by
  obtain ⟨part, h⟩ := exDecomposed
  exact ⟨part, h, (C47_messages_match _ _ _ _ h 3 1 0 1 (by unfold IsRank; decide) (by unfold IsRank; decide) 0).2.1⟩

end Verif.Props.Parallel
