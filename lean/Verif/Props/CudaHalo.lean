import Verif.CudaHaloLemmas
import Verif.Props.Halo

/-! C74: the halo exchange on the graphics card moves the same cells as the one on the processor. -/

namespace Verif.Props.CudaHalo
open Verif Verif.Halo Verif.Cartesian Verif.Gpu Verif.CudaHalo Verif.Props.Parallel
variable {α : Type}

/-- A message of the exchanger on the processor, described by what both exchangers have in common: direction, other rank, tag, variable, side of the volume it is for, and number of elements. -/
def described (p : Post) : BufferPost :=
  ⟨p.isSend, p.peer, p.tag, p.var, if p.isSend then p.tag % 6 else oppositeSide (p.tag % 6), p.map.length⟩

/-- The sizes of a volume with `m` interior cells and ghost width `g`. -/
theorem shape {m : I3} (hm : 1 ≤ m.x ∧ 1 ≤ m.y ∧ 1 ≤ m.z) (hreg : m.y = 1 → m.z = 1) (g : Nat) : Shape (dimensionsOf m) (totalOf m g) (ghostsOf m g) := by
  obtain ⟨hd1, hd3⟩ := dimensionsOf_bounds m
  have hvs := fun {d} (hd : d < 3) => volume_sizes hm hreg g hd
  have hG : 0 ≤ (ghostsOf m g).x ∧ 0 ≤ (ghostsOf m g).y ∧ 0 ≤ (ghostsOf m g).z := by
    unfold ghostsOf; simp only; split_ifs <;> omega
  refine ⟨hd1, hd3, ?_, ?_, hG, ?_⟩
  · unfold totalOf; simp only; omega
  · intro d hd hd'
    have := hvs hd'
    rw [this.2.1, this.1, if_neg (by omega), this.2.2.1 hd]; ring
  · intro d hd
    have := hvs (d := d) (by omega)
    have hpos : 0 ≤ m.get d := by unfold I3.get; split_ifs <;> omega
    rw [this.2.1]; omega

/-- C74, messages: both exchangers post the same messages (up to the order of the loops): same partners, tags, variables and numbers of elements. -/
theorem C74_same_messages (m : I3) (hm : 1 ≤ m.x ∧ 1 ≤ m.y ∧ 1 ≤ m.z) (hreg : m.y = 1 → m.z = 1) (g nvars : Nat) (nb : Nat → Int)
    (hnb : ∀ side, -1 ≤ nb side) :
    (bufferPosts (dimensionsOf m) nvars (totalOf m g) (ghostsOf m g) nb).Perm
      ((posts (dimensionsOf m) nvars (totalOf m g) (ghostsOf m g) nb).map described) := by
  have h := shape hm hreg g
  have hh : ∀ side, hasSide nb side = true ↔ nb side > -1 := fun side => by rw [CudaHalo.hasSide_iff]; have := hnb side; omega
  have hat : ∀ side < 2 * dimensionsOf m, ∀ v, (postsAt (dimensionsOf m) (totalOf m g) (ghostsOf m g) nb side v).map described =
      bufferPostsAt (totalOf m g) (ghostsOf m g) nb v side := by
    intro side hs v
    have h6 : side < 6 := by have := h.three; omega
    unfold postsAt bufferPostsAt
    have e1 : (side + v * 6) % 6 = side := by omega
    rw [List.map_append]
    congr 1
    · by_cases e : nb side > -1
      · rw [if_pos e, if_pos ((hh side).2 e)]
        simp only [List.map_cons, List.map_nil, described, if_true, e1, h.length_send hs]
        rw [add_comm]
      · rw [if_neg e, if_neg fun h => e ((hh side).1 h)]; rfl
    · by_cases e : nb (oppositeSide side) > -1
      · rw [if_pos e, if_pos ((hh _).2 e)]
        simp only [List.map_cons, List.map_nil, described, Bool.false_eq_true, if_false, e1, h.length_recv (oppositeSide_lt hs)]
        rw [add_comm]
      · rw [if_neg e, if_neg fun h => e ((hh _).1 h)]; rfl
  have key : ∀ (l1 l2 : List Nat) (f : Nat → Nat → List BufferPost),
      (l1.flatMap fun a => l2.flatMap fun b => f a b).Perm (l2.flatMap fun b => l1.flatMap fun a => f a b) := by
    intro l1 l2 f
    induction l1 with
    | nil => simp
    | cons a l1 ih =>
      simp only [List.flatMap_cons]
      refine (List.Perm.append_left _ ih).trans ?_
      clear ih
      induction l2 with
      | nil => simp
      | cons b l2 ih =>
        simp only [List.flatMap_cons, List.append_assoc]
        refine List.Perm.append_left _ ?_
        refine List.Perm.trans ?_ (List.Perm.append_left _ ih)
        rw [← List.append_assoc, ← List.append_assoc]
        exact List.Perm.append_right _ List.perm_append_comm
  refine (key _ _ _).trans ?_
  rw [posts, List.map_flatMap]
  refine List.Perm.of_eq ?_
  refine List.flatMap_congr fun side hs => ?_
  rw [List.map_flatMap]
  refine List.flatMap_congr fun v _ => ?_
  rw [hat side (List.mem_range.1 hs)]

/-- A two-dimensional volume with neighbours on three sides: six messages per variable. -/
example : (bufferPosts 2 1 (totalOf ⟨3, 2, 1⟩ 1) (ghostsOf ⟨3, 2, 1⟩ 1) fun side => if side = 2 then -1 else 4).map (fun p => (p.isSend, p.tag, p.count)) =
    [(true, 0, 4), (false, 0, 4), (true, 1, 4), (false, 1, 4), (false, 2, 5), (true, 3, 5)] := by decide

/-- C74, packing: no thread leaves the memory, the volume is not changed, and whatever the interleaving of the kernels, the message for a side consists of the values
of the cells the message type of the processor stands for, in the same order. -/
theorem C74_packs (m : I3) (hm : 1 ≤ m.x ∧ 1 ≤ m.y ∧ 1 ≤ m.z) (hreg : m.y = 1 → m.z = 1) (g nvars : Nat) (nb : Nat → Int)
    (n G : I3) (hn : n = totalOf m g) (hG : G = ghostsOf m g) (dims : Nat) (hd : dims = dimensionsOf m) (card : Arr Place α) (hc : Holds nvars n G nb card) :
    safe (pack dims nvars n G nb) card ∧ (∃ card', mayYield (pack dims nvars n G nb) card card') ∧
    ∀ card', mayYield (pack dims nvars n G nb) card card' → (∀ v i, card'.val (.vol v i) = card.val (.vol v i)) ∧
      ∀ side < 2 * dims, nb side ≠ -1 → ∀ v < nvars, message n G card' v side = (sendMap dims n G side).map fun i => card.val (.vol v i) := by
  subst hn hG hd
  have h := shape hm hreg g
  obtain ⟨h1, h2, h3⟩ := pack_ok h hc
  refine ⟨h1, h2, fun card' hy => ?_⟩
  obtain ⟨-, g2, g3⟩ := h3 card' hy
  refine ⟨g2, fun side hs hnb v hv => ?_⟩
  rw [h.message_eq, h.sendMap_eq hs, List.map_map]
  refine List.map_congr_left fun c hc => ?_
  rw [g3 side hs (hasSide_iff.2 hnb) v hv c hc]; rfl

/-- C74, unpacking: no thread leaves the memory; whatever the interleaving, a position of the volume that belongs to no message keeps its value, any other one gets, from a message it belongs
to, the element the message type of the processor would put there. -/
theorem C74_unpacks (m : I3) (hm : 1 ≤ m.x ∧ 1 ≤ m.y ∧ 1 ≤ m.z) (hreg : m.y = 1 → m.z = 1) (g nvars : Nat) (nb : Nat → Int)
    (n G : I3) (hn : n = totalOf m g) (hG : G = ghostsOf m g) (dims : Nat) (hd : dims = dimensionsOf m) (card : Arr Place α) (hc : Holds nvars n G nb card)
    (received : Nat → Nat → List α) (hr : ∀ v < nvars, ∀ side < 2 * dims, nb side ≠ -1 → (received v side).length = (recvMap dims n G side).length) :
    safe (unpack dims nvars n G nb) (load card received) ∧ (∃ card', mayYield (unpack dims nvars n G nb) (load card received) card') ∧
    ∀ card', mayYield (unpack dims nvars n G nb) (load card received) card' → ∀ v < nvars, ∀ i : Int,
      (card'.val (.vol v i) = card.val (.vol v i) ∧ ∀ side < 2 * dims, nb side ≠ -1 → i ∉ recvMap dims n G side) ∨
      ∃ side < 2 * dims, nb side ≠ -1 ∧ ∃ k : Nat, (recvMap dims n G side)[k]? = some i ∧ (received v side)[k]? = some (card'.val (.vol v i)) := by
  subst hn hG hd
  have h := shape hm hreg g
  obtain ⟨h1, h2, h3, -⟩ := unpack_ok h (load_holds hc received)
  refine ⟨h1, h2, fun card' hy v hv i => ?_⟩
  rcases (h3 card' hy).2 v hv i with ⟨e, hno⟩ | ⟨side, hs, hh, c, hcb, hi, e⟩
  · refine Or.inl ⟨e, fun side hs hnb hmem => ?_⟩
    rw [h.recvMap_eq hs] at hmem
    obtain ⟨c, hcb, hi⟩ := List.mem_map.1 hmem
    exact hno side hs (hasSide_iff.2 hnb) c hcb hi
  · have hk := getElem_box (h.bufferSize_nonneg side) hcb
    have hfl := flatI_lt (mem_buffer.1 hcb)
    rw [← h.bufferCount_eq] at hfl
    refine Or.inr ⟨side, hs, hasSide_iff.1 hh, (flatI (bufferSize (totalOf m g) (ghostsOf m g) side) c).toNat, ?_, ?_⟩
    · rw [h.recvMap_eq hs, List.getElem?_map, hk, ← hi]; rfl
    · have hlen := hr v hv side hs (hasSide_iff.1 hh)
      rw [h.length_recv hs] at hlen
      rw [e]
      show _ = some (if 0 ≤ flatI _ c then ((received v side)[(flatI _ c).toNat]?).getD _ else _)
      rw [if_pos hfl.1, List.getElem?_eq_getElem (by omega)]; rfl

/-- Memory of a card with the sizes of the example above. -/
def exCard (nvars : Nat) (n G : I3) (nb : Nat → Int) (val : Place → α) : Arr Place α :=
  ⟨fun
    | .vol v i => decide (v < nvars ∧ 0 ≤ i ∧ i < n.x * n.y * n.z)
    | .buf v side i => decide (v < nvars ∧ side < 6 ∧ hasSide nb side = true ∧ 0 ≤ i ∧ i < (bufferCount n G side : Int)), val⟩

theorem exCard_holds (nvars : Nat) (n G : I3) (nb : Nat → Int) (val : Place → α) : Holds nvars n G nb (exCard nvars n G nb val) :=
  ⟨fun _ _ => rfl, fun _ _ _ => rfl⟩

example : Holds 1 (totalOf ⟨3, 2, 1⟩ 1) (ghostsOf ⟨3, 2, 1⟩ 1) (fun side => if side = 2 then -1 else 4)
    (exCard 1 (totalOf ⟨3, 2, 1⟩ 1) (ghostsOf ⟨3, 2, 1⟩ 1) (fun side => if side = 2 then -1 else 4) fun _ => (0 : Rat)) ∧
    (∀ v < 1, ∀ side < 2 * 2, (if side = 2 then (-1 : Int) else 4) ≠ -1 →
      (List.replicate (if side < 2 then 4 else 5) (1 : Rat)).length = (recvMap 2 (totalOf ⟨3, 2, 1⟩ 1) (ghostsOf ⟨3, 2, 1⟩ 1) side).length) :=
  ⟨exCard_holds _ _ _ _ _, by decide⟩

theorem symmetric_of {K : Type} [Field K] {p : I3} {grid : Grid K} {user : Nat → Side} {part : Int → Part K} (h : Decomposed p grid user part) :
    Symmetric (dimensionsOf (localSize grid.dims p)) (fun r => (part r).neighbour) (p.x * p.y * p.z) := by
  intro a ha0 ha1 side hs hnb
  have hle := h.dimensions_le
  have hr : IsRank p a := ⟨ha0, ha1⟩
  have hpos : (part a).neighbour side > -1 := by
    have f5 := (h.facts hr).2.2.2.2 side (by omega)
    have h3 := (dimensionsOf_bounds (localSize grid.dims p)).2
    by_cases hph : physical p user (position p a) side
    · exact absurd (f5.1 hph).2 hnb
    · have := rank_bounds (across_inside (h.facts hr).2.2.2.1 (side := side) (by omega))
      rw [← (f5.2 hph).2] at this
      exact lt_of_lt_of_le (by norm_num) this.1
  obtain ⟨⟨h1, h2⟩, h3⟩ := h.symmetric hr (show side < 2 * activeDimension grid.dims by omega) hpos
  exact ⟨h1, h2, h3⟩

/-- C74, one exchange between the parts of a decomposed grid: it does not get stuck, and whatever the interleavings on the cards, the memories end up as they may end up after the exchange on
the processors (some order of reading and writing the elements of the messages). Missing for the full statement: exchanges that follow each other, for which it is false (see below),
and subdomains with one layer in y and several in z. -/
theorem C74_exchange_partial {K : Type} [Field K] (p : I3) (grid : Grid K) (user : Nat → Side) (part : Int → Part K) (h : Decomposed p grid user part)
    (m : I3) (hm : m = localSize grid.dims p) (hreg : m.y = 1 → m.z = 1) (nvars g : Nat) (cards : Int → Arr Place α)
    (hc : ∀ r, IsRank p r → Holds nvars (totalOf m g) (ghostsOf m g) (part r).neighbour (cards r)) (tr : Nat → α) :
    (∃ cards', Exchange (dimensionsOf m) nvars (totalOf m g) (ghostsOf m g) (fun r => (part r).neighbour) (p.x * p.y * p.z) cards cards') ∧
    ∀ cards', Exchange (dimensionsOf m) nvars (totalOf m g) (ghostsOf m g) (fun r => (part r).neighbour) (p.x * p.y * p.z) cards cards' →
      ∃ evs, Complete (allTransfers p part nvars g) evs ∧ ∀ r, IsRank p r → ∀ v < nvars, ∀ i : Int,
        (cards' r).val (.vol v i) = after (allTransfers p part nvars g) (fun l => (cards l.1).val (.vol l.2.1 l.2.2)) tr evs (r, v, i) := by
  classical
  subst hm
  have hm1 : 1 ≤ (localSize grid.dims p).x ∧ 1 ≤ (localSize grid.dims p).y ∧ 1 ≤ (localSize grid.dims p).z :=
    ⟨(h.sizes (d := 0) (by omega)).2.1, (h.sizes (d := 1) (by omega)).2.1, (h.sizes (d := 2) (by omega)).2.1⟩
  have hmt := @Decomposed.mem_transfers _ _ _ _ _ _ h hreg nvars g
  have hsym := symmetric_of h
  have hgh : ∀ side < 2 * dimensionsOf (localSize grid.dims p), (ghostsOf (localSize grid.dims p) g).get (side / 2) = g := fun side hs => by
    have hd3 := (dimensionsOf_bounds (localSize grid.dims p)).2
    rw [(volume_sizes hm1 hreg g (d := side / 2) (by omega)).1, if_pos (by omega)]
  generalize hmm : localSize grid.dims p = m at *
  have hs := shape hm1 hreg g
  refine ⟨exchange_exists hs hsym fun b h0 h1 => hc b ⟨h0, h1⟩, fun cards' hex => ?_⟩
  have key := fun {b : Int} (hb : IsRank p b) {v : Nat} (hv : v < nvars) (i : Int) =>
    exchange_cells hs hsym (fun b h0 h1 => hc b ⟨h0, h1⟩) hex hb.1 hb.2 hv i
  obtain ⟨evs, he1, he2⟩ := after_any (allTransfers p part nvars g) (fun l => (cards l.1).val (.vol l.2.1 l.2.2))
    (fun l => if IsRank p l.1 ∧ l.2.1 < nvars then (cards' l.1).val (.vol l.2.1 l.2.2) else (cards l.1).val (.vol l.2.1 l.2.2)) tr (by
      rintro ⟨b, v, i⟩
      by_cases hb : IsRank p b ∧ v < nvars
      · simp only [hb, and_self, if_true]
        rcases key hb.1 hb.2 i with ⟨e, hno⟩ | ⟨side, hside, hh, c, hcs, hi, e⟩
        · refine Or.inl ⟨e, fun t ht heq => ?_⟩
          obtain ⟨b', hb', side, hside, v', hv', hnb, c, hcs, rfl⟩ := hmt.1 ht
          simp only [Prod.mk.injEq] at heq
          obtain ⟨rfl, rfl, heq⟩ := heq
          refine hno side hside (hasSide_iff.2 (by omega)) c ?_ heq
          rw [hgh side hside]; exact hcs
        · rw [hgh side hside] at hcs e
          refine Or.inr ⟨(((part b).neighbour side, v, flatI (totalOf m g) (c + shift (totalOf m g) g side)), (b, v, flatI (totalOf m g) c)), ?_, ?_, e⟩
          · refine hmt.2 ⟨b, hb.1, side, hside, v, hb.2, ?_, c, hcs, rfl⟩
            have := (hsym b hb.1.1 hb.1.2 side hside (hasSide_iff.1 hh)).1
            simp only at this
            omega
          · simp only [hi]
      · simp only [hb, if_false]
        refine Or.inl ⟨trivial, fun t ht heq => hb ?_⟩
        obtain ⟨b', hb', side, hside, v', hv', hnb, c, hcs, rfl⟩ := hmt.1 ht
        simp only [Prod.mk.injEq] at heq
        obtain ⟨rfl, rfl, -⟩ := heq
        exact ⟨hb', hv'⟩)
  refine ⟨evs, he1, fun r hr v hv i => ?_⟩
  rw [he2]
  simp only [hr, hv, and_self, if_true]

/-- C74, values of the ghost cells (compare C48): if before the exchange every card has in its interior cells the values `U` of the whole grid, then after one exchange, whatever the
interleavings, interior cells are unchanged, and every ghost cell of a side with a neighbour that is no corner cell holds the value of the cell of the whole grid it stands for. -/
theorem C74_ghost_cells_partial {K : Type} [Field K] (p : I3) (grid : Grid K) (user : Nat → Side) (part : Int → Part K) (h : Decomposed p grid user part)
    (m : I3) (hm : m = localSize grid.dims p) (hreg : m.y = 1 → m.z = 1) (nvars g : Nat) (hg : ∀ d < dimensionsOf m, (g : Int) ≤ m.get d)
    (cards cards' : Int → Arr Place α) (hc : ∀ r, IsRank p r → Holds nvars (totalOf m g) (ghostsOf m g) (part r).neighbour (cards r))
    (hex : Exchange (dimensionsOf m) nvars (totalOf m g) (ghostsOf m g) (fun r => (part r).neighbour) (p.x * p.y * p.z) cards cards')
    (U : Nat → I3 → α)
    (hU : ∀ r, IsRank p r → ∀ v < nvars, ∀ c, Inner m g c → (cards r).val (.vol v (place (totalOf m g) c)) = U v (c - ghostsOf m g + (part r).grid.globalPosition))
    (r : Int) (hr : IsRank p r) (v : Nat) (hv : v < nvars) :
    (∀ c, Inner m g c → (cards' r).val (.vol v (place (totalOf m g) c)) = (cards r).val (.vol v (place (totalOf m g) c))) ∧
    ∀ side < 2 * dimensionsOf m, (part r).neighbour side ≠ -1 → ∀ c, FaceGhost m g side c → ∀ q, q = c - ghostsOf m g + (part r).grid.globalPosition →
      (cards' r).val (.vol v (place (totalOf m g) c)) = U v (q.set (side / 2) (q.get (side / 2) % grid.dims.get (side / 2))) := by
  obtain ⟨evs, he, hval⟩ := (C74_exchange_partial p grid user part h m hm hreg nvars g cards hc fun _ => (cards 0).val (.vol 0 0)).2 cards' hex
  have := C48_ghost_cells_partial p grid user part h m hm hreg nvars g hg evs he U (fun l => (cards l.1).val (.vol l.2.1 l.2.2))
    (fun _ => (cards 0).val (.vol 0 0)) hU r hr v hv
  refine ⟨fun c hcI => ?_, fun side hs hnb c hcf q hq => ?_⟩
  · rw [hval r hr v hv]; exact this.1 c hcI
  · rw [hval r hr v hv]; exact this.2 side hs hnb c hcf q hq

/-- The grid of 6 by 4 cells on 2 by 2 processes, two ghost cells: an exchange takes place. -/
example : ∃ part, Decomposed ⟨2, 2, 1⟩ exGrid (fun _ => .periodic) part ∧ (⟨3, 2, 1⟩ : I3) = localSize exGrid.dims ⟨2, 2, 1⟩ ∧
    (∀ d < dimensionsOf ⟨3, 2, 1⟩, ((2 : Nat) : Int) ≤ I3.get ⟨3, 2, 1⟩ d) ∧
    ∃ cards cards' : Int → Arr Place Rat, (∀ r, IsRank ⟨2, 2, 1⟩ r → Holds 1 (totalOf ⟨3, 2, 1⟩ 2) (ghostsOf ⟨3, 2, 1⟩ 2) (part r).neighbour (cards r)) ∧
      Exchange (dimensionsOf ⟨3, 2, 1⟩) 1 (totalOf ⟨3, 2, 1⟩ 2) (ghostsOf ⟨3, 2, 1⟩ 2) (fun r => (part r).neighbour) 4 cards cards' := by
  obtain ⟨part, h⟩ := exDecomposed
  have hc : ∀ r, IsRank ⟨2, 2, 1⟩ r → Holds 1 (totalOf ⟨3, 2, 1⟩ 2) (ghostsOf ⟨3, 2, 1⟩ 2) (part r).neighbour
      (exCard 1 (totalOf ⟨3, 2, 1⟩ 2) (ghostsOf ⟨3, 2, 1⟩ 2) (part r).neighbour fun _ => (0 : Rat)) := fun r _ => exCard_holds _ _ _ _ _
  obtain ⟨cards', hex⟩ := (C74_exchange_partial ⟨2, 2, 1⟩ exGrid _ part h ⟨3, 2, 1⟩ (by decide) (by decide) 1 2
    (fun r => exCard 1 (totalOf ⟨3, 2, 1⟩ 2) (ghostsOf ⟨3, 2, 1⟩ 2) (part r).neighbour fun _ => (0 : Rat)) hc fun _ => 0).1
  exact ⟨part, h, by decide, by decide, _, cards', hc, hex⟩

/-- What a corner ghost cell gets depends on the interleaving: the kernels of two sides write it. -/
theorem C74_corner_cells_race :
    ∃ card card1 card2 : Arr Place Int, Holds 1 (totalOf ⟨3, 2, 1⟩ 1) (ghostsOf ⟨3, 2, 1⟩ 1) (fun _ => 0) card ∧
      mayYield (unpack 2 1 (totalOf ⟨3, 2, 1⟩ 1) (ghostsOf ⟨3, 2, 1⟩ 1) fun _ => 0) card card1 ∧
      mayYield (unpack 2 1 (totalOf ⟨3, 2, 1⟩ 1) (ghostsOf ⟨3, 2, 1⟩ 1) fun _ => 0) card card2 ∧
      card1.val (.vol 0 0) = 0 ∧ card2.val (.vol 0 0) = 2 := by
  have hH := exCard_holds 1 (totalOf ⟨3, 2, 1⟩ 1) (ghostsOf ⟨3, 2, 1⟩ 1) (fun _ => 0) fun p => match p with
    | .vol _ _ => (7 : Int)
    | .buf _ side _ => side
  obtain ⟨-, -, -, h4⟩ := unpack_ok (shape (m := ⟨3, 2, 1⟩) (by decide) (by decide) 1) hH
  obtain ⟨c1, y1, v1⟩ := h4 0 (by decide) (by decide) 0 (by decide) ⟨0, 0, 0⟩ (by decide)
  obtain ⟨c2, y2, v2⟩ := h4 2 (by decide) (by decide) 0 (by decide) ⟨0, 0, 0⟩ (by decide)
  exact ⟨_, c1, c2, hH, y1, y2, v1, v2⟩

/-- C74 is false for exchanges that follow each other: the exchanger does not wait until its messages have been sent before it overwrites the buffers they are sent from. Here the first
message rank 1 receives contains the data of the second exchange of rank 0. -/
theorem C74_fails_for_consecutive_exchanges :
    ∃ l s, acts false l = some s ∧ (s true).got = [1] := by
  refine ⟨[.fill false, .post false, .fill true, .post true, .transmit true, .complete false, .fill false, .transmit false], _, rfl, rfl⟩

/-- With a wait for the own messages at the end of every exchange, as on the processor, message `k` always contains the data of exchange `k`. -/
theorem C74_waiting_is_enough (l : List Action) (s : Pair) (h : acts true l = some s) (r : Bool) : ∃ k, (s r).got = List.range k := by
  have hg := acts_good l (fun _ => {}) s (fun r => ⟨by simp, by simp, by simp, by simp⟩) h (!r)
  have := hg.got
  rw [Bool.not_not] at this
  exact ⟨_, this⟩

/-- Two exchanges of both ranks. -/
example : ∃ s, acts true [.fill false, .post false, .fill true, .post true, .transmit true, .transmit false, .complete false, .complete true,
    .fill false, .post false, .fill true, .post true, .transmit true, .transmit false, .complete false, .complete true] = some s ∧ (s true).got = [0, 1] :=
  ⟨_, rfl, rfl⟩

example := C74_packs ⟨3, 2, 1⟩ (by decide) (by decide) 1 1 (fun side => if side = 2 then -1 else 4) _ _ rfl rfl _ rfl
  (exCard 1 (totalOf ⟨3, 2, 1⟩ 1) (ghostsOf ⟨3, 2, 1⟩ 1) (fun side => if side = 2 then -1 else 4) fun _ => (0 : Rat)) (exCard_holds _ _ _ _ _)

end Verif.Props.CudaHalo
