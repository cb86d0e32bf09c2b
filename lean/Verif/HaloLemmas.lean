import Verif.Halo
import Mathlib.Data.List.Induction

/-! Lemmas on the halo exchange: order of events, posted messages, element copies. -/

namespace Verif.Halo

open Iterate

variable {α : Type}

theorem run_inv (T : List (Loc × Loc)) (mem : Loc → α) (tr : Nat → α) (evs : List Event)
    (hc : ∀ pre k post, evs = pre ++ .write k :: post → .read k ∈ pre) :
    (∀ l, (∀ t ∈ T, t.2 ≠ l) → (evs.foldl (perform T) ⟨mem, tr⟩).mem l = mem l) ∧
    (∀ k t, T[k]? = some t → .read k ∈ evs → (∀ t' ∈ T, t'.2 ≠ t.1) → (evs.foldl (perform T) ⟨mem, tr⟩).transit k = mem t.1) ∧
    (∀ l src, (∀ t ∈ T, t.2 = l → t.1 = src) → (∀ t ∈ T, t.2 ≠ src) → (∃ k t, T[k]? = some t ∧ t.2 = l ∧ .write k ∈ evs) →
      (evs.foldl (perform T) ⟨mem, tr⟩).mem l = mem src) := by
  induction evs using List.reverseRecOn with
  | nil => simp
  | append_singleton evs e ih =>
    obtain ⟨ia, ib, ic⟩ := ih fun pre k post h => hc pre k (post ++ [e]) (by rw [h]; simp)
    simp only [List.foldl_append, List.foldl_cons, List.foldl_nil]
    set s := evs.foldl (perform T) ⟨mem, tr⟩ with hs
    refine ⟨fun l hl => ?_, fun k t hk hr ht => ?_, fun l src hl hsrc hw => ?_⟩
    · cases e with
      | read j => simp only [perform]; split <;> exact ia l hl
      | write j =>
        simp only [perform]
        split
        · next t hj =>
          have := hl t (List.mem_of_getElem? hj)
          simp only [Function.update_of_ne (Ne.symm this)]
          exact ia l hl
        · exact ia l hl
    · cases e with
      | read j =>
        by_cases hjk : j = k
        · subst hjk
          simp only [perform, hk, Function.update_self]
          exact ia _ ht
        · have : .read k ∈ evs := by
            simp only [List.mem_append, List.mem_singleton, Event.read.injEq] at hr
            rcases hr with h | h
            · exact h
            · exact absurd h.symm hjk
          simp only [perform]
          split
          · simp only [Function.update_of_ne (Ne.symm hjk)]; exact ib k t hk this ht
          · exact ib k t hk this ht
      | write j =>
        have : .read k ∈ evs := by simpa using hr
        simp only [perform]
        split <;> exact ib k t hk this ht
    · cases e with
      | read j =>
        have : ∃ k t, T[k]? = some t ∧ t.2 = l ∧ .write k ∈ evs := by
          obtain ⟨k, t, h1, h2, h3⟩ := hw
          exact ⟨k, t, h1, h2, by simpa using h3⟩
        simp only [perform]
        split <;> exact ic l src hl hsrc this
      | write j =>
        rcases hj : T[j]? with _ | t
        · simp only [perform, hj]
          apply ic l src hl hsrc
          obtain ⟨k, t, h1, h2, h3⟩ := hw
          simp only [List.mem_append, List.mem_singleton, Event.write.injEq] at h3
          rcases h3 with h3 | h3
          · exact ⟨k, t, h1, h2, h3⟩
          · subst h3; rw [hj] at h1; cases h1
        · simp only [perform, hj]
          by_cases htl : t.2 = l
          · rw [htl, Function.update_self]
            have e1 := hl t (List.mem_of_getElem? hj) htl
            have hr : .read j ∈ evs := hc evs j [] rfl
            rw [ib j t hj hr (by rw [e1]; exact hsrc), e1]
          · rw [Function.update_of_ne (Ne.symm htl)]
            apply ic l src hl hsrc
            obtain ⟨k, t', h1, h2, h3⟩ := hw
            simp only [List.mem_append, List.mem_singleton, Event.write.injEq] at h3
            rcases h3 with h3 | h3
            · exact ⟨k, t', h1, h2, h3⟩
            · subst h3; rw [hj] at h1; cases h1; exact absurd h2 htl

/-- A place nobody writes keeps its value. -/
theorem after_unwritten {T : List (Loc × Loc)} {mem : Loc → α} {tr : Nat → α} {evs : List Event} (hc : Complete T evs) {l : Loc}
    (hl : ∀ t ∈ T, t.2 ≠ l) : after T mem tr evs l = mem l := (run_inv T mem tr evs hc.1).1 l hl

/-- A place that is only written from one source, which nobody writes, ends up with the value of the source. -/
theorem after_written {T : List (Loc × Loc)} {mem : Loc → α} {tr : Nat → α} {evs : List Event} (hc : Complete T evs) {l src : Loc}
    (hl : ∀ t ∈ T, t.2 = l → t.1 = src) (hsrc : ∀ t ∈ T, t.2 ≠ src) (hw : (src, l) ∈ T) : after T mem tr evs l = mem src := by
  refine (run_inv T mem tr evs hc.1).2.2 l src hl hsrc ?_
  obtain ⟨k, hk, h⟩ := List.getElem_of_mem hw
  exact ⟨k, (src, l), by rw [List.getElem?_eq_getElem hk, h], rfl, hc.2 k hk⟩

/-- Reading all elements and then writing all of them is a possible order. -/
theorem complete_reads_writes (T : List (Loc × Loc)) : Complete T ((List.range T.length).map Event.read ++ (List.range T.length).map Event.write) := by
  constructor
  · intro pre k post he
    have hk : Event.write k ∈ (List.range T.length).map Event.read ++ (List.range T.length).map Event.write := by rw [he]; simp
    have hk' : k < T.length := by simpa using hk
    rw [List.append_eq_append_iff] at he
    rcases he with ⟨a', rfl, -⟩ | ⟨c', h1, h2⟩
    · simp [hk']
    · rcases c' with _ | ⟨x, c'⟩
      · simp only [List.append_nil] at h1
        rw [← h1]; simp [hk']
      · simp only [List.cons_append, List.cons.injEq] at h2
        exfalso
        have : x ∈ (List.range T.length).map Event.read := by rw [h1]; simp
        rw [← h2.1] at this
        simp at this
  · intro k hk
    simp [hk]

/-- Transferring the elements one after the other, in any order, is a possible order. -/
theorem complete_one_by_one (T : List (Loc × Loc)) (l : List Nat) (hl : ∀ k < T.length, k ∈ l) :
    Complete T (l.flatMap fun k => [Event.read k, Event.write k]) := by
  constructor
  · clear hl
    induction l with
    | nil => intro pre k post he; simp at he
    | cons a l ih =>
      intro pre k post he
      rcases pre with _ | ⟨x, _ | ⟨y, pre⟩⟩
      · simp at he
      · simp at he; simp [← he.1, he.2.1]
      · simp only [List.flatMap_cons, List.cons_append, List.nil_append, List.cons.injEq] at he
        have := ih pre k post he.2.2
        simp [this]
  · intro k hk
    simp only [List.mem_flatMap]
    exact ⟨k, hl k hk, by simp⟩

/-! ### Posted messages -/

theorem oppositeSide_div (s : Nat) : oppositeSide s / 2 = s / 2 := by unfold oppositeSide; omega
theorem oppositeSide_opp (s : Nat) : oppositeSide (oppositeSide s) = s := by unfold oppositeSide; omega
theorem oppositeSide_lt {s k : Nat} (h : s < 2 * k) : oppositeSide s < 2 * k := by unfold oppositeSide; omega

theorem mem_send {dims nvars : Nat} {n G : I3} {nb : Nat → Int} {s : Post} :
    (s ∈ posts dims nvars n G nb ∧ s.isSend = true) ↔
      ∃ side < 2 * dims, ∃ var < nvars, nb side > -1 ∧ s = ⟨true, nb side, side + var * 6, var, sendMap dims n G side⟩ := by
  simp only [posts, postsAt, List.mem_flatMap, List.mem_range, List.mem_append]
  constructor
  · rintro ⟨⟨side, h1, var, h2, h3 | h3⟩, h4⟩
    · split_ifs at h3 with h
      · exact ⟨side, h1, var, h2, h, by simpa using h3⟩
      · simp at h3
    · split_ifs at h3 with h
      · simp at h3; rw [h3] at h4; simp at h4
      · simp at h3
  · rintro ⟨side, h1, var, h2, h3, rfl⟩
    exact ⟨⟨side, h1, var, h2, Or.inl (by simp [h3])⟩, rfl⟩

theorem mem_recv {dims nvars : Nat} {n G : I3} {nb : Nat → Int} {r : Post} :
    (r ∈ posts dims nvars n G nb ∧ r.isSend = false) ↔
      ∃ side < 2 * dims, ∃ var < nvars, nb side > -1 ∧ r = ⟨false, nb side, oppositeSide side + var * 6, var, recvMap dims n G side⟩ := by
  simp only [posts, postsAt, List.mem_flatMap, List.mem_range, List.mem_append]
  constructor
  · rintro ⟨⟨side, h1, var, h2, h3 | h3⟩, h4⟩
    · split_ifs at h3 with h
      · simp at h3; rw [h3] at h4; simp at h4
      · simp at h3
    · split_ifs at h3 with h
      · exact ⟨oppositeSide side, oppositeSide_lt h1, var, h2, h, by rw [oppositeSide_opp]; simpa using h3⟩
      · simp at h3
  · rintro ⟨side, h1, var, h2, h3, rfl⟩
    exact ⟨⟨oppositeSide side, oppositeSide_lt h1, var, h2, Or.inr (by rw [oppositeSide_opp]; simp [h3])⟩, rfl⟩

/-- Direction and tag determine a message. -/
theorem nodup_tags {dims nvars : Nat} {n G : I3} {nb : Nat → Int} (hd : dims ≤ 3) :
    ((posts dims nvars n G nb).map fun p => (p.isSend, p.tag)).Nodup := by
  have hmem : ∀ side var x, x ∈ (postsAt dims n G nb side var).map (fun p => (p.isSend, p.tag)) → x.2 = side + var * 6 := by
    intro side var x hx
    simp only [postsAt, List.mem_map, List.mem_append] at hx
    obtain ⟨p, h | h, rfl⟩ := hx <;> (split_ifs at h <;> simp at h; rw [h])
  simp only [posts, List.map_flatMap]
  rw [List.nodup_flatMap]
  constructor
  · intro side hs
    rw [List.nodup_flatMap]
    constructor
    · intro var _
      unfold postsAt
      split_ifs <;> simp
    · refine List.nodup_range.imp ?_
      intro v v' hv
      simp only [Function.onFun, List.disjoint_left]
      intro x h h'
      have := hmem _ _ _ h; have := hmem _ _ _ h'; omega
  · refine List.Pairwise.imp_of_mem ?_ List.nodup_range
    intro s s' hs hs' hne
    simp only [List.mem_range] at hs hs'
    simp only [Function.onFun, List.disjoint_left, List.mem_flatMap]
    rintro x ⟨v, _, h⟩ ⟨v', _, h'⟩
    have := hmem _ _ _ h; have := hmem _ _ _ h'; omega

theorem filter_le_one {posted : List Post} (h : (posted.map fun p => (p.isSend, p.tag)).Nodup) (b : Bool) (t : Nat) (q : Post → Bool)
    (hq : ∀ p, q p = true → p.isSend = b ∧ p.tag = t) : (posted.filter q).length ≤ 1 := by
  have hp : (posted.filter q).Pairwise fun p p' => (p.isSend, p.tag) ≠ (p'.isSend, p'.tag) :=
    (List.pairwise_map.1 h).sublist (List.filter_sublist)
  have hall : ∀ p ∈ posted.filter q, p.isSend = b ∧ p.tag = t := fun p hp => hq p (List.mem_filter.1 hp).2
  rcases hl : posted.filter q with _ | ⟨p, _ | ⟨p', l⟩⟩
  · simp
  · simp
  · exfalso
    rw [hl] at hp hall
    have := (List.pairwise_cons.1 hp).1 p' (by simp)
    apply this
    have h1 := hall p (by simp); have h2 := hall p' (by simp)
    rw [h1.1, h1.2, h2.1, h2.2]

theorem length_irange (a b : Int) : (irange a b).length = (b - a).toNat := by simp [irange]

theorem length_typemap {lens disps : List Int} (h : lens.length = disps.length) : (typemap lens disps).length = (lens.map Int.toNat).sum := by
  unfold typemap
  rw [List.length_flatMap]
  congr 1
  have : lens.map Int.toNat = (lens.zip disps).map (fun ld => ld.1.toNat) := by
    conv_lhs => rw [← List.map_fst_zip (l₁ := lens) (l₂ := disps) (by omega)]
    rw [List.map_map]; rfl
  rw [this]
  apply List.map_congr_left
  intro ld _
  rw [length_irange]; congr 1; ring

theorem length_displacements (side dims : Nat) (n : I3) (g base : Int) :
    (displacements side dims n g base).length = (numberOfSegments side dims n).toNat := by
  have : ∀ (f : List Int → Nat → Int) m, ((List.range m).foldl (fun ds i => ds ++ [f ds i]) []).length = m := by
    intro f m
    induction m with
    | zero => rfl
    | succ m ih => rw [List.range_succ, List.foldl_append]; simp [ih]
  exact this (fun ds i => displacementAt side dims n g (if side % 2 = 1 then base * -1 else base) i (ds.getLastD 0)) _

theorem lengths_opposite (side dims : Nat) (n : I3) (g : Int) : lengths (oppositeSide side) dims n g = lengths side dims n g := by
  have h2 : oppositeSide side < 2 ↔ side < 2 := by unfold oppositeSide; omega
  have h4 : oppositeSide side < 4 ↔ side < 4 := by unfold oppositeSide; omega
  simp only [lengths, numberOfSegments, h2, h4]

theorem length_maps (dims : Nat) (n G : I3) (side : Nat) : (sendMap dims n G (oppositeSide side)).length = (recvMap dims n G side).length := by
  unfold sendMap recvMap
  rw [length_typemap (by rw [length_displacements]; simp [lengths]), length_typemap (by rw [length_displacements]; simp [lengths]), oppositeSide_div,
    lengths_opposite]

/-! ### Element copies -/

/-- Vector from a receiving ghost cell on a side to the cell of the sender. -/
def shift (n : I3) (g : Int) (side : Nat) : I3 :=
  I3.set 0 (side / 2) (if side % 2 = 0 then n.get (side / 2) - 2 * g else -(n.get (side / 2) - 2 * g))

theorem send_slab_shift (n : I3) (g : Int) (side : Nat) :
    box (slabLo n g g (oppositeSide side)) (slabHi n g g (oppositeSide side)) = (box (slabLo n g 0 side) (slabHi n g 0 side)).map (· + shift n g side) := by
  rw [← box_shift]
  have h := oppositeSide_div side
  rcases Nat.mod_two_eq_zero_or_one side with e | e
  · have hm : oppositeSide side % 2 = 1 := by unfold oppositeSide; omega
    congr 1
    · simp only [slabLo, shift, h, hm, e, I3.set, I3.get]
      split_ifs <;> ext <;> simp_all <;> omega
    · simp only [slabHi, shift, h, hm, e, I3.set, I3.get]
      split_ifs <;> ext <;> simp_all <;> omega
  · have hm : oppositeSide side % 2 = 0 := by unfold oppositeSide; omega
    congr 1
    · simp only [slabLo, shift, h, hm, e, I3.set, I3.get]
      split_ifs <;> ext <;> simp_all <;> omega
    · simp only [slabHi, shift, h, hm, e, I3.set, I3.get]
      split_ifs <;> ext <;> simp_all <;> omega

/-- The element copies, for a symmetric neighbour relation. -/
theorem mem_transfers {dims nvars : Nat} {n G : I3} {nb : Int → Nat → Int} {size : Int} (hd : 1 ≤ dims) (hd3 : dims ≤ 3)
    (hn : 0 ≤ n.x ∧ 0 ≤ n.y ∧ 0 ≤ n.z) (hflat : ∀ d, dims ≤ d → d < 3 → n.get d = 1) (hG : ∀ d, 0 ≤ G.get d)
    (hsym : ∀ a, 0 ≤ a → a < size → ∀ side < 2 * dims, nb a side > -1 → nb a side < size ∧ nb (nb a side) (oppositeSide side) = a) {t : Loc × Loc} :
    t ∈ transfers (fun r => posts dims nvars n G (nb r)) size ↔
      ∃ b, 0 ≤ b ∧ b < size ∧ ∃ side < 2 * dims, ∃ var < nvars, nb b side > -1 ∧
        ∃ c ∈ box (slabLo n (G.get (side / 2)) 0 side) (slabHi n (G.get (side / 2)) 0 side),
          t = ((nb b side, var, flatI n (c + shift n (G.get (side / 2)) side)), (b, var, flatI n c)) := by
  have hzip : ∀ side < 2 * dims, (sendMap dims n G (oppositeSide side)).zip (recvMap dims n G side) =
      (box (slabLo n (G.get (side / 2)) 0 side) (slabHi n (G.get (side / 2)) 0 side)).map
        fun c => (flatI n (c + shift n (G.get (side / 2)) side), flatI n c) := by
    intro side hs
    rw [sendMap, recvMap, typemap_slab hd hd3 (oppositeSide_lt hs) hn hflat (hG _), typemap_slab hd hd3 hs hn hflat (hG _), oppositeSide_div,
      send_slab_shift, List.map_map, List.zip_map']
    rfl
  simp only [transfers, List.mem_flatMap, mem_irange, deliver]
  constructor
  · rintro ⟨b, ⟨hb0, hb1⟩, r, hr, ht⟩
    split_ifs at ht with hsend
    · simp at ht
    simp only [Bool.not_eq_true] at hsend
    obtain ⟨side, hs, var, hv, hnb, rfl⟩ := mem_recv.1 ⟨hr, hsend⟩
    simp only [List.mem_flatMap, List.mem_filter, Bool.and_eq_true, decide_eq_true_eq] at ht
    obtain ⟨s, ⟨hs1, ⟨hs2, hs3⟩, hs4⟩, ht⟩ := ht
    obtain ⟨side', hs', var', hv', hnb', rfl⟩ := mem_send.1 ⟨hs1, hs2⟩
    simp only at hs4 ht
    have h6 : oppositeSide side < 6 := by have := oppositeSide_lt hs; omega
    have e1 : side' = oppositeSide side := by omega
    have e2 : var' = var := by omega
    subst e1 e2
    rw [hzip side hs, List.map_map] at ht
    obtain ⟨c, hc, rfl⟩ := List.mem_map.1 ht
    exact ⟨b, hb0, hb1, side, hs, var', hv, hnb, c, hc, rfl⟩
  · rintro ⟨b, hb0, hb1, side, hs, var, hv, hnb, c, hc, rfl⟩
    obtain ⟨hlt, hback⟩ := hsym b hb0 hb1 side hs hnb
    refine ⟨b, ⟨hb0, hb1⟩, ⟨false, nb b side, oppositeSide side + var * 6, var, recvMap dims n G side⟩, (mem_recv.2 ⟨side, hs, var, hv, hnb, rfl⟩).1, ?_⟩
    simp only [Bool.false_eq_true, if_false, List.mem_flatMap, List.mem_filter, Bool.and_eq_true, decide_eq_true_eq]
    refine ⟨⟨true, b, oppositeSide side + var * 6, var, sendMap dims n G (oppositeSide side)⟩, ⟨?_, ⟨rfl, rfl⟩, rfl⟩, ?_⟩
    · exact (mem_send.2 ⟨oppositeSide side, oppositeSide_lt hs, var, hv, by rw [hback]; omega, by rw [hback]⟩).1
    · rw [hzip side hs, List.map_map]
      exact List.mem_map.2 ⟨c, hc, rfl⟩

theorem flatI_cast {n c : I3} (hc : InBlock n c) : flatI n c = (cellIndex n c : Int) := by
  rw [cellIndex_cast ⟨by have := hc.1; omega, by have := hc.2.1; omega⟩ ⟨hc.1.1, hc.2.1.1, hc.2.2.1⟩]; rfl

theorem flatI_inj {n c c' : I3} (hc : InBlock n c) (hc' : InBlock n c') (h : flatI n c = flatI n c') : c = c' := by
  rw [flatI_cast hc, flatI_cast hc'] at h
  exact cellIndex_inj hc hc' (by exact_mod_cast h)

end Verif.Halo
