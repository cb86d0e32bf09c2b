import Verif.CudaHalo

/-! Lemmas on the halo exchange on the graphics card: packing, unpacking, and the whole exchange. -/

namespace Verif.CudaHalo
open Gpu Halo Iterate
variable {α : Type}

/-- Some thread of some of the kernels copies `a` to `b`. -/
def CopiesTo {L V : Type} (ks : List (Launch L V)) (a b : L) : Prop := ∃ k ∈ ks, ∃ j < k.threads, k.kernel j = copyProg (some (a, b))

/-- Concurrent kernels of copying threads. -/
theorem copies_concurrent {L V : Type} [DecidableEq L] {ks : List (Launch L V)} {m : Arr L V} (hk : ∀ k ∈ ks, ∀ j < k.threads, ∃ o, k.kernel j = copyProg o)
    (hin : ∀ a b, CopiesTo ks a b → m.inb a = true ∧ m.inb b = true) (hsep : ∀ a b c d, CopiesTo ks a b → CopiesTo ks c d → d ≠ a) :
    safe (concurrent ks) m ∧ (∃ m', mayYield (concurrent ks) m m') ∧
    (∀ m', mayYield (concurrent ks) m m' → m'.inb = m.inb ∧ (∀ l, (∀ a, ¬CopiesTo ks a l) → m'.val l = m.val l) ∧
      ∀ l, (∃ a, CopiesTo ks a l) → ∃ a, CopiesTo ks a l ∧ m'.val l = m.val a) ∧
    ∀ a l, CopiesTo ks a l → ∃ m', mayYield (concurrent ks) m m' ∧ m'.val l = m.val a := by
  have hex : ∀ i, ∃ o : Option (L × L), i < (concurrent ks).threads → (concurrent ks).kernel i = copyProg o := by
    intro i
    by_cases hi : i < (concurrent ks).threads
    · obtain ⟨k, hkm, j, hj, e⟩ := concurrent_kernel.1 ⟨i, hi, rfl⟩
      obtain ⟨o, ho⟩ := hk k hkm j hj
      exact ⟨o, fun _ => by rw [← e, ho]⟩
    · exact ⟨none, fun h => absurd h hi⟩
  choose f hf using hex
  have inj : ∀ {o o' : Option (L × L)}, (copyProg o : Prog L V) = copyProg o' → ∀ {a b}, o = some (a, b) → o' = some (a, b) := by
    intro o o' h a b ho
    subst ho
    rcases o' with _ | ⟨c, d⟩
    · simp [copyProg] at h
    · simp only [copyProg, Prog.read.injEq] at h
      obtain ⟨rfl, h⟩ := h
      have := congrFun h (m.val a)
      simp only [Prog.write.injEq] at this
      rw [this.1]
  have hR : ∀ a b, CopiesTo ks a b ↔ ∃ i < (concurrent ks).threads, f i = some (a, b) := by
    intro a b
    constructor
    · rintro ⟨k, hkm, j, hj, e⟩
      obtain ⟨i, hi, e'⟩ := concurrent_kernel.2 ⟨k, hkm, j, hj, e⟩
      exact ⟨i, hi, inj (e'.symm.trans (hf i hi)) rfl⟩
    · rintro ⟨i, hi, e⟩
      exact concurrent_kernel.1 ⟨i, hi, by rw [hf i hi, e]⟩
  obtain ⟨h1, h2, h3, h4⟩ := copies (k := concurrent ks) (m := m) (f := f) (fun i hi => hf i hi) (fun i hi a b h => hin a b ((hR a b).2 ⟨i, hi, h⟩))
    (fun i hi j hj a b c d h h' => hsep a b c d ((hR a b).2 ⟨i, hi, h⟩) ((hR c d).2 ⟨j, hj, h'⟩))
  refine ⟨h1, h2, fun m' hm' => ?_, fun a l h => ?_⟩
  · obtain ⟨g1, g2, g3⟩ := h3 m' hm'
    refine ⟨g1, fun l hl => g2 l fun i hi a e => hl a ((hR a l).2 ⟨i, hi, e⟩), ?_⟩
    rintro l ⟨a, ha⟩
    obtain ⟨i, hi, e⟩ := (hR a l).1 ha
    obtain ⟨i', hi', a', e', hv⟩ := g3 l ⟨i, hi, a, e⟩
    exact ⟨a', (hR a' l).2 ⟨i', hi', e'⟩, hv⟩
  · obtain ⟨i, hi, e⟩ := (hR a l).1 h
    exact h4 i hi a l e

/-- The sizes of a volume fit: at most three dimensions, one cell in the others, room for twice the ghost cells. -/
structure Shape (dims : Nat) (n G : I3) : Prop where
  one : 1 ≤ dims
  three : dims ≤ 3
  nonneg : 0 ≤ n.x ∧ 0 ≤ n.y ∧ 0 ≤ n.z
  flat : ∀ d, dims ≤ d → d < 3 → n.get d = 1
  ghosts : 0 ≤ G.x ∧ 0 ≤ G.y ∧ 0 ≤ G.z
  room : ∀ d < dims, 2 * G.get d ≤ n.get d

section
variable {dims nvars : Nat} {n G : I3} {nb : Nat → Int}

theorem Shape.bufferSize_nonneg (h : Shape dims n G) (side : Nat) :
    0 ≤ (bufferSize n G side).x ∧ 0 ≤ (bufferSize n G side).y ∧ 0 ≤ (bufferSize n G side).z := by
  obtain ⟨-, -, h1, -, h2, -⟩ := h
  unfold bufferSize
  simp only
  split_ifs <;> omega

theorem Shape.bufferCount_eq (h : Shape dims n G) (side : Nat) :
    (bufferCount n G side : Int) = (bufferSize n G side).x * (bufferSize n G side).y * (bufferSize n G side).z := by
  obtain ⟨h1, h2, h3⟩ := h.bufferSize_nonneg side
  unfold bufferCount
  rw [Int.toNat_of_nonneg (by positivity)]

theorem mem_buffer {b c : I3} : c ∈ box 0 b ↔ InBlock b c := by
  rw [mem_box]; rfl

/-- A cell inside a block has a position in it. -/
theorem flatI_lt {b c : I3} (hc : InBlock b c) : 0 ≤ flatI b c ∧ flatI b c < b.x * b.y * b.z := by
  rw [flatI_cast hc]; exact ⟨by omega, cellIndex_lt hc⟩

theorem I3_sub_add (c o : I3) : c - o + o = c := by cases c; cases o; simp [I3.ext_iff]

/-- The cells of a box, relative to its first cell. -/
theorem mem_shift {lo hi c : I3} : c ∈ box 0 (hi - lo) ↔ c + lo ∈ box lo hi := by
  rw [mem_box, mem_box]
  show (0 ≤ c.x ∧ c.x < hi.x - lo.x) ∧ (0 ≤ c.y ∧ c.y < hi.y - lo.y) ∧ (0 ≤ c.z ∧ c.z < hi.z - lo.z) ↔
    (lo.x ≤ c.x + lo.x ∧ c.x + lo.x < hi.x) ∧ (lo.y ≤ c.y + lo.y ∧ c.y + lo.y < hi.y) ∧ (lo.z ≤ c.z + lo.z ∧ c.z + lo.z < hi.z)
  omega

theorem Shape.pack_inside (h : Shape dims n G) {side : Nat} (hs : side < 2 * dims) {c : I3} (hc : c ∈ box 0 (bufferSize n G side)) :
    InBlock n (c + packLo n G side) := by
  have h6 : side < 6 := by have := h.three; omega
  rw [← packSize h6, mem_shift, mem_box] at hc
  have hr := h.room (side / 2) (by omega)
  have hn := h.nonneg
  have hg := h.ghosts
  unfold packLo packHi at hc
  unfold packLo
  unfold I3.get at hr
  unfold InBlock
  interval_cases side <;> simp at hc hr ⊢ <;> omega

theorem Shape.unpack_inside (h : Shape dims n G) {side : Nat} (hs : side < 2 * dims) {c : I3} (hc : c ∈ box 0 (bufferSize n G side)) :
    InBlock n (c + unpackLo n G side) := by
  have h6 : side < 6 := by have := h.three; omega
  rw [← unpackSize h6, mem_shift, mem_box] at hc
  have hr := h.room (side / 2) (by omega)
  have hn := h.nonneg
  have hg := h.ghosts
  unfold unpackLo unpackHi at hc
  unfold unpackLo
  unfold I3.get at hr
  unfold InBlock
  interval_cases side <;> simp at hc hr ⊢ <;> omega

theorem packKernel_eq (n G : I3) (v side i : Nat) : (packKernel n G v side i : Prog Place α) =
    copyProg ((threadCell (packLo n G side) (packHi n G side) i).map fun c =>
      (Place.vol v (flatI n (c + packLo n G side)), Place.buf v side (flatI (bufferSize n G side) c))) := by
  unfold packKernel
  cases threadCell (packLo n G side) (packHi n G side) i <;> rfl

theorem unpackKernel_eq (n G : I3) (v side i : Nat) : (unpackKernel n G v side i : Prog Place α) =
    copyProg ((threadCell (unpackLo n G side) (unpackHi n G side) i).map fun c =>
      (Place.buf v side (flatI (bufferSize n G side) c), Place.vol v (flatI n (c + unpackLo n G side)))) := by
  unfold unpackKernel
  cases threadCell (unpackLo n G side) (unpackHi n G side) i <;> rfl

theorem copyProg_inj {L V : Type} (x : V) {o : Option (L × L)} {a b : L} (h : (copyProg o : Prog L V) = copyProg (some (a, b))) : o = some (a, b) := by
  rcases o with _ | ⟨c, d⟩
  · simp [copyProg] at h
  · simp only [copyProg, Prog.read.injEq] at h
    obtain ⟨rfl, h⟩ := h
    have := congrFun h x
    simp only [Prog.write.injEq] at this
    rw [this.1]

/-- The kernels of one phase: for every side handled, unless the box is empty, one kernel per variable, in which every cell of the buffer is copied by a thread. -/
theorem copiesTo_iff (x : α) {lo hi : Nat → I3} {skip : Nat → Prop} [DecidablePred skip] (hskip : ∀ side ∈ sides dims nb, skip side → box 0 (hi side - lo side) = [])
    {kernel : Nat → Nat → Nat → Prog Place α} {pr : Nat → Nat → I3 → Place × Place}
    (hker : ∀ v side i, kernel v side i = copyProg ((threadCell (lo side) (hi side) i).map (pr v side))) {a b : Place} :
    CopiesTo ((sides dims nb).flatMap fun side => if skip side then [] else
      (List.range nvars).map fun v => (⟨threadCount (cellsBetween (lo side) (hi side)).toNat 512, kernel v side⟩ : Launch Place α)) a b ↔
      ∃ side ∈ sides dims nb, ∃ v < nvars, ∃ c ∈ box 0 (hi side - lo side), pr v side c = (a, b) := by
  unfold CopiesTo
  constructor
  · rintro ⟨k, hk, j, hj, e⟩
    obtain ⟨side, hs, hk⟩ := List.mem_flatMap.1 hk
    split_ifs at hk with hsk
    · simp at hk
    obtain ⟨v, hv, rfl⟩ := List.mem_map.1 hk
    simp only [hker] at e hj
    have e' := copyProg_inj x e
    rw [Option.map_eq_some_iff] at e'
    obtain ⟨c, hc, e'⟩ := e'
    exact ⟨side, hs, v, List.mem_range.1 hv, c, threadCell_iff.1 ⟨j, hj, hc⟩, e'⟩
  · rintro ⟨side, hs, v, hv, c, hc, e⟩
    obtain ⟨j, hj, hcell⟩ := threadCell_iff.2 hc
    have hsk : ¬skip side := fun h => by rw [hskip side hs h] at hc; simp at hc
    refine ⟨⟨threadCount (cellsBetween (lo side) (hi side)).toNat 512, kernel v side⟩, List.mem_flatMap.2 ⟨side, hs, ?_⟩, j, hj, ?_⟩
    · rw [if_neg hsk]; exact List.mem_map.2 ⟨v, List.mem_range.2 hv, rfl⟩
    · simp only [hker, hcell, Option.map_some, e]

theorem box_empty {b : I3} (hb : 0 ≤ b.x ∧ 0 ≤ b.y ∧ 0 ≤ b.z) (h : b.x * b.y * b.z ≤ 0) : box 0 b = [] := by
  have := flat_box hb
  rw [irange_empty h, List.map_eq_nil_iff] at this
  exact this

/-- Packing: every interleaving fills the buffers with the cells of the layers next to the ghost cells and changes nothing else. -/
theorem pack_ok (h : Shape dims n G) {m : Arr Place α} (hm : Holds nvars n G nb m) :
    safe (pack dims nvars n G nb) m ∧ (∃ m', mayYield (pack dims nvars n G nb) m m') ∧
    ∀ m', mayYield (pack dims nvars n G nb) m m' → m'.inb = m.inb ∧ (∀ v i, m'.val (.vol v i) = m.val (.vol v i)) ∧
      ∀ side < 2 * dims, hasSide nb side = true → ∀ v < nvars, ∀ c ∈ box 0 (bufferSize n G side),
        m'.val (.buf v side (flatI (bufferSize n G side) c)) = m.val (.vol v (flatI n (c + packLo n G side))) := by
  have h6 : ∀ {side}, side < 2 * dims → side < 6 := fun hs => by have := h.three; omega
  have hms : ∀ {side}, side ∈ sides dims nb ↔ side < 2 * dims ∧ hasSide nb side = true := mem_sides h.one h.three
  have hC : ∀ {a b}, CopiesTo ((sides dims nb).flatMap (packSide (α := α) n G nvars)) a b ↔
      ∃ side ∈ sides dims nb, ∃ v < nvars, ∃ c ∈ box 0 (bufferSize n G side),
        (Place.vol v (flatI n (c + packLo n G side)), Place.buf v side (flatI (bufferSize n G side) c)) = (a, b) := by
    intro a b
    have := copiesTo_iff (dims := dims) (nb := nb) (nvars := nvars) (m.val (.vol 0 0)) (lo := packLo n G) (hi := packHi n G)
      (skip := fun side => cellsBetween (packLo n G side) (packHi n G side) ≤ 0)
      (fun side hs hsk => by
        have e := packSize (n := n) (G := G) (h6 (hms.1 hs).1)
        rw [e]
        refine box_empty (h.bufferSize_nonneg side) ?_
        rw [← e]; exact hsk)
      (kernel := packKernel n G)
      (pr := fun v side c => (Place.vol v (flatI n (c + packLo n G side)), Place.buf v side (flatI (bufferSize n G side) c)))
      (packKernel_eq n G) (a := a) (b := b)
    refine this.trans ?_
    constructor
    · rintro ⟨side, hs, v, hv, c, hc, e⟩
      exact ⟨side, hs, v, hv, c, by rw [← packSize (h6 (hms.1 hs).1)]; exact hc, e⟩
    · rintro ⟨side, hs, v, hv, c, hc, e⟩
      exact ⟨side, hs, v, hv, c, by rw [packSize (h6 (hms.1 hs).1)]; exact hc, e⟩
  obtain ⟨g1, g2, g3, -⟩ := copies_concurrent (ks := (sides dims nb).flatMap (packSide (α := α) n G nvars)) (m := m)
    (by
      intro k hk j hj
      obtain ⟨side, hs, hk⟩ := List.mem_flatMap.1 hk
      unfold packSide at hk
      split_ifs at hk
      · simp at hk
      obtain ⟨v, hv, rfl⟩ := List.mem_map.1 hk
      exact ⟨_, packKernel_eq n G v side j⟩)
    (by
      intro a b hab
      obtain ⟨side, hs, v, hv, c, hc, e⟩ := hC.1 hab
      obtain ⟨rfl, rfl⟩ := Prod.mk.inj e
      obtain ⟨hs1, hs2⟩ := hms.1 hs
      have l1 := flatI_lt (h.pack_inside hs1 hc)
      have l2 := flatI_lt (mem_buffer.1 hc)
      rw [hm.1, hm.2, h.bufferCount_eq]
      exact ⟨decide_eq_true ⟨hv, l1⟩, decide_eq_true ⟨hv, h6 hs1, hs2, l2⟩⟩)
    (by
      intro a b c d hab hcd
      obtain ⟨side, hs, v, hv, q, hq, e⟩ := hC.1 hab
      obtain ⟨side', hs', v', hv', q', hq', e'⟩ := hC.1 hcd
      obtain ⟨rfl, rfl⟩ := Prod.mk.inj e
      obtain ⟨rfl, rfl⟩ := Prod.mk.inj e'
      simp)
  refine ⟨g1, g2, fun m' hm' => ?_⟩
  obtain ⟨f1, f2, f3⟩ := g3 m' hm'
  refine ⟨f1, fun v i => f2 _ fun a ha => ?_, fun side hs hh v hv c hc => ?_⟩
  · obtain ⟨side, hs, v', hv', q, hq, e⟩ := hC.1 ha
    simp at e
  · obtain ⟨a, ha, hval⟩ := f3 (.buf v side (flatI (bufferSize n G side) c)) ⟨_, hC.2 ⟨side, hms.2 ⟨hs, hh⟩, v, hv, c, hc, rfl⟩⟩
    obtain ⟨side', hs', v', hv', q, hq, e⟩ := hC.1 ha
    simp only [Prod.mk.injEq, Place.buf.injEq] at e
    obtain ⟨rfl, rfl, rfl, e⟩ := e
    rw [hval, flatI_inj (mem_buffer.1 hq) (mem_buffer.1 hc) e]

/-- Unpacking: every interleaving writes the buffers to the ghost cells and changes nothing else. A cell in the ghost layers of several sides gets the
value of one of them; any of them is possible. -/
theorem unpack_ok (h : Shape dims n G) {m : Arr Place α} (hm : Holds nvars n G nb m) :
    safe (unpack dims nvars n G nb) m ∧ (∃ m', mayYield (unpack dims nvars n G nb) m m') ∧
    (∀ m', mayYield (unpack dims nvars n G nb) m m' → m'.inb = m.inb ∧
      ∀ v < nvars, ∀ i,
        (m'.val (.vol v i) = m.val (.vol v i) ∧
          ∀ side < 2 * dims, hasSide nb side = true → ∀ c ∈ box 0 (bufferSize n G side), flatI n (c + unpackLo n G side) ≠ i) ∨
        ∃ side < 2 * dims, hasSide nb side = true ∧ ∃ c ∈ box 0 (bufferSize n G side), flatI n (c + unpackLo n G side) = i ∧
          m'.val (.vol v i) = m.val (.buf v side (flatI (bufferSize n G side) c))) ∧
    ∀ side < 2 * dims, hasSide nb side = true → ∀ v < nvars, ∀ c ∈ box 0 (bufferSize n G side),
      ∃ m', mayYield (unpack dims nvars n G nb) m m' ∧
        m'.val (.vol v (flatI n (c + unpackLo n G side))) = m.val (.buf v side (flatI (bufferSize n G side) c)) := by
  have h6 : ∀ {side}, side < 2 * dims → side < 6 := fun hs => by have := h.three; omega
  have hms : ∀ {side}, side ∈ sides dims nb ↔ side < 2 * dims ∧ hasSide nb side = true := mem_sides h.one h.three
  have hC : ∀ {a b}, CopiesTo ((sides dims nb).flatMap (unpackSide (α := α) n G nvars)) a b ↔
      ∃ side ∈ sides dims nb, ∃ v < nvars, ∃ c ∈ box 0 (bufferSize n G side),
        (Place.buf v side (flatI (bufferSize n G side) c), Place.vol v (flatI n (c + unpackLo n G side))) = (a, b) := by
    intro a b
    have := copiesTo_iff (dims := dims) (nb := nb) (nvars := nvars) (m.val (.vol 0 0)) (lo := unpackLo n G) (hi := unpackHi n G)
      (skip := fun side => cellsBetween (unpackLo n G side) (unpackHi n G side) = 0)
      (fun side hs hsk => by
        have e := unpackSize (n := n) (G := G) (h6 (hms.1 hs).1)
        rw [e]
        refine box_empty (h.bufferSize_nonneg side) ?_
        rw [← e]; exact le_of_eq hsk)
      (kernel := unpackKernel n G)
      (pr := fun v side c => (Place.buf v side (flatI (bufferSize n G side) c), Place.vol v (flatI n (c + unpackLo n G side))))
      (unpackKernel_eq n G) (a := a) (b := b)
    refine this.trans ?_
    constructor
    · rintro ⟨side, hs, v, hv, c, hc, e⟩
      exact ⟨side, hs, v, hv, c, by rw [← unpackSize (h6 (hms.1 hs).1)]; exact hc, e⟩
    · rintro ⟨side, hs, v, hv, c, hc, e⟩
      exact ⟨side, hs, v, hv, c, by rw [unpackSize (h6 (hms.1 hs).1)]; exact hc, e⟩
  obtain ⟨g1, g2, g3, g4⟩ := copies_concurrent (ks := (sides dims nb).flatMap (unpackSide (α := α) n G nvars)) (m := m)
    (by
      intro k hk j hj
      obtain ⟨side, hs, hk⟩ := List.mem_flatMap.1 hk
      unfold unpackSide at hk
      split_ifs at hk
      · simp at hk
      obtain ⟨v, hv, rfl⟩ := List.mem_map.1 hk
      exact ⟨_, unpackKernel_eq n G v side j⟩)
    (by
      intro a b hab
      obtain ⟨side, hs, v, hv, c, hc, e⟩ := hC.1 hab
      obtain ⟨rfl, rfl⟩ := Prod.mk.inj e
      obtain ⟨hs1, hs2⟩ := hms.1 hs
      have l1 := flatI_lt (h.unpack_inside hs1 hc)
      have l2 := flatI_lt (mem_buffer.1 hc)
      rw [hm.1, hm.2, h.bufferCount_eq]
      exact ⟨decide_eq_true ⟨hv, h6 hs1, hs2, l2⟩, decide_eq_true ⟨hv, l1⟩⟩)
    (by
      intro a b c d hab hcd
      obtain ⟨side, hs, v, hv, q, hq, e⟩ := hC.1 hab
      obtain ⟨side', hs', v', hv', q', hq', e'⟩ := hC.1 hcd
      obtain ⟨rfl, rfl⟩ := Prod.mk.inj e
      obtain ⟨rfl, rfl⟩ := Prod.mk.inj e'
      simp)
  refine ⟨g1, g2, fun m' hm' => ?_, fun side hs hh v hv c hc => g4 _ _ (hC.2 ⟨side, hms.2 ⟨hs, hh⟩, v, hv, c, hc, rfl⟩)⟩
  obtain ⟨f1, f2, f3⟩ := g3 m' hm'
  refine ⟨f1, fun v hv i => ?_⟩
  by_cases hex : ∃ a, CopiesTo ((sides dims nb).flatMap (unpackSide (α := α) n G nvars)) a (.vol v i)
  · obtain ⟨a, ha, hval⟩ := f3 _ hex
    obtain ⟨side, hs, v', hv', q, hq, e⟩ := hC.1 ha
    simp only [Prod.mk.injEq, Place.vol.injEq] at e
    obtain ⟨rfl, rfl, e⟩ := e
    exact Or.inr ⟨side, (hms.1 hs).1, (hms.1 hs).2, q, hq, e, hval⟩
  · refine Or.inl ⟨f2 _ fun a ha => hex ⟨a, ha⟩, fun side hs hh c hc e => hex ⟨_, hC.2 ⟨side, hms.2 ⟨hs, hh⟩, v, hv, c, hc, by rw [e]⟩⟩⟩

theorem getElem_box {b : I3} (hb : 0 ≤ b.x ∧ 0 ≤ b.y ∧ 0 ≤ b.z) {c : I3} (hc : c ∈ box 0 b) : (box 0 b)[(flatI b c).toNat]? = some c := by
  obtain ⟨k, hk, e⟩ := List.getElem_of_mem hc
  have h1 : ((box 0 b).map (flatI b))[k]? = some (flatI b c) := by rw [List.getElem?_map, List.getElem?_eq_getElem hk, e]; rfl
  rw [flat_box hb] at h1
  have h2 : flatI b c = k := by
    rw [irange, List.getElem?_map, Option.map_eq_some_iff] at h1
    obtain ⟨j, hj, h1⟩ := h1
    rw [List.getElem?_eq_some_iff] at hj
    obtain ⟨_, hj⟩ := hj
    rw [List.getElem_range] at hj
    omega
  rw [h2, Int.toNat_natCast, List.getElem?_eq_getElem hk, e]

/-- A message as a list over the cells of the buffer. -/
theorem Shape.message_eq (h : Shape dims n G) (m : Arr Place α) (v side : Nat) :
    message n G m v side = (box 0 (bufferSize n G side)).map fun c => m.val (.buf v side (flatI (bufferSize n G side) c)) := by
  have e : (box 0 (bufferSize n G side)).map (fun c => m.val (.buf v side (flatI (bufferSize n G side) c))) =
      ((box 0 (bufferSize n G side)).map (flatI (bufferSize n G side))).map fun i => m.val (.buf v side i) := by rw [List.map_map]; rfl
  rw [e, flat_box (h.bufferSize_nonneg side), ← h.bufferCount_eq, message]
  unfold irange
  rw [List.map_map, sub_zero, Int.toNat_natCast]
  apply List.map_congr_left
  intro i _
  simp

theorem Shape.sendMap_eq (h : Shape dims n G) {side : Nat} (hs : side < 2 * dims) :
    sendMap dims n G side = (box 0 (bufferSize n G side)).map fun c => flatI n (c + packLo n G side) := by
  have h6 : side < 6 := by have := h.three; omega
  have hg : 0 ≤ G.get (side / 2) := by have := h.ghosts; unfold I3.get; split_ifs <;> omega
  rw [sendMap, typemap_slab h.one h.three hs h.nonneg h.flat hg, ← packLo_eq h6, ← packHi_eq h6, ← packSize h6]
  have e : box (packLo n G side) (packHi n G side) = (box 0 (packHi n G side - packLo n G side)).map (· + packLo n G side) := by
    rw [← box_shift, I3_sub_add]
    congr 1
    ext <;> simp
  rw [e, List.map_map]; rfl

theorem Shape.recvMap_eq (h : Shape dims n G) {side : Nat} (hs : side < 2 * dims) :
    recvMap dims n G side = (box 0 (bufferSize n G side)).map fun c => flatI n (c + unpackLo n G side) := by
  have h6 : side < 6 := by have := h.three; omega
  have hg : 0 ≤ G.get (side / 2) := by have := h.ghosts; unfold I3.get; split_ifs <;> omega
  rw [recvMap, typemap_slab h.one h.three hs h.nonneg h.flat hg, ← unpackLo_eq h6, ← unpackHi_eq h6, ← unpackSize h6]
  have e : box (unpackLo n G side) (unpackHi n G side) = (box 0 (unpackHi n G side - unpackLo n G side)).map (· + unpackLo n G side) := by
    rw [← box_shift, I3_sub_add]
    congr 1
    ext <;> simp
  rw [e, List.map_map]; rfl

theorem Shape.length_send (h : Shape dims n G) {side : Nat} (hs : side < 2 * dims) : (sendMap dims n G side).length = bufferCount n G side := by
  have e := congrArg List.length (flat_box (h.bufferSize_nonneg side))
  rw [h.sendMap_eq hs, List.length_map]
  rw [List.length_map, length_irange, ← h.bufferCount_eq] at e
  omega

theorem Shape.length_recv (h : Shape dims n G) {side : Nat} (hs : side < 2 * dims) : (recvMap dims n G side).length = bufferCount n G side := by
  have e := congrArg List.length (flat_box (h.bufferSize_nonneg side))
  rw [h.recvMap_eq hs, List.length_map]
  rw [List.length_map, length_irange, ← h.bufferCount_eq] at e
  omega

theorem bufferSize_opposite (n G : I3) {side : Nat} (hs : side < 6) : bufferSize n G (oppositeSide side) = bufferSize n G side := by
  unfold bufferSize oppositeSide
  interval_cases side <;> simp

theorem packLo_opposite (n G : I3) {side : Nat} (hs : side < 6) :
    packLo n G (oppositeSide side) = unpackLo n G side + shift n (G.get (side / 2)) side := by
  unfold packLo unpackLo oppositeSide shift I3.get I3.set
  interval_cases side <;> simp [I3.ext_iff] <;> omega

theorem mem_bufferSend {s : BufferPost} :
    (s ∈ bufferPosts dims nvars n G nb ∧ s.isSend = true) ↔
      ∃ side < 2 * dims, ∃ var < nvars, hasSide nb side = true ∧ s = ⟨true, nb side, var * 6 + side, var, side, bufferCount n G side⟩ := by
  simp only [bufferPosts, bufferPostsAt, List.mem_flatMap, List.mem_range, List.mem_append]
  constructor
  · rintro ⟨⟨var, h2, side, h1, h3 | h3⟩, h4⟩
    · split_ifs at h3 with h
      · exact ⟨side, h1, var, h2, h, by simpa using h3⟩
      · simp at h3
    · split_ifs at h3 with h
      · simp at h3; rw [h3] at h4; simp at h4
      · simp at h3
  · rintro ⟨side, h1, var, h2, h3, rfl⟩
    exact ⟨⟨var, h2, side, h1, Or.inl (by simp [h3])⟩, rfl⟩

theorem mem_bufferRecv {r : BufferPost} :
    (r ∈ bufferPosts dims nvars n G nb ∧ r.isSend = false) ↔
      ∃ side < 2 * dims, ∃ var < nvars, hasSide nb side = true ∧
        r = ⟨false, nb side, var * 6 + oppositeSide side, var, side, bufferCount n G side⟩ := by
  simp only [bufferPosts, bufferPostsAt, List.mem_flatMap, List.mem_range, List.mem_append]
  constructor
  · rintro ⟨⟨var, h2, side, h1, h3 | h3⟩, h4⟩
    · split_ifs at h3 with h
      · simp at h3; rw [h3] at h4; simp at h4
      · simp at h3
    · split_ifs at h3 with h
      · exact ⟨oppositeSide side, oppositeSide_lt h1, var, h2, h, by rw [oppositeSide_opp]; simpa using h3⟩
      · simp at h3
  · rintro ⟨side, h1, var, h2, h3, rfl⟩
    exact ⟨⟨var, h2, oppositeSide side, oppositeSide_lt h1, Or.inr (by rw [oppositeSide_opp]; simp [h3])⟩, rfl⟩

end

/-- Memory after `load`. -/
theorem load_holds {nvars : Nat} {n G : I3} {nb : Nat → Int} {m : Arr Place α} (hm : Holds nvars n G nb m) (received : Nat → Nat → List α) :
    Holds nvars n G nb (load m received) := hm

section
variable {dims nvars : Nat} {n G : I3} {nb : Int → Nat → Int} {size : Int}

/-- The neighbour relation is symmetric, and the neighbours exist. -/
def Symmetric (dims : Nat) (nb : Int → Nat → Int) (size : Int) : Prop :=
  ∀ a, 0 ≤ a → a < size → ∀ side < 2 * dims, nb a side ≠ -1 → 0 ≤ nb a side ∧ nb a side < size ∧ nb (nb a side) (oppositeSide side) = a

theorem hasSide_iff {nb : Nat → Int} {side : Nat} : hasSide nb side = true ↔ nb side ≠ -1 := by simp [hasSide]

/-- What is received for a variable and side, as a list over the cells of the buffer. -/
theorem delivered_eq (h : Shape dims n G) (hsym : Symmetric dims nb size) {packed : Int → Arr Place α} {b : Int} (hb0 : 0 ≤ b) (hb1 : b < size)
    {received : Nat → Nat → List α}
    (hd : Delivered n G (fun r => if 0 ≤ r ∧ r < size then bufferPosts dims nvars n G (nb r) else []) packed b received)
    {side : Nat} (hs : side < 2 * dims) (hh : hasSide (nb b) side = true) {v : Nat} (hv : v < nvars) :
    received v side = message n G (packed (nb b side)) v (oppositeSide side) := by
  have hpost := (mem_bufferRecv (n := n) (G := G)).2 ⟨side, hs, v, hv, hh, rfl⟩
  obtain ⟨s, hs1, hs2, hs3, hs4, hs5⟩ := hd _ (by simp only; rw [if_pos ⟨hb0, hb1⟩]; exact hpost.1) hpost.2
  simp only at hs1 hs4 hs5
  obtain ⟨p0, p1, -⟩ := hsym b hb0 hb1 side hs (hasSide_iff.1 hh)
  rw [if_pos ⟨p0, p1⟩] at hs1
  obtain ⟨side', hs', v', hv', hh', rfl⟩ := mem_bufferSend.1 ⟨hs1, hs2⟩
  simp only at hs4 hs5
  have := oppositeSide_lt hs
  have := h.three
  have e1 : side' = oppositeSide side := by omega
  have e2 : v' = v := by omega
  rw [hs5, e1, e2]

/-- The whole exchange: every cell is unchanged and in no ghost layer of a side with a neighbour, or it is in such a layer and has the value the neighbour had in the cell it stands for. -/
theorem exchange_cells (h : Shape dims n G) (hsym : Symmetric dims nb size) {mem mem' : Int → Arr Place α}
    (hm : ∀ b, 0 ≤ b → b < size → Holds nvars n G (nb b) (mem b)) (hex : Exchange dims nvars n G nb size mem mem')
    {b : Int} (hb0 : 0 ≤ b) (hb1 : b < size) {v : Nat} (hv : v < nvars) (i : Int) :
    ((mem' b).val (.vol v i) = (mem b).val (.vol v i) ∧ ∀ side < 2 * dims, hasSide (nb b) side = true →
      ∀ c ∈ box (slabLo n (G.get (side / 2)) 0 side) (slabHi n (G.get (side / 2)) 0 side), flatI n c ≠ i) ∨
    ∃ side < 2 * dims, hasSide (nb b) side = true ∧ ∃ c ∈ box (slabLo n (G.get (side / 2)) 0 side) (slabHi n (G.get (side / 2)) 0 side),
      flatI n c = i ∧ (mem' b).val (.vol v i) = (mem (nb b side)).val (.vol v (flatI n (c + shift n (G.get (side / 2)) side))) := by
  obtain ⟨packed, received, hall⟩ := hex
  obtain ⟨h1, h2, h3⟩ := hall b hb0 hb1
  have h6 : ∀ {side}, side < 2 * dims → side < 6 := fun hs => by have := h.three; omega
  obtain ⟨p1, p2, -⟩ := (pack_ok h (hm b hb0 hb1)).2.2 _ h1
  have hld : Holds nvars n G (nb b) (load (packed b) (received b)) := by
    refine load_holds ?_ _
    have := hm b hb0 hb1
    unfold Holds at this ⊢
    rw [p1]; exact this
  have hslab : ∀ {side}, side < 2 * dims → ∀ {c}, c ∈ box (slabLo n (G.get (side / 2)) 0 side) (slabHi n (G.get (side / 2)) 0 side) ↔
      c - unpackLo n G side ∈ box 0 (bufferSize n G side) := by
    intro side hs c
    rw [← unpackSize (h6 hs), mem_shift, I3_sub_add, unpackLo_eq (h6 hs), unpackHi_eq (h6 hs)]
  rcases ((unpack_ok h hld).2.2.1 _ h3).2 v hv i with ⟨hval, hno⟩ | ⟨side, hs, hh, c, hc, hi, hval⟩
  · refine Or.inl ⟨by rw [hval]; exact p2 v i, fun side hs hh c hc e => hno side hs hh _ ((hslab hs).1 hc) ?_⟩
    rw [I3_sub_add]; exact e
  · refine Or.inr ⟨side, hs, hh, c + unpackLo n G side, ?_, hi, ?_⟩
    · rw [hslab hs]
      have : c + unpackLo n G side - unpackLo n G side = c := by cases c; ext <;> simp
      rw [this]; exact hc
    · obtain ⟨q0, q1, q2⟩ := hsym b hb0 hb1 side hs (hasSide_iff.1 hh)
      obtain ⟨-, -, p3⟩ := (pack_ok h (hm _ q0 q1)).2.2 _ (hall _ q0 q1).1
      have hopp : hasSide (nb (nb b side)) (oppositeSide side) = true := by rw [hasSide_iff, q2]; omega
      have hbs := bufferSize_opposite n G (h6 hs)
      have hfl := flatI_lt (mem_buffer.1 hc)
      have hrec : (load (packed b) (received b)).val (.buf v side (flatI (bufferSize n G side) c)) =
          (packed (nb b side)).val (.buf v (oppositeSide side) (flatI (bufferSize n G side) c)) := by
        show (if 0 ≤ flatI (bufferSize n G side) c then ((received b v side)[(flatI (bufferSize n G side) c).toNat]?).getD _ else _) = _
        rw [if_pos hfl.1, delivered_eq h hsym hb0 hb1 h2 hs hh hv, h.message_eq, hbs, List.getElem?_map, getElem_box (h.bufferSize_nonneg side) hc]
        rfl
      rw [hval, hrec]
      have := p3 (oppositeSide side) (oppositeSide_lt hs) hopp v hv c (by rw [hbs]; exact hc)
      rw [hbs] at this
      rw [this, packLo_opposite n G (h6 hs)]
      congr 3
      cases c; ext <;> simp [add_assoc]

/-- The exchange cannot get stuck: an outcome exists, and nothing fails on the way. -/
theorem exchange_exists (h : Shape dims n G) (hsym : Symmetric dims nb size) {mem : Int → Arr Place α}
    (hm : ∀ b, 0 ≤ b → b < size → Holds nvars n G (nb b) (mem b)) : ∃ mem', Exchange dims nvars n G nb size mem mem' := by
  have hp : ∀ b, ∃ m', 0 ≤ b → b < size → mayYield (pack dims nvars n G (nb b)) (mem b) m' := by
    intro b
    by_cases hb : 0 ≤ b ∧ b < size
    · obtain ⟨m', h'⟩ := (pack_ok h (hm b hb.1 hb.2)).2.1; exact ⟨m', fun _ _ => h'⟩
    · exact ⟨mem b, fun h1 h2 => absurd ⟨h1, h2⟩ hb⟩
  choose packed hpacked using hp
  have hu : ∀ b, ∃ m', 0 ≤ b → b < size → mayYield (unpack dims nvars n G (nb b))
      (load (packed b) fun v side => message n G (packed (nb b side)) v (oppositeSide side)) m' := by
    intro b
    by_cases hb : 0 ≤ b ∧ b < size
    · have hld : Holds nvars n G (nb b) (load (packed b) fun v side => message n G (packed (nb b side)) v (oppositeSide side)) := by
        refine load_holds ?_ _
        have := hm b hb.1 hb.2
        unfold Holds at this ⊢
        rw [((pack_ok h (hm b hb.1 hb.2)).2.2 _ (hpacked b hb.1 hb.2)).1]; exact this
      obtain ⟨m', h'⟩ := (unpack_ok h hld).2.1; exact ⟨m', fun _ _ => h'⟩
    · exact ⟨mem b, fun h1 h2 => absurd ⟨h1, h2⟩ hb⟩
  choose mem' hmem' using hu
  refine ⟨mem', packed, _, fun b hb0 hb1 => ⟨hpacked b hb0 hb1, ?_, hmem' b hb0 hb1⟩⟩
  intro r hr hrs
  simp only at hr
  rw [if_pos ⟨hb0, hb1⟩] at hr
  obtain ⟨side, hs, v, hv, hh, rfl⟩ := mem_bufferRecv.1 ⟨hr, hrs⟩
  obtain ⟨q0, q1, q2⟩ := hsym b hb0 hb1 side hs (hasSide_iff.1 hh)
  have hopp : hasSide (nb (nb b side)) (oppositeSide side) = true := by rw [hasSide_iff, q2]; omega
  have hpost := (mem_bufferSend (n := n) (G := G)).2 ⟨oppositeSide side, oppositeSide_lt hs, v, hv, hopp, rfl⟩
  refine ⟨_, ?_, hpost.2, q2, rfl, rfl⟩
  simp only
  rw [if_pos ⟨q0, q1⟩]; exact hpost.1

end

/-! ### The processor may do the same -/

/-- After writing the elements of a list: places nobody of the list writes are unchanged; a place that only gets one value has it. -/
theorem writes_list (T : List (Loc × Loc)) (l : Loc) (x : α) (ws : List Nat) : ∀ (s : Net α),
    (∀ k ∈ ws, ∀ t, T[k]? = some t → t.2 = l → s.transit k = x) →
    ((∃ k ∈ ws, ∃ t, T[k]? = some t ∧ t.2 = l) ∨ s.mem l = x) → ((ws.map Event.write).foldl (perform T) s).mem l = x := by
  induction ws with
  | nil => intro s _ h; rcases h with ⟨k, hk, -⟩ | h <;> [simp at hk; exact h]
  | cons a ws ih =>
    intro s hx h
    simp only [List.map_cons, List.foldl_cons]
    have htr : (perform T s (.write a)).transit = s.transit := by simp only [perform]; split <;> rfl
    refine ih _ (fun k hk t ht e => by rw [htr]; exact hx k (by simp [hk]) t ht e) ?_
    by_cases hw : ∃ k ∈ ws, ∃ t, T[k]? = some t ∧ t.2 = l
    · exact Or.inl hw
    refine Or.inr ?_
    simp only [perform]
    split
    · next t ht =>
      by_cases e : t.2 = l
      · subst e; simp only [Function.update_self]; exact hx a (by simp) t ht rfl
      · simp only [Function.update_of_ne (Ne.symm e)]
        rcases h with ⟨k, hk, t', ht', e'⟩ | h
        · rcases List.mem_cons.1 hk with rfl | hk
          · rw [ht] at ht'; cases ht'; exact absurd e' e
          · exact absurd ⟨k, hk, t', ht', e'⟩ hw
        · exact h
    · next hn =>
      rcases h with ⟨k, hk, t', ht', e'⟩ | h
      · rcases List.mem_cons.1 hk with rfl | hk
        · rw [hn] at ht'; simp at ht'
        · exact absurd ⟨k, hk, t', ht', e'⟩ hw
      · exact h

theorem reads_list (T : List (Loc × Loc)) (rs : List Nat) : ∀ (s : Net α), ((rs.map Event.read).foldl (perform T) s).mem = s.mem ∧
    ∀ k t, T[k]? = some t → (k ∈ rs ∨ s.transit k = s.mem t.1) → ((rs.map Event.read).foldl (perform T) s).transit k = s.mem t.1 := by
  induction rs with
  | nil => intro s; refine ⟨rfl, fun k t _ h => ?_⟩; rcases h with h | h <;> [simp at h; exact h]
  | cons a rs ih =>
    intro s
    simp only [List.map_cons, List.foldl_cons]
    have hmem : (perform T s (.read a)).mem = s.mem := by simp only [perform]; split <;> rfl
    obtain ⟨i1, i2⟩ := ih (perform T s (.read a))
    rw [hmem] at i1 i2
    refine ⟨i1, fun k t ht h => i2 k t ht ?_⟩
    by_cases hk : k ∈ rs
    · exact Or.inl hk
    refine Or.inr ?_
    by_cases e : k = a
    · subst e; simp only [perform, ht, Function.update_self]
    · have : (perform T s (.read a)).transit k = s.transit k := by
        simp only [perform]; split <;> [exact Function.update_of_ne e _ _; rfl]
      rw [this]
      rcases h with h | h
      · rcases List.mem_cons.1 h with h | h <;> [exact absurd h e; exact absurd h hk]
      · exact h

/-- If every place has a value it can have by one of the element copies (or, if there are none to it, its old value), then some order of events gives all of these values. -/
theorem after_any (T : List (Loc × Loc)) (mem res : Loc → α) (tr : Nat → α)
    (h : ∀ l, (res l = mem l ∧ ∀ t ∈ T, t.2 ≠ l) ∨ ∃ t ∈ T, t.2 = l ∧ res l = mem t.1) :
    ∃ evs, Complete T evs ∧ after T mem tr evs = res := by
  classical
  let good : List Nat := (List.range T.length).filter fun k => match T[k]? with
    | some t => decide (res t.2 = mem t.1)
    | none => false
  have hgood : ∀ k ∈ good, ∀ t, T[k]? = some t → res t.2 = mem t.1 := by
    intro k hk t ht
    have := (List.mem_filter.1 hk).2
    rw [ht] at this
    simpa using this
  refine ⟨(List.range T.length).map Event.read ++ (List.range T.length ++ good).map Event.write, ⟨?_, ?_⟩, ?_⟩
  · intro pre k post he
    have hall : Event.write k ∈ (List.range T.length).map Event.read ++ (List.range T.length ++ good).map Event.write := by rw [he]; simp
    have hk' : k < T.length := by
      simp only [List.map_append, List.mem_append, List.mem_map, List.mem_range, reduceCtorEq, and_false, exists_false, Event.write.injEq, exists_eq_right,
        false_or] at hall
      rcases hall with h | h
      · exact h
      · exact List.mem_range.1 (List.mem_filter.1 h).1
    rw [List.append_eq_append_iff] at he
    rcases he with ⟨a', rfl, -⟩ | ⟨c', h1, h2⟩
    · simp [hk']
    · rcases c' with _ | ⟨x, c'⟩
      · simp only [List.append_nil] at h1
        rw [← h1]; simp [hk']
      · simp only [List.cons_append, List.cons.injEq] at h2
        exfalso
        have : x ∈ (List.range T.length).map Event.read := by rw [h1]; simp
        rw [← h2.1] at this
        simp at this
  · intro k hk; simp [hk]
  · funext l
    unfold after
    rw [List.foldl_append]
    obtain ⟨r1, r2⟩ := reads_list T (List.range T.length) (⟨mem, tr⟩ : Net α)
    set s := ((List.range T.length).map Event.read).foldl (perform T) ⟨mem, tr⟩ with hs
    have hlt : ∀ {k t}, T[k]? = some t → k < T.length := fun {k t} ht => by
      by_contra hc; rw [List.getElem?_eq_none (by omega)] at ht; simp at ht
    rw [List.map_append, List.foldl_append]
    rcases h l with ⟨h1, h2⟩ | ⟨t, ht, h1, h2⟩
    · have hno : ∀ {k : Nat} {t}, T[k]? = some t → t.2 ≠ l := fun ht => h2 _ (List.mem_of_getElem? ht)
      refine writes_list T l (res l) good _ (fun k hk t ht e => absurd e (hno ht)) (Or.inr ?_)
      refine writes_list T l (res l) (List.range T.length) _ (fun k hk t ht e => absurd e (hno ht)) (Or.inr ?_)
      rw [r1, h1]
    · have htr : ∀ {ws : List Nat} {s : Net α}, ((ws.map Event.write).foldl (perform T) s).transit = s.transit := by
        intro ws
        induction ws with
        | nil => intro s; rfl
        | cons a ws ih => intro s; simp only [List.map_cons, List.foldl_cons]; rw [ih]; simp only [perform]; split <;> rfl
      obtain ⟨k, hk, e⟩ := List.getElem_of_mem ht
      have hk' : T[k]? = some t := by rw [List.getElem?_eq_getElem hk, e]
      refine writes_list T l (res l) good _ (fun j hj t' ht' e' => ?_) (Or.inl ⟨k, ?_, t, hk', h1⟩)
      · rw [htr, r2 j t' ht' (Or.inl (List.mem_range.2 (hlt ht'))), ← e', hgood j hj t' ht']
      · refine List.mem_filter.2 ⟨List.mem_range.2 hk, ?_⟩
        rw [hk']; simp [h1, h2]

/-! ### Repeated exchanges -/

/-- What holds of a rank that waits for its own messages, and of what the other rank has received from it. -/
structure Good (s : Pair) (r : Bool) : Prop where
  stage : (s r).stage ≤ 2
  pending : (s r).pending ≤ if (s r).stage = 2 then 1 else 0
  buffer : 1 ≤ (s r).stage → (s r).buffer = (s r).round
  got : (s !r).got = List.range ((s r).round + (if (s r).stage = 2 then 1 else 0) - (s r).pending)

/-- Only the own round, stage, buffer and pending messages and the messages received by the other rank matter. -/
theorem Good.congr {s s' : Pair} {r : Bool} (h : Good s r) (h1 : (s' r).round = (s r).round) (h2 : (s' r).stage = (s r).stage) (h3 : (s' r).buffer = (s r).buffer)
    (h4 : (s' r).pending = (s r).pending) (h5 : (s' !r).got = (s !r).got) : Good s' r := by
  obtain ⟨g1, g2, g3, g4⟩ := h
  exact ⟨by rw [h2]; exact g1, by rw [h2, h4]; exact g2, by rw [h1, h2, h3]; exact g3, by rw [h1, h2, h4, h5]; exact g4⟩

theorem act_good {s s' : Pair} {a : Action} (hs : ∀ r, Good s r) (h : act true s a = some s') : ∀ r, Good s' r := by
  have hne : ∀ q : Bool, (!q) ≠ q := by decide
  intro r
  cases a with
  | fill q =>
    simp only [act] at h
    split_ifs at h with hst
    injection h with h; subst h
    rcases Bool.eq_or_eq_not r q with rfl | rfl
    · obtain ⟨g1, g2, g3, g4⟩ := hs r
      rw [hst] at g2 g4
      simp only [OfNat.zero_ne_ofNat, if_false] at g2 g4
      refine ⟨?_, ?_, ?_, ?_⟩ <;> simp only [Function.update_self, Function.update_of_ne (hne r)]
      · omega
      · simpa using g2
      · intro _; trivial
      · rw [g4]; simp
    · refine (hs !q).congr ?_ ?_ ?_ ?_ ?_ <;> simp only [Function.update_of_ne (hne q), Bool.not_not, Function.update_self]
  | post q =>
    simp only [act] at h
    split_ifs at h with hst
    injection h with h; subst h
    rcases Bool.eq_or_eq_not r q with rfl | rfl
    · obtain ⟨g1, g2, g3, g4⟩ := hs r
      rw [hst] at g2 g3 g4
      have g2' : (s r).pending = 0 := by simpa using g2
      rw [g2'] at g4
      refine ⟨?_, ?_, ?_, ?_⟩ <;> simp only [Function.update_self, Function.update_of_ne (hne r)]
      · omega
      · rw [g2']; simp
      · intro _; exact g3 (le_refl _)
      · rw [g4, g2']; simp
    · refine (hs !q).congr ?_ ?_ ?_ ?_ ?_ <;> simp only [Function.update_of_ne (hne q), Bool.not_not, Function.update_self]
  | transmit q =>
    simp only [act] at h
    split_ifs at h with hp
    injection h with h; subst h
    rcases Bool.eq_or_eq_not r q with rfl | rfl
    · obtain ⟨g1, g2, g3, g4⟩ := hs r
      have hstage : (s r).stage = 2 := by by_contra hc; rw [if_neg hc] at g2; omega
      rw [if_pos hstage] at g2 g4
      have hp1 : (s r).pending = 1 := by omega
      rw [hp1] at g4
      have hb := g3 (by omega)
      refine ⟨?_, ?_, ?_, ?_⟩ <;> simp only [Function.update_self, Function.update_of_ne (hne r).symm]
      · omega
      · rw [hp1]; omega
      · intro _; exact hb
      · rw [g4, hb, hp1, hstage]; simp [List.range_succ]
    · refine (hs !q).congr ?_ ?_ ?_ ?_ ?_ <;> simp only [Function.update_of_ne (hne q).symm, Bool.not_not, Function.update_self]
  | complete q =>
    simp only [act, if_true] at h
    split_ifs at h with hst
    injection h with h; subst h
    rcases Bool.eq_or_eq_not r q with rfl | rfl
    · obtain ⟨g1, g2, g3, g4⟩ := hs r
      have hp0 : (s r).pending = 0 := by have := hst.2.2; simpa using this
      rw [hst.1, hp0] at g4
      refine ⟨?_, ?_, ?_, ?_⟩ <;> simp only [Function.update_self, Function.update_of_ne (hne r)]
      · omega
      · rw [hp0]; simp
      · intro h; omega
      · rw [g4, hp0]; simp
    · refine (hs !q).congr ?_ ?_ ?_ ?_ ?_ <;> simp only [Function.update_of_ne (hne q), Bool.not_not, Function.update_self]

theorem acts_good (l : List Action) : ∀ (s0 s : Pair), (∀ r, Good s0 r) → l.foldlM (act true) s0 = some s → ∀ r, Good s r := by
  induction l with
  | nil => intro s0 s h0 h; cases h; exact h0
  | cons a l ih =>
    intro s0 s h0 h
    rw [List.foldlM_cons] at h
    obtain ⟨s1, h1, h⟩ := Option.bind_eq_some_iff.1 h
    exact ih s1 s (act_good h0 h1) h

end Verif.CudaHalo
