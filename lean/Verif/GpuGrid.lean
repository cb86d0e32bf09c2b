import Verif.Gpu

/-!
Kernels that compute the coordinates of their cell themselves, from the number of cells in each direction and an offset, and that also
use the number of the thread.
-/

namespace Verif.Gpu
variable {L V : Type}

/-- A launch `<<<(totalSize + blockSize - 1) / blockSize, blockSize>>>` with `totalSize = count.x * count.y * count.z`, of a kernel that
returns when its coordinates are outside of the `count` cells and otherwise treats the cell `coordinates + offset` (for instance
alsfvm/src/numflux/NumericalFluxCUDA.cu:77-100 and 337-361). `body` gets the number of the thread and the cell. The code computes the
counts as `int` or `size_t`; negative counts would become huge, theorems about these launches assume nonnegative ones. -/
def gridLaunch (count offset : I3) (blockSize : Nat) (body : Nat → I3 → Prog L V) : Launch L V :=
  let nx := count.x.toNat
  let ny := count.y.toNat
  let nz := count.z.toNat
  ⟨threadCount (nx * ny * nz) blockSize, fun i =>
    let c := decode nx ny i
    if (nx : Int) ≤ c.x ∨ (ny : Int) ≤ c.y ∨ (nz : Int) ≤ c.z then .done else body i (c + offset)⟩

/-- The number of the thread that treats cell `c`. -/
def threadOf (count offset c : I3) : Nat := encode count.x.toNat count.y.toNat (c - offset)

theorem sub_mem {count offset c : I3} (hc : c ∈ box offset (offset + count)) :
    inSize ⟨count.x.toNat, count.y.toNat, count.z.toNat⟩ (c - offset) = true := by
  simp only [mem_box, I3.add_x, I3.add_y, I3.add_z] at hc
  simp only [inSize_iff, I3.sub_x, I3.sub_y, I3.sub_z]
  omega

theorem I3_sub_add (c o : I3) : c - o + o = c := by cases c; cases o; simp [I3.ext_iff]

theorem threadOf_lt {count offset c : I3} (hc : c ∈ box offset (offset + count)) :
    threadOf count offset c < count.x.toNat * count.y.toNat * count.z.toNat := encode_lt (sub_mem hc)

theorem decode_threadOf {count offset c : I3} (hc : c ∈ box offset (offset + count)) :
    decode count.x.toNat count.y.toNat (threadOf count offset c) + offset = c := by
  unfold threadOf
  rw [decode_encode (sub_mem hc), I3_sub_add]

theorem threadOf_decode (count offset : I3) (i : Nat) :
    threadOf count offset (decode count.x.toNat count.y.toNat i + offset) = i := by
  unfold threadOf
  have : decode count.x.toNat count.y.toNat i + offset - offset = decode count.x.toNat count.y.toNat i := by
    rw [I3.ext_iff]; simp
  rw [this, encode_decode]

theorem threadOf_inj {count offset c c' : I3} (hc : c ∈ box offset (offset + count)) (hc' : c' ∈ box offset (offset + count))
    (h : threadOf count offset c = threadOf count offset c') : c = c' := by
  rw [← decode_threadOf hc, h, decode_threadOf hc']

theorem decode_mem_box {count offset : I3} {i : Nat}
    (h : ¬ ((count.x.toNat : Int) ≤ (decode count.x.toNat count.y.toNat i).x ∨
      (count.y.toNat : Int) ≤ (decode count.x.toNat count.y.toNat i).y ∨
      (count.z.toNat : Int) ≤ (decode count.x.toNat count.y.toNat i).z)) :
    decode count.x.toNat count.y.toNat i + offset ∈ box offset (offset + count) := by
  simp only [not_or, not_le] at h
  obtain ⟨h1, h2, h3⟩ := h
  have e : ∀ a d o : Int, d < (a.toNat : Int) → 0 ≤ d → o ≤ d + o ∧ d + o < o + a := by intro a d o h h'; omega
  simp only [mem_box, I3.add_x, I3.add_y, I3.add_z]
  exact ⟨e _ _ _ h1 (by simp only [decode]; omega), e _ _ _ h2 (by simp only [decode]; omega),
    e _ _ _ h3 (by simp only [decode]; exact Int.natCast_nonneg _)⟩

/-- A launch over a grid whose cells are well behaved is deterministic. -/
theorem yields_grid [DecidableEq L] {count offset hi : I3} {blockSize : Nat} {body : Nat → I3 → Prog L V} {touch : I3 → L → Prop}
    {m m' : Arr L V} {F : L → V} (hhi : hi = offset + count) (hb : 0 < blockSize)
    (h : ∀ c ∈ box offset hi, CellFits (· ∈ box offset hi) touch m F c (fun _ => False) (body (threadOf count offset c) c))
    (hinb : m'.inb = m.inb) (hnew : ∀ c ∈ box offset hi, ∀ l, touch c l → m'.val l = F l)
    (hold : ∀ l, (∀ c ∈ box offset hi, ¬ touch c l) → m'.val l = m.val l) : yields (gridLaunch count offset blockSize body) m m' := by
  subst hhi
  set nx := count.x.toNat with hnx
  set ny := count.y.toNat with hny
  set nz := count.z.toNat with hnz
  let out (i : Nat) : Prop := (nx : Int) ≤ (decode nx ny i).x ∨ (ny : Int) ≤ (decode nx ny i).y ∨ (nz : Int) ≤ (decode nx ny i).z
  have hmem : ∀ i, ¬ out i → decode nx ny i + offset ∈ box offset (offset + count) := fun i hi => decode_mem_box hi
  refine yields_of_fits (touch := fun i l => ¬ out i ∧ touch (decode nx ny i + offset) l) (F := F) ?_ hinb ?_ ?_
  · intro i _
    simp only [gridLaunch]
    by_cases ho : out i
    · rw [if_pos ho]
      exact .done fun l hl => absurd ho hl.1
    · rw [if_neg ho]
      have hm := hmem i ho
      have hbody := h _ hm
      rw [threadOf_decode] at hbody
      refine CellFits.fits (cells := (· ∈ box offset (offset + count))) (touch := touch) (c := decode nx ny i + offset) ?_ ?_ hbody
      · intro l; exact ⟨fun h => h.2, fun h => ⟨ho, h⟩⟩
      · rintro j _ l ⟨hoj, hl⟩
        refine ⟨_, hmem j hoj, hl, fun he => ?_⟩
        refine decode_inj (nx := nx) (ny := ny) ?_
        have := I3.ext_iff.1 he
        simp only [I3.add_x, I3.add_y, I3.add_z] at this
        exact I3.ext_iff.2 (by omega)
  · rintro i _ l ⟨ho, hl⟩
    exact hnew _ (hmem i ho) l hl
  · intro l hl
    refine hold l fun c hc ht => ?_
    refine hl (threadOf count offset c) (lt_of_lt_of_le (threadOf_lt hc) (threadCount_ge hb)) ⟨?_, ?_⟩
    · have hs := sub_mem hc
      simp only [out, threadOf]
      rw [decode_encode hs]
      simp only [inSize_iff] at hs
      omega
    · rw [decode_threadOf hc]; exact ht

theorem Leaves.grid [DecidableEq L] {count offset c : I3} {blockSize : Nat} {body : Nat → I3 → Prog L V} {m : Arr L V} (hb : 0 < blockSize)
    (hc : c ∈ Verif.box offset (offset + count)) (h : Leaves m (body (threadOf count offset c) c)) :
    (∃ schedule : List Nat, (∀ j ∈ schedule, j < (gridLaunch count offset blockSize body).threads) ∧
      Machine.run schedule ⟨m, (gridLaunch count offset blockSize body).kernel⟩ = .error .ub) ∧
      ∀ m', ¬ yields (gridLaunch count offset blockSize body) m m' := by
  refine Leaves.launch (i := threadOf count offset c) (lt_of_lt_of_le (threadOf_lt hc) (threadCount_ge hb)) ?_
  have hs := sub_mem hc
  simp only [gridLaunch]
  rw [if_neg, decode_threadOf hc]
  · exact h
  · simp only [threadOf]
    rw [decode_encode hs]
    simp only [inSize_iff] at hs
    omega

end Verif.Gpu
