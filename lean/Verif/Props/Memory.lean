import Verif.Volume

/-!
Property theorems C01–C05 (memory areas and volumes).
-/

namespace Verif.Props
open Verif

/-! ### C01 Cell addressing is a bijection -/

/-- C01. For a memory area of `nx*ny*nz` cells: an in-range cell is inside the buffer; two in-range cells with the same slot are
the same cell; every slot of the buffer is the slot of an in-range cell. -/
theorem C01_index_bijective (nx ny nz : Nat) :
    (∀ x y z, x < nx → y < ny → z < nz → calculateIndex x y z nx ny < nx * ny * nz) ∧
    (∀ x y z x' y' z', x < nx → y < ny → z < nz → x' < nx → y' < ny → z' < nz →
      calculateIndex x y z nx ny = calculateIndex x' y' z' nx ny → x = x' ∧ y = y' ∧ z = z') ∧
    (∀ i, i < nx * ny * nz → ∃ x y z, x < nx ∧ y < ny ∧ z < nz ∧ calculateIndex x y z nx ny = i) := by
  refine ⟨fun x y z hx hy hz => calculateIndex_lt hx hy hz, ?_, ?_⟩
  · intro x y z x' y' z' hx hy _ hx' hy' _ h
    exact calculateIndex_inj hx hy hx' hy' h
  · intro i hi
    obtain ⟨h1, h2, h3, h4⟩ := calculateIndex_surj hi
    exact ⟨_, _, _, h1, h2, h3, h4⟩

/-- Neighbouring cells: moving by one in x, y, z moves the slot by 1, `nx`, `nx*ny` (x runs fastest). -/
theorem C01_strides (x y z nx ny : Nat) :
    calculateIndex (x + 1) y z nx ny = calculateIndex x y z nx ny + 1 ∧
    calculateIndex x (y + 1) z nx ny = calculateIndex x y z nx ny + nx ∧
    calculateIndex x y (z + 1) nx ny = calculateIndex x y z nx ny + nx * ny := by
  unfold calculateIndex
  refine ⟨by ring, by ring, by ring⟩

example : calculateIndex 1 2 3 4 5 = 69 ∧ (69 : Nat) < 4 * 5 * 6 := by decide
example : ∃ x y z, x < 4 ∧ y < 5 ∧ z < 6 ∧ calculateIndex x y z 4 5 = 69 :=
  (C01_index_bijective 4 5 6).2.2 69 (by decide)

/-! ### C02 Interior extraction -/

/-- C02 (partial). For a buffer that is large enough, extraction succeeds without touching anything outside the buffers, slot
`k*nx*ny + j*nx + i` of the result is interior cell `(i,j,k)`, and the rest of the buffer is untouched.
Missing from the full property: a buffer that is too small is not refused, see `C02_short_buffer_is_overrun`. -/
theorem C02_copyInternalCells_partial {α : Type} (v : Volume α) (hv : v.WF) (var : Nat) (m : Mem α)
    (hm : v.areas[var]? = some m) (output : Nat → α) (outputSize : Nat) (hs : v.nx * v.ny * v.nz ≤ outputSize) :
    ∃ out, v.copyInternalCells var output outputSize = .ok out ∧
      (∀ i j k, i < v.nx → j < v.ny → k < v.nz →
        out.val (k * (v.nx * v.ny) + j * v.nx + i) = v.interior m i j k) ∧
      ∀ q, v.nx * v.ny * v.nz ≤ q → out.val q = output q := by
  obtain ⟨h1, h2, h3⟩ := hv m (List.mem_of_getElem? hm)
  obtain ⟨out, ho, hc, hr⟩ := Volume.mem_copyInternalCells_ok m v.nx v.ny v.nz v.gx v.gy v.gz h1 h2 h3 output outputSize hs
  refine ⟨out, ?_, ?_, hr⟩
  · simp only [Volume.copyInternalCells, hm]
    rw [← ho, h1, h2, h3]
  · intro i j k hi hj hk
    have := hc i j k hi hj hk
    rw [h1, h2] at this
    rw [← Nat.mul_assoc]
    exact this

/-- C02, violated part: a buffer one element too short is neither refused nor truncated, the last cell is written past its end
(witness: two cells, no ghost cells, a buffer of one element). -/
theorem C02_short_buffer_is_overrun :
    ∃ (v : Volume Nat) (output : Nat → Nat), v.WF ∧ v.nx * v.ny * v.nz = 2 ∧
      v.copyInternalCells 0 output 1 = .error .ub := by
  refine ⟨Volume.mk' 2 1 1 0 [fun i => i], fun _ => 0, Volume.wf_mk' _ _ _ _ _, rfl, ?_⟩
  rfl

/-- Concrete volume meeting the hypotheses: 3×2 cells with one ghost layer. -/
example : ∃ out, (Volume.mk' 3 2 1 1 [fun i => i]).copyInternalCells 0 (fun _ => 100) 6 = .ok out ∧
    out.val 0 = 6 ∧ out.val 5 = 13 := by
  obtain ⟨out, h, hc, _⟩ := C02_copyInternalCells_partial (Volume.mk' 3 2 1 1 [fun i => i]) (Volume.wf_mk' _ _ _ _ _) 0
    ⟨5, 4, 1, fun i => i⟩ rfl (fun _ => 100) 6 (by decide)
  exact ⟨out, h, hc 0 0 0 (by decide) (by decide) (by decide), hc 2 1 0 (by decide) (by decide) (by decide)⟩

/-! ### C03 Volume arithmetic acts cell by cell -/

/-- `m'` has the shape of `m` and holds `f i` in every slot `i` (and nothing is said about anything outside the buffer). -/
def Holds {α : Type} (m m' : Mem α) (f : Nat → α) : Prop :=
  m'.nx = m.nx ∧ m'.ny = m.ny ∧ m'.nz = m.nz ∧ ∀ i, i < m.nx * m.ny * m.nz → m'.val i = f i

section
variable {K P : Type} [Field K]

/-- C03, linear combination: for equal sizes every slot becomes `a1*d1+a2*d2+a3*d3+a4*d4+a5*d5` of the old values of the same
slot, even when operands alias the destination. -/
theorem C03_linear_combination (m : Mem K) (a1 a2 a3 a4 a5 : K) (v2 v3 v4 v5 : Mem.Arg K)
    (h2 : v2.size m = m.size) (h3 : v3.size m = m.size) (h4 : v4.size m = m.size) (h5 : v5.size m = m.size) :
    ∃ m', m.addLinearCombination a1 a2 v2 a3 v3 a4 v4 a5 v5 = .ok m' ∧
      Holds m m' fun i => a1 * m.val i + a2 * v2.val m i + a3 * v3.val m i + a4 * v4.val m i + a5 * v5.val m i := by
  simp only [Mem.addLinearCombination, Mem.checkSize, h2, h3, h4, h5, ne_eq, not_true, if_false, Res.ok_bind]
  apply Mem.loop_ok
  intro b i hi hb hv
  simp [Mem.rd_self hi hb hv, Mem.Arg.rd_ok hi h2.ge hb hv, Mem.Arg.rd_ok hi h3.ge hb hv, Mem.Arg.rd_ok hi h4.ge hb hv,
    Mem.Arg.rd_ok hi h5.ge hb hv]

/-- C03, linear combination refuses operands of a different size. -/
theorem C03_linear_combination_mismatch (m : Mem K) (a1 a2 a3 a4 a5 : K) (v2 v3 v4 v5 : Mem.Arg K)
    (h : v2.size m ≠ m.size ∨ v3.size m ≠ m.size ∨ v4.size m ≠ m.size ∨ v5.size m ≠ m.size) :
    m.addLinearCombination a1 a2 v2 a3 v3 a4 v4 a5 v5 = .error .thrown := by
  simp only [Mem.addLinearCombination, Mem.checkSize]
  by_cases h2 : v2.size m = m.size <;> by_cases h3 : v3.size m = m.size <;> by_cases h4 : v4.size m = m.size <;>
    by_cases h5 : v5.size m = m.size <;> simp_all

/-- C03, `+=` (partial): correct for equal sizes, also when adding a memory area to itself.
Missing: different sizes are not detected, see `C03_add_no_size_check`. -/
theorem C03_add_partial (m : Mem K) (o : Mem.Arg K) (h : o.size m = m.size) :
    ∃ m', m.addAssign o = .ok m' ∧ Holds m m' fun i => m.val i + o.val m i := by
  apply Mem.loop_ok
  intro b i hi hb hv
  simp [Mem.rd_self hi hb hv, Mem.Arg.rd_ok hi h.ge hb hv]

/-- C03, violated part: `+=` with a larger operand silently adds its leading elements, with a smaller operand it reads out of
bounds. -/
theorem C03_add_no_size_check :
    (∃ m o m' : Mem ℚ, m.size ≠ o.size ∧ m.addAssign (.other o) = .ok m') ∧
    (∃ m o : Mem ℚ, m.size ≠ o.size ∧ m.addAssign (.other o) = .error .ub) := by
  refine ⟨⟨⟨1, 1, 1, fun _ => 0⟩, ⟨2, 1, 1, fun _ => 1⟩, ?_⟩, ⟨⟨2, 1, 1, fun _ => 0⟩, ⟨1, 1, 1, fun _ => 1⟩, ?_⟩⟩
  · exact ⟨⟨1, 1, 1, Function.update (fun _ => 0) 0 (0 + 1)⟩, by decide, rfl⟩
  · exact ⟨by decide, rfl⟩

/-- C03, `-=`, `*=`, `/=` with another memory area: correct for equal sizes, refused otherwise. -/
theorem C03_sub_mul_div (m : Mem K) (o : Mem.Arg K) :
    (o.size m = m.size →
      (∃ m', m.subAssign o = .ok m' ∧ Holds m m' fun i => m.val i - o.val m i) ∧
      (∃ m', m.mulAssign o = .ok m' ∧ Holds m m' fun i => m.val i * o.val m i) ∧
      ((∀ i < m.size, o.val m i ≠ 0) → ∃ m', m.divAssign o = .ok m' ∧ Holds m m' fun i => m.val i / o.val m i)) ∧
    (o.size m ≠ m.size →
      m.subAssign o = .error .thrown ∧ m.mulAssign o = .error .thrown ∧ m.divAssign o = .error .thrown) := by
  refine ⟨fun h => ⟨?_, ?_, fun _ => ?_⟩, fun h => ⟨?_, ?_, ?_⟩⟩
  · simp only [Mem.subAssign, Mem.checkSize, h, ne_eq, not_true, if_false, Res.ok_bind]
    apply Mem.loop_ok
    intro b i hi hb hv
    simp [Mem.rd_self hi hb hv, Mem.Arg.rd_ok hi h.ge hb hv]
  · simp only [Mem.mulAssign, Mem.checkSize, h, ne_eq, not_true, if_false, Res.ok_bind]
    apply Mem.loop_ok
    intro b i hi hb hv
    simp [Mem.rd_self hi hb hv, Mem.Arg.rd_ok hi h.ge hb hv]
  · simp only [Mem.divAssign, Mem.checkSize, h, ne_eq, not_true, if_false, Res.ok_bind]
    apply Mem.loop_ok
    intro b i hi hb hv
    simp [Mem.rd_self hi hb hv, Mem.Arg.rd_ok hi h.ge hb hv]
  · simp [Mem.subAssign, Mem.checkSize, h]
  · simp [Mem.mulAssign, Mem.checkSize, h]
  · simp [Mem.divAssign, Mem.checkSize, h]

/-- C03, operations with a scalar and zeroing. -/
theorem C03_scalar (m : Mem K) (s : K) :
    (∃ m', m.addScalar s = .ok m' ∧ Holds m m' fun i => m.val i + s) ∧
    (∃ m', m.subScalar s = .ok m' ∧ Holds m m' fun i => m.val i - s) ∧
    (∃ m', m.mulScalar s = .ok m' ∧ Holds m m' fun i => m.val i * s) ∧
    (s ≠ 0 → ∃ m', m.divScalar s = .ok m' ∧ Holds m m' fun i => m.val i / s) ∧
    (∃ m', m.makeZero = .ok m' ∧ Holds m m' fun _ => 0) := by
  refine ⟨?_, ?_, ?_, fun _ => ?_, ?_⟩ <;>
  · apply Mem.loop_ok
    intro b i hi hb hv
    simp [Mem.rd_self hi hb hv]

/-- C03, adding `factor * other^p` and subtracting `other^p`: correct for equal sizes, refused otherwise
(for whatever function `std::pow` computes). -/
theorem C03_power (pow : K → P → K) (m : Mem K) (o : Mem.Arg K) (p : P) (factor : K) :
    (o.size m = m.size →
      (∃ m', m.addPower pow o p factor = .ok m' ∧ Holds m m' fun i => m.val i + factor * pow (o.val m i) p) ∧
      (∃ m', m.subtractPower pow o p = .ok m' ∧ Holds m m' fun i => m.val i - pow (o.val m i) p)) ∧
    (o.size m ≠ m.size →
      m.addPower pow o p factor = .error .thrown ∧ m.subtractPower pow o p = .error .thrown) := by
  refine ⟨fun h => ⟨?_, ?_⟩, fun h => ⟨?_, ?_⟩⟩
  · simp only [Mem.addPower, Mem.checkSize, h, ne_eq, not_true, if_false, Res.ok_bind]
    apply Mem.loop_ok
    intro b i hi hb hv
    simp [Mem.rd_self hi hb hv, Mem.Arg.rd_ok hi h.ge hb hv]
  · simp only [Mem.subtractPower, Mem.checkSize, h, ne_eq, not_true, if_false, Res.ok_bind]
    apply Mem.loop_ok
    intro b i hi hb hv
    simp [Mem.rd_self hi hb hv, Mem.Arg.rd_ok hi h.ge hb hv]
  · simp [Mem.addPower, Mem.checkSize, h]
  · simp [Mem.subtractPower, Mem.checkSize, h]

end

example : ∃ m', (⟨2, 1, 1, fun i => i⟩ : Mem ℚ).addAssign .self = .ok m' ∧ m'.val 1 = 2 := by
  obtain ⟨m', h, _, _, _, hv⟩ := C03_add_partial (⟨2, 1, 1, fun i => i⟩ : Mem ℚ) .self rfl
  exact ⟨m', h, by rw [hv 1 (by decide)]; norm_num [Mem.Arg.val]⟩
example : ∃ m', (⟨2, 1, 1, fun i => i⟩ : Mem ℚ).addLinearCombination 1 2 .self 3 (.other ⟨1, 2, 1, fun _ => 5⟩) 0 .self 0 .self
    = .ok m' ∧ m'.val 1 = 18 := by
  obtain ⟨m', h, _, _, _, hv⟩ := C03_linear_combination (⟨2, 1, 1, fun i => i⟩ : Mem ℚ) 1 2 3 0 0 .self
    (.other ⟨1, 2, 1, fun _ => 5⟩) .self .self rfl rfl rfl rfl
  exact ⟨m', h, by rw [hv 1 (by decide)]; norm_num [Mem.Arg.val]⟩
example : (⟨2, 1, 1, fun i => i⟩ : Mem ℚ).mulAssign (.other ⟨3, 1, 1, fun _ => 5⟩) = .error .thrown :=
  ((C03_sub_mul_div _ _).2 (by decide)).2.1
example : ∃ m', (⟨2, 1, 1, fun i => i⟩ : Mem ℚ).divScalar 2 = .ok m' ∧
    Holds (α := ℚ) ⟨2, 1, 1, fun i => i⟩ m' fun i => (i : ℚ) / 2 :=
  (C03_scalar _ 2).2.2.2.1 (by norm_num)
example : ∃ m', (⟨2, 1, 1, fun i => i⟩ : Mem ℚ).addPower (fun x (n : Nat) => x ^ n) .self 2 3 = .ok m' ∧
    Holds (α := ℚ) ⟨2, 1, 1, fun i => i⟩ m' fun i => (i : ℚ) + 3 * (i : ℚ) ^ 2 :=
  ((C03_power _ _ _ _ _).1 rfl).1

/-- C03 for volumes (partial): `v += w` and `v *= s` do this in every slot of every variable, for volumes of equal shape.
Missing: unequal shapes, see `C03_add_no_size_check`. -/
theorem C03_volume_partial {K : Type} [Field K] (v w : Volume K) (hv : v.WF) (hw : w.WF) (hx : w.tx = v.tx)
    (hy : w.ty = v.ty) (hz : w.tz = v.tz) (hn : v.areas.length = w.areas.length) (s : K) :
    (∃ r, v.addAssign w = .ok r ∧ r.areas.length = v.areas.length ∧ ∀ (n : Nat) (a b c : Mem K), v.areas[n]? = some a →
      w.areas[n]? = some b → r.areas[n]? = some c → Holds a c fun i => a.val i + b.val i) ∧
    (∃ r, v.mulScalar s = .ok r ∧ r.areas.length = v.areas.length ∧ ∀ (n : Nat) (a c : Mem K), v.areas[n]? = some a →
      r.areas[n]? = some c → Holds a c fun i => a.val i * s) := by
  constructor
  · have := Volume.zipAreas_ok (f := fun a b => a.addAssign (.other b))
      (Q := fun a b c => Holds a c fun i => a.val i + b.val i) (as := v.areas) (bs := w.areas) hn.le (by
        intro n a b ha hb
        obtain ⟨a1, a2, a3⟩ := hv a (List.mem_of_getElem? ha)
        obtain ⟨b1, b2, b3⟩ := hw b (List.mem_of_getElem? hb)
        exact C03_add_partial a (.other b) (by simp [Mem.Arg.size, Mem.size, a1, a2, a3, b1, b2, b3, hx, hy, hz]))
    obtain ⟨cs, h1, h2, h3⟩ := this
    exact ⟨{ v with areas := cs }, by simp [Volume.addAssign, h1], h2, h3⟩
  · have : ∀ l : List (Mem K), ∃ cs, l.mapM (fun a => a.mulScalar s) = .ok cs ∧ cs.length = l.length ∧
        ∀ (n : Nat) (a c : Mem K), l[n]? = some a → cs[n]? = some c → Holds a c fun i => a.val i * s := by
      intro l
      induction l with
      | nil => exact ⟨[], rfl, rfl, by simp⟩
      | cons a l ih =>
        obtain ⟨cs, h1, h2, h3⟩ := ih
        obtain ⟨c, h4, h5⟩ := (C03_scalar a s).2.2.1
        refine ⟨c :: cs, by simp [List.mapM_cons, h4, h1], by simp [h2], ?_⟩
        intro n a' c' ha hc
        cases n with
        | zero => simp at ha hc; subst ha hc; exact h5
        | succ n => exact h3 n a' c' (by simpa using ha) (by simpa using hc)
    obtain ⟨cs, h1, h2, h3⟩ := this v.areas
    exact ⟨{ v with areas := cs }, by simp [Volume.mulScalar, h1], h2, h3⟩

example : (∃ r, (Volume.mk' 3 2 1 1 [fun i => (i : ℚ), fun _ => 1]).addAssign
    (Volume.mk' 3 2 1 1 [fun i => (i : ℚ), fun _ => 1]) = .ok r) := by
  obtain ⟨⟨r, h, _⟩, _⟩ := C03_volume_partial _ _ (Volume.wf_mk' 3 2 1 1 [fun i => (i : ℚ), fun _ => 1])
    (Volume.wf_mk' 3 2 1 1 [fun i => (i : ℚ), fun _ => 1]) rfl rfl rfl rfl 1
  exact ⟨r, h⟩

/-! ### C04 Volume assignment -/

/-- C04 (partial). Assigning a volume of the same interior size and the same ghost widths copies every interior cell of every
variable. Missing: different ghost widths, see `C04_ghost_widths_differ`. -/
theorem C04_setVolume_partial {K : Type} [Field K] (v w : Volume K) (hv : v.WF) (hw : w.WF)
    (hn : v.areas.length = w.areas.length) (hsize : w.nx = v.nx ∧ w.ny = v.ny ∧ w.nz = v.nz)
    (hghost : w.gx = v.gx ∧ w.gy = v.gy ∧ w.gz = v.gz) :
    ∃ r, v.setVolume w = .ok r ∧ r.areas.length = v.areas.length ∧
      ∀ (n : Nat) (b c : Mem K), w.areas[n]? = some b → r.areas[n]? = some c →
        ∀ i j k, i < v.nx → j < v.ny → k < v.nz → r.interior c i j k = w.interior b i j k := by
  obtain ⟨s1, s2, s3⟩ := hsize
  obtain ⟨g1, g2, g3⟩ := hghost
  have hlen : ¬ (w.areas.length ≠ v.areas.length) := by simp [hn]
  simp only [Volume.setVolume, hlen, if_false, s1, s2, s3, and_self, if_true]
  unfold Volume.copyTo
  cases hwa : w.areas with
  | nil =>
    refine ⟨v, rfl, rfl, ?_⟩
    intro n b c hb; simp at hb
  | cons a0 as =>
    have htx : w.tx = v.tx := by simp [Volume.tx, s1, g1]
    have hty : w.ty = v.ty := by simp [Volume.ty, s2, g2]
    have htz : w.tz = v.tz := by simp [Volume.tz, s3, g3]
    have ha0 : a0.size = v.tx * v.ty * v.tz := by
      obtain ⟨h1, h2, h3⟩ := hw a0 (by simp [hwa])
      simp [Mem.size, h1, h2, h3, htx, hty, htz]
    have := Volume.zipAreas_ok (f := fun s d => Volume.copyArea a0.size s d)
      (Q := fun s d c => ∀ i, i < v.tx * v.ty * v.tz → c.val i = s.val i) (as := a0 :: as) (bs := v.areas)
      (by rw [← hwa, hn]) (by
        intro n s d hs hd
        obtain ⟨b1, b2, b3⟩ := hw s (by rw [hwa]; exact List.mem_of_getElem? hs)
        obtain ⟨d1, d2, d3⟩ := hv d (List.mem_of_getElem? hd)
        have es : s.size = v.tx * v.ty * v.tz := by simp [Mem.size, b1, b2, b3, htx, hty, htz]
        have ed : d.size = v.tx * v.ty * v.tz := by simp [Mem.size, d1, d2, d3]
        have key := Arr.foldlM_wr (List.range d.size) id
          (fun _ i => (flat a0.size s.val).rd i) s.val d.arr (by intro i hi; simpa [Mem.arr, flat] using hi)
          (List.nodup_range.imp (by simp))
          (by
            intro b i hi _ _ _
            rw [Arr.rd_ok]
            · rfl
            · simpa [flat, ha0, ← ed] using hi)
        obtain ⟨a', k1, _, k3, _⟩ := key
        refine ⟨{ d with val := a'.val }, ?_, ?_⟩
        · have e1 : s.size ≤ a0.size := by rw [es, ha0]
          have e2 : min a0.size d.size = d.size := by rw [ha0, ed]; simp
          simp only [Volume.copyArea, Mem.copyToHost, e1, if_true, Res.ok_bind, Mem.copyFromHost, e2]
          simp only [id] at k1
          rw [k1]; rfl
        · intro i hi
          exact k3 i (by simpa [ed] using hi))
    obtain ⟨cs, h1, h2, h3⟩ := this
    have hdrop : v.areas.drop (a0 :: as).length = [] := by
      rw [← hwa, ← hn, List.drop_length]
    refine ⟨{ v with areas := cs }, ?_, ?_, ?_⟩
    · simp only [h1, Res.ok_bind, hdrop, List.append_nil]; rfl
    · simp [h2, ← hwa, hn]
    · intro n b c hb hc i j k hi hj hk
      have hn' : n < v.areas.length := by
        have := (List.getElem?_eq_some_iff.1 hb).1
        rwa [← hwa, ← hn] at this
      have := h3 n b v.areas[n] c hb (by simp [hn']) hc
        (calculateIndex (i + v.gx) (j + v.gy) (k + v.gz) v.tx v.ty)
        (calculateIndex_lt (by simp [Volume.tx]; omega) (by simp [Volume.ty]; omega) (by simp [Volume.tz]; omega))
      simp only [Volume.interior, g1, g2, g3, htx, hty]
      exact this

/-- C04, violated part: with different ghost widths the interior is shifted
(witness: two cells, one ghost layer in the source, none in the destination). -/
theorem C04_ghost_widths_differ :
    ∃ (v w r : Volume ℚ) (b c : Mem ℚ), v.WF ∧ w.WF ∧ w.nx = v.nx ∧ w.ny = v.ny ∧ w.nz = v.nz ∧ 0 < v.nx ∧
      v.setVolume w = .ok r ∧ w.areas[0]? = some b ∧ r.areas[0]? = some c ∧
      r.interior c 0 0 0 ≠ w.interior b 0 0 0 := by
  refine ⟨Volume.mk' 2 1 1 0 [fun _ => 0], Volume.mk' 2 1 1 1 [fun i => 10 + i],
    ⟨2, 1, 1, 0, 0, 0, [⟨2, 1, 1, Function.update (Function.update (fun _ => 0) 0 10) 1 11⟩]⟩, ⟨4, 1, 1, fun i => 10 + i⟩,
    ⟨2, 1, 1, Function.update (Function.update (fun _ => 0) 0 10) 1 11⟩,
    Volume.wf_mk' _ _ _ _ _, Volume.wf_mk' _ _ _ _ _, rfl, rfl, rfl, by decide, ?_, rfl, rfl, ?_⟩
  · simp [Volume.setVolume, Volume.mk', Volume.copyTo, Volume.zipAreas, Volume.copyArea, Mem.copyToHost, Mem.size,
      Mem.copyFromHost, List.range_succ, Arr.rd, Arr.wr, flat, Mem.arr]
    norm_num
  · simp [Volume.interior, Volume.mk', calculateIndex, Volume.tx, Volume.ty]

example : ∃ r, (Volume.mk' 2 1 1 1 [fun _ => (0 : ℚ)]).setVolume (Volume.mk' 2 1 1 1 [fun i => 10 + (i : ℚ)]) = .ok r := by
  obtain ⟨r, h, _⟩ := C04_setVolume_partial _ _ (Volume.wf_mk' 2 1 1 1 [fun _ => (0 : ℚ)])
    (Volume.wf_mk' 2 1 1 1 [fun i => 10 + (i : ℚ)]) rfl ⟨rfl, rfl, rfl⟩ ⟨rfl, rfl, rfl⟩
  exact ⟨r, h⟩

/-! ### C05 Coarsening -/

/-- C05 in one and two dimensions (partial). When the source has twice the interior size and twice the ghost width of the
destination (in particular when neither has ghost cells), every coarse interior cell becomes the mean of the fine interior cells
it covers. Missing: three dimensions (`C05_3d_constant_halved`) and equal ghost widths (`C05_ghosts_misaligned`). -/
theorem C05_setVolume_coarse_partial {K : Type} [Field K] (v w : Volume K) (hv : v.WF) (hw : w.WF)
    (hn : v.areas.length = w.areas.length) (hpos : 0 < v.nx) (hx : w.nx = 2 * v.nx) (hgx : w.gx = 2 * v.gx)
    (hz : v.nz = 1 ∧ w.nz = 1 ∧ v.gz = 0 ∧ w.gz = 0) :
    (v.ny = 1 → w.ny = 1 → v.gy = 0 → w.gy = 0 →
      ∃ r, v.setVolume w = .ok r ∧ r.areas.length = v.areas.length ∧
        ∀ (n : Nat) (b c : Mem K), w.areas[n]? = some b → r.areas[n]? = some c → ∀ i, i < v.nx →
          r.interior c i 0 0 = (w.interior b (2 * i) 0 0 + w.interior b (2 * i + 1) 0 0) / 2) ∧
    (1 < v.ny → w.ny = 2 * v.ny → v.gy = v.gx → w.gy = w.gx →
      ∃ r, v.setVolume w = .ok r ∧ r.areas.length = v.areas.length ∧
        ∀ (n : Nat) (b c : Mem K), w.areas[n]? = some b → r.areas[n]? = some c → ∀ i j, i < v.nx → j < v.ny →
          r.interior c i j 0 = (w.interior b (2 * i) (2 * j) 0 + w.interior b (2 * i + 1) (2 * j) 0 +
            w.interior b (2 * i) (2 * j + 1) 0 + w.interior b (2 * i + 1) (2 * j + 1) 0) / 4) := by
  obtain ⟨z1, z2, z3, z4⟩ := hz
  have hlen : ¬ (w.areas.length ≠ v.areas.length) := by simp [hn]
  have hne : ¬ (w.nx = v.nx ∧ w.ny = v.ny ∧ w.nz = v.nz) := by omega
  have hhalf : ¬ (v.nx ≠ w.nx / 2) := by omega
  have htx : w.tx = 2 * v.tx := by simp [Volume.tx]; omega
  constructor
  · intro y1 y2 y3 y4
    simp only [Volume.setVolume, Volume.interpolate]
    rw [if_neg hlen, if_neg hne, if_pos y1, if_neg hhalf]
    have := Volume.zipAreas_ok (f := fun o s => Volume.interpolateArea 1 v.gx o s)
      (Q := fun _ s c => ∀ i, i < v.nx → c.val (calculateIndex (i + v.gx) 0 0 v.tx v.ty) =
          (w.interior s (2 * i) 0 0 + w.interior s (2 * i + 1) 0 0) / 2)
      (as := v.areas) (bs := w.areas) hn.le (by
        intro n o s ho hs
        obtain ⟨o1, o2, o3⟩ := hv o (List.mem_of_getElem? ho)
        obtain ⟨s1, s2, s3⟩ := hw s (List.mem_of_getElem? hs)
        have oy : o.ny = 1 := by simp [o2, Volume.ty, y1, y3]
        have oz : o.nz = 1 := by simp [o3, Volume.tz, z1, z3]
        have sy : s.ny = 1 := by simp [s2, Volume.ty, y2, y4]
        have sz : s.nz = 1 := by simp [s3, Volume.tz, z2, z4]
        obtain ⟨c, h1, h2⟩ := Volume.interpolateArea_ok 1 v.gx o s
          (fun x y z => (s.val (calculateIndex (2 * x) y z s.nx s.ny) + s.val (calculateIndex (2 * x + 1) y z s.nx s.ny)) / 2)
          (by
            intro x y z hx1 hx2 hy1 hy2 hz1 hz2
            have a1 : 2 * x < s.nx := by rw [s1, htx]; rw [o1] at hx2; omega
            have a2 : 2 * x + 1 < s.nx := by rw [s1, htx]; rw [o1] at hx2; omega
            have a3 : y < s.ny := by simp at hy2; omega
            have a4 : z < s.nz := by simp at hz2; omega
            simp [Volume.interpolateCell, Volume.interpolateCell1, Volume.readAt, a1, a2, a3, a4])
        refine ⟨c, h1, ?_⟩
        intro i hi
        have := h2 (i + v.gx) 0 0 (by omega) (by rw [o1]; simp [Volume.tx]; omega) (by simp) (by simp [oy]) (by simp) (by simp [oz])
        rw [o1, o2] at this
        rw [this]
        simp only [Volume.interior, s1, s2, hgx, y4, z4]
        have e0 : 2 * (i + v.gx) = 2 * i + 2 * v.gx := by ring
        have e1 : 2 * i + 2 * v.gx + 1 = 2 * i + 1 + 2 * v.gx := by ring
        simp only [e0, e1, Nat.add_zero])
    obtain ⟨cs, h1, h2, h3⟩ := this
    refine ⟨{ v with areas := cs }, by simp [h1], h2, ?_⟩
    intro n b c hb hc i hi
    have hn' : n < v.areas.length := by
      have := (List.getElem?_eq_some_iff.1 hb).1
      rwa [← hn] at this
    have := h3 n v.areas[n] b c (by simp [hn']) hb hc i hi
    rw [← this]
    simp [Volume.interior, y3, z3, Volume.tx, Volume.ty]
  · intro y1 y2 y3 y4
    have hy0 : ¬ (v.ny = 1) := by omega
    have hty : w.ty = 2 * v.ty := by simp [Volume.ty]; omega
    simp only [Volume.setVolume, Volume.interpolate]
    rw [if_neg hlen, if_neg hne, if_neg hy0, if_pos z1, if_neg hhalf]
    have := Volume.zipAreas_ok (f := fun o s => Volume.interpolateArea 2 v.gx o s)
      (Q := fun _ s c => ∀ i j, i < v.nx → j < v.ny → c.val (calculateIndex (i + v.gx) (j + v.gy) 0 v.tx v.ty) =
          (w.interior s (2 * i) (2 * j) 0 + w.interior s (2 * i + 1) (2 * j) 0 +
            w.interior s (2 * i) (2 * j + 1) 0 + w.interior s (2 * i + 1) (2 * j + 1) 0) / 4)
      (as := v.areas) (bs := w.areas) hn.le (by
        intro n o s ho hs
        obtain ⟨o1, o2, o3⟩ := hv o (List.mem_of_getElem? ho)
        obtain ⟨s1, s2, s3⟩ := hw s (List.mem_of_getElem? hs)
        have oz : o.nz = 1 := by simp [o3, Volume.tz, z1, z3]
        have sz : s.nz = 1 := by simp [s3, Volume.tz, z2, z4]
        obtain ⟨c, h1, h2⟩ := Volume.interpolateArea_ok 2 v.gx o s
          (fun x y z => (s.val (calculateIndex (2 * x) (2 * y) z s.nx s.ny) +
            s.val (calculateIndex (2 * x + 1) (2 * y) z s.nx s.ny) + s.val (calculateIndex (2 * x) (2 * y + 1) z s.nx s.ny) +
            s.val (calculateIndex (2 * x + 1) (2 * y + 1) z s.nx s.ny)) / 4)
          (by
            intro x y z hx1 hx2 hy1 hy2 hz1 hz2
            have a1 : 2 * x < s.nx := by rw [s1, htx]; rw [o1] at hx2; omega
            have a2 : 2 * x + 1 < s.nx := by rw [s1, htx]; rw [o1] at hx2; omega
            have b1 : 2 * y < s.ny := by rw [s2, hty]; rw [o2] at hy2; simp at hy2; omega
            have b2 : 2 * y + 1 < s.ny := by rw [s2, hty]; rw [o2] at hy2; simp at hy2; omega
            have a4 : z < s.nz := by simp at hz2; omega
            simp [Volume.interpolateCell, Volume.interpolateCell2, Volume.readAt, a1, a2, b1, b2, a4])
        refine ⟨c, h1, ?_⟩
        intro i j hi hj
        have := h2 (i + v.gx) (j + v.gy) 0 (by omega) (by rw [o1]; simp [Volume.tx]; omega) (by simp; omega)
          (by simp [o2, Volume.ty]; omega) (by simp) (by simp [oz])
        rw [o1, o2] at this
        rw [this]
        simp only [Volume.interior, s1, s2, hgx, y4, y3, z4]
        have e0 : ∀ i, 2 * (i + v.gx) = 2 * i + 2 * v.gx := by intro i; ring
        have e1 : ∀ i, 2 * i + 2 * v.gx + 1 = 2 * i + 1 + 2 * v.gx := by intro i; ring
        simp only [e0, e1, Nat.add_zero])
    obtain ⟨cs, h1, h2, h3⟩ := this
    refine ⟨{ v with areas := cs }, by simp [h1], h2, ?_⟩
    intro n b c hb hc i j hi hj
    have hn' : n < v.areas.length := by
      have := (List.getElem?_eq_some_iff.1 hb).1
      rwa [← hn] at this
    have := h3 n v.areas[n] b c (by simp [hn']) hb hc i j hi hj
    rw [← this]
    simp [Volume.interior, z3, Volume.tx, Volume.ty]

/-- C05, violated part: in three dimensions the sum of eight cells is divided by sixteen, so the constant 1 becomes 1/2. -/
theorem C05_3d_constant_halved :
    ∃ (v w : Volume ℚ), v.WF ∧ w.WF ∧ w.nx = 2 * v.nx ∧ w.ny = 2 * v.ny ∧ w.nz = 2 * v.nz ∧ 1 < v.ny ∧ 1 < v.nz ∧
      (∀ b ∈ w.areas, ∀ i, b.val i = 1) ∧
      ∃ r c, v.setVolume w = .ok r ∧ r.areas[0]? = some c ∧ r.interior c 0 0 0 = 1 / 2 := by
  refine ⟨Volume.mk' 1 2 2 0 [fun _ => 0], Volume.mk' 2 4 4 0 [fun _ => 1], Volume.wf_mk' _ _ _ _ _, Volume.wf_mk' _ _ _ _ _,
    rfl, rfl, rfl, by decide, by decide, ?_, ?_⟩
  · intro b hb i
    simp [Volume.mk'] at hb
    subst hb; rfl
  · obtain ⟨c, h1, h2⟩ := Volume.interpolateArea_ok 3 0 (⟨1, 2, 2, fun _ => 0⟩ : Mem ℚ) ⟨2, 4, 4, fun _ => 1⟩
      (fun _ _ _ => 1 / 2) (by
        intro x y z _ hx _ hy _ hz
        have a1 : 2 * x < 2 := by simp at hx; omega
        have a2 : 2 * x + 1 < 2 := by simp at hx; omega
        have b1 : 2 * y < 4 := by simp at hy; omega
        have b2 : 2 * y + 1 < 4 := by simp at hy; omega
        have c1 : 2 * z < 4 := by simp at hz; omega
        have c2 : 2 * z + 1 < 4 := by simp at hz; omega
        simp [Volume.interpolateCell, Volume.interpolateCell3, Volume.readAt, a1, a2, b1, b2, c1, c2]
        norm_num)
    refine ⟨⟨1, 2, 2, 0, 0, 0, [c]⟩, c, ?_, rfl, ?_⟩
    · simp [Volume.setVolume, Volume.mk', Volume.interpolate, Volume.zipAreas]
      simp only [h1]; rfl
    · exact h2 0 0 0 (by simp) (by simp) (by simp) (by simp) (by simp) (by simp)

/-- C05, violated part: with one ghost layer on both volumes the coarse cell averages the wrong fine cells
(witness: two coarse cells, four fine cells; coarse cell 0 becomes the mean of fine cells 1 and 2). -/
theorem C05_ghosts_misaligned :
    ∃ (v w : Volume ℚ) (b : Mem ℚ), v.WF ∧ w.WF ∧ w.nx = 2 * v.nx ∧ v.ny = 1 ∧ w.ny = 1 ∧ v.nz = 1 ∧ w.nz = 1 ∧
      w.areas[0]? = some b ∧
      ∃ r c, v.setVolume w = .ok r ∧ r.areas[0]? = some c ∧
        r.interior c 0 0 0 ≠ (w.interior b 0 0 0 + w.interior b 1 0 0) / 2 := by
  refine ⟨Volume.mk' 2 1 1 1 [fun _ => 0], Volume.mk' 4 1 1 1 [fun i => i], ⟨6, 1, 1, fun i => i⟩, Volume.wf_mk' _ _ _ _ _,
    Volume.wf_mk' _ _ _ _ _, rfl, rfl, rfl, rfl, rfl, rfl, ?_⟩
  obtain ⟨c, h1, h2⟩ := Volume.interpolateArea_ok 1 1 (⟨4, 1, 1, fun _ => 0⟩ : Mem ℚ) ⟨6, 1, 1, fun i => i⟩
      (fun x _ _ => (2 * x + (2 * x + 1)) / 2) (by
        intro x y z hx1 hx hy1 hy hz1 hz
        have a1 : 2 * x < 6 := by simp at hx; omega
        have a2 : 2 * x + 1 < 6 := by simp at hx; omega
        have b1 : y = 0 := by simp at hy; omega
        have c1 : z = 0 := by simp at hz; omega
        subst b1 c1
        simp [Volume.interpolateCell, Volume.interpolateCell1, Volume.readAt, a1, a2, calculateIndex])
  refine ⟨⟨2, 1, 1, 1, 0, 0, [c]⟩, c, ?_, rfl, ?_⟩
  · simp [Volume.setVolume, Volume.mk', Volume.interpolate, Volume.zipAreas]
    simp only [h1]; rfl
  · have := h2 1 0 0 (by simp) (by simp) (by simp) (by simp) (by simp) (by simp)
    simp [Volume.interior, Volume.mk', Volume.tx, Volume.ty]
    rw [this]
    norm_num [calculateIndex]

example : ∃ r, (Volume.mk' 2 1 1 0 [fun _ => (0 : ℚ)]).setVolume (Volume.mk' 4 1 1 0 [fun i => (i : ℚ)]) = .ok r := by
  obtain ⟨r, h, _⟩ := (C05_setVolume_coarse_partial _ _ (Volume.wf_mk' 2 1 1 0 [fun _ => (0 : ℚ)])
    (Volume.wf_mk' 4 1 1 0 [fun i => (i : ℚ)]) rfl (by decide) rfl rfl ⟨rfl, rfl, rfl, rfl⟩).1 rfl rfl rfl rfl
  exact ⟨r, h⟩
example : ∃ r, (Volume.mk' 2 3 1 1 [fun _ => (0 : ℚ)]).setVolume (Volume.mk' 4 6 1 2 [fun i => (i : ℚ)]) = .ok r := by
  obtain ⟨r, h, _⟩ := (C05_setVolume_coarse_partial _ _ (Volume.wf_mk' 2 3 1 1 [fun _ => (0 : ℚ)])
    (Volume.wf_mk' 4 6 1 2 [fun i => (i : ℚ)]) rfl (by decide) rfl rfl ⟨rfl, rfl, rfl, rfl⟩).2 (by decide) rfl rfl rfl
  exact ⟨r, h⟩

example : (⟨2, 1, 1, fun i => i⟩ : Mem ℚ).addLinearCombination 1 2 .self 3 (.other ⟨3, 1, 1, fun _ => 5⟩) 0 .self 0 .self = .error .thrown :=
  C03_linear_combination_mismatch _ _ _ _ _ _ _ _ _ _ (.inr (.inl (by decide)))

end Verif.Props
