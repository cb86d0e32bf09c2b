import Verif.CudaMemory
import Mathlib.Algebra.Order.Field.Rat

/-!
C70: arithmetic of memory areas on the graphics card.
-/

namespace Verif.Props.CudaMemory
open Verif Gpu CudaMemory
variable {K P : Type} [Field K]

/-- The launch `k` (if the operation did not refuse) turns the device memory `h` into one where the area `m` holds `f i` in element `i` and
everything else is as before, whatever the interleaving of the threads; and the processor operation with outcome `r` on a copy of the
area gives exactly these elements. -/
def SameAsProcessor (h : Heap K) (m : Area) (k : Res (Launch (Nat × Int) K)) (r : Res (Mem K)) (f : Nat → K) : Prop :=
  ∃ l h' m', k = .ok l ∧ yields l h h' ∧ r = .ok m' ∧ h'.inb = h.inb ∧
    (∀ i < m.size, h'.val (m.buf, (i : Int)) = f i ∧ m'.val i = f i) ∧
    ∀ q, ¬ (q.1 = m.buf ∧ 0 ≤ q.2 ∧ q.2 < (m.size : Int)) → h'.val q = h.val q

/-- C70. Operations with another area of the same size on the device, possibly the same area: `+=`, `-=`, `*=`, `/=`, for any interleaving
of the threads. -/
theorem C70_with_area (h : Heap K) (m o : Area) (hm : Allocated h m) (ho : Allocated h o) (hs : o.size = m.size) :
    SameAsProcessor h m (binaryAssign (· + ·) m o) ((toHost h m).addAssign (hostArg h m o)) (fun i => h.val (m.buf, i) + h.val (o.buf, i)) ∧
    SameAsProcessor h m (binaryAssign (· - ·) m o) ((toHost h m).subAssign (hostArg h m o)) (fun i => h.val (m.buf, i) - h.val (o.buf, i)) ∧
    SameAsProcessor h m (binaryAssign (· * ·) m o) ((toHost h m).mulAssign (hostArg h m o)) (fun i => h.val (m.buf, i) * h.val (o.buf, i)) ∧
    SameAsProcessor h m (binaryAssign (· / ·) m o) ((toHost h m).divAssign (hostArg h m o)) (fun i => h.val (m.buf, i) / h.val (o.buf, i)) := by
  have main : ∀ (op : K → K → K) (r : Res (Mem K)),
      (∃ m', r = .ok m' ∧ ∀ i < m.size, m'.val i = op (h.val (m.buf, i)) (h.val (o.buf, i))) →
      SameAsProcessor h m (binaryAssign op m o) r (fun i => op (h.val (m.buf, i)) (h.val (o.buf, i))) := by
    rintro op r ⟨m', h1, h2⟩
    obtain ⟨h', k1, k2, k3, k4⟩ := binaryKernel_ok (h := h) (out := m.buf) (a := m.buf) (b := o.buf) (size := m.size) op
      (hm.inb le_rfl) (hm.inb le_rfl) (ho.inb hs.ge)
    refine ⟨_, h', m', ?_, k1, h1, k2, fun i hi => ⟨k3 i hi, h2 i hi⟩, k4⟩
    simp [binaryAssign, hs]
  have hsz := hostArg_size (h := h) (o := o) hs
  have loop : ∀ (op : K → K → K), ∃ m', (toHost h m).loop (fun b i => do let u ← b.rd i; let v ← (hostArg h m o).rd b i; pure (op u v)) = .ok m' ∧
      ∀ i < m.size, m'.val i = op (h.val (m.buf, i)) (h.val (o.buf, i)) := by
    intro op
    obtain ⟨m', h1, _, _, _, h2⟩ := Mem.loop_ok (toHost h m) (fun b i => do let u ← b.rd i; let v ← (hostArg h m o).rd b i; pure (op u v))
      (fun i => op (h.val (m.buf, i)) (h.val (o.buf, i))) (by
        intro b i hi hb hv
        simp only [Mem.rd_self hi hb hv, Mem.Arg.rd_ok hi hsz.ge hb hv, Res.ok_bind, Res.pure_eq, hostArg_val]
        rfl)
    exact ⟨m', h1, h2⟩
  refine ⟨main _ _ (loop _), main _ _ ?_, main _ _ ?_, main _ _ ?_⟩
  · simpa only [Mem.subAssign, Mem.checkSize, hsz, ne_eq, not_true, if_false, Res.ok_bind] using loop (· - ·)
  · simpa only [Mem.mulAssign, Mem.checkSize, hsz, ne_eq, not_true, if_false, Res.ok_bind] using loop (· * ·)
  · simpa only [Mem.divAssign, Mem.checkSize, hsz, ne_eq, not_true, if_false, Res.ok_bind] using loop (· / ·)

/-- C70. Operations with a scalar. -/
theorem C70_with_scalar (h : Heap K) (m : Area) (s : K) (hm : Allocated h m) :
    SameAsProcessor h m (scalarAssign (· + ·) m s) ((toHost h m).addScalar s) (fun i => h.val (m.buf, i) + s) ∧
    SameAsProcessor h m (scalarAssign (· - ·) m s) ((toHost h m).subScalar s) (fun i => h.val (m.buf, i) - s) ∧
    SameAsProcessor h m (scalarAssign (· * ·) m s) ((toHost h m).mulScalar s) (fun i => h.val (m.buf, i) * s) ∧
    SameAsProcessor h m (scalarAssign (· / ·) m s) ((toHost h m).divScalar s) (fun i => h.val (m.buf, i) / s) := by
  have main : ∀ (op : K → K → K), SameAsProcessor h m (scalarAssign op m s)
      ((toHost h m).loop (fun b i => do let u ← b.rd i; pure (op u s))) (fun i => op (h.val (m.buf, i)) s) := by
    intro op
    obtain ⟨h', k1, k2, k3, k4⟩ := scalarKernel_ok (h := h) (out := m.buf) (a := m.buf) (size := m.size) op s
      (hm.inb le_rfl) (hm.inb le_rfl)
    obtain ⟨m', h1, _, _, _, h2⟩ := Mem.loop_ok (toHost h m) (fun b i => do let u ← b.rd i; pure (op u s))
      (fun i => op (h.val (m.buf, i)) s) (by
        intro b i hi hb hv
        simp only [Mem.rd_self hi hb hv, Res.ok_bind, Res.pure_eq]
        rfl)
    exact ⟨_, h', m', rfl, k1, h1, k2, fun i hi => ⟨k3 i hi, h2 i hi⟩, k4⟩
  exact ⟨main _, main _, main _, main _⟩

/-- C70. The linear combination used by the time integrators, with any of the operands possibly the destination itself. -/
theorem C70_linear_combination (h : Heap K) (m v2 v3 v4 v5 : Area) (a1 a2 a3 a4 a5 : K) (hm : Allocated h m) (h2 : Allocated h v2)
    (h3 : Allocated h v3) (h4 : Allocated h v4) (h5 : Allocated h v5) (s2 : v2.size = m.size) (s3 : v3.size = m.size)
    (s4 : v4.size = m.size) (s5 : v5.size = m.size) :
    SameAsProcessor h m (addLinearCombination m a1 a2 v2 a3 v3 a4 v4 a5 v5)
      ((toHost h m).addLinearCombination a1 a2 (hostArg h m v2) a3 (hostArg h m v3) a4 (hostArg h m v4) a5 (hostArg h m v5))
      (fun i => a1 * h.val (m.buf, i) + a2 * h.val (v2.buf, i) + a3 * h.val (v3.buf, i) + a4 * h.val (v4.buf, i) + a5 * h.val (v5.buf, i)) := by
  obtain ⟨h', k1, k2, k3, k4⟩ := linearKernel_ok (h := h) (v1 := m.buf) (v2 := v2.buf) (v3 := v3.buf) (v4 := v4.buf) (v5 := v5.buf)
    (size := m.size) a1 a2 a3 a4 a5 (hm.inb le_rfl) (h2.inb s2.ge) (h3.inb s3.ge) (h4.inb s4.ge) (h5.inb s5.ge)
  have z2 := hostArg_size (h := h) (o := v2) s2
  have z3 := hostArg_size (h := h) (o := v3) s3
  have z4 := hostArg_size (h := h) (o := v4) s4
  have z5 := hostArg_size (h := h) (o := v5) s5
  obtain ⟨m', e1, _, _, _, e2⟩ := Mem.loop_ok (toHost h m) (fun b i => do
      let d1 ← b.rd i
      let d2 ← (hostArg h m v2).rd b i
      let d3 ← (hostArg h m v3).rd b i
      let d4 ← (hostArg h m v4).rd b i
      let d5 ← (hostArg h m v5).rd b i
      pure (a1 * d1 + a2 * d2 + a3 * d3 + a4 * d4 + a5 * d5))
      (fun i => a1 * h.val (m.buf, i) + a2 * h.val (v2.buf, i) + a3 * h.val (v3.buf, i) + a4 * h.val (v4.buf, i) + a5 * h.val (v5.buf, i)) (by
        intro b i hi hb hv
        simp only [Mem.rd_self hi hb hv, Mem.Arg.rd_ok hi z2.ge hb hv, Mem.Arg.rd_ok hi z3.ge hb hv, Mem.Arg.rd_ok hi z4.ge hb hv,
          Mem.Arg.rd_ok hi z5.ge hb hv, Res.ok_bind, Res.pure_eq, hostArg_val]
        rfl)
  refine ⟨_, h', m', ?_, k1, ?_, k2, fun i hi => ⟨k3 i hi, e2 i hi⟩, k4⟩
  · simp [addLinearCombination, checkSizeAndHost, s2, s3, s4, s5, h2.1, h3.1, h4.1, h5.1]
  · simp only [Mem.addLinearCombination, Mem.checkSize, z2, z3, z4, z5, ne_eq, not_true, if_false, Res.ok_bind]
    exact e1

/-- C70. Adding and subtracting powers, used by the statistics (`pow` is any function). -/
theorem C70_powers (pow : K → P → K) (h : Heap K) (m o : Area) (p : P) (factor : K) (hm : Allocated h m) (ho : Allocated h o)
    (hs : o.size = m.size) :
    SameAsProcessor h m (addPower pow m o p factor) ((toHost h m).addPower pow (hostArg h m o) p factor)
      (fun i => h.val (m.buf, i) + factor * pow (h.val (o.buf, i)) p) ∧
    SameAsProcessor h m (subtractPower pow m o p) ((toHost h m).subtractPower pow (hostArg h m o) p)
      (fun i => h.val (m.buf, i) - pow (h.val (o.buf, i)) p) := by
  have hsz := hostArg_size (h := h) (o := o) hs
  constructor
  · obtain ⟨h', k1, k2, k3, k4⟩ := addPowerKernel_ok (h := h) (out := m.buf) (a := o.buf) (size := m.size) pow p factor
      (hm.inb le_rfl) (ho.inb hs.ge)
    obtain ⟨m', e1, _, _, _, e2⟩ := Mem.loop_ok (toHost h m) (fun b i => do
        let u ← b.rd i; let v ← (hostArg h m o).rd b i; pure (u + factor * pow v p))
        (fun i => h.val (m.buf, i) + factor * pow (h.val (o.buf, i)) p) (by
          intro b i hi hb hv
          simp only [Mem.rd_self hi hb hv, Mem.Arg.rd_ok hi hsz.ge hb hv, Res.ok_bind, Res.pure_eq, hostArg_val]
          rfl)
    refine ⟨_, h', m', ?_, k1, ?_, k2, fun i hi => ⟨k3 i hi, e2 i hi⟩, k4⟩
    · simp [addPower, checkSizeAndHost, hs, ho.1]
    · simp only [Mem.addPower, Mem.checkSize, hsz, ne_eq, not_true, if_false, Res.ok_bind]
      exact e1
  · obtain ⟨h', k1, k2, k3, k4⟩ := subtractPowerKernel_ok (h := h) (out := m.buf) (a := o.buf) (size := m.size) pow p
      (hm.inb le_rfl) (ho.inb hs.ge)
    obtain ⟨m', e1, _, _, _, e2⟩ := Mem.loop_ok (toHost h m) (fun b i => do
        let u ← b.rd i; let v ← (hostArg h m o).rd b i; pure (u - pow v p))
        (fun i => h.val (m.buf, i) - pow (h.val (o.buf, i)) p) (by
          intro b i hi hb hv
          simp only [Mem.rd_self hi hb hv, Mem.Arg.rd_ok hi hsz.ge hb hv, Res.ok_bind, Res.pure_eq, hostArg_val]
          rfl)
    refine ⟨_, h', m', ?_, k1, ?_, k2, fun i hi => ⟨k3 i hi, e2 i hi⟩, k4⟩
    · simp [subtractPower, checkSizeAndHost, hs, ho.1]
    · simp only [Mem.subtractPower, Mem.checkSize, hsz, ne_eq, not_true, if_false, Res.ok_bind]
      exact e1

/-- Two areas of 3 and 3 elements on the device. -/
def twoAreas : Heap ℚ := ⟨fun l => decide (l.1 < 2 ∧ 0 ≤ l.2 ∧ l.2 < 3), fun l => l.1 + l.2⟩
/-- The first area. -/
def area0 : Area := ⟨false, 0, 3, 1, 1⟩
/-- The second area. -/
def area1 : Area := ⟨false, 1, 1, 3, 1⟩

theorem area0_allocated : Allocated twoAreas area0 := ⟨rfl, fun i => by simp [twoAreas, area0, Area.size]⟩
theorem area1_allocated : Allocated twoAreas area1 := ⟨rfl, fun i => by simp [twoAreas, area1, Area.size]⟩

example := C70_with_area twoAreas area0 area1 area0_allocated area1_allocated rfl
example := C70_with_area twoAreas area0 area0 area0_allocated area0_allocated rfl
example := C70_with_scalar twoAreas area0 (3 / 2) area0_allocated
example := C70_linear_combination twoAreas area0 area1 area0 area1 area1 2 3 4 5 6 area0_allocated area1_allocated area0_allocated
  area1_allocated area1_allocated rfl rfl rfl rfl
example := C70_powers (fun (x : ℚ) (n : Nat) => x ^ n) twoAreas area0 area1 2 (1 / 2) area0_allocated area1_allocated rfl

/-- C70. Areas of different sizes are refused by every operation with areas (also by `+=`, which on the processor has no check). -/
theorem C70_sizes_are_checked (pow : K → P → K) (m o : Area) (hs : o.size ≠ m.size) (op : K → K → K) (p : P) (factor : K) :
    binaryAssign op m o = .error .thrown ∧ addPower pow m o p factor = .error .thrown ∧ subtractPower pow m o p = .error .thrown := by
  refine ⟨by simp [binaryAssign, hs], ?_, ?_⟩
  · simp only [addPower, checkSizeAndHost]
    split_ifs <;> simp_all
  · simp only [subtractPower, checkSizeAndHost]
    split_ifs <;> simp_all

example := C70_sizes_are_checked (fun (x : ℚ) (n : Nat) => x ^ n) area0 ⟨false, 1, 2, 2, 1⟩ (by decide) (· + ·) 2 1

/-- The four operators with an area do not check whether the operand is on the device: with an operand on the host (that is, in no
allocation of the device) the kernel follows a host pointer; the linear combination refuses. -/
theorem C70_host_operand_is_not_refused :
    ∃ (h : Heap ℚ) (m o : Area) (l : Launch (Nat × Int) ℚ), Allocated h m ∧ o.onHost = true ∧ o.size = m.size ∧
      binaryAssign (· + ·) m o = .ok l ∧ Machine.run [0, 0] ⟨h, l.kernel⟩ = .error .ub ∧
      addLinearCombination m 1 1 o 0 o 0 o 0 o = .error .thrown :=
  ⟨twoAreas, area0, ⟨true, 7, 3, 1, 1⟩, _, area0_allocated, rfl, rfl, rfl, rfl, rfl⟩

end Verif.Props.CudaMemory
