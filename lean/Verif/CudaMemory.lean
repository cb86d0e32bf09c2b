import Verif.Memory
import Verif.Gpu

/-!
Model of memory areas on the graphics card: alsfvm/src/cuda/CudaMemory.cpp and alsfvm/src/cuda/vector_operations.cu. A place in the
global memory of the device is a pair of an allocation and an index; what lies in host memory is not part of it, so a kernel that
follows a host pointer leaves the memory.
-/

namespace Verif.CudaMemory
open Gpu
variable {K P : Type}

/-- Global memory of the device. -/
abbrev Heap (K : Type) := Arr (Nat × Int) K

/-- A memory area, on the device (`CudaMemory`, CudaMemory.cpp:44-74) or on the host (`HostMemory`): which allocation it points to and its
size. -/
structure Area where
  onHost : Bool
  buf : Nat
  nx : Nat
  ny : Nat
  nz : Nat

/-- `getSize` (alsfvm/src/memory/Memory.cpp:27-29). -/
def Area.size (m : Area) : Nat := m.nx * m.ny * m.nz

/-- The area is an allocation of the device of the right size. -/
def Allocated (h : Heap K) (m : Area) : Prop := m.onHost = false ∧ ∀ i, h.inb (m.buf, i) = decide (0 ≤ i ∧ i < (m.size : Int))

/-- `addKernel`, `multiplyKernel`, `divideKernel`, `subtractKernel` with two arrays (vector_operations.cu:24-58). -/
def binaryKernel (op : K → K → K) (result a b size : Nat) (i : Nat) : Prog (Nat × Int) K :=
  if i < size then .read (a, i) fun u => .read (b, i) fun v => .write (result, i) (op u v) .done else .done

/-- The same with a scalar (vector_operations.cu:60-94). -/
def scalarKernel (op : K → K → K) (result a : Nat) (b : K) (size : Nat) (i : Nat) : Prog (Nat × Int) K :=
  if i < size then .read (a, i) fun u => .write (result, i) (op u b) .done else .done

/-- `linear_combination_device` (vector_operations.cu:96-109). -/
def linearKernel [Add K] [Mul K] (a1 : K) (v1 : Nat) (a2 : K) (v2 : Nat) (a3 : K) (v3 : Nat) (a4 : K) (v4 : Nat) (a5 : K) (v5 : Nat)
    (size i : Nat) : Prog (Nat × Int) K :=
  if i < size then
    .read (v1, i) fun d1 => .read (v2, i) fun d2 => .read (v3, i) fun d3 => .read (v4, i) fun d4 => .read (v5, i) fun d5 =>
      .write (v1, i) (a1 * d1 + a2 * d2 + a3 * d3 + a4 * d4 + a5 * d5) .done
  else .done

/-- `add_power_device` with a factor (vector_operations.cu:123-131); `pow` is an arbitrary function here. -/
def addPowerKernel [Add K] [Mul K] (pow : K → P → K) (out a : Nat) (power : P) (factor : K) (size i : Nat) : Prog (Nat × Int) K :=
  if i < size then .read (out, i) fun u => .read (a, i) fun v => .write (out, i) (u + factor * pow v power) .done else .done

/-- `subtract_power_device` (vector_operations.cu:134-142). -/
def subtractPowerKernel [Sub K] (pow : K → P → K) (out a : Nat) (power : P) (size i : Nat) : Prog (Nat × Int) K :=
  if i < size then .read (out, i) fun u => .read (a, i) fun v => .write (out, i) (u - pow v power) .done else .done

/-- The launch parameters of all operations (for instance vector_operations.cu:235-237). -/
def launch (size : Nat) (kernel : Nat → Prog (Nat × Int) K) : Launch (Nat × Int) K := ⟨threadCount size 1024, kernel⟩

/-- `operator+=`, `*=`, `-=`, `/=` with another area (CudaMemory.cpp:165-216): the sizes are compared, but not whether the other area is
on the device. -/
def binaryAssign (op : K → K → K) (m o : Area) : Res (Launch (Nat × Int) K) :=
  if o.size ≠ m.size then .error .thrown else .ok (launch m.size (binaryKernel op m.buf m.buf o.buf m.size))

/-- `operator+=`, `*=`, `-=`, `/=` with a scalar (CudaMemory.cpp:223-256). -/
def scalarAssign (op : K → K → K) (m : Area) (s : K) : Res (Launch (Nat × Int) K) :=
  .ok (launch m.size (scalarKernel op m.buf m.buf s m.size))

/-- `CHECK_SIZE_AND_HOST` (CudaMemory.cpp:32-39). -/
def checkSizeAndHost (m o : Area) : Res Unit := if o.onHost then .error .thrown else if m.size ≠ o.size then .error .thrown else .ok ()

/-- `addLinearCombination` (CudaMemory.cpp:292-315). -/
def addLinearCombination [Add K] [Mul K] (m : Area) (a1 a2 : K) (v2 : Area) (a3 : K) (v3 : Area) (a4 : K) (v4 : Area) (a5 : K) (v5 : Area) :
    Res (Launch (Nat × Int) K) := do
  checkSizeAndHost m v2
  checkSizeAndHost m v3
  checkSizeAndHost m v4
  checkSizeAndHost m v5
  pure (launch m.size (linearKernel a1 m.buf a2 v2.buf a3 v3.buf a4 v4.buf a5 v5.buf m.size))

/-- `addPower` with a factor (CudaMemory.cpp:323-328). -/
def addPower [Add K] [Mul K] (pow : K → P → K) (m o : Area) (power : P) (factor : K) : Res (Launch (Nat × Int) K) := do
  checkSizeAndHost m o
  pure (launch m.size (addPowerKernel pow m.buf o.buf power factor m.size))

/-- `subtractPower` (CudaMemory.cpp:331-336). -/
def subtractPower [Sub K] (pow : K → P → K) (m o : Area) (power : P) : Res (Launch (Nat × Int) K) := do
  checkSizeAndHost m o
  pure (launch m.size (subtractPowerKernel pow m.buf o.buf power m.size))

/-! ### The same operation on the processor -/

/-- Contents of a device area as host memory of the same size (`getHostMemory`, CudaMemory.cpp:338-346). -/
def toHost (h : Heap K) (m : Area) : Mem K := ⟨m.nx, m.ny, m.nz, fun i => h.val (m.buf, i)⟩

/-- The operand of the processor version that corresponds to the area `o`: the destination itself, or a copy. -/
def hostArg (h : Heap K) (m o : Area) : Mem.Arg K := if o.buf = m.buf then .self else .other (toHost h o)

/-! ### Helper lemmas -/

/-- A launch where thread `i` replaces element `i` of one area by `f i`. -/
theorem elementwise {h : Heap K} {out size : Nat} {kernel : Nat → Prog (Nat × Int) K} (f : Int → K) (hd : ∀ i, size ≤ i → kernel i = .done)
    (hk : ∀ T, ∀ i < size, Fits T (fun j l => j < size ∧ l = (out, (j : Int))) h (fun l => f l.2) i (fun _ => False) (kernel i)) :
    ∃ h', yields (launch size kernel) h h' ∧ h'.inb = h.inb ∧ (∀ i : Nat, i < size → h'.val (out, (i : Int)) = f i) ∧
      ∀ l, ¬ (l.1 = out ∧ 0 ≤ l.2 ∧ l.2 < (size : Int)) → h'.val l = h.val l := by
  refine ⟨{ h with val := fun l => if l.1 = out ∧ 0 ≤ l.2 ∧ l.2 < (size : Int) then f l.2 else h.val l }, ?_, rfl, ?_, ?_⟩
  · refine yields_of_fits (touch := fun j l => j < size ∧ l = (out, (j : Int))) (F := fun l => f l.2) ?_ rfl ?_ ?_
    · intro i _
      by_cases hi : i < size
      · exact hk _ i hi
      · simp only [launch]
        rw [hd i (by omega)]
        exact Fits.done fun l hl => absurd hl.1 hi
    · rintro i _ l ⟨hi, rfl⟩
      exact if_pos ⟨rfl, Int.natCast_nonneg _, Int.ofNat_lt.2 hi⟩
    · intro l hl
      refine if_neg ?_
      rintro ⟨h1, h2, h3⟩
      refine hl l.2.toNat ?_ ⟨by omega, ?_⟩
      · exact lt_of_lt_of_le (show l.2.toNat < size by omega) (threadCount_ge (by norm_num))
      · ext
        · exact h1
        · simp [Int.toNat_of_nonneg h2]
  · intro i hi
    simp only
    rw [if_pos ⟨trivial, Int.natCast_nonneg _, by exact_mod_cast hi⟩]
  · intro l hl
    exact if_neg hl

/-- A place with index `i` is written by thread `i` at most. -/
theorem own {size out b i T : Nat} : ∀ j < T, (j < size ∧ ((b, (i : Int)) : Nat × Int) = (out, (j : Int))) → j = i := by
  rintro j _ ⟨_, h⟩
  have := congrArg Prod.snd h
  simp only at this
  omega

theorem binaryKernel_ok {h : Heap K} {out a b size : Nat} (op : K → K → K) (ho : ∀ i < size, h.inb (out, (i : Int)) = true)
    (ha : ∀ i < size, h.inb (a, (i : Int)) = true) (hb : ∀ i < size, h.inb (b, (i : Int)) = true) :
    ∃ h', yields (launch size (binaryKernel op out a b size)) h h' ∧ h'.inb = h.inb ∧
      (∀ i : Nat, i < size → h'.val (out, (i : Int)) = op (h.val (a, i)) (h.val (b, i))) ∧
      ∀ l, ¬ (l.1 = out ∧ 0 ≤ l.2 ∧ l.2 < (size : Int)) → h'.val l = h.val l := by
  refine elementwise (fun i => op (h.val (a, i)) (h.val (b, i))) (fun i hi => if_neg (by omega)) ?_
  intro T i hi
  unfold binaryKernel
  rw [if_pos hi]
  exact .readOld (ha i hi) id own (.readOld (hb i hi) id own (.write (ho i hi) ⟨hi, rfl⟩ rfl
    (.done fun l hl => Or.inr hl.2)))

theorem scalarKernel_ok {h : Heap K} {out a size : Nat} (op : K → K → K) (s : K) (ho : ∀ i < size, h.inb (out, (i : Int)) = true)
    (ha : ∀ i < size, h.inb (a, (i : Int)) = true) :
    ∃ h', yields (launch size (scalarKernel op out a s size)) h h' ∧ h'.inb = h.inb ∧
      (∀ i : Nat, i < size → h'.val (out, (i : Int)) = op (h.val (a, i)) s) ∧
      ∀ l, ¬ (l.1 = out ∧ 0 ≤ l.2 ∧ l.2 < (size : Int)) → h'.val l = h.val l := by
  refine elementwise (fun i => op (h.val (a, i)) s) (fun i hi => if_neg (by omega)) ?_
  intro T i hi
  unfold scalarKernel
  rw [if_pos hi]
  exact .readOld (ha i hi) id own (.write (ho i hi) ⟨hi, rfl⟩ rfl (.done fun l hl => Or.inr hl.2))

theorem linearKernel_ok [Add K] [Mul K] {h : Heap K} {v1 v2 v3 v4 v5 size : Nat} (a1 a2 a3 a4 a5 : K)
    (h1 : ∀ i < size, h.inb (v1, (i : Int)) = true) (h2 : ∀ i < size, h.inb (v2, (i : Int)) = true)
    (h3 : ∀ i < size, h.inb (v3, (i : Int)) = true) (h4 : ∀ i < size, h.inb (v4, (i : Int)) = true)
    (h5 : ∀ i < size, h.inb (v5, (i : Int)) = true) :
    ∃ h', yields (launch size (linearKernel a1 v1 a2 v2 a3 v3 a4 v4 a5 v5 size)) h h' ∧ h'.inb = h.inb ∧
      (∀ i : Nat, i < size → h'.val (v1, (i : Int)) =
        a1 * h.val (v1, i) + a2 * h.val (v2, i) + a3 * h.val (v3, i) + a4 * h.val (v4, i) + a5 * h.val (v5, i)) ∧
      ∀ l, ¬ (l.1 = v1 ∧ 0 ≤ l.2 ∧ l.2 < (size : Int)) → h'.val l = h.val l := by
  refine elementwise (fun i => a1 * h.val (v1, i) + a2 * h.val (v2, i) + a3 * h.val (v3, i) + a4 * h.val (v4, i) + a5 * h.val (v5, i))
    (fun i hi => if_neg (by omega)) ?_
  intro T i hi
  unfold linearKernel
  rw [if_pos hi]
  exact .readOld (h1 i hi) id own (.readOld (h2 i hi) id own (.readOld (h3 i hi) id own (.readOld (h4 i hi) id own
    (.readOld (h5 i hi) id own (.write (h1 i hi) ⟨hi, rfl⟩ rfl (.done fun l hl => Or.inr hl.2))))))

theorem addPowerKernel_ok [Add K] [Mul K] {h : Heap K} {out a size : Nat} (pow : K → P → K) (p : P) (factor : K)
    (ho : ∀ i < size, h.inb (out, (i : Int)) = true) (ha : ∀ i < size, h.inb (a, (i : Int)) = true) :
    ∃ h', yields (launch size (addPowerKernel pow out a p factor size)) h h' ∧ h'.inb = h.inb ∧
      (∀ i : Nat, i < size → h'.val (out, (i : Int)) = h.val (out, i) + factor * pow (h.val (a, i)) p) ∧
      ∀ l, ¬ (l.1 = out ∧ 0 ≤ l.2 ∧ l.2 < (size : Int)) → h'.val l = h.val l := by
  refine elementwise (fun i => h.val (out, i) + factor * pow (h.val (a, i)) p) (fun i hi => if_neg (by omega)) ?_
  intro T i hi
  unfold addPowerKernel
  rw [if_pos hi]
  exact .readOld (ho i hi) id own (.readOld (ha i hi) id own (.write (ho i hi) ⟨hi, rfl⟩ rfl (.done fun l hl => Or.inr hl.2)))

theorem subtractPowerKernel_ok [Sub K] {h : Heap K} {out a size : Nat} (pow : K → P → K) (p : P)
    (ho : ∀ i < size, h.inb (out, (i : Int)) = true) (ha : ∀ i < size, h.inb (a, (i : Int)) = true) :
    ∃ h', yields (launch size (subtractPowerKernel pow out a p size)) h h' ∧ h'.inb = h.inb ∧
      (∀ i : Nat, i < size → h'.val (out, (i : Int)) = h.val (out, i) - pow (h.val (a, i)) p) ∧
      ∀ l, ¬ (l.1 = out ∧ 0 ≤ l.2 ∧ l.2 < (size : Int)) → h'.val l = h.val l := by
  refine elementwise (fun i => h.val (out, i) - pow (h.val (a, i)) p) (fun i hi => if_neg (by omega)) ?_
  intro T i hi
  unfold subtractPowerKernel
  rw [if_pos hi]
  exact .readOld (ho i hi) id own (.readOld (ha i hi) id own (.write (ho i hi) ⟨hi, rfl⟩ rfl (.done fun l hl => Or.inr hl.2)))

theorem Allocated.inb {h : Heap K} {m : Area} (hm : Allocated h m) {n : Nat} (hn : n ≤ m.size) : ∀ i < n, h.inb (m.buf, (i : Int)) = true := by
  intro i hi
  rw [hm.2]
  exact decide_eq_true ⟨Int.natCast_nonneg _, by exact_mod_cast lt_of_lt_of_le hi hn⟩

theorem hostArg_val {h : Heap K} {m o : Area} (i : Nat) : (hostArg h m o).val (toHost h m) i = h.val (o.buf, i) := by
  unfold hostArg
  split_ifs with hb
  · simp [Mem.Arg.val, toHost, hb]
  · rfl

theorem hostArg_size {h : Heap K} {m o : Area} (hs : o.size = m.size) : (hostArg h m o).size (toHost h m) = (toHost h m).size := by
  unfold hostArg
  split_ifs with hb
  · rfl
  · exact hs

end Verif.CudaMemory
