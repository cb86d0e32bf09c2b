import Verif.Basic
import Mathlib.Algebra.Field.Defs
import Mathlib.Algebra.Field.Basic

/-!
Model of host memory: alsfvm/src/memory/HostMemory.cpp and alsfvm/include/alsfvm/memory/{View,index}.hpp.
-/

namespace Verif

/-- `calculateIndex` (alsfvm/include/alsfvm/memory/index.hpp:100-103) and `View::index`
(alsfvm/include/alsfvm/memory/View.hpp:116-118). -/
def calculateIndex (x y z nx ny : Nat) : Nat := z * nx * ny + y * nx + x

theorem calculateIndex_lt {x y z nx ny nz : Nat} (hx : x < nx) (hy : y < ny) (hz : z < nz) :
    calculateIndex x y z nx ny < nx * ny * nz := by
  unfold calculateIndex
  have h1 : y * nx + x < nx * ny := by
    have : (y + 1) * nx ≤ ny * nx := Nat.mul_le_mul_right _ hy
    rw [Nat.mul_comm nx ny]; nlinarith
  have h2 : (z + 1) * (nx * ny) ≤ nz * (nx * ny) := Nat.mul_le_mul_right _ hz
  have h3 : z * nx * ny = z * (nx * ny) := Nat.mul_assoc _ _ _
  have h4 : nx * ny * nz = nz * (nx * ny) := Nat.mul_comm _ _
  rw [h3, h4]
  nlinarith

theorem calculateIndex_div {x y z nx ny : Nat} (hx : x < nx) (hy : y < ny) :
    calculateIndex x y z nx ny % nx = x ∧ calculateIndex x y z nx ny / nx % ny = y ∧
      calculateIndex x y z nx ny / (nx * ny) = z := by
  unfold calculateIndex
  have hnx : 0 < nx := by omega
  have hny : 0 < ny := by omega
  have e : z * nx * ny + y * nx + x = x + nx * (y + ny * z) := by ring
  have hd : (z * nx * ny + y * nx + x) / nx = y + ny * z := by
    rw [e, Nat.add_mul_div_left _ _ hnx, Nat.div_eq_of_lt hx]; omega
  refine ⟨?_, ?_, ?_⟩
  · rw [e, Nat.add_mul_mod_self_left, Nat.mod_eq_of_lt hx]
  · rw [hd, Nat.add_mul_mod_self_left, Nat.mod_eq_of_lt hy]
  · rw [← Nat.div_div_eq_div_mul, hd, Nat.add_mul_div_left _ _ hny, Nat.div_eq_of_lt hy]; omega

theorem calculateIndex_inj {x y z x' y' z' nx ny : Nat} (hx : x < nx) (hy : y < ny) (hx' : x' < nx) (hy' : y' < ny)
    (h : calculateIndex x y z nx ny = calculateIndex x' y' z' nx ny) : x = x' ∧ y = y' ∧ z = z' := by
  obtain ⟨a, b, c⟩ := calculateIndex_div (z := z) hx hy
  obtain ⟨a', b', c'⟩ := calculateIndex_div (z := z') hx' hy'
  rw [h] at a b c
  exact ⟨a.symm.trans a', b.symm.trans b', c.symm.trans c'⟩

theorem calculateIndex_surj {nx ny nz i : Nat} (h : i < nx * ny * nz) :
    i % nx < nx ∧ i / nx % ny < ny ∧ i / (nx * ny) < nz ∧
      calculateIndex (i % nx) (i / nx % ny) (i / (nx * ny)) nx ny = i := by
  have hnx : 0 < nx := by
    rcases Nat.eq_zero_or_pos nx with h0 | h0
    · simp [h0] at h
    · exact h0
  have hny : 0 < ny := by
    rcases Nat.eq_zero_or_pos ny with h0 | h0
    · simp [h0] at h
    · exact h0
  refine ⟨Nat.mod_lt _ hnx, Nat.mod_lt _ hny, Nat.div_lt_of_lt_mul (by rwa [Nat.mul_comm] at h ⊢), ?_⟩
  unfold calculateIndex
  rw [← Nat.div_div_eq_div_mul]
  have h1 := Nat.div_add_mod i nx
  have h2 := Nat.div_add_mod (i / nx) ny
  have : i / nx / ny * nx * ny + i / nx % ny * nx = nx * (i / nx) := by
    rw [← h2, ]
    simp only [h2]
    calc _ = nx * (ny * (i / nx / ny) + i / nx % ny) := by ring
      _ = _ := by rw [h2]
  omega

/-- A host memory area of `nx*ny*nz` elements (`HostMemory`, alsfvm/src/memory/HostMemory.cpp:36-45). -/
structure Mem (α : Type) where
  nx : Nat
  ny : Nat
  nz : Nat
  val : Nat → α

namespace Mem
variable {α K P : Type}

/-- `getSize` (alsfvm/src/memory/Memory.cpp:27-29). -/
def size (m : Mem α) : Nat := m.nx * m.ny * m.nz

/-- The allocation as a bounds-checked array. -/
def arr (m : Mem α) : Arr Nat α := flat m.size m.val

/-- The operand of an in-place operation: the destination itself (aliasing) or another memory area. -/
inductive Arg (α : Type) where
  | self
  | other (m : Mem α)

/-- Size of an operand. -/
def Arg.size (m : Mem α) : Arg α → Nat
  | .self => m.size
  | .other o => o.size

/-- Read element `i` of an operand while the destination has the contents `cur`. -/
def Arg.rd (cur : Arr Nat α) (i : Nat) : Arg α → Res α
  | .self => cur.rd i
  | .other o => o.arr.rd i

/-- Contents of an operand before the operation. -/
def Arg.val (m : Mem α) : Arg α → Nat → α
  | .self => m.val
  | .other o => o.val

/-- `for (i = 0; i < data.size(); ++i) data[i] = body(i)`: the loop shared by all operators of
HostMemory.cpp:97-311. The OpenMP parallel loop is modelled sequentially (iterations touch distinct elements). -/
def loop (m : Mem α) (body : Arr Nat α → Nat → Res α) : Res (Mem α) := do
  let a ← (List.range m.size).foldlM (fun b i => do let x ← body b i; b.wr i x) m.arr
  pure { m with val := a.val }

/-- `operator+=(const Memory&)` (HostMemory.cpp:97-108). There is no size check. -/
def addAssign [Add K] (m : Mem K) (o : Arg K) : Res (Mem K) :=
  m.loop fun b i => do let u ← b.rd i; let v ← o.rd b i; pure (u + v)

/-- Size check used by the operators below (HostMemory.cpp:120-122, 142-144, 164-166 and `CHECK_SIZE_AND_HOST` 25-32). -/
def checkSize (m : Mem K) (o : Arg K) : Res Unit := if o.size m ≠ m.size then .error .thrown else .ok ()

/-- `operator*=(const Memory&)` (HostMemory.cpp:115-130). -/
def mulAssign [Mul K] (m : Mem K) (o : Arg K) : Res (Mem K) := do
  m.checkSize o
  m.loop fun b i => do let u ← b.rd i; let v ← o.rd b i; pure (u * v)

/-- `operator-=(const Memory&)` (HostMemory.cpp:137-152). -/
def subAssign [Sub K] (m : Mem K) (o : Arg K) : Res (Mem K) := do
  m.checkSize o
  m.loop fun b i => do let u ← b.rd i; let v ← o.rd b i; pure (u - v)

/-- `operator/=(const Memory&)` (HostMemory.cpp:159-174). Division by zero (inf/NaN) is not modelled. -/
def divAssign [Div K] (m : Mem K) (o : Arg K) : Res (Mem K) := do
  m.checkSize o
  m.loop fun b i => do let u ← b.rd i; let v ← o.rd b i; pure (u / v)

/-- `operator+=(real)` (HostMemory.cpp:181-188). -/
def addScalar [Add K] (m : Mem K) (s : K) : Res (Mem K) := m.loop fun b i => do let u ← b.rd i; pure (u + s)

/-- `operator*=(real)` (HostMemory.cpp:195-201). -/
def mulScalar [Mul K] (m : Mem K) (s : K) : Res (Mem K) := m.loop fun b i => do let u ← b.rd i; pure (u * s)

/-- `operator-=(real)` (HostMemory.cpp:208-214). -/
def subScalar [Sub K] (m : Mem K) (s : K) : Res (Mem K) := m.loop fun b i => do let u ← b.rd i; pure (u - s)

/-- `operator/=(real)` (HostMemory.cpp:221-227). -/
def divScalar [Div K] (m : Mem K) (s : K) : Res (Mem K) := m.loop fun b i => do let u ← b.rd i; pure (u / s)

/-- `makeZero` (HostMemory.cpp:230-236). -/
def makeZero [Zero K] (m : Mem K) : Res (Mem K) := m.loop fun _ _ => pure 0

/-- `addLinearCombination` (HostMemory.cpp:261-280). -/
def addLinearCombination [Add K] [Mul K] (m : Mem K) (a1 a2 : K) (v2 : Arg K) (a3 : K) (v3 : Arg K) (a4 : K) (v4 : Arg K)
    (a5 : K) (v5 : Arg K) : Res (Mem K) := do
  m.checkSize v2
  m.checkSize v3
  m.checkSize v4
  m.checkSize v5
  m.loop fun b i => do
    let d1 ← b.rd i
    let d2 ← v2.rd b i
    let d3 ← v3.rd b i
    let d4 ← v4.rd b i
    let d5 ← v5.rd b i
    pure (a1 * d1 + a2 * d2 + a3 * d3 + a4 * d4 + a5 * d5)

/-- `addPower(other, power, factor)` (HostMemory.cpp:293-301); `std::pow` is an arbitrary function here. -/
def addPower [Add K] [Mul K] (pow : K → P → K) (m : Mem K) (o : Arg K) (p : P) (factor : K) : Res (Mem K) := do
  m.checkSize o
  m.loop fun b i => do let u ← b.rd i; let v ← o.rd b i; pure (u + factor * pow v p)

/-- `subtractPower(other, power)` (HostMemory.cpp:304-311); `std::pow` is an arbitrary function here. -/
def subtractPower [Sub K] (pow : K → P → K) (m : Mem K) (o : Arg K) (p : P) : Res (Mem K) := do
  m.checkSize o
  m.loop fun b i => do let u ← b.rd i; let v ← o.rd b i; pure (u - pow v p)

/-- `copyToHost` (HostMemory.cpp:79-82): the buffer length is only asserted, a short buffer is overrun. -/
def copyToHost (m : Mem α) (bufferLength : Nat) : Res (Arr Nat α) :=
  if m.size ≤ bufferLength then .ok (flat bufferLength m.val) else .error .ub

/-- `copyFromHost` (HostMemory.cpp:85-88): copies `min(bufferLength, size)` leading elements. -/
def copyFromHost (m : Mem α) (buffer : Arr Nat α) (bufferLength : Nat) : Res (Mem α) := do
  let a ← (List.range (min bufferLength m.size)).foldlM (fun b i => do let x ← buffer.rd i; b.wr i x) m.arr
  pure { m with val := a.val }

/-- `copyInternalCells` (HostMemory.cpp:239-258). `outputSize` is passed but never looked at; the buffer really has
`outputSize` elements. -/
def copyInternalCells (m : Mem α) (startX endX startY endY startZ endZ : Nat) (output : Nat → α) (outputSize : Nat) :
    Res (Arr Nat α) :=
  let numberOfY := endY - startY
  let numberOfX := endX - startX
  (box ⟨startX, startY, startZ⟩ ⟨endX, endY, endZ⟩).foldlM
    (fun out p => do
      let x := p.x.toNat; let y := p.y.toNat; let z := p.z.toNat
      let indexIn := z * m.nx * m.ny + y * m.nx + x
      let indexOut := (z - startZ) * numberOfX * numberOfY + (y - startY) * numberOfX + (x - startX)
      let v ← m.arr.rd indexIn
      out.wr indexOut v)
    (flat outputSize output)

/-- Loop characterisation: when `body` yields `f i` from the old contents, the whole loop succeeds with `f`. -/
theorem loop_ok (m : Mem α) (body : Arr Nat α → Nat → Res α) (f : Nat → α)
    (h : ∀ b : Arr Nat α, ∀ i, i < m.size → b.inb = m.arr.inb → b.val i = m.val i → body b i = .ok (f i)) :
    ∃ m', m.loop body = .ok m' ∧ m'.nx = m.nx ∧ m'.ny = m.ny ∧ m'.nz = m.nz ∧ ∀ i, i < m.size → m'.val i = f i := by
  obtain ⟨a', h1, h2, h3, h4⟩ := Arr.foldlM_wr (List.range m.size) id body f m.arr
    (by intro i hi; simpa [arr, flat] using hi)
    (List.nodup_range.imp (by simp))
    (by intro b i hi hb hv _; exact h b i (by simpa using hi) hb (by simpa [arr, flat] using hv))
  refine ⟨{ m with val := a'.val }, ?_, rfl, rfl, rfl, ?_⟩
  · unfold loop
    simp only [id] at h1
    rw [h1]; rfl
  · intro i hi
    simpa using h3 i (by simpa using hi)

theorem rd_self {m : Mem α} {b : Arr Nat α} {i : Nat} (hi : i < m.size) (hb : b.inb = m.arr.inb)
    (hv : b.val i = m.val i) : b.rd i = .ok (m.val i) := by
  rw [Arr.rd_ok, hv]; rw [hb]; simpa [arr, flat] using hi

theorem Arg.rd_ok {m : Mem α} {o : Arg α} {b : Arr Nat α} {i : Nat} (hi : i < m.size) (hs : m.size ≤ o.size m)
    (hb : b.inb = m.arr.inb) (hv : b.val i = m.val i) : o.rd b i = .ok (o.val m i) := by
  cases o with
  | self => exact rd_self hi hb hv
  | other o =>
    have : i < o.size := lt_of_lt_of_le hi hs
    simp [Arg.rd, Arg.val, Arr.rd, arr, flat, this]

end Mem
end Verif
