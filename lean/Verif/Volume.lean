import Verif.Memory
import Mathlib.Tactic.NormNum

/-!
Model of volumes: alsfvm/src/volume/Volume.cpp and alsfvm/include/alsfvm/volume/interpolate.hpp.
-/

namespace Verif

/-- `Volume` (alsfvm/src/volume/Volume.cpp:44-60): interior size, ghost widths, one memory area per variable.
Variable names and the memory factory are dropped. -/
structure Volume (α : Type) where
  nx : Nat
  ny : Nat
  nz : Nat
  gx : Nat
  gy : Nat
  gz : Nat
  areas : List (Mem α)

namespace Volume
variable {α K P : Type}

/-- Constructor (Volume.cpp:44-60): ghost layers only in directions with more than one cell; `contents` gives the
initial contents of each variable. -/
def mk' (nx ny nz ng : Nat) (contents : List (Nat → α)) : Volume α :=
  let gy := if 1 < ny then ng else 0
  let gz := if 1 < nz then ng else 0
  ⟨nx, ny, nz, ng, gy, gz, contents.map fun f => ⟨nx + 2 * ng, ny + 2 * gy, nz + 2 * gz, f⟩⟩

/-- `getTotalNumberOfXCells` (Volume.cpp:261-263). -/
def tx (v : Volume α) : Nat := v.nx + 2 * v.gx
/-- `getTotalNumberOfYCells` (Volume.cpp:268-270). -/
def ty (v : Volume α) : Nat := v.ny + 2 * v.gy
/-- `getTotalNumberOfZCells` (Volume.cpp:275-277). -/
def tz (v : Volume α) : Nat := v.nz + 2 * v.gz

/-- Every memory area has the total size of the volume (established by the constructor, Volume.cpp:54-59). -/
def WF (v : Volume α) : Prop := ∀ m ∈ v.areas, m.nx = v.tx ∧ m.ny = v.ty ∧ m.nz = v.tz

theorem wf_mk' (nx ny nz ng : Nat) (cs : List (Nat → α)) : (mk' nx ny nz ng cs).WF := by
  intro m hm
  simp only [mk', List.mem_map] at hm
  obtain ⟨f, _, rfl⟩ := hm
  exact ⟨rfl, rfl, rfl⟩

/-- `getDimensions` (Volume.cpp:279-287). -/
def dimensions (v : Volume α) : Nat := if v.ny = 1 then 1 else if v.nz = 1 then 2 else 3

/-- `copyInternalCells` (Volume.cpp:219-226). A variable index out of range is undefined behaviour. -/
def copyInternalCells (v : Volume α) (var : Nat) (output : Nat → α) (outputSize : Nat) : Res (Arr Nat α) :=
  match v.areas[var]? with
  | none => .error .ub
  | some m => m.copyInternalCells v.gx (v.tx - v.gx) v.gy (v.ty - v.gy) v.gz (v.tz - v.gz) output outputSize

/-- Apply an operation on pairs of memory areas, variable by variable; fewer variables in the other volume than in this one
is an out-of-range access (Volume.cpp:179-181). -/
def zipAreas (f : Mem α → Mem α → Res (Mem α)) : List (Mem α) → List (Mem α) → Res (List (Mem α))
  | [], _ => .ok []
  | _ :: _, [] => .error .ub
  | a :: as, b :: bs => do
    let c ← f a b
    let cs ← zipAreas f as bs
    pure (c :: cs)

/-- `operator+=` (Volume.cpp:178-184). -/
def addAssign [Add K] (v w : Volume K) : Res (Volume K) := do
  let as ← zipAreas (fun a b => a.addAssign (.other b)) v.areas w.areas
  pure { v with areas := as }

/-- `operator*=(real)` (Volume.cpp:190-196). -/
def mulScalar [Mul K] (v : Volume K) (s : K) : Res (Volume K) := do
  let as ← v.areas.mapM fun a => a.mulScalar s
  pure { v with areas := as }

/-- One variable of `copyTo` (Volume.cpp:299-304): the raw buffer is copied to a temporary of the size of the first area and
from there into the other memory area. -/
def copyArea (tmpSize : Nat) (src dst : Mem α) : Res (Mem α) := do
  let buffer ← src.copyToHost tmpSize
  dst.copyFromHost buffer tmpSize

/-- `copyTo` (Volume.cpp:292-305); the result is the changed other volume. -/
def copyTo (v other : Volume α) : Res (Volume α) :=
  match v.areas with
  | [] => .ok other
  | a0 :: as => do
    let rest := other.areas.drop v.areas.length
    let copied ← zipAreas (fun s d => copyArea a0.size s d) (a0 :: as) other.areas
    pure { other with areas := copied ++ rest }

/-- Read by coordinates through a view (`View::at`, View.hpp:79-84). -/
def readAt (m : Mem α) (x y z : Nat) : Res α :=
  if x < m.nx ∧ y < m.ny ∧ z < m.nz then .ok (m.val (calculateIndex x y z m.nx m.ny)) else .error .ub

/-- `interpolate<1>` for one cell (alsfvm/include/alsfvm/volume/interpolate.hpp:28-32): value written to `out.at(x,y,z)`. -/
def interpolateCell1 [Field K] (i : Mem K) (x y z : Nat) : Res K := do
  let a ← readAt i (2 * x) y z
  let b ← readAt i (2 * x + 1) y z
  pure ((a + b) / 2)

/-- `interpolate<2>` for one cell (interpolate.hpp:34-39). -/
def interpolateCell2 [Field K] (i : Mem K) (x y z : Nat) : Res K := do
  let a ← readAt i (2 * x) (2 * y) z
  let b ← readAt i (2 * x + 1) (2 * y) z
  let c ← readAt i (2 * x) (2 * y + 1) z
  let d ← readAt i (2 * x + 1) (2 * y + 1) z
  pure ((a + b + c + d) / 4)

/-- `interpolate<3>` for one cell (interpolate.hpp:41-56); loops over i, j, k unrolled. -/
def interpolateCell3 [Field K] (i : Mem K) (x y z : Nat) : Res K := do
  let a0 ← readAt i (2 * x) (2 * y) (2 * z)
  let a1 ← readAt i (2 * x + 1) (2 * y) (2 * z)
  let a2 ← readAt i (2 * x) (2 * y + 1) (2 * z)
  let a3 ← readAt i (2 * x + 1) (2 * y + 1) (2 * z)
  let a4 ← readAt i (2 * x) (2 * y) (2 * z + 1)
  let a5 ← readAt i (2 * x + 1) (2 * y) (2 * z + 1)
  let a6 ← readAt i (2 * x) (2 * y + 1) (2 * z + 1)
  let a7 ← readAt i (2 * x + 1) (2 * y + 1) (2 * z + 1)
  pure ((0 + a0 + a1 + a2 + a3 + a4 + a5 + a6 + a7) / 16)

/-- `interpolate<dimension>` for one cell. -/
def interpolateCell [Field K] (dim : Nat) (i : Mem K) (x y z : Nat) : Res K :=
  if dim = 1 then interpolateCell1 i x y z else if dim = 2 then interpolateCell2 i x y z else interpolateCell3 i x y z

/-- One variable of `interpolate<dimension>(Volume&, const Volume&)` (interpolate.hpp:72-83). `ng` is the ghost width of the
output volume in x. -/
def interpolateArea [Field K] (dim ng : Nat) (out i : Mem K) : Res (Mem K) := do
  let hz := if 2 < dim then ng else 0
  let hy := if 1 < dim then ng else 0
  let a ← (box ⟨ng, hy, hz⟩ ⟨(out.nx : Int) - ng, (out.ny : Int) - hy, (out.nz : Int) - hz⟩).foldlM
    (fun b p => do
      let v ← interpolateCell dim i p.x.toNat p.y.toNat p.z.toNat
      b.wr (calculateIndex p.x.toNat p.y.toNat p.z.toNat out.nx out.ny) v) out.arr
  pure { out with val := a.val }

/-- `interpolate<dimension>` for volumes (interpolate.hpp:58-86). -/
def interpolate [Field K] (dim : Nat) (out i : Volume K) : Res (Volume K) :=
  if out.nx ≠ i.nx / 2 then .error .thrown
  else do
    let as ← zipAreas (fun o s => interpolateArea dim out.gx o s) out.areas i.areas
    pure { out with areas := as }

/-- `setVolume` (Volume.cpp:307-333). -/
def setVolume [Field K] (v other : Volume K) : Res (Volume K) :=
  if other.areas.length ≠ v.areas.length then .error .thrown
  else if other.nx = v.nx ∧ other.ny = v.ny ∧ other.nz = v.nz then other.copyTo v
  else if v.ny = 1 then interpolate 1 v other
  else if v.nz = 1 then interpolate 2 v other
  else interpolate 3 v other

/-- The value of interior cell `(i,j,k)` of a variable (specification vocabulary). -/
def interior (v : Volume α) (m : Mem α) (i j k : Nat) : α :=
  m.val (calculateIndex (i + v.gx) (j + v.gy) (k + v.gz) v.tx v.ty)

/-- Elementwise success of `zipAreas`. -/
theorem zipAreas_ok {f : Mem α → Mem α → Res (Mem α)} {Q : Mem α → Mem α → Mem α → Prop} :
    ∀ {as bs : List (Mem α)}, as.length ≤ bs.length →
      (∀ (n : Nat) (a b : Mem α), as[n]? = some a → bs[n]? = some b → ∃ c, f a b = .ok c ∧ Q a b c) →
      ∃ cs, zipAreas f as bs = .ok cs ∧ cs.length = as.length ∧
        ∀ (n : Nat) (a b c : Mem α), as[n]? = some a → bs[n]? = some b → cs[n]? = some c → Q a b c
  | [], bs, _, _ => ⟨[], rfl, rfl, by simp⟩
  | a :: as, [], h, _ => by simp at h
  | a :: as, b :: bs, h, hf => by
    obtain ⟨c, hc, hq⟩ := hf 0 a b rfl rfl
    obtain ⟨cs, hcs, hl, hqs⟩ := zipAreas_ok (as := as) (bs := bs) (by simpa using h)
      (fun n a' b' ha hb => hf (n + 1) a' b' (by simpa using ha) (by simpa using hb))
    refine ⟨c :: cs, by simp [zipAreas, hc, hcs], by simp [hl], ?_⟩
    intro n a' b' c' ha hb hc'
    cases n with
    | zero => simp at ha hb hc'; subst ha hb hc'; exact hq
    | succ n => exact hqs n a' b' c' (by simpa using ha) (by simpa using hb) (by simpa using hc')

theorem mem_copyInternalCells_ok (m : Mem α) (nx ny nz gx gy gz : Nat) (hx : m.nx = nx + 2 * gx)
    (hy : m.ny = ny + 2 * gy) (hz : m.nz = nz + 2 * gz) (output : Nat → α) (outputSize : Nat)
    (hs : nx * ny * nz ≤ outputSize) :
    ∃ out, m.copyInternalCells gx (m.nx - gx) gy (m.ny - gy) gz (m.nz - gz) output outputSize = .ok out ∧
      (∀ i j k, i < nx → j < ny → k < nz →
        out.val (calculateIndex i j k nx ny) = m.val (calculateIndex (i + gx) (j + gy) (k + gz) m.nx m.ny)) ∧
      ∀ q, nx * ny * nz ≤ q → out.val q = output q := by
  have ex : m.nx - gx = nx + gx := by omega
  have ey : m.ny - gy = ny + gy := by omega
  have ez : m.nz - gz = nz + gz := by omega
  have e1 : nx + gx - gx = nx := by omega
  have e2 : ny + gy - gy = ny := by omega
  simp only [Mem.copyInternalCells, ex, ey, ez, e1, e2]
  have key := Arr.foldlM_wr
    (box ⟨gx, gy, gz⟩ ⟨((nx + gx : Nat) : Int), ((ny + gy : Nat) : Int), ((nz + gz : Nat) : Int)⟩)
    (fun p : I3 => (p.z.toNat - gz) * nx * ny + (p.y.toNat - gy) * nx + (p.x.toNat - gx))
    (fun _ p => m.arr.rd (p.z.toNat * m.nx * m.ny + p.y.toNat * m.nx + p.x.toNat))
    (fun p => m.val (p.z.toNat * m.nx * m.ny + p.y.toNat * m.nx + p.x.toNat))
    (flat outputSize output) ?_ ?_ ?_
  · obtain ⟨a', h1, _, h3, h4⟩ := key
    refine ⟨a', h1, ?_, ?_⟩
    · intro i j k hi hj hk
      have := h3 ⟨((i + gx : Nat) : Int), ((j + gy : Nat) : Int), ((k + gz : Nat) : Int)⟩ (by simp; omega)
      simp only [Int.toNat_natCast, Nat.add_sub_cancel] at this
      exact this
    · intro q hq
      refine h4 q ?_
      intro p hp
      simp only [mem_box] at hp
      have := calculateIndex_lt (x := p.x.toNat - gx) (y := p.y.toNat - gy) (z := p.z.toNat - gz) (nx := nx) (ny := ny)
        (nz := nz) (by omega) (by omega) (by omega)
      unfold calculateIndex at this
      omega
  · intro p hp
    simp only [mem_box] at hp
    have := calculateIndex_lt (x := p.x.toNat - gx) (y := p.y.toNat - gy) (z := p.z.toNat - gz) (nx := nx) (ny := ny)
        (nz := nz) (by omega) (by omega) (by omega)
    unfold calculateIndex at this
    simp only [flat, decide_eq_true_eq]
    omega
  · refine (nodup_box _ _).imp_of_mem ?_
    intro p q hp hq hpq heq
    simp only [mem_box] at hp hq
    obtain ⟨a, b, c⟩ := calculateIndex_inj (x := p.x.toNat - gx) (y := p.y.toNat - gy) (z := p.z.toNat - gz)
      (x' := q.x.toNat - gx) (y' := q.y.toNat - gy) (z' := q.z.toNat - gz)
      (nx := nx) (ny := ny) (by omega) (by omega) (by omega) (by omega) heq
    apply hpq
    ext <;> omega
  · intro b p hp _ _ _
    simp only [mem_box] at hp
    rw [Arr.rd_ok]
    · rfl
    · have := calculateIndex_lt (x := p.x.toNat) (y := p.y.toNat) (z := p.z.toNat) (nx := m.nx) (ny := m.ny)
        (nz := m.nz) (by omega) (by omega) (by omega)
      unfold calculateIndex at this
      exact decide_eq_true this

theorem interpolateArea_ok [Field K] (dim ng : Nat) (out i : Mem K) (f : Nat → Nat → Nat → K)
    (h : ∀ x y z, ng ≤ x → x + ng < out.nx → (if 1 < dim then ng else 0) ≤ y → y + (if 1 < dim then ng else 0) < out.ny →
      (if 2 < dim then ng else 0) ≤ z → z + (if 2 < dim then ng else 0) < out.nz →
      interpolateCell dim i x y z = .ok (f x y z)) :
    ∃ c, interpolateArea dim ng out i = .ok c ∧
      ∀ x y z, ng ≤ x → x + ng < out.nx → (if 1 < dim then ng else 0) ≤ y → y + (if 1 < dim then ng else 0) < out.ny →
      (if 2 < dim then ng else 0) ≤ z → z + (if 2 < dim then ng else 0) < out.nz →
      c.val (calculateIndex x y z out.nx out.ny) = f x y z := by
  unfold interpolateArea
  simp only
  generalize hgy : (if 1 < dim then ng else 0) = gy at *
  generalize hgz : (if 2 < dim then ng else 0) = gz at *
  have key := Arr.foldlM_wr (box ⟨ng, gy, gz⟩ ⟨(out.nx : Int) - ng, (out.ny : Int) - gy, (out.nz : Int) - gz⟩)
    (fun p : I3 => calculateIndex p.x.toNat p.y.toNat p.z.toNat out.nx out.ny)
    (fun _ p => interpolateCell dim i p.x.toNat p.y.toNat p.z.toNat)
    (fun p => f p.x.toNat p.y.toNat p.z.toNat) out.arr ?_ ?_ ?_
  · obtain ⟨a', h1, _, h3, _⟩ := key
    refine ⟨{ out with val := a'.val }, by rw [h1]; rfl, ?_⟩
    intro x y z a1 a2 a3 a4 a5 a6
    exact h3 ⟨x, y, z⟩ (by simp; omega)
  · intro p hp
    simp only [mem_box] at hp
    exact decide_eq_true (calculateIndex_lt (by omega) (by omega) (by omega))
  · refine (nodup_box _ _).imp_of_mem ?_
    intro p q hp hq hpq heq
    simp only [mem_box] at hp hq
    obtain ⟨a, b, c⟩ := calculateIndex_inj (by omega) (by omega) (by omega) (by omega) heq
    apply hpq
    ext <;> omega
  · intro b p hp _ _ _
    simp only [mem_box] at hp
    exact h _ _ _ (by omega) (by omega) (by omega) (by omega) (by omega) (by omega)

end Volume
end Verif
