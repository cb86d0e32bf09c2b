import Verif.Output

/-! Lemmas about the layout of output files. -/

namespace Verif.Output
open Verif.Cartesian
variable {α : Type}

theorem interiorData_ok (fill : α) (v : Volume α) (hv : v.WF) (var : Nat) (m : Mem α) (hm : v.areas[var]? = some m) :
    ∃ data, interiorData fill v var = .ok data ∧ (∀ i, data.inb i = decide (i < v.nx * v.ny * v.nz)) ∧
      ∀ i j k, i < v.nx → j < v.ny → k < v.nz → data.val (k * (v.nx * v.ny) + j * v.nx + i) = v.interior m i j k := by
  obtain ⟨h1, h2, h3⟩ := hv m (List.mem_of_getElem? hm)
  obtain ⟨out, ho, hc, -⟩ := Volume.mem_copyInternalCells_ok m v.nx v.ny v.nz v.gx v.gy v.gz h1 h2 h3 (fun _ => fill) _ le_rfl
  have ho' : v.copyInternalCells var (fun _ => fill) (v.nx * v.ny * v.nz) = .ok out := by
    simp only [Volume.copyInternalCells, hm]
    rw [← ho, h1, h2, h3]
  refine ⟨flat (v.nx * v.ny * v.nz) out.val, by simp only [interiorData, ho']; rfl, fun i => rfl, fun i j k hi hj hk => ?_⟩
  have := hc i j k hi hj hk
  rw [h1, h2] at this
  rw [← Nat.mul_assoc]
  exact this

/-- Row-major positions are inside the buffer. -/
theorem rowMajor_lt {dims p : I3} (hx : 0 ≤ p.x ∧ p.x < dims.x) (hy : 0 ≤ p.y ∧ p.y < dims.y) (hz : 0 ≤ p.z ∧ p.z < dims.z) :
    rowMajor dims p < dims.x.toNat * dims.y.toNat * dims.z.toNat := by
  obtain ⟨X, hX⟩ := Int.eq_ofNat_of_zero_le (show 0 ≤ dims.x by omega)
  obtain ⟨Y, hY⟩ := Int.eq_ofNat_of_zero_le (show 0 ≤ dims.y by omega)
  obtain ⟨Z, hZ⟩ := Int.eq_ofNat_of_zero_le (show 0 ≤ dims.z by omega)
  obtain ⟨x, ex⟩ := Int.eq_ofNat_of_zero_le hx.1
  obtain ⟨y, ey⟩ := Int.eq_ofNat_of_zero_le hy.1
  obtain ⟨z, ez⟩ := Int.eq_ofNat_of_zero_le hz.1
  have hx' : x < X := by omega
  have hy' : y < Y := by omega
  have hz' : z < Z := by omega
  have e : (p.x * dims.y + p.y) * dims.z + p.z = (((x * Y + y) * Z + z : Nat) : Int) := by
    rw [hY, hZ, ex, ey, ez]; push_cast; rfl
  rw [rowMajor, e, hX, hY, hZ]
  simp only [Int.toNat_natCast, Int.ofNat_eq_natCast]
  have h1 : x * Y + y < X * Y := by nlinarith
  nlinarith

/-- A block written inside the variable. -/
theorem putVara_ok (dims start count : I3) (data : Arr Nat α) (file : Arr I3 α) (hfile : file.inb = inSize dims)
    (hin : (0 ≤ start.x ∧ start.x + count.x ≤ dims.x) ∧ (0 ≤ start.y ∧ start.y + count.y ≤ dims.y) ∧ (0 ≤ start.z ∧ start.z + count.z ≤ dims.z))
    (hdata : ∀ i, data.inb i = decide (i < count.x.toNat * count.y.toNat * count.z.toNat)) :
    ∃ file', putVara dims start count data file = .ok file' ∧ file'.inb = inSize dims ∧
      (∀ p ∈ box ⟨0, 0, 0⟩ count, file'.val (start + p) = data.val (rowMajor count p)) ∧
      ∀ q, (∀ p ∈ box ⟨0, 0, 0⟩ count, start + p ≠ q) → file'.val q = file.val q := by
  obtain ⟨f, h1, h2, h3, h4⟩ := Arr.foldlM_wr (box ⟨0, 0, 0⟩ count) (fun p => start + p) (fun _ p => data.rd (rowMajor count p)) (fun p => data.val (rowMajor count p)) file
    (fun p hp => by
      simp only [mem_box] at hp
      rw [hfile, inSize_iff]
      simp only [I3.add_x, I3.add_y, I3.add_z]
      omega)
    ((nodup_box _ _).imp fun {a b} hne h => hne (by
      have h1 := congrArg I3.x h; have h2 := congrArg I3.y h; have h3 := congrArg I3.z h
      simp only [I3.add_x, I3.add_y, I3.add_z] at h1 h2 h3
      ext <;> omega))
    (fun _ p hp _ _ _ => by
      simp only [mem_box] at hp
      rw [Arr.rd_ok]
      rw [hdata, decide_eq_true_eq]
      exact rowMajor_lt (by omega) (by omega) (by omega))
  exact ⟨f, by rw [putVara, if_pos hin]; exact h1, h2.trans hfile, h3, h4⟩

theorem swapDims_swapDims (a : Nat) (q : I3) : swapDims a (swapDims a q) = q := by
  simp only [swapDims]
  split_ifs <;> rfl

theorem swapDims_add (a : Nat) (p q : I3) : swapDims a (p + q) = swapDims a p + swapDims a q := by
  simp only [swapDims]
  split_ifs <;> rfl

theorem swapDims_inside (a : Nat) (n c : I3) : Inside (swapDims a n) (swapDims a c) ↔ Inside n c := by
  simp only [swapDims, Inside]
  split_ifs <;> tauto

/-- The swapped row-major position of a cell is its position in the buffer of interior cells. -/
theorem rowMajor_swapDims (L c : I3) (hL : 1 ≤ L.x ∧ 1 ≤ L.y ∧ 1 ≤ L.z) (hc : Inside L c) :
    rowMajor (swapDims (activeDimension L) L) (swapDims (activeDimension L) c) = c.z.toNat * (L.x.toNat * L.y.toNat) + c.y.toNat * L.x.toNat + c.x.toNat := by
  obtain ⟨⟨x0, x1⟩, ⟨y0, y1⟩, z0, z1⟩ := hc
  obtain ⟨X, hX⟩ := Int.eq_ofNat_of_zero_le (show 0 ≤ L.x by omega)
  obtain ⟨Y, hY⟩ := Int.eq_ofNat_of_zero_le (show 0 ≤ L.y by omega)
  obtain ⟨Z, hZ⟩ := Int.eq_ofNat_of_zero_le (show 0 ≤ L.z by omega)
  obtain ⟨x, ex⟩ := Int.eq_ofNat_of_zero_le x0
  obtain ⟨y, ey⟩ := Int.eq_ofNat_of_zero_le y0
  obtain ⟨z, ez⟩ := Int.eq_ofNat_of_zero_le z0
  simp only [activeDimension]
  split_ifs with h3 h2
  · simp only [rowMajor, swapDims, show ¬ (3 = 2) by decide, if_false, if_true, hX, hY, ex, ey, ez, Int.ofNat_eq_natCast]
    rw [show ((z : Int) * Y + y) * X + x = ((z * (X * Y) + y * X + x : Nat) : Int) by push_cast; ring]
    simp only [Int.toNat_natCast]
  · have hz : c.z = 0 := by omega
    have hz' : L.z = 1 := by omega
    simp only [rowMajor, swapDims, if_true, hX, hY, ex, ey, hz, hz', Int.ofNat_eq_natCast]
    rw [show ((y : Int) * X + x) * 1 + 0 = ((y * X + x : Nat) : Int) by push_cast; ring]
    simp only [Int.toNat_natCast, Int.toNat_zero]
    ring
  · have hz : c.z = 0 := by omega
    have hz' : L.z = 1 := by omega
    have hy : c.y = 0 := by omega
    have hy' : L.y = 1 := by omega
    simp only [rowMajor, swapDims, show ¬ (1 = 2) by decide, show ¬ (1 = 3) by decide, if_false, hX, ex, hy, hy', hz, hz', Int.ofNat_eq_natCast]
    rw [show ((x : Int) * 1 + 0) * 1 + 0 = ((x : Nat) : Int) by push_cast; ring]
    simp

/-- The interior cells of the variable `var` of `v` are the values of `f` on the block of size `dims` at `pos`. -/
def HoldsField (f : I3 → α) (dims pos : I3) (v : Volume α) (var : Nat) : Prop :=
  v.WF ∧ (v.nx : Int) = dims.x ∧ (v.ny : Int) = dims.y ∧ (v.nz : Int) = dims.z ∧
    ∃ m, v.areas[var]? = some m ∧ ∀ i j k : Nat, i < v.nx → j < v.ny → k < v.nz → v.interior m i j k = f (⟨i, j, k⟩ + pos)

/-- One rank writes its block. -/
theorem netcdfMpiWrite_ok {K : Type} (fill : α) (f : I3 → α) (g : Grid K) (v : Volume α) (var : Nat) (file : Arr I3 α) (hfile : file.inb = inSize g.globalSize)
    (hL : 1 ≤ g.dims.x ∧ 1 ≤ g.dims.y ∧ 1 ≤ g.dims.z) (hv : HoldsField f g.dims g.globalPosition v var)
    (hin : ∀ d < 3, 0 ≤ (swapDims (activeDimension g.dims) g.globalPosition).get d ∧
      (swapDims (activeDimension g.dims) g.globalPosition).get d + (swapDims (activeDimension g.dims) g.dims).get d ≤ g.globalSize.get d) :
    ∃ file', netcdfMpiWrite fill g v var file = .ok file' ∧ file'.inb = inSize g.globalSize ∧
      (∀ c, Inside g.dims c → file'.val (swapDims (activeDimension g.dims) (c + g.globalPosition)) = f (c + g.globalPosition)) ∧
      ∀ q, (∀ c, Inside g.dims c → swapDims (activeDimension g.dims) (c + g.globalPosition) ≠ q) → file'.val q = file.val q := by
  obtain ⟨hwf, ex, ey, ez, m, hm, hval⟩ := hv
  obtain ⟨data, h1, h2, h3⟩ := interiorData_ok fill v hwf var m hm
  set a := activeDimension g.dims with ha
  have hsize : v.nx * v.ny * v.nz = (swapDims a g.dims).x.toNat * (swapDims a g.dims).y.toNat * (swapDims a g.dims).z.toNat := by
    simp only [swapDims]
    split_ifs <;> simp only [← ex, ← ey, ← ez, Int.toNat_natCast] <;> ring
  have q0 := hin 0 (by decide)
  have q1 := hin 1 (by decide)
  have q2 := hin 2 (by decide)
  obtain ⟨file', g1, g2, g3, g4⟩ := putVara_ok g.globalSize (swapDims a g.globalPosition) (swapDims a g.dims) data file hfile ⟨q0, q1, q2⟩ (by intro i; rw [h2, hsize])
  have hbox : ∀ c, Inside g.dims c → swapDims a c ∈ box ⟨0, 0, 0⟩ (swapDims a g.dims) := fun c hc => by
    have := (swapDims_inside a g.dims c).2 hc
    simp only [mem_box]
    exact this
  refine ⟨file', by simp only [netcdfMpiWrite, h1]; exact g1, g2, fun c hc => ?_, fun q hq => g4 q fun p hp he => ?_⟩
  · have := g3 (swapDims a c) (hbox c hc)
    rw [← swapDims_add, rowMajor_swapDims g.dims c hL hc, ← ex, ← ey, Int.toNat_natCast, Int.toNat_natCast] at this
    rw [show c + g.globalPosition = g.globalPosition + c by ext <;> simp [add_comm], this]
    obtain ⟨⟨x0, x1⟩, ⟨y0, y1⟩, z0, z1⟩ := hc
    rw [h3 _ _ _ (by omega) (by omega) (by omega), hval _ _ _ (by omega) (by omega) (by omega)]
    congr 1
    ext <;> simp <;> omega
  · refine hq (swapDims a p) ?_ ?_
    · rw [← swapDims_inside a, swapDims_swapDims]
      simpa only [mem_box, Inside] using hp
    · rw [swapDims_add, swapDims_swapDims, ← he]
      ext <;> simp [add_comm]

end Verif.Output
