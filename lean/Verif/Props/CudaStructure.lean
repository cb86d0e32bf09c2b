import Verif.Props.CudaFunctionals

/-!
Property theorems C77: the statistics for structure functions on the graphics card. The vocabulary is that of C76 (`SameAsProcessor`, `DiffersAt`).
-/

namespace Verif.Props.CudaStructure
open Verif.Gpu Verif.CudaMemory Verif.Functionals Verif.Structure Verif.Boundary Verif.CudaFunctionals Verif.Props.CudaFunctionals

variable {h : Heap ℝ} {out u : CardVol}

/-- C77, structure functions over cubes: for the same boundary condition on all active sides. -/
theorem C77_structure_cube (p : ℝ) (bc : BC) (sides : Nat → Option BC) (H : Int) (hv : Volumes out u h) (hpos : 1 ≤ u.n.x ∧ 1 ≤ u.n.y ∧ 1 ≤ u.n.z)
    (hflat : u.n.y = 1 → u.n.z = 1) (hsides : ∀ s < 2 * dimsOf u.n, sides s = some bc) (hn : out.n = ⟨H, 1, 1⟩) (hg : out.g = 0)
    {buffer : Nat} (hb : Buffer out u h buffer (u.n.x * u.n.y * u.n.z)) :
    SameAsProcessor (cubeStatisticsCUDA p sides (dimsOf u.n) H buffer out u) (cubeStatistics p sides (dimsOf u.n) H) out u [buffer] h := by
  have hout : out.total = ⟨H, 1, 1⟩ := by rw [CardVol.total, hn, hg]; ext <;> simp
  obtain ⟨as, h', e1, e2, e3, e4, e5⟩ := cube_does p bc sides H hv.output hv.input hv.disjoint hpos hflat hsides hout hv.count hb.input hb.output hb.size
  obtain ⟨r, f1, f2⟩ := cubeStatistics_adds p bc sides H u.n u.g hpos hflat hv.input.g hsides u.bufs.length (out.values h) (u.values h)
    (by rw [← hn, ← hg, hv.count]; exact values_shape out h) (values_shape u h)
  refine ⟨as, h', r, e1, e2, f1, added_same_in e5 f2 fun var c hc => ?_, e3, fun l hl hl' => e4 l hl (by simpa using hl')⟩
  have hc : inSize out.total c = true := hc
  rw [hout, inSize_iff] at hc
  simp only at hc
  have hy : c.y = 0 := by omega
  have hz : c.z = 0 := by omega
  simp only [cubeTerm, hy, hz, true_and]
  split_ifs
  · rw [Finset.sum_div]
  · rfl
  · rfl

/-- The extension of interior data takes the values of the data in the interior. -/
theorem extended_inside (bc : BC) {n : I3} (v : I3 → ℝ) {q : I3} (hq : q ∈ box 0 n) (d : Nat) : extended bc n v (q + along d 0) = v q := by
  have e : q + along d 0 = q := by ext <;> simp [along]
  simp only [mem_box, I3.zero_x, I3.zero_y, I3.zero_z] at hq
  rw [e, extended_eq]
  congr 1
  cases bc
  · simp only [extPos]; ext <;> simp only <;> omega
  · simp only [extPos]
    rw [Int.emod_eq_of_lt (by omega) (by omega), Int.emod_eq_of_lt (by omega) (by omega), Int.emod_eq_of_lt (by omega) (by omega)]

/-- C77, structure functions in a direction. C77 in full would say this for all inputs and exponents. Proved: inputs without ghost cells and exponents other than zero. Missing, because it is false:
inputs with ghost cells (`C77_basic_fails_with_ghost_cells`) and the exponent zero (`C77_basic_fails_for_exponent_zero`). -/
theorem C77_structure_basic_partial {p : ℝ} (hp : p ≠ 0) (bc : BC) (sides : Nat → Option BC) (d : Nat) (H : Int) (hv : Volumes out u h) (hpos : 1 ≤ u.n.x ∧ 1 ≤ u.n.y ∧ 1 ≤ u.n.z)
    (hsides : sides d = some bc) (hghost : u.g = 0) (hn : out.n = ⟨H, 1, 1⟩) (hg : out.g = 0) {buffer : Nat} (hb : Buffer out u h buffer (u.n.x * u.n.y * u.n.z)) :
    SameAsProcessor (basicStatisticsCUDA p sides d H buffer out u) (basicStatistics p sides d H) out u [buffer] h := by
  have hout : out.total = ⟨H, 1, 1⟩ := by rw [CardVol.total, hn, hg]; ext <;> simp
  have hcells : basicCells u = u.n := by rw [basicCells, hghost]; ext <;> simp
  obtain ⟨as, h', e1, e2, e3, e4, e5⟩ := basic_does p bc sides d H hv.output hv.input hv.disjoint (by rw [hcells]; exact hpos) hsides hout hv.count hb.input hb.output
    (by rw [hcells]; exact hb.size)
  obtain ⟨r, f1, f2⟩ := basicStatistics_adds p bc sides d H u.n u.g hpos hv.input.g hsides u.bufs.length (out.values h) (u.values h)
    (by rw [← hn, ← hg, hv.count]; exact values_shape out h) (values_shape u h)
  rw [hcells] at e5
  refine ⟨as, h', r, e1, e2, f1, added_same_in e5 f2 fun var c hc => ?_, e3, fun l hl hl' => e4 l hl (by simpa using hl')⟩
  have hc : inSize out.total c = true := hc
  rw [hout, inSize_iff] at hc
  simp only at hc
  have hy : c.y = 0 := by omega
  have hz : c.z = 0 := by omega
  simp only [hy, hz, true_and]
  by_cases hvar : var < u.bufs.length
  · rw [if_pos hvar, if_pos hvar, if_pos (⟨by omega, by omega⟩ : 0 ≤ c.x ∧ c.x < H)]
    by_cases h1 : 1 ≤ c.x
    · rw [if_pos (⟨h1, by omega⟩ : 1 ≤ c.x ∧ c.x < H), Finset.sum_div]
    · have hx : c.x = 0 := by omega
      rw [if_neg (fun e : 1 ≤ c.x ∧ c.x < H => h1 e.1), hx]
      refine (Finset.sum_eq_zero fun q hq => ?_).symm
      rw [extended_inside bc _ (List.mem_toFinset.1 hq) d, sub_self, abs_zero, Real.zero_rpow hp, zero_div]
  · rw [if_neg hvar, if_neg hvar]

/-- C77 fails for the exponent zero: the processor adds one to the entry of the distance zero, the card leaves it out, whatever the input. -/
theorem C77_basic_fails_for_exponent_zero (bc : BC) (sides : Nat → Option BC) (d : Nat) {H : Int} (hH : 0 < H) (hv : Volumes out u h) (hpos : 1 ≤ u.n.x ∧ 1 ≤ u.n.y ∧ 1 ≤ u.n.z)
    (hsides : sides d = some bc) (hghost : u.g = 0) (hn : out.n = ⟨H, 1, 1⟩) (hg : out.g = 0) {buffer : Nat} (hb : Buffer out u h buffer (u.n.x * u.n.y * u.n.z))
    {var : Nat} (hvar : var < u.bufs.length) : DiffersAt (basicStatisticsCUDA 0 sides d H buffer out u) (basicStatistics 0 sides d H) out u h var 0 := by
  have hout : out.total = ⟨H, 1, 1⟩ := by rw [CardVol.total, hn, hg]; ext <;> simp
  have hcells : basicCells u = u.n := by rw [basicCells, hghost]; ext <;> simp
  obtain ⟨as, h', e1, e2, e3, e4, e5⟩ := basic_does 0 bc sides d H hv.output hv.input hv.disjoint (by rw [hcells]; exact hpos) hsides hout hv.count hb.input hb.output
    (by rw [hcells]; exact hb.size)
  obtain ⟨r, f1, f2⟩ := basicStatistics_adds 0 bc sides d H u.n u.g hpos hv.input.g hsides u.bufs.length (out.values h) (u.values h)
    (by rw [← hn, ← hg, hv.count]; exact values_shape out h) (values_shape u h)
  refine ⟨as, h', r, e1, e2, f1, ?_⟩
  have hvo : var < out.bufs.length := hv.count ▸ hvar
  have hin : inSize out.total 0 = true := by rw [hout, inSize_iff]; simp [hH]
  rw [e5, f2, values_at, if_pos hin, List.getElem?_eq_getElem hvo]
  simp only [Option.map_some, if_pos hvar, I3.zero_x, I3.zero_y, I3.zero_z, le_refl, true_and, hH, if_true]
  intro e
  have e := Option.some.inj e
  rw [if_neg (by omega), add_left_cancel_iff] at e
  have hterm : ∀ x : ℝ, x ^ (0 : ℝ) = 1 := Real.rpow_zero
  simp only [hterm, Finset.sum_const, nsmul_eq_mul] at e
  have hcard : 0 < (box 0 u.n).toFinset.card := Finset.card_pos.2 ⟨0, by simp only [List.mem_toFinset, mem_box, I3.zero_x, I3.zero_y, I3.zero_z]; omega⟩
  have h1 : (0 : ℝ) < (box 0 u.n).toFinset.card := by exact_mod_cast hcard
  have hx : (0 : ℝ) < u.n.x := by exact_mod_cast (by omega : 0 < u.n.x)
  have hy : (0 : ℝ) < u.n.y := by exact_mod_cast (by omega : 0 < u.n.y)
  have hz : (0 : ℝ) < u.n.z := by exact_mod_cast (by omega : 0 < u.n.z)
  have : (0 : ℝ) < (box 0 u.n).toFinset.card * (1 / (u.n.x * u.n.y * u.n.z)) := by positivity
  exact absurd e (ne_of_lt this)

/-- Memory for the counterexample: four cells with the values 0, 1, 2, 3 and a ghost cell at both ends (allocation 0), an output for two distances (allocation 1) and the buffer of the two
cells the card looks at (allocation 2). -/
def ghostHeap : Heap ℝ where
  inb l := decide (0 ≤ l.2 ∧ l.2 < (if l.1 = 0 then 6 else 2))
  val l := if l.1 = 0 then l.2 - 1 else 0

/-- The input volume of the example: four cells and a ghost cell on each side. -/
def ghostIn : CardVol := ⟨⟨4, 1, 1⟩, ⟨1, 0, 0⟩, [0]⟩
/-- Its output volume. -/
def ghostOut : CardVol := ⟨⟨2, 1, 1⟩, 0, [1]⟩

theorem ghostVolumes : Volumes ghostOut ghostIn ghostHeap where
  output := ⟨by decide, by decide, by decide, by
    intro b hb i
    obtain rfl : b = 1 := by simpa [ghostOut] using hb
    rfl⟩
  input := ⟨by decide, by decide, by decide, by
    intro b hb i
    obtain rfl : b = 0 := by simpa [ghostIn] using hb
    rfl⟩
  disjoint := by decide
  count := rfl

theorem ghost_inner (x : Int) : (ghostIn.values ghostHeap).inner 0 ⟨x, 0, 0⟩ = x := by
  rw [values_inner (by decide)]
  simp [ghostIn, ghostHeap, at3, CudaMemory.index]

/-- C77 fails for inputs with ghost cells, which are subtracted from the number of inner cells: for four cells with the values 0, 1, 2, 3, periodic, one ghost cell at both ends and the exponent one,
the card adds 1 to the entry of the distance one, the processor 3/2. -/
theorem C77_basic_fails_with_ghost_cells : DiffersAt (basicStatisticsCUDA 1 (fun _ => some .periodic) 0 2 2 ghostOut ghostIn) (basicStatistics 1 (fun _ => some .periodic) 0 2)
    ghostOut ghostIn ghostHeap 0 ⟨1, 0, 0⟩ := by
  obtain ⟨as, h', e1, e2, e3, e4, e5⟩ := basic_does 1 .periodic (fun _ => some .periodic) 0 2 (buf := 2) ghostVolumes.output ghostVolumes.input ghostVolumes.disjoint (by decide) rfl
    (by decide) rfl (by decide) (by decide) (fun i => rfl)
  obtain ⟨r, f1, f2⟩ := basicStatistics_adds 1 .periodic (fun _ => some .periodic) 0 2 ⟨4, 1, 1⟩ ⟨1, 0, 0⟩ (by decide) (by decide) rfl 1 (ghostOut.values ghostHeap) (ghostIn.values ghostHeap)
    (values_shape ghostOut ghostHeap) (values_shape ghostIn ghostHeap)
  refine ⟨as, h', r, e1, e2, f1, ?_⟩
  have b2 : (box 0 (basicCells ghostIn)).toFinset = {⟨0, 0, 0⟩, ⟨1, 0, 0⟩} := by decide
  have b4 : (box 0 ⟨4, 1, 1⟩).toFinset = {⟨0, 0, 0⟩, ⟨1, 0, 0⟩, ⟨2, 0, 0⟩, ⟨3, 0, 0⟩} := by decide
  have a1 : ∀ q : I3, q + along 0 1 = ⟨q.x + 1, q.y, q.z⟩ := by intro q; ext <;> simp [along, I3.dir]
  rw [e5, f2, values_at, if_pos (by decide)]
  have bc2 : basicCells ghostIn = ⟨2, 1, 1⟩ := by decide
  rw [bc2] at b2
  simp only [bc2, b2, b4, a1, extended_eq, extPos]
  have l1 : (0 : Nat) < ghostIn.bufs.length := by decide
  simp only [if_pos l1]
  intro e
  simp [ghost_inner, ghostOut] at e
  norm_num at e

/-! Concrete cases. -/

example := C77_structure_cube (2.5 : ℝ) .neumann (fun _ => some .neumann) 3 (exVolumes 4 ⟨3, 4, 2⟩ ⟨2, 2, 2⟩ ⟨3, 1, 1⟩ (by decide) (by decide) (by decide)) (by decide) (by decide)
  (fun _ _ => rfl) rfl rfl (exBuffer 4 _ _ _)

example := C77_structure_basic_partial (p := 2) (by norm_num) .neumann (fun _ => some .neumann) 1 3 (exVolumes 4 ⟨3, 4, 2⟩ 0 ⟨3, 1, 1⟩ (by decide) (by decide) (by decide)) (by decide)
  rfl rfl rfl rfl (exBuffer 4 _ _ _)

example := C77_basic_fails_for_exponent_zero .neumann (fun _ => some .neumann) 1 (H := 3) (by decide) (exVolumes 4 ⟨3, 4, 2⟩ 0 ⟨3, 1, 1⟩ (by decide) (by decide) (by decide)) (by decide)
  rfl rfl rfl rfl (exBuffer 4 _ _ _) (var := 2) (by decide)

end Verif.Props.CudaStructure
