import Verif.PyPlot

/-!
Property C120: the method `plot` of the Python driver draws the value of every cell at the midpoint of the cell.
-/

namespace Verif.Props.PyPlot
open Verif.PyPlot

/-! ### Specification -/

/-- The midpoint of the interval number `i` of `n` intervals of the same length from `lo` to `hi`: the mean of its ends. -/
def midpoint {K : Type} [Field K] (lo hi : K) (n i : Nat) : K := ((lo + i * (hi - lo) / n) + (lo + (i + 1) * (hi - lo) / n)) / 2

/-- The picture of a one-dimensional run: one line through the values of the cells, in their order, at these points. -/
def LineAt {K α : Type} (p : Picture K α) (n : Nat) (value : Nat → α) (point : Nat → K) : Prop := p = .lines [(List.range n).map fun i => (point i, value i)]

/-- The picture of a two-dimensional run: the value of every cell at these points, and nothing else. -/
def MeshAt {K α : Type} (p : Picture K α) (n m : Nat) (value : Nat → Nat → α) (px py : Nat → K) : Prop :=
  ∃ l, p = .mesh l ∧ ∀ q, q ∈ l ↔ ∃ i < n, ∃ j < m, q = (px i, py j, value i j)

/-! ### Theorems -/

section
variable {K α : Type} [Field K] [LinearOrder K] [IsStrictOrderedRing K]

/-- C120 in one dimension, partial. All values are drawn, one after another, but stretched: the distances are those of one cell less.
Missing: the points are the midpoints, which is false, see `C120_line_misplaced`. -/
theorem C120_line_partial (b : Box K) (f : Nat → Nat → Nat → α) (hx : 1 < b.x.cells) (hy : b.y.cells = 1) (hz : b.z.cells = 1) :
    ∃ p, plot b ⟨b.x.cells, b.y.cells, b.z.cells, f⟩ = .ok p ∧ LineAt p b.x.cells (fun i => f i 0 0) (midpoint b.x.lower b.x.upper (b.x.cells - 1)) := by
  have hn : ((b.x.cells - 1 : Nat) : K) = b.x.cells - 1 := by rw [Nat.cast_sub hx.le, Nat.cast_one]
  have hn0 : (b.x.cells : K) - 1 ≠ 0 := by
    rw [← hn]
    exact Nat.cast_ne_zero.2 (by omega)
  refine ⟨_, ?_, rfl⟩
  simp only [plot, slice, leading, hy, hz, hx, List.filter, decide_true, lt_irrefl, decide_false, List.length_cons, List.length_nil, zero_add, if_true, if_false, zero_lt_one, and_self, lineSegment,
    Points.get, linspace, Nat.zero_lt_of_lt hx, Res.ok_bind, not_le.2 hx, drawLines]
  refine congrArg (fun g => Except.ok (Picture.lines [List.map g _])) (funext fun i => ?_)
  refine Prod.ext ?_ rfl
  simp only [midpoint, hn, Nat.cast_one, Nat.cast_zero]
  field_simp
  ring

/-- C120 is false in one dimension, for every run with more than one cell: no value is drawn at the midpoint of its cell, the error grows from cell to cell, and the last value is drawn outside the
domain. -/
theorem C120_line_misplaced (lo hi : K) (h : lo < hi) (n : Nat) (hn : 1 < n) :
    (∀ i, midpoint lo hi (n - 1) i - midpoint lo hi n i = (i + 1 / 2) * (hi - lo) / (n * (n - 1))) ∧ (∀ i, midpoint lo hi n i < midpoint lo hi (n - 1) i) ∧ hi < midpoint lo hi (n - 1) (n - 1) := by
  have hc : ((n - 1 : Nat) : K) = n - 1 := by rw [Nat.cast_sub hn.le, Nat.cast_one]
  have h1 : (0 : K) < n - 1 := by
    rw [← hc]
    exact Nat.cast_pos.2 (by omega)
  have h0 : (0 : K) < n := by linarith
  have hl : 0 < hi - lo := sub_pos.2 h
  have he : ∀ i : Nat, midpoint lo hi (n - 1) i - midpoint lo hi n i = (i + 1 / 2) * (hi - lo) / (n * (n - 1)) := by
    intro i
    simp only [midpoint, hc]
    field_simp
    ring
  refine ⟨he, fun i => ?_, ?_⟩
  · rw [← sub_pos, he]
    have : (0 : K) ≤ i := Nat.cast_nonneg i
    positivity
  · have : midpoint lo hi (n - 1) (n - 1) - hi = (hi - lo) / (2 * (n - 1)) := by
      simp only [midpoint, hc]
      field_simp
      ring
    rw [← sub_pos, this]
    positivity

omit [LinearOrder K] [IsStrictOrderedRing K] in
/-- C120 in two dimensions, partial. All values are drawn, at the corners of a grid of one cell less in each direction.
Missing: the points are the midpoints, which is false, see `C120_mesh_misplaced`. -/
theorem C120_mesh_partial (b : Box K) (f : Nat → Nat → Nat → α) (hx : 1 < b.x.cells) (hy : 1 < b.y.cells) (hz : b.z.cells = 1) :
    ∃ p, plot b ⟨b.x.cells, b.y.cells, b.z.cells, f⟩ = .ok p ∧ MeshAt p b.x.cells b.y.cells (fun i j => f i j 0)
      (fun i => b.x.lower + i * ((b.x.upper - b.x.lower) / (b.x.cells - 1))) (fun j => b.y.lower + j * ((b.y.upper - b.y.lower) / (b.y.cells - 1))) := by
  refine ⟨.mesh ((List.range b.x.cells).flatMap fun (i : Nat) => (List.range b.y.cells).map fun (j : Nat) => (b.x.lower + i * ((b.x.upper - b.x.lower) / (b.x.cells - 1)),
    b.y.lower + j * ((b.y.upper - b.y.lower) / (b.y.cells - 1)), f i j 0)), ?_, _, rfl, ?_⟩
  · simp only [plot, slice, leading, hy, hz, hx, List.filter, decide_true, lt_irrefl, decide_false, List.length_cons, List.length_nil, zero_add, if_true, if_false, zero_lt_one, linspace,
      Res.ok_bind, not_le.2 hx, not_le.2 hy, drawMesh, and_self, Nat.reduceAdd, OfNat.ofNat_ne_one]
  · intro q
    simp only [List.mem_flatMap, List.mem_map, List.mem_range]
    constructor
    · rintro ⟨i, hi, j, hj, rfl⟩
      exact ⟨i, hi, j, hj, rfl⟩
    · rintro ⟨i, hi, j, hj, rfl⟩
      exact ⟨i, hi, j, hj, rfl⟩

omit [LinearOrder K] [IsStrictOrderedRing K] in
/-- C120 is false in two dimensions: along each direction only the point of a cell in the middle is its midpoint. -/
theorem C120_mesh_misplaced [CharZero K] (lo hi : K) (h : lo ≠ hi) (n : Nat) (hn : 1 < n) (i : Nat) : lo + i * ((hi - lo) / (n - 1)) = midpoint lo hi n i ↔ 2 * i + 1 = n := by
  have hc : ((n - 1 : Nat) : K) = n - 1 := by rw [Nat.cast_sub hn.le, Nat.cast_one]
  have h1 : (n : K) - 1 ≠ 0 := by
    rw [← hc]
    exact Nat.cast_ne_zero.2 (by omega)
  have h0 : (n : K) ≠ 0 := Nat.cast_ne_zero.2 (by omega)
  have hl : hi - lo ≠ 0 := sub_ne_zero.2 h.symm
  have he : lo + i * ((hi - lo) / (n - 1)) - midpoint lo hi n i = (hi - lo) * ((2 * i + 1 : Nat) - (n : K)) / (2 * n * (n - 1)) := by
    simp only [midpoint]
    push_cast
    field_simp
    ring
  rw [← sub_eq_zero, he, div_eq_zero_iff, mul_eq_zero, or_iff_left (by simp [h0, h1]), or_iff_right hl, sub_eq_zero, Nat.cast_inj]

omit [LinearOrder K] [IsStrictOrderedRing K] in
/-- Runs with one cell in the second direction and several in the first and third are drawn as if they were one-dimensional: values with another third index than 0 are not drawn. -/
theorem C120_third_direction_lost (b : Box K) (f g : Nat → Nat → Nat → α) (hx : 1 < b.x.cells) (hy : b.y.cells = 1) (hz : 1 < b.z.cells) (h : ∀ i, f i 0 0 = g i 0 0) :
    plot b ⟨b.x.cells, b.y.cells, b.z.cells, f⟩ = plot b ⟨b.x.cells, b.y.cells, b.z.cells, g⟩ := by
  simp only [plot, slice, leading, hy, hz, hx, List.filter, decide_true, lt_irrefl, decide_false, List.length_cons, List.length_nil, zero_add, if_true, if_false, Nat.zero_lt_of_lt hz,
    Res.ok_bind, Nat.reduceAdd, OfNat.ofNat_ne_one, drawLines, List.range_one, List.map_cons, List.map_nil, h]

omit [LinearOrder K] [IsStrictOrderedRing K] in
/-- Nothing is drawn if the first direction has a single cell. -/
theorem C120_first_direction_needed (b : Box K) (d : Data α) (hx : b.x.cells ≤ 1) : ∀ p, plot b d ≠ .ok p := by
  intro p h
  simp only [plot, leading, not_lt.2 hx, if_false, zero_ne_one, OfNat.zero_ne_ofNat] at h
  cases hs : slice d with
  | ok _ => rw [hs] at h; cases h
  | error _ => rw [hs] at h; cases h

end

/-! ### Examples -/

/-- C120 is false as it stands: two cells of the unit interval with the values 5 and 6, which are drawn at 1/2 and 3/2 instead of 1/4 and 3/4. -/
theorem C120_fails : plot (⟨⟨0, 1, 2⟩, ⟨0, 1, 1⟩, ⟨0, 1, 1⟩⟩ : Box ℚ) ⟨2, 1, 1, fun i _ _ => i + 5⟩ = .ok (.lines [[(1 / 2, 5), (3 / 2, 6)]]) ∧
    midpoint (0 : ℚ) 1 2 0 = 1 / 4 ∧ midpoint (0 : ℚ) 1 2 1 = 3 / 4 := by
  refine ⟨?_, by norm_num [midpoint], by norm_num [midpoint]⟩
  obtain ⟨p, h1, h2⟩ := C120_line_partial (⟨⟨0, 1, 2⟩, ⟨0, 1, 1⟩, ⟨0, 1, 1⟩⟩ : Box ℚ) (fun i _ _ => i + 5) (by decide) rfl rfl
  rw [h1, h2]
  norm_num [midpoint, List.range_succ]

/-- The hypotheses of `C120_line_misplaced`. -/
example : midpoint (0 : ℚ) 1 2 1 < 1 ∧ 1 < midpoint (0 : ℚ) 1 1 1 := ⟨by norm_num [midpoint], (C120_line_misplaced 0 1 one_pos 2 (by decide)).2.2⟩

/-- A run with three by two cells. -/
def wide : Box ℚ := ⟨⟨0, 1, 3⟩, ⟨0, 1, 2⟩, ⟨0, 1, 1⟩⟩

example : ∃ p, plot wide ⟨3, 2, 1, fun i j _ => 10 * i + j⟩ = .ok p ∧ ∃ l, p = .mesh l ∧ (1, 0, 20) ∈ l ∧ midpoint (0 : ℚ) 1 3 2 = 5 / 6 ∧ midpoint (0 : ℚ) 1 2 0 = 1 / 4 := by
  obtain ⟨p, h, l, rfl, hl⟩ := C120_mesh_partial wide (fun i j _ => 10 * i + j) (by decide) (by decide) rfl
  exact ⟨_, h, l, rfl, (hl _).2 ⟨2, by decide, 0, by decide, by norm_num [wide]⟩, by norm_num [midpoint], by norm_num [midpoint]⟩

/-- Of three cells only the second has the right place. -/
example : (0 : ℚ) + (1 : Nat) * ((1 - 0) / ((3 : Nat) - 1)) = midpoint 0 1 3 1 ∧ (0 : ℚ) + (2 : Nat) * ((1 - 0) / ((3 : Nat) - 1)) ≠ midpoint 0 1 3 2 :=
  ⟨(C120_mesh_misplaced 0 1 zero_ne_one 3 (by decide) 1).2 rfl, fun h => absurd ((C120_mesh_misplaced 0 1 zero_ne_one 3 (by decide) 2).1 h) (by decide)⟩

/-- Two runs with two by one by two cells that differ in the values of the third index 1. -/
example : plot (⟨⟨0, 1, 2⟩, ⟨0, 1, 1⟩, ⟨0, 1, 2⟩⟩ : Box ℚ) ⟨2, 1, 2, fun i _ k => i + k⟩ = plot ⟨⟨0, 1, 2⟩, ⟨0, 1, 1⟩, ⟨0, 1, 2⟩⟩ ⟨2, 1, 2, fun i _ k => i + 7 * k⟩ :=
  C120_third_direction_lost ⟨⟨0, 1, 2⟩, ⟨0, 1, 1⟩, ⟨0, 1, 2⟩⟩ (fun i _ k => i + k) (fun i _ k => i + 7 * k) (by decide) rfl (by decide) (fun _ => rfl)

/-- A run along the second direction. -/
example : ∀ p, plot (⟨⟨0, 1, 1⟩, ⟨0, 1, 4⟩, ⟨0, 1, 1⟩⟩ : Box ℚ) ⟨1, 4, 1, fun _ j _ => j⟩ ≠ .ok p := C120_first_direction_needed _ _ (by decide)

end Verif.Props.PyPlot
