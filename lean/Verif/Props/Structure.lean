import Verif.StructureLemmas
import Mathlib.Tactic.NormNum
import Mathlib.Tactic.IntervalCases
import Mathlib.Algebra.BigOperators.Field

/-! C56, C57, C59: structure functions. -/

namespace Verif.Props
open Verif Structure Boundary

/-! ### C59 -/

/-- C59. The unrolled power is the power, for every exponent for which it exists. -/
theorem C59_fast_power {K : Type} [Monoid K] (p : Nat) (hp : 1 ≤ p) (x : K) : fastPower p x = some (x ^ p) := by
  induction p with
  | zero => omega
  | succ p ih =>
    rcases p with _ | p
    · simp [fastPower]
    · simp [fastPower, ih (by omega), pow_succ']

/-- C59, dispatch: whatever the exponent, the power class chosen computes the power. -/
theorem C59_dispatch (p x : ℝ) : dispatchPower p x = some (x ^ p) := by
  unfold dispatchPower
  split_ifs with h1 h2 h3 h4 h5
  · rw [C59_fast_power 1 le_rfl, h1]; simp
  · rw [C59_fast_power 2 (by norm_num), h2]; norm_cast
  · rw [C59_fast_power 3 (by norm_num), h3]; norm_cast
  · rw [C59_fast_power 4 (by norm_num), h4]; norm_cast
  · rw [C59_fast_power 5 (by norm_num), h5]; norm_cast
  · rfl

example : fastPower 5 (3 : ℚ) = some 243 := by rw [C59_fast_power 5 (by norm_num)]; norm_num

/-! ### C56 -/

/-- Maximum norm of a lattice shift. -/
def maxNorm (s : I3) : Int := max |s.x| (max |s.y| |s.z|)

/-- A shift along the first `dims` axes only. -/
def Along (dims : Nat) (s : I3) : Prop := (dims < 2 → s.y = 0) ∧ (dims < 3 → s.z = 0)

instance (dims : Nat) (s : I3) : Decidable (Along dims s) := by unfold Along; infer_instance

/-- The lattice shifts along the first `dims` axes with maximum norm `h`. -/
def shell (dims : Nat) (h : Int) : Finset I3 := (box ⟨-h, -h, -h⟩ ⟨h + 1, h + 1, h + 1⟩).toFinset.filter fun s => maxNorm s = h ∧ Along dims s

theorem maxNorm_eq_iff {s : I3} {h : Int} : maxNorm s = h ↔ (-h ≤ s.x ∧ s.x ≤ h) ∧ (-h ≤ s.y ∧ s.y ≤ h) ∧ (-h ≤ s.z ∧ s.z ≤ h) ∧
    (s.x = h ∨ s.x = -h ∨ s.y = h ∨ s.y = -h ∨ s.z = h ∨ s.z = -h) := by
  simp only [maxNorm, abs_eq_max_neg]
  omega

theorem mem_shell {dims : Nat} {h : Int} {s : I3} : s ∈ shell dims h ↔ maxNorm s = h ∧ Along dims s := by
  simp only [shell, Finset.mem_filter, List.mem_toFinset, mem_box, and_iff_right_iff_imp]
  rintro ⟨h1, _⟩
  rw [maxNorm_eq_iff] at h1
  omega

/-- C56, enumeration. For each cell `c` and distance `h ≥ 1` the loops visit exactly the lattice points at distance `h` (maximum norm, along the active axes), each once. -/
theorem C56_visits_each_shift_once (dims : Nat) (hdim : 1 ≤ dims ∧ dims ≤ 3) (c : I3) (hy : dims < 2 → c.y = 0) (hz : dims < 3 → c.z = 0) (h : Int) (hh : 1 ≤ h) :
    (cubePoints dims c h).Nodup ∧ ∀ p, p ∈ cubePoints dims c h ↔ maxNorm (p - c) = h ∧ Along dims (p - c) := by
  have hd : dims = 1 ∨ dims = 2 ∨ dims = 3 := by omega
  constructor
  · have hb : ∀ l : List I3, ∀ lo hi, l.Nodup → (∀ p ∈ l, p ∉ box lo hi) → (l ++ box lo hi).Nodup := by
      intro l lo hi hl hdis
      rw [List.nodup_append']
      exact ⟨hl, nodup_box lo hi, fun p hp hp' => hdis p hp hp'⟩
    have e0 : List.range 1 = [0] := rfl
    have e1 : List.range 2 = [0, 1] := rfl
    have e2 : List.range 3 = [0, 1, 2] := rfl
    rcases hd with rfl | rfl | rfl
    · simp only [cubePoints, e0, List.flatMap_cons, List.flatMap_nil, List.append_nil]
      refine hb _ _ _ (nodup_box _ _) ?_
      intro p; simp [cubeBounds]; omega
    · simp only [cubePoints, e1, List.flatMap_cons, List.flatMap_nil, List.append_nil, ← List.append_assoc]
      refine hb _ _ _ (hb _ _ _ (hb _ _ _ (nodup_box _ _) ?_) ?_) ?_ <;>
      · intro p; simp [cubeBounds, -not_and]; omega
    · simp only [cubePoints, e2, List.flatMap_cons, List.flatMap_nil, List.append_nil, ← List.append_assoc]
      refine hb _ _ _ (hb _ _ _ (hb _ _ _ (hb _ _ _ (hb _ _ _ (nodup_box _ _) ?_) ?_) ?_) ?_) ?_ <;>
      · intro p; simp [cubeBounds, -not_and]; omega
  · intro p
    rw [maxNorm_eq_iff]
    unfold Along
    rcases hd with rfl | rfl | rfl
    all_goals
      simp [cubePoints, cubeBounds, List.range_succ]
      omega

/-- Number of dimensions of a grid of `n` cells (`Volume::getDimensions`). -/
def dimsOf (n : I3) : Nat := if n.y = 1 then 1 else if n.z = 1 then 2 else 3

/-- C56. For data on a grid of `n` cells with ghost widths `g`, with the same boundary condition on all active sides, the computation never fails and adds to the entry `h` of the
output, `1 ≤ h < numberOfH`, the average over the interior cells of the sum over the lattice shifts of maximum norm `h` of the `p`-th power of the increment; the other entries are
unchanged. -/
theorem C56_structure_cube (p : ℝ) (bc : BC) (sides : Nat → Option BC) (n g : I3) (hn : 1 ≤ n.x ∧ 1 ≤ n.y ∧ 1 ≤ n.z) (hflat : n.y = 1 → n.z = 1)
    (hg : 0 ≤ g.x ∧ 0 ≤ g.y ∧ 0 ≤ g.z) (hsides : ∀ s < 2 * dimsOf n, sides s = some bc) (f : I3 → ℝ) (numberOfH : Int) (o : I3 → ℝ) :
    ∃ out, cubeChecked p sides (dimsOf n) n g numberOfH (field (n + g + g) f) (field ⟨numberOfH, 1, 1⟩ o) = .ok out ∧
      ∀ q, out.val q = o q + if q.y = 0 ∧ q.z = 0 ∧ 1 ≤ q.x ∧ q.x < numberOfH then
        ∑ c ∈ (box 0 n).toFinset, (∑ s ∈ shell (dimsOf n) q.x, |f (c + g) - extended bc n (fun c => f (c + g)) (c + s)| ^ p) / (n.x * n.y * n.z) else 0 := by
  have hd : 1 ≤ dimsOf n ∧ dimsOf n ≤ 3 := by unfold dimsOf; split_ifs <;> omega
  have hcheck : ((List.range (2 * dimsOf n)).any fun s => sides s != sides 0) = false := by
    rw [List.any_eq_false]
    intro s hs
    rw [hsides s (by simpa using hs), hsides 0 (by omega)]
    simp
  rw [cubeChecked, hcheck, hsides 0 (by omega)]
  simp only [Bool.false_eq_true, if_false]
  unfold cube
  obtain ⟨out, h1, h2, h3⟩ := loop_rows (box 0 n) 1 numberOfH
    (fun c h => ((cubePoints (dimsOf n) c h).map fun q => |f (c + g) - extended bc n (fun c => f (c + g)) q| ^ p / ((n.x * n.y * n.z : Int) : ℝ)).sum)
    (fun out c h => do
      let u ← (field (n + g + g) f).rd (c + g)
      (cubePoints (dimsOf n) c h).foldlM (fun out q => do
        let uh ← valueAt bc (field (n + g + g) f) q n g
        let x ← power p |u - uh|
        addAt out ⟨h, 0, 0⟩ (x / ((n.x * n.y * n.z : Int) : ℝ))) out) (field ⟨numberOfH, 1, 1⟩ o) (by
    intro b hb c hc h hh1 hh2
    beta_reduce
    rw [rd_interior f hc hg, Res.ok_bind]
    obtain ⟨b', e1, e2, e3⟩ := foldlM_acc (cubePoints (dimsOf n) c h) (fun _ => ⟨h, 0, 0⟩)
      (fun q => |f (c + g) - extended bc n (fun c => f (c + g)) q| ^ p / ((n.x * n.y * n.z : Int) : ℝ)) (fun out q => do
        let uh ← valueAt bc (field (n + g + g) f) q n g
        let x ← power p |f (c + g) - uh|
        addAt out ⟨h, 0, 0⟩ (x / ((n.x * n.y * n.z : Int) : ℝ))) b
      (by
        intro b1 hb1 q hq
        rw [valueAt_ok bc f q n g hn hg, Res.ok_bind, power, C59_dispatch, Res.ok_bind])
      (by intro q _; rw [hb]; simp [field]; omega)
    refine ⟨b', e1, e2, fun q => ?_⟩
    rw [e3]
    split_ifs <;> simp)
  refine ⟨out, h1, fun q => ?_⟩
  rw [h3]
  simp only [field, add_right_inj]
  split_ifs with hq
  · rw [List.sum_toFinset _ (nodup_box 0 n)]
    congr 1
    refine List.map_congr_left fun c hc => ?_
    obtain ⟨v1, v2⟩ := C56_visits_each_shift_once (dimsOf n) hd c (by
      simp at hc; unfold dimsOf; split_ifs <;> omega) (by
      simp at hc; unfold dimsOf; split_ifs <;> omega) q.x hq.2.2.1
    rw [Finset.sum_div, ← List.sum_toFinset _ v1]
    refine Finset.sum_bij (fun r _ => r - c) ?_ ?_ ?_ ?_
    · intro r hr
      rw [mem_shell]
      exact (v2 r).1 (by simpa using hr)
    · intro r _ r' _ e
      rw [I3.ext_iff] at e ⊢
      simp at e
      exact e
    · intro s hs
      rw [mem_shell] at hs
      have : c + s - c = s := by ext <;> simp
      exact ⟨c + s, by rw [List.mem_toFinset, v2, this]; exact hs, this⟩
    · intro r _
      have : c + (r - c) = r := by ext <;> simp
      rw [this]
      push_cast
      rfl
  · rfl

/-- Three of the eight shifts at distance one in two dimensions, and two that do not belong to them. -/
example : ⟨1, 0, 0⟩ ∈ shell 2 1 ∧ ⟨1, -1, 0⟩ ∈ shell 2 1 ∧ ⟨0, 1, 0⟩ ∈ shell 2 1 ∧ ⟨0, 0, 0⟩ ∉ shell 2 1 ∧ ⟨0, 1, 1⟩ ∉ shell 2 1 := by
  simp only [mem_shell]; decide

example : ∃ out, cubeChecked 2 (fun _ => some .periodic) 2 ⟨4, 3, 1⟩ ⟨1, 1, 0⟩ 3 (field ⟨6, 5, 1⟩ fun c => c.x * c.y) (field ⟨3, 1, 1⟩ fun _ => 0) = .ok out ∧ out.val 0 = 0 := by
  obtain ⟨out, h1, h2⟩ := C56_structure_cube 2 .periodic (fun _ => some .periodic) ⟨4, 3, 1⟩ ⟨1, 1, 0⟩ (by decide) (by decide) (by decide) (fun _ _ => rfl) (fun c => c.x * c.y) 3
    (fun _ => 0)
  exact ⟨out, h1, by rw [h2]; simp⟩

/-! ### C57 -/

/-- C57, `StructureBasic`, if the side numbered `direction` has the boundary condition of the direction (true for direction 0, and if all sides have the same type). The entry
`h < numberOfH` of the output grows by the average over the interior of the `p`-th power of the increment over `h` cells in the direction; `sides (2 d)` is the boundary condition at the
lower side in direction `d`. What is missing: other configurations, for which the code takes the boundary condition of another direction (`C57_basic_fails_with_mixed_boundaries`). -/
theorem C57_structure_basic_partial (bc : BC) (sides : Nat → Option BC) (p : ℝ) (d : Nat) (hbc : sides (2 * d) = some bc) (hsame : sides d = sides (2 * d)) (numberOfH : Int)
    (n g : I3) (hn : 1 ≤ n.x ∧ 1 ≤ n.y ∧ 1 ≤ n.z) (hg : 0 ≤ g.x ∧ 0 ≤ g.y ∧ 0 ≤ g.z) (f o : I3 → ℝ) :
    ∃ out, basic sides p d numberOfH n g (field (n + g + g) f) (field ⟨numberOfH, 1, 1⟩ o) = .ok out ∧
      ∀ h, 0 ≤ h → h < numberOfH → out.val ⟨h, 0, 0⟩ = o ⟨h, 0, 0⟩ +
        (∑ c ∈ (box 0 n).toFinset, |f (c + g) - extended bc n (fun c => f (c + g)) (c + along d h)| ^ p) / (n.x * n.y * n.z) := by
  obtain ⟨out, h1, h2⟩ := basicWith_ok bc p d numberOfH n g hn hg f o
  refine ⟨out, by rw [basic, hsame, hbc]; exact h1, fun h h0 hH => ?_⟩
  rw [h2, if_pos ⟨rfl, rfl, h0, hH⟩, Finset.sum_div]

example : ∃ out, basic (fun _ => some .neumann) 1 1 2 ⟨2, 2, 1⟩ ⟨1, 1, 0⟩ (field ⟨4, 4, 1⟩ fun c => c.y) (field ⟨2, 1, 1⟩ fun _ => 0) = .ok out ∧ out.val ⟨1, 0, 0⟩ = 1 / 2 := by
  obtain ⟨out, h1, h2⟩ := C57_structure_basic_partial .neumann (fun _ => some .neumann) 1 1 rfl rfl 2 ⟨2, 2, 1⟩ ⟨1, 1, 0⟩ (by decide) (by decide) (fun c => c.y) (fun _ => 0)
  refine ⟨out, h1, (h2 1 (by norm_num) (by norm_num)).trans ?_⟩
  rw [show (box 0 ⟨2, 2, 1⟩).toFinset = {⟨0, 0, 0⟩, ⟨1, 0, 0⟩, ⟨0, 1, 0⟩, ⟨1, 1, 0⟩} by decide]
  simp [extended, along, I3.dir]
  norm_num

/-- C57 is false for `StructureBasic` with different boundary conditions in different directions: Neumann in x, periodic in y, data `y` on 2 × 2 cells. The average of the
increments in y direction over one cell (periodic) is 1, the code gives 1/2. -/
theorem C57_basic_fails_with_mixed_boundaries :
    let sides : Nat → Option BC := fun s => if s < 2 then some .neumann else some .periodic
    let f : I3 → ℝ := fun c => c.y
    (∃ out, basic sides 1 1 2 ⟨2, 2, 1⟩ 0 (field ⟨2, 2, 1⟩ f) (field ⟨2, 1, 1⟩ fun _ => 0) = .ok out ∧ out.val ⟨1, 0, 0⟩ = 1 / 2) ∧
    (∑ c ∈ (box 0 ⟨2, 2, 1⟩).toFinset, |f c - extended .periodic ⟨2, 2, 1⟩ f (c + along 1 1)| ^ (1 : ℝ)) / (2 * 2 * 1) = 1 := by
  intro sides f
  have hb : (box 0 ⟨2, 2, 1⟩).toFinset = {⟨0, 0, 0⟩, ⟨1, 0, 0⟩, ⟨0, 1, 0⟩, ⟨1, 1, 0⟩} := by decide
  constructor
  · obtain ⟨out, h1, h2⟩ := basicWith_ok .neumann 1 1 2 ⟨2, 2, 1⟩ 0 (by decide) (by decide) f (fun _ => 0)
    refine ⟨out, h1, (h2 _).trans ?_⟩
    rw [hb]
    simp [extended, along, I3.dir, f]
    norm_num
  · rw [hb]
    simp [extended, along, I3.dir, f]
    norm_num

/-- C57, `StructureBase` on volumes without ghost cells: the entry `h < numberOfH` of the output grows by the average over the interior of the `p`-th power of the (periodic)
increment over `h` cells. What is missing: volumes with ghost cells, for which part of the interior is left out (`C57_base_fails_with_ghost_cells`). -/
theorem C57_structure_base_partial (p : ℝ) (d : Nat) (numberOfH : Int) (n : I3) (f o : I3 → ℝ) :
    ∃ out, base p d numberOfH n 0 (field n f) (field ⟨numberOfH, 1, 1⟩ o) = .ok out ∧
      ∀ h, 0 ≤ h → h < numberOfH → out.val ⟨h, 0, 0⟩ = o ⟨h, 0, 0⟩ + (∑ c ∈ (box 0 n).toFinset, |f c - extended .periodic n f (c + along d h)| ^ p) / (n.x * n.y * n.z) := by
  have z : ∀ c : I3, c + 0 = c := fun c => by ext <;> simp
  obtain ⟨out, h1, h2⟩ := base_ok p d numberOfH n 0 n (by ext <;> simp) (by simp) f o
  rw [z, z] at h1
  refine ⟨out, h1, fun h h0 hH => ?_⟩
  rw [h2, if_pos ⟨rfl, rfl, h0, hH⟩, Finset.sum_div]
  simp only [z]

example : ∃ out, base 1 0 2 ⟨4, 1, 1⟩ 0 (field ⟨4, 1, 1⟩ fun c => c.x) (field ⟨2, 1, 1⟩ fun _ => 0) = .ok out ∧ out.val ⟨1, 0, 0⟩ = 3 / 2 := by
  obtain ⟨out, h1, h2⟩ := C57_structure_base_partial 1 0 2 ⟨4, 1, 1⟩ (fun c => c.x) (fun _ => 0)
  refine ⟨out, h1, (h2 1 (by norm_num) (by norm_num)).trans ?_⟩
  rw [show (box 0 ⟨4, 1, 1⟩).toFinset = {⟨0, 0, 0⟩, ⟨1, 0, 0⟩, ⟨2, 0, 0⟩, ⟨3, 0, 0⟩} by decide]
  simp [extended, along, I3.dir]
  norm_num

/-- C57 is false for `StructureBase` on volumes with ghost cells: four interior cells with the values 0, 1, 2, 3 and one ghost cell on each side. The average of the increments over
one cell is 3/2, the code gives 1, the average over the first two cells. -/
theorem C57_base_fails_with_ghost_cells :
    let w : I3 → ℝ := fun c => c.x
    (∃ out, base 1 0 2 ⟨4, 1, 1⟩ ⟨1, 0, 0⟩ (field ⟨6, 1, 1⟩ fun c => w (c - ⟨1, 0, 0⟩)) (field ⟨2, 1, 1⟩ fun _ => 0) = .ok out ∧ out.val ⟨1, 0, 0⟩ = 1) ∧
    (∑ c ∈ (box 0 ⟨4, 1, 1⟩).toFinset, |w c - extended .periodic ⟨4, 1, 1⟩ w (c + along 0 1)| ^ (1 : ℝ)) / (4 * 1 * 1) = 3 / 2 := by
  intro w
  constructor
  · obtain ⟨out, h1, h2⟩ := base_ok 1 0 2 ⟨4, 1, 1⟩ ⟨1, 0, 0⟩ ⟨2, 1, 1⟩ (by ext <;> simp) (by simp) (fun c => w (c - ⟨1, 0, 0⟩)) (fun _ => 0)
    refine ⟨out, h1, (h2 _).trans ?_⟩
    rw [show (box 0 ⟨2, 1, 1⟩).toFinset = {⟨0, 0, 0⟩, ⟨1, 0, 0⟩} by decide]
    simp [extended, along, I3.dir, w]
    try norm_num
  · rw [show (box 0 ⟨4, 1, 1⟩).toFinset = {⟨0, 0, 0⟩, ⟨1, 0, 0⟩, ⟨2, 0, 0⟩, ⟨3, 0, 0⟩} by decide]
    simp [extended, along, I3.dir, w]
    norm_num

/-- C57, `StructureTwoPoints` on volumes without ghost cells and with both shifts in the same direction: the entry `(h1, h2)` grows by the average over the interior of the square of
the increment over `h1` cells times the increment over `h2` cells. What is missing: volumes with ghost cells (`C57_two_points_fails_with_ghost_cells`) and two different directions
(`C57_two_points_fails_in_two_directions`). -/
theorem C57_two_points_partial (d : Nat) (numberOfH : Int) (n : I3) (f o : I3 → ℝ) :
    ∃ out, twoPoints d d numberOfH n 0 (field n f) (field ⟨numberOfH, numberOfH, 1⟩ o) = .ok out ∧
      ∀ h1 h2, 0 ≤ h1 → h1 < numberOfH → 0 ≤ h2 → h2 < numberOfH → out.val ⟨h1, h2, 0⟩ = o ⟨h1, h2, 0⟩ +
        (∑ c ∈ (box 0 n).toFinset, (extended .neumann n f (c + along d h1) - f c) ^ 2 * (extended .neumann n f (c + along d h2) - f c)) / (n.x * n.y * n.z) := by
  have z : ∀ c : I3, c + 0 = c := fun c => by ext <;> simp
  obtain ⟨out, k1, k2⟩ := twoPoints_ok d d numberOfH n 0 n (by ext <;> simp) (by simp) f o
  rw [z, z] at k1
  refine ⟨out, k1, fun h1 h2 a1 a2 b1 b2 => ?_⟩
  rw [k2 h1 h2 a1 a2 b1 b2, Finset.sum_div]
  simp only [z]

example : ∃ out, twoPoints 0 0 2 ⟨4, 1, 1⟩ 0 (field ⟨4, 1, 1⟩ fun c => c.x) (field ⟨2, 2, 1⟩ fun _ => 0) = .ok out ∧ out.val ⟨1, 1, 0⟩ = 3 / 4 := by
  obtain ⟨out, h1, h2⟩ := C57_two_points_partial 0 2 ⟨4, 1, 1⟩ (fun c => c.x) (fun _ => 0)
  refine ⟨out, h1, (h2 1 1 (by norm_num) (by norm_num) (by norm_num) (by norm_num)).trans ?_⟩
  rw [show (box 0 ⟨4, 1, 1⟩).toFinset = {⟨0, 0, 0⟩, ⟨1, 0, 0⟩, ⟨2, 0, 0⟩, ⟨3, 0, 0⟩} by decide]
  simp [extended, along, I3.dir]
  norm_num

/-- C57 is false for `StructureTwoPoints` with two different directions: data `x + 3 y` on 2 × 2 cells. -/
theorem C57_two_points_fails_in_two_directions :
    let f : I3 → ℝ := fun c => c.x + 3 * c.y
    (∃ out, twoPoints 0 1 2 ⟨2, 2, 1⟩ 0 (field ⟨2, 2, 1⟩ f) (field ⟨2, 2, 1⟩ fun _ => 0) = .ok out ∧ out.val ⟨1, 1, 0⟩ = 1 / 2) ∧
    (∑ c ∈ (box 0 ⟨2, 2, 1⟩).toFinset, (extended .neumann ⟨2, 2, 1⟩ f (c + along 0 1) - f c) ^ 2 * (extended .neumann ⟨2, 2, 1⟩ f (c + along 1 1) - f c)) / (2 * 2 * 1) = 3 / 4 := by
  intro f
  have hb : (box 0 ⟨2, 2, 1⟩).toFinset = {⟨0, 0, 0⟩, ⟨1, 0, 0⟩, ⟨0, 1, 0⟩, ⟨1, 1, 0⟩} := by decide
  constructor
  · obtain ⟨out, h1, h2⟩ := twoPoints_ok 0 1 2 ⟨2, 2, 1⟩ 0 ⟨2, 2, 1⟩ (by ext <;> simp) (by simp) f (fun _ => 0)
    refine ⟨out, h1, (h2 1 1 (by norm_num) (by norm_num) (by norm_num) (by norm_num)).trans ?_⟩
    rw [hb]
    simp [extended, along, I3.dir, f]
    norm_num
  · rw [hb]
    simp [extended, along, I3.dir, f]
    norm_num

/-- C57 is false for `StructureTwoPoints` on volumes with ghost cells: four interior cells with the values 0, 1, 2, 3. -/
theorem C57_two_points_fails_with_ghost_cells :
    let w : I3 → ℝ := fun c => c.x
    (∃ out, twoPoints 0 0 2 ⟨4, 1, 1⟩ ⟨1, 0, 0⟩ (field ⟨6, 1, 1⟩ fun c => w (c - ⟨1, 0, 0⟩)) (field ⟨2, 2, 1⟩ fun _ => 0) = .ok out ∧ out.val ⟨1, 1, 0⟩ = 1 / 2) ∧
    (∑ c ∈ (box 0 ⟨4, 1, 1⟩).toFinset, (extended .neumann ⟨4, 1, 1⟩ w (c + along 0 1) - w c) ^ 2 * (extended .neumann ⟨4, 1, 1⟩ w (c + along 0 1) - w c)) / (4 * 1 * 1) = 3 / 4 := by
  intro w
  constructor
  · obtain ⟨out, h1, h2⟩ := twoPoints_ok 0 0 2 ⟨4, 1, 1⟩ ⟨1, 0, 0⟩ ⟨2, 1, 1⟩ (by ext <;> simp) (by simp) (fun c => w (c - ⟨1, 0, 0⟩)) (fun _ => 0)
    refine ⟨out, h1, (h2 1 1 (by norm_num) (by norm_num) (by norm_num) (by norm_num)).trans ?_⟩
    rw [show (box 0 ⟨2, 1, 1⟩).toFinset = {⟨0, 0, 0⟩, ⟨1, 0, 0⟩} by decide]
    simp [extended, along, I3.dir, w]
    try norm_num
  · rw [show (box 0 ⟨4, 1, 1⟩).toFinset = {⟨0, 0, 0⟩, ⟨1, 0, 0⟩, ⟨2, 0, 0⟩, ⟨3, 0, 0⟩} by decide]
    simp [extended, along, I3.dir, w]
    norm_num

/-- C57, constant data: all three leave the output unchanged, for any ghost width and any boundary conditions they accept. -/
theorem C57_zero_for_constant_data (bc : BC) (sides : Nat → Option BC) (p : ℝ) (hp : p ≠ 0) (d d2 : Nat) (hbc : sides d = some bc) (numberOfH : Int)
    (n g : I3) (hn : 1 ≤ n.x ∧ 1 ≤ n.y ∧ 1 ≤ n.z) (hg : 0 ≤ g.x ∧ 0 ≤ g.y ∧ 0 ≤ g.z) (k : ℝ) (o : I3 → ℝ) :
    (∃ out, basic sides p d numberOfH n g (field (n + g + g) fun _ => k) (field ⟨numberOfH, 1, 1⟩ o) = .ok out ∧ ∀ h, 0 ≤ h → h < numberOfH → out.val ⟨h, 0, 0⟩ = o ⟨h, 0, 0⟩) ∧
    (∃ out, base p d numberOfH n g (field (n + g + g) fun _ => k) (field ⟨numberOfH, 1, 1⟩ o) = .ok out ∧ ∀ h, 0 ≤ h → h < numberOfH → out.val ⟨h, 0, 0⟩ = o ⟨h, 0, 0⟩) ∧
    (∃ out, twoPoints d d2 numberOfH n g (field (n + g + g) fun _ => k) (field ⟨numberOfH, numberOfH, 1⟩ o) = .ok out ∧
      ∀ h1 h2, 0 ≤ h1 → h1 < numberOfH → 0 ≤ h2 → h2 < numberOfH → out.val ⟨h1, h2, 0⟩ = o ⟨h1, h2, 0⟩) := by
  have he : ∀ bc m q, extended bc m (fun _ => k) q = k := by intro bc m q; cases bc <;> rfl
  refine ⟨?_, ?_, ?_⟩
  · obtain ⟨out, h1, h2⟩ := basicWith_ok bc p d numberOfH n g hn hg (fun _ => k) o
    refine ⟨out, by rw [basic, hbc]; exact h1, fun h h0 hH => ?_⟩
    rw [h2]
    simp [he, Real.zero_rpow hp]
  · obtain ⟨out, h1, h2⟩ := base_ok p d numberOfH n g _ rfl hg (fun _ => k) o
    refine ⟨out, h1, fun h h0 hH => ?_⟩
    rw [h2]
    simp [he, Real.zero_rpow hp]
  · obtain ⟨out, h1, h2⟩ := twoPoints_ok d d2 numberOfH n g _ rfl hg (fun _ => k) o
    refine ⟨out, h1, fun i j a b a' b' => ?_⟩
    rw [h2 i j a b a' b']
    simp [he]

example : ∃ out, base 2 1 3 ⟨4, 5, 1⟩ ⟨2, 2, 0⟩ (field ⟨8, 9, 1⟩ fun _ => 7) (field ⟨3, 1, 1⟩ fun _ => 0) = .ok out ∧ ∀ h, 0 ≤ h → h < 3 → out.val ⟨h, 0, 0⟩ = 0 :=
  (C57_zero_for_constant_data .periodic (fun _ => some .periodic) 2 (by norm_num) 1 0 rfl 3 ⟨4, 5, 1⟩ ⟨2, 2, 0⟩ (by decide) (by decide) 7 (fun _ => 0)).2.1

/-- The shifts of a two dimensional grid with maximum norm two around a cell. -/
example : ⟨3, 3, 0⟩ ∈ cubePoints 2 ⟨1, 4, 0⟩ 2 ∧ ⟨2, 4, 0⟩ ∉ cubePoints 2 ⟨1, 4, 0⟩ 2 := by
  have h := (C56_visits_each_shift_once 2 (by decide) ⟨1, 4, 0⟩ (by decide) (fun _ => rfl) 2 (by decide)).2
  exact ⟨(h _).2 ⟨by decide, by simp [Along]⟩, fun hm => absurd ((h _).1 hm).1 (by decide)⟩

end Verif.Props
