import Verif.Standalone
import Verif.Props.Structure

/-!
What property C105 talks about: the cells of a file seen on a finer grid, and structure functions.
-/

namespace Verif.StandaloneSpec
open Verif Boundary

/-- A field given on `dx × dy × dz` equal cells, stored with `x` fastest, on a grid of `nx × ny × nz` cells of the same domain: the cell `c` has the value of the cell that contains it. -/
def refined (dx dy dz nx ny nz : Nat) (stored : Nat → ℝ) (c : I3) : ℝ :=
  stored ((c.z.toNat * dz / nz * dy + c.y.toNat * dy / ny) * dx + c.x.toNat * dx / nx)

/-- The grid can be used: there are no cells in a direction without cells in the directions before it, and the number of cells is the same multiple of that in the file for all directions
that are used. -/
def Fits (dx dy dz nx ny nz : Nat) : Prop :=
  (ny = 1 → nz = 1) ∧ (nx = 1 → ny = 1 ∧ nz = 1) ∧
    ∃ c, nx = c * dx ∧ (if ny = 1 then dy = 1 else ny = c * dy) ∧ (if nz = 1 then dz = 1 else nz = c * dz)

/-- The structure function of a field `u` on `n` cells that is continued beyond the boundary according to `bc`: the mean over all cells of the sum over all cells at distance `h` (maximum norm) of
the `p`-th power of the difference. -/
noncomputable def structureFunction (bc : BC) (p : ℝ) (n : I3) (u : I3 → ℝ) (h : Nat) : ℝ :=
  ∑ c ∈ (box 0 n).toFinset, (∑ s ∈ Props.shell (Props.dimsOf n) h, |u c - Props.extended bc n u (c + s)| ^ p) / (n.x * n.y * n.z)

end Verif.StandaloneSpec
