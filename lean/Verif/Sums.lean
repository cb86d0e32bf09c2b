import Verif.Basic
import Mathlib.Algebra.BigOperators.Group.Finset.Basic
import Mathlib.Algebra.BigOperators.Intervals
import Mathlib.Order.Interval.Finset.Basic
import Mathlib.Data.Int.Interval

/-!
Sums over loops.
-/

namespace Verif
open Finset

theorem toFinset_irange (a b : Int) : (irange a b).toFinset = Finset.Ico a b := by
  ext x; simp

theorem sum_irange {M : Type} [AddCommMonoid M] (a b : Int) (f : Int → M) :
    ((irange a b).map f).sum = ∑ x ∈ Finset.Ico a b, f x := by
  rw [← toFinset_irange, List.sum_toFinset _ (nodup_irange a b)]

theorem sum_map_flatMap {ι κ M : Type} [AddCommMonoid M] (l : List ι) (g : ι → List κ) (f : κ → M) :
    ((l.flatMap g).map f).sum = (l.map fun i => ((g i).map f).sum).sum := by
  induction l with
  | nil => simp
  | cons a l ih => simp [ih]

/-- A sum over the cells visited by three nested loops. -/
theorem sum_box {M : Type} [AddCommMonoid M] (lo hi : I3) (f : I3 → M) :
    ((box lo hi).map f).sum =
      ∑ z ∈ Finset.Ico lo.z hi.z, ∑ y ∈ Finset.Ico lo.y hi.y, ∑ x ∈ Finset.Ico lo.x hi.x, f ⟨x, y, z⟩ := by
  unfold box
  rw [sum_map_flatMap, sum_irange]
  refine Finset.sum_congr rfl fun z _ => ?_
  rw [sum_map_flatMap, sum_irange]
  refine Finset.sum_congr rfl fun y _ => ?_
  rw [List.map_map, sum_irange]
  rfl

/-- `for i in l { s += v(i); }` -/
theorem foldlM_sum {ι M : Type} [AddCommMonoid M] (l : List ι) (v : ι → Res M) (v' : ι → M) (s0 : M)
    (h : ∀ i ∈ l, v i = .ok (v' i)) :
    l.foldlM (fun s i => do let x ← v i; pure (s + x)) s0 = .ok (s0 + (l.map v').sum) := by
  induction l generalizing s0 with
  | nil => simp
  | cons a l ih =>
    simp only [List.foldlM_cons, h a (by simp), Res.ok_bind, Res.pure_eq, List.map_cons, List.sum_cons]
    have := ih (s0 + v' a) (fun i hi => h i (by simp [hi]))
    simp only [Res.pure_eq] at this
    rw [this, add_assoc]

end Verif
