import Verif.Eno
import Mathlib.Algebra.Polynomial.Eval.Degree
import Mathlib.Analysis.SpecialFunctions.Integrals.Basic

/-!
Lemmas about the ENO coefficient tables: exactness on polynomials and row sums. Nothing here models code.
-/

namespace Verif
namespace Eno
open Verif
variable {m : Nat}

/-- Average of a polynomial over an interval. -/
noncomputable def cellAverage (p : Polynomial ℝ) (a b : ℝ) : ℝ := (∫ x in a..b, p.eval x) / (b - a)

theorem cellAverage_eq (p : Polynomial ℝ) (hp : p.natDegree < 5) (a b : ℝ) : cellAverage p a b =
    (p.coeff 0 * (b - a) + p.coeff 1 * ((b ^ 2 - a ^ 2) / 2) + p.coeff 2 * ((b ^ 3 - a ^ 3) / 3) + p.coeff 3 * ((b ^ 4 - a ^ 4) / 4) +
      p.coeff 4 * ((b ^ 5 - a ^ 5) / 5)) / (b - a) := by
  unfold cellAverage
  congr 1
  have e : (fun x => p.eval x) = fun x => ∑ i ∈ Finset.range 5, p.coeff i * x ^ i := by
    funext x
    exact Polynomial.eval_eq_sum_range' hp x
  simp only [e]
  rw [intervalIntegral.integral_finsetSum (f := fun i x => p.coeff i * x ^ i)
    (fun i _ => (by fun_prop : Continuous fun x : ℝ => p.coeff i * x ^ i).intervalIntegrable _ _)]
  simp only [intervalIntegral.integral_const_mul, integral_pow, Finset.sum_range_succ, Finset.sum_range_zero]
  push_cast
  ring_nf

theorem eval_eq (p : Polynomial ℝ) (hp : p.natDegree < 5) (x : ℝ) :
    p.eval x = p.coeff 0 + p.coeff 1 * x + p.coeff 2 * x ^ 2 + p.coeff 3 * x ^ 3 + p.coeff 4 * x ^ 4 := by
  rw [Polynomial.eval_eq_sum_range' hp x]
  simp [Finset.sum_range_succ]

theorem value_apply (k r s : Nat) (f : Int → Vec m) (i : Fin m) :
    value k r s f i = (((table k).getD r []).zipIdx.map fun cj => cj.1 * f (-((s : Int) - cj.2)) i).sum := by
  unfold value combo
  have : ∀ (l : List (ℝ × Nat)) (a : Vec m), (l.foldl (fun s' cj => s' + cj.1 • f (-((s : Int) - cj.2))) a) i =
      a i + (l.map fun cj => cj.1 * f (-((s : Int) - cj.2)) i).sum := by
    intro l
    induction l with
    | nil => intro a; simp
    | cons c l ih => intro a; rw [List.foldl_cons, ih]; simp [add_assoc]
  rw [this]; simp

/-- Both rows are exact on polynomials of degree below `k`. -/
theorem value_exact {k s : Nat} (h1 : 1 ≤ k) (h4 : k ≤ 4) (hs : s ≤ k - 1) (p : Polynomial ℝ) (hp : p.natDegree < k) (x0 h : ℝ) (hh : h ≠ 0)
    (f : Int → Vec m) (i : Fin m)
    (hf : ∀ o : Int, -s ≤ o → o ≤ (k : Int) - 1 - s → f o i = cellAverage p (x0 + o * h) (x0 + (o + 1) * h)) :
    value k s s f i = p.eval x0 ∧ value k (s + 1) s f i = p.eval (x0 + h) := by
  have hc : ∀ j, k ≤ j → p.coeff j = 0 := fun j hj => Polynomial.coeff_eq_zero_of_natDegree_lt (by omega)
  have hA : ∀ o : Int, -s ≤ o → o ≤ (k : Int) - 1 - s → f o i = (p.coeff 0 * h + p.coeff 1 * (((x0 + (o + 1) * h) ^ 2 - (x0 + o * h) ^ 2) / 2) +
      p.coeff 2 * (((x0 + (o + 1) * h) ^ 3 - (x0 + o * h) ^ 3) / 3) + p.coeff 3 * (((x0 + (o + 1) * h) ^ 4 - (x0 + o * h) ^ 4) / 4)) / h := by
    intro o o1 o2
    rw [hf o o1 o2, cellAverage_eq p (by omega), hc 4 (by omega)]
    have e : x0 + ((o : ℝ) + 1) * h - (x0 + o * h) = h := by ring
    rw [e]; ring
  rw [value_apply, value_apply, eval_eq p (by omega), eval_eq p (by omega), hc 4 (by omega)]
  interval_cases k
  · have c1 := hc 1 (by omega); have c2 := hc 2 (by omega); have c3 := hc 3 (by omega)
    interval_cases s
    simp only [table, List.getD_cons_zero, List.getD_cons_succ, List.zipIdx_cons, List.zipIdx_nil, List.map_cons, List.map_nil, List.sum_cons, List.sum_nil,
      c1, c2, c3]
    norm_num
    rw [hA 0 (by simp) (by simp), c1, c2, c3]; field_simp; norm_num
  · have c2 := hc 2 (by omega); have c3 := hc 3 (by omega)
    interval_cases s
    · have a0 := hA 0 (by norm_num) (by norm_num); have a1 := hA 1 (by norm_num) (by norm_num)
      simp only [c2, c3] at a0 a1
      norm_num at a0 a1
      norm_num [table, List.zipIdx_cons, a0, a1, c2, c3]
      constructor <;> field_simp <;> ring
    · have a0 := hA 0 (by norm_num) (by norm_num); have a1 := hA (-1) (by norm_num) (by norm_num)
      simp only [c2, c3] at a0 a1
      norm_num at a0 a1
      norm_num [table, List.zipIdx_cons, a0, a1, c2, c3]
      constructor <;> field_simp <;> ring
  · have c3 := hc 3 (by omega)
    interval_cases s
    · have a0 := hA 0 (by norm_num) (by norm_num); have a1 := hA 1 (by norm_num) (by norm_num); have a2 := hA 2 (by norm_num) (by norm_num)
      simp only [c3] at a0 a1 a2
      norm_num at a0 a1 a2
      norm_num [table, List.zipIdx_cons, a0, a1, a2, c3]
      constructor <;> field_simp <;> ring
    · have a0 := hA 0 (by norm_num) (by norm_num); have a1 := hA 1 (by norm_num) (by norm_num); have a2 := hA (-1) (by norm_num) (by norm_num)
      simp only [c3] at a0 a1 a2
      norm_num at a0 a1 a2
      norm_num [table, List.zipIdx_cons, a0, a1, a2, c3]
      constructor <;> field_simp <;> ring
    · have a0 := hA 0 (by norm_num) (by norm_num); have a1 := hA (-1) (by norm_num) (by norm_num); have a2 := hA (-2) (by norm_num) (by norm_num)
      simp only [c3] at a0 a1 a2
      norm_num at a0 a1 a2
      norm_num [table, List.zipIdx_cons, a0, a1, a2, c3]
      constructor <;> field_simp <;> ring
  · interval_cases s
    · have a0 := hA 0 (by norm_num) (by norm_num); have a1 := hA 1 (by norm_num) (by norm_num); have a2 := hA 2 (by norm_num) (by norm_num)
      have a3 := hA 3 (by norm_num) (by norm_num)
      norm_num at a0 a1 a2 a3
      norm_num [table, List.zipIdx_cons, a0, a1, a2, a3]
      constructor <;> field_simp <;> ring
    · have a0 := hA 0 (by norm_num) (by norm_num); have a1 := hA 1 (by norm_num) (by norm_num); have a2 := hA 2 (by norm_num) (by norm_num)
      have a3 := hA (-1) (by norm_num) (by norm_num)
      norm_num at a0 a1 a2 a3
      norm_num [table, List.zipIdx_cons, a0, a1, a2, a3]
      constructor <;> field_simp <;> ring
    · have a0 := hA 0 (by norm_num) (by norm_num); have a1 := hA 1 (by norm_num) (by norm_num); have a2 := hA (-2) (by norm_num) (by norm_num)
      have a3 := hA (-1) (by norm_num) (by norm_num)
      norm_num at a0 a1 a2 a3
      norm_num [table, List.zipIdx_cons, a0, a1, a2, a3]
      constructor <;> field_simp <;> ring
    · have a0 := hA 0 (by norm_num) (by norm_num); have a1 := hA (-3) (by norm_num) (by norm_num); have a2 := hA (-2) (by norm_num) (by norm_num)
      have a3 := hA (-1) (by norm_num) (by norm_num)
      norm_num at a0 a1 a2 a3
      norm_num [table, List.zipIdx_cons, a0, a1, a2, a3]
      constructor <;> field_simp <;> ring

/-- If the values on the stencil are constant the face values are that constant (rows sum to one). -/
theorem value_const {k r s : Nat} (h1 : 1 ≤ k) (h4 : k ≤ 4) (hr : r ≤ k) (f : Int → Vec m) (i : Fin m) (c : ℝ)
    (hf : ∀ o : Int, -s ≤ o → o ≤ (k : Int) - 1 - s → f o i = c) : value k r s f i = c := by
  rw [value_apply]
  have e : (((table k).getD r []).zipIdx.map fun cj => cj.1 * f (-((s : Int) - cj.2)) i) =
      (((table k).getD r []).zipIdx.map fun cj => cj.1 * c) := by
    refine List.map_congr_left fun cj hcj => ?_
    have hj : cj.2 < k := by
      have := List.mem_zipIdx (x := cj.1) (i := cj.2) hcj
      rw [row_length h1 h4 hr] at this
      omega
    rw [hf _ (by omega) (by omega)]
  rw [e]
  interval_cases k <;> interval_cases r <;> simp [table, List.zipIdx_cons] <;> ring

/-- The face values are a combination of the stencil with weights not depending on the data. -/
theorem value_sum {k r s : Nat} (h1 : 1 ≤ k) (h4 : k ≤ 4) (hr : r ≤ k) :
    ∃ c : Fin k → ℝ, ∀ f : Int → Vec m, value k r s f = ∑ j, c j • f (j - s) := by
  refine ⟨fun j => ((table k).getD r []).getD j 0, fun f => ?_⟩
  funext i
  rw [value_apply]
  interval_cases k <;> interval_cases r <;> simp [table, List.zipIdx_cons, Fin.sum_univ_succ] <;> ring_nf

theorem fdiff_const (l : Nat) (f : Int → ℝ) (c : ℝ) (i : Int) (h : ∀ o, i ≤ o → o ≤ i + l + 1 → f o = c) : fdiff (l + 1) f i = 0 := by
  induction l generalizing i with
  | zero => simp [fdiff, h i (by omega) (by simp), h (i + 1) (by omega) (by simp)]
  | succ l ih =>
    rw [fdiff, ih i fun o o1 o2 => h o o1 (by push_cast; omega), ih (i + 1) fun o o1 o2 => h o (by omega) (by push_cast; omega), sub_zero]

/-- Selected shift if the cell and the `k - 1` cells to the right are constant. -/
theorem shiftOf_right_const (k : Nat) (f : Int → ℝ) (c : ℝ) (h : ∀ o : Int, 0 ≤ o → o ≤ (k : Int) - 1 → f o = c) : shiftOf k f = 0 := by
  unfold shiftOf
  have : ∀ (l : List Nat) (s : Nat), (∀ a ∈ l, a < k - 1) →
      l.foldl (fun s l => if |fdiff (l + 1) f (-1)| < |fdiff (l + 1) f 0| then s + 1 else s) s = s := by
    intro l
    induction l with
    | nil => intro s _; rfl
    | cons a l ih =>
      intro s hl
      have ha := hl a (by simp)
      rw [List.foldl_cons, fdiff_const a f c 0 (fun o o1 o2 => h o o1 (by omega)), if_neg (by simp)]
      exact ih s fun b hb => hl b (by simp [hb])
  exact this _ _ fun a ha => by simpa using ha

/-- If the cell, its left neighbour and `k - 2` cells to the right are constant, the selected stencil is constant too. -/
theorem shiftOf_central_const {k : Nat} (h2 : 2 ≤ k) (h4 : k ≤ 4) (f : Int → ℝ) (c : ℝ) (h : ∀ o : Int, -1 ≤ o → o ≤ (k : Int) - 2 → f o = c) :
    ∀ o : Int, -(shiftOf k f) ≤ o → o ≤ (k : Int) - 1 - shiftOf k f → f o = c := by
  have key : shiftOf k f = 1 ∨ (shiftOf k f = 0 ∧ f (k - 1) = c) := by
    interval_cases k
    · have a := h (-1) (by norm_num) (by norm_num); have b := h 0 (by norm_num) (by norm_num)
      by_cases hc : f 1 = c
      · right; simp [shiftOf, List.range_succ, fdiff, a, b, hc]
      · left; simp [shiftOf, List.range_succ, fdiff, a, b, sub_ne_zero.2 hc]
    · have a := h (-1) (by norm_num) (by norm_num); have b := h 0 (by norm_num) (by norm_num); have d := h 1 (by norm_num) (by norm_num)
      by_cases hc : f 2 = c
      · right; simp [shiftOf, List.range_succ, fdiff, a, b, d, hc]
      · left; simp [shiftOf, List.range_succ, fdiff, a, b, d, sub_ne_zero.2 hc]
    · have a := h (-1) (by norm_num) (by norm_num); have b := h 0 (by norm_num) (by norm_num); have d := h 1 (by norm_num) (by norm_num)
      have e := h 2 (by norm_num) (by norm_num)
      by_cases hc : f 3 = c
      · right; simp [shiftOf, List.range_succ, fdiff, a, b, d, e, hc]
      · left; simp [shiftOf, List.range_succ, fdiff, a, b, d, e, sub_ne_zero.2 hc]
  rcases key with key | ⟨key, hc⟩ <;> rw [key] <;> intro o o1 o2
  · exact h o (by omega) (by omega)
  · by_cases ho : o = k - 1
    · rw [ho, hc]
    · exact h o (by omega) (by omega)

end Eno
end Verif
