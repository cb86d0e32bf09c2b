import Verif.AlsMath
import Mathlib.LinearAlgebra.Matrix.Defs
import Mathlib.Data.Matrix.Mul
import Mathlib.Algebra.BigOperators.Field
import Mathlib.Tactic.NormNum
import Mathlib.Tactic.Linarith
import Mathlib.Tactic.FieldSimp
import Mathlib.Tactic.Ring

/-! C58, C60: Legendre polynomials, vectors and matrices. -/

namespace Verif.Props
open Verif AlsMath

/-! ### C58 -/

/-- `P` is the sequence of Legendre polynomials at the point `x` (Bonnet's recurrence). -/
structure IsLegendre {K : Type} [Field K] (x : K) (P : Nat → K) : Prop where
  zero : P 0 = 1
  one : P 1 = x
  bonnet : ∀ n : Nat, ((n : K) + 2) * P (n + 2) = (2 * n + 3) * x * P (n + 1) - (n + 1) * P n

/-- C58 for degrees zero and one: the value is that of the Legendre polynomial. All higher degrees are wrong (`C58_fails_for_every_higher_degree`). -/
theorem C58_low_degrees_partial {K : Type} [Field K] (x : K) (P : Nat → K) (h : IsLegendre x P) (degree : Int) (h0 : 0 ≤ degree) (h1 : degree ≤ 1) :
    legendreP degree x = .ok (P degree.toNat) := by
  rw [legendreP, if_pos ⟨h0, by omega⟩]
  obtain rfl | rfl : degree = 0 ∨ degree = 1 := by omega
  · simp [legendre, h.zero]
  · simp [legendre, h.one]

example : IsLegendre (1 : ℚ) (fun _ => 1) := ⟨rfl, rfl, fun n => by ring⟩

/-- The recurrence as coded keeps all values at 1 for degrees from 2 on at most 2/3 in absolute value. -/
theorem legendre_at_one_small (n : Nat) : |legendre (n + 2) (1 : ℚ)| ≤ 2 / 3 ∧ |legendre (n + 3) (1 : ℚ)| ≤ 2 / 3 := by
  induction n with
  | zero => norm_num [legendre, abs_le]
  | succ n ih =>
    refine ⟨ih.2, ?_⟩
    rw [show n + 1 + 3 = (n + 2) + 2 by ring, legendre]
    obtain ⟨h1, h2⟩ := ih
    rw [abs_le] at h1 h2 ⊢
    have hn : (0 : ℚ) ≤ n := Nat.cast_nonneg n
    push_cast
    have hpos : (0 : ℚ) < n + 2 + 2 := by linarith
    rw [one_div, inv_mul_eq_div, div_le_iff₀ hpos, le_div_iff₀ hpos]
    rw [show n + 2 + 1 = n + 3 by ring]
    constructor <;> nlinarith

/-- C58 fails: for every degree from 2 to 11 the value at one is not one, so it is not that of the Legendre polynomial. -/
theorem C58_fails_for_every_higher_degree (P : Nat → ℚ) (h : IsLegendre 1 P) (degree : Int) (h2 : 2 ≤ degree) : legendreP degree (1 : ℚ) ≠ .ok (P degree.toNat) := by
  have hP : ∀ n, P n = 1 ∧ P (n + 1) = 1 := by
    intro n
    induction n with
    | zero => exact ⟨h.zero, h.one⟩
    | succ n ih =>
      refine ⟨ih.2, ?_⟩
      have hb := h.bonnet n
      rw [ih.1, ih.2] at hb
      have hn : (n : ℚ) + 2 ≠ 0 := by positivity
      have : ((n : ℚ) + 2) * P (n + 2) = (n + 2) * 1 := by rw [hb]; ring
      exact mul_left_cancel₀ hn this
  rw [(hP _).1, legendreP]
  split_ifs with hd
  · intro he
    have he : legendre degree.toNat (1 : ℚ) = 1 := by simpa using he
    obtain ⟨n, hn⟩ : ∃ n, degree.toNat = n + 2 := ⟨degree.toNat - 2, by omega⟩
    have := (legendre_at_one_small n).1
    rw [← hn, he] at this
    norm_num at this
  · simp

example : legendreP 2 (1 : ℚ) = .ok 0 := by
  rw [legendreP, if_pos (by decide), show (2 : Int).toNat = 0 + 2 from rfl]; norm_num [legendre]

/-- C58, which degrees the evaluator serves: exactly 0 to 11, at every argument; it reports an error for all others. -/
theorem C58_supported_degrees {K : Type} [Field K] (degree : Int) (x : K) :
    (0 ≤ degree ∧ degree ≤ 11 → ∃ y, legendreP degree x = .ok y) ∧ (degree < 0 ∨ 11 < degree → legendreP degree x = .error .thrown) := by
  unfold legendreP
  constructor
  · intro h
    rw [if_pos h]
    exact ⟨_, rfl⟩
  · intro h
    rw [if_neg (by omega)]

example : legendreP 12 (1 : ℚ) = .error .thrown := (C58_supported_degrees 12 (1 : ℚ)).2 (by decide)

/-- C58, what remains for all degrees: the values are even or odd like those of the Legendre polynomials. -/
theorem C58_parity_partial {K : Type} [Field K] (n : Nat) (x : K) : legendre n (-x) = (-1) ^ n * legendre n x := by
  have : legendre n (-x) = (-1) ^ n * legendre n x ∧ legendre (n + 1) (-x) = (-1) ^ (n + 1) * legendre (n + 1) x := by
    induction n with
    | zero => simp [legendre]
    | succ n ih =>
      refine ⟨ih.2, ?_⟩
      rw [legendre, legendre, ih.1, ih.2]
      ring
  exact this.1

/-! ### C60 -/

/-- C60, vectors of one to five components: construction keeps all components, and arithmetic is componentwise. For six components this is false (`C60_six_components_fail`). -/
theorem C60_vectors_partial {n : Nat} (hn : n ≤ 5) {T S : Type} [Field T] (f : S → T) (a b : Vec n T) (c : Vec n S) (s : T) (i : Fin n) :
    construct a i = a i ∧ convert f c i = f (c i) ∧ sub a b i = a i - b i ∧ div a b i = a i / b i ∧ smul s a i = s * a i ∧ divScalar a s i = a i / s ∧
      (∀ r, add a b = some r → r i = a i + b i) ∧ (∀ r, addAssign a b = some r → r i = a i + b i) := by
  have h6 : ¬ (n = 6 ∧ i.val = 5) := by omega
  refine ⟨?_, ?_, ?_, ?_, ?_, ?_, ?_, ?_⟩
  · simp only [construct, if_neg h6]
  · simp only [convert, construct, if_neg h6]
  · simp only [sub, construct, if_neg h6]
  · simp only [div, construct, if_neg h6]
  · simp only [smul, construct, if_neg h6]; ring
  · simp only [divScalar, construct, if_neg h6]
  · intro r hr
    simp only [add] at hr
    split_ifs at hr
    cases hr
    simp only [construct, if_neg h6]
  · intro r hr
    simp only [addAssign] at hr
    split_ifs at hr
    cases hr
    rfl

example : ∃ r, add (n := 3) (T := ℚ) (fun i => i) (fun _ => 1) = some r ∧ r 2 = 3 := ⟨_, rfl, by norm_num [construct]⟩

/-- C60, six components: all components but the last are kept and arithmetic is componentwise. -/
theorem C60_six_components_partial {T S : Type} [Field T] (f : S → T) (a b : Vec 6 T) (c : Vec 6 S) (s : T) (i : Fin 6) (hi : i.val < 5) :
    construct a i = a i ∧ convert f c i = f (c i) ∧ sub a b i = a i - b i ∧ div a b i = a i / b i ∧ smul s a i = s * a i ∧ divScalar a s i = a i / s := by
  have h6 : ¬ i.val = 5 := by omega
  simp [convert, sub, div, smul, divScalar, construct, h6, mul_comm]

/-- C60 fails for six components: the last one is lost at construction, and therefore by every operation. -/
theorem C60_six_components_fail {T : Type} [Field T] (a b : Vec 6 T) (s : T) : construct a 5 = 0 ∧ sub a b 5 = 0 ∧ div a b 5 = 0 ∧ smul s a 5 = 0 ∧ divScalar a s 5 = 0 := by
  simp [construct, sub, div, smul, divScalar]

example : construct (n := 6) (T := ℚ) (fun _ => 1) 5 ≠ 1 := by simp [construct]

/-- C60, scalar product. -/
theorem C60_dot {n : Nat} {T : Type} [Field T] (a b : Vec n T) : dot a b = ∑ i, a i * b i := by
  have := foldl_adds (fun s : T => s) (fun s i => s + a i * b i) (fun i => a i * b i) (fun _ _ => rfl) (List.finRange n) 0
  rw [dot, this, sum_finRange, zero_add]

/-- The matrix of mathematics with the entries given by `operator()`. -/
def toMatrix {rows cols : Nat} {T : Type} (m : Mat rows cols T) : Matrix (Fin rows) (Fin cols) T := Matrix.of fun r c => at' m r c

/-- C60, matrix times vector. -/
theorem C60_matrix_vector {n : Nat} {T : Type} [Field T] (m : Mat n n T) (v : Vec n T) : mulVec m v = Matrix.mulVec (toMatrix m) v := by
  funext r
  have inner : ∀ (p : Vec n T) (column : Fin n), ((List.finRange n).foldl (fun p row => Function.update p row (p row + at' m row column * v column)) p) r = p r + at' m r column * v column := by
    intro p column
    have := foldl_adds (fun p : Vec n T => p r) (fun p row => Function.update p row (p row + at' m row column * v column)) (fun row => if row = r then at' m row column * v column else 0)
      (fun p row => by
        by_cases h : r = row
        · subst h; simp
        · simp [Function.update_of_ne h, show ¬ row = r from fun e => h e.symm])
      (List.finRange n) p
    rw [this, sum_finRange, Finset.sum_ite_eq' Finset.univ r]
    simp
  have outer := foldl_adds (fun p : Vec n T => p r) (fun p column => (List.finRange n).foldl (fun p row => Function.update p row (p row + at' m row column * v column)) p)
    (fun column => at' m r column * v column) (fun p column => inner p column) (List.finRange n) zeroVec
  rw [mulVec, outer, sum_finRange]
  simp [zeroVec, Matrix.mulVec, dotProduct, toMatrix]

example : mulVec (n := 2) (T := ℚ) (fun c r => c + 2 * r) (fun i => i + 1) 1 = 8 := by
  rw [C60_matrix_vector]; norm_num [Matrix.mulVec, dotProduct, toMatrix, at', Fin.sum_univ_two]

/-- C60, matrix times matrix. -/
theorem C60_matrix_product {n : Nat} {T : Type} [Field T] (a b : Mat n n T) : toMatrix (mul a b) = toMatrix a * toMatrix b := by
  ext r c
  have inner : ∀ (p : Mat n n T) (row column : Fin n), at' ((List.finRange n).foldl (fun p i => set p row column (at' p row column + at' a row i * at' b i column)) p) r c =
      at' p r c + if row = r ∧ column = c then ∑ i, at' a r i * at' b i c else 0 := by
    intro p row column
    have := foldl_adds (fun p : Mat n n T => at' p r c) (fun p i => set p row column (at' p row column + at' a row i * at' b i column))
      (fun i => if row = r ∧ column = c then at' a r i * at' b i c else 0)
      (fun p i => by
        rw [at_set]
        split_ifs with h
        · rw [h.1, h.2]
        · rw [add_zero]) (List.finRange n) p
    rw [this, sum_finRange]
    split_ifs <;> simp
  have middle : ∀ (p : Mat n n T) (row : Fin n), at' ((List.finRange n).foldl (fun p column =>
      (List.finRange n).foldl (fun p i => set p row column (at' p row column + at' a row i * at' b i column)) p) p) r c =
      at' p r c + if row = r then ∑ i, at' a r i * at' b i c else 0 := by
    intro p row
    rw [foldl_adds (fun p : Mat n n T => at' p r c) _ _ (fun p column => inner p row column), sum_finRange]
    by_cases h : row = r <;> simp [h]
  have outer := foldl_adds (fun p : Mat n n T => at' p r c) _ _ (fun p row => middle p row) (List.finRange n) zeroMat
  change at' (mul a b) r c = _
  rw [mul, outer, sum_finRange]
  simp [zeroMat, at', Matrix.mul_apply, toMatrix]

/-- C60, transpose. -/
theorem C60_transpose {rows cols : Nat} {T : Type} [Zero T] (m : Mat rows cols T) : toMatrix (transposed m) = (toMatrix m).transpose := by
  ext c r
  have inner : ∀ (t : Mat cols rows T) (column : Fin cols), at' ((List.finRange rows).foldl (fun t row => set t column row (at' m row column)) t) c r =
      if column = c then at' m r c else at' t c r := by
    intro t column
    by_cases h : column = c
    · subst h
      rw [foldl_assigns (fun t : Mat cols rows T => at' t column r) _ r (at' m r column) (fun t row => by
        rw [at_set]
        by_cases h : row = r
        · subst h; simp
        · simp [h])]
      simp
    · rw [if_neg h]
      generalize List.finRange rows = l
      induction l generalizing t with
      | nil => rfl
      | cons i l ih => rw [List.foldl_cons, ih, at_set]; simp [h]
  change at' (transposed m) c r = _
  rw [transposed, foldl_assigns (fun t : Mat cols rows T => at' t c r) _ c (at' m r c) (fun t column => inner t column)]
  simp [toMatrix]

/-- C60, identity. -/
theorem C60_identity {n : Nat} {T : Type} [Field T] : toMatrix (identity (n := n) (T := T)) = 1 := by
  ext r c
  change at' identity r c = _
  by_cases h : r = c
  · subst h
    rw [identity, foldl_assigns (fun t : Mat n n T => at' t r r) _ r 1 (fun t i => by rw [at_set]; simp)]
    simp
  · rw [Matrix.one_apply_ne h, identity]
    have : ∀ (l : List (Fin n)) (m : Mat n n T), at' m r c = 0 → at' (l.foldl (fun m i => set m i i 1) m) r c = 0 := by
      intro l
      induction l with
      | nil => intro m hm; exact hm
      | cons i l ih =>
        intro m hm
        refine ih _ ?_
        rw [at_set, if_neg (fun e => h (e.1.symm.trans e.2)), hm]
    exact this _ _ rfl

theorem normalizedMat_at {n : Nat} (m : Mat n n ℝ) (r c : Fin n) : at' (normalizedMat m) r c = at' m r c / Real.sqrt (∑ i, at' m i c * at' m i c) := by
  have hnorm : ∀ column : Fin n, (List.finRange n).foldl (fun s row => s + at' m row column * at' m row column) 0 = ∑ i, at' m i column * at' m i column := by
    intro column
    have := foldl_adds (fun s : ℝ => s) (fun s row => s + at' m row column * at' m row column) (fun row => at' m row column * at' m row column) (fun _ _ => rfl) (List.finRange n) 0
    rw [this, sum_finRange, zero_add]
  have inner : ∀ (t : Mat n n ℝ) (column : Fin n), at' ((List.finRange n).foldl (fun out row =>
      set out row column (at' m row column / Real.sqrt ((List.finRange n).foldl (fun s row => s + at' m row column * at' m row column) 0))) t) r c =
      if column = c then at' m r c / Real.sqrt (∑ i, at' m i c * at' m i c) else at' t r c := by
    intro t column
    rw [hnorm]
    by_cases h : column = c
    · subst h
      rw [foldl_assigns (fun t : Mat n n ℝ => at' t r column) _ r (at' m r column / Real.sqrt (∑ i, at' m i column * at' m i column)) (fun t row => by
        rw [at_set]
        by_cases h : row = r
        · subst h; simp
        · simp [h])]
      simp
    · rw [if_neg h]
      generalize List.finRange n = l
      induction l generalizing t with
      | nil => rfl
      | cons i l ih => rw [List.foldl_cons, ih, at_set]; simp [h]
  rw [normalizedMat, foldl_assigns (fun t : Mat n n ℝ => at' t r c) _ c (at' m r c / Real.sqrt (∑ i, at' m i c * at' m i c)) (fun t column => inner t column)]
  simp

/-- C60, normalisation: every nonzero column keeps its direction and gets length one. -/
theorem C60_normalized {n : Nat} (m : Mat n n ℝ) (c : Fin n) (h : ∃ r, at' m r c ≠ 0) :
    (∃ k : ℝ, 0 < k ∧ ∀ r, at' (normalizedMat m) r c = k * at' m r c) ∧ ∑ r, at' (normalizedMat m) r c ^ 2 = 1 := by
  obtain ⟨r, hr⟩ := h
  have hpos : 0 < ∑ i, at' m i c * at' m i c :=
    Finset.sum_pos' (fun i _ => mul_self_nonneg _) ⟨r, Finset.mem_univ _, mul_self_pos.2 hr⟩
  refine ⟨⟨(Real.sqrt (∑ i, at' m i c * at' m i c))⁻¹, inv_pos.2 (Real.sqrt_pos.2 hpos), fun r => by rw [normalizedMat_at, div_eq_inv_mul]⟩, ?_⟩
  simp only [normalizedMat_at, div_pow, Real.sq_sqrt hpos.le]
  rw [← Finset.sum_div, div_eq_one_iff_eq hpos.ne']
  exact Finset.sum_congr rfl fun i _ => sq _

example : ∃ r, at' (fun _ _ => (2 : ℝ) : Mat 3 3 ℝ) r 1 ≠ 0 := ⟨0, by norm_num [at']⟩

/-- The first five of six components. -/
example : construct (fun i : Fin 6 => (i : ℚ) + 1) 3 = 4 := by
  rw [(C60_six_components_partial (fun x : ℚ => x) (fun i : Fin 6 => (i : ℚ) + 1) (fun _ => 0) (fun _ => 0) 1 3 (by decide)).1]
  norm_num

end Verif.Props
