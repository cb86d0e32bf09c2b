import Verif.BrownianLemmas

/-!
C116: the random velocities of examples/euler_brownian are made by midpoint displacement.

Specification. A field on a grid of twice the size is displaced from a coarse field if it has the coarse values at even points, at the other points of each pair the mean of the two or four
neighbours of the coarse field plus a multiple of a number, and another number for each of these points. The multiple has the variance of fractional Brownian motion. Data that are used with
periodic boundaries have the same value at the two ends, and data do not depend on the number of processes.

For grids whose size is a power of two the first part is proved, with the exact number of random numbers. The rest is violated: the field is zero at the far end and not at the near end;
grids of other sizes have rows of zeros; grids that are not square and parts of a divided grid fail or get other data; more than 1024 cells in a direction fail.
-/

namespace Verif.Brownian.Spec

/-- `d` is displaced from `prev`, of size `h` in both directions, with deviation `s` and three numbers for each pair of coordinates. -/
def Displaced (s : ℝ) (prev d : Nat → Nat → ℝ) (h : Nat) (r : Nat → Nat → Fin 3 → ℝ) : Prop :=
  ∀ i j, i < h → j < h → d (2 * i) (2 * j) = prev i j ∧
    d (2 * i + 1) (2 * j) = (prev i j + prev (i + 1) j) / 2 + s * r i j 0 ∧
    d (2 * i) (2 * j + 1) = (prev i j + prev i (j + 1)) / 2 + s * r i j 1 ∧
    d (2 * i + 1) (2 * j + 1) = (prev i j + prev i (j + 1) + prev (i + 1) j + prev (i + 1) (j + 1)) / 4 + s * r i j 2

end Verif.Brownian.Spec

namespace Verif.Props.Brownian
open Verif Verif.Examples Verif.Brownian Verif.Brownian.Spec

/-- Each field is displaced from the field of half the size, with numbers that no other point uses. -/
theorem C116_displaced (H : ℝ) (X : List ℝ) (k : Nat) (d : Field) (pos : Nat) (h : fBm H X (2 ^ (k + 1)) = .ok (d, pos)) : ∃ prev pos', fBm H X (2 ^ k) = .ok (prev, pos') ∧
    pos = pos' + 3 * (2 ^ k * 2 ^ k) ∧ pos ≤ X.length ∧
    ∃ index : Nat → Nat → Fin 3 → Nat, Displaced (deviation H (2 ^ (k + 1))) prev d (2 ^ k) (fun i j c => X.getD (index i j c) 0) ∧
      (∀ i j c, i < 2 ^ k → j < 2 ^ k → pos' ≤ index i j c ∧ index i j c < pos) ∧
      ∀ i j c i' j' c', j < 2 ^ k → j' < 2 ^ k → index i j c = index i' j' c' → i = i' ∧ j = j' ∧ c = c' := by
  obtain ⟨m, hm⟩ : ∃ m, 2 ^ (k + 1) = m + 2 := ⟨2 ^ (k + 1) - 2, by have := Nat.one_le_two_pow (n := k); omega⟩
  have hh : (m + 2) / 2 = 2 ^ k := by omega
  have hp : 0 < 2 ^ k := Nat.one_le_two_pow
  rw [hm, fBm, hh] at h
  rcases fBm_cases H X (2 ^ k) (by omega) with ⟨hu, prev, hd, hz⟩ | ⟨hu, hd⟩
  · rw [hd] at h
    replace h : displaceAll (deviation H (m + 2)) X (2 ^ k) (spread (2 ^ k) prev, used (2 ^ k)) = .ok (d, pos) := h
    unfold displaceAll at h
    rw [rows_eq _ _ _ hp _ _ _ (by omega)] at h
    by_cases hc : used (2 ^ k) + 3 * (2 ^ k * 2 ^ k) ≤ X.length
    · rw [if_pos hc] at h
      injection h with h
      injection h with h1 h2
      subst h1 h2
      have even : ∀ i j, i ≤ 2 ^ k → j ≤ 2 ^ k → spread (2 ^ k) prev (2 * i) (2 * j) = prev i j := by
        intro i j hi hj
        rw [spread_eq]
        by_cases hc : i < 2 ^ k ∧ j < 2 ^ k
        · rw [if_pos (by omega), show 2 * i / 2 = i by omega, show 2 * j / 2 = j by omega]
        · rw [if_neg (by omega), hz _ _ (by omega)]
      refine ⟨prev, _, hd, rfl, hc, fun i j c => used (2 ^ k) + 3 * (i * 2 ^ k + j) + c, ?_, ?_, ?_⟩
      · intro i j hi hj
        rw [hm]
        refine ⟨?_, ?_, ?_, ?_⟩ <;> beta_reduce
        · rw [if_pos (by omega), target_even, even _ _ (by omega) (by omega)]
        · rw [if_pos (by omega), target, if_pos (by omega), if_neg (by omega), show (2 * i + 1) / 2 = i by omega, show 2 * j / 2 = j by omega, even _ _ (by omega) (by omega),
            even _ _ (by omega) (by omega)]
          norm_num; ring
        · rw [if_pos (by omega), target, if_neg (by omega), if_pos (by omega), show (2 * j + 1) / 2 = j by omega, show 2 * i / 2 = i by omega, even _ _ (by omega) (by omega),
            even _ _ (by omega) (by omega)]
          norm_num; ring
        · rw [if_pos (by omega), target, if_pos (by omega), if_pos (by omega), show (2 * j + 1) / 2 = j by omega, show (2 * i + 1) / 2 = i by omega, even _ _ (by omega) (by omega),
            even _ _ (by omega) (by omega), even _ _ (by omega) (by omega), even _ _ (by omega) (by omega)]
          norm_num; ring
      · intro i j c hi hj
        beta_reduce
        have : (i + 1) * 2 ^ k ≤ 2 ^ k * 2 ^ k := Nat.mul_le_mul_right _ hi
        have hc := c.isLt
        have e : (i + 1) * 2 ^ k = i * 2 ^ k + 2 ^ k := by ring
        omega
      · intro i j c i' j' c' hj hj' he
        have hc := c.isLt
        have hc' := c'.isLt
        beta_reduce at he
        have e1 : i * 2 ^ k + j = i' * 2 ^ k + j' := by omega
        have e2 : i = i' := by
          have h1 : (i * 2 ^ k + j) / 2 ^ k = i := by rw [mul_comm, Nat.mul_add_div hp, Nat.div_eq_of_lt hj, add_zero]
          have h2 : (i' * 2 ^ k + j') / 2 ^ k = i' := by rw [mul_comm, Nat.mul_add_div hp, Nat.div_eq_of_lt hj', add_zero]
          rw [← h1, ← h2, e1]
        subst e2
        exact ⟨rfl, by omega, Fin.ext (by omega)⟩
    · rw [if_neg hc] at h; cases h
  · rw [hd] at h; cases h

/-- For `2^k` cells in each direction `4^k - 1` numbers are used; with fewer there is an exception. -/
theorem C116_numbers (H : ℝ) (X : List ℝ) (k : Nat) : (4 ^ k - 1 ≤ X.length → ∃ d, fBm H X (2 ^ k) = .ok (d, 4 ^ k - 1)) ∧ (X.length < 4 ^ k - 1 → fBm H X (2 ^ k) = .error .thrown) := by
  have hu := used_pow k
  have e : used (2 ^ k) = 4 ^ k - 1 := by omega
  rcases fBm_cases H X (2 ^ k) Nat.one_le_two_pow with ⟨h, d, hd, _⟩ | ⟨h, hd⟩
  · exact ⟨fun _ => ⟨d, by rw [hd, e]⟩, fun h' => by omega⟩
  · exact ⟨fun h' => by omega, fun _ => hd⟩

example : ∃ d, fBm 0.1 (List.replicate 20 1) (2 ^ 2) = .ok (d, 15) := (C116_numbers 0.1 (List.replicate 20 1) 2).1 (by simp)

example : ∃ d prev : Field, fBm 0.1 (List.replicate 20 1) (2 ^ 2) = .ok (d, 15) ∧ d 2 2 = prev 1 1 := by
  obtain ⟨d, hd⟩ := (C116_numbers 0.1 (List.replicate 20 1) 2).1 (by simp)
  obtain ⟨prev, _, _, _, _, _, hs, _⟩ := C116_displaced 0.1 _ 1 d _ hd
  exact ⟨d, prev, hd, (hs 1 1 (by norm_num) (by norm_num)).1⟩

/-- The deviation: its square is the variance of midpoint displacement on a grid of size `N`, and it is not zero. -/
theorem C116_deviation (H : ℝ) (hH : H < 1) (N : Nat) (hN : 1 ≤ N) : 0 < deviation H N ∧ deviation H N ^ 2 = (1 - (2 : ℝ) ^ (2 * H - 2)) / (N : ℝ) ^ (2 * H) := by
  have hn : (0 : ℝ) < N := by exact_mod_cast hN
  have h1 : (2 : ℝ) ^ (2 * H - 2) < 1 := Real.rpow_lt_one_of_one_lt_of_neg (by norm_num) (by linarith)
  have h2 : (2 : ℝ) ^ (2 * Real.logb 2 N * H) = (N : ℝ) ^ (2 * H) := by
    rw [show 2 * Real.logb 2 N * H = Real.logb 2 N * (2 * H) by ring, Real.rpow_mul (by norm_num), Real.rpow_logb (by norm_num) (by norm_num) hn]
  have h3 : 0 < (1 - (2 : ℝ) ^ (2 * H - 2)) / (N : ℝ) ^ (2 * H) := div_pos (by linarith) (Real.rpow_pos_of_pos hn _)
  unfold deviation
  rw [h2]
  exact ⟨Real.sqrt_pos.mpr h3, Real.sq_sqrt h3.le⟩

example : 0 < deviation 0.1 512 := (C116_deviation 0.1 (by norm_num) 512 (by norm_num)).1

/-- The example with square grids of up to 1024 cells in each direction and the 2097152 numbers of its file: all states are physical, and the velocities are those of two fields with separate
numbers. Missing: other grids, for which it is false. -/
theorem C116_initial_partial (X : List ℝ) (hX : X.length = 2097152) (k : Nat) (hk : k ≤ 10) : ∃ g dux duy, initGlobal X (2 ^ k) (2 ^ k) = .ok g ∧
    fBm 0.1 (X.take 1048576) (2 ^ k) = .ok (dux, 4 ^ k - 1) ∧ fBm 0.2 (X.drop 1048576) (2 ^ k) = .ok (duy, 4 ^ k - 1) ∧
    ∀ i j, 0 < (g i j).rho ∧ 0 < (g i j).p ∧ (g i j).ux = dux i j ∧ (g i j).uy = duy i j := by
  have h4 : 4 ^ k ≤ 4 ^ 10 := Nat.pow_le_pow_right (by norm_num) hk
  norm_num at h4
  obtain ⟨dux, hu⟩ := (C116_numbers 0.1 (X.take 1048576) k).1 (by rw [List.length_take]; omega)
  obtain ⟨duy, hv⟩ := (C116_numbers 0.2 (X.drop 1048576) k).1 (by rw [List.length_drop]; omega)
  refine ⟨fun i j => ⟨4, dux i j, duy i j, 0, 2.5⟩, dux, duy, ?_, hu, hv, fun i j => ⟨by norm_num, by norm_num, rfl, rfl⟩⟩
  unfold initGlobal
  rw [show 1024 * 1024 = 1048576 by norm_num, hu, ok_bind]
  dsimp only
  rw [hv, ok_bind]
  dsimp only
  rw [if_pos rfl]; rfl

example : ∃ g, initGlobal (List.replicate 2097152 1) (2 ^ 9) (2 ^ 9) = .ok g := by
  obtain ⟨g, _, _, h, _⟩ := C116_initial_partial (List.replicate 2097152 1) List.length_replicate 9 (by norm_num)
  exact ⟨g, h⟩

/-- More than 1024 cells: an exception, whatever the numbers and however many. -/
theorem C116_fails_large (X : List ℝ) (k ny : Nat) (hk : 11 ≤ k) : initGlobal X (2 ^ k) ny = .error .thrown := by
  have h4 : 4 ^ 11 ≤ 4 ^ k := Nat.pow_le_pow_right (by norm_num) hk
  norm_num at h4
  have h := (C116_numbers 0.1 (X.take (1024 * 1024)) k).2 (by rw [List.length_take]; omega)
  unfold initGlobal
  rw [h]; rfl

example : initGlobal (List.replicate 2097152 1) (2 ^ 11) (2 ^ 11) = .error .thrown := C116_fails_large _ 11 _ (by norm_num)

/-- A grid or part of a grid that is not square: an exception. -/
theorem C116_fails_not_square (X : List ℝ) (nx ny : Nat) (hx : 2 ≤ nx) (h : nx ≠ ny) : initGlobal X nx ny = .error .thrown := by
  unfold initGlobal
  rcases fBm_cases 0.1 (X.take (1024 * 1024)) nx (by omega) with ⟨_, d, hd, _⟩ | ⟨_, hd⟩
  · rw [hd, ok_bind]
    dsimp only
    rcases fBm_cases 0.2 (X.drop (1024 * 1024)) nx (by omega) with ⟨_, d', hd', _⟩ | ⟨_, hd'⟩
    · rw [hd', ok_bind]
      dsimp only
      rw [if_neg h, if_neg (by omega)]
    · rw [hd']; rfl
  · rw [hd]; rfl

example : initGlobal (List.replicate 2097152 1) 256 512 = .error .thrown := C116_fails_not_square _ _ _ (by norm_num) (by norm_num)

/-- The field is zero at the far ends; if the size is odd the last row and column of cells are zero too, whatever the numbers. -/
theorem C116_far_ends (H : ℝ) (X : List ℝ) (N : Nat) (d : Field) (pos : Nat) (h : fBm H X N = .ok (d, pos)) (a b : Nat) (hab : 2 * (N / 2) ≤ a ∨ 2 * (N / 2) ≤ b) : d a b = 0 := by
  rcases Nat.eq_zero_or_pos N with rfl | hN
  · rw [fBm] at h; cases h
  · rcases fBm_cases H X N hN with ⟨_, d', hd, hz⟩ | ⟨_, hd⟩
    · rw [hd] at h
      injection h with h
      injection h with h1 h2
      subst h1
      exact hz a b hab
    · rw [hd] at h; cases h

example (d : Field) (pos : Nat) (h : fBm 0.1 (List.replicate 20 1) 3 = .ok (d, pos)) : d 2 1 = 0 := C116_far_ends _ _ _ _ _ h _ _ (.inl (by norm_num))

/-- Not periodic, although the file of the example asks for periodic boundaries: the two ends of the first row differ as soon as one number is not zero. -/
theorem C116_fails_periodic (H : ℝ) (hH : H < 1) (X : List ℝ) (hX : 3 ≤ X.length) (h1 : X.getD 1 0 ≠ 0) : ∃ d, fBm H X 2 = .ok (d, 3) ∧ d 2 1 ≠ d 0 1 := by
  obtain ⟨d, hd, _, _, h01⟩ := small_grid H X hX
  refine ⟨d, hd, ?_⟩
  rw [C116_far_ends H X 2 d 3 hd 2 1 (.inl (by norm_num)), h01]
  exact (mul_ne_zero (C116_deviation H hH 2 (by norm_num)).1.ne' h1).symm

example : ∃ d, fBm 0.1 (List.replicate 3 1) 2 = .ok (d, 3) ∧ d 2 1 ≠ d 0 1 := C116_fails_periodic 0.1 (by norm_num) _ (by simp) (by simp)

/-- The data depend on the number of processes: on four processes each has the field of its own small grid, so the cell of the whole grid of four by four in the third row gets another value. -/
theorem C116_fails_several_processes (H : ℝ) (hH : H < 1) (X : List ℝ) (hX : 15 ≤ X.length) (h0 : X.getD 0 0 ≠ 0) : ∃ whole part, fBm H X (2 ^ 2) = .ok (whole, 15) ∧
    fBm H X (2 ^ 1) = .ok (part, 3) ∧ whole 2 0 ≠ part 0 0 := by
  obtain ⟨part, hp, h00, h10, _⟩ := small_grid H X (by omega)
  obtain ⟨whole, hw⟩ := (C116_numbers H X 2).1 (by norm_num; omega)
  norm_num at hw
  refine ⟨whole, part, hw, hp, ?_⟩
  obtain ⟨prev, _, hprev, _, _, _, hs, _⟩ := C116_displaced H X 1 whole 15 hw
  rw [hp] at hprev
  injection hprev with e
  injection e with e1 e2
  subst e1
  rw [(hs 1 0 (by norm_num) (by norm_num)).1, h00, h10]
  exact mul_ne_zero (C116_deviation H hH 2 (by norm_num)).1.ne' h0

example : ∃ whole part, fBm 0.1 (List.replicate 15 1) (2 ^ 2) = .ok (whole, 15) ∧ fBm 0.1 (List.replicate 15 1) (2 ^ 1) = .ok (part, 3) ∧ whole 2 0 ≠ part 0 0 :=
  C116_fails_several_processes 0.1 (by norm_num) _ (by simp) (by simp)

end Verif.Props.Brownian
