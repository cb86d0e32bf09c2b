import Verif.Brownian
import Verif.ExamplesLemmas

/-! Helper lemmas about the midpoint displacement. -/

namespace Verif.Brownian
open Verif Verif.Examples

/-- What the loop writes at a point, from the field before and the first of the three numbers of the pair. -/
noncomputable def target (s : ℝ) (X : List ℝ) (d : Field) (a b pos : Nat) : ℝ :=
  if a % 2 = 1 then
    if b % 2 = 1 then
      1.0 / 4.0 * (d (2 * (a / 2)) (2 * (b / 2)) + d (2 * (a / 2)) (2 * (b / 2 + 1)) + d (2 * (a / 2 + 1)) (2 * (b / 2)) + d (2 * (a / 2 + 1)) (2 * (b / 2 + 1))) + s * X.getD (pos + 2) 0
    else 0.5 * (d (2 * (a / 2)) (2 * (b / 2)) + d (2 * (a / 2 + 1)) (2 * (b / 2))) + s * X.getD pos 0
  else if b % 2 = 1 then 0.5 * (d (2 * (a / 2)) (2 * (b / 2)) + d (2 * (a / 2)) (2 * (b / 2 + 1))) + s * X.getD (pos + 1) 0
  else d a b

theorem target_congr (s : ℝ) (X : List ℝ) (d d' : Field) (a b pos : Nat) (h : ∀ i j, d (2 * i) (2 * j) = d' (2 * i) (2 * j)) : target s X d a b pos = target s X d' a b pos := by
  unfold target
  split
  · split
    · rw [h, h, h, h]
    · rw [h, h]
  · split
    · rw [h, h]
    · have ha : a = 2 * (a / 2) := by omega
      have hb : b = 2 * (b / 2) := by omega
      rw [ha, hb, h]

theorem ok_bind {α β : Type} (x : α) (f : α → Res β) : ((.ok x : Res α) >>= f) = f x := rfl

theorem put_row (d : Field) (i j i' j' : Nat) (v : ℝ) : put d (2 * i' + 1) j' v (2 * i) (2 * j) = d (2 * i) (2 * j) := by
  unfold put; rw [if_neg]; omega

theorem put_column (d : Field) (i j i' j' : Nat) (v : ℝ) : put d i' (2 * j' + 1) v (2 * i) (2 * j) = d (2 * i) (2 * j) := by
  unfold put; rw [if_neg]; omega

theorem target_even (s : ℝ) (X : List ℝ) (d : Field) (i j pos : Nat) : target s X d (2 * i) (2 * j) pos = d (2 * i) (2 * j) := by
  unfold target; rw [if_neg (by omega), if_neg (by omega)]

theorem displace_eq (s : ℝ) (X : List ℝ) (i j : Nat) (d : Field) (pos : Nat) : displace s X i (d, pos) j =
    if pos + 3 ≤ X.length then .ok (fun a b => if a / 2 = i ∧ b / 2 = j then target s X d a b pos else d a b, pos + 3) else .error .thrown := by
  unfold displace
  dsimp only
  by_cases h0 : pos < X.length
  · by_cases h1 : pos + 1 < X.length
    · by_cases h2 : pos + 2 < X.length
      · rw [if_pos (by omega), item_ok _ _ h0, item_ok _ _ h1, item_ok _ _ h2]
        show Except.ok _ = Except.ok _
        congr 2
        funext a b
        simp only [put_row, put_column]
        by_cases hp : a / 2 = i ∧ b / 2 = j
        · rw [if_pos hp]
          obtain ⟨rfl, rfl⟩ := hp
          unfold target put
          rcases Nat.mod_two_eq_zero_or_one a with ha | ha <;> rcases Nat.mod_two_eq_zero_or_one b with hb | hb
          · rw [if_neg (by omega), if_neg (by omega), if_neg (by omega), if_neg (by omega), if_neg (by omega)]
          · rw [if_neg (by omega), if_pos (by omega), if_neg (by omega), if_pos hb]
          · rw [if_neg (by omega), if_neg (by omega), if_pos (by omega), if_pos ha, if_neg (by omega)]
          · rw [if_pos (by omega), if_pos ha, if_pos hb]
        · rw [if_neg hp]
          unfold put
          rw [if_neg (by omega), if_neg (by omega), if_neg (by omega)]
      · rw [if_neg (by omega), item_ok _ _ h0, item_ok _ _ h1, item_thrown _ _ (by omega)]; rfl
    · rw [if_neg (by omega), item_ok _ _ h0, item_thrown _ _ (by omega)]; rfl
  · rw [if_neg (by omega), item_thrown _ _ (by omega)]; rfl

theorem row_eq (s : ℝ) (X : List ℝ) (i : Nat) (d : Field) (pos m : Nat) (hlen : m = 0 → pos ≤ X.length) : (List.range m).foldlM (displace s X i) (d, pos) =
    if pos + 3 * m ≤ X.length then .ok (fun a b => if a / 2 = i ∧ b / 2 < m then target s X d a b (pos + 3 * (b / 2)) else d a b, pos + 3 * m) else .error .thrown := by
  induction m with
  | zero =>
    rw [if_pos (by have := hlen rfl; omega)]
    show Except.ok _ = Except.ok _
    congr 2
    funext a b
    rw [if_neg (by omega)]
  | succ m ih =>
    rw [List.range_succ, List.foldlM_append]
    by_cases hm : m = 0 ∧ X.length < pos
    · obtain ⟨rfl, hx⟩ := hm
      show (Except.ok (d, pos) >>= _) = _
      show ([0].foldlM (displace s X i) (d, pos)) = _
      rw [List.foldlM_cons, displace_eq, if_neg (by omega), if_neg (by omega)]; rfl
    · rw [ih (by omega)]
      by_cases h : pos + 3 * m ≤ X.length
      · rw [if_pos h]
        show ([m].foldlM (displace s X i) _) = _
        rw [List.foldlM_cons, displace_eq]
        by_cases h' : pos + 3 * (m + 1) ≤ X.length
        · rw [if_pos (by omega), if_pos h']
          show Except.ok _ = Except.ok _
          congr 2
          funext a b
          by_cases hb : a / 2 = i ∧ b / 2 = m
          · rw [if_pos hb, if_pos (by omega), hb.2]
            apply target_congr
            intro i' j'
            rw [target_even, ite_self]
          · rw [if_neg hb]
            by_cases hb' : a / 2 = i ∧ b / 2 < m
            · rw [if_pos hb', if_pos (by omega)]
            · rw [if_neg hb', if_neg (by omega)]
        · rw [if_neg (by omega), if_neg h']; rfl
      · rw [if_neg h, if_neg (by omega)]; rfl

theorem rows_eq (s : ℝ) (X : List ℝ) (h : Nat) (hh : 0 < h) (d : Field) (pos m : Nat) (hlen : m = 0 → pos ≤ X.length) :
    (List.range m).foldlM (fun st i => (List.range h).foldlM (displace s X i) st) (d, pos) =
    if pos + 3 * (m * h) ≤ X.length then .ok (fun a b => if a / 2 < m ∧ b / 2 < h then target s X d a b (pos + 3 * (a / 2 * h + b / 2)) else d a b, pos + 3 * (m * h))
      else .error .thrown := by
  induction m with
  | zero =>
    rw [if_pos (by have := hlen rfl; omega)]
    show Except.ok _ = Except.ok _
    congr 2
    omega
  | succ m ih =>
    rw [List.range_succ, List.foldlM_append]
    have hm1 : (m + 1) * h = m * h + h := by ring
    by_cases hm : m = 0 ∧ X.length < pos
    · obtain ⟨rfl, hx⟩ := hm
      rw [List.range_zero, List.foldlM_nil, pure_bind, List.foldlM_cons, row_eq _ _ _ _ _ _ (by omega), if_neg (by omega), if_neg (by omega)]; rfl
    · rw [ih (by omega)]
      by_cases hc : pos + 3 * (m * h) ≤ X.length
      · rw [if_pos hc]
        rw [ok_bind, List.foldlM_cons, row_eq _ _ _ _ _ _ (by omega)]
        by_cases h' : pos + 3 * ((m + 1) * h) ≤ X.length
        · rw [if_pos (by omega), if_pos h']
          show Except.ok _ = Except.ok _
          congr 2
          · funext a b
            by_cases hb : a / 2 = m ∧ b / 2 < h
            · rw [if_pos hb, if_pos (by omega), hb.1, show pos + 3 * (m * h) + 3 * (b / 2) = pos + 3 * (m * h + b / 2) by ring]
              apply target_congr
              intro i' j'
              rw [target_even, ite_self]
            · rw [if_neg hb]
              by_cases hb' : a / 2 < m ∧ b / 2 < h
              · rw [if_pos hb', if_pos (by omega)]
              · rw [if_neg hb', if_neg (by omega)]
          · omega
        · rw [if_neg (by omega), if_neg h']; rfl
      · rw [if_neg hc, if_neg (by omega)]; rfl

theorem spread_row (prev : Field) (i : Nat) (d : Field) (m : Nat) : (List.range m).foldl (fun d j => put d (2 * i) (2 * j) (prev i j)) d =
    fun a b => if a = 2 * i ∧ b % 2 = 0 ∧ b / 2 < m then prev i (b / 2) else d a b := by
  induction m with
  | zero => funext a b; rw [if_neg (by omega)]; rfl
  | succ m ih =>
    rw [List.range_succ, List.foldl_append, ih]
    funext a b
    rw [List.foldl_cons, List.foldl_nil]
    unfold put
    by_cases h : a = 2 * i ∧ b = 2 * m
    · rw [if_pos h, if_pos (by omega), show b / 2 = m by omega]
    · rw [if_neg h]
      dsimp only
      by_cases h' : a = 2 * i ∧ b % 2 = 0 ∧ b / 2 < m
      · rw [if_pos h', if_pos (by omega)]
      · rw [if_neg h', if_neg (by omega)]

theorem spread_rows (prev : Field) (h m : Nat) (d : Field) : (List.range m).foldl (fun d i => (List.range h).foldl (fun d j => put d (2 * i) (2 * j) (prev i j)) d) d =
    fun a b => if (a % 2 = 0 ∧ a / 2 < m) ∧ b % 2 = 0 ∧ b / 2 < h then prev (a / 2) (b / 2) else d a b := by
  induction m with
  | zero => funext a b; rw [if_neg (by omega)]; rfl
  | succ m ih =>
    rw [List.range_succ, List.foldl_append, ih]
    rw [List.foldl_cons, List.foldl_nil, spread_row]
    funext a b
    by_cases hc : a = 2 * m ∧ b % 2 = 0 ∧ b / 2 < h
    · rw [if_pos hc, if_pos (by omega), show a / 2 = m by omega]
    · rw [if_neg hc]
      by_cases h' : (a % 2 = 0 ∧ a / 2 < m) ∧ b % 2 = 0 ∧ b / 2 < h
      · rw [if_pos h', if_pos (by omega)]
      · rw [if_neg h', if_neg (by omega)]

/-- The field before displacement. -/
theorem spread_eq (prev : Field) (h a b : Nat) : spread h prev a b = if (a % 2 = 0 ∧ a / 2 < h) ∧ b % 2 = 0 ∧ b / 2 < h then prev (a / 2) (b / 2) else 0 := by
  unfold spread; rw [spread_rows]; rfl

/-- The numbers used. -/
def used : Nat → Nat
  | 0 => 0
  | 1 => 0
  | N + 2 => used ((N + 2) / 2) + 3 * ((N + 2) / 2 * ((N + 2) / 2))

/-- Either there are enough numbers, and the field is zero from the largest even number up to `N` on in both directions, or an exception. -/
theorem fBm_cases (H : ℝ) (X : List ℝ) : ∀ N, 1 ≤ N → (used N ≤ X.length ∧ ∃ d, fBm H X N = .ok (d, used N) ∧ ∀ a b, 2 * (N / 2) ≤ a ∨ 2 * (N / 2) ≤ b → d a b = 0) ∨
    (X.length < used N ∧ fBm H X N = .error .thrown)
  | 0, h => absurd h (by omega)
  | 1, _ => .inl ⟨by simp [used], zeros, by rw [fBm, used], fun _ _ _ => rfl⟩
  | N + 2, _ => by
    have hpos : 0 < (N + 2) / 2 := by omega
    rw [fBm, used]
    rcases fBm_cases H X ((N + 2) / 2) (by omega) with ⟨hu, d, hd, hz⟩ | ⟨hu, hd⟩
    · rw [hd]
      show (_ ∧ ∃ d', displaceAll _ X _ (spread _ d, _) = _ ∧ _) ∨ (_ ∧ displaceAll _ X _ (spread _ d, _) = _)
      unfold displaceAll
      rw [rows_eq _ _ _ hpos _ _ _ (by omega)]
      by_cases hc : used ((N + 2) / 2) + 3 * ((N + 2) / 2 * ((N + 2) / 2)) ≤ X.length
      · rw [if_pos hc]
        refine .inl ⟨hc, _, rfl, fun a b hab => ?_⟩
        rw [if_neg (by omega), spread_eq, if_neg (by omega)]
      · rw [if_neg hc]
        exact .inr ⟨by omega, rfl⟩
    · rw [hd]
      exact .inr ⟨by omega, rfl⟩

theorem used_pow (k : Nat) : used (2 ^ k) + 1 = 4 ^ k := by
  induction k with
  | zero => simp [used]
  | succ k ih =>
    obtain ⟨m, hm⟩ : ∃ m, 2 ^ (k + 1) = m + 2 := ⟨2 ^ (k + 1) - 2, by have := Nat.one_le_two_pow (n := k); omega⟩
    have h2 : (m + 2) / 2 = 2 ^ k := by omega
    have h4 : (4 : Nat) ^ k = 2 ^ k * 2 ^ k := by rw [← mul_pow]; rfl
    rw [hm, used, h2, pow_succ]
    omega

theorem small_grid (H : ℝ) (X : List ℝ) (hX : 3 ≤ X.length) : ∃ d, fBm H X (2 ^ 1) = .ok (d, 3) ∧ d 0 0 = 0 ∧ d 1 0 = deviation H 2 * X.getD 0 0 ∧ d 0 1 = deviation H 2 * X.getD 1 0 := by
  rw [show 2 ^ 1 = 0 + 2 by norm_num, fBm, show (0 + 2) / 2 = 1 by norm_num, fBm, ok_bind]
  dsimp only
  unfold displaceAll
  rw [rows_eq _ _ _ (by norm_num) _ _ _ (by omega), if_pos (by omega)]
  refine ⟨_, rfl, ?_, ?_, ?_⟩ <;> norm_num [target, spread_eq, zeros]

end Verif.Brownian
