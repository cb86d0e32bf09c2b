import Verif.DevicesSpec
import Mathlib.Data.List.TakeWhile
import Mathlib.Tactic.Linarith

/-! Helper lemmas for C107. -/

namespace Verif.Devices
open Params Setup

theorem atoi_toDigits (r : Nat) : atoi (Nat.toDigits 10 r) = if r < 2147483648 then .ok (r : Int) else .error .ub := by
  have hd : ∀ c ∈ Nat.toDigits 10 r, c.isDigit = true := fun c hc => Nat.isDigit_of_mem_toDigits (by decide) (by decide) hc
  obtain ⟨c, l, hl⟩ : ∃ c l, Nat.toDigits 10 r = c :: l := by
    cases e : Nat.toDigits 10 r with
    | nil => exact absurd e (Nat.toDigits_ne_nil)
    | cons c l => exact ⟨c, l, rfl⟩
  have hc : c.isDigit = true := hd c (by rw [hl]; simp)
  have hsp : isSpace c = false := by
    have h1 : ∀ d : Char, isSpace d = true → d.isDigit = false := by
      intro d hd
      simp only [isSpace, Bool.or_eq_true, beq_iff_eq] at hd
      rcases hd with ((((rfl | rfl) | rfl) | rfl) | rfl) | rfl <;> decide
    by_contra hne
    rw [h1 c (by simpa using hne)] at hc
    exact absurd hc (by decide)
  have h2 : c ≠ '-' := by rintro rfl; exact absurd hc (by decide)
  have h3 : c ≠ '+' := by rintro rfl; exact absurd hc (by decide)
  have e1 : (Nat.toDigits 10 r).dropWhile isSpace = Nat.toDigits 10 r := by rw [hl, List.dropWhile_cons, hsp]; rfl
  have e2 : (Nat.toDigits 10 r).takeWhile Char.isDigit = Nat.toDigits 10 r := List.takeWhile_eq_self_iff.2 hd
  have e3 : (Nat.toDigits 10 r).head? = some c := by rw [hl]; rfl
  unfold atoi
  simp only [e1, e3, Option.some_beq_some, beq_eq_false_iff_ne.2 h2, beq_eq_false_iff_ne.2 h3, Bool.or_self, Bool.false_eq_true, if_false, e2, Nat.ofDigitChars_ten_toDigits]
  by_cases h : r < 2147483648
  · rw [if_pos ⟨by omega, by omega⟩, if_pos h]
  · rw [if_neg (by omega), if_neg h]

theorem atoi_digits (r : Nat) (h : r < 2147483648) : atoi (Nat.toDigits 10 r) = .ok r := by rw [atoi_toDigits, if_pos h]

theorem works_choose (n r : Nat) (hn : 0 < n) (hr : r < 2147483648) : setCudaDevice (works n) (rankVariable r) = .ok ⟨(r % n : Nat), false⟩ := by
  unfold setCudaDevice choose
  by_cases h : (n : Int) > 1
  · have h1 : ((r : Int).tmod n) = ((r % n : Nat) : Int) := by rw [Int.tmod_eq_emod_of_nonneg (by omega)]; rfl
    have h2 : r % n < n := Nat.mod_lt _ hn
    have h3 : (decide (0 ≤ ((r % n : Nat) : Int)) && decide (((r % n : Nat) : Int) < n) && true) = true := by simp only [Bool.and_true, Bool.and_eq_true, decide_eq_true_eq]; omega
    simp only [works, rankVariable, Res.ok_bind, if_pos h, atoi_digits r hr, safeCall, h1, h3, if_true]
  · obtain rfl : n = 1 := by omega
    simp [works, Nat.mod_one]

/-- A number with white space and a sign before it and text after it. -/
theorem atoi_signed (ws rest : Str) (hws : ∀ c ∈ ws, isSpace c = true) (hrest : ∀ c ∈ rest.head?, c.isDigit = false) (r : Nat) (hr : r < 2147483648) :
    atoi (ws ++ (Nat.toDigits 10 r ++ rest)) = .ok r ∧ atoi (ws ++ '+' :: (Nat.toDigits 10 r ++ rest)) = .ok r ∧ atoi (ws ++ '-' :: (Nat.toDigits 10 r ++ rest)) = .ok (-r) := by
  have hd : ∀ c ∈ Nat.toDigits 10 r, c.isDigit = true := fun c hc => Nat.isDigit_of_mem_toDigits (by decide) (by decide) hc
  obtain ⟨c, l, hl⟩ : ∃ c l, Nat.toDigits 10 r = c :: l := by
    cases e : Nat.toDigits 10 r with
    | nil => exact absurd e (Nat.toDigits_ne_nil)
    | cons c l => exact ⟨c, l, rfl⟩
  have hc : c.isDigit = true := hd c (by rw [hl]; simp)
  have hsp : isSpace c = false := by
    have h1 : ∀ d : Char, isSpace d = true → d.isDigit = false := by
      intro d hd
      simp only [isSpace, Bool.or_eq_true, beq_iff_eq] at hd
      rcases hd with ((((rfl | rfl) | rfl) | rfl) | rfl) | rfl <;> decide
    by_contra hne
    rw [h1 c (by simpa using hne)] at hc
    exact absurd hc (by decide)
  have h2 : c ≠ '-' := by rintro rfl; exact absurd hc (by decide)
  have h3 : c ≠ '+' := by rintro rfl; exact absurd hc (by decide)
  have e2 : (Nat.toDigits 10 r ++ rest).takeWhile Char.isDigit = Nat.toDigits 10 r := by
    rw [List.takeWhile_append_of_pos hd]
    cases rest with
    | nil => simp
    | cons d rest => rw [List.takeWhile_cons, hrest d (by simp)]; simp
  have skip : ∀ t : Str, (∀ d ∈ t.head?, isSpace d = false) → (ws ++ t).dropWhile isSpace = t := by
    intro t ht
    rw [List.dropWhile_append_of_pos hws]
    cases t with
    | nil => rfl
    | cons d t => rw [List.dropWhile_cons, ht d (by simp)]; rfl
  have g1 := skip (Nat.toDigits 10 r ++ rest) (by rw [hl]; simpa using hsp)
  have g2 := skip ('+' :: (Nat.toDigits 10 r ++ rest)) (by simp [isSpace])
  have g3 := skip ('-' :: (Nat.toDigits 10 r ++ rest)) (by simp [isSpace])
  have e3 : (Nat.toDigits 10 r ++ rest).head? = some c := by rw [hl]; rfl
  refine ⟨?_, ?_, ?_⟩
  · unfold atoi
    simp only [g1, e3, Option.some_beq_some, beq_eq_false_iff_ne.2 h2, beq_eq_false_iff_ne.2 h3, Bool.or_self, Bool.false_eq_true, if_false, e2, Nat.ofDigitChars_ten_toDigits]
    rw [if_pos ⟨by omega, by omega⟩]
  · unfold atoi
    simp only [g2, List.head?_cons, List.drop_one, List.tail_cons, show (some '+' == some '-') = false from rfl, show (some '+' == some '+') = true from rfl, Bool.false_or, if_true, Bool.false_eq_true,
      if_false, e2, Nat.ofDigitChars_ten_toDigits]
    rw [if_pos ⟨by omega, by omega⟩]
  · unfold atoi
    simp only [g3, List.head?_cons, List.drop_one, List.tail_cons, show (some '-' == some '-') = true from rfl, Bool.true_or, if_true, e2, Nat.ofDigitChars_ten_toDigits]
    rw [if_pos ⟨by omega, by omega⟩]

/-- What the function does for a number it reads. -/
theorem works_number (n : Nat) (hn : 1 < n) (s : Str) (x : Int) (h : atoi s = .ok x) :
    setCudaDevice (works n) (some s) = .ok (if 0 ≤ x.tmod n then ⟨x.tmod n, false⟩ else ⟨0, true⟩) := by
  have h1 : (n : Int) > 1 := by omega
  have h2 : x.tmod n < n := Int.tmod_lt_of_pos _ (by omega)
  unfold setCudaDevice choose
  by_cases h0 : 0 ≤ x.tmod n
  · simp [works, h1, h, safeCall, h0, h2]
  · simp [works, h1, h, safeCall, h0]

end Verif.Devices
