import Verif.DevicesLemmas
import Mathlib.Data.Nat.Count
import Mathlib.Data.Int.CardIntervalMod

/-! C107: the processes of a node and its graphics cards. -/

namespace Verif.Props.Devices
open Verif Verif.Devices Verif.Params Verif.Setup

/-- C107, partial. On a node with `n` cards on which all calls of the CUDA runtime succeed, `k` processes started by Open MPI are spread evenly: every process gets one of the cards, and every card gets the
number `k / n` of processes, rounded down or up. Missing: other launchers, see `C107_fails_for_other_launchers`, and failing calls, see `C107_failures_move_to_the_first_card`. -/
theorem C107_even_partial (n k : Nat) (hn : 0 < n) (hk : k ≤ 2147483648) :
    ∃ card : Nat → Nat, (∀ r < k, setCudaDevice (works n) (rankVariable r) = .ok ⟨card r, false⟩ ∧ card r < n) ∧
      ∀ d < n, k / n ≤ ((Finset.range k).filter fun r => card r = d).card ∧ ((Finset.range k).filter fun r => card r = d).card ≤ (k + n - 1) / n := by
  refine ⟨fun r => r % n, fun r hr => ⟨works_choose n r hn (by omega), Nat.mod_lt _ hn⟩, fun d hd => ?_⟩
  have e : ((Finset.range k).filter fun r => r % n = d).card = Nat.count (fun r => r ≡ d [MOD n]) k := by
    rw [Nat.count_eq_card_filter_range]
    congr 1
    ext r
    simp [Nat.ModEq, Nat.mod_eq_of_lt hd]
  rw [e, Nat.count_modEq_card k hn]
  have h1 := Nat.div_add_mod k n
  have h2 := Nat.mod_lt k hn
  have h3 : (k + n - 1) / n = k / n + if k % n = 0 then 0 else 1 := by
    split_ifs with h0
    · rw [add_zero]
      have : k + n - 1 = n * (k / n) + (n - 1) := by omega
      rw [this, Nat.mul_add_div hn, Nat.div_eq_of_lt (show n - 1 < n by omega), add_zero]
    · have : k + n - 1 = n * (k / n + 1) + (k % n - 1) := by rw [mul_add, mul_one]; omega
      rw [this, Nat.mul_add_div hn, Nat.div_eq_of_lt (show k % n - 1 < n by omega), add_zero]
  rw [h3, Nat.mod_eq_of_lt hd]
  split_ifs <;> omega

/-- C107, the setup the comment of the code assumes: with at most as many processes as cards no two processes get the same card. -/
theorem C107_own_card_partial (n k : Nat) (hkn : k ≤ n) (hk : k ≤ 2147483648) (r s : Nat) (hr : r < k) (hs : s < k) (a b : Chosen)
    (ha : setCudaDevice (works n) (rankVariable r) = .ok a) (hb : setCudaDevice (works n) (rankVariable s) = .ok b) (h : a.device = b.device) : r = s := by
  rw [works_choose n r (by omega) (by omega)] at ha
  rw [works_choose n s (by omega) (by omega)] at hb
  cases ha; cases hb
  simp only [Nat.cast_inj] at h
  rwa [Nat.mod_eq_of_lt (by omega), Nat.mod_eq_of_lt (by omega)] at h

/-- Five processes and two cards. -/
example : (∀ r < 5, ∃ a, setCudaDevice (works 2) (rankVariable r) = .ok a ∧ 0 ≤ a.device ∧ a.device < 2) ∧ setCudaDevice (works 2) (rankVariable 3) = .ok ⟨1, false⟩ := by
  obtain ⟨card, h, -⟩ := C107_even_partial 2 5 (by decide) (by decide)
  exact ⟨fun r hr => ⟨_, (h r hr).1, by simp, Int.ofNat_lt.2 (h r hr).2⟩, works_choose 2 3 (by decide) (by decide)⟩

/-- The hypotheses of `C107_own_card_partial` hold for two processes and two cards. -/
example : ∃ a b, setCudaDevice (works 2) (rankVariable 0) = .ok a ∧ setCudaDevice (works 2) (rankVariable 1) = .ok b ∧ a.device ≠ b.device :=
  ⟨_, _, works_choose 2 0 (by decide) (by decide), works_choose 2 1 (by decide) (by decide), fun h =>
    absurd (C107_own_card_partial 2 2 le_rfl (by decide) 0 1 (by decide) (by decide) _ _ (works_choose 2 0 (by decide) (by decide)) (works_choose 2 1 (by decide) (by decide)) h) (by decide)⟩

/-- C107 is false for launchers that do not set the variable of Open MPI: every process of the node uses the first card, however many cards there are, and no warning is logged. -/
theorem C107_fails_for_other_launchers (n : Nat) : setCudaDevice (works n) none = .ok ⟨0, false⟩ := by
  unfold setCudaDevice choose
  by_cases h : (n : Int) > 1 <;> simp [works]

/-- Failing calls do not end the program: whatever the runtime does, if one of the calls fails, a warning is logged and the process goes on with the first card. -/
theorem C107_failures_move_to_the_first_card (cuda : Runtime) (r : Nat) (hr : r < 2147483648) :
    (∃ a, setCudaDevice cuda (rankVariable r) = .ok a ∧ (a.warned = true → a.device = 0)) ∧
    (∀ n, cuda.count = some n → 1 < n → (cuda.reset = false ∨ cuda.threadExit = false ∨ cuda.settable ((r : Int).tmod n) = false) → setCudaDevice cuda (rankVariable r) = .ok ⟨0, true⟩) ∧
    (cuda.count = none → setCudaDevice cuda (rankVariable r) = .ok ⟨0, true⟩) := by
  refine ⟨?_, fun n hn h1 h => ?_, fun h => by simp [setCudaDevice, choose, h]⟩
  · unfold setCudaDevice
    cases e : choose cuda (rankVariable r) with
    | ok d => exact ⟨_, rfl, by simp⟩
    | error x =>
      cases x with
      | thrown => exact ⟨_, rfl, by simp⟩
      | ub =>
        exfalso
        unfold choose at e
        simp only [rankVariable, atoi_digits r hr, safeCall] at e
        cases hc : cuda.count with
        | none => simp [hc] at e
        | some n =>
          simp only [hc, Res.ok_bind] at e
          split_ifs at e <;> simp at e
  · unfold setCudaDevice choose
    rcases h with h | h | h
    · simp [hn, h1, rankVariable, atoi_digits r hr, safeCall, h]
    · by_cases h2 : cuda.reset = true <;> simp [hn, h1, rankVariable, atoi_digits r hr, safeCall, h, h2]
    · by_cases h2 : cuda.reset = true <;> by_cases h3 : cuda.threadExit = true <;> simp [hn, h1, rankVariable, atoi_digits r hr, safeCall, h, h2, h3]

/-- Two processes on two cards, the second of which cannot be used: both end on the first card. -/
example : setCudaDevice ⟨some 2, true, true, fun d => d == 0⟩ (rankVariable 1) = .ok ⟨0, true⟩ ∧ setCudaDevice ⟨some 2, true, true, fun d => d == 0⟩ (rankVariable 0) = .ok ⟨0, false⟩ :=
  ⟨(C107_failures_move_to_the_first_card _ 1 (by decide)).2.1 2 rfl (by decide) (.inr (.inr (by decide))), by decide⟩

/-- A number that is too large for `int` is undefined behaviour on nodes with several cards. -/
theorem C107_undefined_for_large_values (n r : Nat) (hn : 1 < n) (hr : 2147483648 ≤ r) : setCudaDevice (works n) (rankVariable r) = .error .ub := by
  have h1 : (n : Int) > 1 := by omega
  unfold setCudaDevice choose
  simp only [works, rankVariable, Res.ok_bind, if_pos h1, atoi_toDigits, if_neg (show ¬r < 2147483648 by omega), Res.error_bind]

example : setCudaDevice (works 2) (rankVariable 2147483648) = .error .ub := C107_undefined_for_large_values 2 2147483648 (by decide) (by decide)

/-- C107, other spellings of the number in the variable, as a script may set it: white space before it, a plus sign and text after it change nothing. With a minus sign the process gets the first card;
this is silent if the number is a multiple of the number of cards and logged as a warning otherwise. -/
theorem C107_spelling (n : Nat) (hn : 1 < n) (r : Nat) (hr : r < 2147483648) (ws rest : Str) (hws : ∀ c ∈ ws, c = ' ' ∨ c = '\t' ∨ c = '\n') (hrest : ∀ c ∈ rest.head?, ¬('0' ≤ c ∧ c ≤ '9')) :
    setCudaDevice (works n) (some (ws ++ Nat.toDigits 10 r ++ rest)) = .ok ⟨(r % n : Nat), false⟩ ∧
    setCudaDevice (works n) (some (ws ++ ['+'] ++ Nat.toDigits 10 r ++ rest)) = .ok ⟨(r % n : Nat), false⟩ ∧
    setCudaDevice (works n) (some (ws ++ ['-'] ++ Nat.toDigits 10 r ++ rest)) = .ok ⟨0, decide (r % n ≠ 0)⟩ := by
  have hws' : ∀ c ∈ ws, isSpace c = true := by
    intro c hc
    rcases hws c hc with rfl | rfl | rfl <;> decide
  have hrest' : ∀ c ∈ rest.head?, c.isDigit = false := by
    intro c hc
    have := hrest c hc
    simp only [Char.isDigit, Bool.and_eq_false_iff, decide_eq_false_iff_not]
    by_contra h
    push Not at h
    exact this h
  obtain ⟨h1, h2, h3⟩ := atoi_signed ws rest hws' hrest' r hr
  have e1 : ((r : Int).tmod n) = ((r % n : Nat) : Int) := by rw [Int.tmod_eq_emod_of_nonneg (by omega)]; rfl
  simp only [List.append_assoc, List.cons_append, List.nil_append]
  rw [works_number n hn _ _ h1, works_number n hn _ _ h2, works_number n hn _ _ h3, Int.neg_tmod, e1, if_pos (by omega)]
  refine ⟨rfl, rfl, ?_⟩
  by_cases h0 : r % n = 0
  · rw [if_pos (by omega)]; simp [h0]
  · rw [if_neg (by omega)]; simp [h0]

/-- " 3," and "-3" on a node with two cards. -/
example : setCudaDevice (works 2) (some [' ', '3', ',']) = .ok ⟨1, false⟩ ∧ setCudaDevice (works 2) (some ['-', '3']) = .ok ⟨0, true⟩ :=
  ⟨(C107_spelling 2 (by decide) 3 (by decide) [' '] [','] (by decide) (by decide)).1, (C107_spelling 2 (by decide) 3 (by decide) [] [] (by decide) (by decide)).2.2⟩

end Verif.Props.Devices
