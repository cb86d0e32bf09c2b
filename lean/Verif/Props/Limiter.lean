import Verif.Limiter
import Mathlib.Order.Interval.Set.UnorderedInterval

/-!
Property theorems C25: the limited second order reconstructions. `mm l m r` and `mc l m r` return the pair (left face value, right face value)
of a cell with value `m` and neighbours `l` and `r`. `Set.uIcc a b` is the closed interval with end points `a` and `b` in either order.
-/

namespace Verif.Props
open Verif Limiter

/-- What C25 asks of a reconstruction. -/
structure NoNewExtrema (rec : ℝ → ℝ → ℝ → ℝ × ℝ) : Prop where
  /-- the left face value lies between the cell and its left neighbour -/
  left : ∀ l m r, (rec l m r).1 ∈ Set.uIcc l m
  /-- the right face value lies between the cell and its right neighbour -/
  right : ∀ l m r, (rec l m r).2 ∈ Set.uIcc m r
  /-- the cell value is the average of the two face values -/
  average : ∀ l m r, ((rec l m r).1 + (rec l m r).2) / 2 = m
  /-- at a local maximum or minimum (plateaus included) both face values equal the cell value -/
  flat : ∀ l m r, (l ≤ m ∧ r ≤ m) ∨ (m ≤ l ∧ m ≤ r) → rec l m r = (m, m)

/-- C25 for minmod. -/
theorem C25_minmod : NoNewExtrema mm := by
  refine ⟨fun l m r => ?_, fun l m r => ?_, fun l m r => by simp only [mm]; ring, fun l m r h => ?_⟩
  · simp only [mm, Set.mem_uIcc]
    rcases minmod_cases (r - m) (m - l) with ⟨h1, h2, h3⟩ | ⟨h1, h2, h3⟩ | ⟨-, h3⟩ <;> rw [h3]
    · have := min_le_right (r - m) (m - l); have := lt_min h1 h2; left; constructor <;> linarith
    · have := le_max_right (r - m) (m - l); have := max_lt h1 h2; right; constructor <;> linarith
    · rcases le_total l m with h | h
      · left; constructor <;> linarith
      · right; constructor <;> linarith
  · simp only [mm, Set.mem_uIcc]
    rcases minmod_cases (r - m) (m - l) with ⟨h1, h2, h3⟩ | ⟨h1, h2, h3⟩ | ⟨-, h3⟩ <;> rw [h3]
    · have := min_le_left (r - m) (m - l); have := lt_min h1 h2; left; constructor <;> linarith
    · have := le_max_left (r - m) (m - l); have := max_lt h1 h2; right; constructor <;> linarith
    · rcases le_total m r with h | h
      · left; constructor <;> linarith
      · right; constructor <;> linarith
  · have : minmod (r - m) (m - l) = 0 := by
      rcases minmod_cases (r - m) (m - l) with ⟨h1, h2, _⟩ | ⟨h1, h2, _⟩ | ⟨-, h3⟩
      · rcases h with h | h <;> linarith [h.1, h.2]
      · rcases h with h | h <;> linarith [h.1, h.2]
      · exact h3
    simp [mm, this]

/-- C25 for the monotonized central limiter. -/
theorem C25_mc : NoNewExtrema mc := by
  refine ⟨fun l m r => ?_, fun l m r => ?_, fun l m r => by simp only [mc]; ring, fun l m r h => ?_⟩
  · simp only [mc, Set.mem_uIcc]
    rcases minmod3_cases (2 * (r - m)) ((r - l) / 2) (2 * (m - l)) with ⟨h1, h2, h0, h3⟩ | ⟨h1, h2, h0, h3⟩ | ⟨-, -, h3⟩ <;> rw [h3]
    · have := (min_le_right (2 * (r - m)) _).trans (min_le_right ((r - l) / 2) (2 * (m - l))); have := lt_min h1 (lt_min h2 h0)
      left; constructor <;> linarith
    · have := (le_max_right ((r - l) / 2) (2 * (m - l))).trans (le_max_right (2 * (r - m)) _); have := max_lt h1 (max_lt h2 h0)
      right; constructor <;> linarith
    · rcases le_total l m with h | h
      · left; constructor <;> linarith
      · right; constructor <;> linarith
  · simp only [mc, Set.mem_uIcc]
    rcases minmod3_cases (2 * (r - m)) ((r - l) / 2) (2 * (m - l)) with ⟨h1, h2, h0, h3⟩ | ⟨h1, h2, h0, h3⟩ | ⟨-, -, h3⟩ <;> rw [h3]
    · have := min_le_left (2 * (r - m)) (min ((r - l) / 2) (2 * (m - l))); have := lt_min h1 (lt_min h2 h0)
      left; constructor <;> linarith
    · have := le_max_left (2 * (r - m)) (max ((r - l) / 2) (2 * (m - l))); have := max_lt h1 (max_lt h2 h0)
      right; constructor <;> linarith
    · rcases le_total m r with h | h
      · left; constructor <;> linarith
      · right; constructor <;> linarith
  · have : minmod3 (2 * (r - m)) ((r - l) / 2) (2 * (m - l)) = 0 := by
      rcases minmod3_cases (2 * (r - m)) ((r - l) / 2) (2 * (m - l)) with ⟨h1, h2, h0, _⟩ | ⟨h1, h2, h0, _⟩ | ⟨-, -, h3⟩
      · rcases h with h | h <;> linarith [h.1, h.2]
      · rcases h with h | h <;> linarith [h.1, h.2]
      · exact h3
    simp [mc, this]

/-- The theorems are not about reconstructions that are always flat: on increasing data the slopes are the usual ones. -/
example : mm 0 1 3 = (1 / 2, 3 / 2) ∧ mc 0 1 3 = (1 / 4, 7 / 4) := by
  constructor
  · simp only [mm]
    rcases minmod_cases (3 - 1) (1 - 0) with ⟨_, _, h⟩ | ⟨h, _⟩ | ⟨h, _⟩
    · rw [h]; norm_num
    · norm_num at h
    · norm_num at h
  · simp only [mc]
    rcases minmod3_cases (2 * (3 - 1)) ((3 - 0) / 2) (2 * (1 - 0)) with ⟨_, _, _, h⟩ | ⟨h, _⟩ | ⟨h, _⟩
    · rw [h]; norm_num
    · norm_num at h
    · norm_num at h

/-- Both sides of a local maximum. -/
example : mc 0 1 (1 / 2) = (1, 1) := C25_mc.flat 0 1 (1 / 2) (Or.inl ⟨by norm_num, by norm_num⟩)

end Verif.Props
