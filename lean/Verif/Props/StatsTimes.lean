import Verif.Stats
import Verif.Props.Writers
import Mathlib.Data.Int.Log
import Mathlib.Data.Rat.Floor

/-! Property theorems C55 (save times of statistics). -/

namespace Verif.Props.StatsTimes
open Verif Verif.Stats Verif.Integrator Verif.Writers
variable {K : Type} [Field K] [LinearOrder K]

/-- The states `(numberSaved, times of all evaluations)` in the run of one sample at the time given, if the statistic was in the state `s0` before the run: the statistic is called at
time zero and after every time step (Runner.cpp:55-73); a time step is positive, is made only before the end time `T`, and is at most what the adjuster of the statistic returns for
some proposal (other adjusters may make it smaller). `rnd` rounds the sum of time and time step. -/
inductive SampleRun (rnd : K → K) (interval T : K) (initial : Bool) (s0 : Nat × List K) : K → Nat × List K → Prop
  | start {n : Nat} {st : Nat × List K} : intervalCompute rnd interval initial recordTime () ⟨0, n⟩ s0 = .ok st → SampleRun rnd interval T initial s0 0 st
  | step {t h : K} {st st' : Nat × List K} {n : Nat} {proposal : WithTop K} : SampleRun rnd interval T initial s0 t st → t < T → 0 < h →
      (h : WithTop K) ≤ intervalAdjust rnd interval st.1 proposal t → intervalCompute rnd interval initial recordTime () ⟨rnd (t + h), n⟩ st = .ok st' →
      SampleRun rnd interval T initial s0 (rnd (t + h)) st'

/-- The states after the runs of `m` samples, one after another with the same object, each run until its time is at least `T`. -/
inductive AfterSamples (rnd : K → K) (interval T : K) (initial : Bool) : Nat → Nat × List K → Prop
  | none : AfterSamples rnd interval T initial 0 (intervalInit initial, [])
  | more {m : Nat} {s0 st : Nat × List K} {t : K} : AfterSamples rnd interval T initial m s0 → SampleRun rnd interval T initial s0 t st → T ≤ t →
      AfterSamples rnd interval T initial (m + 1) st

theorem compute_record (rnd : K → K) (interval : K) (initial : Bool) (t : K) (n : Nat) (s : Nat × List K) :
    intervalCompute rnd interval initial recordTime () ⟨t, n⟩ s =
      .ok (if rnd (((if t = 0 then (if initial then 0 else 1) else s.1 : Nat) : K) * interval) ≤ t then ((if t = 0 then (if initial then 0 else 1) else s.1) + 1, s.2 ++ [t])
        else ((if t = 0 then (if initial then 0 else 1) else s.1), s.2)) := by
  simp only [intervalCompute, recordTime]
  split_ifs <;> rfl

variable [IsStrictOrderedRing K]

theorem sample_inv (interval T : K) (hi : 0 < interval) (initial : Bool) (s0 : Nat × List K) (t : K) (st : Nat × List K) (h : SampleRun id interval T initial s0 t st) :
    0 ≤ t ∧ intervalInit initial ≤ st.1 ∧ 0 < st.1 ∧ t < st.1 * interval ∧ (∀ k, intervalInit initial ≤ k → k < st.1 → k * interval ≤ t) ∧
      st.2 = s0.2 ++ (List.range' (intervalInit initial) (st.1 - intervalInit initial)).map fun k : Nat => k * interval := by
  induction h with
  | start h0 =>
    rw [compute_record] at h0
    cases h0
    cases initial with
    | false =>
      have hn : ¬ (id (((1 : Nat) : K) * interval) ≤ 0) := by simp [hi]
      simp only [if_true, Bool.false_eq_true, if_false, if_neg hn, intervalInit]
      refine ⟨le_rfl, le_rfl, by norm_num, by simpa using hi, fun k h1 h2 => absurd h2 (by simp; omega), by simp⟩
    | true =>
      have hn : (id (((0 : Nat) : K) * interval) ≤ 0) := by simp
      simp only [if_true, if_pos hn, intervalInit]
      refine ⟨le_rfl, by simp, by simp, by simpa using hi, fun k _ hk => ?_, by simp⟩
      obtain rfl : k = 0 := by simpa using hk
      simp
  | @step t h st st' n proposal _ hT hpos hle hwr ih =>
    obtain ⟨i0, i1, i2, i3, i4, i5⟩ := ih
    rw [compute_record] at hwr
    cases hwr
    have hne : id (t + h) ≠ 0 := by simp only [id]; exact (by linarith : (0 : K) < t + h).ne'
    simp only [if_neg hne]
    simp only [id] at hle ⊢
    have hbound : t + h ≤ st.1 * interval := by
      unfold intervalAdjust at hle
      rw [if_pos i2] at hle
      have := hle.trans (min_le_right _ _)
      rw [WithTop.coe_le_coe] at this
      simp only [id] at this
      linarith
    split_ifs with hc
    · have e : t + h = st.1 * interval := le_antisymm hbound hc
      refine ⟨by linarith, by simp; omega, by simp, by rw [e]; push_cast; linarith, fun k h1 h2 => ?_, ?_⟩
      · rw [e]
        have : (k : K) ≤ st.1 := by exact_mod_cast (by simp at h2; omega : k ≤ st.1)
        exact mul_le_mul_of_nonneg_right this hi.le
      · simp only
        rw [i5, show st.1 + 1 - intervalInit initial = (st.1 - intervalInit initial) + 1 by omega, List.range'_concat, List.map_append, e, List.append_assoc]
        congr 2
        simp
        left
        have : (intervalInit initial : K) + ((st.1 - intervalInit initial : Nat) : K) = ((intervalInit initial + (st.1 - intervalInit initial) : Nat) : K) := by push_cast; rfl
        rw [this]
        congr 1
        omega
    · exact ⟨by linarith, i1, i2, not_le.1 hc, fun k h1 h2 => (i4 k h1 h2).trans (by linarith), i5⟩

/-- C55 in exact arithmetic: for any number of samples run one after another with the same statistics object, with the interval `T / N` (Setup.cpp:277), whatever the time steps of each
sample (positive, at most what the adjuster allows): the statistic is evaluated for each sample exactly at the times `k T / N`, for `k = 0, …, N` with the initial save and
`k = 1, …, N` without, in this order; so the list of evaluations is the same list once per sample. What is missing: in floating point the times differ between samples
(`C55_fails_in_double`). -/
theorem C55_same_times_partial (T : K) (hT : 0 < T) (N : Nat) (hN : 0 < N) (initial : Bool) (m : Nat) (st : Nat × List K) (h : AfterSamples id (T / N) T initial m st) :
    st.2 = (List.replicate m ((List.range (N + 1)).filterMap fun k : Nat => if k = 0 ∧ initial = false then none else some ((k : K) * (T / N)))).flatten := by
  have hNK : (0 : K) < N := by exact_mod_cast hN
  have hi : 0 < T / N := div_pos hT hNK
  have hNT : (N : K) * (T / N) = T := by field_simp
  have hlist : ((List.range' (intervalInit initial) (N + 1 - intervalInit initial)).map fun k : Nat => (k : K) * (T / N)) =
      (List.range (N + 1)).filterMap fun k : Nat => if k = 0 ∧ initial = false then none else some ((k : K) * (T / N)) := by
    cases initial with
    | true =>
      simp only [intervalInit, if_true, List.range_eq_range', Bool.true_eq_false, and_false, if_false, Nat.sub_zero]
      exact (congrFun List.filterMap_eq_map' _).symm
    | false =>
      simp only [intervalInit, Bool.false_eq_true, if_false, List.range_eq_range', and_true, Nat.add_sub_cancel]
      rw [show List.range' 0 (N + 1) = 0 :: List.range' 1 N from rfl, List.filterMap_cons]
      simp only [if_true]
      refine (congrFun List.filterMap_eq_map' _).symm.trans ?_
      refine List.filterMap_congr fun k hk => ?_
      rw [List.mem_range'_1] at hk
      rw [if_neg (by omega)]
  induction h with
  | none => simp
  | @more m s0 st t _ hrun hend ih =>
    obtain ⟨i0, i1, i2, i3, i4, i5⟩ := sample_inv (T / N) T hi initial s0 t st hrun
    have hN1 : N < st.1 := by
      by_contra hn
      have : (st.1 : K) ≤ N := by exact_mod_cast not_lt.1 hn
      have := mul_le_mul_of_nonneg_right this hi.le
      linarith
    have hle : t ≤ T := by
      have aux : ∀ t st, SampleRun id (T / N) T initial s0 t st → t ≤ T := by
        intro t st hr
        cases hr with
        | start _ => exact hT.le
        | @step t h st0 _ _ _ hr hlt hpos hadj _ =>
          obtain ⟨j0, j1, j2, j3, j4, -⟩ := sample_inv (T / N) T hi initial s0 t st0 hr
          have hb : t + h ≤ st0.1 * (T / N) := by
            unfold intervalAdjust at hadj
            rw [if_pos j2] at hadj
            have := hadj.trans (min_le_right _ _)
            rw [WithTop.coe_le_coe] at this
            simp only [id] at this
            linarith
          have hs : st0.1 ≤ N := by
            by_contra hn
            have hI : intervalInit initial ≤ N := by unfold intervalInit; split_ifs <;> omega
            have := j4 N hI (by omega)
            rw [hNT] at this
            exact absurd hlt (not_lt.2 this)
          have : (st0.1 : K) ≤ N := by exact_mod_cast hs
          have := mul_le_mul_of_nonneg_right this hi.le
          simp only [id]
          linarith
      exact aux t st hrun
    have hst : st.1 = N + 1 := by
      have : ¬ N + 1 < st.1 := by
        intro hlt
        have := i4 (N + 1) (by unfold intervalInit; split_ifs <;> omega) hlt
        push_cast at this
        linarith
      omega
    rw [i5, hst, hlist, ih, List.replicate_succ', List.flatten_append]
    simp

/-- Two samples with different time steps, two saves until time 1: the first sample makes the steps 1/2, 1/2, the second one 1/4, 1/4, 1/2. -/
example : ∃ st, AfterSamples id ((1 : ℚ) / (2 : Nat)) 1 false 2 st ∧ st.2 = [0 + 1 / 2, 0 + 1 / 2 + 1 / 2, 0 + 1 / 4 + 1 / 4, 0 + 1 / 4 + 1 / 4 + 1 / 2] := by
  refine ⟨(3, [0 + 1 / 2, 0 + 1 / 2 + 1 / 2, 0 + 1 / 4 + 1 / 4, 0 + 1 / 4 + 1 / 4 + 1 / 2]), .more (s0 := (3, [0 + 1 / 2, 0 + 1 / 2 + 1 / 2])) (t := id (id (id (0 + 1 / 4) + 1 / 4) + 1 / 2))
    (.more (s0 := (1, [])) (t := id (id (0 + 1 / 2) + 1 / 2)) .none
      (.step (n := 0) (proposal := ⊤) (h := 1 / 2) (st := (2, [0 + 1 / 2])) (.step (n := 0) (proposal := ⊤) (h := 1 / 2) (st := (1, [])) (.start (n := 0) ?_) ?_ ?_ ?_ ?_) ?_ ?_ ?_ ?_) ?_)
    (.step (n := 0) (proposal := ⊤) (h := 1 / 2) (st := (2, [0 + 1 / 2, 0 + 1 / 2 + 1 / 2, 0 + 1 / 4 + 1 / 4]))
      (.step (n := 0) (proposal := ⊤) (h := 1 / 4) (st := (1, [0 + 1 / 2, 0 + 1 / 2 + 1 / 2]))
        (.step (n := 0) (proposal := ⊤) (h := 1 / 4) (st := (1, [0 + 1 / 2, 0 + 1 / 2 + 1 / 2])) (.start (n := 0) ?_) ?_ ?_ ?_ ?_) ?_ ?_ ?_ ?_) ?_ ?_ ?_ ?_) ?_, rfl⟩
  all_goals first
    | (rw [compute_record]; norm_num)
    | (norm_num [id]; done)
    | (simp only [intervalAdjust, id]; rw [if_pos (by norm_num), le_min_iff]; refine ⟨le_top, ?_⟩; rw [WithTop.coe_le_coe]; norm_num)

/-! Floating point. -/

/-- The integer nearest to `q`, ties to even. -/
def roundEven (q : ℚ) : ℤ := if q - ⌊q⌋ < 1 / 2 then ⌊q⌋ else if 1 / 2 < q - ⌊q⌋ then ⌊q⌋ + 1 else if 2 ∣ ⌊q⌋ then ⌊q⌋ else ⌊q⌋ + 1

/-- Rounding to 53 significant bits, to nearest, ties to even (the `double` of IEEE 754 without overflow and underflow). -/
def double (x : ℚ) : ℚ := if x = 0 then 0 else roundEven (x / 2 ^ (Int.log 2 |x| - 52)) * 2 ^ (Int.log 2 |x| - 52)

/-- The end time 1.3 in double precision. -/
def endTime : ℚ := double (13 / 10)

/-- A time step of about 0.10467. -/
def firstStep : ℚ := 0x1acc2685edb698 / 2 ^ 56

theorem firstStep_double : double firstStep = firstStep := by decide +kernel

/-- C55 is false in double precision: end time 1.3, one save. The first sample makes a step of about 0.10467 and then the step the adjuster returns; the rounded sum of the two is one
unit in the last place above 1.3. The second sample reaches 1.3 with one step. The two samples are saved under different times, and the statistic at either time is made of one
sample, but divided by two. -/
theorem C55_fails_in_double : ∃ st, AfterSamples double (double (endTime / (1 : Nat))) endTime false 2 st ∧ ∃ a b, st.2 = [a, b] ∧ a ≠ b ∧ a - b = 1 / 2 ^ 52 := by
  have hz : double (0 + firstStep) = firstStep := by decide +kernel
  have hq : double (firstStep + double (endTime - firstStep)) = endTime + 1 / 2 ^ 52 := by decide +kernel
  have hI : double (endTime / (1 : Nat)) = endTime := by decide +kernel
  have h1 : double ((1 : Nat) * endTime) = endTime := by decide +kernel
  have he : double (0 + endTime) = endTime := by decide +kernel
  have hpos : 0 < endTime := by decide +kernel
  have hfp : 0 < firstStep := by decide +kernel
  have hlt : firstStep < endTime := by decide +kernel
  have hd : 0 < double (endTime - firstStep) := by decide +kernel
  have hle : firstStep ≤ double (endTime - 0) := by decide +kernel
  have hle' : endTime ≤ double (endTime - 0) := by decide +kernel
  rw [hI]
  have comp : ∀ (t : ℚ) (n : Nat) (log : List ℚ), 0 < t → intervalCompute double endTime false recordTime () ⟨t, n⟩ (1, log) =
      .ok (if endTime ≤ t then (2, log ++ [t]) else (1, log)) := by
    intro t n log ht
    rw [compute_record]
    simp only [if_neg ht.ne', h1]
  have start : ∀ (n k : Nat) (log : List ℚ), intervalCompute double endTime false recordTime () ⟨0, n⟩ (k, log) = .ok (1, log) := by
    intro n k log
    rw [compute_record]
    simp only [if_true, Bool.false_eq_true, if_false, h1, if_neg (not_le.2 hpos)]
  refine ⟨(2, [endTime + 1 / 2 ^ 52, endTime]), .more (s0 := (2, [endTime + 1 / 2 ^ 52])) (t := double (0 + endTime))
    (.more (s0 := (1, [])) (t := double (double (0 + firstStep) + double (endTime - firstStep))) .none
      (.step (n := 0) (proposal := ⊤) (h := double (endTime - firstStep)) (st := (1, []))
        (.step (n := 0) (proposal := ⊤) (h := firstStep) (st := (1, [])) (.start (n := 0) ?_) ?_ ?_ ?_ ?_) ?_ ?_ ?_ ?_) ?_)
    (.step (n := 0) (proposal := ⊤) (h := endTime) (st := (1, [endTime + 1 / 2 ^ 52])) (.start (n := 0) ?_) ?_ ?_ ?_ ?_) ?_, _, _, rfl, ?_, by ring⟩
  · exact start _ _ _
  · exact hpos
  · exact hfp
  · simp only [intervalAdjust, h1]; rw [if_pos (by norm_num), le_min_iff]; exact ⟨le_top, by rw [WithTop.coe_le_coe]; exact hle⟩
  · rw [hz, comp _ _ _ hfp, if_neg (not_le.2 hlt)]
  · rw [hz]; exact hlt
  · exact hd
  · simp only [intervalAdjust, h1]; rw [if_pos (by norm_num), le_min_iff]; exact ⟨le_top, by rw [WithTop.coe_le_coe, hz]⟩
  · rw [hz, hq, comp _ _ _ (by positivity), if_pos (by norm_num)]; rfl
  · rw [hz, hq]; norm_num
  · exact start _ _ _
  · exact hpos
  · exact hpos
  · simp only [intervalAdjust, h1]; rw [if_pos (by norm_num), le_min_iff]; exact ⟨le_top, by rw [WithTop.coe_le_coe]; exact hle'⟩
  · rw [he, comp _ _ _ hpos, if_pos le_rfl]; rfl
  · rw [he]
  · norm_num

end Verif.Props.StatsTimes
