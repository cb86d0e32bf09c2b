import Verif.UQLemmas
import Verif.HaloLemmas
import Verif.IterateLemmas
import Verif.Props.Params
import Mathlib.Tactic.Positivity
import Mathlib.Tactic.FieldSimp
import Mathlib.Tactic.NormNum

/-! C50, C51, C52: distribution of the samples over the processes, and random parameters. -/

namespace Verif.Props.UQ
open Verif Verif.UQ Verif.Params

/-! ### C50 -/

/-- C50: `multiSample` statistical groups of `np` (product of the components of `multiSpatial`) processes each. `share g` are the samples of group `g`: every rank of the
group gets exactly this list; all shares have the same length; together, in order, they are the given list. The statistical communicator of a rank has the ranks with the
same remainder modulo `np`, ordered by group; the spatial communicator has the ranks of the same group, ordered by rank; they have only the rank itself in common. -/
theorem C50_samples_are_partitioned (samples : List Nat) (multiSample : Int) (multiSpatial : I3) (size np : Int) (hs : 1 ≤ multiSample) (h64 : multiSample < 2 ^ 64)
    (hx : 1 ≤ multiSpatial.x) (hy : 1 ≤ multiSpatial.y) (hz : 1 ≤ multiSpatial.z) (hnp : np = multiSpatial.x * multiSpatial.y * multiSpatial.z)
    (hsize : multiSample * np = size) (hdiv : multiSample ∣ (samples.length : Int)) :
    ∃ share : Int → List Nat,
      (∀ r, 0 ≤ r → r < size → ∃ statistical spatial, loadBalance samples multiSample multiSpatial size r = .ok (share (r / np), statistical, spatial) ∧
        (∀ q, q ∈ statistical ↔ (0 ≤ q ∧ q < size) ∧ q % np = r % np) ∧ (∀ q, q ∈ spatial ↔ (0 ≤ q ∧ q < size) ∧ q / np = r / np) ∧
        (∀ q, q ∈ statistical ∧ q ∈ spatial ↔ q = r) ∧
        statistical[(r / np).toNat]? = some r ∧ spatial[(r % np).toNat]? = some r) ∧
      (∀ g, 0 ≤ g → g < multiSample → ((share g).length : Int) * multiSample = samples.length) ∧
      ((irange 0 multiSample).map share).flatten = samples := by
  have hnp1 : 1 ≤ np := by
    rw [hnp]
    have := Int.mul_le_mul hx hy (by omega) (by omega)
    have := Int.mul_le_mul this hz (by omega) (by omega)
    simpa using this
  obtain ⟨S, rfl⟩ : ∃ S : Nat, multiSample = S := ⟨multiSample.toNat, by omega⟩
  have hts : Iterate.toSize (S : Int) = S := by
    have := Iterate.toSize_cast (i := (S : Int)) (by omega) h64
    exact_mod_cast this
  obtain ⟨k, hk⟩ : ∃ k, samples.length = k * S := by
    have h : S ∣ samples.length := by exact_mod_cast hdiv
    obtain ⟨k, hk⟩ := h
    exact ⟨k, by rw [hk, Nat.mul_comm]⟩
  have hS : 0 < S := by omega
  have hper : samples.length / S = k := by rw [hk, Nat.mul_div_cancel _ hS]
  refine ⟨fun g => (samples.drop (k * g.toNat)).take k, ?_, ?_, ?_⟩
  · intro r hr0 hr1
    have hg0 : 0 ≤ r / np := Int.ediv_nonneg hr0 (by omega)
    have hg1 : r / np < S := by rw [Int.ediv_lt_iff_lt_mul (by omega)]; omega
    have hm0 : 0 ≤ r % np := Int.emod_nonneg _ (by omega)
    have hm1 : r % np < np := Int.emod_lt_of_pos _ (by omega)
    have hr : np * (r / np) + r % np = r := Int.mul_ediv_add_emod r np
    -- the members of the two communicators
    have hin : ∀ j, 0 ≤ j → j < (S : Int) → 0 ≤ j * np + r % np ∧ j * np + r % np < size := by
      intro j hj0 hj1
      have h1 : 0 ≤ j * np := Int.mul_nonneg hj0 (by omega)
      have h2 : (j + 1) * np ≤ S * np := Int.mul_le_mul_of_nonneg_right (by omega) (by omega)
      rw [Int.add_mul] at h2
      omega
    have hst : commSplit size (fun q => Int.tmod q np) (fun q => Int.tdiv q np) r = .ok ((irange 0 S).map fun j => j * np + r % np) := by
      refine commSplit_ok (fun q h0 _ => Int.tmod_nonneg _ h0) ?_ ?_ ?_
      · rw [List.pairwise_map]
        refine (Boundary.pairwise_lt_irange 0 S).imp fun {a b} hab => ?_
        have := Int.mul_lt_mul_of_pos_right hab (show 0 < np by omega)
        omega
      · intro q
        simp only [List.mem_map, mem_irange]
        constructor
        · rintro ⟨j, ⟨hj0, hj1⟩, rfl⟩
          have := hin j hj0 hj1
          refine ⟨this, ?_⟩
          rw [Int.tmod_eq_emod_of_nonneg this.1, Int.tmod_eq_emod_of_nonneg hr0, Int.add_comm, Int.add_mul_emod_self_right, Int.emod_emod]
        · rintro ⟨⟨h0, h1⟩, he⟩
          rw [Int.tmod_eq_emod_of_nonneg h0, Int.tmod_eq_emod_of_nonneg hr0] at he
          refine ⟨q / np, ⟨Int.ediv_nonneg h0 (by omega), by rw [Int.ediv_lt_iff_lt_mul (by omega)]; omega⟩, ?_⟩
          rw [← he, Int.mul_comm]
          exact Int.mul_ediv_add_emod q np
      · intro a ha b hb hab
        simp only [List.mem_map, mem_irange] at ha hb
        obtain ⟨i, hi, rfl⟩ := ha
        obtain ⟨j, hj, rfl⟩ := hb
        rw [Int.tdiv_eq_ediv_of_nonneg (hin i hi.1 hi.2).1, Int.tdiv_eq_ediv_of_nonneg (hin j hj.1 hj.2).1]
        exact Int.ediv_le_ediv (by omega) (by omega)
    have hsp : commSplit size (fun q => Int.tdiv q np) (fun q => Int.tmod q np) r = .ok (irange (r / np * np) (r / np * np + np)) := by
      have hb0 : 0 ≤ r / np * np := Int.mul_nonneg hg0 (by omega)
      have hb1 : r / np * np + np ≤ size := by
        have h2 : (r / np + 1) * np ≤ S * np := Int.mul_le_mul_of_nonneg_right (by omega) (by omega)
        rw [Int.add_mul] at h2
        omega
      refine commSplit_ok (fun q h0 _ => Int.tdiv_nonneg h0 (by omega)) (Boundary.pairwise_lt_irange _ _) ?_ ?_
      · intro q
        simp only [mem_irange]
        constructor
        · rintro ⟨h0, h1⟩
          refine ⟨⟨by omega, by omega⟩, ?_⟩
          rw [Int.tdiv_eq_ediv_of_nonneg (by omega), Int.tdiv_eq_ediv_of_nonneg hr0]
          refine le_antisymm ?_ ?_
          · rw [← Int.lt_add_one_iff, Int.ediv_lt_iff_lt_mul (by omega), Int.add_mul]; omega
          · rw [Int.le_ediv_iff_mul_le (by omega)]; omega
        · rintro ⟨⟨h0, h1⟩, he⟩
          rw [Int.tdiv_eq_ediv_of_nonneg h0, Int.tdiv_eq_ediv_of_nonneg hr0] at he
          have e1 := Int.mul_ediv_add_emod q np
          have e2 := Int.emod_nonneg q (show np ≠ 0 by omega)
          have e3 := Int.emod_lt_of_pos q (show 0 < np by omega)
          rw [he, Int.mul_comm] at e1
          omega
      · intro a ha b hb hab
        simp only [mem_irange] at ha hb
        have e : ∀ c, r / np * np ≤ c → c < r / np * np + np → c % np = c - r / np * np := by
          intro c h0 h1
          rw [show c = c - r / np * np + r / np * np by omega, Int.add_mul_emod_self_right, Int.emod_eq_of_lt (by omega) (by omega)]
          omega
        rw [Int.tmod_eq_emod_of_nonneg (by omega), Int.tmod_eq_emod_of_nonneg (by omega), e a ha.1 ha.2, e b hb.1 hb.2]
        omega
    have hget : ((irange 0 S).map fun j => j * np + r % np)[(r / np).toNat]? = some r := by
      have : (r / np).toNat < S := by omega
      simp only [irange, List.getElem?_map, List.getElem?_range (show (r / np).toNat < ((S : Int) - 0).toNat by omega), Option.map_some]
      congr 1
      rw [Int.toNat_of_nonneg hg0, Int.zero_add, Int.mul_comm]
      exact hr
    have hidx : ((irange 0 S).map fun j => j * np + r % np).idxOf r = (r / np).toNat := by
      rw [List.getElem?_eq_some_iff] at hget
      obtain ⟨hlt, hget⟩ := hget
      have hinc : ((irange 0 S).map fun j => j * np + r % np).Pairwise (· < ·) := by
        rw [List.pairwise_map]
        refine (Boundary.pairwise_lt_irange 0 S).imp fun {a b} hab => ?_
        have := Int.mul_lt_mul_of_pos_right hab (show 0 < np by omega)
        omega
      have := idxOf_increasing hinc hlt
      rwa [hget] at this
    have hmemst : ∀ q, q ∈ ((irange 0 S).map fun j => j * np + r % np) ↔ (0 ≤ q ∧ q < size) ∧ q % np = r % np := by
      intro q
      simp only [List.mem_map, mem_irange]
      constructor
      · rintro ⟨j, ⟨hj0, hj1⟩, rfl⟩
        refine ⟨hin j hj0 hj1, ?_⟩
        rw [Int.add_comm, Int.add_mul_emod_self_right, Int.emod_emod]
      · rintro ⟨⟨h0, h1⟩, he⟩
        refine ⟨q / np, ⟨Int.ediv_nonneg h0 (by omega), by rw [Int.ediv_lt_iff_lt_mul (by omega)]; omega⟩, ?_⟩
        rw [← he, Int.mul_comm]
        exact Int.mul_ediv_add_emod q np
    have hmemsp : ∀ q, q ∈ irange (r / np * np) (r / np * np + np) ↔ (0 ≤ q ∧ q < size) ∧ q / np = r / np := by
      intro q
      have hb0 : 0 ≤ r / np * np := Int.mul_nonneg hg0 (by omega)
      have hb1 : r / np * np + np ≤ size := by
        have h2 : (r / np + 1) * np ≤ S * np := Int.mul_le_mul_of_nonneg_right (by omega) (by omega)
        rw [Int.add_mul] at h2
        omega
      simp only [mem_irange]
      constructor
      · rintro ⟨h0, h1⟩
        refine ⟨⟨by omega, by omega⟩, le_antisymm ?_ ?_⟩
        · rw [← Int.lt_add_one_iff, Int.ediv_lt_iff_lt_mul (by omega), Int.add_mul]; omega
        · rw [Int.le_ediv_iff_mul_le (by omega)]; omega
      · rintro ⟨⟨h0, h1⟩, he⟩
        have e1 := Int.mul_ediv_add_emod q np
        have e2 := Int.emod_nonneg q (show np ≠ 0 by omega)
        have e3 := Int.emod_lt_of_pos q (show 0 < np by omega)
        rw [he, Int.mul_comm] at e1
        omega
    refine ⟨(irange 0 S).map fun j => j * np + r % np, irange (r / np * np) (r / np * np + np), ?_, hmemst, hmemsp, ?_, hget, ?_⟩
    · rw [loadBalance, if_neg (by rw [← hsize, hnp]; simp only [Int.mul_assoc]; simp), hts, if_neg (by omega), if_neg (by rw [hk]; simp), ← hnp, if_neg (by omega), hst, hsp, hper]
      simp only [Res.ok_bind, hidx]
      have hle : k * ((r / np).toNat + 1) ≤ samples.length := by
        rw [hk]
        exact Nat.mul_le_mul_left _ (by omega)
      rw [takeSamples_ok _ _ _ hle, Res.ok_bind, Res.pure_eq, show k * ((r / np).toNat + 1) - k * (r / np).toNat = k by rw [Nat.mul_succ]; omega]
    · intro q
      rw [hmemst, hmemsp]
      constructor
      · rintro ⟨⟨_, h1⟩, _, h2⟩
        rw [← Int.mul_ediv_add_emod q np, h1, h2, hr]
      · rintro rfl
        exact ⟨⟨⟨hr0, hr1⟩, rfl⟩, ⟨hr0, hr1⟩, rfl⟩
    · simp only [irange, List.getElem?_map, List.getElem?_range (show (r % np).toNat < (r / np * np + np - r / np * np).toNat by omega), Option.map_some]
      congr 1
      rw [Int.toNat_of_nonneg hm0, Int.mul_comm]
      exact hr
  · intro g hg0 hg1
    simp only [List.length_take, List.length_drop]
    have h1 : k * (g.toNat + 1) ≤ samples.length := by
      rw [hk]
      exact Nat.mul_le_mul_left _ (by omega)
    rw [Nat.mul_succ] at h1
    rw [Nat.min_eq_left (by omega)]
    exact_mod_cast hk.symm
  · have := flatten_blocks samples k S hk
    rw [irange, List.map_map]
    simpa [Function.comp_def] using this

/-- Six samples on twelve processes: three groups of 2×2×1 processes. -/
example : (1 : Int) ≤ 3 ∧ (3 : Int) ∣ ((sampleNumbers 5 6).length : Int) ∧ (3 : Int) * (2 * 2 * 1) = 12 :=
  ⟨by decide, ⟨2, by decide⟩, by decide⟩

/-- C50 for the numbers a run creates from the configured first number `start` and the number of samples `n`: every sample number from `start` to `start + n - 1` is given
to exactly one group, once, and no other number is given to any group. -/
theorem C50_every_number_once (start n : Nat) (multiSample : Int) (multiSpatial : I3) (size np : Int) (hs : 1 ≤ multiSample) (h64 : multiSample < 2 ^ 64)
    (hx : 1 ≤ multiSpatial.x) (hy : 1 ≤ multiSpatial.y) (hz : 1 ≤ multiSpatial.z) (hnp : np = multiSpatial.x * multiSpatial.y * multiSpatial.z)
    (hsize : multiSample * np = size) (hdiv : multiSample ∣ (n : Int)) :
    ∃ share : Int → List Nat,
      (∀ r, 0 ≤ r → r < size → ∃ statistical spatial,
        loadBalance (sampleNumbers start n) multiSample multiSpatial size r = .ok (share (r / np), statistical, spatial)) ∧
      (∀ k, start ≤ k → k < start + n → ∃! g, (0 ≤ g ∧ g < multiSample) ∧ k ∈ share g) ∧
      (∀ g, 0 ≤ g → g < multiSample → (share g).Nodup ∧ ∀ k ∈ share g, start ≤ k ∧ k < start + n) := by
  have hlen : (sampleNumbers start n).length = n := by simp [sampleNumbers]
  have hmem : ∀ k, k ∈ sampleNumbers start n ↔ start ≤ k ∧ k < start + n := by
    intro k
    simp only [sampleNumbers, List.mem_map, List.mem_range]
    constructor
    · rintro ⟨i, hi, rfl⟩
      omega
    · rintro ⟨h1, h2⟩
      exact ⟨k - start, by omega, by omega⟩
  have hnd : (sampleNumbers start n).Nodup := by
    rw [sampleNumbers]
    exact List.nodup_range.map fun a b h => by simpa using h
  obtain ⟨share, h1, -, h3⟩ := C50_samples_are_partitioned (sampleNumbers start n) multiSample multiSpatial size np hs h64 hx hy hz hnp hsize
    (by rw [hlen]; exact hdiv)
  rw [← h3, List.nodup_flatten, List.pairwise_map] at hnd
  have hin : ∀ g, g ∈ irange 0 multiSample ↔ 0 ≤ g ∧ g < multiSample := fun g => by simp
  refine ⟨share, fun r hr hr' => ?_, fun k hk hk' => ?_, fun g hg hg' => ⟨hnd.1 _ (List.mem_map.2 ⟨g, (hin g).2 ⟨hg, hg'⟩, rfl⟩), fun k hk => ?_⟩⟩
  · obtain ⟨a, b, h, -⟩ := h1 r hr hr'
    exact ⟨a, b, h⟩
  · have := (hmem k).2 ⟨hk, hk'⟩
    rw [← h3, List.mem_flatten] at this
    obtain ⟨l, hl, hkl⟩ := this
    obtain ⟨g, hg, rfl⟩ := List.mem_map.1 hl
    refine ⟨g, ⟨(hin g).1 hg, hkl⟩, fun g' h' => ?_⟩
    by_contra hne
    haveI : Std.Symm fun a b => List.Disjoint (share a) (share b) := ⟨fun _ _ h => h.symm⟩
    exact List.Pairwise.forall (R := fun a b => List.Disjoint (share a) (share b)) hnd.2 ((hin g').2 h'.1) hg hne h'.2 hkl
  · rw [← hmem, ← h3, List.mem_flatten]
    exact ⟨_, List.mem_map.2 ⟨g, (hin g).2 ⟨hg, hg'⟩, rfl⟩, hk⟩

/-- Samples 5 to 10 over three groups of four processes. -/
example := C50_every_number_once 5 6 3 ⟨2, 2, 1⟩ 12 4 (by decide) (by decide) (by decide) (by decide) (by decide) (by decide) (by decide) (by decide)

/-- C50: a distribution that does not multiply to the number of processes, or that does not divide the number of samples, is rejected on every rank. -/
theorem C50_uneven_is_rejected (samples : List Nat) (multiSample : Int) (multiSpatial : I3) (size r : Int) (hs : 1 ≤ multiSample) (h64 : multiSample < 2 ^ 64)
    (h : multiSample * (multiSpatial.x * multiSpatial.y * multiSpatial.z) ≠ size ∨ ¬ multiSample ∣ (samples.length : Int)) :
    loadBalance samples multiSample multiSpatial size r = .error .thrown := by
  rw [loadBalance]
  split_ifs with h1 h2 h3
  · rfl
  · have := Iterate.toSize_cast (i := multiSample) (by omega) h64
    omega
  · rfl
  · rcases h with h | h
    · exact absurd (by rw [← Int.mul_assoc, ← Int.mul_assoc]; exact not_not.1 h1) h
    · refine absurd ?_ h
      have e := Iterate.toSize_cast (i := multiSample) (by omega) h64
      rw [← e]
      exact_mod_cast Nat.dvd_of_mod_eq_zero (not_not.1 h3)

/-- Seven samples do not divide by three groups; three groups of four processes are not ten processes. -/
example : ¬ (3 : Int) ∣ ((sampleNumbers 0 7).length : Int) ∧ (3 : Int) * (2 * 2 * 1) ≠ 10 := by decide

/-! ### C51 -/

section
variable {K : Type} [Field K]

/-- C51, when at most one parameter uses the random number generator and the process takes its samples in increasing order: component `i` of parameter `p` of sample `s` is
`value w p i s`, a function of the random number stream, the parameter, the component and the sample number (for a uniform parameter with `d` components: random
number `s·d + i`, scaled to the interval). Missing: several random parameters, other orders (both false, see below). Parameters of the one dimensional equidistant
distribution must have one component; with more the program ends. -/
theorem C51_value_depends_on_sample_partial (w : Nat → K) (params : List (Param K)) (hone : (params.filter Param.random).length ≤ 1)
    (h1 : ∀ p ∈ params, ∀ a dx, p.dist = .uniform1d a dx → p.dim ≤ 1) (samples : List Nat) (hinc : samples.Pairwise (· < ·)) :
    ∃ pos, runParameters w params samples 0 = .ok (samples.map fun s => params.map fun p => (List.range p.dim).map fun i => value w p i s, pos) := by
  by_cases hr : ∀ p ∈ params, p.random = false
  · have := foldlM_collect (fun (s : Nat) pos => sampleParameters w params s pos) samples [] 0 (fun s => params.map fun p => (List.range p.dim).map fun i => value w p i s)
      (fun _ pos => pos) (fun _ _ => True) (fun s _ pos _ => by
        have := sampleParameters_fixed w hr h1 s [] pos
        simpa [sampleParameters] using this) (fun _ _ _ _ => trivial)
    exact ⟨_, by simpa [runParameters] using this⟩
  · have : ∃ pre p post, params = pre ++ p :: post ∧ p.random = true ∧ ∀ q ∈ pre ++ post, q.random = false := by
      simp only [not_forall, Bool.not_eq_false] at hr
      obtain ⟨p, hp, hpr⟩ := hr
      obtain ⟨pre, post, rfl⟩ := List.append_of_mem hp
      refine ⟨pre, p, post, rfl, hpr, ?_⟩
      rw [List.filter_append, List.filter_cons_of_pos hpr, List.length_append, List.length_cons] at hone
      have e1 : pre.filter Param.random = [] := List.eq_nil_of_length_eq_zero (by omega)
      have e2 : post.filter Param.random = [] := List.eq_nil_of_length_eq_zero (by omega)
      rw [List.filter_eq_nil_iff] at e1 e2
      intro q hq
      rcases List.mem_append.1 hq with hq | hq
      · simpa using e1 q hq
      · simpa using e2 q hq
    obtain ⟨pre, p, post, rfl, hp, hfix⟩ := this
    have h1' : ∀ q ∈ pre ++ post, ∀ a dx, q.dist = .uniform1d a dx → q.dim ≤ 1 := by
      intro q hq
      refine h1 q ?_
      simp only [List.mem_append, List.mem_cons] at hq ⊢
      tauto
    have key : ∀ (l : List Nat) (acc : List (List (List K))) (pos : Nat), l.Pairwise (· < ·) → (∀ s ∈ l, pos ≤ s * p.dim) →
        ∃ pos', l.foldlM (fun (t : List (List (List K)) × Nat) s => do
          let (x, pos) ← sampleParameters w (pre ++ p :: post) s t.2
          pure (t.1 ++ [x], pos)) (acc, pos) = .ok (acc ++ l.map fun s => (pre ++ p :: post).map fun p => (List.range p.dim).map fun i => value w p i s, pos') := by
      intro l
      induction l with
      | nil => intro acc pos _ _; exact ⟨pos, by simp [Res.pure_eq]⟩
      | cons s l ih =>
        intro acc pos hl hpos
        rw [List.pairwise_cons] at hl
        obtain ⟨pos', e1, e2⟩ := sampleParameters_ok w hp hfix h1' (hpos s (by simp))
        obtain ⟨pos'', e3⟩ := ih (acc ++ [(pre ++ p :: post).map fun p => (List.range p.dim).map fun i => value w p i s]) pos' hl.2 fun s' hs' =>
          e2.trans (Nat.mul_le_mul_right _ (hl.1 s' hs'))
        refine ⟨pos'', ?_⟩
        rw [List.foldlM_cons]
        simp only [e1]
        refine Eq.trans e3 ?_
        simp
    obtain ⟨pos, e⟩ := key samples [] 0 hinc fun s _ => Nat.zero_le _
    exact ⟨pos, by simpa [runParameters] using e⟩

/-- Every process of every distribution computes for its samples the values of the same table. -/
theorem C51_every_distribution_partial (w : Nat → K) (params : List (Param K)) (hone : (params.filter Param.random).length ≤ 1)
    (h1 : ∀ p ∈ params, ∀ a dx, p.dist = .uniform1d a dx → p.dim ≤ 1) (start n : Nat) (multiSample : Int) (multiSpatial : I3) (size r : Int)
    (mine : List Nat) (st sp : List Int) (h : loadBalance (sampleNumbers start n) multiSample multiSpatial size r = .ok (mine, st, sp)) :
    ∃ pos, runParameters w params mine 0 = .ok (mine.map fun s => params.map fun p => (List.range p.dim).map fun i => value w p i s, pos) := by
  refine C51_value_depends_on_sample_partial w params hone h1 mine ?_
  have hsub : mine.Sublist (sampleNumbers start n) := by
    rw [loadBalance] at h
    split_ifs at h
    dsimp only at h
    split_ifs at h
    rcases e1 : commSplit size (fun q => Int.tmod q (multiSpatial.x * multiSpatial.y * multiSpatial.z)) (fun q => Int.tdiv q (multiSpatial.x * multiSpatial.y * multiSpatial.z)) r with e | a
    · rw [e1] at h; cases h
    rcases e2 : commSplit size (fun q => Int.tdiv q (multiSpatial.x * multiSpatial.y * multiSpatial.z)) (fun q => Int.tmod q (multiSpatial.x * multiSpatial.y * multiSpatial.z)) r with e | b
    · rw [e1, e2] at h; cases h
    rw [e1, e2] at h
    simp only [Res.ok_bind] at h
    rcases e3 : takeSamples (sampleNumbers start n) ((sampleNumbers start n).length / Iterate.toSize multiSample * a.idxOf r)
      ((sampleNumbers start n).length / Iterate.toSize multiSample * (a.idxOf r + 1)) with e | c
    · rw [e3] at h; cases h
    rw [e3] at h
    injection h with h
    have hc : c = mine := congrArg Prod.fst h
    exact hc ▸ takeSamples_sublist e3
  refine List.Pairwise.sublist hsub ?_
  rw [sampleNumbers, List.pairwise_map]
  exact List.pairwise_lt_range.imp fun h => by omega

/-- Two components of a uniform parameter and an equidistant one; samples 3 and 5. -/
example : ∃ params : List (Param Rat), (params.filter Param.random).length ≤ 1 ∧ (∀ p ∈ params, ∀ a dx, p.dist = .uniform1d a dx → p.dim ≤ 1) ∧
    [3, 5].Pairwise (· < ·) ∧ (∃ pos, runParameters (fun n => (n : Rat)) params [3, 5] 0 = .ok ([[[6, 7], [7 / 8]], [[10, 11], [11 / 8]]], pos)) := by
  refine ⟨[⟨2, .uniform 0 1⟩, ⟨1, .uniform1d 0 (1 / 4)⟩], by decide, ?_, by decide, ⟨12, by decide +kernel⟩⟩
  intro p hp a dx h
  simp only [List.mem_cons, List.not_mem_nil, or_false] at hp
  rcases hp with rfl | rfl <;> simp_all

/-- The two uniform parameters of the witnesses. -/
def two : List (Param K) := [⟨1, .uniform 0 1⟩, ⟨1, .uniform 0 1⟩]

/-- C51 fails with two random parameters: they share the stream, but each skips as if it were alone. A process with samples 0 and 1 uses random numbers 0, 1 for sample 0
and 2, 3 for sample 1; a process with sample 1 only uses 1, 2 for sample 1. Thus both parameters of sample 1 differ, and on two processes the first parameter of sample 1
equals the second parameter of sample 0. -/
theorem C51_fails_for_two_parameters (w : Nat → K) :
    runParameters w two [0, 1] 0 = .ok ([[[w 0], [w 1]], [[w 2], [w 3]]], 4) ∧ runParameters w two [1] 0 = .ok ([[[w 1], [w 2]]], 3) := by
  constructor <;> simp [runParameters, sampleParameters, two, Param.generate, Dist.generate, mersenne, Res.pure_eq, List.range_succ, List.foldlM_cons, bind, Except.bind]

/-- C51 fails for other orders, also with one parameter: sample 0 after sample 1 gets random number 2, not 0. -/
theorem C51_fails_for_other_orders (w : Nat → K) :
    runParameters w [⟨1, .uniform 0 1⟩] [1, 0] 0 = .ok ([[[w 1]], [[w 2]]], 3) ∧ runParameters w [⟨1, .uniform 0 1⟩] [0, 1] 0 = .ok ([[[w 0]], [[w 1]]], 2) := by
  constructor <;> simp [runParameters, sampleParameters, Param.generate, Dist.generate, mersenne, Res.pure_eq, List.range_succ, List.foldlM_cons, bind, Except.bind]

end

/-! ### C52 -/

section
variable {K : Type} [Field K]

theorem find_other {k k' : Str} (f : Tree → Tree) (d : Str) (c : List (Str × Tree)) (h : k ≠ k') :
    find k' (.node d (updateChild k f c)) = find k' (.node d c) := by
  induction c with
  | nil => simp [updateChild, find, Tree.children, h]
  | cons p ps ih =>
    by_cases hp : p.1 = k
    · have hb : (p.1 == k') = false := by rw [hp]; simpa using h
      simp [updateChild, find, Tree.children, hp, h]
    · have hb : (p.1 == k) = false := by simpa using hp
      simp only [find, Tree.children, updateChild, hb, Bool.false_eq_true, if_false, List.find?_cons] at ih ⊢
      split
      · rfl
      · exact ih

theorem get_other {k k' : Str} (v : Str) (t : Tree) (hk : fragments k = [k]) (hk' : fragments k' = [k']) (h : k ≠ k') :
    getString k' (addString k v t) = getString k' t := by
  rcases t with ⟨d, c⟩
  rw [addString, hk, getString, getData, hk', putAt, getString, getData, hk', walk, walk, find_other _ _ _ h]

/-- The bounds of the configuration are never used: for every configuration node, the uniform parameter is drawn from [0,1] and the equidistant one has cells of length 1/N
from 0. `text` and `parse` are the conversions between numbers and text; only that 0 and 1 survive them is used. -/
theorem C52_bounds_are_overwritten (text : K → Str) (parse : Str → Option K) (library : Str → Nat → Nat → Tree → Res (Dist K)) (h0 : parse (text 0) = some 0)
    (h1 : parse (text 1) = some 1) (length numberOfSamples : Nat) (node : Tree) :
    makeParam text parse library "uniform".toList length numberOfSamples node = .ok ⟨length, .uniform 0 1⟩ ∧
    makeParam text parse library "uniform1d".toList length numberOfSamples node = .ok ⟨length, .uniform1d 0 (1 / numberOfSamples)⟩ := by
  have fl : fragments "lower".toList = ["lower".toList] := by simp [fragments]
  have fu : fragments "upper".toList = ["upper".toList] := by simp [fragments]
  have fa : fragments "a".toList = ["a".toList] := by simp [fragments]
  have fb : fragments "b".toList = ["b".toList] := by simp [fragments]
  have fm : fragments "mean".toList = ["mean".toList] := by simp [fragments]
  have fs : fragments "sd".toList = ["sd".toList] := by simp [fragments]
  have gl : getString "lower".toList (distributionParameters text node) = .ok (text 0) := by
    rw [distributionParameters, get_other _ _ fs fl (by decide), get_other _ _ fm fl (by decide), get_other _ _ fb fl (by decide), get_other _ _ fa fl (by decide),
      get_other _ _ fu fl (by decide), C61_value_round_trip]
  have gu : getString "upper".toList (distributionParameters text node) = .ok (text 1) := by
    rw [distributionParameters, get_other _ _ fs fu (by decide), get_other _ _ fm fu (by decide), get_other _ _ fb fu (by decide), get_other _ _ fa fu (by decide),
      C61_value_round_trip]
  have ga : getString "a".toList (distributionParameters text node) = .ok (text 0) := by
    rw [distributionParameters, get_other _ _ fs fa (by decide), get_other _ _ fm fa (by decide), get_other _ _ fb fa (by decide), C61_value_round_trip]
  have gb : getString "b".toList (distributionParameters text node) = .ok (text 1) := by
    rw [distributionParameters, get_other _ _ fs fb (by decide), get_other _ _ fm fb (by decide), C61_value_round_trip]
  constructor
  · rw [makeParam, createDistribution, if_neg (by decide), if_pos rfl]
    simp only [getDouble, gl, gu, Res.ok_bind, h0, h1, Res.pure_eq]
  · rw [makeParam, createDistribution, if_neg (by decide), if_neg (by decide), if_pos rfl]
    simp only [getDouble, ga, gb, Res.ok_bind, h0, h1, Res.pure_eq, sub_zero]

/-- Conversions that keep 0 and 1. -/
example : ∃ (text : Rat → Str) (parse : Str → Option Rat), parse (text 0) = some 0 ∧ parse (text 1) = some 1 :=
  ⟨fun x => if x = 0 then "0".toList else "1".toList, fun s => if s = "0".toList then some 0 else some 1, by decide, by decide⟩

/-- C52, for the bounds the distribution is created with (which are not those of the configuration): a uniform parameter reads its bounds `lower` and `upper`, and every
value drawn lies between them, when the numbers of the generator lie between 0 and 1. -/
theorem C52_uniform_in_bounds_partial [LinearOrder K] [IsStrictOrderedRing K] (parse : Str → Option K) (library : Str → Nat → Nat → Tree → Res (Dist K)) (t : Tree) (lower upper : Str) (a b : K)
    (hl : getString "lower".toList t = .ok lower) (hu : getString "upper".toList t = .ok upper) (ha : parse lower = some a) (hb : parse upper = some b) (hab : a ≤ b)
    (dims numberOfSamples : Nat) :
    ∃ d, createDistribution parse library "uniform".toList dims numberOfSamples t = .ok d ∧ ∀ (w : Nat → K), (∀ n, 0 ≤ w n ∧ w n ≤ 1) →
      ∀ comp sample pos, comp < dims → ∃ x pos', d.generate w dims comp sample pos = .ok (x, pos') ∧ a ≤ x ∧ x ≤ b := by
  refine ⟨.uniform a b, ?_, ?_⟩
  · rw [createDistribution, if_neg (by decide), if_pos rfl]
    simp only [getDouble, hl, hu, Res.ok_bind, ha, hb, Res.pure_eq]
  · intro w hw comp sample pos hc
    have : ∃ n pos', mersenne w dims comp sample pos = .ok (w n, pos') := by
      unfold mersenne
      rw [if_neg (by omega)]
      exact ⟨_, _, rfl⟩
    obtain ⟨n, pos', hm⟩ := this
    refine ⟨w n * (b - a) + a, pos', ?_, ?_, ?_⟩
    · rw [Dist.generate, hm]; rfl
    · have := mul_nonneg (hw n).1 (sub_nonneg.2 hab)
      linarith
    · have := mul_le_mul_of_nonneg_right (hw n).2 (sub_nonneg.2 hab)
      linarith

/-- C52, again for the bounds the distribution is created with: sample `s < N` of the equidistant distribution is the midpoint of the cell from `a + s·h` to `a + (s+1)·h`,
`h = (b-a)/N`, and these cells are `[a,b]`. -/
theorem C52_equidistant_partial [LinearOrder K] [IsStrictOrderedRing K] (parse : Str → Option K) (library : Str → Nat → Nat → Tree → Res (Dist K)) (t : Tree) (ta tb : Str) (a b : K)
    (hl : getString "a".toList t = .ok ta) (hu : getString "b".toList t = .ok tb) (ha : parse ta = some a) (hb : parse tb = some b) (dims N : Nat) (hN : 1 ≤ N) :
    ∃ (d : Dist K) (cell : Nat → K), createDistribution parse library "uniform1d".toList dims N t = .ok d ∧ cell 0 = a ∧ cell N = b ∧
      (∀ s s', cell (s + 1) - cell s = cell (s' + 1) - cell s') ∧
      ∀ (w : Nat → K) (s pos : Nat), d.generate w 1 0 s pos = .ok ((cell s + cell (s + 1)) / 2, pos) := by
  have hN' : (N : K) ≠ 0 := by positivity
  refine ⟨.uniform1d a ((b - a) / N), fun s => a + s * ((b - a) / N), ?_, by simp, ?_, ?_, ?_⟩
  · rw [createDistribution, if_neg (by decide), if_neg (by decide), if_pos rfl]
    simp only [getDouble, hl, hu, Res.ok_bind, ha, hb, Res.pure_eq]
  · field_simp; ring
  · intro s s'; push_cast; ring
  · intro w s pos
    rw [Dist.generate, if_neg (by omega)]
    congr 2
    push_cast
    field_simp
    ring

/-- Bounds 2 and 3 in the parameters of the distribution. -/
def bounds23 : Tree := .node [] [("lower".toList, .node "2".toList []), ("upper".toList, .node "3".toList []), ("a".toList, .node "2".toList []), ("b".toList, .node "3".toList [])]

/-- Reads a digit. -/
def digit (s : Str) : Option Rat := match s with
  | [c] => if c.isDigit then some ((c.toNat : Rat) - 48) else none
  | _ => none

example : getString "lower".toList bounds23 = .ok "2".toList ∧ getString "upper".toList bounds23 = .ok "3".toList ∧ getString "a".toList bounds23 = .ok "2".toList ∧
    getString "b".toList bounds23 = .ok "3".toList ∧ digit "2".toList = some 2 ∧ digit "3".toList = some 3 ∧ (2 : Rat) ≤ 3 := by
  refine ⟨?_, ?_, ?_, ?_, by decide +kernel, by decide +kernel, by norm_num⟩ <;> simp [getString, getData, fragments, walk, find, bounds23, Tree.children, Except.map, Tree.data]

/-- C52 fails: the user asks for values between 2 and 3, but every value drawn is at most 1. -/
theorem C52_fails [LinearOrder K] [IsStrictOrderedRing K] (text : K → Str) (parse : Str → Option K) (library : Str → Nat → Nat → Tree → Res (Dist K)) (h0 : parse (text 0) = some 0)
    (h1 : parse (text 1) = some 1) (h2 : parse "2".toList = some 2) (h3 : parse "3".toList = some 3) :
    (getDouble parse "lower".toList bounds23 = .ok 2 ∧ getDouble parse "upper".toList bounds23 = .ok 3) ∧
    ∃ p : Param K, makeParam text parse library "uniform".toList 1 10 bounds23 = .ok p ∧ ∀ (w : Nat → K), (∀ n, 0 ≤ w n ∧ w n ≤ 1) → ∀ s pos,
      ∃ x pos', p.generate w s pos = .ok ([x], pos') ∧ ¬ (2 ≤ x ∧ x ≤ 3) := by
  refine ⟨⟨?_, ?_⟩, ⟨1, .uniform 0 1⟩, (C52_bounds_are_overwritten text parse library h0 h1 1 10 bounds23).1, ?_⟩
  · have e : getString "lower".toList bounds23 = .ok "2".toList := by simp [getString, getData, fragments, walk, find, bounds23, Tree.children, Except.map, Tree.data]
    simp only [getDouble, e, Res.ok_bind, h2, Res.pure_eq]
  · have e : getString "upper".toList bounds23 = .ok "3".toList := by simp [getString, getData, fragments, walk, find, bounds23, Tree.children, Except.map, Tree.data]
    simp only [getDouble, e, Res.ok_bind, h3, Res.pure_eq]
  · intro w hw s pos
    refine ⟨w (if pos < s then s else pos), (if pos < s then s else pos) + 1, ?_, ?_⟩
    · simp only [Param.generate, List.range_one, List.foldlM_cons, List.foldlM_nil, Dist.generate, mersenne]
      by_cases h : pos < s
      · simp [h, Res.pure_eq, bind, Except.bind, show pos + (s - pos) = s by omega]
      · simp [h, Res.pure_eq, bind, Except.bind]
    · have := (hw (if pos < s then s else pos)).2
      intro hx
      linarith [hx.1]

/-- C52 fails for the equidistant distribution also when the first sample number is not 0: it always counts from `a`, so samples from number `N` on lie beyond `b`. -/
theorem C52_fails_for_later_samples [LinearOrder K] [IsStrictOrderedRing K] (a b : K) (hab : a < b) (N : Nat) (hN : 1 ≤ N) (w : Nat → K) (s pos : Nat) (hs : N ≤ s) :
    ∃ x, (Dist.uniform1d a ((b - a) / N)).generate w 1 0 s pos = .ok (x, pos) ∧ b < x := by
  refine ⟨_, by rw [Dist.generate, if_neg (by omega)], ?_⟩
  have hN' : (0 : K) < N := by exact_mod_cast hN
  have hd : 0 < (b - a) / N := div_pos (sub_pos.2 hab) hN'
  have hsn : (N : K) ≤ s := by exact_mod_cast hs
  have e : (b - a) / N * N = b - a := by field_simp
  have := mul_lt_mul_of_pos_left (show (N : K) < s + 1 / 2 by linarith) hd
  linarith

/-- Ten samples starting with number ten. -/
example : ∃ s ∈ sampleNumbers 10 10, 10 ≤ s := by decide

end

end Verif.Props.UQ
