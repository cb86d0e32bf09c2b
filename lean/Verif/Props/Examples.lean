import Verif.ExamplesLemmas

/-!
C115: the initial data of the examples are admissible, for all values of their random parameters.

Specification. A state of a gas is physical if density and pressure are positive. A shear layer with two interfaces has density 2 and velocity −1/2 between the lines `y = 1/4` and `y = 3/4`,
density 1 and velocity 1/2 outside, except within the stated distance of the lines. The point of a cell is its midpoint.

The data of the scalar equations, of the shock tube, of the gas cloud and of the vortex are as the property says. It is violated:

* The interfaces of the shear layers leave the stated distance if the numbers have both signs, as in the example with normally distributed numbers.
* In three dimensions they do so for non-negative numbers too, because sums are divided by the normalizations of other sums.
* The tube always fails, because `len(a)/6` is not an integer. The circle of Richtmyer and Meshkov fails for 40 numbers, which its file has.
* The data filled in at once are those of points that are not midpoints, and depend on the number of processes.
* The velocities of the vortex are not numbers in its centre.
* The pressure of Taylor and Green has `z` where it should have `y`.
* The data for the equation of Buckley and Leverett are below zero for some numbers.
-/

namespace Verif.Examples.Spec

/-- A state with positive density and pressure. -/
def Physical (g : Gas) : Prop := 0 < g.rho ∧ 0 < g.p

/-- The state at height `y` of a layer whose interfaces are within `eps` of 1/4 and 3/4. -/
def Bands (eps y : ℝ) (g : Gas) : Prop :=
  (y < 1 / 4 - eps ∨ 3 / 4 + eps < y → g.rho = 1 ∧ g.ux = 1 / 2) ∧ (1 / 4 + eps < y ∧ y < 3 / 4 - eps → g.rho = 2 ∧ g.ux = -(1 / 2))

/-- The midpoint of cell `i` of `n` equal cells between `a` and `b`. -/
noncomputable def cellMid (a b : ℝ) (n i : Nat) : ℝ := a + (i + 1 / 2) * ((b - a) / n)

end Verif.Examples.Spec

namespace Verif.Props.Examples
open Verif Verif.Examples Verif.Examples.Spec Real

/-- The layers of all examples in two dimensions are physical, for any forty numbers. -/
theorem C115_layers (eps : ℝ) (a : List ℝ) (x y : ℝ) (h : 40 ≤ a.length) : ∃ g, kelvinHelmholtz eps a x y = .ok g ∧ Physical g :=
  ⟨_, kelvinHelmholtz_ok eps a x y h, layer_physical _⟩

example : ∃ g, kelvinHelmholtz 0.01 (List.replicate 40 (-3)) 0.3 0.5 = .ok g ∧ Physical g := C115_layers _ _ _ _ (by simp)

/-- The interfaces stay within the stated distance if no number is negative. Missing: numbers of both signs, for which it is false. -/
theorem C115_interfaces_partial (eps : ℝ) (he : 0 ≤ eps) (a : List ℝ) (x y : ℝ) (h : 40 ≤ a.length) (ha : ∀ v ∈ a, 0 ≤ v) :
    ∃ g, kelvinHelmholtz eps a x y = .ok g ∧ Bands eps y g :=
  ⟨_, kelvinHelmholtz_ok eps a x y h, bands_layer _ _ _ _ (ripple_le _ he _ _ _ _ (slice_nonneg _ _ _ ha) (slice_nonneg _ _ _ ha) le_rfl)
    (ripple_le _ he _ _ _ _ (slice_nonneg _ _ _ ha) (slice_nonneg _ _ _ ha) le_rfl)⟩

example : ∃ g, kelvinHelmholtz 0.05 (List.replicate 40 (1 / 2)) 0.3 0.5 = .ok g ∧ g.rho = 2 := by
  obtain ⟨g, h, _, hb⟩ := C115_interfaces_partial 0.05 (by norm_num) (List.replicate 40 (1 / 2)) 0.3 0.5 (by simp) (by intro v hv; rw [List.eq_of_mem_replicate hv]; norm_num)
  exact ⟨g, h, (hb (by norm_num)).1⟩

/-- Numbers of both signs: the upper interface is at three times the distance. -/
noncomputable def signed : List ℝ := 1 :: -(1 / 2) :: List.replicate 19 0 ++ 1 / 4 :: List.replicate 18 0

/-- With numbers of both signs, which the normal distribution of examples/kelvinhelmholtz_gaussian has, an interface leaves the stated distance. -/
theorem C115_fails_for_signed_numbers : ∃ a : List ℝ, a.length = 40 ∧ ∃ g, kelvinHelmholtz 0.01 a 0 0.77 = .ok g ∧ ¬ Bands 0.01 0.77 g := by
  refine ⟨signed, by simp [signed], _, kelvinHelmholtz_ok 0.01 signed 0 0.77 (by simp [signed]), ?_⟩
  have e1 : slice signed 10 20 = List.replicate 10 0 := by simp [signed, slice]
  have e2 : slice signed 0 10 = 1 :: -(1 / 2) :: List.replicate 8 0 := by simp [signed, slice]
  have e3 : slice signed 20 40 = 0 :: 1 / 4 :: List.replicate 18 0 := by simp [signed, slice]
  have hn : normalization (1 :: -(1 / 2) :: List.replicate 8 0) = 1 / 2 := by
    unfold normalization
    norm_num [List.sum_replicate, abs_of_pos]
  have hw : waveSum (1 :: -(1 / 2) :: List.replicate 8 0) (0 :: 1 / 4 :: List.replicate 18 0) 0 = 3 / 2 := by
    unfold waveSum
    have hc : cos (2 * π * 2 * (1 / 4)) = -1 := by rw [← cos_pi]; congr 1; ring
    norm_num [List.range_succ_eq_map]
    rw [hc]; norm_num
  rw [e1, e2, e3, waveSum_zero, hn, hw]
  intro hb
  have h1 := (hb.1 (.inr (by norm_num))).1
  unfold layer at h1
  norm_num at h1

/-- The layer with one number (examples/kelvinhelmholtz_oneparameter). -/
theorem C115_one_number (a x y : ℝ) : Physical (kelvinHelmholtzOne a x y) ∧ Bands 0.01 y (kelvinHelmholtzOne a x y) := by
  have h : |0.01 * cos (π * a * x + π * a)| ≤ (0.01 : ℝ) := by
    rw [abs_mul, abs_of_pos (by norm_num : (0 : ℝ) < 0.01)]
    exact mul_le_of_le_one_right (by norm_num) (abs_cos_le_one _)
  exact ⟨layer_physical _, bands_layer _ _ _ _ h h⟩

/-- The layers in three dimensions are physical; the interfaces stay within twice the perturbation if no number is negative and no sum is larger than the one it is divided by. Missing: other
sums, for which it is false. -/
theorem C115_three_dimensions_partial (a : List ℝ) (x y z : ℝ) (h : 80 ≤ a.length) : ∃ g, kelvinHelmholtz3 a x y z = .ok g ∧ Physical g ∧
    ((∀ v ∈ a, 0 ≤ v) → (slice a 10 20).sum ≤ (slice a 0 10).sum → (slice a 20 30).sum ≤ (slice a 10 20).sum → (slice a 30 40).sum ≤ (slice a 10 20).sum → Bands 0.1 y g) := by
  unfold kelvinHelmholtz3
  rw [waves_ok _ _ _ (by simp only [slice_length]; omega), waves_ok _ _ _ (by simp only [slice_length]; omega), waves_ok _ _ _ (by simp only [slice_length]; omega),
    waves_ok _ _ _ (by simp only [slice_length]; omega)]
  refine ⟨_, rfl, layer_physical _, fun ha h2 h3 h4 => bands_layer _ _ _ _ ?_ ?_⟩
  · refine (abs_add_le _ _).trans ((add_le_add (ripple_le _ (by norm_num) _ _ _ _ (slice_nonneg _ _ _ ha) (slice_nonneg _ _ _ ha) h3)
      (ripple_le _ (by norm_num) _ _ _ _ (slice_nonneg _ _ _ ha) (slice_nonneg _ _ _ ha) h4)).trans (by norm_num))
  · refine (abs_add_le _ _).trans ((add_le_add (ripple_le _ (by norm_num) _ _ _ _ (slice_nonneg _ _ _ ha) (slice_nonneg _ _ _ ha) le_rfl)
      (ripple_le _ (by norm_num) _ _ _ _ (slice_nonneg _ _ _ ha) (slice_nonneg _ _ _ ha) h2)).trans (by norm_num))

example : ∃ g, kelvinHelmholtz3 (List.replicate 80 1) 0.1 0.2 0.3 = .ok g ∧ Physical g ∧ Bands 0.1 0.2 g := by
  obtain ⟨g, h, hp, hb⟩ := C115_three_dimensions_partial (List.replicate 80 1) 0.1 0.2 0.3 (by simp)
  exact ⟨g, h, hp, hb (by intro v hv; rw [List.eq_of_mem_replicate hv]; norm_num) (by simp [slice]) (by simp [slice]) (by simp [slice])⟩

/-- In three dimensions there is no layer for some non-negative numbers: in the middle the state is that of the outside. -/
theorem C115_fails_in_three_dimensions : ∃ a : List ℝ, a.length = 80 ∧ (∀ v ∈ a, 0 ≤ v ∧ v ≤ 1) ∧ ∃ g, kelvinHelmholtz3 a 0 0.5 0 = .ok g ∧ g.rho = 1 ∧ ¬ Bands 0.1 0.5 g := by
  have w0 : ∀ b, waveSum (List.replicate 10 0) b 0 = 0 := fun b => waveSum_zero 10 b 0
  have w1 : waveSum (List.replicate 10 1) (List.replicate 10 0) 0 = 10 := by
    unfold waveSum
    norm_num [List.range_succ_eq_map]
  have n0 : normalization (List.replicate 10 0) = 1 := by
    unfold normalization
    norm_num [List.sum_replicate]
  have key : kelvinHelmholtz3 (List.replicate 20 0 ++ List.replicate 10 1 ++ List.replicate 50 0) 0 0.5 0 = .ok ⟨1, 0.5, 0, 0, 2.5⟩ := by
    have s1 : slice (List.replicate 20 0 ++ List.replicate 10 1 ++ List.replicate 50 0) 0 10 = List.replicate 10 0 := by simp [slice]
    have s2 : slice (List.replicate 20 0 ++ List.replicate 10 1 ++ List.replicate 50 0) 10 20 = List.replicate 10 0 := by simp [slice]
    have s3 : slice (List.replicate 20 0 ++ List.replicate 10 1 ++ List.replicate 50 0) 20 30 = List.replicate 10 1 := by simp [slice]
    have s4 : slice (List.replicate 20 0 ++ List.replicate 10 1 ++ List.replicate 50 0) 30 40 = List.replicate 10 0 := by simp [slice]
    have s5 : slice (List.replicate 20 0 ++ List.replicate 10 1 ++ List.replicate 50 0) 40 50 = List.replicate 10 0 := by simp [slice]
    have s6 : slice (List.replicate 20 0 ++ List.replicate 10 1 ++ List.replicate 50 0) 50 60 = List.replicate 10 0 := by simp [slice]
    have s7 : slice (List.replicate 20 0 ++ List.replicate 10 1 ++ List.replicate 50 0) 60 70 = List.replicate 10 0 := by simp [slice]
    have s8 : slice (List.replicate 20 0 ++ List.replicate 10 1 ++ List.replicate 50 0) 70 80 = List.replicate 10 0 := by simp [slice]
    unfold kelvinHelmholtz3
    rw [s1, s2, s3, s4, s5, s6, s7, s8, waves_ok _ _ _ le_rfl, waves_ok _ _ _ (by simp), n0, w0, w1]
    show Except.ok (layer _) = _
    congr 1
    unfold layer
    rw [if_pos]
    left; norm_num
  refine ⟨_, by simp, ?_, _, key, rfl, ?_⟩
  · intro v hv
    simp only [List.mem_append, List.mem_replicate] at hv
    rcases hv with (h | h) | h <;> rw [h.2] <;> norm_num
  · intro hb
    have h1 := (hb.2 (by norm_num)).1
    norm_num at h1

/-- The layer filled in at once (examples/kelvinhelmholtz): the states are physical, and those of the layer at the points the script uses, if no number is negative. -/
theorem C115_all_at_once_partial (a : List ℝ) (ax bx : ℝ) (nx i : Nat) (ay by_ : ℝ) (ny j : Nat) (h : 40 ≤ a.length) :
    ∃ g, kelvinHelmholtzGlobal a ax bx nx i ay by_ ny j = .ok g ∧ Physical g ∧ ((∀ v ∈ a, 0 ≤ v) → Bands 0.1 (linspace ay by_ ny j) g) := by
  obtain ⟨lower, upper, hg, hb⟩ := global_ok a ax bx nx i ay by_ ny j h
  refine ⟨_, hg, ?_, fun ha => ?_⟩
  · split <;> constructor <;> norm_num
  · have hl := abs_le.mp (hb ha).1
    have hu := abs_le.mp (hb ha).2
    norm_num at hl hu
    constructor
    · intro hy
      rw [if_neg]
      · norm_num
      · rintro ⟨h1, h2⟩
        norm_num at h1 h2 hy
        rcases hy with hy | hy <;> linarith
    · rintro ⟨h1, h2⟩
      rw [if_pos]
      · norm_num
      · norm_num at h1 h2 ⊢
        constructor <;> linarith

example : ∃ g, kelvinHelmholtzGlobal (List.replicate 40 (1 / 3)) 0 1 9 3 0 1 9 4 = .ok g ∧ Physical g ∧ g.rho = 2 := by
  obtain ⟨g, h, hp, hb⟩ := C115_all_at_once_partial (List.replicate 40 (1 / 3)) 0 1 9 3 0 1 9 4 (by simp)
  exact ⟨g, h, hp, ((hb (by intro v hv; rw [List.eq_of_mem_replicate hv]; norm_num)).2 (by norm_num [linspace])).1⟩

/-- The points of that script are at most half a cell away from the midpoints. Missing: that they are the midpoints, which is false. -/
theorem C115_points_partial (a b : ℝ) (hab : a ≤ b) (n i : Nat) (hn : 2 ≤ n) (hi : i < n) : |linspace a b n i - cellMid a b n i| ≤ (b - a) / n / 2 := by
  have hn2 : (2 : ℝ) ≤ n := by exact_mod_cast hn
  have hi2 : (i : ℝ) + 1 ≤ n := by exact_mod_cast hi
  have hi0 : (0 : ℝ) ≤ i := Nat.cast_nonneg i
  have h1 : (0 : ℝ) < n - 1 := by linarith
  have h0 : (0 : ℝ) < n := by linarith
  have e : linspace a b n i - cellMid a b n i = (b - a) / n / 2 * ((2 * i + 1 - n) / (n - 1)) := by
    unfold linspace cellMid; field_simp; ring
  have hq : (0 : ℝ) ≤ (b - a) / n / 2 := by have : 0 ≤ b - a := by linarith
                                            positivity
  rw [e, abs_mul, abs_of_nonneg hq]
  refine mul_le_of_le_one_right hq ?_
  rw [abs_div, abs_of_pos h1, div_le_one h1, abs_le]
  constructor <;> linarith

example : |linspace 0 1 4 3 - cellMid 0 1 4 3| ≤ (1 - 0) / (4 : Nat) / 2 := C115_points_partial 0 1 (by norm_num) 4 3 (by norm_num) (by norm_num)

/-- The first point is a corner of the grid and never a midpoint. -/
theorem C115_fails_points (a b : ℝ) (hab : a < b) (n : Nat) (hn : 1 ≤ n) : linspace a b n 0 = a ∧ linspace a b n 0 ≠ cellMid a b n 0 := by
  have h0 : (0 : ℝ) < n := by exact_mod_cast hn
  have hq : 0 < (b - a) / n := div_pos (by linarith) h0
  have e : linspace a b n 0 = a := by simp [linspace]
  refine ⟨e, ?_⟩
  rw [e]
  unfold cellMid
  push_cast
  intro h
  linarith

example : linspace 0 1 4 0 ≠ cellMid 0 1 4 0 := (C115_fails_points 0 1 (by norm_num) 4 (by norm_num)).2

/-- The data depend on the number of processes: the third of eight cells is the first cell of the second of four processes, and gets another density there. -/
theorem C115_fails_several_processes : ∃ a : List ℝ, a.length = 40 ∧ ∃ g g', kelvinHelmholtzGlobal a 0 1 1 0 0 1 8 2 = .ok g ∧
    kelvinHelmholtzGlobal a 0 1 1 0 (1 / 4) (1 / 2) 2 0 = .ok g' ∧ g.rho = 2 ∧ g'.rho = 1 := by
  have w0 : ∀ b x, waveSum (List.replicate 10 0) b x = 0 := waveSum_zero 10
  have s1 : slice (List.replicate 40 0) 0 10 = List.replicate 10 0 := by simp [slice]
  have s2 : slice (List.replicate 40 0) 10 20 = List.replicate 10 0 := by simp [slice]
  refine ⟨List.replicate 40 0, by simp, ⟨2, -0.5, 0, 0, 2.5⟩, ⟨1, 0.5, 0, 0, 2.5⟩, ?_, ?_, rfl, rfl⟩
  · unfold kelvinHelmholtzGlobal
    rw [ripple_ok _ _ _ _ (by simp only [slice_length, List.length_replicate]; omega), ripple_ok _ _ _ _ (by simp only [slice_length, List.length_replicate]; omega), s1, s2, w0, w0]
    show Except.ok _ = Except.ok _
    congr 1
    rw [if_pos (by norm_num [linspace])]
    norm_num
  · unfold kelvinHelmholtzGlobal
    rw [ripple_ok _ _ _ _ (by simp only [slice_length, List.length_replicate]; omega), ripple_ok _ _ _ _ (by simp only [slice_length, List.length_replicate]; omega), s1, s2, w0, w0]
    show Except.ok _ = Except.ok _
    congr 1
    rw [if_neg (by norm_num [linspace])]
    norm_num

/-- The tube fails for any numbers. -/
theorem C115_fails_tube (a : List ℝ) : tubeAmplitudes a = .error .thrown := rfl

/-- The gas cloud is physical for any forty numbers; if none is negative the shock is left of 0.15. -/
theorem C115_cloud (a : List ℝ) (x y : ℝ) (h : 40 ≤ a.length) : ∃ g, cloudShock a x y = .ok g ∧ Physical g ∧
    ((∀ v ∈ a, 0 ≤ v) → 0.15 < x → g.ux = 0 ∧ g.p = 1) := by
  unfold cloudShock
  rw [ripple_ok _ _ _ _ (by simp only [slice_length]; omega), ripple_ok _ _ _ _ (by simp only [slice_length]; omega)]
  simp only [bind, Except.bind]
  split
  · rename_i hx
    refine ⟨_, rfl, by constructor <;> norm_num, fun ha h1 => ?_⟩
    have hr := (abs_le.mp (ripple_le 0.1 (by norm_num) _ (slice a 20 40) _ x (slice_nonneg a 0 10 ha) (slice_nonneg a 0 10 ha) le_rfl)).2
    norm_num at hx hr h1
    linarith
  · split
    · exact ⟨_, rfl, by constructor <;> norm_num, fun _ _ => ⟨rfl, rfl⟩⟩
    · exact ⟨_, rfl, by constructor <;> norm_num, fun _ _ => ⟨rfl, rfl⟩⟩

example : ∃ g, cloudShock (List.replicate 40 1) 0.25 0.5 = .ok g ∧ Physical g ∧ g.p = 1 := by
  obtain ⟨g, h, hp, hb⟩ := C115_cloud (List.replicate 40 1) 0.25 0.5 (by simp)
  exact ⟨g, h, hp, (hb (by intro v hv; rw [List.eq_of_mem_replicate hv]; norm_num) (by norm_num)).2⟩

/-- The shock tube. -/
theorem C115_sod (X x : ℝ) : Physical (sod X x) := by
  unfold sod
  split <;> constructor <;> norm_num

/-- The scalar data are within the stated bounds. -/
theorem C115_scalar (X x : ℝ) : (0 ≤ riemann X x ∧ riemann X x ≤ 1) ∧ (0 ≤ shockLocation X x ∧ shockLocation X x ≤ 1) ∧ (0 ≤ mixedShock x ∧ mixedShock x ≤ 1) ∧
    (0.1 ≤ shockLocationBL x ∧ shockLocationBL x ≤ 1) ∧ (0.5 ≤ tecnoBurgers x ∧ tecnoBurgers x ≤ 1.5) ∧ (0 ≤ X → X ≤ 1 → 0 ≤ sine X x ∧ sine X x ≤ 2) := by
  have h1 := neg_one_le_sin (π * x)
  have h2 := sin_le_one (π * x)
  refine ⟨?_, ?_, ?_, ?_, ?_, ?_⟩
  · unfold riemann; split <;> norm_num
  · unfold shockLocation; split <;> norm_num
  · unfold mixedShock; split_ifs <;> norm_num
  · unfold shockLocationBL; split <;> norm_num
  · unfold tecnoBurgers; norm_num; constructor <;> linarith
  · intro h3 h4
    unfold sine
    norm_num
    constructor <;> nlinarith

example : (0 : ℝ) ≤ sine 0.3 1.5 ∧ sine 0.3 1.5 ≤ 2 := (C115_scalar 0.3 1.5).2.2.2.2.2 (by norm_num) (by norm_num)

/-- The data for the equation of Buckley and Leverett are between zero and one half for at most 262144 numbers between −1 and 1. Missing: other numbers, for which it is false. -/
theorem C115_brownian_partial (X : List ℝ) (x : ℝ) (hn : X.length ≤ 2 ^ 18) (hX : ∀ v ∈ X, |v| ≤ 1) : 0 ≤ brownianBL X x ∧ brownianBL X x ≤ 1 / 2 := by
  have h := abs_le.mp (abs_brownian_le X x hn hX)
  unfold brownianBL
  constructor <;> linarith

example : 0 ≤ brownianBL (List.replicate 10000 1) 0.7 := (C115_brownian_partial _ _ (by rw [List.length_replicate]; norm_num) (by intro v hv; rw [List.eq_of_mem_replicate hv]; norm_num)).1

/-- One number the normal distribution can give: the data are negative, which is no saturation. -/
theorem C115_fails_brownian : ∃ X : List ℝ, ∃ x, 0 ≤ x ∧ x ≤ 1 ∧ brownianBL X x < 0 := by
  refine ⟨[-8], 1, by norm_num, by norm_num, ?_⟩
  have hs : sin (1 / 2 * π) = 1 := by rw [show 1 / 2 * π = π / 2 by ring, sin_pi_div_two]
  have hp := pi_lt_d2
  have hp0 := pi_pos
  unfold brownianBL brownian
  norm_num [List.range_succ_eq_map]
  rw [hs]
  norm_num at hp
  have : -(8 * 1) / (1 / 2 * π) < -5 := by rw [div_lt_iff₀ (by positivity)]; linarith
  linarith

/-- The shock and the vortex are physical, except in the centre of the vortex. Missing: the centre, where it is false. -/
theorem C115_vortex_partial (shock edge x y : ℝ) (h : x ≠ 1 / 4 ∨ y ≠ 1 / 2) : ∃ g, shockVortex shock edge x y = some g ∧ Physical g := by
  have hpos : 0 < (x - 0.25) ^ 2 + (y - 0.5) ^ 2 := by
    rcases h with h | h
    · have : x - 0.25 ≠ 0 := fun e => h (by norm_num at e; linarith)
      positivity
    · have : y - 0.5 ≠ 0 := fun e => h (by norm_num at e; linarith)
      positivity
  have hs : sqrt ((x - 0.25) ^ 2 + (y - 0.5) ^ 2) / 0.05 * 0.05 ≠ 0 := by
    have := sqrt_pos.mpr hpos
    positivity
  unfold shockVortex
  simp only [quotient, if_neg hs, Option.bind_eq_bind, Option.bind_some]
  by_cases hx : x < edge
  · rw [if_pos hx]
    refine ⟨_, rfl, ?_, ?_⟩
    · dsimp only; split <;> norm_num
    · apply vortex_pressure
      · split <;> norm_num
      · split <;> norm_num
      · split <;> norm_num [gamma]
  · rw [if_neg hx]
    refine ⟨_, rfl, ?_⟩
    split <;> constructor <;> norm_num [gamma]

example : ∃ g, shockVortex 0.5 0.5 (1 / 4) (1 / 3) = some g ∧ Physical g := C115_vortex_partial _ _ _ _ (.inr (by norm_num))

/-- In the centre of the vortex the velocities are not numbers. -/
theorem C115_fails_vortex (shock edge : ℝ) (h : 1 / 4 < edge) : shockVortex shock edge (1 / 4) (1 / 2) = none := by
  unfold shockVortex
  rw [if_pos h]
  norm_num [quotient]

example : shockVortex 0.5 0.5 (1 / 4) (1 / 2) = none := C115_fails_vortex _ _ (by norm_num)

/-- With an even number of cells in the second direction no midpoint of the unit square is the centre, so all cells are physical. -/
theorem C115_vortex_cells (shock edge : ℝ) (nx ny i j : Nat) : ∃ g, shockVortex shock edge (cellMid 0 1 nx i) (cellMid 0 1 (2 * ny) j) = some g ∧ Physical g := by
  apply C115_vortex_partial
  right
  unfold cellMid
  intro h
  rcases Nat.eq_zero_or_pos ny with rfl | hn
  · norm_num at h
  · have hn0 : (0 : ℝ) < ny := by exact_mod_cast hn
    push_cast at h
    field_simp at h
    have h2 : 2 * j + 1 = 2 * ny := by
      have : (2 * j + 1 : ℝ) = 2 * ny := by linarith
      exact_mod_cast this
    omega

/-- The pressure and density of the vortex of Taylor and Green are positive. -/
theorem C115_taylor_green (x y z : ℝ) : Physical (taylorGreen x y z) := by
  have h1 := neg_one_le_cos (4 * π * z)
  have h2 := cos_le_one (4 * π * z)
  have h3 := neg_one_le_cos (4 * π * x)
  have h4 := cos_le_one (4 * π * x)
  constructor
  · unfold taylorGreen; norm_num
  · unfold taylorGreen
    norm_num
    nlinarith [mul_nonneg (by linarith : 0 ≤ 1 + cos (4 * π * z)) (by linarith : 0 ≤ 2 + (cos (4 * π * x) + cos (4 * π * z)))]

/-- The field of velocities is the same after exchanging the first two axes and changing sign, the pressure is not: `z` stands where `y` should. -/
theorem C115_fails_taylor_green : (∀ x y z, (taylorGreen y x z).ux = -(taylorGreen x y z).uy) ∧ ∃ x y z, (taylorGreen y x z).p ≠ (taylorGreen x y z).p := by
  refine ⟨fun x y z => by unfold taylorGreen; ring, 1 / 4, 0, 0, ?_⟩
  have hc : cos (4 * π * (1 / 4)) = -1 := by rw [← cos_pi]; congr 1; ring
  unfold taylorGreen
  dsimp only
  rw [hc]
  norm_num

/-- The circle of Richtmyer and Meshkov is physical for twenty numbers; it fails exactly if the numbers are not 0, 1, 19, 20 or 21. The file for single runs asks for 40. -/
theorem C115_richtmyer_meshkov_partial (a : List ℝ) (x y : ℝ) :
    (a.length ≤ 1 ∨ 19 ≤ a.length ∧ a.length ≤ 21 → ∃ g, richtmyerMeshkov a x y = .ok g ∧ Physical g) ∧
      (¬(a.length ≤ 1 ∨ 19 ≤ a.length ∧ a.length ≤ 21) → richtmyerMeshkov a x y = .error .thrown) := by
  constructor
  · intro h
    unfold richtmyerMeshkov
    dsimp only
    rw [mapM_ok _ fun i => (slice a 0 10).getD i 0 * cos (angle x y + 2 * π * (slice a 10 20).getD i 0)]
    · refine ⟨_, rfl, ?_, ?_⟩
      · dsimp only
        split
        · split <;> norm_num
        · norm_num
      · dsimp only; split <;> norm_num
    · intro i hi
      have hi := List.mem_range.mp hi
      rw [item_ok _ i (by simp only [slice_length]; omega), item_ok _ i (by simp only [slice_length]; omega)]; rfl
  · intro h
    unfold richtmyerMeshkov
    dsimp only
    rw [mapM_error]
    · rfl
    · intro i _
      rcases item_cases (slice a 0 10) i with ⟨u, hu⟩ | hu
      · rcases item_cases (slice a 10 20) i with ⟨v, hv⟩ | hv
        · rw [hu, hv]; exact .inl ⟨_, rfl⟩
        · rw [hu, hv]; exact .inr rfl
      · rw [hu]; exact .inr rfl
    · refine ⟨a.length / 2 - 1, List.mem_range.mpr (by omega), ?_⟩
      rcases item_cases (slice a 0 10) (a.length / 2 - 1) with ⟨u, hu⟩ | hu
      · rw [item_thrown (slice a 10 20) _ (by
          simp only [slice_length]
          by_contra hlt
          have : item (slice a 0 10) (a.length / 2 - 1) = .error .thrown := item_thrown _ _ (by simp only [slice_length]; omega)
          rw [hu] at this; cases this), hu]; rfl
      · rw [hu]; rfl

example : (∃ g, richtmyerMeshkov (List.replicate 20 (1 / 2)) 0.3 0.3 = .ok g ∧ Physical g) ∧ richtmyerMeshkov (List.replicate 40 (1 / 2)) 0.3 0.3 = .error .thrown :=
  ⟨(C115_richtmyer_meshkov_partial _ _ _).1 (by simp), (C115_richtmyer_meshkov_partial _ _ _).2 (by simp)⟩

open Classical in
/-- With twenty non-negative numbers the interface of that circle stays within 0.06 of the radius 1/4, and the pressure is high within 1/10 of the centre only. -/
theorem C115_circle (a : List ℝ) (x y : ℝ) (h : a.length = 20) (ha : ∀ v ∈ a, 0 ≤ v) : ∃ g, richtmyerMeshkov a x y = .ok g ∧
    (sqrt ((x - 1 / 2) ^ 2 + (y - 1 / 2) ^ 2) < 1 / 4 - 0.06 → g.rho = 2) ∧ (1 / 4 + 0.06 < sqrt ((x - 1 / 2) ^ 2 + (y - 1 / 2) ^ 2) → g.rho = 1) ∧
    g.p = if sqrt ((x - 1 / 2) ^ 2 + (y - 1 / 2) ^ 2) < 1 / 10 then 20 else 1 := by
  have hl : (slice a 0 10).length = 10 := by rw [slice_length]; omega
  have h0 : 0 ≤ (slice a 0 10).sum := List.sum_nonneg (slice_nonneg a 0 10 ha)
  unfold richtmyerMeshkov
  dsimp only
  rw [mapM_ok _ fun i => (slice a 0 10).getD i 0 * cos (angle x y + 2 * π * (slice a 10 20).getD i 0)]
  swap
  · intro i hi
    have hi := List.mem_range.mp hi
    rw [item_ok _ i (by simp only [slice_length]; omega), item_ok _ i (by simp only [slice_length]; omega)]; rfl
  have hs := abs_sum_le (fun i => (slice a 0 10).getD i 0 * cos (angle x y + 2 * π * (slice a 10 20).getD i 0)) (fun i => (slice a 0 10).getD i 0) (List.range (a.length / 2)) (by
    intro i hi
    have hi := List.mem_range.mp hi
    have h0 : 0 ≤ (slice a 0 10).getD i 0 := by
      have : (slice a 0 10).getD i 0 = (slice a 0 10)[i] := by simp [show i < (slice a 0 10).length by omega]
      rw [this]; exact slice_nonneg a 0 10 ha _ (List.getElem_mem _)
    rw [abs_mul, abs_of_nonneg h0]
    exact mul_le_of_le_one_right h0 (abs_cos_le_one _))
  rw [show a.length / 2 = (slice a 0 10).length by omega, map_getD] at hs
  rw [show a.length / 2 = (slice a 0 10).length by omega]
  simp only [bind, Except.bind]
  generalize ((List.range (slice a 0 10).length).map fun i => (slice a 0 10).getD i 0 * cos (angle x y + 2 * π * (slice a 10 20).getD i 0)).sum = s at hs ⊢
  have hn : 0 < (if |(slice a 0 10).sum| < 1e-8 then ((slice a 0 10).length : ℝ) else (slice a 0 10).sum) ∧
      (slice a 0 10).sum ≤ (if |(slice a 0 10).sum| < 1e-8 then ((slice a 0 10).length : ℝ) else (slice a 0 10).sum) := by
    rw [abs_of_nonneg h0, hl]
    split
    · rename_i hn; norm_num at hn ⊢; linarith
    · rename_i hn; norm_num at hn ⊢; linarith
  generalize (if |(slice a 0 10).sum| < 1e-8 then ((slice a 0 10).length : ℝ) else (slice a 0 10).sum) = n at hn ⊢
  have hq : |6e-2 * s / n| ≤ 0.06 := by
    rw [abs_div, abs_of_pos hn.1, abs_mul, div_le_iff₀ hn.1]
    norm_num
    linarith [hn.2]
  have hq := abs_le.mp hq
  refine ⟨_, rfl, ?_, ?_, ?_⟩
  · intro hr
    dsimp only
    rw [quotient, if_neg hn.1.ne']
    dsimp only
    rw [if_pos]
    norm_num at hq hr ⊢; linarith
  · intro hr
    dsimp only
    rw [quotient, if_neg hn.1.ne']
    dsimp only
    rw [if_neg]
    norm_num at hq hr ⊢; linarith
  · norm_num

example : ∃ g, richtmyerMeshkov (List.replicate 20 1) (1 / 2) (1 / 2) = .ok g ∧ g.rho = 2 := by
  obtain ⟨g, h, h2, _⟩ := C115_circle (List.replicate 20 1) (1 / 2) (1 / 2) (by simp) (by intro v hv; rw [List.eq_of_mem_replicate hv]; norm_num)
  exact ⟨g, h, h2 (by norm_num)⟩

end Verif.Props.Examples
