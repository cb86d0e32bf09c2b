import Verif.Flux
import Mathlib.Algebra.Polynomial.Derivative
import Mathlib.Algebra.Polynomial.Eval.SMul
import Mathlib.Analysis.Calculus.FDeriv.Prod
import Mathlib.Analysis.Calculus.Deriv.Comp
import Mathlib.Analysis.Calculus.Deriv.Prod
import Mathlib.Tactic.ComputeDegree

/-!
Property theorems about the numerical fluxes of scalar equations: C13 (consistency, scalar part), C15 (Godunov), C16 (Rusanov),
C17 (entropy conservation), C18 (fourth and sixth order combinations).
-/

namespace Verif.Props
open Verif Flux Set

/-! ### C13 -/

/-- C13, scalar equations: every selectable flux except the linear Roe flux returns the physical flux `f(u)` when all the cells it looks
at hold `u`. Missing for the full statement: linear "roe" (next theorem) and the Euler fluxes (Props/EulerFlux.lean). -/
theorem C13_scalar_consistency_partial (eq : ScalarName) (name : String) (F : Selected) (hF : select eq name = some F)
    (hne : ¬ (eq = .linear ∧ name = "roe")) (u : ℝ) : (F.fn (F.stencil.map fun _ => u)).1 = (equationOf eq).flux u := by
  unfold select at hF
  split at hF <;> simp only [Option.some.injEq, reduceCtorEq] at hF <;> subst hF <;>
    simp only [two, four, six, stencil2, stencil4, stencil6, vec6, List.map_cons, List.map_nil, equationOf]
  · exact central_consistent _ u
  · exact rusanov_consistent _ u
  · exact godunov_consistent burgers (by simp [burgers]) burgers_nonneg u
  · simp only [burgersRoe]
    split_ifs with h
    · rw [max_eq_left (by linarith)]
    · rw [min_eq_left (by linarith)]
  · exact entropyConservative_consistent _ u
  · rw [combined4_consistent]; exact entropyConservative_consistent _ u
  · rw [combined4_consistent]; exact godunov_consistent burgers (by simp [burgers]) burgers_nonneg u
  · rw [combined6_consistent]; exact entropyConservative_consistent _ u
  · rw [combined6_consistent]; exact godunov_consistent burgers (by simp [burgers]) burgers_nonneg u
  · exact central_consistent _ u
  · exact godunov_consistent _ (by simp [buckleyLeverett]) buckley_nonneg u
  · exact rusanov_consistent _ u
  · exact central_consistent _ u
  · simp [cubicRoe]
  · exact rusanov_consistent _ u
  · exact central_consistent _ u
  · exact rusanov_consistent _ u
  · exact absurd ⟨rfl, rfl⟩ hne
  · simp [upwind]

example : ∃ F, select .burgers "tecno6" = some F ∧ (F.fn (F.stencil.map fun _ => 3)).1 = (equationOf .burgers).flux 3 :=
  ⟨_, rfl, C13_scalar_consistency_partial .burgers "tecno6" _ rfl (by decide) 3⟩

/-- C13 is violated by the linear Roe flux: for the state -1 it returns 0 instead of `f(-1) = -1`. -/
theorem C13_linear_roe_inconsistent : ∃ F, select .linear "roe" = some F ∧
    ∃ u, (F.fn (F.stencil.map fun _ => u)).1 ≠ (equationOf .linear).flux u := by
  refine ⟨_, rfl, -1, ?_⟩
  simp [two, stencil2, linearRoe, linear, equationOf]

/-! ### C15 -/

/-- `F` is the flux of the Riemann problem: the minimum of `f` over the states in between if `l ≤ r`, the maximum otherwise. -/
def IsGodunov (f : ℝ → ℝ) (l r F : ℝ) : Prop := (l ≤ r → IsLeast (f '' Icc l r) F) ∧ (r ≤ l → IsGreatest (f '' Icc r l) F)

/-- C15 for Burgers, all states. -/
theorem C15_burgers (l r : ℝ) : IsGodunov (fun u => u * u / 2) l r (godunov burgers l r).1 := by
  simp only [godunov, burgers]
  have key : max (max l 0 * max l 0 / 2) (min r 0 * min r 0 / 2) =
      if l ≤ r then (if 0 ≤ l then l * l / 2 else if r ≤ 0 then r * r / 2 else 0) else max (max l 0 * max l 0 / 2) (min r 0 * min r 0 / 2) := by
    split_ifs with h1 h2 h3
    · rw [max_eq_left h2, min_eq_right (by linarith)]; apply max_eq_left; nlinarith
    · rw [max_eq_right (by linarith : l ≤ 0), min_eq_left h3]; apply max_eq_right; nlinarith
    · rw [max_eq_right (by linarith : l ≤ 0), min_eq_right (by linarith)]; simp
    · rfl
  constructor
  · intro h
    rw [key, if_pos h]
    split_ifs with h2 h3
    · exact ⟨⟨l, ⟨le_refl _, h⟩, rfl⟩, by rintro _ ⟨x, hx, rfl⟩; simp only [mem_Icc] at hx; simp only; nlinarith⟩
    · exact ⟨⟨r, ⟨h, le_refl _⟩, rfl⟩, by rintro _ ⟨x, hx, rfl⟩; simp only [mem_Icc] at hx; simp only; nlinarith⟩
    · exact ⟨⟨0, ⟨by linarith, by linarith⟩, by simp⟩, by rintro _ ⟨x, _, rfl⟩; simp only; nlinarith [mul_self_nonneg x]⟩
  · intro h
    constructor
    · rcases le_total (max l 0 * max l 0 / 2) (min r 0 * min r 0 / 2) with hm | hm
      · rw [max_eq_right hm]
        rcases le_total r 0 with h0 | h0
        · exact ⟨r, ⟨le_refl _, h⟩, by simp [min_eq_left h0]⟩
        · rw [min_eq_right h0, max_eq_left (by linarith : 0 ≤ l)] at hm
          exact ⟨l, ⟨h, le_refl _⟩, by rw [min_eq_right h0]; simp only; nlinarith [mul_self_nonneg l]⟩
      · rw [max_eq_left hm]
        rcases le_total 0 l with h0 | h0
        · exact ⟨l, ⟨h, le_refl _⟩, by simp [max_eq_left h0]⟩
        · rw [max_eq_right h0, min_eq_left (by linarith : r ≤ 0)] at hm
          exact ⟨r, ⟨le_refl _, h⟩, by rw [max_eq_right h0]; simp only; nlinarith [mul_self_nonneg r]⟩
    · rintro _ ⟨x, ⟨h1, h2⟩, rfl⟩
      simp only
      rcases le_total 0 x with h0 | h0
      · apply le_max_of_le_left
        have : x ≤ max l 0 := le_trans h2 (le_max_left _ _)
        nlinarith
      · apply le_max_of_le_right
        have : min r 0 ≤ x := le_trans (min_le_left _ _) h1
        nlinarith

/-- C15 for Buckley-Leverett, saturations in [0,1]. -/
theorem C15_buckley_leverett (l r : ℝ) (hl : l ∈ Icc (0 : ℝ) 1) (hr : r ∈ Icc (0 : ℝ) 1) :
    IsGodunov (fun u => u ^ 2 / (u ^ 2 + (1 - u) ^ 2)) l r (godunov buckleyLeverett l r).1 := by
  have hf : (fun u : ℝ => u ^ 2 / (u ^ 2 + (1 - u) ^ 2)) = buckleyLeverett.flux := by funext u; simp only [buckleyLeverett]; ring_nf
  have e : (godunov buckleyLeverett l r).1 = buckleyLeverett.flux l := by
    simp only [godunov]
    rw [max_eq_left hl.1, min_eq_right hr.1]
    apply max_eq_left
    have : buckleyLeverett.flux 0 = 0 := by simp [buckleyLeverett]
    rw [this]; exact buckley_nonneg l
  rw [hf, e]
  constructor
  · intro h
    exact ⟨⟨l, ⟨le_refl _, h⟩, rfl⟩, by rintro _ ⟨x, hx, rfl⟩; exact buckley_le hl.1 hx.1 (hx.2.trans hr.2)⟩
  · intro h
    exact ⟨⟨l, ⟨h, le_refl _⟩, rfl⟩, by rintro _ ⟨x, hx, rfl⟩; exact buckley_le (hr.1.trans hx.1) hx.2 hl.2⟩

example : IsGodunov (fun u => u ^ 2 / (u ^ 2 + (1 - u) ^ 2)) (1 / 4) (3 / 4) (godunov buckleyLeverett (1 / 4) (3 / 4)).1 :=
  C15_buckley_leverett _ _ (by constructor <;> norm_num) (by constructor <;> norm_num)

/-- C15, consequence: both Godunov fluxes are non-decreasing in the left state and non-increasing in the right state. -/
theorem C15_monotone :
    (∀ l l' r : ℝ, l ≤ l' → (godunov burgers l r).1 ≤ (godunov burgers l' r).1) ∧
    (∀ l r r' : ℝ, r ≤ r' → (godunov burgers l r').1 ≤ (godunov burgers l r).1) ∧
    (∀ l l' r : ℝ, 0 ≤ l → l' ≤ 1 → r ∈ Icc (0 : ℝ) 1 → l ≤ l' → (godunov buckleyLeverett l r).1 ≤ (godunov buckleyLeverett l' r).1) ∧
    (∀ l r r' : ℝ, l ∈ Icc (0 : ℝ) 1 → 0 ≤ r → r' ≤ 1 → r ≤ r' → (godunov buckleyLeverett l r').1 ≤ (godunov buckleyLeverett l r).1) := by
  refine ⟨?_, ?_, ?_, ?_⟩
  · intro l l' r h
    simp only [godunov, burgers]
    apply max_le_max_right
    have h1 : max l 0 ≤ max l' 0 := max_le_max_right 0 h
    have h2 : (0 : ℝ) ≤ max l 0 := le_max_right _ _
    nlinarith
  · intro l r r' h
    simp only [godunov, burgers]
    apply max_le_max_left
    have h1 : min r 0 ≤ min r' 0 := min_le_min_right 0 h
    have h2 : min r' 0 ≤ (0 : ℝ) := min_le_right _ _
    nlinarith
  · intro l l' r h0 h1 hr h
    simp only [godunov]
    rw [max_eq_left h0, max_eq_left (h0.trans h)]
    exact max_le_max_right _ (buckley_le h0 h h1)
  · intro l r r' hl h0 h1 h
    simp only [godunov]
    rw [min_eq_right h0, min_eq_right (h0.trans h)]

/-! ### C16 -/

/-- C16. The Rusanov flux for Burgers is non-decreasing in the left state and non-increasing in the right state - for all states, although
the dissipation coefficient depends on them - and the returned wave speed bounds the characteristic speeds `f'(l)`, `f'(r)`. -/
theorem C16_rusanov_monotone :
    (∀ l l' r : ℝ, l ≤ l' → (rusanov burgers l r).1 ≤ (rusanov burgers l' r).1) ∧
    (∀ l r r' : ℝ, r ≤ r' → (rusanov burgers l r').1 ≤ (rusanov burgers l r).1) ∧
    (∀ l r c : ℝ, c = l ∨ c = r → |deriv (fun u : ℝ => u * u / 2) c| ≤ (rusanov burgers l r).2) := by
  refine ⟨fun l l' r h => rusanov_burgers_mono_left h r, fun l r r' h => ?_, fun l r c hc => ?_⟩
  · rw [← rusanov_burgers_reflect l r', ← rusanov_burgers_reflect l r]
    exact rusanov_burgers_mono_left (neg_le_neg h) (-l)
  · have hd : deriv (fun u : ℝ => u * u / 2) c = c := by
      have := (((hasDerivAt_id c).mul (hasDerivAt_id c)).div_const 2)
      have h2 : HasDerivAt (fun u : ℝ => u * u / 2) c c := by
        refine HasDerivAt.congr_deriv (f := fun u : ℝ => u * u / 2) this ?_
        simp
      exact h2.deriv
    rw [hd]
    rcases hc with rfl | rfl
    · exact le_max_left _ _
    · exact le_max_right _ _

/-- C16, the wave speed used by all scalar equations is the absolute value of the derivative of their flux. -/
theorem C16_wave_speed_is_characteristic_speed (eq : ScalarName) (u : ℝ) :
    HasDerivAt (equationOf eq).flux ((equationOf eq).eig u) u ∧ (equationOf eq).speed u = |(equationOf eq).eig u| := by
  have hid := hasDerivAt_id u
  cases eq
  · exact ⟨HasDerivAt.congr_deriv (f := fun u : ℝ => u * u / 2) ((hid.mul hid).div_const 2) (by simp [equationOf, burgers]), by simp [equationOf, burgers]⟩
  · constructor
    · have h1 := hid.mul hid
      have h2 := (hid.const_sub 1).mul (hid.const_sub 1)
      have h3 := h1.div (h1.add h2) (denominator_pos u).ne'
      refine HasDerivAt.congr_deriv (f := fun u : ℝ => u * u / (u * u + (1 - u) * (1 - u))) h3 ?_
      have := (denominator_pos u).ne'
      simp [equationOf, buckleyLeverett]
      field_simp
      ring
    · simp only [equationOf, buckleyLeverett, abs_div]
      congr 1
      exact (abs_of_pos (mul_pos (denominator_pos u) (denominator_pos u))).symm
  · exact ⟨HasDerivAt.congr_deriv (f := fun u : ℝ => u * u * u / 3) (((hid.mul hid).mul hid).div_const 3) (by simp [equationOf, cubic]; ring),
      by simp [equationOf, cubic]⟩
  · exact ⟨hid, by simp [equationOf, linear]⟩

/-! ### C17 -/

/-- C17. For Burgers - the only equation for which the flux can be selected - and states strictly between the entropy bounds 0 and 2:
`(v(r) - v(l)) F(l,r) = ψ(r) - ψ(l)`, and `ψ` is the potential of the Burgers flux: `ψ' = v' f`. -/
theorem C17_entropy_conservative (l r : ℝ) (hl : l ∈ Ioo (0 : ℝ) 2) (hr : r ∈ Ioo (0 : ℝ) 2) :
    (entropyVariable r - entropyVariable l) * (entropyConservative burgers l r).1 = entropyPotential r - entropyPotential l ∧
    ∃ v', HasDerivAt entropyVariable v' l ∧ 0 < v' ∧ HasDerivAt entropyPotential (v' * (l * l / 2)) l := by
  refine ⟨?_, _, hasDerivAt_entropyVariable hl.1 hl.2, ?_, hasDerivAt_entropyPotential hl.1 hl.2⟩
  · simp only [entropyConservative]
    split_ifs with h
    · subst h; simp
    · have hne : entropyVariable r - entropyVariable l ≠ 0 := by
        rcases lt_or_gt_of_ne h with h | h
        · exact sub_ne_zero.2 (entropyVariable_lt hl.1 h hr.2).ne'
        · exact sub_ne_zero.2 (entropyVariable_lt hr.1 h hl.2).ne
      field_simp
  · have := hl.1
    have : 0 < 2 - l := by linarith [hl.2]
    positivity

example : (entropyVariable (3 / 2) - entropyVariable (1 / 2)) * (entropyConservative burgers (1 / 2) (3 / 2)).1 =
    entropyPotential (3 / 2) - entropyPotential (1 / 2) :=
  (C17_entropy_conservative _ _ (by constructor <;> norm_num) (by constructor <;> norm_num)).1

/-- C17: only Burgers offers the flux, alone and as base of the fourth and sixth order combinations. -/
theorem C17_only_burgers (eq : ScalarName) (h : (select eq "tecno1").isSome ∨ (select eq "tecno4").isSome ∨ (select eq "tecno6").isSome) :
    eq = .burgers := by
  cases eq <;> simp [select] at h ⊢

example : (select .burgers "tecno1").isSome := rfl

/-- C17, remark: the same potential is also defined in the linear, cubic and Buckley-Leverett equations, but it is not the potential of
their fluxes (`ψ' = v' f` fails, here at u = 1/2). -/
theorem C17_potential_is_not_the_one_of_the_other_equations (eq : ScalarName) (hne : eq ≠ .burgers) :
    ∃ u ∈ Ioo (0 : ℝ) 2, ∃ v', HasDerivAt entropyVariable v' u ∧ ¬ HasDerivAt entropyPotential (v' * (equationOf eq).flux u) u := by
  refine ⟨1 / 2, by constructor <;> norm_num, _, hasDerivAt_entropyVariable (by norm_num) (by norm_num), fun h => ?_⟩
  have := h.unique (hasDerivAt_entropyPotential (u := 1 / 2) (by norm_num) (by norm_num))
  cases eq
  · exact hne rfl
  · norm_num [equationOf, buckleyLeverett] at this
  · norm_num [equationOf, cubic] at this
  · norm_num [equationOf, linear] at this

example : ∃ u ∈ Ioo (0 : ℝ) 2, ∃ v', HasDerivAt entropyVariable v' u ∧ ¬ HasDerivAt entropyPotential (v' * (equationOf .cubic).flux u) u :=
  C17_potential_is_not_the_one_of_the_other_equations .cubic (by decide)

/-! ### C18 -/

section C18
variable {S V : Type} [AddCommGroup V] [Module ℝ V]

/-- C18, fourth order: for every symmetric two-point flux the combination is symmetric under reflection of the stencil and equals the
two-point flux of `u` with itself when all states are `u`. -/
theorem C18_fourth_order_consistent_symmetric (base : S → S → V × ℝ) (hsym : ∀ a b, (base a b).1 = (base b a).1) :
    (∀ u, (combined4 base u u u u).1 = (base u u).1) ∧
    (∀ a b c d, (combined4 base a b c d).1 = (combined4 base d c b a).1) := by
  refine ⟨combined4_consistent base, fun a b c d => ?_⟩
  simp only [combined4]
  rw [hsym c b, hsym d b, hsym c a]
  module

/-- C18, sixth order, the flux function itself. What is missing: the solver does not call it with the intended stencil, see
`C18_sixth_order_as_called_is_not_second_order`. -/
theorem C18_sixth_order_consistent_symmetric_partial (base : S → S → V × ℝ) (hsym : ∀ a b, (base a b).1 = (base b a).1) :
    (∀ u, (combined6 base u u u u u u).1 = (base u u).1) ∧
    (∀ a b c d e f, (combined6 base a b c d e f).1 = (combined6 base f e d c b a).1) := by
  refine ⟨combined6_consistent base, fun a b c d e f => ?_⟩
  simp only [combined6]
  rw [hsym d c, hsym e c, hsym d b, hsym f c, hsym e b, hsym d a]
  module

/-- C18, the wave speed reported with the fourth order flux: the largest of the wave speeds of the pairs that enter the combination (at
least zero). -/
theorem C18_fourth_order_wave_speed (base : S → S → V × ℝ) (um1 u up1 up2 : S) :
    IsGreatest {0, (base u up1).2, (base um1 up1).2, (base u up2).2} (combined4 base um1 u up1 up2).2 := by
  simp only [combined4, IsGreatest, upperBounds, Set.mem_insert_iff, Set.mem_singleton_iff, Set.mem_ofPred_eq]
  grind

/-- C18, the wave speed reported with the sixth order flux. -/
theorem C18_sixth_order_wave_speed (base : S → S → V × ℝ) (um2 um1 u up1 up2 up3 : S) :
    IsGreatest {0, (base u up1).2, (base um1 up1).2, (base u up2).2, (base um2 up1).2, (base um1 up2).2, (base u up3).2}
      (combined6 base um2 um1 u up1 up2 up3).2 := by
  simp only [combined6, IsGreatest, upperBounds, Set.mem_insert_iff, Set.mem_singleton_iff, Set.mem_ofPred_eq]
  grind

example : (combined4 (fun a b : ℝ => ((a * b : ℝ), |a - b|)) 0 1 2 5).2 = 4 := by
  have h := C18_fourth_order_wave_speed (fun a b : ℝ => ((a * b : ℝ), |a - b|)) 0 1 2 5
  refine h.unique ⟨by norm_num, ?_⟩
  rintro x (h | h | h | h) <;> subst h <;> norm_num

example : (∀ u : ℝ, (combined4 (fun a b : ℝ => ((a * b : ℝ), (1 : ℝ))) u u u u).1 = u * u) :=
  (C18_fourth_order_consistent_symmetric (fun a b : ℝ => ((a * b : ℝ), (1 : ℝ))) fun a b => mul_comm a b).1

/-- C18, order condition. Let `G x y` be the two-point flux of the states at positions `x`, `y` of some profile, symmetric, and along
`y ↦ G x₀ y` a polynomial of degree at most 4. Then the difference of the combined fluxes of the two faces of the cell at `x₀` equals,
for every cell length `h`, exactly `h` times the derivative of the point flux `x ↦ G x x` at `x₀`. -/
theorem C18_fourth_order (G : ℝ → ℝ → ℝ) (hsym : ∀ x y, G x y = G y x) (x₀ h : ℝ) (g : Polynomial ℝ) (hdeg : g.natDegree ≤ 4)
    (hg : ∀ y, G x₀ y = g.eval (y - x₀)) (hdiff : DifferentiableAt ℝ (fun p : ℝ × ℝ => G p.1 p.2) (x₀, x₀)) :
    let F := fun x : ℝ => (combined4 (fun a b => (G a b, (0 : ℝ))) (x - h) x (x + h) (x + 2 * h)).1
    F x₀ - F (x₀ - h) = h * deriv (fun x => G x x) x₀ := by
  intro F
  have hd : deriv (fun x => G x x) x₀ = 2 * g.derivative.eval 0 := diagonal_derivative G hsym x₀ g hg hdiff
  rw [hd]
  simp only [F, combined4, smul_eq_mul]
  rw [hsym (x₀ - h) (x₀ + h)]
  have e1 : x₀ - h + h = x₀ := by ring
  have e2 : x₀ - h + 2 * h = x₀ + h := by ring
  have e3 : x₀ - h - h = x₀ - 2 * h := by ring
  rw [e1, e2, e3, hsym (x₀ - h) x₀, hsym (x₀ - 2 * h) x₀, hsym (x₀ - h) (x₀ + h)]
  rw [hg, hg, hg, hg, Polynomial.eval_eq_sum_range' (n := 5) (by omega), Polynomial.eval_eq_sum_range' (n := 5) (by omega),
    Polynomial.eval_eq_sum_range' (n := 5) (by omega), Polynomial.eval_eq_sum_range' (n := 5) (by omega)]
  have e4 : g.derivative.eval 0 = g.coeff 1 := by rw [← Polynomial.coeff_zero_eq_eval_zero, Polynomial.coeff_derivative]; simp
  rw [e4]
  simp only [Finset.sum_range_succ, Finset.sum_range_zero]
  ring

/-- C18, order condition for the sixth order flux function (polynomials of degree at most 6). Missing: as for
`C18_sixth_order_consistent_symmetric_partial`. -/
theorem C18_sixth_order_partial (G : ℝ → ℝ → ℝ) (hsym : ∀ x y, G x y = G y x) (x₀ h : ℝ) (g : Polynomial ℝ) (hdeg : g.natDegree ≤ 6)
    (hg : ∀ y, G x₀ y = g.eval (y - x₀)) (hdiff : DifferentiableAt ℝ (fun p : ℝ × ℝ => G p.1 p.2) (x₀, x₀)) :
    let F := fun x : ℝ => (combined6 (fun a b => (G a b, (0 : ℝ))) (x - 2 * h) (x - h) x (x + h) (x + 2 * h) (x + 3 * h)).1
    F x₀ - F (x₀ - h) = h * deriv (fun x => G x x) x₀ := by
  intro F
  have hd : deriv (fun x => G x x) x₀ = 2 * g.derivative.eval 0 := diagonal_derivative G hsym x₀ g hg hdiff
  rw [hd]
  simp only [F, combined6, smul_eq_mul]
  have e1 : x₀ - h + h = x₀ := by ring
  have e2 : x₀ - h + 2 * h = x₀ + h := by ring
  have e3 : x₀ - h - h = x₀ - 2 * h := by ring
  have e5 : x₀ - h + 3 * h = x₀ + 2 * h := by ring
  have e6 : x₀ - h - 2 * h = x₀ - 3 * h := by ring
  rw [e1, e2, e3, e5, e6, hsym (x₀ - h) x₀, hsym (x₀ - 2 * h) x₀, hsym (x₀ - 3 * h) x₀]
  rw [hg, hg, hg, hg, hg, hg, Polynomial.eval_eq_sum_range' (n := 7) (by omega), Polynomial.eval_eq_sum_range' (n := 7) (by omega),
    Polynomial.eval_eq_sum_range' (n := 7) (by omega), Polynomial.eval_eq_sum_range' (n := 7) (by omega),
    Polynomial.eval_eq_sum_range' (n := 7) (by omega), Polynomial.eval_eq_sum_range' (n := 7) (by omega)]
  have e4 : g.derivative.eval 0 = g.coeff 1 := by rw [← Polynomial.coeff_zero_eq_eval_zero, Polynomial.coeff_derivative]; simp
  rw [e4]
  simp only [Finset.sum_range_succ, Finset.sum_range_zero]
  ring

example : let F := fun x : ℝ => (combined4 (fun a b => ((a ^ 2 + a * b + b ^ 2) / 6, (0 : ℝ))) (x - 1) x (x + 1) (x + 2 * 1)).1
    F 3 - F (3 - 1) = 1 * deriv (fun x : ℝ => (x ^ 2 + x * x + x ^ 2) / 6) 3 :=
  C18_fourth_order (fun x y => (x ^ 2 + x * y + y ^ 2) / 6) (fun x y => by ring) 3 1
    (Polynomial.C (9 / 2) + Polynomial.C (3 / 2) * Polynomial.X + Polynomial.C (1 / 6) * Polynomial.X ^ 2)
    (by compute_degree!) (fun y => by simp; ring) (by fun_prop)

/-- C18, entropy conservation. If the two-point flux satisfies `⟨v(b) - v(a), F(a,b)⟩ = ψ(b) - ψ(a)`, there is a numerical entropy flux `Q`
such that for every stencil the combined flux balances the entropy of the middle cell exactly:
`⟨v(u₀), F(u₋₁,u₀,u₁,u₂) - F(u₋₂,u₋₁,u₀,u₁)⟩ = Q(u₋₁,u₀,u₁,u₂) - Q(u₋₂,u₋₁,u₀,u₁)`. -/
theorem C18_fourth_order_entropy_conservative (base : S → S → V × ℝ)
    (dot : V →ₗ[ℝ] V →ₗ[ℝ] ℝ) (v : S → V) (ψ : S → ℝ) (hec : ∀ a b, dot (v b - v a) (base a b).1 = ψ b - ψ a) :
    ∃ Q : S → S → S → S → ℝ, (∀ u, Q u u u u = dot (v u) (base u u).1 - ψ u) ∧ ∀ um2 um1 u0 u1 u2,
      dot (v u0) ((combined4 base um1 u0 u1 u2).1 - (combined4 base um2 um1 u0 u1).1) = Q um1 u0 u1 u2 - Q um2 um1 u0 u1 := by
  let q : S → S → ℝ := fun a b => (dot (v a + v b) (base a b).1 - (ψ a + ψ b)) / 2
  have hq : ∀ a b, dot (v a) (base a b).1 = q a b + ψ a := by
    intro a b
    have := hec a b
    simp only [map_sub, LinearMap.sub_apply] at this
    simp only [q, map_add, LinearMap.add_apply]
    linarith
  have hq' : ∀ a b, dot (v b) (base a b).1 = q a b + ψ b := by
    intro a b
    have := hec a b
    simp only [map_sub, LinearMap.sub_apply] at this
    simp only [q, map_add, LinearMap.add_apply]
    linarith
  refine ⟨fun a b c d => 4 / 3 * q b c - 1 / 6 * (q a c + q b d), ?_, ?_⟩
  · intro u; simp only [q, map_add, LinearMap.add_apply]; ring
  · intro a b c d e
    simp only [combined4, map_sub, map_add, map_smul, smul_eq_mul]
    rw [hq, hq, hq', hq']
    ring

/-- C18, entropy conservation of the sixth order flux function. Missing: as for `C18_sixth_order_consistent_symmetric_partial`. -/
theorem C18_sixth_order_entropy_conservative_partial (base : S → S → V × ℝ)
    (dot : V →ₗ[ℝ] V →ₗ[ℝ] ℝ) (v : S → V) (ψ : S → ℝ) (hec : ∀ a b, dot (v b - v a) (base a b).1 = ψ b - ψ a) :
    ∃ Q : S → S → S → S → S → S → ℝ, (∀ u, Q u u u u u u = dot (v u) (base u u).1 - ψ u) ∧ ∀ um3 um2 um1 u0 u1 u2 u3,
      dot (v u0) ((combined6 base um2 um1 u0 u1 u2 u3).1 - (combined6 base um3 um2 um1 u0 u1 u2).1) =
        Q um2 um1 u0 u1 u2 u3 - Q um3 um2 um1 u0 u1 u2 := by
  let q : S → S → ℝ := fun a b => (dot (v a + v b) (base a b).1 - (ψ a + ψ b)) / 2
  have hq : ∀ a b, dot (v a) (base a b).1 = q a b + ψ a := by
    intro a b
    have := hec a b
    simp only [map_sub, LinearMap.sub_apply] at this
    simp only [q, map_add, LinearMap.add_apply]
    linarith
  have hq' : ∀ a b, dot (v b) (base a b).1 = q a b + ψ b := by
    intro a b
    have := hec a b
    simp only [map_sub, LinearMap.sub_apply] at this
    simp only [q, map_add, LinearMap.add_apply]
    linarith
  refine ⟨fun a b c d e f => 3 / 2 * q c d - 3 / 10 * (q b d + q c e) + 1 / 30 * (q a d + q b e + q c f), ?_, ?_⟩
  · intro u; simp only [q, map_add, LinearMap.add_apply]; ring
  · intro a b c d e f g
    simp only [combined6, map_sub, map_add, map_smul, smul_eq_mul]
    rw [hq, hq, hq, hq', hq', hq']
    ring

example : ∃ Q : ℝ → ℝ → ℝ → ℝ → ℝ, ∀ u, Q u u u u = LinearMap.mul ℝ ℝ (id u) ((u ^ 2 + u * u + u ^ 2) / 6) - u ^ 3 / 6 :=
  (C18_fourth_order_entropy_conservative (fun a b : ℝ => ((a ^ 2 + a * b + b ^ 2) / 6, (0 : ℝ))) 
    (LinearMap.mul ℝ ℝ) id (fun u => u ^ 3 / 6) (fun a b => by simp; ring)).imp fun _ h => h.1

example : (∀ u : ℝ, (combined6 (fun a b : ℝ => ((a * b : ℝ), (1 : ℝ))) u u u u u u).1 = u * u) :=
  (C18_sixth_order_consistent_symmetric_partial (fun a b : ℝ => ((a * b : ℝ), (1 : ℝ))) fun a b => mul_comm a b).1

example : let F := fun x : ℝ => (combined6 (fun a b => ((a ^ 2 + a * b + b ^ 2) / 6, (0 : ℝ))) (x - 2 * 1) (x - 1) x (x + 1) (x + 2 * 1) (x + 3 * 1)).1
    F 3 - F (3 - 1) = 1 * deriv (fun x : ℝ => (x ^ 2 + x * x + x ^ 2) / 6) 3 :=
  C18_sixth_order_partial (fun x y => (x ^ 2 + x * y + y ^ 2) / 6) (fun x y => by ring) 3 1
    (Polynomial.C (9 / 2) + Polynomial.C (3 / 2) * Polynomial.X + Polynomial.C (1 / 6) * Polynomial.X ^ 2)
    (by compute_degree!) (fun y => by simp; ring) (by fun_prop)

example : ∃ Q : ℝ → ℝ → ℝ → ℝ → ℝ → ℝ → ℝ, ∀ u, Q u u u u u u = LinearMap.mul ℝ ℝ (id u) ((u ^ 2 + u * u + u ^ 2) / 6) - u ^ 3 / 6 :=
  (C18_sixth_order_entropy_conservative_partial (fun a b : ℝ => ((a ^ 2 + a * b + b ^ 2) / 6, (0 : ℝ)))
    (LinearMap.mul ℝ ℝ) id (fun u => u ^ 3 / 6) (fun a b => by simp; ring)).imp fun _ h => h.1

/-- C18 is violated by the sixth order flux as the solver calls it: its stencil is built with a constructor that drops the last offset, so
with the arithmetic mean as two-point flux and the profile `x²` (cell positions = integers) the flux difference of the cell at 0 is not
`d/dx x² = 0`. The intended stencil gives 0. -/
theorem C18_sixth_order_as_called_is_not_second_order :
    let base : ℝ → ℝ → ℝ × ℝ := fun a b => ((a + b) / 2, 1)
    let u : Int → ℝ := fun x => (x : ℝ) ^ 2
    let face : Int → ℝ := fun i => ((six (combined6 base)).fn ((six (combined6 base)).stencil.map fun o => u (i + o))).1
    let intended : Int → ℝ := fun i => ((six (combined6 base)).fn ([-2, -1, 0, 1, 2, 3].map fun o => u (i + o))).1
    face 0 - face (-1) = -1 / 10 ∧ intended 0 - intended (-1) = 0 := by
  simp only [six, stencil6, vec6, combined6, List.map_cons, List.map_nil, smul_eq_mul]
  norm_num

end C18

end Verif.Props
