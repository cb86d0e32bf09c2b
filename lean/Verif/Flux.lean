import Mathlib.Analysis.SpecialFunctions.Log.Deriv
import Mathlib.Analysis.Calculus.Deriv.Mul
import Mathlib.Analysis.Calculus.Deriv.Inv
import Mathlib.Analysis.Calculus.Deriv.Pow
import Mathlib.Analysis.Calculus.MeanValue
import Mathlib.Analysis.Calculus.Deriv.Polynomial
import Mathlib.Analysis.Calculus.Deriv.Prod
import Mathlib.Analysis.Calculus.Deriv.Comp
import Mathlib.Tactic.Linarith
import Mathlib.Tactic.FieldSimp
import Mathlib.Tactic.Ring
import Mathlib.Tactic.Positivity
import Mathlib.Tactic.LinearCombination

/-!
Model of the scalar equations (alsfvm/include/alsfvm/equation/{burgers,linear,cubic,buckleyleverett}) and of the numerical fluxes
offered for them (alsfvm/include/alsfvm/numflux). `real` is modelled by the real numbers, `fmax`/`fmin`/`fabs` by max/min/absolute value.
None of the functions depends on the direction template parameter.
-/

namespace Verif
namespace Flux

/-- What the numerical fluxes use of a scalar equation: `computePointFlux`, `computeEigenValues`, `computeWaveSpeed`. -/
structure ScalarEq where
  flux : ℝ → ℝ
  eig : ℝ → ℝ
  speed : ℝ → ℝ

/-- alsfvm/include/alsfvm/equation/burgers/Burgers.hpp:159-164 (flux), 297-301 (eigenvalue), 203-209 (wave speed). -/
noncomputable def burgers : ScalarEq := ⟨fun u => u * u / 2, fun u => u, fun u => |u|⟩

/-- alsfvm/include/alsfvm/equation/linear/Linear.hpp:159-164, 297-301, 203-209. -/
noncomputable def linear : ScalarEq := ⟨fun u => u, fun _ => 1, fun _ => 1⟩

/-- alsfvm/include/alsfvm/equation/cubic/Cubic.hpp:159-164, 297-301, 203-209. -/
noncomputable def cubic : ScalarEq := ⟨fun u => u * u * u / 3, fun u => u * u, fun u => |u * u|⟩

/-- alsfvm/include/alsfvm/equation/buckleyleverett/BuckleyLeverett.hpp:160-165, 300-306, 204-212. -/
noncomputable def buckleyLeverett : ScalarEq :=
  ⟨fun u => u * u / (u * u + (1 - u) * (1 - u)),
   fun u => (2 * u * (u * u + (1 - u) * (1 - u)) - u * u * (2 * u - 2 * (1 - u))) /
      ((u * u + (1 - u) * (1 - u)) * (u * u + (1 - u) * (1 - u))),
   fun u => |2 * u * (u * u + (1 - u) * (1 - u)) - u * u * (2 * u - 2 * (1 - u))| /
      ((u * u + (1 - u) * (1 - u)) * (u * u + (1 - u) * (1 - u)))⟩

/-- `computeEntropyVariables` with `USE_LOG_ENTROPY` (Burgers.hpp:28, 78, 85, 247-256; the same text in the other three equations).
For `u` equal to one of the bounds 0, 2 the code produces an infinity; the model's value there is meaningless and never used. -/
noncomputable def entropyVariable (u : ℝ) : ℝ := 1 / (2 - u) - 1 / (u - 0)

/-- `computeEntropyPotential` (Burgers.hpp:264-275; the same text in Linear.hpp:264-275, Cubic.hpp:264-275, BuckleyLeverett.hpp:267-278). -/
noncomputable def entropyPotential (u : ℝ) : ℝ :=
  entropyVariable u * 0.5 * u * u - (-2 * u - 2 * Real.log (2 - u) - 0 * Real.log (u - 0))

/-- The wave speed all two-point scalar fluxes return, e.g. Central.hpp:54-55. -/
noncomputable def twoPointSpeed (e : ScalarEq) (l r : ℝ) : ℝ := max (e.speed l) (e.speed r)

/-- alsfvm/include/alsfvm/numflux/Central.hpp:40-56. -/
noncomputable def central (e : ScalarEq) (l r : ℝ) : ℝ × ℝ := (0.5 * (e.flux l + e.flux r), twoPointSpeed e l r)

/-- alsfvm/include/alsfvm/numflux/Rusanov.hpp:40-59. -/
noncomputable def rusanov (e : ScalarEq) (l r : ℝ) : ℝ × ℝ :=
  (0.5 * (e.flux l + e.flux r) - 0.5 * max |e.eig l| |e.eig r| * (r - l), twoPointSpeed e l r)

/-- alsfvm/include/alsfvm/numflux/burgers/Godunov.hpp:41-60 and numflux/buckleyleverett/Godunov.hpp:41-60 (same text). -/
noncomputable def godunov (e : ScalarEq) (l r : ℝ) : ℝ × ℝ := (max (e.flux (max l 0)) (e.flux (min r 0)), twoPointSpeed e l r)

/-- alsfvm/include/alsfvm/numflux/burgers/Roe.hpp:38-61. -/
noncomputable def burgersRoe (l r : ℝ) : ℝ × ℝ :=
  (if l ≥ -r then burgers.flux (max l 0) else burgers.flux (min r 0), twoPointSpeed burgers l r)

/-- alsfvm/include/alsfvm/numflux/cubic/Roe.hpp:38-71. -/
noncomputable def cubicRoe (l r : ℝ) : ℝ × ℝ :=
  let a := if l ≠ r then (cubic.flux l - cubic.flux r) / (l - r) else l * l
  (if a ≥ 0 then cubic.flux l else cubic.flux r, twoPointSpeed cubic l r)

/-- alsfvm/include/alsfvm/numflux/linear/Roe.hpp:37-54. -/
noncomputable def linearRoe (l r : ℝ) : ℝ × ℝ := (linear.flux (max l 0), twoPointSpeed linear l r)

/-- alsfvm/include/alsfvm/numflux/linear/Upwind.hpp:22-38. -/
noncomputable def upwind (l r : ℝ) : ℝ × ℝ := (linear.flux l, twoPointSpeed linear l r)

/-- alsfvm/include/alsfvm/numflux/ScalarEntropyConservativeFlux.hpp:39-59. -/
noncomputable def entropyConservative (e : ScalarEq) (l r : ℝ) : ℝ × ℝ :=
  (if l = r then e.flux l else (entropyPotential r - entropyPotential l) / (entropyVariable r - entropyVariable l), twoPointSpeed e l r)

section Combined
variable {S V : Type} [AddCommGroup V] [Module ℝ V]

/-- alsfvm/include/alsfvm/numflux/TecnoCombined4.hpp:41-65. `base` is the two-point flux with its wave speed. -/
noncomputable def combined4 (base : S → S → V × ℝ) (um1 u up1 up2 : S) : V × ℝ :=
  ((4 / 3 : ℝ) • (base u up1).1 - (1 / 6 : ℝ) • ((base um1 up1).1 + (base u up2).1),
   max (max (max 0 (base u up1).2) (base um1 up1).2) (base u up2).2)

/-- alsfvm/include/alsfvm/numflux/TecnoCombined6.hpp:41-69. -/
noncomputable def combined6 (base : S → S → V × ℝ) (um2 um1 u up1 up2 up3 : S) : V × ℝ :=
  ((3 / 2 : ℝ) • (base u up1).1 - (3 / 10 : ℝ) • ((base um1 up1).1 + (base u up2).1)
     + (1 / 30 : ℝ) • ((base um2 up1).1 + (base um1 up2).1 + (base u up3).1),
   max (max (max (max (max (max 0 (base u up1).2) (base um1 up1).2) (base u up2).2) (base um2 up1).2) (base um1 up2).2) (base u up3).2)

end Combined

/-- Offsets from the face's left cell a two-point flux is evaluated with (numflux_util.hpp:54-60). -/
def stencil2 : List Int := [0, 1]
/-- TecnoCombined4.hpp:69-71. -/
def stencil4 : List Int := [-1, 0, 1, 2]
/-- The six-argument constructor of `vec6` (alsutils/include/alsutils/vec6.hpp:36-39) initialises the last component with 0. -/
def vec6 (x y z v w _u : Int) : List Int := [x, y, z, v, w, 0]
/-- TecnoCombined6.hpp:73-75, built with that constructor. -/
def stencil6 : List Int := vec6 (-2) (-1) 0 1 2 3

/-- A scalar flux as the solver calls it: the offsets of the cells it is given and a function of the values there. -/
structure Selected where
  stencil : List Int
  fn : List ℝ → ℝ × ℝ

/-- two-point flux as `Selected` (numflux_util.hpp:63-92) -/
def two (f : ℝ → ℝ → ℝ × ℝ) : Selected := ⟨stencil2, fun v => match v with | [l, r] => f l r | _ => (0, 0)⟩
/-- four-point flux as `Selected` (numflux_util.hpp:97-116) -/
def four (f : ℝ → ℝ → ℝ → ℝ → ℝ × ℝ) : Selected := ⟨stencil4, fun v => match v with | [a, b, c, d] => f a b c d | _ => (0, 0)⟩
/-- six-point flux as `Selected` (numflux_util.hpp:121-142) -/
def six (f : ℝ → ℝ → ℝ → ℝ → ℝ → ℝ → ℝ × ℝ) : Selected :=
  ⟨stencil6, fun v => match v with | [a, b, c, d, e, g] => f a b c d e g | _ => (0, 0)⟩

/-- The scalar equations a user can select (alsfvm/include/alsfvm/equation/equation_list.hpp). -/
inductive ScalarName where
  | burgers | buckleyleverett | cubic | linear
  deriving DecidableEq

/-- The equation of that name. -/
noncomputable def equationOf : ScalarName → ScalarEq
  | .burgers => burgers | .buckleyleverett => buckleyLeverett | .cubic => cubic | .linear => linear

/-- The fluxes offered for a scalar equation (alsfvm/include/alsfvm/numflux/numerical_flux_list.hpp, `NumericalFluxList`), by the names
given in alsfvm/src/numflux/*.cpp and */*.cpp, looked up as in NumericalFluxFactory.cpp:60-99. -/
noncomputable def select : ScalarName → String → Option Selected
  | .burgers, "central" => some (two (central burgers))
  | .burgers, "rusanov" => some (two (rusanov burgers))
  | .burgers, "godunov" => some (two (godunov burgers))
  | .burgers, "roe" => some (two burgersRoe)
  | .burgers, "tecno1" => some (two (entropyConservative burgers))
  | .burgers, "tecno4" => some (four (combined4 (entropyConservative burgers)))
  | .burgers, "godunov4" => some (four (combined4 (godunov burgers)))
  | .burgers, "tecno6" => some (six (combined6 (entropyConservative burgers)))
  | .burgers, "godunov6" => some (six (combined6 (godunov burgers)))
  | .buckleyleverett, "central" => some (two (central buckleyLeverett))
  | .buckleyleverett, "godunov" => some (two (godunov buckleyLeverett))
  | .buckleyleverett, "rusanov" => some (two (rusanov buckleyLeverett))
  | .cubic, "central" => some (two (central cubic))
  | .cubic, "roe" => some (two cubicRoe)
  | .cubic, "rusanov" => some (two (rusanov cubic))
  | .linear, "central" => some (two (central linear))
  | .linear, "rusanov" => some (two (rusanov linear))
  | .linear, "roe" => some (two linearRoe)
  | .linear, "upwind" => some (two upwind)
  | _, _ => none

/-! ### Lemmas -/

theorem denominator_pos (u : ℝ) : 0 < u * u + (1 - u) * (1 - u) := by nlinarith [sq_nonneg (2 * u - 1)]

theorem central_consistent (e : ScalarEq) (u : ℝ) : (central e u u).1 = e.flux u := by simp only [central]; ring

theorem rusanov_consistent (e : ScalarEq) (u : ℝ) : (rusanov e u u).1 = e.flux u := by simp only [rusanov]; ring

theorem godunov_consistent (e : ScalarEq) (h0 : e.flux 0 = 0) (hpos : ∀ u, 0 ≤ e.flux u) (u : ℝ) : (godunov e u u).1 = e.flux u := by
  simp only [godunov]
  rcases le_total 0 u with h | h
  · rw [max_eq_left h, min_eq_right h, h0, max_eq_left (hpos u)]
  · rw [max_eq_right h, min_eq_left h, h0, max_eq_right (hpos u)]

theorem burgers_nonneg (u : ℝ) : 0 ≤ burgers.flux u := by simp only [burgers]; nlinarith [mul_self_nonneg u]

theorem buckley_nonneg (u : ℝ) : 0 ≤ buckleyLeverett.flux u := by
  have := denominator_pos u
  simp only [buckleyLeverett]; have := mul_self_nonneg u; positivity

theorem buckley_le {a b : ℝ} (ha : 0 ≤ a) (hab : a ≤ b) (hb : b ≤ 1) : buckleyLeverett.flux a ≤ buckleyLeverett.flux b := by
  simp only [buckleyLeverett]
  rw [div_le_div_iff₀ (denominator_pos a) (denominator_pos b)]
  have h1 : a * (1 - b) ≤ b * (1 - a) := by nlinarith
  have h2 : 0 ≤ a * (1 - b) := mul_nonneg ha (by linarith)
  nlinarith [mul_self_le_mul_self h2 h1]

theorem combined4_consistent {S V : Type} [AddCommGroup V] [Module ℝ V] (base : S → S → V × ℝ) (u : S) :
    (combined4 base u u u u).1 = (base u u).1 := by
  simp only [combined4]; module

theorem combined6_consistent {S V : Type} [AddCommGroup V] [Module ℝ V] (base : S → S → V × ℝ) (u : S) :
    (combined6 base u u u u u u).1 = (base u u).1 := by
  simp only [combined6]; module

theorem entropyConservative_consistent (e : ScalarEq) (u : ℝ) : (entropyConservative e u u).1 = e.flux u := by simp [entropyConservative]

theorem entropyVariable_lt {a b : ℝ} (ha : 0 < a) (hab : a < b) (hb : b < 2) : entropyVariable a < entropyVariable b := by
  simp only [entropyVariable, sub_zero]
  have h1 : 1 / (2 - a) < 1 / (2 - b) := one_div_lt_one_div_of_lt (by linarith) (by linarith)
  have h2 : 1 / b < 1 / a := one_div_lt_one_div_of_lt ha hab
  linarith

theorem hasDerivAt_entropyVariable {u : ℝ} (h0 : 0 < u) (h2 : u < 2) : HasDerivAt entropyVariable (1 / (2 - u) ^ 2 + 1 / u ^ 2) u := by
  have a : HasDerivAt (fun x : ℝ => (2 - x)⁻¹) (-(-1) / (2 - u) ^ 2) u :=
    ((hasDerivAt_id u).const_sub 2).inv (by simpa using (sub_pos.2 h2).ne')
  have b : HasDerivAt (fun x : ℝ => x⁻¹) (-1 / u ^ 2) u := (hasDerivAt_id u).inv h0.ne'
  have e : entropyVariable = (fun x : ℝ => (2 - x)⁻¹) - fun x => x⁻¹ := by funext x; simp [entropyVariable]
  rw [e]
  exact (a.sub b).congr_deriv (by ring)

theorem hasDerivAt_entropyPotential {u : ℝ} (h0 : 0 < u) (h2 : u < 2) :
    HasDerivAt entropyPotential ((1 / (2 - u) ^ 2 + 1 / u ^ 2) * (u * u / 2)) u := by
  have hv := hasDerivAt_entropyVariable h0 h2
  have hid := hasDerivAt_id u
  have hlog : HasDerivAt (fun x : ℝ => Real.log (2 - x)) (-1 / (2 - u)) u :=
    (hid.const_sub 2).log (by simpa using (sub_pos.2 h2).ne')
  have h := ((hv.mul (hid.mul hid)).const_mul (0.5 : ℝ)).add ((hid.const_mul 2).add (hlog.const_mul 2))
  have e : entropyPotential = (fun y : ℝ => (0.5 : ℝ) * (entropyVariable * (id * id) : ℝ → ℝ) y) + ((fun y => 2 * id y) + fun y => 2 * Real.log (2 - y)) := by
    funext x; simp [entropyPotential]; ring
  rw [e]
  refine h.congr_deriv ?_
  simp only [id, entropyVariable, sub_zero, Pi.mul_apply]
  have : 2 - u ≠ 0 := by linarith
  field_simp
  ring

theorem rusanov_burgers_eq (a b : ℝ) : (rusanov burgers a b).1 = (a * a + b * b) / 4 - max |a| |b| * (b - a) / 2 := by
  simp only [rusanov, burgers]; ring

theorem rusanov_burgers_reflect (a b : ℝ) : (rusanov burgers (-b) (-a)).1 = (rusanov burgers a b).1 := by
  rw [rusanov_burgers_eq, rusanov_burgers_eq, abs_neg, abs_neg, max_comm]; ring

theorem rusanov_burgers_mono_left {a a' : ℝ} (h : a ≤ a') (b : ℝ) : (rusanov burgers a b).1 ≤ (rusanov burgers a' b).1 := by
  rw [rusanov_burgers_eq, rusanov_burgers_eq]
  rcases max_cases |a| |b| with ⟨h1, h2⟩ | ⟨h1, h2⟩ <;> rcases max_cases |a'| |b| with ⟨h3, h4⟩ | ⟨h3, h4⟩ <;>
    rcases abs_cases a with ⟨h5, h6⟩ | ⟨h5, h6⟩ <;> rcases abs_cases a' with ⟨h7, h8⟩ | ⟨h7, h8⟩ <;>
    rcases abs_cases b with ⟨h9, h10⟩ | ⟨h9, h10⟩ <;> simp only [h1, h3, h5, h7, h9] at * <;> nlinarith

theorem diagonal_derivative (G : ℝ → ℝ → ℝ) (hsym : ∀ x y, G x y = G y x) (x₀ : ℝ) (g : Polynomial ℝ)
    (hg : ∀ y, G x₀ y = g.eval (y - x₀)) (hdiff : DifferentiableAt ℝ (fun p : ℝ × ℝ => G p.1 p.2) (x₀, x₀)) :
    deriv (fun x => G x x) x₀ = 2 * g.derivative.eval 0 := by
  set L := fderiv ℝ (fun p : ℝ × ℝ => G p.1 p.2) (x₀, x₀) with hL
  have hf : HasFDerivAt (fun p : ℝ × ℝ => G p.1 p.2) L (x₀, x₀) := hdiff.hasFDerivAt
  have hdiag : HasDerivAt (fun x => G x x) (L (1, 1)) x₀ :=
    HasFDerivAt.comp_hasDerivAt (f := fun x : ℝ => (x, x)) x₀ hf ((hasDerivAt_id x₀).prodMk (hasDerivAt_id x₀))
  have hsnd : HasDerivAt (fun y => G x₀ y) (L (0, 1)) x₀ :=
    HasFDerivAt.comp_hasDerivAt (f := fun x : ℝ => (x₀, x)) x₀ hf ((hasDerivAt_const x₀ x₀).prodMk (hasDerivAt_id x₀))
  have hfst : HasDerivAt (fun y => G y x₀) (L (1, 0)) x₀ :=
    HasFDerivAt.comp_hasDerivAt (f := fun x : ℝ => (x, x₀)) x₀ hf ((hasDerivAt_id x₀).prodMk (hasDerivAt_const x₀ x₀))
  have e1 : L (1, 0) = L (0, 1) := by
    refine hfst.unique ?_
    have : (fun y => G y x₀) = fun y => G x₀ y := funext fun y => hsym y x₀
    rw [this]; exact hsnd
  have hp : HasDerivAt (fun y => G x₀ y) (g.derivative.eval 0) x₀ := by
    have e : (fun y => G x₀ y) = fun y => g.eval (y - x₀) := funext hg
    rw [e]
    have h1 := HasDerivAt.comp (h := fun y : ℝ => y - x₀) x₀ (g.hasDerivAt (x₀ - x₀)) ((hasDerivAt_id x₀).sub_const x₀)
    simpa [Function.comp_def] using h1
  have e2 : L (0, 1) = g.derivative.eval 0 := hsnd.unique hp
  have e3 : L (1, 1) = L (1, 0) + L (0, 1) := by rw [← map_add]; simp
  rw [hdiag.deriv, e3, e1, e2]; ring

end Flux
end Verif
