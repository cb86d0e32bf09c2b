import Verif.Basic
import Mathlib.Analysis.SpecialFunctions.Complex.Arg
import Mathlib.Analysis.SpecialFunctions.Trigonometric.Basic

/-!
Model of the initial data of the examples (examples/*/*.py) as functions of the point and the random parameters. How the program calls the scripts is the subject of C62 and C102. Numbers are
real numbers. A variable a script does not set is zero (alsfvm/src/init/PythonInitialData.cpp:118-122). The scripts are read as those of Python 3 (CMakeLists.txt:75).
-/

namespace Verif.Examples
open Verif Real

/-- The primitive variables of Euler's equations. In one and two dimensions the other velocities are not used. -/
structure Gas where
  rho : ℝ
  ux : ℝ
  uy : ℝ
  uz : ℝ
  p : ℝ

/-- `a[i:j]`. -/
def slice (a : List ℝ) (i j : Nat) : List ℝ := (a.take j).drop i

/-- `a[i]`: an exception beyond the end. -/
def item (a : List ℝ) (i : Nat) : Res ℝ := match a[i]? with
  | some x => .ok x
  | none => .error .thrown

/-- `x / y` of numbers of `numpy`; `none` stands for not a number or infinity (a warning and no exception). -/
noncomputable def quotient (x y : ℝ) : Option ℝ := if y = 0 then none else some (x / y)

/-- `normalization1 = sum(a1)`, replaced if it is small (examples/kelvinhelmholtz_time/kelvinhelmholtz_time.py:9-14; the same lines in the other examples). -/
noncomputable def normalization (a : List ℝ) : ℝ := if |a.sum| < 1e-10 then 1 else a.sum

/-- `sum([a1[i]*cos(2*pi*(i+1)*(x+b1[i])) for i in range(len(a1))])` (examples/kelvinhelmholtz_time/kelvinhelmholtz_time.py:16-17). -/
noncomputable def waves (a b : List ℝ) (x : ℝ) : Res ℝ := do
  let terms ← (List.range a.length).mapM fun i => do
    let ai ← item a i
    let bi ← item b i
    pure (ai * cos (2 * π * (i + 1) * (x + bi)))
  pure terms.sum

/-- `perturbation*sum(...)/normalization1`. The divisor is not zero. -/
noncomputable def ripple (eps : ℝ) (a b : List ℝ) (x : ℝ) : Res ℝ := do
  let s ← waves a b x
  pure (eps * s / normalization a)

/-- The state inside and outside of the layer (examples/kelvinhelmholtz_time/kelvinhelmholtz_time.py:19-28). -/
noncomputable def layer (outside : Prop) [Decidable outside] : Gas := if outside then ⟨1, 0.5, 0, 0, 2.5⟩ else ⟨2, -0.5, 0, 0, 2.5⟩

open Classical in
/-- examples/kelvinhelmholtz_time/kelvinhelmholtz_time.py:1-28 and the same text in kelvinhelmholtz_plot_python, kelvinhelmholtz_gaussian, kelvinhelmholtz_with_timeintegration and
kelvinhelmholtz_with_perturbation; `eps` is `perturbation`: 0.05, 0.05, 0.01, 0.01 and 0.1. -/
noncomputable def kelvinHelmholtz (eps : ℝ) (a : List ℝ) (x y : ℝ) : Res Gas := do
  let upper ← ripple eps (slice a 0 10) (slice a 20 40) x
  let lower ← ripple eps (slice a 10 20) (slice a 30 40) x
  pure (layer (y < 0.25 + lower ∨ y > 0.75 + upper))

/-- `linspace(a, b, n)[i]`. -/
noncomputable def linspace (a b : ℝ) (n i : Nat) : ℝ := a + i * ((b - a) / (n - 1))

open Classical in
/-- A cell of examples/kelvinhelmholtz/kelvinhelmholtz.py:1-28, which fills the arrays of the process: `ax`, `bx`, `nx` are corners and size of its part of the grid. -/
noncomputable def kelvinHelmholtzGlobal (a : List ℝ) (ax bx : ℝ) (nx i : Nat) (ay by_ : ℝ) (ny j : Nat) : Res Gas := do
  let upper ← ripple 0.1 (slice a 0 10) (slice a 20 40) (linspace ax bx nx i)
  let lower ← ripple 0.1 (slice a 10 20) (slice a 30 40) (linspace ax bx nx i)
  let y := linspace ay by_ ny j
  let middle : ℝ := if y < 0.75 + upper ∧ y > 0.25 + lower then 1 else 0
  pure ⟨2.0 * middle + 1.0 * (1 - middle), -0.5 * middle + 0.5 * (1 - middle), 0, 0, 2.5⟩

open Classical in
/-- examples/kelvinhelmholtz_oneparameter/kelvinhelmholtz_oneparameter.py:3-17. -/
noncomputable def kelvinHelmholtzOne (a x y : ℝ) : Gas :=
  layer (y < 0.25 + 0.01 * cos (π * a * x + π * a) ∨ y > 0.75 + 0.01 * cos (π * a * x + π * a))

open Classical in
/-- examples/kelvinhelmholtz_3d/kelvinhelmholtz_3d.py:1-36. The sums of `a2` and `a3`, `a4` are divided by the normalizations of `a1` and `a2`. -/
noncomputable def kelvinHelmholtz3 (a : List ℝ) (x y z : ℝ) : Res Gas := do
  let u1 ← waves (slice a 0 10) (slice a 40 50) x
  let u2 ← waves (slice a 10 20) (slice a 50 60) z
  let upper := 0.05 * u1 / normalization (slice a 0 10) + 0.05 * u2 / normalization (slice a 0 10)
  let l1 ← waves (slice a 20 30) (slice a 60 70) x
  let l2 ← waves (slice a 30 40) (slice a 70 80) z
  let lower := 0.05 * l1 / normalization (slice a 10 20) + 0.05 * l2 / normalization (slice a 10 20)
  pure (layer (y < 0.25 + lower ∨ y > 0.75 + upper))

/-- A Python number: slices take integers only. -/
inductive Num where
  | int (n : Nat)
  | float (x : ℝ)

/-- `m / n`. -/
noncomputable def divide (m n : Nat) : Num := .float (m / n)

/-- `a[:n]`. -/
def upTo (a : List ℝ) : Num → Res (List ℝ)
  | .int n => .ok (a.take n)
  | .float _ => .error .thrown

/-- The first lines of examples/kelvinhelmholtz_3d_tube/kelvinhelmholtz_3d_tube.py:2-3; the lines after them are left out. -/
noncomputable def tubeAmplitudes (a : List ℝ) : Res (List ℝ) := upTo a (divide a.length 6)

open Classical in
/-- examples/cloudshock/cloudshock.py:1-32. `phi` is not used and left out. -/
noncomputable def cloudShock (a : List ℝ) (x y : ℝ) : Res Gas := do
  let px ← ripple 0.1 (slice a 0 10) (slice a 20 40) x
  let pr ← ripple 0.1 (slice a 10 20) (slice a 30 40) x
  if x < 0.05 + px then pure ⟨3.86859, 11.2536, 0, 0, 167.345⟩
  else if (x - 0.25) ^ 2 + (y - 0.5) ^ 2 ≤ 0.13 ^ 2 + pr then pure ⟨10, 0, 0, 0, 1⟩
  else pure ⟨1, 0, 0, 0, 1⟩

/-- `GAMMA` of examples/shockvortex/shockvortex.py:2. -/
noncomputable def gamma : ℝ := 1.66666666666667

open Classical in
/-- examples/shockvortex/shockvortex.py:2-34 with `shock` for `0.5 + epsilon * X` and `edge` for `0.5`, and examples/shockvortex_uniform/shockvortex_uniform.py:2-34 with `0.5+0.1*X` for both. `none`:
the velocities are not numbers. -/
noncomputable def shockVortex (shock edge x y : ℝ) : Option Gas := do
  let g : Gas := if x < shock then ⟨1, sqrt gamma, 0, 0, 1⟩ else ⟨1 / 1.1, 1.1 * sqrt gamma, 0, 0, 1 - 0.1 * gamma⟩
  if x < edge then
    let tau := sqrt ((x - 0.25) ^ 2 + (y - 0.5) ^ 2) / 0.05
    let sinTheta ← quotient (y - 0.5) (tau * 0.05)
    let cosTheta ← quotient (x - 0.25) (tau * 0.05)
    pure ⟨g.rho, g.ux + 0.3 * tau * exp (0.204 * (1 - tau ^ 2)) * sinTheta, g.uy + -0.3 * tau * exp (0.204 * (1 - tau ^ 2)) * cosTheta, 0,
      g.p + -(gamma - 1) * 0.3 ^ 2 * exp (2 * 0.204 * (1 - tau ^ 2)) / (4 * 0.204 * gamma) * g.rho⟩
  else pure g

open Classical in
/-- The angle of a point (examples/richtmeyermeshkov/richtmeyermeshkov.py:2-7). -/
noncomputable def angle (x y : ℝ) : ℝ :=
  let phi := if |x - 0.5| > 0 then Complex.arg ⟨x - 0.5, y - 0.5⟩ else 0
  if phi < 0 then phi + 2 * π else phi

open Classical in
/-- examples/richtmeyermeshkov/richtmeyermeshkov.py:1-33. Comparisons with a perturbation that is not a number are false. -/
noncomputable def richtmyerMeshkov (a : List ℝ) (x y : ℝ) : Res Gas := do
  let n := a.length / 2
  let a1 := slice a 0 10
  let b1 := slice a 10 20
  let norm : ℝ := if |a1.sum| < 1e-8 then n else a1.sum
  let terms ← (List.range n).mapM fun i => do
    let ai ← item a1 i
    let bi ← item b1 i
    pure (ai * cos (angle x y + 2 * π * bi))
  let r := sqrt ((x - 0.5) ^ 2 + (y - 0.5) ^ 2)
  let rho : ℝ := match quotient (6e-2 * terms.sum) norm with
    | some perturbation => if r < 0.25 + perturbation then 2 else 1
    | none => 1
  pure ⟨rho, 0, 0, 0, if r < 0.1 then 20 else 1⟩

/-- examples/taylorgreen/taylorgreen.py:4-14. -/
noncomputable def taylorGreen (x y z : ℝ) : Gas :=
  ⟨1, sin (2 * π * x) * cos (2 * π * y) * cos (2 * π * z), -cos (2 * π * x) * sin (2 * π * y) * cos (2 * π * z), 0,
    100 + 1.0 / 16.0 * (2 + cos (4 * π * z)) * (cos (4 * π * x) + cos (4 * π * z))⟩

open Classical in
/-- examples/sodshocktube/sodshocktube.py:2-9. -/
noncomputable def sod (X x : ℝ) : Gas := if x < 0.0 + X then ⟨1, 0, 0, 0, 1⟩ else ⟨0.125, 0, 0, 0, 0.1⟩

open Classical in
/-- examples/riemann/riemann.py:1; a truth value is one or zero as a number. -/
noncomputable def riemann (X x : ℝ) : ℝ := if x < 0.5 + 0.25 * (2 * X - 1) then 1 else 0

open Classical in
/-- examples/shock_location/shock_location.py:1-4. -/
noncomputable def shockLocation (X x : ℝ) : ℝ := if x < 0.5 + (X - 0.5) / 5 then 1 else 0

open Classical in
/-- examples/mixed_shock/mixed_shock.py:1-6. -/
noncomputable def mixedShock (x : ℝ) : ℝ := if x < 0.5 then 0 else if x < 3 / 4 then 1 else 0

open Classical in
/-- examples/shock_location_bl/shock_location_bl.py:1-3. -/
noncomputable def shockLocationBL (x : ℝ) : ℝ := 0.1 + 0.9 * (if x ≥ 0 then 1 else 0)

/-- examples/sine/sine.py:1. -/
noncomputable def sine (X x : ℝ) : ℝ := (0.5 + (1 - X) / 2) * sin (π * x) + 1

/-- examples/tecnoburgers/tecnoburgers.py:1. -/
noncomputable def tecnoBurgers (x : ℝ) : ℝ := 0.5 * sin (π * x) + 1

/-- The sum of examples/brownian_cubic/brownian_cubic.py:1-2, in which `k` counts from one; examples/brownian/brownian.py:1-3 is the same sum. -/
noncomputable def brownian (X : List ℝ) (x : ℝ) : ℝ :=
  ((List.range X.length).map fun k => X.getD k 0 * sin ((k + 1 - 0.5) * π * x) / ((k + 1 - 0.5) * π)).sum

/-- examples/brownian_bl/brownian_bl.py:1-4. -/
noncomputable def brownianBL (X : List ℝ) (x : ℝ) : ℝ := (brownian X x + 5) / 20

end Verif.Examples
