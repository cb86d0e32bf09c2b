import Verif.UnitsRun
import Verif.Writers
import Verif.Props.Units
import Mathlib.Analysis.Complex.ExponentialBounds

/-!
Property C118: runs do not depend on the units of length, time and velocity.
-/

namespace Verif
namespace Props
open Integrator Simulator NetFlux Symmetry

/-! ### Specification -/

/-- The same point of a run, with a unit of time in which all times are multiplied by `τ`. -/
noncomputable def InTime (τ : ℝ) (i : TimeInfo ℝ) : TimeInfo ℝ := ⟨τ * i.time, i.steps⟩

/-- Two results of runs agree up to the unit of time: both failed in the same way, both need more steps, or both are finished, after the same number of steps and at times that are those of the first
run multiplied by `τ`, with the same state of the writers, with final states that correspond, and after the same calls of the same writers, at times multiplied by `τ`, with states that correspond. -/
def AgreeInTime {V σ : Type} (Corr : (I3 → V) → (I3 → V) → Prop) (τ : ℝ) : Res (Option (Sim (I3 → V) ℝ σ)) → Res (Option (Sim (I3 → V) ℝ σ)) → Prop
  | .ok (some s), .ok (some s') => s'.info = InTime τ s.info ∧ s'.ws = s.ws ∧ (∃ v v', s.vols[0]? = some v ∧ s'.vols[0]? = some v' ∧ Corr v v') ∧
      List.Forall₂ (fun call call' => call'.writer = call.writer ∧ call'.info = InTime τ call.info ∧ Corr call.state call'.state) s.log s'.log
  | .ok none, .ok none => True
  | .error e, .error e' => e = e'
  | _, _ => False

/-- Writers of two runs that do the same in the two units of time, whatever the states of the cells are. -/
def SameWriters {V σ : Type} (τ : ℝ) (writers writers' : List ((I3 → V) → TimeInfo ℝ → σ → Res σ)) : Prop :=
  List.Forall₂ (fun f f' => ∀ v v' i st, f' v' (InTime τ i) st = f v i st) writers writers'

/-- Time step adjusters of two runs that do the same in the two units of time; a time step is a number or infinite. -/
def SameAdjusters {σ : Type} (τ : ℝ) (adj adj' : σ → List (Adjuster ℝ)) : Prop :=
  ∀ st, List.Forall₂ (fun f f' => ∀ dt i, f' (dt.map (τ * ·)) (InTime τ i) = (f dt i).map (τ * ·)) (adj st) (adj' st)

/-- The values in the cells of the domain are those of the first state, each transformed by `T`. -/
def Transformed {V : Type} (n G : I3) (T : V → V) (v v' : I3 → V) : Prop := ∀ p, IsInterior n G p → v' p = T (v p)

theorem agreeInTime_of {V σ : Type} {Corr : (I3 → V) → (I3 → V) → Prop} {τ : ℝ} {a a' : Res (Option (Sim (I3 → V) ℝ σ))} (h : UnitsRun.Runs Corr τ a a') : AgreeInTime Corr τ a a' := by
  match a, a' with
  | .ok (some _), .ok (some _) => exact h
  | .ok (some _), .ok none => exact h
  | .ok none, .ok (some _) => exact h
  | .ok none, .ok none => trivial
  | .error _, .error _ => exact h
  | .ok (some _), .error _ => exact h
  | .ok none, .error _ => exact h
  | .error _, .ok _ => exact h

section
variable {V σ : Type} [AddCommGroup V] [Module ℝ V]

/-! ### The unit of length -/

/-- C118 for the unit of length. For every equation, numerical flux and reconstruction: if the lengths of the cells and the end time are multiplied by the same positive number, and the times of the
writers too, the run is the original run, at times multiplied by this number: same numbers of steps, same values, same calls of the writers, same exceptions. -/
theorem C118_length (κ : ℝ) (hκ : 0 < κ) (b : BC) (dims g : Nat) (n G active : I3) (hL : Layout n G active dims g) (hN : ∀ d < dims, 3 * G.get d ≤ n.get d) (hpos : 0 < dims)
    (r : Recon V) (fl : FluxFn V ℝ) (hf : Fits r fl g)
    (work work' : NetFlux.State V ℝ) (hw : Sized n work) (hw' : Sized n work') (k : Kind) (waveAdj : List (ℝ → ℝ)) (len len' : Nat → ℝ) (hlen : ∀ d, len' d = κ * len d) (cfl endTime : ℝ)
    (obeys : (I3 → V) → Bool) (hobeys : ∀ v v', Transformed n G id v v' → obeys v' = obeys v)
    (writers writers' : List ((I3 → V) → TimeInfo ℝ → σ → Res σ)) (hwr : SameWriters κ writers writers') (adj adj' : σ → List (Adjuster ℝ)) (hadj : SameAdjusters κ adj adj')
    (c c' : Config (I3 → V) ℝ σ)
    (hc : c = ⟨k, ⟨Step.cpuSystem dims r fl n G active work, waveAdj, len, cfl⟩, Step.cpuBoundary b n g dims, obeys, writers, adj, endTime⟩)
    (hc' : c' = ⟨k, ⟨Step.cpuSystem dims r fl n G active work', waveAdj, len', cfl⟩, Step.cpuBoundary b n g dims, obeys, writers', adj', κ * endTime⟩)
    (u u' : I3 → V) (hu : Transformed n G id u u') (others others' : List (I3 → V)) (ho : others.length = k.substeps) (ho' : others'.length = k.substeps) (wst : σ) (fuel : Nat) :
    AgreeInTime (Transformed n G id) κ (start c u others wst >>= run c fuel) (start c' u' others' wst >>= run c' fuel) := by
  have h := UnitsRun.run_units (b := b) (T := LinearMap.id) (φ := 1) hκ one_pos hL hf hN hpos hw hw' (fun d _ => UnitsRun.lineScaled_id r fl d) k waveAdj (by simp) len len' hlen cfl endTime obeys obeys
    hobeys writers writers' (by rw [div_one]; exact hwr) adj adj' (by rw [div_one]; exact hadj) c c' hc (by rw [div_one]; exact hc') u u' hu others others' ho ho' wst fuel
  rw [div_one] at h
  exact agreeInTime_of h

end

open Euler EulerFlux Props.EulerRun Verif.EulerRun

/-- The hypotheses on writers and adjusters: the writer at fixed intervals of time (alsfvm/src/io/FixedIntervalWriter.cpp:33-53), with interval and start in the other unit of time. -/
example (τ : ℝ) (hτ : 0 < τ) (p : Writers.Fixed ℝ) : ∃ p' : Writers.Fixed ℝ, p' = ⟨τ * p.interval, τ * p.start, p.initial⟩ ∧
    SameWriters (V := ℝ) τ [p.write fun _ i (l : List Nat) => .ok (l ++ [i.steps])] [p'.write fun _ i (l : List Nat) => .ok (l ++ [i.steps])] ∧
    SameAdjusters τ (fun st : Nat × List Nat => [p.adjust st.1]) (fun st => [p'.adjust st.1]) := by
  have hn : ∀ s : Nat, Writers.Fixed.next (⟨τ * p.interval, τ * p.start, p.initial⟩ : Writers.Fixed ℝ) s = τ * p.next s := fun s => by
    simp only [Writers.Fixed.next]; ring
  refine ⟨_, rfl, .cons (fun v v' i st => ?_) .nil, fun st => .cons (fun dt i => ?_) .nil⟩
  · simp only [Writers.Fixed.write, hn, InTime, mul_le_mul_iff_right₀ hτ]
  · simp only [Writers.Fixed.adjust, hn, InTime]
    split_ifs
    · cases dt with
      | top => rw [WithTop.map_top, min_eq_right le_top, min_eq_right le_top, WithTop.map_coe, mul_sub]
      | coe x =>
        rw [WithTop.map_coe, ← mul_sub, ← WithTop.coe_min, ← WithTop.coe_min, WithTop.map_coe, mul_min_of_nonneg _ _ hτ.le]
    · rfl

/-- Three cells of length 1 until time 1, three cells of length 1000 until time 1000. -/
example : ∃ c c' : Config (I3 → ℝ) ℝ Unit, c = config3 (fun _ => Flux.upwind) 1 1 ∧
    c' = ⟨.forwardEuler, ⟨Step.cpuSystem 1 CudaRecon.noRecon (twoPoint fun _ => Flux.upwind) ⟨5, 1, 1⟩ ⟨1, 0, 0⟩ ⟨1, 0, 0⟩ (work3 ℝ), [], fun _ => 1000, 1⟩, Step.cpuBoundary .periodic ⟨5, 1, 1⟩ 1 1,
      fun _ => true, [], fun _ => [], 1000⟩ ∧ (∃ s, (start c (data3 0 1 5) [0] () >>= run c 1) = .ok (some s)) ∧
    AgreeInTime (Transformed ⟨5, 1, 1⟩ ⟨1, 0, 0⟩ id) 1000 (start c (data3 0 1 5) [0] () >>= run c 1) (start c' (data3 0 1 5) [0] () >>= run c' 1) := by
  obtain ⟨s, u, h1, -, -⟩ := run3 (fun _ => Flux.upwind) (0 : ℝ) 1 5 1 (by norm_num) (by norm_num [Flux.upwind, Flux.twoPointSpeed, Flux.linear])
    (by norm_num [Flux.upwind, Flux.twoPointSpeed, Flux.linear]) (by norm_num [Flux.upwind, Flux.twoPointSpeed, Flux.linear]) (.inl (by norm_num [Flux.upwind, Flux.twoPointSpeed, Flux.linear]))
    1 1 (by norm_num) (by norm_num)
  exact ⟨_, _, rfl, rfl, ⟨s, h1⟩, C118_length 1000 (by norm_num) .periodic 1 1 ⟨5, 1, 1⟩ ⟨1, 0, 0⟩ ⟨1, 0, 0⟩ layout3 (by decide) (by decide) _ _
    (fits (fun _ => Flux.upwind) le_rfl) _ _ sized3 sized3 _ _ _ _ (fun _ => (mul_one _).symm) _ _ _ (fun _ _ _ => rfl) _ _ .nil _ _ (fun _ => .nil) _ _ rfl (by rw [mul_one]) _ _ (fun _ _ => rfl) _ _ rfl rfl _ _⟩

section
variable {σ : Type}

/-! ### Scalar equations -/

/-- The equations whose flux function is a power of the value, with the exponent of its derivative, and their fluxes (alsfvm/include/alsfvm/numflux/numerical_flux_list.hpp:43-73). -/
inductive PowerFlux : Flux.ScalarName → Nat → String → Prop where
  | linear (name : String) : PowerFlux .linear 0 name
  | burgers {name : String} : name = "central" ∨ name = "rusanov" ∨ name = "godunov" ∨ name = "roe" → PowerFlux .burgers 1 name
  | cubic (name : String) : PowerFlux .cubic 2 name

theorem power_scaled {e : Flux.ScalarName} {q : Nat} {name : String} (h : PowerFlux e q name) {a : ℝ} (ha : 0 < a) {F : Flux.Selected} (hsel : Flux.select e name = some F) (l r : ℝ) :
    F.fn [a * l, a * r] = (a ^ q * (a * (F.fn [l, r]).1), a ^ q * (F.fn [l, r]).2) := by
  cases h with
  | linear => rw [pow_zero, one_mul, one_mul]; exact linear_times ha name F hsel l r
  | burgers h => rw [pow_one]; exact UnitsRun.burgers_scaled ha h hsel l r
  | cubic => exact UnitsRun.cubic_scaled ha hsel l r

/-- C118 for scalar equations, partial. The flux function of the equation is a power of the value, and its derivative, a velocity, has the exponent `q`: 0 for the linear equation, 1 for Burgers, 2 for
the cubic equation. If the values of the initial data are multiplied by a positive number `a`, the lengths of the cells by `κ` and all times by `κ / a ^ q`, the run is the original run in the other
units; with the reconstructions `none`, `mm`, `mc` and ENO of the orders 2 to 4, both boundary conditions, any of the integrators.
Missing: `tecno1` of Burgers, see `C118_fails_for_tecno1`; WENO, see `C117_fails_for_weno`. (The flux function of Buckley and Leverett is no power.) -/
theorem C118_scalar_partial (a κ : ℝ) (ha : 0 < a) (hκ : 0 < κ) (e : Flux.ScalarName) (q : Nat) (name : String) (hname : PowerFlux e q name)
    (b : BC) (dims g : Nat) (n G active : I3) (hL : Layout n G active dims g) (hN : ∀ d < dims, 3 * G.get d ≤ n.get d) (hpos : 0 < dims)
    (F : Flux.Selected) (hsel : Flux.select e name = some F) (r : Recon ℝ) (hr : ScalarUnitless r) (hf : Fits r (WholeRun.asFlux F) g)
    (work work' : NetFlux.State ℝ ℝ) (hw : Sized n work) (hw' : Sized n work') (k : Kind) (waveAdj : List (ℝ → ℝ)) (hwave : ∀ f ∈ waveAdj, ∀ x, f (a ^ q * x) = a ^ q * f x)
    (len len' : Nat → ℝ) (hlen : ∀ d, len' d = κ * len d) (cfl endTime : ℝ)
    (obeys : (I3 → ℝ) → Bool) (hobeys : ∀ v v', Transformed n G (a * ·) v v' → obeys v' = obeys v)
    (writers writers' : List ((I3 → ℝ) → TimeInfo ℝ → σ → Res σ)) (hwr : SameWriters (κ / a ^ q) writers writers') (adj adj' : σ → List (Adjuster ℝ)) (hadj : SameAdjusters (κ / a ^ q) adj adj')
    (c c' : Config (I3 → ℝ) ℝ σ)
    (hc : c = ⟨k, ⟨Step.cpuSystem dims r (WholeRun.asFlux F) n G active work, waveAdj, len, cfl⟩, Step.cpuBoundary b n g dims, obeys, writers, adj, endTime⟩)
    (hc' : c' = ⟨k, ⟨Step.cpuSystem dims r (WholeRun.asFlux F) n G active work', waveAdj, len', cfl⟩, Step.cpuBoundary b n g dims, obeys, writers', adj', κ / a ^ q * endTime⟩)
    (u u' : I3 → ℝ) (hu : Transformed n G (a * ·) u u') (others others' : List (I3 → ℝ)) (ho : others.length = k.substeps) (ho' : others'.length = k.substeps) (wst : σ) (fuel : Nat) :
    AgreeInTime (Transformed n G (a * ·)) (κ / a ^ q) (start c u others wst >>= run c fuel) (start c' u' others' wst >>= run c' fuel) :=
  agreeInTime_of (UnitsRun.run_units (b := b) (T := times ℝ a) hκ (pow_pos ha q) hL hf hN hpos hw hw' (fun d _ => UnitsRun.scalar_line hr ha (power_scaled hname ha hsel) d) k waveAdj hwave len len' hlen cfl
    endTime obeys obeys hobeys writers writers' hwr adj adj' hadj c c' hc hc' u u' hu others others' ho ho' wst fuel)

theorem transformed3 {V : Type} [AddCommGroup V] (T : V → V) (x y z : V) : Transformed ⟨5, 1, 1⟩ ⟨1, 0, 0⟩ T (data3 x y z) (data3 (T x) (T y) (T z)) := by
  rintro ⟨x, y, z⟩ hp
  have h := hp 0 (by decide)
  simp [I3.get] at h
  have hx : x = 1 ∨ x = 2 ∨ x = 3 := by omega
  rcases hx with rfl | rfl | rfl <;> simp [data3]

/-- Burgers with the values 0, 1 and 5 until time 1/5, and with the tenfold values until time 1/50; the first run comes to an end. -/
example : ∃ c c' : Config (I3 → ℝ) ℝ Unit, c = config3 (fun _ => Flux.godunov Flux.burgers) 1 (1 / 5) ∧ c' = config3 (fun _ => Flux.godunov Flux.burgers) 1 (1 / 50) ∧
    (∃ s, (start c (data3 0 1 5) [0] () >>= run c 1) = .ok (some s)) ∧
    AgreeInTime (Transformed ⟨5, 1, 1⟩ ⟨1, 0, 0⟩ (10 * ·)) (1 / 10 ^ 1) (start c (data3 0 1 5) [0] () >>= run c 1) (start c' (data3 (10 * 0) (10 * 1) (10 * 5)) [0] () >>= run c' 1) := by
  obtain ⟨s, u, h1, -, -⟩ := run3 (fun _ => Flux.godunov Flux.burgers) (0 : ℝ) 1 5 5 (by norm_num) (by norm_num [Flux.godunov, Flux.twoPointSpeed, Flux.burgers])
    (by norm_num [Flux.godunov, Flux.twoPointSpeed, Flux.burgers]) (by norm_num [Flux.godunov, Flux.twoPointSpeed, Flux.burgers]) (.inl (by norm_num [Flux.godunov, Flux.twoPointSpeed, Flux.burgers]))
    1 (1 / 5) (by norm_num) (by norm_num)
  exact ⟨_, _, rfl, rfl, ⟨s, h1⟩, C118_scalar_partial 10 1 (by norm_num) (by norm_num) .burgers 1 "godunov" (.burgers (by simp)) .periodic 1 1 ⟨5, 1, 1⟩ ⟨1, 0, 0⟩ ⟨1, 0, 0⟩ layout3 (by decide) (by decide) _ rfl _
    .none (fits (fun _ => Flux.godunov Flux.burgers) le_rfl) _ _ sized3 sized3 _ [] (by simp) (fun _ => 1) (fun _ => 1) (fun _ => (mul_one _).symm) _ _ _ (fun _ _ _ => rfl) _ _ .nil _ _ (fun _ => .nil) _ _ rfl
    (by rw [show (1 : ℝ) / 50 = 1 / 10 ^ 1 * (1 / 5) by norm_num]; rfl) _ _ (transformed3 _ _ _ _) _ _ rfl rfl _ _⟩

/-- C118 is false for `tecno1` of Burgers. Its flux (alsfvm/include/alsfvm/numflux/ScalarEntropyConservativeFlux.hpp:39-59) is made from an entropy with the fixed bounds 0 and 2 for the values
(alsfvm/include/alsfvm/equation/burgers/Burgers.hpp:247-275): also with data between these bounds before and after, multiplying the values by 2/3 and times by 3/2 does not multiply the result by 2/3. -/
theorem C118_fails_for_tecno1 : ∃ F, Flux.select .burgers "tecno1" = some F ∧ ∃ c c' : Config (I3 → ℝ) ℝ Unit,
    c = ⟨.forwardEuler, ⟨Step.cpuSystem 1 CudaRecon.noRecon (WholeRun.asFlux F) ⟨5, 1, 1⟩ ⟨1, 0, 0⟩ ⟨1, 0, 0⟩ (work3 ℝ), [], fun _ => 1, 1 / 2⟩, Step.cpuBoundary .periodic ⟨5, 1, 1⟩ 1 1,
      fun _ => true, [], fun _ => [], 1 / 3⟩ ∧
    c' = ⟨.forwardEuler, ⟨Step.cpuSystem 1 CudaRecon.noRecon (WholeRun.asFlux F) ⟨5, 1, 1⟩ ⟨1, 0, 0⟩ ⟨1, 0, 0⟩ (work3 ℝ), [], fun _ => 1, 1 / 2⟩, Step.cpuBoundary .periodic ⟨5, 1, 1⟩ 1 1,
      fun _ => true, [], fun _ => [], 3 / 2 * (1 / 3)⟩ ∧
    Transformed ⟨5, 1, 1⟩ ⟨1, 0, 0⟩ (2 / 3 * ·) (data3 (1 : ℝ) (3 / 2) (3 / 2)) (data3 (2 / 3) 1 1) ∧
    ¬ AgreeInTime (Transformed ⟨5, 1, 1⟩ ⟨1, 0, 0⟩ (2 / 3 * ·)) (3 / 2) (start c (data3 1 (3 / 2) (3 / 2)) [0] () >>= run c 1) (start c' (data3 (2 / 3) 1 1) [0] () >>= run c' 1) := by
  refine ⟨_, rfl, config3 (fun _ => Flux.entropyConservative Flux.burgers) (1 / 2) (1 / 3), config3 (fun _ => Flux.entropyConservative Flux.burgers) (1 / 2) (3 / 2 * (1 / 3)), rfl, rfl, ?_, ?_⟩
  · have := transformed3 (2 / 3 * ·) (1 : ℝ) (3 / 2) (3 / 2)
    norm_num at this
    exact this
  · intro hA
    have hs : ∀ l r, (Flux.entropyConservative Flux.burgers l r).2 = max |l| |r| := fun l r => rfl
    obtain ⟨s, u, h1, h2, h3⟩ := run3 (fun _ => Flux.entropyConservative Flux.burgers) (1 : ℝ) (3 / 2) (3 / 2) (3 / 2) (by norm_num) (by norm_num [hs, abs_of_pos]) (by norm_num [hs, abs_of_pos])
      (by norm_num [hs, abs_of_pos]) (.inr (.inr (by norm_num [hs, abs_of_pos]))) (1 / 2) (1 / 3) (by norm_num) (by norm_num)
    obtain ⟨s', u', g1, g2, g3⟩ := run3 (fun _ => Flux.entropyConservative Flux.burgers) (2 / 3 : ℝ) 1 1 1 (by norm_num) (by norm_num [hs, abs_of_pos]) (by norm_num [hs, abs_of_pos])
      (by norm_num [hs, abs_of_pos]) (.inr (.inr (by norm_num [hs, abs_of_pos]))) (1 / 2) (3 / 2 * (1 / 3)) (by norm_num) (by norm_num)
    have hA' : AgreeInTime (Transformed ⟨5, 1, 1⟩ ⟨1, 0, 0⟩ (2 / 3 * ·)) (3 / 2) (.ok (some s)) (.ok (some s')) := by
      rw [← h1, ← g1]
      exact hA
    obtain ⟨-, -, ⟨v, v', e1, e2, e3⟩, -⟩ := hA'
    rw [h2] at e1
    rw [g2] at e2
    cases e1
    cases e2
    have := e3 ⟨2, 0, 0⟩ (by decide)
    rw [h3, g3] at this
    have hl : Real.log (1 / 2) = -Real.log 2 := by rw [one_div, Real.log_inv]
    have k1 := UnitsRun.log_bound
    have k2 := Real.log_two_lt_d9
    norm_num [Flux.entropyConservative, Flux.burgers, Flux.entropyPotential, Flux.entropyVariable] at this
    norm_num at hl
    try rw [hl] at this
    linarith

/-! ### The Euler equations -/

/-- A gas in other units: of mass, by the factor `a`, and of velocity, by the factor `v`; momentum is mass times velocity, energy is mass times the square of a velocity. -/
noncomputable def GasInUnits {m : Nat} (a v : ℝ) (U : Cons m) : Cons m := (a * U.1, (fun i => a * (v * U.2.1 i)), a * (v ^ 2 * U.2.2))

/-- C118 for the Euler equations, partial. If the densities of the initial data are multiplied by `a`, the momenta by `a v`, the energies by `a v ^ 2`, the lengths of the cells by `κ` and all times
by `κ / v`, the run is the original run in the other units: same numbers of steps, same calls of the writers, same exceptions; for the fluxes `central`, `hll` and `hll3`, with the reconstructions
`none`, `mm`, `mc` and ENO of the orders 2 to 4, both boundary conditions, any of the integrators, any number of directions.
Missing: the flux `tecno1`; WENO, see `C117_fails_for_weno`, and `wenof2`. -/
theorem C118_euler_partial (a v κ : ℝ) (ha : 0 < a) (hv : 0 < v) (hκ : 0 < κ) (γ : ℝ)
    (b : BC) (m dims g : Nat) (hm : dims ≤ m) (n G active : I3) (hL : Layout n G active dims g) (hN : ∀ d < dims, 3 * G.get d ≤ n.get d) (hpos : 0 < dims)
    (name : String) (hname : name = "central" ∨ name = "hll" ∨ name = "hll3") (r : Recon (Cons m)) (hr : EulerUnitless m r) (hf : Fits r (solverFlux m γ name) g)
    (work work' : NetFlux.State (Cons m) ℝ) (hw : Sized n work) (hw' : Sized n work') (k : Kind) (waveAdj : List (ℝ → ℝ)) (hwave : ∀ f ∈ waveAdj, ∀ x, f (v * x) = v * f x)
    (len len' : Nat → ℝ) (hlen : ∀ d, len' d = κ * len d) (cfl endTime : ℝ)
    (obeys : (I3 → Cons m) → Bool) (hobeys : ∀ w w', Transformed n G (GasInUnits a v) w w' → obeys w' = obeys w)
    (writers writers' : List ((I3 → Cons m) → TimeInfo ℝ → σ → Res σ)) (hwr : SameWriters (κ / v) writers writers') (adj adj' : σ → List (Adjuster ℝ)) (hadj : SameAdjusters (κ / v) adj adj')
    (c c' : Config (I3 → Cons m) ℝ σ)
    (hc : c = ⟨k, ⟨Step.cpuSystem dims r (solverFlux m γ name) n G active work, waveAdj, len, cfl⟩, Step.cpuBoundary b n g dims, obeys, writers, adj, endTime⟩)
    (hc' : c' = ⟨k, ⟨Step.cpuSystem dims r (solverFlux m γ name) n G active work', waveAdj, len', cfl⟩, Step.cpuBoundary b n g dims, obeys, writers', adj', κ / v * endTime⟩)
    (u u' : I3 → Cons m) (hu : Transformed n G (GasInUnits a v) u u') (others others' : List (I3 → Cons m)) (ho : others.length = k.substeps) (ho' : others'.length = k.substeps)
    (wst : σ) (fuel : Nat) :
    AgreeInTime (Transformed n G (GasInUnits a v)) (κ / v) (start c u others wst >>= run c fuel) (start c' u' others' wst >>= run c' fuel) := by
  have hline : ∀ d < dims, UnitsRun.LineScaled r (solverFlux m γ name) (UnitsRun.inUnits m a v) v d := fun d hd => by
    have hd' : d < m := by omega
    rcases hname with rfl | rfl | rfl
    · rw [solverFlux_central]; exact UnitsRun.euler_line hr ha hv (central_times ha) (UnitsRun.central_faster hv) hd'
    · rw [solverFlux_hll']; exact UnitsRun.euler_line hr ha hv (hll_times ha) (UnitsRun.hll_faster hv) hd'
    · rw [solverFlux_hll3]; exact UnitsRun.euler_line hr ha hv (hll3_times ha) (UnitsRun.hll3_faster hv) hd'
  exact agreeInTime_of (UnitsRun.run_units (b := b) (T := UnitsRun.inUnits m a v) hκ hv hL hf hN hpos hw hw' hline k waveAdj hwave len len' hlen cfl
    endTime obeys obeys hobeys writers writers' hwr adj adj' hadj c c' hc hc' u u' hu others others' ho ho' wst fuel)

/-- The hypothesis on the check of the states: positive density and pressure in all cells of the domain. -/
example (m : Nat) (γ a v : ℝ) (ha : 0 < a) (hv : 0 < v) (n G : I3) (obeys : (I3 → Cons m) → Bool) (h : ∀ w, obeys w = true ↔ ∀ p, IsInterior n G p → obeysConstraints γ (w p)) (w w' : I3 → Cons m)
    (hw : Transformed n G (GasInUnits a v) w w') : obeys w' = obeys w := by
  rw [Bool.eq_iff_iff, h, h]
  refine forall_congr' fun p => forall_congr' fun hp => ?_
  rw [hw p hp]
  exact (obeys_times ha (UnitsRun.faster m v (w p))).trans (UnitsRun.obeys_faster hv (w p))

/-- Gas in three cells, and the same gas in other units, with the tenfold density and velocities multiplied by 3. -/
example : ∃ c c' : Config (I3 → Cons 1) ℝ Unit, c = config3 (lift (hll3 2)) 1 (1 / 2) ∧ c' = config3 (lift (hll3 2)) 1 (1 / 6) ∧
    AgreeInTime (Transformed ⟨5, 1, 1⟩ ⟨1, 0, 0⟩ (GasInUnits 10 3)) (1 / 3) (start c (data3 exMiddle exMiddle exRight) [0] () >>= run c 1)
      (start c' (data3 (GasInUnits 10 3 exMiddle) (GasInUnits 10 3 exMiddle) (GasInUnits 10 3 exRight)) [0] () >>= run c' 1) :=
  ⟨_, _, rfl, rfl, C118_euler_partial 10 3 1 (by norm_num) (by norm_num) (by norm_num) 2 .periodic 1 1 1 le_rfl ⟨5, 1, 1⟩ ⟨1, 0, 0⟩ ⟨1, 0, 0⟩ layout3 (by decide) (by decide) "hll3" (.inr (.inr rfl)) _ .none
    (fits _ le_rfl) _ _ sized3 sized3 _ [] (by simp) (fun _ => 1) (fun _ => 1) (fun _ => (mul_one _).symm) _ _ _ (fun _ _ _ => rfl) _ _ .nil _ _ (fun _ => .nil) _ _ rfl
    (by rw [show (1 : ℝ) / 6 = 1 / 3 * (1 / 2) by norm_num]; rfl) _ _ (transformed3 _ _ _ _) _ _ rfl rfl _ _⟩

end

end Props
end Verif
