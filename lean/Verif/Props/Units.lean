import Verif.Units
import Verif.Props.Symmetry

/-!
Property C117: runs do not depend on the unit of the values.
-/

namespace Verif
namespace Props
open Integrator Simulator NetFlux Symmetry

/-! ### Specification -/

/-- The state `v'` is the state `v` with all values of the cells of the domain multiplied by `a`. -/
def Multiplied {V : Type} [SMul ℝ V] (n G : I3) (a : ℝ) (v v' : I3 → V) : Prop := ∀ p, IsInterior n G p → v' p = a • v p

theorem multiplied_iff {V : Type} [AddCommGroup V] [Module ℝ V] (n G : I3) (a : ℝ) (v v' : I3 → V) :
    Multiplied n G a v v' ↔ ∀ p, IsInterior n G p → v' p = times V a (v (mirror n (fun _ => false) p)) := by
  have : ∀ p, mirror n (fun _ => false) p = p := fun p => by ext <;> simp [mirror]
  simp only [Multiplied, this, times_apply]

section
variable {V σ : Type} [AddCommGroup V] [Module ℝ V]

theorem multiplied_run {a : ℝ} (b : BC) (dims g : Nat) (n G active : I3) (hL : Layout n G active dims g) (hN : ∀ d < dims, 3 * G.get d ≤ n.get d) (hpos : 0 < dims)
    {r : Recon V} {fl : FluxFn V ℝ} (hfair : Fair r fl (times V a) dims id (fun _ => false)) (hf : Fits r fl g)
    (work work' : NetFlux.State V ℝ) (hw : Sized n work) (hw' : Sized n work') (k : Kind) (waveAdj : List (ℝ → ℝ)) (len : Nat → ℝ) (cfl endTime : ℝ)
    (obeys : (I3 → V) → Bool) (hobeys : ∀ v v', Multiplied n G a v v' → obeys v' = obeys v)
    (writers : List ((I3 → V) → TimeInfo ℝ → σ → Res σ)) (hwr : ∀ f ∈ writers, ∀ v v' info st, f v info st = f v' info st) (adj : σ → List (Adjuster ℝ)) (c c' : Config (I3 → V) ℝ σ)
    (hc : c = ⟨k, ⟨Step.cpuSystem dims r fl n G active work, waveAdj, len, cfl⟩, Step.cpuBoundary b n g dims, obeys, writers, adj, endTime⟩)
    (hc' : c' = ⟨k, ⟨Step.cpuSystem dims r fl n G active work', waveAdj, len, cfl⟩, Step.cpuBoundary b n g dims, obeys, writers, adj, endTime⟩)
    (u u' : I3 → V) (hu : Multiplied n G a u u') (others others' : List (I3 → V)) (ho : others.length = k.substeps) (ho' : others'.length = k.substeps) (wst : σ) (fuel : Nat) :
    Agree (Multiplied n G a) (start c u others wst >>= run c fuel) (start c' u' others' wst >>= run c' fuel) := by
  have e : Multiplied n G a = fun v v' : I3 → V => ∀ p, IsInterior n G p → v' p = times V a (v (mirror n (fun _ => false) p)) :=
    funext fun v => funext fun v' => propext (multiplied_iff n G a v v')
  rw [e] at hobeys hu ⊢
  exact agree_of (run_map hL hL hf hN hN hpos hw hw' (mirror_map b hL fun _ => false) hfair k waveAdj len (fun _ _ => rfl) cfl endTime obeys obeys hobeys writers hwr adj c c' hc hc'
    u u' hu others others' ho ho' wst fuel)

end

section
variable {σ : Type}

/-! ### The linear equation and the cubic equation -/

/-- C117 for the linear equation. Runs from data multiplied by a positive number are the run from the original data, with all values multiplied by the number: same times, same calls of the writers,
same exceptions; for all fluxes of the equation, with the reconstructions `none`, `mm`, `mc` and ENO of the orders 2 to 4, both boundary conditions, any of the integrators.
Missing: WENO, see `C117_fails_for_weno`. -/
theorem C117_linear_partial (a : ℝ) (ha : 0 < a) (b : BC) (dims g : Nat) (n G active : I3) (hL : Layout n G active dims g) (hN : ∀ d < dims, 3 * G.get d ≤ n.get d) (hpos : 0 < dims)
    (name : String) (F : Flux.Selected) (hsel : Flux.select .linear name = some F) (r : Recon ℝ) (hr : ScalarUnitless r) (hf : Fits r (WholeRun.asFlux F) g)
    (work work' : NetFlux.State ℝ ℝ) (hw : Sized n work) (hw' : Sized n work') (k : Kind) (waveAdj : List (ℝ → ℝ)) (len : Nat → ℝ) (cfl endTime : ℝ)
    (obeys : (I3 → ℝ) → Bool) (hobeys : ∀ v v', Multiplied n G a v v' → obeys v' = obeys v)
    (writers : List ((I3 → ℝ) → TimeInfo ℝ → σ → Res σ)) (hwr : ∀ f ∈ writers, ∀ v v' info st, f v info st = f v' info st) (adj : σ → List (Adjuster ℝ)) (c c' : Config (I3 → ℝ) ℝ σ)
    (hc : c = ⟨k, ⟨Step.cpuSystem dims r (WholeRun.asFlux F) n G active work, waveAdj, len, cfl⟩, Step.cpuBoundary b n g dims, obeys, writers, adj, endTime⟩)
    (hc' : c' = ⟨k, ⟨Step.cpuSystem dims r (WholeRun.asFlux F) n G active work', waveAdj, len, cfl⟩, Step.cpuBoundary b n g dims, obeys, writers, adj, endTime⟩)
    (u u' : I3 → ℝ) (hu : Multiplied n G a u u') (others others' : List (I3 → ℝ)) (ho : others.length = k.substeps) (ho' : others'.length = k.substeps)
    (wst : σ) (fuel : Nat) :
    Agree (Multiplied n G a) (start c u others wst >>= run c fuel) (start c' u' others' wst >>= run c' fuel) :=
  multiplied_run b dims g n G active hL hN hpos (scalar_fair (fun d => scalarUnitless_times hr ha d) (linear_times ha name F hsel) dims) hf work work' hw hw' k waveAdj len cfl endTime obeys hobeys
    writers hwr adj c c' hc hc' u u' hu others others' ho ho' wst fuel

/-- The fluxes of the equations with a flux function that changes its sign with the value (alsfvm/include/alsfvm/numflux/numerical_flux_list.hpp:43-73). -/
def OddFlux (e : Flux.ScalarName) (name : String) : Prop := (e = .linear ∧ (name = "central" ∨ name = "rusanov" ∨ name = "upwind")) ∨ (e = .cubic ∧ (name = "central" ∨ name = "rusanov" ∨ name = "roe"))

theorem odd_times {e : Flux.ScalarName} {name : String} (h : OddFlux e name) (F : Flux.Selected) (hsel : Flux.select e name = some F) (l r : ℝ) :
    F.fn [-1 * l, -1 * r] = (-1 * (F.fn [l, r]).1, (F.fn [l, r]).2) := by
  rcases h with ⟨rfl, h | h | h⟩ | ⟨rfl, h | h | h⟩ <;> subst h <;> (simp only [Flux.select, Option.some.injEq] at hsel; subst hsel) <;>
    simp only [Flux.two]
  · refine Prod.ext ?_ rfl
    simp only [Flux.central, Flux.linear]; ring
  · refine Prod.ext ?_ rfl
    simp only [Flux.rusanov, Flux.linear]; ring
  · rfl
  all_goals simp only [Flux.central, Flux.rusanov, Flux.cubicRoe, Flux.cubic, Flux.twoPointSpeed, neg_mul, one_mul, mul_neg, neg_neg]
  · refine Prod.ext ?_ rfl
    simp only []; ring
  · refine Prod.ext ?_ rfl
    simp only []; ring
  · refine Prod.ext ?_ rfl
    simp only [ne_eq, neg_inj]
    rw [show (-(l * l * l) / 3 - -(r * r * r) / 3) / (-l - -r) = (l * l * l / 3 - r * r * r / 3) / (l - r) by rw [← neg_div_neg_eq]; congr 1 <;> ring]
    split_ifs <;> ring

/-- C117 for the sign. Runs of the linear equation and of the cubic equation from data with the opposite sign are the run from the original data, with the opposite sign: same times, same calls of the
writers, same exceptions; for all fluxes of these equations but `roe` of the linear equation, with all the reconstructions for scalar equations, both boundary conditions, any of the integrators.
Missing: `roe` of the linear equation, see `C117_fails_for_linear_roe`. -/
theorem C117_sign_partial (e : Flux.ScalarName) (name : String) (hname : OddFlux e name) (b : BC) (dims g : Nat) (n G active : I3) (hL : Layout n G active dims g) (hN : ∀ d < dims, 3 * G.get d ≤ n.get d) (hpos : 0 < dims)
    (F : Flux.Selected) (hsel : Flux.select e name = some F) (r : Recon ℝ) (hr : ScalarSigned r) (hf : Fits r (WholeRun.asFlux F) g)
    (work work' : NetFlux.State ℝ ℝ) (hw : Sized n work) (hw' : Sized n work') (k : Kind) (waveAdj : List (ℝ → ℝ)) (len : Nat → ℝ) (cfl endTime : ℝ)
    (obeys : (I3 → ℝ) → Bool) (hobeys : ∀ v v', Multiplied n G (-1) v v' → obeys v' = obeys v)
    (writers : List ((I3 → ℝ) → TimeInfo ℝ → σ → Res σ)) (hwr : ∀ f ∈ writers, ∀ v v' info st, f v info st = f v' info st) (adj : σ → List (Adjuster ℝ)) (c c' : Config (I3 → ℝ) ℝ σ)
    (hc : c = ⟨k, ⟨Step.cpuSystem dims r (WholeRun.asFlux F) n G active work, waveAdj, len, cfl⟩, Step.cpuBoundary b n g dims, obeys, writers, adj, endTime⟩)
    (hc' : c' = ⟨k, ⟨Step.cpuSystem dims r (WholeRun.asFlux F) n G active work', waveAdj, len, cfl⟩, Step.cpuBoundary b n g dims, obeys, writers, adj, endTime⟩)
    (u u' : I3 → ℝ) (hu : Multiplied n G (-1) u u') (others others' : List (I3 → ℝ)) (ho : others.length = k.substeps) (ho' : others'.length = k.substeps)
    (wst : σ) (fuel : Nat) :
    Agree (Multiplied n G (-1)) (start c u others wst >>= run c fuel) (start c' u' others' wst >>= run c' fuel) :=
  multiplied_run b dims g n G active hL hN hpos (scalar_fair (fun d => scalarSigned_times hr d) (odd_times hname F hsel) dims) hf work work' hw hw' k waveAdj len cfl endTime obeys hobeys
    writers hwr adj c c' hc hc' u u' hu others others' ho ho' wst fuel

open Euler EulerFlux Props.EulerRun Verif.EulerRun

theorem multiplied3 {V : Type} [AddCommGroup V] [Module ℝ V] (a : ℝ) (x y z : V) : Multiplied ⟨5, 1, 1⟩ ⟨1, 0, 0⟩ a (data3 x y z) (data3 (a • x) (a • y) (a • z)) := by
  rintro ⟨x, y, z⟩ hp
  have h := hp 0 (by decide)
  simp [I3.get] at h
  have hx : x = 1 ∨ x = 2 ∨ x = 3 := by omega
  rcases hx with rfl | rfl | rfl <;> simp [data3]

/-- Three cells with the values 0, 1 and 5, and with a thousandfold of them; the first run comes to an end. -/
example : ∃ c : Config (I3 → ℝ) ℝ Unit, c = config3 (fun _ => Flux.upwind) 1 1 ∧ (∃ s, (start c (data3 0 1 5) [0] () >>= run c 1) = .ok (some s)) ∧
    Agree (Multiplied ⟨5, 1, 1⟩ ⟨1, 0, 0⟩ 1000) (start c (data3 0 1 5) [0] () >>= run c 1) (start c (data3 ((1000 : ℝ) • 0) ((1000 : ℝ) • 1) ((1000 : ℝ) • 5)) [0] () >>= run c 1) := by
  obtain ⟨s, u, h1, -, -⟩ := run3 (fun _ => Flux.upwind) (0 : ℝ) 1 5 1 (by norm_num) (by norm_num [Flux.upwind, Flux.twoPointSpeed, Flux.linear])
    (by norm_num [Flux.upwind, Flux.twoPointSpeed, Flux.linear]) (by norm_num [Flux.upwind, Flux.twoPointSpeed, Flux.linear]) (.inl (by norm_num [Flux.upwind, Flux.twoPointSpeed, Flux.linear]))
    1 1 (by norm_num) (by norm_num)
  exact ⟨_, rfl, ⟨s, h1⟩, C117_linear_partial 1000 (by norm_num) .periodic 1 1 ⟨5, 1, 1⟩ ⟨1, 0, 0⟩ ⟨1, 0, 0⟩ layout3 (by decide) (by decide) "upwind" _ rfl _ .none
    (fits (fun _ => Flux.upwind) le_rfl) _ _ sized3 sized3 _ _ _ _ _ _ (fun _ _ _ => rfl) _ (by simp) _ _ _ rfl rfl _ _ (multiplied3 _ _ _ _) _ _ rfl rfl _ _⟩

/-- The same with the opposite sign, for the cubic equation. -/
example : ∃ c : Config (I3 → ℝ) ℝ Unit, c = config3 (fun _ => Flux.cubicRoe) 1 1 ∧
    Agree (Multiplied ⟨5, 1, 1⟩ ⟨1, 0, 0⟩ (-1)) (start c (data3 0 1 5) [0] () >>= run c 1) (start c (data3 ((-1 : ℝ) • 0) ((-1 : ℝ) • 1) ((-1 : ℝ) • 5)) [0] () >>= run c 1) :=
  ⟨_, rfl, C117_sign_partial .cubic "roe" (.inr ⟨rfl, .inr (.inr rfl)⟩) .periodic 1 1 ⟨5, 1, 1⟩ ⟨1, 0, 0⟩ ⟨1, 0, 0⟩ layout3 (by decide) (by decide) _ rfl _ (.even .none)
    (fits (fun _ => Flux.cubicRoe) le_rfl) _ _ sized3 sized3 _ _ _ _ _ _ (fun _ _ _ => rfl) _ (by simp) _ _ _ rfl rfl _ _ (multiplied3 _ _ _ _) _ _ rfl rfl _ _⟩

/-- C117 is false for the sign with the flux `roe` of the linear equation, which replaces negative values by zero (alsfvm/include/alsfvm/numflux/linear/Roe.hpp:37-54): a single cell with the value 1 moves
on by half a cell, a single cell with the value -1 stays. -/
theorem C117_fails_for_linear_roe : ∃ F, Flux.select .linear "roe" = some F ∧ ∃ c : Config (I3 → ℝ) ℝ Unit,
    c = ⟨.forwardEuler, ⟨Step.cpuSystem 1 CudaRecon.noRecon (WholeRun.asFlux F) ⟨5, 1, 1⟩ ⟨1, 0, 0⟩ ⟨1, 0, 0⟩ (work3 ℝ), [], fun _ => 1, 1 / 2⟩, Step.cpuBoundary .periodic ⟨5, 1, 1⟩ 1 1,
      fun _ => true, [], fun _ => [], 1 / 2⟩ ∧
    Multiplied ⟨5, 1, 1⟩ ⟨1, 0, 0⟩ (-1) (data3 (0 : ℝ) 1 0) (data3 0 (-1) 0) ∧
    ¬ Agree (Multiplied ⟨5, 1, 1⟩ ⟨1, 0, 0⟩ (-1)) (start c (data3 0 1 0) [0] () >>= run c 1) (start c (data3 0 (-1) 0) [0] () >>= run c 1) := by
  refine ⟨_, rfl, config3 (fun _ => Flux.linearRoe) (1 / 2) (1 / 2), rfl, ?_, ?_⟩
  · have := multiplied3 (-1) (0 : ℝ) 1 0
    norm_num at this
    exact this
  · intro hA
    have hs : ∀ l r, (Flux.linearRoe l r).2 = 1 := fun l r => by norm_num [Flux.linearRoe, Flux.twoPointSpeed, Flux.linear]
    obtain ⟨s, u, h1, h2, h3⟩ := run3 (fun _ => Flux.linearRoe) (0 : ℝ) 1 0 1 (by norm_num) (hs _ _).le (hs _ _).le (hs _ _).le (.inl (hs _ _)) (1 / 2) (1 / 2) (by norm_num) (by norm_num)
    obtain ⟨s', u', g1, g2, g3⟩ := run3 (fun _ => Flux.linearRoe) (0 : ℝ) (-1) 0 1 (by norm_num) (hs _ _).le (hs _ _).le (hs _ _).le (.inl (hs _ _)) (1 / 2) (1 / 2) (by norm_num) (by norm_num)
    have hA' : Agree (Multiplied ⟨5, 1, 1⟩ ⟨1, 0, 0⟩ (-1)) (.ok (some s)) (.ok (some s')) := by
      rw [← h1, ← g1]
      exact hA
    obtain ⟨-, -, ⟨v, v', e1, e2, e3⟩, -⟩ := hA'
    rw [h2] at e1
    rw [g2] at e2
    cases e1
    cases e2
    have := e3 ⟨2, 0, 0⟩ (by decide)
    rw [h3, g3] at this
    norm_num [Flux.linearRoe, Flux.linear] at this

/-! ### The Euler equations -/

/-- C117 for the Euler equations, partial. Runs from data with density, momentum and energy multiplied by the same positive number, as by another unit of mass, are the run from the original data,
multiplied by the number: same times, same calls of the writers, same exceptions; for the fluxes `central`, `hll` and `hll3`, with the reconstructions `none`, `mm`, `mc` and ENO of the orders 2 to 4,
both boundary conditions, any of the integrators, and the check of the states that the program makes.
Missing: the flux `tecno1`; WENO, see `C117_fails_for_weno`, and `wenof2`. -/
theorem C117_euler_partial (a : ℝ) (ha : 0 < a) (γ : ℝ) (b : BC) (m dims g : Nat) (hm : dims ≤ m) (n G active : I3) (hL : Layout n G active dims g) (hN : ∀ d < dims, 3 * G.get d ≤ n.get d) (hpos : 0 < dims)
    (name : String) (hname : name = "central" ∨ name = "hll" ∨ name = "hll3") (r : Recon (Cons m)) (hr : EulerUnitless m r) (hf : Fits r (solverFlux m γ name) g)
    (work work' : NetFlux.State (Cons m) ℝ) (hw : Sized n work) (hw' : Sized n work') (k : Kind) (waveAdj : List (ℝ → ℝ)) (len : Nat → ℝ) (cfl endTime : ℝ)
    (obeys : (I3 → Cons m) → Bool) (hobeys : ∀ v v', Multiplied n G a v v' → obeys v' = obeys v)
    (writers : List ((I3 → Cons m) → TimeInfo ℝ → σ → Res σ)) (hwr : ∀ f ∈ writers, ∀ v v' info st, f v info st = f v' info st) (adj : σ → List (Adjuster ℝ)) (c c' : Config (I3 → Cons m) ℝ σ)
    (hc : c = ⟨k, ⟨Step.cpuSystem dims r (solverFlux m γ name) n G active work, waveAdj, len, cfl⟩, Step.cpuBoundary b n g dims, obeys, writers, adj, endTime⟩)
    (hc' : c' = ⟨k, ⟨Step.cpuSystem dims r (solverFlux m γ name) n G active work', waveAdj, len, cfl⟩, Step.cpuBoundary b n g dims, obeys, writers, adj, endTime⟩)
    (u u' : I3 → Cons m) (hu : Multiplied n G a u u') (others others' : List (I3 → Cons m)) (ho : others.length = k.substeps) (ho' : others'.length = k.substeps)
    (wst : σ) (fuel : Nat) :
    Agree (Multiplied n G a) (start c u others wst >>= run c fuel) (start c' u' others' wst >>= run c' fuel) := by
  have hfair : Fair r (solverFlux m γ name) (times (Cons m) a) dims id (fun _ => false) := by
    rcases hname with rfl | rfl | rfl
    · rw [solverFlux_central]; exact euler_times_fair hr ha (central_times ha) hm
    · rw [solverFlux_hll']; exact euler_times_fair hr ha (hll_times ha) hm
    · rw [solverFlux_hll3]; exact euler_times_fair hr ha (hll3_times ha) hm
  exact multiplied_run b dims g n G active hL hN hpos hfair hf work work' hw hw' k waveAdj len cfl endTime obeys hobeys writers hwr adj c c' hc hc' u u' hu others others' ho ho' wst fuel

/-- The hypothesis on the check of the states: positive density and pressure in all cells of the domain. -/
example (m : Nat) (γ a : ℝ) (ha : 0 < a) (n G : I3) (obeys : (I3 → Cons m) → Bool) (h : ∀ v, obeys v = true ↔ ∀ p, IsInterior n G p → obeysConstraints γ (v p)) (v v' : I3 → Cons m)
    (hv : Multiplied n G a v v') : obeys v' = obeys v := by
  rw [Bool.eq_iff_iff, h, h]
  exact forall_congr' fun p => forall_congr' fun hp => by rw [hv p hp, obeys_times ha]

/-- Gas in three cells, and gas of the tenfold mass. -/
example : ∃ c : Config (I3 → Cons 1) ℝ Unit, c = config3 (lift (hll3 2)) 1 (1 / 2) ∧
    Agree (Multiplied ⟨5, 1, 1⟩ ⟨1, 0, 0⟩ 10) (start c (data3 exMiddle exMiddle exRight) [0] () >>= run c 1)
      (start c (data3 ((10 : ℝ) • exMiddle) ((10 : ℝ) • exMiddle) ((10 : ℝ) • exRight)) [0] () >>= run c 1) :=
  ⟨_, rfl, C117_euler_partial 10 (by norm_num) 2 .periodic 1 1 1 le_rfl ⟨5, 1, 1⟩ ⟨1, 0, 0⟩ ⟨1, 0, 0⟩ layout3 (by decide) (by decide) "hll3" (.inr (.inr rfl)) _ .none
    (fits _ le_rfl) _ _ sized3 sized3 _ _ _ _ _ _ (fun _ _ _ => rfl) _ (by simp) _ _ _ rfl rfl _ _ (multiplied3 _ _ _ _) _ _ rfl rfl _ _⟩

/-- C117 is false for WENO: the constant `ALSFVM_WENO_EPSILON` (alsfvm/include/alsfvm/reconstruction/WENOCoefficients.hpp:21) is added to squares of differences of values. A single cell with the value 1
and a single cell with the value 1/10000 develop differently, here with the linear equation and the flux `upwind`. -/
theorem C117_fails_for_weno : ∃ F, Flux.select .linear "upwind" = some F ∧ ∃ c : Config (I3 → ℝ) ℝ Unit,
    c = ⟨.forwardEuler, ⟨Step.cpuSystem 1 (via scalarVec (Weno.weno2Recon 0)) (WholeRun.asFlux F) ⟨7, 1, 1⟩ ⟨2, 0, 0⟩ ⟨1, 0, 0⟩ workEno, [], fun _ => 1, 1 / 2⟩,
      Step.cpuBoundary .periodic ⟨7, 1, 1⟩ 2 1, fun _ => true, [], fun _ => [], 1 / 2⟩ ∧
    Multiplied ⟨7, 1, 1⟩ ⟨2, 0, 0⟩ (1 / 10000) (peak 1) (peak (1 / 10000)) ∧
    ¬ Agree (Multiplied ⟨7, 1, 1⟩ ⟨2, 0, 0⟩ (1 / 10000)) (start c (peak 1) [0] () >>= run c 1) (start c (peak (1 / 10000)) [0] () >>= run c 1) := by
  refine ⟨_, rfl, _, rfl, ?_, ?_⟩
  · intro p _
    simp only [peak, smul_eq_mul]
    split_ifs <;> norm_num
  · intro hA
    obtain ⟨s, u, h1, h2, h3⟩ := wenoTwo_step 1
    obtain ⟨s', u', g1, g2, g3⟩ := wenoTwo_step (1 / 10000)
    have hA' : Agree (Multiplied ⟨7, 1, 1⟩ ⟨2, 0, 0⟩ (1 / 10000)) (.ok (some s)) (.ok (some s')) := by
      rw [← h1, ← g1]
      exact hA
    obtain ⟨-, -, ⟨v, v', e1, e2, e3⟩, -⟩ := hA'
    rw [h2] at e1
    rw [g2] at e2
    cases e1
    cases e2
    have := e3 ⟨3, 0, 0⟩ (by decide)
    rw [h3, g3] at this
    norm_num [Weno.w2Right, Weno.eps] at this

end

end Props
end Verif
