import Verif.SymmetrySchemes
import Verif.SymmetryExamples
import Verif.Props.EulerRun
import Verif.Props.WholeRun

/-!
Properties C97, C98 and C99: symmetries of whole runs.
-/

namespace Verif
namespace Props
open Integrator Simulator NetFlux Symmetry

/-! ### Specification -/

section
variable {K V σ : Type}

/-- Two results of runs agree: both failed in the same way, both need more steps, or both are finished, at the same time and after the same number of steps, with the same state of the writers, with
final states that correspond, and after the same calls of the same writers at the same times with states that correspond. `Corr v v'` tells that the state `v'` of the second run corresponds to the state `v` of the first. -/
def Agree (Corr : (I3 → V) → (I3 → V) → Prop) : Res (Option (Sim (I3 → V) K σ)) → Res (Option (Sim (I3 → V) K σ)) → Prop
  | .ok (some s), .ok (some s') => s'.info = s.info ∧ s'.ws = s.ws ∧ (∃ v v', s.vols[0]? = some v ∧ s'.vols[0]? = some v' ∧ Corr v v') ∧
      List.Forall₂ (fun call call' => call'.writer = call.writer ∧ call'.info = call.info ∧ Corr call.state call'.state) s.log s'.log
  | .ok none, .ok none => True
  | .error e, .error e' => e = e'
  | _, _ => False

theorem agree_of {Corr : (I3 → V) → (I3 → V) → Prop} {a a' : Res (Option (Sim (I3 → V) K σ))} (h : SameRuns Corr a a') : Agree Corr a a' := by
  match a, a' with
  | .ok (some _), .ok (some _) => exact h
  | .ok (some _), .ok none => exact h
  | .ok none, .ok (some _) => exact h
  | .ok none, .ok none => trivial
  | .error _, .error _ => exact h
  | .ok (some _), .error _ => exact h
  | .ok none, .error _ => exact h
  | .error _, .ok _ => exact h

/-- The state `v'` is the state `v` with all values moved by `s` cells, round the ends of the domain: the interior of the volume begins at `G` and has `n - 2 G` cells. -/
def Shifted (n G s : I3) (v v' : I3 → V) : Prop :=
  ∀ p, IsInterior n G p → v' p = v ⟨G.x + (p.x - G.x + s.x) % (n.x - 2 * G.x), G.y + (p.y - G.y + s.y) % (n.y - 2 * G.y), G.z + (p.z - G.z + s.z) % (n.z - 2 * G.z)⟩

/-- The state `v'` is the mirror image of the state `v`: the cells in the opposite order in the directions with `M`, and the value of each cell replaced by its mirror image `T`. -/
def MirrorImage (n G : I3) (M : Nat → Bool) (T : V → V) (v v' : I3 → V) : Prop :=
  ∀ p, IsInterior n G p → v' p = T (v ⟨if M 0 then n.x - 1 - p.x else p.x, if M 1 then n.y - 1 - p.y else p.y, if M 2 then n.z - 1 - p.z else p.z⟩)

/-- The coordinates with the axes `i` and `j` exchanged. -/
def swapped (i j : Nat) (p : I3) : I3 :=
  ⟨p.get (if 0 = i then j else if 0 = j then i else 0), p.get (if 1 = i then j else if 1 = j then i else 1), p.get (if 2 = i then j else if 2 = j then i else 2)⟩

/-- The state `v'` is the state `v` with the axes `i` and `j` exchanged, and the value of each cell replaced by `T` of it. `n'` is the size of the volume of `v'`. -/
def AxesExchanged (n' G : I3) (i j : Nat) (T : V → V) (v v' : I3 → V) : Prop := ∀ p, IsInterior n' G p → v' p = T (v (swapped i j p))

end

section
variable {K V σ : Type} [Field K] [LinearOrder K] [IsStrictOrderedRing K] [AddCommGroup V] [Module K V]

/-- C97. Periodic runs of any scheme (any reconstruction and numerical flux that fit into the ghost cells, any of the integrators) from data moved by any number of cells in the directions of the
grid are the run from the original data, moved by as many cells: same times, same calls of the writers, same exceptions. The writers may keep track of what they have done, but may not let it
depend on the solution. -/
theorem C97_shift (dims g : Nat) (n G active : I3) (hL : Layout n G active dims g) (hN : ∀ d < dims, 3 * G.get d ≤ n.get d) (hpos : 0 < dims) (r : Recon V) (fl : FluxFn V K)
    (hf : Fits r fl g) (work work' : NetFlux.State V K) (hw : Sized n work) (hw' : Sized n work') (s : I3) (hs : ∀ e < 3, dims ≤ e → s.get e = 0)
    (k : Kind) (waveAdj : List (K → K)) (len : Nat → K) (cfl endTime : K) (obeys : (I3 → V) → Bool) (hobeys : ∀ v v', Shifted n G s v v' → obeys v' = obeys v)
    (writers : List ((I3 → V) → TimeInfo K → σ → Res σ)) (hwr : ∀ f ∈ writers, ∀ v v' info st, f v info st = f v' info st) (adj : σ → List (Adjuster K)) (c c' : Config (I3 → V) K σ)
    (hc : c = ⟨k, ⟨Step.cpuSystem dims r fl n G active work, waveAdj, len, cfl⟩, Step.cpuBoundary .periodic n g dims, obeys, writers, adj, endTime⟩)
    (hc' : c' = ⟨k, ⟨Step.cpuSystem dims r fl n G active work', waveAdj, len, cfl⟩, Step.cpuBoundary .periodic n g dims, obeys, writers, adj, endTime⟩)
    (u u' : I3 → V) (hu : Shifted n G s u u') (others others' : List (I3 → V)) (ho : others.length = k.substeps) (ho' : others'.length = k.substeps) (wst : σ) (fuel : Nat) :
    Agree (Shifted n G s) (start c u others wst >>= run c fuel) (start c' u' others' wst >>= run c' fuel) :=
  agree_of (run_shift hL hf hN hpos hw hw' hs k waveAdj len cfl endTime obeys obeys hobeys writers hwr adj c c' hc hc' u u' hu others others' ho ho' wst fuel)

end

/-- A run of one step on three cells, and the run from the data moved by one cell; both come to an end. -/
example : ∃ c : Config (I3 → ℝ) ℝ Unit,
    c = Verif.EulerRun.config3 (fun _ => Flux.godunov Flux.burgers) 1 (1 / 5) ∧ Shifted ⟨5, 1, 1⟩ ⟨1, 0, 0⟩ ⟨1, 0, 0⟩ (Verif.EulerRun.data3 (0 : ℝ) 1 5) (Verif.EulerRun.data3 1 5 0) ∧
    (∃ s, (start c (Verif.EulerRun.data3 0 1 5) [0] () >>= run c 1) = .ok (some s)) ∧
    Agree (Shifted ⟨5, 1, 1⟩ ⟨1, 0, 0⟩ ⟨1, 0, 0⟩) (start c (Verif.EulerRun.data3 0 1 5) [0] () >>= run c 1) (start c (Verif.EulerRun.data3 1 5 0) [0] () >>= run c 1) := by
  have hsh : Shifted ⟨5, 1, 1⟩ ⟨1, 0, 0⟩ ⟨1, 0, 0⟩ (Verif.EulerRun.data3 (0 : ℝ) 1 5) (Verif.EulerRun.data3 1 5 0) := by
    rintro ⟨x, y, z⟩ hp
    have h := hp 0 (by decide)
    simp [I3.get] at h
    have hx : x = 1 ∨ x = 2 ∨ x = 3 := by omega
    rcases hx with rfl | rfl | rfl <;> norm_num [Verif.EulerRun.data3]
  obtain ⟨s, u, h1, -, -⟩ := Verif.EulerRun.run3 (fun _ => Flux.godunov Flux.burgers) (0 : ℝ) 1 5 5 (by norm_num) (by norm_num [Flux.godunov, Flux.twoPointSpeed, Flux.burgers])
    (by norm_num [Flux.godunov, Flux.twoPointSpeed, Flux.burgers]) (by norm_num [Flux.godunov, Flux.twoPointSpeed, Flux.burgers]) (.inl (by norm_num [Flux.godunov, Flux.twoPointSpeed, Flux.burgers]))
    1 (1 / 5) (by norm_num) (by norm_num)
  exact ⟨_, rfl, hsh, ⟨s, h1⟩, C97_shift 1 1 ⟨5, 1, 1⟩ ⟨1, 0, 0⟩ ⟨1, 0, 0⟩ Verif.EulerRun.layout3 (by decide) (by decide) _ _ (Verif.EulerRun.fits _ le_rfl) _ _ Verif.EulerRun.sized3 Verif.EulerRun.sized3
    ⟨1, 0, 0⟩ (by decide) _ _ _ _ _ _ (fun _ _ _ => rfl) _ (by simp) _ _ _ rfl rfl _ _ hsh _ _ rfl rfl _ _⟩

/-- The hypothesis on the writers: a writer that counts its calls. -/
example : ∀ f ∈ [fun (_ : I3 → ℝ) (_ : TimeInfo ℝ) (k : Nat) => (.ok (k + 1) : Res Nat)], ∀ v v' info st, f v info st = f v' info st := by simp

/-! ### Reflections -/

section
variable {σ : Type}

/-- Fluxes for Burgers' equation (alsfvm/include/alsfvm/numflux/numerical_flux_list.hpp:43-73), by name. -/
def evenFluxes : List String := ["central", "rusanov", "godunov", "roe"]

/-- C98 for Burgers' equation, partial. Runs from data with the cells in the opposite order in all directions and the opposite sign are the run from the original data, with the cells in the opposite
order and the opposite sign: same times, same calls of the writers, same exceptions; for the fluxes `central`, `rusanov`, `godunov` and `roe`, with the reconstructions `none`, `mm`, `mc`, `weno2` (both
versions) and `weno3`, both boundary conditions, any of the integrators.
Missing: the reconstruction ENO, see `C98_fails_for_eno`, and the entropy stable fluxes (their entropy is defined for states between 0 and 2 only). -/
theorem C98_burgers_partial (b : BC) (dims g : Nat) (n G active : I3) (hL : Layout n G active dims g) (hN : ∀ d < dims, 3 * G.get d ≤ n.get d) (hpos : 0 < dims)
    (name : String) (hname : name ∈ evenFluxes) (F : Flux.Selected) (hsel : Flux.select .burgers name = some F) (r : Recon ℝ) (hr : ScalarEven r) (hf : Fits r (WholeRun.asFlux F) g)
    (work work' : NetFlux.State ℝ ℝ) (hw : Sized n work) (hw' : Sized n work') (k : Kind) (waveAdj : List (ℝ → ℝ)) (len : Nat → ℝ) (cfl endTime : ℝ)
    (obeys : (I3 → ℝ) → Bool) (hobeys : ∀ v v', MirrorImage n G (fun _ => true) (fun x => -x) v v' → obeys v' = obeys v)
    (writers : List ((I3 → ℝ) → TimeInfo ℝ → σ → Res σ)) (hwr : ∀ f ∈ writers, ∀ v v' info st, f v info st = f v' info st) (adj : σ → List (Adjuster ℝ)) (c c' : Config (I3 → ℝ) ℝ σ)
    (hc : c = ⟨k, ⟨Step.cpuSystem dims r (WholeRun.asFlux F) n G active work, waveAdj, len, cfl⟩, Step.cpuBoundary b n g dims, obeys, writers, adj, endTime⟩)
    (hc' : c' = ⟨k, ⟨Step.cpuSystem dims r (WholeRun.asFlux F) n G active work', waveAdj, len, cfl⟩, Step.cpuBoundary b n g dims, obeys, writers, adj, endTime⟩)
    (u u' : I3 → ℝ) (hu : MirrorImage n G (fun _ => true) (fun x => -x) u u') (others others' : List (I3 → ℝ)) (ho : others.length = k.substeps) (ho' : others'.length = k.substeps)
    (wst : σ) (fuel : Nat) :
    Agree (MirrorImage n G (fun _ => true) fun x => -x) (start c u others wst >>= run c fuel) (start c' u' others' wst >>= run c' fuel) := by
  have hF : Unhanded fun l r => F.fn [l, r] := by
    simp only [evenFluxes, List.mem_cons, List.not_mem_nil, or_false] at hname
    rcases hname with h | h | h | h <;> subst h <;> (simp only [Flux.select, Option.some.injEq] at hsel; subst hsel)
    · exact unhanded_central
    · exact unhanded_rusanov
    · exact unhanded_godunov
    · exact unhanded_roe
  exact agree_of (run_map hL hL hf hN hN hpos hw hw' (mirror_map b hL fun _ => true) (burgers_fair hr hF dims) k waveAdj len (fun _ _ => rfl) cfl endTime obeys obeys hobeys writers hwr adj c c' hc hc'
    u u' hu others others' ho ho' wst fuel)

/-- A run of one step on three cells, and the run from the mirror image of the data; both come to an end. -/
example : ∃ c : Config (I3 → ℝ) ℝ Unit,
    c = Verif.EulerRun.config3 (fun _ => Flux.godunov Flux.burgers) 1 (1 / 5) ∧ MirrorImage ⟨5, 1, 1⟩ ⟨1, 0, 0⟩ (fun _ => true) (fun x => -x) (Verif.EulerRun.data3 (0 : ℝ) 1 5) (Verif.EulerRun.data3 (-5) (-1) 0) ∧
    (∃ s, (start c (Verif.EulerRun.data3 0 1 5) [0] () >>= run c 1) = .ok (some s)) ∧
    Agree (MirrorImage ⟨5, 1, 1⟩ ⟨1, 0, 0⟩ (fun _ => true) fun x => -x) (start c (Verif.EulerRun.data3 0 1 5) [0] () >>= run c 1) (start c (Verif.EulerRun.data3 (-5) (-1) 0) [0] () >>= run c 1) := by
  have hsh : MirrorImage ⟨5, 1, 1⟩ ⟨1, 0, 0⟩ (fun _ => true) (fun x => -x) (Verif.EulerRun.data3 (0 : ℝ) 1 5) (Verif.EulerRun.data3 (-5) (-1) 0) := by
    rintro ⟨x, y, z⟩ hp
    have h := hp 0 (by decide)
    simp [I3.get] at h
    have hx : x = 1 ∨ x = 2 ∨ x = 3 := by omega
    rcases hx with rfl | rfl | rfl <;> norm_num [Verif.EulerRun.data3]
  obtain ⟨s, u, h1, -, -⟩ := Verif.EulerRun.run3 (fun _ => Flux.godunov Flux.burgers) (0 : ℝ) 1 5 5 (by norm_num) (by norm_num [Flux.godunov, Flux.twoPointSpeed, Flux.burgers])
    (by norm_num [Flux.godunov, Flux.twoPointSpeed, Flux.burgers]) (by norm_num [Flux.godunov, Flux.twoPointSpeed, Flux.burgers]) (.inl (by norm_num [Flux.godunov, Flux.twoPointSpeed, Flux.burgers]))
    1 (1 / 5) (by norm_num) (by norm_num)
  exact ⟨_, rfl, hsh, ⟨s, h1⟩, C98_burgers_partial .periodic 1 1 ⟨5, 1, 1⟩ ⟨1, 0, 0⟩ ⟨1, 0, 0⟩ Verif.EulerRun.layout3 (by decide) (by decide) "godunov" (by simp [evenFluxes]) _ rfl _ .none
    (ScalarRun.fits _ le_rfl) _ _ Verif.EulerRun.sized3 Verif.EulerRun.sized3 _ _ _ _ _ _ (fun _ _ _ => rfl) _ (by simp) _ _ _ rfl rfl _ _ hsh _ _ rfl rfl _ _⟩

/-- C98 is false for the reconstruction ENO: at a cell with the same difference to both neighbours it takes the neighbour to the right. A single cell with the value 1 becomes 31/32 after one step, its
mirror image -1 becomes -23/32. -/
theorem C98_fails_for_eno : ∃ c : Config (I3 → ℝ) ℝ Unit,
    c = ⟨.forwardEuler, ⟨Step.cpuSystem 1 (via scalarVec (Weno.enoRecon 2 0)) (ScalarRun.twoPoint (Flux.godunov Flux.burgers)) ⟨7, 1, 1⟩ ⟨2, 0, 0⟩ ⟨1, 0, 0⟩ workEno, [], fun _ => 1, 3 / 8⟩,
      Step.cpuBoundary .periodic ⟨7, 1, 1⟩ 2 1, fun _ => true, [], fun _ => [], 1 / 4⟩ ∧
    MirrorImage ⟨7, 1, 1⟩ ⟨2, 0, 0⟩ (fun _ => true) (fun x => -x) (peak 1) (peak (-1)) ∧
    ¬ Agree (MirrorImage ⟨7, 1, 1⟩ ⟨2, 0, 0⟩ (fun _ => true) fun x => -x) (start c (peak 1) [0] () >>= run c 1) (start c (peak (-1)) [0] () >>= run c 1) := by
  refine ⟨_, rfl, ?_, ?_⟩
  · rintro ⟨x, y, z⟩ hp
    have h := hp 0 (by decide)
    simp [I3.get] at h
    have hx : x = 2 ∨ x = 3 ∨ x = 4 := by omega
    rcases hx with rfl | rfl | rfl <;> norm_num [peak]
  · intro hA
    obtain ⟨s, u, h1, h2, h3⟩ := peak_step 1 (.inl rfl)
    obtain ⟨s', u', g1, g2, g3⟩ := peak_step (-1) (.inr rfl)
    have hA' : Agree (MirrorImage ⟨7, 1, 1⟩ ⟨2, 0, 0⟩ (fun _ => true) fun x => -x) (.ok (some s)) (.ok (some s')) := by
      rw [← h1, ← g1]
      exact hA
    obtain ⟨-, -, ⟨v, v', e1, e2, e3⟩, -⟩ := hA'
    rw [h2] at e1
    rw [g2] at e2
    cases e1
    cases e2
    have := e3 ⟨3, 0, 0⟩ (by decide)
    simp only [if_true] at this
    norm_num at this
    rw [h3, g3] at this
    norm_num at this

open Euler EulerFlux in
/-- The mirror image of a state of gas: the components of the momentum in the directions with `M` change their sign. -/
def mirrorState (m : Nat) (M : Nat → Bool) (U : Cons m) : Cons m := (U.1, fun i => if M i then -U.2.1 i else U.2.1 i, U.2.2)

theorem mirrorState_eq (m : Nat) (M : Nat → Bool) (U : Euler.Cons m) : signed (mirrorSigns m M) 1 U = mirrorState m M U := by
  refine Prod.ext rfl (Prod.ext (funext fun i => ?_) rfl)
  show mirrorSigns m M i * U.2.1 i = if M i then -U.2.1 i else U.2.1 i
  unfold mirrorSigns
  split_ifs <;> ring

open Euler EulerFlux Props.EulerRun Verif.EulerRun

theorem solverFlux_central (m : Nat) (γ : ℝ) : solverFlux m γ "central" = twoPoint (lift (central γ)) := rfl
theorem solverFlux_hll' (m : Nat) (γ : ℝ) : solverFlux m γ "hll" = twoPoint (lift (hll γ)) := rfl
theorem solverFlux_hll3 (m : Nat) (γ : ℝ) : solverFlux m γ "hll3" = twoPoint (lift (hll3 γ)) := rfl
theorem solverFlux_tecno1 (m : Nat) (γ : ℝ) : solverFlux m γ "tecno1" = twoPoint (lift (tecno1 m γ)) := rfl

/-- C98 for the Euler equations, partial. Runs from the mirror image of the data, with respect to any set of directions, are the mirror image of the run: same times, same calls of the writers, same
exceptions; for the fluxes `central` and `tecno1`, with the reconstructions `none`, `mm`, `mc`, `weno2` (both versions) and `weno3`, both boundary conditions, any of the integrators.
Missing: the fluxes `hll` and `hll3`, see `C98_fails_for_hll`; the reconstruction ENO, see `C98_fails_for_eno`; `wenof2`, which treats cells without positive density or pressure differently. -/
theorem C98_euler_partial (γ : ℝ) (b : BC) (m dims g : Nat) (hm0 : 1 ≤ m) (hm3 : m ≤ 3) (hm : dims ≤ m) (n G active : I3) (hL : Layout n G active dims g) (hN : ∀ d < dims, 3 * G.get d ≤ n.get d) (hpos : 0 < dims)
    (name : String) (hname : name = "central" ∨ name = "tecno1") (r : Recon (Cons m)) (hr : EulerEven m r) (hf : Fits r (solverFlux m γ name) g)
    (work work' : NetFlux.State (Cons m) ℝ) (hw : Sized n work) (hw' : Sized n work') (M : Nat → Bool) (k : Kind) (waveAdj : List (ℝ → ℝ)) (len : Nat → ℝ) (cfl endTime : ℝ)
    (obeys : (I3 → Cons m) → Bool) (hobeys : ∀ v v', MirrorImage n G M (mirrorState m M) v v' → obeys v' = obeys v)
    (writers : List ((I3 → Cons m) → TimeInfo ℝ → σ → Res σ)) (hwr : ∀ f ∈ writers, ∀ v v' info st, f v info st = f v' info st) (adj : σ → List (Adjuster ℝ)) (c c' : Config (I3 → Cons m) ℝ σ)
    (hc : c = ⟨k, ⟨Step.cpuSystem dims r (solverFlux m γ name) n G active work, waveAdj, len, cfl⟩, Step.cpuBoundary b n g dims, obeys, writers, adj, endTime⟩)
    (hc' : c' = ⟨k, ⟨Step.cpuSystem dims r (solverFlux m γ name) n G active work', waveAdj, len, cfl⟩, Step.cpuBoundary b n g dims, obeys, writers, adj, endTime⟩)
    (u u' : I3 → Cons m) (hu : MirrorImage n G M (mirrorState m M) u u') (others others' : List (I3 → Cons m)) (ho : others.length = k.substeps) (ho' : others'.length = k.substeps)
    (wst : σ) (fuel : Nat) :
    Agree (MirrorImage n G M (mirrorState m M)) (start c u others wst >>= run c fuel) (start c' u' others' wst >>= run c' fuel) := by
  have hT : mirrorState m M = signed (mirrorSigns m M) 1 := funext fun U => (mirrorState_eq m M U).symm
  have hε := mirrorSigns_ok m M
  have hfair : Fair r (solverFlux m γ name) (signed (mirrorSigns m M) 1) dims id M := by
    rcases hname with rfl | rfl
    · rw [solverFlux_central]
      exact mirror_fair hr M (fun d h => central_keeps hε d h) (fun d h => central_flips hε d h) hm
    · rw [solverFlux_tecno1]
      interval_cases m
      · exact mirror_fair hr M (fun d h => tecno1_keeps _ d h) (fun d h => tecno1_flips _ hε d h) hm
      · exact mirror_fair hr M (fun d h => tecno2_keeps _ hε d h) (fun d h => tecno2_flips _ hε d h) hm
      · exact mirror_fair hr M (fun d h => tecno3_keeps _ hε d h) (fun d h => tecno3_flips _ hε d h) hm
  rw [hT] at hobeys hu ⊢
  exact agree_of (run_map hL hL hf hN hN hpos hw hw' (mirror_map b hL M) hfair k waveAdj len (fun _ _ => rfl) cfl endTime obeys obeys hobeys writers hwr adj c c' hc hc'
    u u' hu others others' ho ho' wst fuel)

/-- Gas streaming to both sides, and its mirror image. -/
example : ∃ c : Config (I3 → Cons 1) ℝ Unit,
    c = config3 (lift (central 2)) 1 (1 / 2) ∧ MirrorImage ⟨5, 1, 1⟩ ⟨1, 0, 0⟩ (fun d => d == 0) (mirrorState 1 fun d => d == 0) (data3 exMiddle exMiddle exRight) (data3 exLeft exMiddle exMiddle) ∧
    Agree (MirrorImage ⟨5, 1, 1⟩ ⟨1, 0, 0⟩ (fun d => d == 0) (mirrorState 1 fun d => d == 0)) (start c (data3 exMiddle exMiddle exRight) [0] () >>= run c 1)
      (start c (data3 exLeft exMiddle exMiddle) [0] () >>= run c 1) := by
  have hsh : MirrorImage ⟨5, 1, 1⟩ ⟨1, 0, 0⟩ (fun d => d == 0) (mirrorState 1 fun d => d == 0) (data3 exMiddle exMiddle exRight) (data3 exLeft exMiddle exMiddle) := by
    rintro ⟨x, y, z⟩ hp
    have h := hp 0 (by decide)
    simp [I3.get] at h
    have hx : x = 1 ∨ x = 2 ∨ x = 3 := by omega
    rcases hx with rfl | rfl | rfl <;> refine Prod.ext ?_ (Prod.ext (funext fun i => ?_) ?_) <;> (try fin_cases i) <;>
      norm_num [data3, mirrorState, exMiddle, exRight, exLeft]
  exact ⟨_, rfl, hsh, C98_euler_partial 2 .periodic 1 1 1 le_rfl (by decide) le_rfl ⟨5, 1, 1⟩ ⟨1, 0, 0⟩ ⟨1, 0, 0⟩ layout3 (by decide) (by decide) "central" (.inl rfl) _ .none
    (fits _ le_rfl) _ _ sized3 sized3 _ _ _ _ _ _ _ (fun _ _ _ => rfl) _ (by simp) _ _ _ rfl rfl _ _ hsh _ _ rfl rfl _ _⟩

/-- Gas streaming to the right with the speed of sound, and faster. -/
noncomputable def exSonic : Cons 1 := (1, ![1], 1)
/-- Gas that is faster than the speed of sound. -/
noncomputable def exFast : Cons 1 := (1, ![3], 5)
/-- Their mirror images. -/
noncomputable def exSonic' : Cons 1 := (1, ![-1], 1)
/-- Its mirror image. -/
noncomputable def exFast' : Cons 1 := (1, ![-3], 5)

theorem hll_of {m : Nat} {γ : ℝ} {d : Fin m} {L R : Cons m} {a b : ℝ} (h : hllSpeeds γ d L R = (a, b)) : (hll γ d L R).1 =
    if a = 0 then 0 else if a > 0 then flux γ d L else if b < 0 then flux γ d R else (b - a)⁻¹ • (b • flux γ d L - a • flux γ d R + (b * a) • (R - L)) := by
  simp only [hll, h]

/-- C98 is false for the flux `hll`: the flux between two cells where the left speed is zero is zero (HLL.hpp:62-64), but where the right speed is zero it is not. -/
theorem C98_fails_for_hll : ∃ c : Config (I3 → Cons 1) ℝ Unit,
    c = ⟨.forwardEuler, ⟨Step.cpuSystem 1 CudaRecon.noRecon (solverFlux 1 2 "hll") ⟨5, 1, 1⟩ ⟨1, 0, 0⟩ ⟨1, 0, 0⟩ (work3 (Cons 1)), [], fun _ => 1, 1 / 2⟩,
        Step.cpuBoundary .periodic ⟨5, 1, 1⟩ 1 1, fun _ => true, [], fun _ => [], 1 / 8⟩ ∧
    MirrorImage ⟨5, 1, 1⟩ ⟨1, 0, 0⟩ (fun d => d == 0) (mirrorState 1 fun d => d == 0) (data3 exFast exSonic exSonic) (data3 exSonic' exSonic' exFast') ∧
    ¬ Agree (MirrorImage ⟨5, 1, 1⟩ ⟨1, 0, 0⟩ (fun d => d == 0) (mirrorState 1 fun d => d == 0)) (start c (data3 exFast exSonic exSonic) [0] () >>= run c 1)
      (start c (data3 exSonic' exSonic' exFast') [0] () >>= run c 1) := by
  refine ⟨_, rfl, ?_, ?_⟩
  · rintro ⟨x, y, z⟩ hp
    have h := hp 0 (by decide)
    simp [I3.get] at h
    have hx : x = 1 ∨ x = 2 ∨ x = 3 := by omega
    rcases hx with rfl | rfl | rfl <;> refine Prod.ext ?_ (Prod.ext (funext fun i => ?_) ?_) <;> (try fin_cases i) <;>
      norm_num [data3, mirrorState, exSonic, exFast, exSonic', exFast']
  · have sq : ∀ x : ℝ, x = 1 → Real.sqrt x = 1 := fun x hx => by rw [hx, Real.sqrt_one]
    have speeds : ∀ u v e f : ℝ, e = 1 / 2 + u * u / 2 → f = 1 / 2 + v * v / 2 → hllSpeeds 2 (0 : Fin 1) (1, ![u], e) (1, ![v], f) = (min (u - 1) ((u + v) / 2 - 1), max (v + 1) ((u + v) / 2 + 1)) := by
      rintro u v e f rfl rfl
      have s1 : ∀ w : ℝ, soundSpeed 2 ((1, ![w], 1 / 2 + w * w / 2) : Cons 1) = 1 := fun w => by
        rw [soundSpeed, sq]
        simp only [pressure, dot, Cons.m, Cons.rho, Cons.E, Finset.univ_unique, Finset.sum_singleton, Fin.default_eq_zero, Matrix.cons_val_zero]
        ring
      have s2 : meanSound 2 ((1, ![u], 1 / 2 + u * u / 2) : Cons 1) (1, ![v], 1 / 2 + v * v / 2) = 1 := by
        rw [meanSound, sq]
        simp only [meanPressure, pressure, dot, Cons.m, Cons.rho, Cons.E, Finset.univ_unique, Finset.sum_singleton, Fin.default_eq_zero, Matrix.cons_val_zero]
        norm_num
        try ring
      have s3 : meanVelocity (0 : Fin 1) ((1, ![u], 1 / 2 + u * u / 2) : Cons 1) (1, ![v], 1 / 2 + v * v / 2) = (u + v) / 2 := by
        simp [meanVelocity, velocity, Cons.m, Cons.rho]
        try ring
      rw [hllSpeeds, s1, s1, s2, s3]
      simp [velocity, Cons.m, Cons.rho]
    have f1 := speeds 1 3 1 5 (by norm_num) (by norm_num)
    have f2 := speeds 3 1 5 1 (by norm_num) (by norm_num)
    have f3 := speeds 1 1 1 1 (by norm_num) (by norm_num)
    have g1 := speeds (-3) (-1) 5 1 (by norm_num) (by norm_num)
    have g2 := speeds (-1) (-1) 1 1 (by norm_num) (by norm_num)
    have g3 := speeds (-1) (-3) 1 5 (by norm_num) (by norm_num)
    norm_num at f1 f2 f3 g1 g2 g3
    intro hA
    obtain ⟨s, u, h1, h2, h3⟩ := run3 (lift (hll 2)) exFast exSonic exSonic 4 (by norm_num)
      (by change max |(hllSpeeds 2 (0 : Fin 1) exSonic exFast).1| |(hllSpeeds 2 (0 : Fin 1) exSonic exFast).2| ≤ 4; rw [exSonic, exFast, f1]; norm_num)
      (by change max |(hllSpeeds 2 (0 : Fin 1) exFast exSonic).1| |(hllSpeeds 2 (0 : Fin 1) exFast exSonic).2| ≤ 4; rw [exSonic, exFast, f2]; norm_num)
      (by change max |(hllSpeeds 2 (0 : Fin 1) exSonic exSonic).1| |(hllSpeeds 2 (0 : Fin 1) exSonic exSonic).2| ≤ 4; rw [exSonic, f3]; norm_num)
      (.inl (by change max |(hllSpeeds 2 (0 : Fin 1) exSonic exFast).1| |(hllSpeeds 2 (0 : Fin 1) exSonic exFast).2| = 4; rw [exSonic, exFast, f1]; norm_num)) (1 / 2) (1 / 8) (by norm_num) (by norm_num)
    obtain ⟨s', u', k1, k2, k3⟩ := run3 (lift (hll 2)) exSonic' exSonic' exFast' 4 (by norm_num)
      (by change max |(hllSpeeds 2 (0 : Fin 1) exFast' exSonic').1| |(hllSpeeds 2 (0 : Fin 1) exFast' exSonic').2| ≤ 4; rw [exSonic', exFast', g1]; norm_num)
      (by change max |(hllSpeeds 2 (0 : Fin 1) exSonic' exSonic').1| |(hllSpeeds 2 (0 : Fin 1) exSonic' exSonic').2| ≤ 4; rw [exSonic', g2]; norm_num)
      (by change max |(hllSpeeds 2 (0 : Fin 1) exSonic' exFast').1| |(hllSpeeds 2 (0 : Fin 1) exSonic' exFast').2| ≤ 4; rw [exSonic', exFast', g3]; norm_num)
      (.inl (by change max |(hllSpeeds 2 (0 : Fin 1) exFast' exSonic').1| |(hllSpeeds 2 (0 : Fin 1) exFast' exSonic').2| = 4; rw [exSonic', exFast', g1]; norm_num)) (1 / 2) (1 / 8) (by norm_num) (by norm_num)
    have hA' : Agree (MirrorImage ⟨5, 1, 1⟩ ⟨1, 0, 0⟩ (fun d => d == 0) (mirrorState 1 fun d => d == 0)) (.ok (some s)) (.ok (some s')) := by
      rw [← h1, ← k1]
      exact hA
    obtain ⟨-, -, ⟨v, v', e1, e2, e3⟩, -⟩ := hA'
    rw [h2] at e1
    rw [k2] at e2
    cases e1
    cases e2
    have e := e3 ⟨2, 0, 0⟩ (by decide)
    have e' : (u' ⟨2, 0, 0⟩).1 = (u ⟨2, 0, 0⟩).1 := by
      have e := congrArg (fun U : Cons 1 => U.1) e
      exact e
    rw [h3, k3] at e'
    have a1 : (lift (hll 2) 0 exFast exSonic).1 = flux 2 0 exFast := by
      refine (hll_of (d := 0) f2).trans ?_
      rw [if_neg (by norm_num), if_pos (by norm_num)]
      rfl
    have a2 : (lift (hll 2) 0 exSonic exSonic).1 = 0 := by
      refine (hll_of (d := 0) f3).trans ?_
      rw [if_pos (by norm_num)]
    have a3 : (lift (hll 2) 0 exSonic' exSonic').1 = flux 2 0 exSonic' := by
      refine (hll_of (d := 0) g2).trans ?_
      rw [if_neg (by norm_num), if_neg (by norm_num), if_neg (by norm_num)]
      change (0 - -2 : ℝ)⁻¹ • ((0 : ℝ) • flux 2 0 exSonic' - (-2 : ℝ) • flux 2 0 exSonic' + (0 * -2 : ℝ) • (exSonic' - exSonic')) = flux 2 0 exSonic'
      generalize flux 2 0 exSonic' = U
      rw [sub_self, smul_zero, zero_smul, add_zero, zero_sub, zero_sub, ← neg_smul, smul_smul, show ((- -2 : ℝ)⁻¹ * - -2) = 1 by norm_num, one_smul]
    have a4 : (lift (hll 2) 0 exSonic' exFast').1 = flux 2 0 exFast' := by
      refine (hll_of (d := 0) g3).trans ?_
      rw [if_neg (by norm_num), if_neg (by norm_num), if_pos (by norm_num)]
      rfl
    rw [a1, a2, a3, a4] at e'
    norm_num [flux, exFast, exSonic, exFast', exSonic', Cons.m] at e'

/-! ### Exchange of axes -/

/-- C99 for one variable: a run on the domain with the axes `i` and `j` exchanged, from data with the axes exchanged, is the run with the axes exchanged: same times, same calls of the writers, same
exceptions; for any reconstruction and any flux that are the same in all directions, as those for the scalar equations, both boundary conditions, any of the integrators. The cells must have the same
length in both directions. -/
theorem C99_scalar {K V σ : Type} [Field K] [LinearOrder K] [IsStrictOrderedRing K] [AddCommGroup V] [Module K V] (b : BC) (dims g : Nat) (n n' G active : I3) (i j : Nat) (hi : i < dims) (hj : j < dims)
    (hn' : n' = swapped i j n) (hL : Layout n G active dims g) (hN : ∀ d < dims, 3 * G.get d ≤ n.get d)
    (r : Recon V) (hr : ∀ d e vals, r.lf d vals = r.lf e vals ∧ r.rf d vals = r.rf e vals) (fl : FluxFn V K) (hfl : ∀ d e a b, fl.fn d a b = fl.fn e a b) (hf : Fits r fl g)
    (work work' : NetFlux.State V K) (hw : Sized n work) (hw' : Sized n' work') (k : Kind) (waveAdj : List (K → K)) (len : Nat → K) (hlen : len i = len j) (cfl endTime : K)
    (obeys obeys' : (I3 → V) → Bool) (hobeys : ∀ v v', AxesExchanged n' G i j id v v' → obeys' v' = obeys v)
    (writers : List ((I3 → V) → TimeInfo K → σ → Res σ)) (hwr : ∀ f ∈ writers, ∀ v v' info st, f v info st = f v' info st) (adj : σ → List (Adjuster K)) (c c' : Config (I3 → V) K σ)
    (hc : c = ⟨k, ⟨Step.cpuSystem dims r fl n G active work, waveAdj, len, cfl⟩, Step.cpuBoundary b n g dims, obeys, writers, adj, endTime⟩)
    (hc' : c' = ⟨k, ⟨Step.cpuSystem dims r fl n' G active work', waveAdj, len, cfl⟩, Step.cpuBoundary b n' g dims, obeys', writers, adj, endTime⟩)
    (u u' : I3 → V) (hu : AxesExchanged n' G i j id u u') (others others' : List (I3 → V)) (ho : others.length = k.substeps) (ho' : others'.length = k.substeps) (wst : σ) (fuel : Nat) :
    Agree (AxesExchanged n' G i j id) (start c u others wst >>= run c fuel) (start c' u' others' wst >>= run c' fuel) := by
  have e : n' = exchange i j n := hn'
  subst e
  have hlen' : ∀ d < 3, len d = len (exch i j d) := by
    intro d _
    unfold exch
    split_ifs with h h
    · rw [h, hlen]
    · rw [h, hlen]
    · rfl
  have hfair : Fair r fl (LinearMap.id : V →ₗ[K] V) dims (exch i j) (fun _ => false) := by
    intro d _
    rw [if_neg (by simp)]
    intro a
    simp only [line, LinearMap.id_coe, id]
    simp only [(hr d (exch i j d) _).1, (hr d (exch i j d) _).2, hfl d (exch i j d)]
  exact agree_of (run_map (T := LinearMap.id) hL (exchange_layout hL hi hj) hf hN (exchange_room hL hN hi hj) (by omega) hw hw' (exchange_map b hL hi hj) hfair k waveAdj len hlen' cfl endTime obeys obeys' hobeys writers hwr adj
    c c' hc hc' u u' hu others others' ho ho' wst fuel)

/-- A domain of three by two cells. -/
example : ∃ c c' : Config (I3 → ℝ) ℝ Unit, c = plain 2 1 CudaRecon.noRecon (ScalarRun.twoPoint (Flux.godunov Flux.burgers)) ⟨5, 4, 1⟩ ⟨1, 1, 0⟩ ⟨1, 1, 0⟩ (workOf ℝ ⟨5, 4, 1⟩) (1 / 2) 1 ∧
    c' = plain 2 1 CudaRecon.noRecon (ScalarRun.twoPoint (Flux.godunov Flux.burgers)) ⟨4, 5, 1⟩ ⟨1, 1, 0⟩ ⟨1, 1, 0⟩ (workOf ℝ ⟨4, 5, 1⟩) (1 / 2) 1 ∧
    Agree (AxesExchanged ⟨4, 5, 1⟩ ⟨1, 1, 0⟩ 0 1 id) (start c (fun p => p.x + 10 * p.y) [0] () >>= run c 7) (start c' (fun p => p.y + 10 * p.x) [0] () >>= run c' 7) :=
  ⟨_, _, rfl, rfl, C99_scalar .periodic 2 1 ⟨5, 4, 1⟩ ⟨4, 5, 1⟩ ⟨1, 1, 0⟩ ⟨1, 1, 0⟩ 0 1 (by decide) (by decide) rfl ⟨by decide, by decide, by decide, by decide⟩ (by decide) _ (fun _ _ _ => ⟨rfl, rfl⟩) _
    (fun _ _ _ _ => rfl) (ScalarRun.fits _ le_rfl) _ _ (workOf_sized _ _) (workOf_sized _ _) _ _ _ rfl _ _ _ _ (fun _ _ _ => rfl) _ (by simp) _ _ _ rfl rfl _ _ (fun _ _ => rfl) _ _ rfl rfl _ _⟩

/-- The state of gas with the components `i` and `j` of the momentum exchanged. -/
def exchangeState (m i j : Nat) (U : Cons m) : Cons m :=
  (U.1, fun k => if h : k.1 = i ∧ j < m then U.2.1 ⟨j, h.2⟩ else if h : k.1 = j ∧ i < m then U.2.1 ⟨i, h.2⟩ else U.2.1 k, U.2.2)

theorem exchangeState_eq (m : Nat) {i j : Nat} (hi : i < m) (hj : j < m) (U : Cons m) : signed (fun _ => 1) (Equiv.swap (⟨i, hi⟩ : Fin m) ⟨j, hj⟩) U = exchangeState m i j U := by
  refine Prod.ext rfl (Prod.ext (funext fun k => ?_) rfl)
  show 1 * U.2.1 (Equiv.swap (⟨i, hi⟩ : Fin m) ⟨j, hj⟩ k) = _
  rw [one_mul, Equiv.swap_apply_def]
  simp only [exchangeState, Fin.ext_iff, hi, hj, and_true]
  split_ifs <;> rfl

/-- The reconstructions for the Euler equations (alsfvm/src/reconstruction/ReconstructionFactory.cpp:55-155). -/
inductive EulerRecon (m : Nat) (γ : ℝ) : Recon (Cons m) → Prop where
  | even {r : Recon (Cons m)} : EulerEven m r → EulerRecon m γ r
  | eno {k : Nat} : 2 ≤ k → k ≤ 4 → EulerRecon m γ (via (eulerVec m) (Weno.enoRecon k 0))
  | wenof2 : EulerRecon m γ (Weno.wenoF2Recon γ)

/-- C99 for the Euler equations, partial. A run on the domain with the axes `i` and `j` exchanged, from data with the axes and the components of the momentum exchanged, is the run with axes and
components exchanged: same times, same calls of the writers, same exceptions; for the fluxes `hll`, `hll3` and `central` in any number of dimensions and `tecno1` in two dimensions, all
reconstructions, both boundary conditions, any of the integrators. The cells must have the same length in both directions.
Missing: `tecno1` in three dimensions, see `C99_fails_for_tecno1`; the fluxes with wider stencils that are built from it. -/
theorem C99_euler_partial (γ : ℝ) (b : BC) (m dims g : Nat) (hm : dims ≤ m) (n n' G active : I3) (i j : Nat) (hi : i < dims) (hj : j < dims) (hn' : n' = swapped i j n)
    (hL : Layout n G active dims g) (hN : ∀ d < dims, 3 * G.get d ≤ n.get d) (name : String) (hname : name = "hll" ∨ name = "hll3" ∨ name = "central" ∨ name = "tecno1" ∧ m ≤ 2)
    (r : Recon (Cons m)) (hr : EulerRecon m γ r) (hf : Fits r (solverFlux m γ name) g)
    (work work' : NetFlux.State (Cons m) ℝ) (hw : Sized n work) (hw' : Sized n' work') (k : Kind) (waveAdj : List (ℝ → ℝ)) (len : Nat → ℝ) (hlen : len i = len j) (cfl endTime : ℝ)
    (obeys obeys' : (I3 → Cons m) → Bool) (hobeys : ∀ v v', AxesExchanged n' G i j (exchangeState m i j) v v' → obeys' v' = obeys v)
    (writers : List ((I3 → Cons m) → TimeInfo ℝ → σ → Res σ)) (hwr : ∀ f ∈ writers, ∀ v v' info st, f v info st = f v' info st) (adj : σ → List (Adjuster ℝ)) (c c' : Config (I3 → Cons m) ℝ σ)
    (hc : c = ⟨k, ⟨Step.cpuSystem dims r (solverFlux m γ name) n G active work, waveAdj, len, cfl⟩, Step.cpuBoundary b n g dims, obeys, writers, adj, endTime⟩)
    (hc' : c' = ⟨k, ⟨Step.cpuSystem dims r (solverFlux m γ name) n' G active work', waveAdj, len, cfl⟩, Step.cpuBoundary b n' g dims, obeys', writers, adj, endTime⟩)
    (u u' : I3 → Cons m) (hu : AxesExchanged n' G i j (exchangeState m i j) u u') (others others' : List (I3 → Cons m)) (ho : others.length = k.substeps) (ho' : others'.length = k.substeps)
    (wst : σ) (fuel : Nat) :
    Agree (AxesExchanged n' G i j (exchangeState m i j)) (start c u others wst >>= run c fuel) (start c' u' others' wst >>= run c' fuel) := by
  have e : n' = exchange i j n := hn'
  subst e
  have hi' : i < m := by omega
  have hj' : j < m := by omega
  have hT : exchangeState m i j = signed (fun _ => 1) (Equiv.swap (⟨i, hi'⟩ : Fin m) ⟨j, hj'⟩) := funext fun U => (exchangeState_eq m hi' hj' U).symm
  have hlen' : ∀ d < 3, len d = len (exch i j d) := by
    intro d _
    unfold exch
    split_ifs with h h
    · rw [h, hlen]
    · rw [h, hlen]
    · rfl
  have hε : Signs fun _ : Fin m => (1 : ℝ) := fun _ => Or.inl rfl
  have hrk : ∀ d e, ReconKeep r (signed (fun _ => 1) (Equiv.swap (⟨i, hi'⟩ : Fin m) ⟨j, hj'⟩)) d e := by
    intro d e
    cases hr with
    | even h => exact eulerEven_keep h hε _ d e
    | eno h2 h4 => exact euler_eno_keep h2 h4 _ _ d e
    | wenof2 => exact wenoF2_keep hε _ d e
  have hfair : Fair r (solverFlux m γ name) (signed (fun _ => 1) (Equiv.swap (⟨i, hi'⟩ : Fin m) ⟨j, hj'⟩)) dims (exch i j) (fun _ => false) := by
    rcases hname with rfl | rfl | rfl | ⟨rfl, h2⟩
    · exact exchange_fair hi' hj' hrk (fun d => hll_keeps hε d rfl) hm
    · exact exchange_fair hi' hj' hrk (fun d => hll3_keeps hε d rfl) hm
    · exact exchange_fair hi' hj' hrk (fun d => central_keeps hε d rfl) hm
    · refine exchange_fair (F := tecno1 m γ) hi' hj' hrk (fun d => ?_) hm
      interval_cases m
      · omega
      · have : Equiv.swap (⟨i, hi'⟩ : Fin 1) ⟨j, hj'⟩ = 1 := Subsingleton.elim _ _
        rw [this]
        exact tecno1_keeps _ d rfl
      · interval_cases i <;> interval_cases j
        · rw [show Equiv.swap (⟨0, hi'⟩ : Fin 2) ⟨0, hj'⟩ = 1 from Equiv.swap_self _]
          exact tecno2_keeps _ hε d rfl
        · exact tecno2_swaps d
        · rw [Equiv.swap_comm]
          exact tecno2_swaps d
        · rw [show Equiv.swap (⟨1, hi'⟩ : Fin 2) ⟨1, hj'⟩ = 1 from Equiv.swap_self _]
          exact tecno2_keeps _ hε d rfl
  rw [hT] at hobeys hu ⊢
  exact agree_of (run_map hL (exchange_layout hL hi hj) hf hN (exchange_room hL hN hi hj) (by omega) hw hw' (exchange_map b hL hi hj) hfair k waveAdj len hlen' cfl endTime obeys obeys' hobeys writers hwr adj
    c c' hc hc' u u' hu others others' ho ho' wst fuel)

/-- Gas in a domain of three by one by one cells. -/
example : ∃ c c' : Config (I3 → Cons 3) ℝ Unit, c = plain 3 1 CudaRecon.noRecon (solverFlux 3 2 "hll") ⟨3, 3, 5⟩ ⟨1, 1, 1⟩ ⟨1, 1, 1⟩ (workOf (Cons 3) ⟨3, 3, 5⟩) (1 / 2) 1 ∧
    c' = plain 3 1 CudaRecon.noRecon (solverFlux 3 2 "hll") ⟨5, 3, 3⟩ ⟨1, 1, 1⟩ ⟨1, 1, 1⟩ (workOf (Cons 3) ⟨5, 3, 3⟩) (1 / 2) 1 ∧
    Agree (AxesExchanged ⟨5, 3, 3⟩ ⟨1, 1, 1⟩ 0 2 (exchangeState 3 0 2)) (start c (fun p => (4, ![1, 2, 3], 7 + p.z)) [0] () >>= run c 7) (start c' (fun p => (4, ![3, 2, 1], 7 + p.x)) [0] () >>= run c' 7) := by
  refine ⟨_, _, rfl, rfl, C99_euler_partial 2 .periodic 3 3 1 le_rfl ⟨3, 3, 5⟩ ⟨5, 3, 3⟩ ⟨1, 1, 1⟩ ⟨1, 1, 1⟩ 0 2 (by decide) (by decide) rfl layoutZ (by decide) "hll" (.inl rfl) _ (.even .none)
    (fits _ le_rfl) _ _ (workOf_sized _ _) (workOf_sized _ _) _ _ _ rfl _ _ _ _ (fun _ _ _ => rfl) _ (by simp) _ _ _ rfl rfl _ _ (fun p _ => ?_) _ _ rfl rfl _ _⟩
  refine Prod.ext rfl (Prod.ext (funext fun k => ?_) rfl)
  fin_cases k <;> rfl

/-- C99 is false for `tecno1` in three dimensions, whose flux in the last direction is zero (Tecno1.hpp:52-90 has no branch for it): gas at rest with different pressures along the last axis stays as it
is, but along the first axis it is set in motion. -/
theorem C99_fails_for_tecno1 : ∃ (endTime : ℝ) (c c' : Config (I3 → Cons 3) ℝ Unit), 0 < endTime ∧
    c = ⟨.forwardEuler, ⟨Step.cpuSystem 3 CudaRecon.noRecon (solverFlux 3 2 "tecno1") ⟨3, 3, 5⟩ ⟨1, 1, 1⟩ ⟨1, 1, 1⟩ (workOf (Cons 3) ⟨3, 3, 5⟩), [], fun _ => 1, 1⟩,
      Step.cpuBoundary .periodic ⟨3, 3, 5⟩ 1 3, fun _ => true, [], fun _ => [], endTime⟩ ∧
    c' = ⟨.forwardEuler, ⟨Step.cpuSystem 3 CudaRecon.noRecon (solverFlux 3 2 "tecno1") ⟨5, 3, 3⟩ ⟨1, 1, 1⟩ ⟨1, 1, 1⟩ (workOf (Cons 3) ⟨5, 3, 3⟩), [], fun _ => 1, 1⟩,
      Step.cpuBoundary .periodic ⟨5, 3, 3⟩ 1 3, fun _ => true, [], fun _ => [], endTime⟩ ∧
    AxesExchanged ⟨5, 3, 3⟩ ⟨1, 1, 1⟩ 0 2 (exchangeState 3 0 2) (row 2) (row 0) ∧
    ¬ Agree (AxesExchanged ⟨5, 3, 3⟩ ⟨1, 1, 1⟩ 0 2 (exchangeState 3 0 2)) (start c (row 2) [0] () >>= run c 1) (start c' (row 0) [0] () >>= run c' 1) := by
  obtain ⟨e, he, ⟨s, u, h1, h2, h3⟩, s', u', g1, g2, g3⟩ := row_step
  have rest : ∀ U ∈ [restA, restB, restC], exchangeState 3 0 2 U = U := by
    intro U hU
    simp only [List.mem_cons, List.not_mem_nil, or_false] at hU
    rcases hU with rfl | rfl | rfl <;> refine Prod.ext rfl (Prod.ext (funext fun k => ?_) rfl) <;> fin_cases k <;> rfl
  refine ⟨e, _, _, he, rfl, rfl, fun p _ => ?_, fun hA => ?_⟩
  · have : (swapped 0 2 p).get 2 = p.get 0 := rfl
    simp only [row, this]
    split_ifs
    · exact (rest _ (by simp)).symm
    · exact (rest _ (by simp)).symm
    · exact (rest _ (by simp)).symm
  · have hA' : Agree (AxesExchanged ⟨5, 3, 3⟩ ⟨1, 1, 1⟩ 0 2 (exchangeState 3 0 2)) (.ok (some s)) (.ok (some s')) := by
      rw [← h1, ← g1]
      exact hA
    obtain ⟨-, -, ⟨v, v', e1, e2, e3⟩, -⟩ := hA'
    rw [h2] at e1
    rw [g2] at e2
    cases e1
    cases e2
    have e4 : u' ⟨2, 1, 1⟩ = exchangeState 3 0 2 (u ⟨1, 1, 2⟩) := e3 ⟨2, 1, 1⟩ (by decide)
    rw [h3, rest _ (by simp)] at e4
    exact g3 (by rw [e4]; rfl)

end

end Props
end Verif
