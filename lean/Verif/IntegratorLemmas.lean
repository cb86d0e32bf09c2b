import Verif.Simulator
import Mathlib.Tactic.FieldSimp
import Mathlib.Tactic.Ring

/-! Helper lemmas for the integrators: one step of the simulator in closed form. -/

namespace Verif
namespace Integrator
open Simulator
variable {K V W σ : Type} [Field K] [LinearOrder K] [IsStrictOrderedRing K] [AddCommGroup V] [Module K V] [AddCommGroup W] [Module K W]

/-- Textbook Runge-Kutta schemes for `w' = L w` with step `h`: forward Euler, the strong stability preserving schemes of order two and three of Shu and Osher, and
the classical scheme of order four. -/
def textbook (k : Kind) (L : W → W) (h : K) (w : W) : W :=
  match k with
  | .forwardEuler => w + h • L w
  | .rungeKutta2 =>
    let w1 := w + h • L w
    (1 / 2 : K) • w + (1 / 2 : K) • (w1 + h • L w1)
  | .rungeKutta3 =>
    let w1 := w + h • L w
    let w2 := (3 / 4 : K) • w + (1 / 4 : K) • (w1 + h • L w1)
    (1 / 3 : K) • w + (2 / 3 : K) • (w2 + h • L w2)
  | .rungeKutta4 =>
    let k1 := L w
    let k2 := L (w + (h / 2) • k1)
    let k3 := L (w + (h / 2) • k2)
    let k4 := L (w + h • k3)
    w + (h / 6) • (k1 + (2 : K) • k2 + (2 : K) • k3 + k4)

/-- What the integrators need from the right hand side and the boundary conditions. `int` extracts the interior cells, `Ready` says that the boundary conditions
have been applied since the interior was last written. Boundary conditions make a volume ready and leave the interior alone; on a ready volume the right hand side
writes to the interior of its output a function `F` of the interior of its input and leaves the interior of its input alone. -/
structure Sound (sys : System V K) (bc : V → Res V) (int : V →ₗ[K] W) (F : W → W) (ws : W → Nat → K) (Ready : V → Prop) : Prop where
  bc_ok : ∀ v, ∃ v', bc v = .ok v' ∧ int v' = int v ∧ Ready v'
  sys_ok : ∀ v out, Ready v → ∃ r, sys v out = .ok r ∧ int r.1 = int v ∧ int r.2.1 = F (int v) ∧ r.2.2 = ws (int v)

theorem finite_ok {dt : K} {len : Nat → K} (h : len 0 ≠ 0) : finite (dt : WithTop K) len = .ok dt := by
  change (if len 0 = 0 then _ else _) = _
  rw [if_neg h]

theorem incrementWith_ok (c : Config V K σ) {sys : Nat → System V K} {int : V →ₗ[K] W} {F : W → W} {ws : W → Nat → K} {Ready : V → Prop}
    (hs : ∀ i, Sound (sys i) c.bc int F ws Ready) (s : Sim V K σ) (hlen : s.vols.length = c.kind.substeps + 1) (u : V) (hu : s.vols[0]? = some u)
    (hr : Ready u) (dt : K) (hdt : computeTimestep c.env.waveAdj (c.adjusters s.ws) (ws (int u)) c.env.len c.env.cfl s.info = dt) (hx : c.env.len 0 ≠ 0) :
    ∃ s' u', incrementWith c sys s = .ok s' ∧ s'.vols[0]? = some u' ∧ s'.vols.length = s.vols.length ∧ Ready u' ∧
      int u' = textbook c.kind (fun w => (1 / c.env.len 0) • F w) dt (int u) ∧ s'.info = s.info.increment dt ∧ s'.ws = s.ws ∧ s'.log = s.log := by
  obtain ⟨kind, env, bc, obeys, writers, adjusters, endTime⟩ := c
  obtain ⟨vols, info, wst, log⟩ := s
  simp only at *
  cases kind with
  | forwardEuler =>
    obtain ⟨a, b, rfl⟩ : ∃ a b, vols = [a, b] := List.length_eq_two.1 hlen
    obtain rfl : a = u := by simpa using hu
    obtain ⟨r, r1, r2, r3, r4⟩ := (hs 0).sys_ok a b hr
    obtain ⟨v, v1, v2, v3⟩ := (hs 0).bc_ok ((dt / env.len 0) • r.2.1 + r.1)
    refine ⟨⟨[v, r.1], info.increment dt, wst, log⟩, v, ?_, rfl, rfl, v3, ?_, rfl, rfl, rfl⟩
    · simp [incrementWith, Kind.substeps, substepAndBoundary, performSubstep, at', r1, r4, hdt, finite_ok hx, combine, v1, swapEnds, List.range_succ]
    · rw [v2, map_add, map_smul, r2, r3]
      unfold textbook
      match_scalars <;> field_simp
  | rungeKutta2 =>
    obtain ⟨a, b, d, rfl⟩ : ∃ a b d, vols = [a, b, d] := List.length_eq_three.1 hlen
    obtain rfl : a = u := by simpa using hu
    obtain ⟨r, r1, r2, r3, r4⟩ := (hs 0).sys_ok a b hr
    obtain ⟨v, v1, v2, v3⟩ := (hs 0).bc_ok ((dt / env.len 0) • r.2.1 + r.1)
    obtain ⟨q, q1, q2, q3, q4⟩ := (hs 1).sys_ok v d v3
    obtain ⟨x, x1, x2, x3⟩ := (hs 0).bc_ok ((1 / 2 : K) • ((dt / env.len 0) • q.2.1 + q.1 + r.1))
    rw [map_add, map_smul, r2, r3] at v2
    refine ⟨⟨[x, q.1, r.1], info.increment dt, wst, log⟩, x, ?_, rfl, rfl, x3, ?_, rfl, rfl, rfl⟩
    · simp at x1
      simp [incrementWith, Kind.substeps, substepAndBoundary, performSubstep, at', hdt, finite_ok hx, combine, swapEnds, List.range_succ, r1, r4, v1, q1, x1]
    · have e : int v = int a + dt • ((1 / env.len 0) • F (int a)) := by rw [v2]; match_scalars <;> field_simp
      rw [x2]
      simp only [map_add, map_smul, r2, q2, q3, e]
      unfold textbook
      match_scalars <;> field_simp
  | rungeKutta3 =>
    obtain ⟨a, b, d, g, rfl⟩ : ∃ a b d g, vols = [a, b, d, g] := by
      obtain ⟨a, l, rfl⟩ : ∃ a l, vols = a :: l := by cases vols with | nil => simp at hlen | cons a l => exact ⟨a, l, rfl⟩
      obtain ⟨b, d, g, rfl⟩ := List.length_eq_three.1 (by simpa [Kind.substeps] using hlen : l.length = 3)
      exact ⟨a, b, d, g, rfl⟩
    obtain rfl : a = u := by simpa using hu
    obtain ⟨r, r1, r2, r3, r4⟩ := (hs 0).sys_ok a b hr
    obtain ⟨v, v1, v2, v3⟩ := (hs 0).bc_ok ((dt / env.len 0) • r.2.1 + r.1)
    obtain ⟨q, q1, q2, q3, q4⟩ := (hs 1).sys_ok v d v3
    obtain ⟨x, x1, x2, x3⟩ := (hs 0).bc_ok ((3 / 4 : K) • ((1 / 3 : K) • ((dt / env.len 0) • q.2.1 + q.1) + r.1))
    obtain ⟨y, y1, y2, y3, y4⟩ := (hs 2).sys_ok x g x3
    obtain ⟨z, z1, z2, z3⟩ := (hs 0).bc_ok ((1 / 3 : K) • ((2 : K) • ((dt / env.len 0) • y.2.1 + y.1) + r.1))
    rw [map_add, map_smul, r2, r3] at v2
    refine ⟨⟨[z, q.1, y.1, r.1], info.increment dt, wst, log⟩, z, ?_, rfl, rfl, z3, ?_, rfl, rfl, rfl⟩
    · simp at x1 z1
      simp [incrementWith, Kind.substeps, substepAndBoundary, performSubstep, at', hdt, finite_ok hx, combine, swapEnds, List.range_succ, r1, r4, v1, q1, x1, y1, z1]
    · have e : int v = int a + dt • ((1 / env.len 0) • F (int a)) := by rw [v2]; match_scalars <;> field_simp
      have e2 : int x = (3 / 4 : K) • int a + (1 / 4 : K) • (int v + dt • ((1 / env.len 0) • F (int v))) := by
        rw [x2]
        simp only [map_add, map_smul, r2, q2, q3]
        match_scalars <;> field_simp
      rw [z2]
      simp only [map_add, map_smul, r2, y2, y3, e2, e]
      unfold textbook
      match_scalars <;> field_simp <;> ring
  | rungeKutta4 =>
    obtain ⟨a, b, d, g, f, rfl⟩ : ∃ a b d g f, vols = [a, b, d, g, f] := by
      obtain ⟨a, l, rfl⟩ : ∃ a l, vols = a :: l := by cases vols with | nil => simp at hlen | cons a l => exact ⟨a, l, rfl⟩
      obtain ⟨b, l, rfl⟩ : ∃ b l', l = b :: l' := by cases l with | nil => simp [Kind.substeps] at hlen | cons a l => exact ⟨a, l, rfl⟩
      obtain ⟨d, g, f, rfl⟩ := List.length_eq_three.1 (by simpa [Kind.substeps] using hlen : l.length = 3)
      exact ⟨a, b, d, g, f, rfl⟩
    obtain rfl : a = u := by simpa using hu
    obtain ⟨r, r1, r2, r3, r4⟩ := (hs 0).sys_ok a b hr
    obtain ⟨v, v1, v2, v3⟩ := (hs 0).bc_ok ((1 / 2 : K) • (dt / env.len 0) • r.2.1 + r.1)
    obtain ⟨q, q1, q2, q3, q4⟩ := (hs 1).sys_ok v d v3
    obtain ⟨x, x1, x2, x3⟩ := (hs 0).bc_ok ((1 / 2 : K) • (dt / env.len 0) • q.2.1 + r.1)
    obtain ⟨y, y1, y2, y3, y4⟩ := (hs 2).sys_ok x g x3
    obtain ⟨z, z1, z2, z3⟩ := (hs 0).bc_ok ((dt / env.len 0) • y.2.1 + r.1)
    obtain ⟨m, m1, m2, m3, m4⟩ := (hs 3).sys_ok z f z3
    obtain ⟨t, t1, t2, t3⟩ := (hs 0).bc_ok (((1 / 6) * (dt / env.len 0) : K) • m.2.1 + (1 / 3 : K) • q.1 + (2 / 3 : K) • y.1 + (1 / 3 : K) • m.1 + (-1 / 3 : K) • r.1)
    have e : int v = int a + (dt / 2) • ((1 / env.len 0) • F (int a)) := by rw [v2]; simp only [map_add, map_smul, r2, r3]; match_scalars <;> field_simp
    have e2 : int x = int a + (dt / 2) • ((1 / env.len 0) • F (int v)) := by rw [x2]; simp only [map_add, map_smul, r2, q3]; match_scalars <;> field_simp
    have e3 : int z = int a + dt • ((1 / env.len 0) • F (int x)) := by rw [z2]; simp only [map_add, map_smul, r2, y3]; match_scalars <;> field_simp
    refine ⟨⟨[t, q.1, y.1, m.1, r.1], info.increment dt, wst, log⟩, t, ?_, rfl, rfl, t3, ?_, rfl, rfl, rfl⟩
    · simp at v1 x1 t1
      simp [incrementWith, Kind.substeps, substepAndBoundary, performSubstep, at', hdt, finite_ok hx, combine, swapEnds, List.range_succ, rk4Combine, r1, r4, v1, q1, x1, y1, z1, m1, t1]
    · rw [t2]
      simp only [map_add, map_smul, r2, q2, y2, m2, m3, e3, e2, e]
      unfold textbook
      match_scalars <;> field_simp <;> ring

/-- One step in closed form. -/
theorem increment_ok (c : Config V K σ) {int : V →ₗ[K] W} {F : W → W} {ws : W → Nat → K} {Ready : V → Prop}
    (hs : Sound c.env.sys c.bc int F ws Ready) (s : Sim V K σ) (hlen : s.vols.length = c.kind.substeps + 1) (u : V) (hu : s.vols[0]? = some u)
    (hr : Ready u) (dt : K) (hdt : computeTimestep c.env.waveAdj (c.adjusters s.ws) (ws (int u)) c.env.len c.env.cfl s.info = dt) (hx : c.env.len 0 ≠ 0) :
    ∃ s' u', incrementSolution c s = .ok s' ∧ s'.vols[0]? = some u' ∧ s'.vols.length = s.vols.length ∧ Ready u' ∧
      int u' = textbook c.kind (fun w => (1 / c.env.len 0) • F w) dt (int u) ∧ s'.info = s.info.increment dt ∧ s'.ws = s.ws ∧ s'.log = s.log :=
  incrementWith_ok c (sys := fun _ => c.env.sys) (fun _ => hs) s hlen u hu hr dt hdt hx

end Integrator
end Verif
