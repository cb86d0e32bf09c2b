import Verif.FunctionalsLemmas
import Verif.Writers

/-! Property theorems C40 (functionals integrated in time). -/

namespace Verif.Props.Functionals
open Verif Verif.Functionals Verif.Structure Verif.Boundary Verif.Iterate Verif.Integrator Verif.Writers

/-- The sum over the calls in the window of (time since the previous call) times the functional `φ` of the state; `last` is the time before the first call. -/
noncomputable def timeSum (time radius : ℝ) (φ : Vol → ℝ) : ℝ → List (Vol × TimeInfo ℝ) → ℝ
  | _, [] => 0
  | last, (u, i) :: l => (if |i.time - time| ≤ radius then (i.time - last) * φ u else 0) + timeSum time radius φ i.time l

/-- `TimeIntegrationFunctional` around the functional `f`, called with states satisfying `In`, at least once, at any times: the volume written at the end has, in every variable and
cell, the time sum of `φ`. The output has `n` cells, `g` ghost cells and `k` variables. -/
def TimeIntegrates (f : Vol → Vol → ℝ → Res Vol) (n g : I3) (k : Nat) (In : Vol → Prop) (φ : Vol → Nat → I3 → ℝ) : Prop :=
  ∀ (time radius : ℝ) (calls : List (Vol × TimeInfo ℝ)), calls ≠ [] → (∀ c ∈ calls, In c.1) →
    ∃ s out, calls.foldlM (fun s c => functionalWrite time radius (makeVolume n g k) f c.1 c.2 s) (none, 0) = .ok s ∧ functionalFinalize s = .ok out ∧
      ∀ var c, var < k → InBlock (n + g + g) c → out.at var c = some (timeSum time radius (fun u => φ u var c) 0 calls)

theorem inSize_of_block {n c : I3} (h : InBlock n c) : inSize n c = true := by
  rw [inSize_iff]; unfold InBlock at h; omega

theorem run_accumulates {f : Vol → Vol → ℝ → Res Vol} {n g : I3} {k : Nat} {In : Vol → Prop} {φ : Vol → Nat → I3 → ℝ} (h : Accumulates f n g k In φ) (time radius : ℝ) :
    ∀ (calls : List (Vol × TimeInfo ℝ)) (vol : Vol) (o : Option Vol) (last : ℝ), (∀ c ∈ calls, In c.1) → vol.Shape n g k → o.getD (makeVolume n g k) = vol → (calls = [] → o = some vol) →
      ∃ s out, calls.foldlM (fun s c => functionalWrite time radius (makeVolume n g k) f c.1 c.2 s) (o, last) = .ok s ∧ functionalFinalize s = .ok out ∧
        Added (fun var c => timeSum time radius (fun u => φ u var c) last calls) vol out := by
  intro calls
  induction calls with
  | nil =>
    intro vol o last _ _ _ hn
    refine ⟨_, vol, rfl, ?_, (added_zero vol).congr fun _ _ => rfl⟩
    rw [hn rfl]; rfl
  | cons a l ih =>
    intro vol o last hin hs ho _
    obtain ⟨u, i⟩ := a
    by_cases hw : |i.time - time| ≤ radius
    · obtain ⟨v1, e1, s1, a1⟩ := h vol u (i.time - last) hs (hin (u, i) (by simp))
      obtain ⟨s, out, e2, e3, a2⟩ := ih v1 (some v1) i.time (fun c hc => hin c (by simp [hc])) s1 rfl (fun _ => rfl)
      refine ⟨s, out, ?_, e3, (a1.trans a2).congr fun var c => by simp [timeSum, hw]⟩
      rw [List.foldlM_cons]
      simp only [functionalWrite, ho, if_pos hw, e1, Res.ok_bind, Res.pure_eq]
      exact e2
    · obtain ⟨s, out, e2, e3, a2⟩ := ih vol (some vol) i.time (fun c hc => hin c (by simp [hc])) hs rfl (fun _ => rfl)
      refine ⟨s, out, ?_, e3, a2.congr fun var c => by simp [timeSum, hw]⟩
      rw [List.foldlM_cons]
      simp only [functionalWrite, ho, if_neg hw, Res.ok_bind, Res.pure_eq]
      exact e2

theorem timeIntegrates_of {f : Vol → Vol → ℝ → Res Vol} {n g : I3} {k : Nat} {In : Vol → Prop} {φ : Vol → Nat → I3 → ℝ} (h : Accumulates f n g k In φ) : TimeIntegrates f n g k In φ := by
  intro time radius calls hne hin
  obtain ⟨s, out, e1, e2, a⟩ := run_accumulates h time radius calls (makeVolume n g k) none 0 hin (makeVolume_shape n g k) rfl (fun h => absurd h hne)
  refine ⟨s, out, e1, e2, fun var c hv hc => ?_⟩
  rw [a, makeVolume_at hv (inSize_of_block hc)]
  simp

/-- C40, for the identity: the result is the time integral of the state in each interior cell. What is missing in C40: the structure functions (the `fails` theorems below),
runs in which the functional is never called, and the first weight when the functional is wrapped with snapshots. -/
theorem C40_identity_partial (n g : I3) (hg : 0 ≤ g.x ∧ 0 ≤ g.y ∧ 0 ≤ g.z) (k : Nat) :
    TimeIntegrates identity n 0 k (Vol.Shape n g k) (fun u var c => if var < k ∧ c ∈ box 0 n then u.inner var c else 0) :=
  timeIntegrates_of (identity_accumulates n g hg k)

/-- C40, for the moments: the time integral of the power of the state in each cell, ghost cells included. -/
theorem C40_moment_partial (degree : Nat) (n g : I3) (k : Nat) :
    TimeIntegrates (moment degree) n g k (Vol.Shape n g k) (fun u var c => if var < k ∧ c ∈ box 0 (n + g + g) then (u.areas.getD var fun _ => 0) c ^ degree else 0) :=
  timeIntegrates_of (moment_accumulates degree n g k)

/-- C40, for the total variation in one and two dimensions. -/
theorem C40_bounded_variation_partial (p : Nat) (lengths : V3 ℝ) (hl : lengths.z ≤ 1) (n g : I3) (hn : 1 ≤ n.x ∧ 1 ≤ n.y ∧ n.z = 1) (hg : 0 ≤ g.x ∧ 0 ≤ g.y ∧ g.z = 0)
    (h1 : n.y = 1 → g.y = 0) (k : Nat) :
    TimeIntegrates (boundedVariation p lengths) ⟨1, 1, 1⟩ 0 k (Vol.Shape n g k) (fun u var c => if var < k ∧ c = 0 then variation p n (u.inner var) else 0) :=
  timeIntegrates_of (boundedVariation_accumulates p lengths hl n g hn hg h1 k)

/-- C40, for the Legendre coefficients: the time integral of the sum over the cells of the product of the polynomials at the scaled midpoint and at the scaled value, times the cell
volume. `L` are the values of the polynomials on [-1,1]; the states are between the given bounds. -/
theorem C40_legendre_partial (P : Int → ℝ → Res ℝ) (L : Int → ℝ → ℝ) (hP : ∀ r x, |x| ≤ 1 → P r x = .ok (L r x)) (lo hi : ℝ) (hlo : lo < hi) (a b m : Int) (k : Nat)
    (vars : List Nat) (hnd : vars.Nodup) (hk : ∀ v ∈ vars, v < k) (origin top : V3 ℝ) (hx : top.x ≠ origin.x) (hy : top.y ≠ origin.y) (n g pos size : I3)
    (hs : Sizes (n + g + g) n g) (hint : n.x * n.y * n.z < 2 ^ 31) (hl : (Grid.make origin top n pos size).lengths.z ≤ 1 ∧ (Grid.make origin top n pos size).lengths.y ≠ 1) :
    TimeIntegrates (legendre P lo hi a b m vars (Grid.make origin top n pos size)) ⟨1, 1, 1⟩ 0 k
      (fun u => u.Shape n g k ∧ ∀ v ∈ vars, ∀ c, InBlock n c → lo ≤ u.inner v c ∧ u.inner v c ≤ hi)
      (fun u var c => if var ∈ vars ∧ c = 0 then ∑ q ∈ (box 0 n).toFinset, L a (scaled n.x q.x) * L b (scaled n.y q.y) * L m ((u.inner var q - lo) / (hi - lo)) *
        ((Grid.make origin top n pos size).lengths.x * (Grid.make origin top n pos size).lengths.y * (Grid.make origin top n pos size).lengths.z) else 0) :=
  timeIntegrates_of (legendre_accumulates P L hP lo hi hlo a b m k vars hnd hk origin top hx hy n g pos size hs hint hl)

/-- C40, for the pointwise Legendre polynomials. -/
theorem C40_legendre_pointwise_partial (P : Int → ℝ → Res ℝ) (L : Int → ℝ → ℝ) (hP : ∀ r x, |x| ≤ 1 → P r x = .ok (L r x)) (lo hi : ℝ) (hlo : lo < hi) (m : Int) (k : Nat)
    (vars : List Nat) (hnd : vars.Nodup) (hk : ∀ v ∈ vars, v < k) (lengths : V3 ℝ) (hl : lengths.z ≤ 1 ∧ lengths.y ≠ 1) (n g : I3) (hg : 0 ≤ g.x ∧ 0 ≤ g.y ∧ 0 ≤ g.z) :
    TimeIntegrates (legendrePointWise P lo hi m vars lengths) n 0 k
      (fun u => u.Shape n g k ∧ ∀ v ∈ vars, ∀ c, InBlock n c → lo ≤ u.inner v c ∧ u.inner v c ≤ hi)
      (fun u var c => if var ∈ vars ∧ c ∈ box 0 n then L m ((u.inner var c - lo) / (hi - lo)) else 0) :=
  timeIntegrates_of (legendrePointWise_accumulates P L hP lo hi hlo m k vars hnd hk lengths hl n g hg)

/-- C40, for the entropy: the time integral of the entropy density summed over the cells, in the variable `E`. -/
theorem C40_log_entropy_partial (gamma : ℝ) (k rho E : Nat) (momenta : List Nat) (hr : rho < k) (hE : E < k) (hm : ∀ v ∈ momenta, v < k) (grid : Grid ℝ) (n g : I3) (hd : grid.dims = n)
    (hs : Sizes (n + g + g) n g) (hint : n.x * n.y * n.z < 2 ^ 31) :
    TimeIntegrates (logEntropy gamma rho E momenta grid) ⟨1, 1, 1⟩ 0 k (Vol.Shape n g k)
      (fun u var c => if var = E ∧ c = 0 then ∑ q ∈ (box 0 n).toFinset, logDensity gamma (u.inner rho q) (u.inner E q) (momenta.map fun v => u.inner v q) *
        (grid.lengths.x * grid.lengths.y * grid.lengths.z) else 0) :=
  timeIntegrates_of (logEntropy_accumulates gamma k rho E momenta hr hE hm grid n g hd hs hint)

/-! Concrete cases: two cells with the values 1 and 3, one ghost cell on each side. -/

/-- One variable on `n` cells. -/
noncomputable def exVol (n g : I3) (v : I3 → ℝ) : Vol := ⟨n, g, [fun c => v (c - g)]⟩

theorem exVol_shape (n g : I3) (v : I3 → ℝ) : (exVol n g v).Shape n g 1 := ⟨rfl, rfl, rfl⟩

theorem exVol_inner (n g : I3) (v : I3 → ℝ) : (exVol n g v).inner 0 = v := by
  funext c
  have : c + g - g = c := by ext <;> simp
  simp [exVol, Vol.inner, this]

/-- A state of two cells with one ghost cell on each side. -/
noncomputable def exState : Vol := exVol ⟨2, 1, 1⟩ ⟨1, 0, 0⟩ fun c => 1 + 2 * c.x

example : ∃ s out, [(exState, (⟨0, 0⟩ : TimeInfo ℝ)), (exState, ⟨1 / 2, 1⟩), (exState, ⟨2, 2⟩)].foldlM
      (fun s c => functionalWrite 1 (1 / 2) (makeVolume ⟨2, 1, 1⟩ 0 1) identity c.1 c.2 s) (none, 0) = .ok s ∧ functionalFinalize s = .ok out ∧ out.at 0 ⟨1, 0, 0⟩ = some (3 / 2) := by
  obtain ⟨s, out, h1, h2, h3⟩ := C40_identity_partial ⟨2, 1, 1⟩ ⟨1, 0, 0⟩ (by simp) 1 1 (1 / 2) [(exState, (⟨0, 0⟩ : TimeInfo ℝ)), (exState, ⟨1 / 2, 1⟩), (exState, ⟨2, 2⟩)] (by simp)
    (by simp only [List.mem_cons, List.not_mem_nil, or_false, forall_eq_or_imp, forall_eq]; exact ⟨exVol_shape _ _ _, exVol_shape _ _ _, exVol_shape _ _ _⟩)
  refine ⟨s, out, h1, h2, (h3 0 ⟨1, 0, 0⟩ (by simp) (by simp [InBlock])).trans ?_⟩
  have : exState.inner 0 ⟨1, 0, 0⟩ = 3 := by rw [exState, exVol_inner]; norm_num
  norm_num [timeSum, this, abs_le, mem_box]

example : ∃ s out, [(exState, (⟨1, 1⟩ : TimeInfo ℝ)), (exState, ⟨3, 2⟩)].foldlM
      (fun s c => functionalWrite 2 1 (makeVolume ⟨1, 1, 1⟩ 0 1) (boundedVariation 2 ⟨1 / 2, 1, 1⟩) c.1 c.2 s) (none, 0) = .ok s ∧ functionalFinalize s = .ok out ∧ out.at 0 0 = some 12 := by
  obtain ⟨s, out, h1, h2, h3⟩ := C40_bounded_variation_partial 2 ⟨1 / 2, 1, 1⟩ le_rfl ⟨2, 1, 1⟩ ⟨1, 0, 0⟩ (by simp) (by simp) (by simp) 1 2 1
    [(exState, (⟨1, 1⟩ : TimeInfo ℝ)), (exState, ⟨3, 2⟩)] (by simp)
    (by simp only [List.mem_cons, List.not_mem_nil, or_false, forall_eq_or_imp, forall_eq]; exact ⟨exVol_shape _ _ _, exVol_shape _ _ _⟩)
  refine ⟨s, out, h1, h2, (h3 0 0 (by simp) (by simp [InBlock])).trans ?_⟩
  have : variation 2 ⟨2, 1, 1⟩ (exState.inner 0) = 4 := by
    rw [exState, exVol_inner, variation]
    simp only [lt_self_iff_false, if_false]
    rw [show Finset.Ico (0 : Int) 1 = {0} by decide, show Finset.Ico (1 : Int) 2 = {1} by decide]
    norm_num [step]
  norm_num [timeSum, this, abs_le]

example : ∃ s out, [(exState, (⟨1, 1⟩ : TimeInfo ℝ))].foldlM
      (fun s c => functionalWrite 2 1 (makeVolume ⟨2, 1, 1⟩ ⟨1, 0, 0⟩ 1) (moment 2) c.1 c.2 s) (none, 0) = .ok s ∧ functionalFinalize s = .ok out ∧ out.at 0 ⟨2, 0, 0⟩ = some 9 := by
  obtain ⟨s, out, h1, h2, h3⟩ := C40_moment_partial 2 ⟨2, 1, 1⟩ ⟨1, 0, 0⟩ 1 2 1 [(exState, (⟨1, 1⟩ : TimeInfo ℝ))] (by simp)
    (by simp only [List.mem_cons, List.not_mem_nil, or_false, forall_eq]; exact exVol_shape _ _ _)
  refine ⟨s, out, h1, h2, (h3 0 ⟨2, 0, 0⟩ (by simp) (by simp [InBlock])).trans ?_⟩
  norm_num [timeSum, abs_le, mem_box, exState, exVol]

/-- The hypotheses of the Legendre theorems: a 2×2 grid on the square of side 1, polynomials of degree one (`L r x = x`), data between 0 and 4. -/
example : ∃ s out, [(exVol ⟨2, 2, 1⟩ ⟨1, 1, 0⟩ (fun c => 1 + 2 * c.x), (⟨1, 1⟩ : TimeInfo ℝ))].foldlM
      (fun s c => functionalWrite 2 1 (makeVolume ⟨2, 2, 1⟩ 0 1) (legendrePointWise (fun _ x => if |x| ≤ 1 then .ok x else .error .thrown) 0 4 1 [0] ⟨1 / 2, 1 / 2, 1⟩) c.1 c.2 s) (none, 0) =
        .ok s ∧ functionalFinalize s = .ok out ∧ out.at 0 ⟨1, 0, 0⟩ = some (3 / 4) := by
  obtain ⟨s, out, h1, h2, h3⟩ := C40_legendre_pointwise_partial (fun _ x => if |x| ≤ 1 then .ok x else .error .thrown) (fun _ x => x) (fun _ x h => if_pos h) 0 4 (by norm_num) 1 1 [0]
    (by simp) (by simp) ⟨1 / 2, 1 / 2, 1⟩ ⟨le_rfl, by norm_num⟩ ⟨2, 2, 1⟩ ⟨1, 1, 0⟩ (by simp) 2 1 [(exVol ⟨2, 2, 1⟩ ⟨1, 1, 0⟩ (fun c => 1 + 2 * c.x), (⟨1, 1⟩ : TimeInfo ℝ))] (by simp) (by
      simp only [List.mem_cons, List.not_mem_nil, or_false, forall_eq]
      refine ⟨exVol_shape _ _ _, fun c hc => ?_⟩
      rw [exVol_inner]
      have h0 : (0 : ℝ) ≤ c.x := by exact_mod_cast hc.1.1
      have h1 : (c.x : ℝ) ≤ 1 := by have := hc.1.2; exact_mod_cast (by simpa using Int.le_sub_one_of_lt this)
      constructor <;> linarith)
  refine ⟨s, out, h1, h2, (h3 0 ⟨1, 0, 0⟩ (by simp) (by simp [InBlock])).trans ?_⟩
  norm_num [timeSum, abs_le, mem_box, exVol_inner]

theorem exSizes : Sizes (⟨2, 2, 1⟩ + ⟨1, 1, 0⟩ + ⟨1, 1, 0⟩) ⟨2, 2, 1⟩ ⟨1, 1, 0⟩ := ⟨rfl, by simp, by simp, by simp⟩

example :=
  C40_legendre_partial (fun _ x => if |x| ≤ 1 then .ok x else .error .thrown) (fun _ x => x) (fun _ _ h => if_pos h) 0 4 (by norm_num) 1 1 1 1 [0] (by simp) (by simp) ⟨0, 0, 0⟩ ⟨1, 1, 1⟩ (by norm_num) (by norm_num) ⟨2, 2, 1⟩ ⟨1, 1, 0⟩ 0 ⟨2, 2, 1⟩
    exSizes (by simp) ⟨by norm_num [Grid.make, Grid.computeCellLengths], by norm_num [Grid.make, Grid.computeCellLengths]⟩

/-- Four variables (density, two momenta, energy). -/
example :=
  C40_log_entropy_partial (7 / 5) 4 0 3 [1, 2] (by simp) (by simp) (by simp) (Grid.make ⟨0, 0, 0⟩ ⟨1, 1, 1⟩ ⟨2, 2, 1⟩ 0 ⟨2, 2, 1⟩) ⟨2, 2, 1⟩ ⟨1, 1, 0⟩ rfl exSizes (by simp)

/-! What goes wrong. -/

/-- The sum over the calls in the window, without weights. -/
noncomputable def callSum (time radius : ℝ) (φ : Vol → ℝ) : List (Vol × TimeInfo ℝ) → ℝ
  | [] => 0
  | (u, i) :: l => (if |i.time - time| ≤ radius then φ u else 0) + callSum time radius φ l

/-- The functional of the state at the last call in the window, `x` if there is none. -/
noncomputable def lastInWindow (time radius : ℝ) (φ : Vol → ℝ) : ℝ → List (Vol × TimeInfo ℝ) → ℝ
  | x, [] => x
  | x, (u, i) :: l => lastInWindow time radius φ (if |i.time - time| ≤ radius then φ u else x) l

theorem base_run (p : ℝ) (d : Nat) (H : Int) (n g : I3) (hg : 0 ≤ g.x ∧ 0 ≤ g.y ∧ 0 ≤ g.z) (k : Nat) (time radius : ℝ) :
    ∀ (calls : List (Vol × TimeInfo ℝ)) (vol : Vol) (o : Option Vol) (last : ℝ), (∀ c ∈ calls, c.1.Shape n g k) → vol.Shape ⟨H, 1, 1⟩ 0 k → o.getD (makeVolume ⟨H, 1, 1⟩ 0 k) = vol →
      (calls = [] → o = some vol) →
      ∃ s out, calls.foldlM (fun s c => functionalWrite time radius (makeVolume ⟨H, 1, 1⟩ 0 k) (structureBase p d H) c.1 c.2 s) (o, last) = .ok s ∧ functionalFinalize s = .ok out ∧
        Added (fun var q => callSum time radius (fun u => if var < k then baseTerm p d H ⟨n.x - 2 * g.x, n.y - 2 * g.y, n.z - 2 * g.z⟩ (u.inner var) q else 0) calls) vol out := by
  intro calls
  induction calls with
  | nil =>
    intro vol o last _ _ _ hn
    refine ⟨_, vol, rfl, ?_, (added_zero vol).congr fun _ _ => rfl⟩
    rw [hn rfl]; rfl
  | cons a l ih =>
    intro vol o last hin hs ho _
    obtain ⟨u, i⟩ := a
    by_cases hw : |i.time - time| ≤ radius
    · obtain ⟨v1, e1, s1, a1⟩ := structureBase_adds p d H n g hg k vol u (i.time - last) hs (hin (u, i) (by simp))
      obtain ⟨s, out, e2, e3, a2⟩ := ih v1 (some v1) i.time (fun c hc => hin c (by simp [hc])) s1 rfl (fun _ => rfl)
      refine ⟨s, out, ?_, e3, (a1.trans a2).congr fun var c => by simp [callSum, hw]⟩
      rw [List.foldlM_cons]
      simp only [functionalWrite, ho, if_pos hw, e1, Res.ok_bind, Res.pure_eq]
      exact e2
    · obtain ⟨s, out, e2, e3, a2⟩ := ih vol (some vol) i.time (fun c hc => hin c (by simp [hc])) hs rfl (fun _ => rfl)
      refine ⟨s, out, ?_, e3, a2.congr fun var c => by simp [callSum, hw]⟩
      rw [List.foldlM_cons]
      simp only [functionalWrite, ho, if_neg hw, Res.ok_bind, Res.pure_eq]
      exact e2

/-- What `StructureBase` gives instead of the time integral: the sum over the calls in the window without weights. -/
theorem C40_structure_base_ignores_weight (p : ℝ) (d : Nat) (H : Int) (n g : I3) (hg : 0 ≤ g.x ∧ 0 ≤ g.y ∧ 0 ≤ g.z) (k : Nat) (time radius : ℝ) (calls : List (Vol × TimeInfo ℝ))
    (hne : calls ≠ []) (hin : ∀ c ∈ calls, c.1.Shape n g k) :
    ∃ s out, calls.foldlM (fun s c => functionalWrite time radius (makeVolume ⟨H, 1, 1⟩ 0 k) (structureBase p d H) c.1 c.2 s) (none, 0) = .ok s ∧ functionalFinalize s = .ok out ∧
      ∀ var q, var < k → InBlock ⟨H, 1, 1⟩ q →
        out.at var q = some (callSum time radius (fun u => baseTerm p d H ⟨n.x - 2 * g.x, n.y - 2 * g.y, n.z - 2 * g.z⟩ (u.inner var) q) calls) := by
  obtain ⟨s, out, e1, e2, a⟩ := base_run p d H n g hg k time radius calls _ none 0 hin (makeVolume_shape _ _ _) rfl (fun h => absurd h hne)
  refine ⟨s, out, e1, e2, fun var q hv hq => ?_⟩
  rw [a, makeVolume_at hv (by rw [show (⟨H, 1, 1⟩ : I3) + 0 + 0 = ⟨H, 1, 1⟩ by ext <;> simp]; exact inSize_of_block hq)]
  simp [hv]

theorem cube_run (p : ℝ) (bc : BC) (sides : Nat → Option BC) (H : Int) (n g : I3) (hn : 1 ≤ n.x ∧ 1 ≤ n.y ∧ 1 ≤ n.z) (hflat : n.y = 1 → n.z = 1)
    (hg : 0 ≤ g.x ∧ 0 ≤ g.y ∧ 0 ≤ g.z) (hsides : ∀ s < 2 * dimsOf n, sides s = some bc) (k : Nat) (time radius : ℝ) (var : Nat) (hvar : var < k) (q : I3) (hq : inSize ⟨H, 1, 1⟩ q = true) :
    ∀ (calls : List (Vol × TimeInfo ℝ)) (vol : Vol) (o : Option Vol) (last x : ℝ), (∀ c ∈ calls, c.1.Shape n g k) → vol.Shape ⟨H, 1, 1⟩ 0 k → o.getD (makeVolume ⟨H, 1, 1⟩ 0 k) = vol →
      (calls = [] → o = some vol) → vol.at var q = some x →
      ∃ s out, calls.foldlM (fun s c => functionalWrite time radius (makeVolume ⟨H, 1, 1⟩ 0 k) (structureCube p sides (dimsOf n) H) c.1 c.2 s) (o, last) = .ok s ∧
        functionalFinalize s = .ok out ∧ out.at var q = some (lastInWindow time radius (fun u => cubeTerm p bc H n (u.inner var) q) x calls) := by
  intro calls
  induction calls with
  | nil =>
    intro vol o last x _ _ _ hn hx
    refine ⟨_, vol, rfl, ?_, hx⟩
    rw [hn rfl]; rfl
  | cons a l ih =>
    intro vol o last x hin hs ho _ hx
    obtain ⟨u, i⟩ := a
    by_cases hw : |i.time - time| ≤ radius
    · obtain ⟨v1, e1, s1, a1⟩ := structureCube_sets p bc sides H n g hn hflat hg hsides k vol u (i.time - last) hs (hin (u, i) (by simp))
      obtain ⟨s, out, e2, e3, a2⟩ := ih v1 (some v1) i.time _ (fun c hc => hin c (by simp [hc])) s1 rfl (fun _ => rfl) (a1 var q hvar hq)
      refine ⟨s, out, ?_, e3, by rw [a2, lastInWindow, if_pos hw]⟩
      rw [List.foldlM_cons]
      simp only [functionalWrite, ho, if_pos hw, e1, Res.ok_bind, Res.pure_eq]
      exact e2
    · obtain ⟨s, out, e2, e3, a2⟩ := ih vol (some vol) i.time x (fun c hc => hin c (by simp [hc])) hs rfl (fun _ => rfl) hx
      refine ⟨s, out, ?_, e3, by rw [a2, lastInWindow, if_neg hw]⟩
      rw [List.foldlM_cons]
      simp only [functionalWrite, ho, if_neg hw, Res.ok_bind, Res.pure_eq]
      exact e2

/-- What `StructureCube` gives instead of the time integral: the structure function of the state at the last call in the window; earlier calls and all weights are lost. -/
theorem C40_structure_cube_keeps_last_call (p : ℝ) (bc : BC) (sides : Nat → Option BC) (H : Int) (n g : I3) (hn : 1 ≤ n.x ∧ 1 ≤ n.y ∧ 1 ≤ n.z) (hflat : n.y = 1 → n.z = 1)
    (hg : 0 ≤ g.x ∧ 0 ≤ g.y ∧ 0 ≤ g.z) (hsides : ∀ s < 2 * dimsOf n, sides s = some bc) (k : Nat) (time radius : ℝ) (calls : List (Vol × TimeInfo ℝ))
    (hne : calls ≠ []) (hin : ∀ c ∈ calls, c.1.Shape n g k) (var : Nat) (hvar : var < k) (q : I3) (hq : InBlock ⟨H, 1, 1⟩ q) :
    ∃ s out, calls.foldlM (fun s c => functionalWrite time radius (makeVolume ⟨H, 1, 1⟩ 0 k) (structureCube p sides (dimsOf n) H) c.1 c.2 s) (none, 0) = .ok s ∧
      functionalFinalize s = .ok out ∧ out.at var q = some (lastInWindow time radius (fun u => cubeTerm p bc H n (u.inner var) q) 0 calls) := by
  refine cube_run p bc sides H n g hn hflat hg hsides k time radius var hvar q (inSize_of_block hq) calls _ none 0 0 hin (makeVolume_shape _ _ _) rfl (fun h => absurd h hne) ?_
  exact makeVolume_at hvar (by rw [show (⟨H, 1, 1⟩ : I3) + 0 + 0 = ⟨H, 1, 1⟩ by ext <;> simp]; exact inSize_of_block hq)

/-- Two cells with the values 0 and 1, without ghost cells. -/
noncomputable def exFlat : Vol := exVol ⟨2, 1, 1⟩ 0 fun c => c.x

/-- C40 is false for `StructureBase`, whatever quantity one compares with: with one call, at time zero, every time integral is zero, but the entry for distance 1 is 1. -/
theorem C40_fails_for_structure_base (φ : Vol → Nat → I3 → ℝ) : ¬ TimeIntegrates (structureBase 1 0 2) ⟨2, 1, 1⟩ 0 1 (Vol.Shape ⟨2, 1, 1⟩ 0 1) φ := by
  intro h
  have hin : ∀ c ∈ [(exFlat, (⟨0, 0⟩ : TimeInfo ℝ))], c.1.Shape ⟨2, 1, 1⟩ 0 1 := by
    simp only [List.mem_cons, List.not_mem_nil, or_false, forall_eq]; exact exVol_shape _ _ _
  obtain ⟨s, out, e1, e2, e3⟩ := h 0 1 [(exFlat, ⟨0, 0⟩)] (by simp) hin
  obtain ⟨s', out', e1', e2', e3'⟩ := C40_structure_base_ignores_weight 1 0 2 ⟨2, 1, 1⟩ 0 (by simp) 1 0 1 [(exFlat, ⟨0, 0⟩)] (by simp) hin
  obtain rfl : s = s' := Except.ok.inj (e1.symm.trans e1')
  obtain rfl : out = out' := Except.ok.inj (e2.symm.trans e2')
  have h1 := e3 0 ⟨1, 0, 0⟩ (by simp) (by simp [InBlock])
  have h2 := e3' 0 ⟨1, 0, 0⟩ (by simp) (by simp [InBlock])
  have hb : baseTerm 1 0 2 ⟨2, 1, 1⟩ (exFlat.inner 0) ⟨1, 0, 0⟩ = 1 := by
    rw [exFlat, exVol_inner, baseTerm, if_pos (by simp), show (box 0 ⟨2, 1, 1⟩).toFinset = {⟨0, 0, 0⟩, ⟨1, 0, 0⟩} by decide]
    simp [extended, along, I3.dir]
    norm_num
  rw [h2] at h1
  norm_num [timeSum, callSum, hb] at h1

/-- C40 is false for `StructureCube`, for the same reason. -/
theorem C40_fails_for_structure_cube (φ : Vol → Nat → I3 → ℝ) :
    ¬ TimeIntegrates (structureCube 1 (fun _ => some .periodic) 1 2) ⟨2, 1, 1⟩ 0 1 (Vol.Shape ⟨2, 1, 1⟩ 0 1) φ := by
  intro h
  have hin : ∀ c ∈ [(exFlat, (⟨0, 0⟩ : TimeInfo ℝ))], c.1.Shape ⟨2, 1, 1⟩ 0 1 := by
    simp only [List.mem_cons, List.not_mem_nil, or_false, forall_eq]; exact exVol_shape _ _ _
  obtain ⟨s, out, e1, e2, e3⟩ := h 0 1 [(exFlat, ⟨0, 0⟩)] (by simp) hin
  obtain ⟨s', out', e1', e2', h2⟩ := C40_structure_cube_keeps_last_call 1 .periodic (fun _ => some .periodic) 2 ⟨2, 1, 1⟩ 0 (by simp) (by simp) (by simp) (fun _ _ => rfl) 1 0 1
    [(exFlat, ⟨0, 0⟩)] (by simp) hin 0 (by simp) ⟨1, 0, 0⟩ (by simp [InBlock])
  obtain rfl : s = s' := Except.ok.inj (e1.symm.trans e1')
  obtain rfl : out = out' := Except.ok.inj (e2.symm.trans e2')
  have h1 := e3 0 ⟨1, 0, 0⟩ (by simp) (by simp [InBlock])
  have hb : cubeTerm 1 .periodic 2 ⟨2, 1, 1⟩ (exFlat.inner 0) ⟨1, 0, 0⟩ = 2 := by
    rw [exFlat, exVol_inner, cubeTerm, if_pos (by simp), show (box 0 ⟨2, 1, 1⟩).toFinset = {⟨0, 0, 0⟩, ⟨1, 0, 0⟩} by decide,
      show shell (dimsOf ⟨2, 1, 1⟩) 1 = {⟨-1, 0, 0⟩, ⟨1, 0, 0⟩} by decide]
    simp [extended]
    norm_num
  rw [h2] at h1
  norm_num [timeSum, lastInWindow, hb] at h1

/-- C40 is false for runs in which the functional was never called: `finalize` then dereferences a null pointer. -/
theorem C40_fails_without_call (last : ℝ) : functionalFinalize ((none, last) : Option Vol × ℝ) = .error .ub := rfl

/-- C40 is false for functionals with `numberOfSnapshots` (SimulatorSetup.cpp:596-609): inside a fixed interval writer that starts at `time - radius` the first weight counts from
time zero. Window [9, 11], two snapshots per radius, the constant state 1 and the functional that adds weight times state: the result is 11; the window has length 2. -/
theorem C40_fails_with_snapshots :
    [((⟨0, 0⟩ : TimeInfo ℚ), (1 : ℚ)), (⟨19 / 2, 1⟩, 1), (⟨10, 2⟩, 1), (⟨21 / 2, 3⟩, 1), (⟨11, 4⟩, 1)].foldlM
      (fun s c => Fixed.write ⟨1 / 2, 9, false⟩ (fun u i s => functionalWrite 10 1 (0 : ℚ) (fun o u w => .ok (o + w * u)) u i s) c.2 c.1 s)
      (Fixed.init (⟨1 / 2, 9, false⟩ : Fixed ℚ), (none, 0)) = .ok (5, some 11, 11) := by
  norm_num [List.foldlM_cons, functionalWrite, Fixed.write, Fixed.next, Fixed.init, abs_le]

example := C40_structure_base_ignores_weight 2 0 2 ⟨2, 1, 1⟩ ⟨1, 0, 0⟩ (by simp) 1 2 1 [(exState, (⟨1, 1⟩ : TimeInfo ℝ))] (by simp)
  (by simp only [List.mem_cons, List.not_mem_nil, or_false, forall_eq]; exact exVol_shape _ _ _)

example := C40_structure_cube_keeps_last_call 2 .periodic (fun _ => some .periodic) 2 ⟨2, 1, 1⟩ ⟨1, 0, 0⟩ (by simp) (by simp) (by simp) (fun _ _ => rfl) 1 2 1 [(exState, (⟨1, 1⟩ : TimeInfo ℝ)), (exState, ⟨2, 2⟩)]
  (by simp) (by simp only [List.mem_cons, List.not_mem_nil, or_false, forall_eq_or_imp, forall_eq]; exact ⟨exVol_shape _ _ _, exVol_shape _ _ _⟩) 0 (by simp) ⟨1, 0, 0⟩ (by simp [InBlock])

end Verif.Props.Functionals
