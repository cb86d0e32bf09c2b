import Verif.EulerPositivity
import Verif.ScalarRun

/-!
Helper lemmas for C88: first order runs of the Euler equations with the HLL flux keep density and pressure positive, and the check of the simulator never refuses them.
-/

namespace Verif
namespace EulerRun
open Integrator Simulator NetFlux WholeRun Euler EulerFlux

section
variable {K V W σ : Type} [Field K] [LinearOrder K] [IsStrictOrderedRing K] [AddCommGroup V] [Module K V] [AddCommGroup W] [Module K W]
variable {c : Config V K σ} {int : V →ₗ[K] W} {F : W → W} {ws : W → Nat → K} {Ready : V → Prop} {P : W → Prop}

theorem performStep_unchecked (hs : Sound c.env.sys c.bc int F ws Ready)
    (hP : ∀ (w : W) (wst : σ) (info : TimeInfo K) (dt : K), P w → computeTimestep c.env.waveAdj (c.adjusters wst) (ws w) c.env.len c.env.cfl info = dt →
      P (textbook c.kind (fun w => (1 / c.env.len 0) • F w) dt w))
    (hcheck : ∀ u, Ready u → P (int u) → c.obeys u = true) {s : Sim V K σ} (hi : Inv c int Ready P s) :
    performStep c s = performStep { c with obeys := fun _ => true } s := by
  have e : incrementSolution { c with obeys := fun _ => true } s = incrementSolution c s := rfl
  unfold performStep
  rw [e]
  cases h1 : incrementSolution c s with
  | error x => rfl
  | ok s1 =>
    obtain ⟨hl, ⟨u, hu, hr, hp⟩, hlog⟩ := hi
    obtain ⟨dt, hdt, hx⟩ := increment_finite c hs s s1 h1 u hu hr
    obtain ⟨s2, u', e1, e2, e3, e4, e5, e6, e7, e8⟩ := increment_ok c hs s hl u hu hr dt hdt hx
    rw [e1] at h1
    cases h1
    have h2 : c.obeys u' = true := hcheck u' e4 (by rw [e5]; exact hP _ _ _ _ hp hdt)
    simp only [Res.ok_bind, checkConstraints, at', e2, h2]
    rfl

theorem run_unchecked (hs : Sound c.env.sys c.bc int F ws Ready)
    (hP : ∀ (w : W) (wst : σ) (info : TimeInfo K) (dt : K), P w → computeTimestep c.env.waveAdj (c.adjusters wst) (ws w) c.env.len c.env.cfl info = dt →
      P (textbook c.kind (fun w => (1 / c.env.len 0) • F w) dt w))
    (hcheck : ∀ u, Ready u → P (int u) → c.obeys u = true) (u : V) (others : List V) (hlen : others.length = c.kind.substeps) (wst : σ) (h0 : P (int u)) (fuel : Nat) :
    (start c u others wst >>= run c fuel) = (start { c with obeys := fun _ => true } u others wst >>= run { c with obeys := fun _ => true } fuel) := by
  have hloop : ∀ (fuel : Nat) (s : Sim V K σ), Inv c int Ready P s → loop c fuel s = loop { c with obeys := fun _ => true } fuel s := by
    intro fuel
    induction fuel with
    | zero => exact fun _ _ => rfl
    | succ fuel ih =>
      intro s hi
      have ea : atEnd { c with obeys := fun _ => true } s = atEnd c s := rfl
      unfold loop
      rw [ea, ← performStep_unchecked hs hP hcheck hi]
      split_ifs
      · rfl
      · cases h : performStep c s with
        | error x => rfl
        | ok s1 => exact ih s1 (performStep_keeps hs hP h hi)
  obtain ⟨v, e1, e2, e3⟩ := hs.bc_ok u
  have hi : Inv c int Ready P ⟨v :: others, ⟨0, 0⟩, wst, []⟩ := ⟨by simp [hlen], ⟨v, rfl, e3, by rw [e2]; exact h0⟩, by intro call hc; simp at hc⟩
  have es : start { c with obeys := fun _ => true } u others wst = start c u others wst := rfl
  rw [es]
  have e0 : start c u others wst = .ok ⟨v :: others, ⟨0, 0⟩, wst, []⟩ := by simp [start, e1]
  rw [e0]
  change run c fuel _ = run _ fuel _
  unfold run
  have ec : callWriters { c with obeys := fun _ => true } (⟨v :: others, ⟨0, 0⟩, wst, []⟩ : Sim V K σ) = callWriters c ⟨v :: others, ⟨0, 0⟩, wst, []⟩ := rfl
  rw [ec]
  cases h : callWriters c (⟨v :: others, ⟨0, 0⟩, wst, []⟩ : Sim V K σ) with
  | error x => rfl
  | ok s1 => exact hloop fuel s1 (callWriters_keeps h hi)

end

section
variable {V : Type} [AddCommGroup V] [Module ℝ V]

/-- A numerical flux of two states as the solver calls it (alsfvm/include/alsfvm/numflux/numflux_util.hpp:63-92): it takes the right value of the left cell and the left value of the right
cell. -/
def twoPoint (F : Nat → V → V → V × ℝ) : FluxFn V ℝ := ⟨[1], [0], fun d l r => F d (r.headD 0) (l.headD 0)⟩

omit [Module ℝ V] in
theorem face_eq (F : Nat → V → V → V × ℝ) (u : I3 → V) {d : Nat} (hd : d < 3) (q : I3) : face CudaRecon.noRecon (twoPoint F) u d q = F d (u q) (u (q + I3.dir d)) := by
  have e0 : ∀ p : I3, p + step d 0 = p := fun p => by ext <;> simp [step]
  have e1 : step d 1 = I3.dir d := by interval_cases d <;> rfl
  simp [face, CudaRecon.noRecon, twoPoint, Recon.rval, Recon.lval, e0, e1]

variable {b : BC} {n G active : I3} {g dims : Nat}

omit [Module ℝ V] in
theorem fits (F : Nat → V → V → V × ℝ) (hg : 1 ≤ g) : Fits CudaRecon.noRecon (twoPoint F) g where
  k_pos := le_refl 1
  k_le := hg
  offs_abs := by simp [CudaRecon.noRecon]
  whole_zero := by simp [CudaRecon.noRecon]
  fl_offs := by simp [twoPoint]; omega
  fl_near := by simp [CudaRecon.noRecon]

/-- The two faces of a cell. -/
theorem isFace_back {p : I3} (hp : IsInterior n G p) (k : Nat) : IsFace n G 0 0 k (p - I3.dir k) := by
  rw [isInterior_iff] at hp
  simp only [InRegion, IsFace, mem_box, I3.add_x, I3.add_y, I3.add_z, I3.sub_x, I3.sub_y, I3.sub_z, I3.zero_x, I3.zero_y, I3.zero_z, I3.dir] at hp ⊢
  split_ifs <;> omega

/-- The update of a cell, in terms of its neighbours. -/
theorem update_eq (hL : Layout n G active dims g) (hN : ∀ d < dims, 3 * G.get d ≤ n.get d) (hpos : 0 < dims) (hg : 1 ≤ g) (F : Nat → V → V → V × ℝ)
    {work : NetFlux.State V ℝ} (hwork : Sized n work) (w : Step.Cells n G → V) (p : Step.Cells n G) :
    ∃ L R : Nat → Step.Cells n G, Step.rhs b dims CudaRecon.noRecon (twoPoint F) n G g w p = ((List.range dims).map fun d => (F d (w (L d)) (w p)).1 - (F d (w p) (w (R d))).1).sum ∧
      ∀ d < dims, (F d (w (L d)) (w p)).2 ≤ Step.waves b dims CudaRecon.noRecon (twoPoint F) n G active g work w d ∧
        (F d (w p) (w (R d))).2 ≤ Step.waves b dims CudaRecon.noRecon (twoPoint F) n G active g work w d := by
  have hdl := hL.dims_le
  obtain ⟨-, v2⟩ := ScalarRun.waves_bound (b := b) hL hN hpos (fits F hg) hwork w
  have h : ∀ d, ∃ q r : Step.Cells n G, d < dims →
      face CudaRecon.noRecon (twoPoint F) (Step.extend b n G g dims w) d (p.1 - I3.dir d) = F d (w q) (w p) ∧
      face CudaRecon.noRecon (twoPoint F) (Step.extend b n G g dims w) d p.1 = F d (w p) (w r) := by
    intro d
    by_cases hd : d < dims
    · obtain ⟨n1, n2⟩ := ScalarRun.neighbours_inSize hL hg p.2 hd
      obtain ⟨p1, e1⟩ := ScalarRun.extend_mem (b := b) hL hN (w := w) n1
      obtain ⟨p2, e2⟩ := ScalarRun.extend_mem (b := b) hL hN (w := w) n2
      have hback : p.1 - I3.dir d + I3.dir d = p.1 := by ext <;> simp
      have hup : Step.extend b n G g dims w p.1 = w p := Step.extend_interior hL w p.2
      refine ⟨p2, p1, fun _ => ?_⟩
      rw [face_eq F _ (by omega), face_eq F _ (by omega), hback, hup, e1, e2]
      exact ⟨rfl, rfl⟩
    · exact ⟨p, p, fun h => absurd h hd⟩
  choose L R hLR using h
  refine ⟨L, R, ?_, fun d hd => ?_⟩
  · change ((List.range dims).map fun d => (face CudaRecon.noRecon (twoPoint F) (Step.extend b n G g dims w) d (p.1 - I3.dir d)).1 -
      (face CudaRecon.noRecon (twoPoint F) (Step.extend b n G g dims w) d p.1).1).sum = _
    refine congrArg _ (List.map_congr_left fun d hd => ?_)
    obtain ⟨e1, e2⟩ := hLR d (by simpa using hd)
    rw [e1, e2]
  · obtain ⟨e1, e2⟩ := hLR d hd
    rw [← e1, ← e2]
    exact ⟨v2 d hd _ (isFace_back p.2 d), v2 d hd _ (ScalarRun.isFace_of_interior p.2 d)⟩

end

variable {b : BC} {n G active : I3} {g dims m : Nat} {γ : ℝ}

/-- The HLL flux in the directions of the equation. -/
noncomputable def hllFlux (m : Nat) (γ : ℝ) : FluxFn (Cons m) ℝ := twoPoint fun d l r => if h : d < m then hll γ ⟨d, h⟩ l r else 0

theorem above_sum {ι : Type} (l : List ι) (t : ι → Cons m) (h : ∀ i ∈ l, Above (t i)) : Above (l.map t).sum := by
  induction l with
  | nil => exact above_zero
  | cons i l ih =>
    rw [List.map_cons, List.sum_cons]
    exact (h i (by simp)).add (ih fun j hj => h j (by simp [hj]))

/-- The CFL sum bounds the sum over the directions of the grid. -/
theorem cfl_directions (hdl : dims ≤ 3) (ws len : Nat → ℝ) (hws : ∀ d, 0 ≤ ws d) (hlen : ∀ d, 0 ≤ len d) (hlen0 : 0 < len 0) (hcube : ∀ d < dims, len d = len 0) {dt : ℝ} (hdt : 0 ≤ dt) :
    dt / len 0 * ((List.range dims).map ws).sum ≤ dt * Props.cflSum ws len := by
  have h1 : ((List.range dims).map ws).sum = ∑ d ∈ Finset.range dims, ws d := by
    rw [Finset.sum_range]
    rw [← List.sum_ofFn]
    congr 1
    apply List.ext_getElem <;> simp
  rw [h1]
  have h2 : dt / len 0 * ∑ d ∈ Finset.range dims, ws d = dt * ∑ d ∈ Finset.range dims, ws d / len 0 := by rw [← Finset.sum_div]; ring
  rw [h2]
  refine mul_le_mul_of_nonneg_left ?_ hdt
  unfold Props.cflSum
  calc ∑ d ∈ Finset.range dims, ws d / len 0 = ∑ d ∈ Finset.range dims, ws d / len d := Finset.sum_congr rfl fun d hd => by
        rw [hcube d (by simpa using hd)]
    _ ≤ _ := Finset.sum_le_sum_of_subset_of_nonneg (fun d hd => by
        have hd' : d < dims := by simpa using hd
        simp only [Finset.mem_filter, Finset.mem_range]
        exact ⟨by omega, by rw [hcube d hd']; exact hlen0.ne'⟩) fun d _ _ => div_nonneg (hws d) (hlen d)

/-- One forward Euler step keeps density and pressure positive, with a flux which takes at most the state itself from a cell for `κ * k * S ≤ 1`, where `S` bounds the wave speeds. -/
theorem step_positive (hγ : 1 < γ) (F : Nat → Cons m → Cons m → Cons m × ℝ) {k : ℝ}
    (hF : ∀ d < dims, ∀ {L u R : Cons m}, obeysConstraints γ L → obeysConstraints γ u → obeysConstraints γ R → ∀ S, (F d L u).2 ≤ S → (F d u R).2 ≤ S →
      Above ((k * S) • u + ((F d L u).1 - (F d u R).1)))
    (hL : Layout n G active dims g) (hN : ∀ d < dims, 3 * G.get d ≤ n.get d) (hpos : 0 < dims) (hg : 1 ≤ g)
    {work : NetFlux.State (Cons m) ℝ} (hwork : Sized n work) (len : Nat → ℝ) (hlen : ∀ d, 0 ≤ len d) (hlen0 : 0 < len 0) (hcube : ∀ d < dims, len d = len 0) {dt : ℝ} (hdt : 0 ≤ dt)
    (hk : 0 ≤ k) (w : Step.Cells n G → Cons m) (hcfl : k * (dt * Props.cflSum (Step.waves b dims CudaRecon.noRecon (twoPoint F) n G active g work w) len) < 1)
    (hw : ∀ p, obeysConstraints γ (w p)) (p : Step.Cells n G) :
    obeysConstraints γ (w p + dt • (1 / len 0) • Step.rhs b dims CudaRecon.noRecon (twoPoint F) n G g w p) := by
  have hdl := hL.dims_le
  obtain ⟨L, R, e, hS⟩ := update_eq (b := b) hL hN hpos hg F hwork w p
  have hws := ScalarRun.waves_nonneg (b := b) hL hN hpos (fits F hg) hwork w
  set ws := Step.waves b dims CudaRecon.noRecon (twoPoint F) n G active g work w with hwsd
  rw [e]
  set κ := dt / len 0 with hκ
  have hκ0 : 0 ≤ κ := div_nonneg hdt hlen0.le
  have hlt : k * (κ * ((List.range dims).map ws).sum) < 1 := (mul_le_mul_of_nonneg_left (cfl_directions hdl ws len hws hlen hlen0 hcube hdt) hk).trans_lt hcfl
  have hterm : Above (((List.range dims).map fun d => (k * ws d) • w p + ((F d (w (L d)) (w p)).1 - (F d (w p) (w (R d))).1)).sum) := by
    refine above_sum _ _ fun d hd => ?_
    have hd : d < dims := by simpa using hd
    obtain ⟨h1, h2⟩ := hS d hd
    exact hF d hd (hw _) (hw _) (hw _) _ h1 h2
  have esum : ∀ l : List Nat, (l.map fun d => (k * ws d) • w p + ((F d (w (L d)) (w p)).1 - (F d (w p) (w (R d))).1)).sum =
      (k * (l.map ws).sum) • w p + (l.map fun d => (F d (w (L d)) (w p)).1 - (F d (w p) (w (R d))).1).sum := by
    intro l
    induction l with
    | nil => simp
    | cons d l ih =>
      simp only [List.map_cons, List.sum_cons]
      rw [ih]
      module
  rw [esum] at hterm
  generalize (((List.range dims).map fun d => (F d (w (L d)) (w p)).1 - (F d (w p) (w (R d))).1)).sum = D at hterm ⊢
  generalize ((List.range dims).map ws).sum = S at hterm hlt
  have e2 : w p + dt • (1 / len 0) • D = (1 - k * (κ * S)) • w p + κ • ((k * S) • w p + D) := by
    have : dt • (1 / len 0) • D = κ • D := by rw [smul_smul]; congr 1; rw [hκ]; ring
    rw [this]
    module
  rw [e2]
  exact obeys_add hγ (obeys_smul hγ (hw p) (by linarith)) (hterm.smul hκ0)

/-- Runs with such a flux and a CFL number below `1 / k` keep density and pressure positive, and the check never refuses them. -/
theorem run_positive {σ : Type} (hγ : 1 < γ) (F : Nat → Cons m → Cons m → Cons m × ℝ) {k : ℝ} (hk : 0 ≤ k)
    (hF : ∀ d < dims, ∀ {L u R : Cons m}, obeysConstraints γ L → obeysConstraints γ u → obeysConstraints γ R → ∀ S, (F d L u).2 ≤ S → (F d u R).2 ≤ S →
      Above ((k * S) • u + ((F d L u).1 - (F d u R).1)))
    (hg : 1 ≤ g) (hL : Layout n G active dims g) (hN : ∀ d < dims, 3 * G.get d ≤ n.get d) (hpos : 0 < dims) (work : NetFlux.State (Cons m) ℝ) (hw : Sized n work)
    (waveAdj : List (ℝ → ℝ)) (hwave : ∀ f ∈ waveAdj, ∀ w, w ≤ f w) (len : Nat → ℝ) (hlen : ∀ d, 0 ≤ len d) (hlen0 : 0 < len 0) (hcube : ∀ d < dims, len d = len 0)
    (cfl : ℝ) (hcfl0 : 0 < cfl) (hcfl : k * cfl < 1) (endTime : ℝ) (obeys : (I3 → Cons m) → Bool) (writers : List ((I3 → Cons m) → TimeInfo ℝ → σ → Res σ))
    (adj : σ → List (Adjuster ℝ)) (wst : σ) (Fine : σ → TimeInfo ℝ → Prop) (hadj : WholeRun.Punctual writers adj wst Fine)
    (c : Config (I3 → Cons m) ℝ σ)
    (hc : c = ⟨.forwardEuler, ⟨Step.cpuSystem dims CudaRecon.noRecon (twoPoint F) n G active work, waveAdj, len, cfl⟩, Step.cpuBoundary b n g dims, obeys, writers, adj, endTime⟩)
    (u : I3 → Cons m) (spare : I3 → Cons m) (hu : ∀ p, IsInterior n G p → obeysConstraints γ (u p)) (fuel : Nat) :
    (∀ s', (start c u [spare] wst >>= run c fuel) = .ok (some s') →
      (∃ u', s'.vols[0]? = some u' ∧ ∀ p, IsInterior n G p → obeysConstraints γ (u' p)) ∧ ∀ call ∈ s'.log, ∀ p, IsInterior n G p → obeysConstraints γ (call.state p)) ∧
    ((∀ v, (∀ p, inSize n p = true → obeysConstraints γ (v p)) → obeys v = true) →
      (start c u [spare] wst >>= run c fuel) = (start { c with obeys := fun _ => true } u [spare] wst >>= run { c with obeys := fun _ => true } fuel)) := by
  subst hc
  have hs := Step.sound (b := b) hL (fits F hg) hN hpos hw
  set c : Config (I3 → Cons m) ℝ σ :=
    ⟨.forwardEuler, ⟨Step.cpuSystem dims CudaRecon.noRecon (twoPoint F) n G active work, waveAdj, len, cfl⟩, Step.cpuBoundary b n g dims, obeys, writers, adj, endTime⟩ with hc
  have hst : WholeRun.Steps c (Step.waves b dims CudaRecon.noRecon (twoPoint F) n G active g work) := ⟨hwave, ScalarRun.waves_nonneg hL hN hpos (fits _ hg) hw, hlen, hcfl0⟩
  have hP : WholeRun.Preserves c (Step.rhs b dims CudaRecon.noRecon (twoPoint F) n G g) (Step.waves b dims CudaRecon.noRecon (twoPoint F) n G active g work)
      (fun w : Step.Cells n G → Cons m => ∀ p, obeysConstraints γ (w p)) :=
    fun w dt hP h0 h1 p => step_positive hγ F hF hL hN hpos hg hw len hlen hlen0 hcube h0 hk w ((mul_le_mul_of_nonneg_left h1 hk).trans_lt hcfl) hP p
  refine ⟨fun s' h => ?_, fun hob => ?_⟩
  · obtain ⟨⟨u', h1, h2⟩, h3⟩ := WholeRun.run_punctual hs hst wst hadj hP u [spare] rfl (fun p : Step.Cells n G => hu p p.2) fuel s' h
    exact ⟨⟨u', h1, fun p hp => h2 ⟨p, hp⟩⟩, fun call hcall p hp => h3 call hcall ⟨p, hp⟩⟩
  · refine WholeRun.run_unchecked_punctual hs hst wst hadj hP ?_ u [spare] rfl (fun p : Step.Cells n G => hu p p.2) fuel
    rintro v ⟨w, hv⟩ hvP
    refine hob v fun p hp => ?_
    obtain ⟨q, hq⟩ := ScalarRun.extend_mem (b := b) hL hN (w := w) hp
    rw [hv p hp, hq]
    have e : v q.1 = w q := by rw [hv q.1 (Step.interior_inSize hL q.2), Step.extend_interior hL w q.2]
    rw [← e]
    exact hvP q

/-! ### Runs of one step -/

section
variable {V : Type} [AddCommGroup V] [Module ℝ V]

/-- Buffers for three cells and two ghost cells. -/
def work3 (V : Type) [AddCommGroup V] : NetFlux.State V ℝ := ⟨field ⟨5, 1, 1⟩ fun _ => 0, field ⟨5, 1, 1⟩ fun _ => 0, field ⟨5, 1, 1⟩ fun _ => 0, field ⟨5, 1, 1⟩ fun _ => 0, fun _ => 0⟩
theorem layout3 : Layout ⟨5, 1, 1⟩ ⟨1, 0, 0⟩ ⟨1, 0, 0⟩ 1 1 := ⟨by decide, by decide, by decide, by decide⟩
omit [Module ℝ V] in
theorem sized3 : Sized ⟨5, 1, 1⟩ (work3 V) := ⟨rfl, rfl, rfl, rfl⟩

/-- Data in three cells. -/
def data3 (a b c : V) : I3 → V := fun p => if p.x = 1 then a else if p.x = 2 then b else if p.x = 3 then c else 0

/-- A one dimensional periodic run with forward Euler, without writers. -/
noncomputable def config3 (F : Nat → V → V → V × ℝ) (cfl endTime : ℝ) : Config (I3 → V) ℝ Unit :=
  ⟨.forwardEuler, ⟨Step.cpuSystem 1 CudaRecon.noRecon (twoPoint F) ⟨5, 1, 1⟩ ⟨1, 0, 0⟩ ⟨1, 0, 0⟩ (work3 V), [], fun _ => 1, cfl⟩, Step.cpuBoundary .periodic ⟨5, 1, 1⟩ 1 1,
    fun _ => true, [], fun _ => [], endTime⟩

omit [Module ℝ V] in
theorem faces3 (a b c : V) (x : Int) (hx : 0 ≤ x ∧ x ≤ 3) :
    Step.extend .periodic ⟨5, 1, 1⟩ ⟨1, 0, 0⟩ 1 1 (fun p : Step.Cells ⟨5, 1, 1⟩ ⟨1, 0, 0⟩ => data3 a b c p) ⟨x, 0, 0⟩ = (if x = 0 then c else if x = 1 then a else if x = 2 then b else c) ∧
    Step.extend .periodic ⟨5, 1, 1⟩ ⟨1, 0, 0⟩ 1 1 (fun p : Step.Cells ⟨5, 1, 1⟩ ⟨1, 0, 0⟩ => data3 a b c p) ⟨x + 1, 0, 0⟩ = (if x = 0 then a else if x = 1 then b else if x = 2 then c else a) := by
  obtain ⟨h0, h3⟩ := hx
  have key : ∀ (q p : I3), Boundary.ghostSource .periodic ((1 : Nat) : Int) (⟨5, 1, 1⟩ - ⟨1, 0, 0⟩ - ⟨1, 0, 0⟩) 1 (fun _ => false) q = p → IsInterior ⟨5, 1, 1⟩ ⟨1, 0, 0⟩ p →
      Step.extend .periodic ⟨5, 1, 1⟩ ⟨1, 0, 0⟩ 1 1 (fun p : Step.Cells ⟨5, 1, 1⟩ ⟨1, 0, 0⟩ => data3 a b c p) q = data3 a b c p := by
    rintro q p rfl hp
    rw [Step.extend, dif_pos hp]
  interval_cases x
  · exact ⟨by rw [key _ ⟨3, 0, 0⟩ (by decide) (by decide)]; simp [data3], by rw [key _ ⟨1, 0, 0⟩ (by decide) (by decide)]; simp [data3]⟩
  · exact ⟨by rw [key _ ⟨1, 0, 0⟩ (by decide) (by decide)]; simp [data3], by rw [key _ ⟨2, 0, 0⟩ (by decide) (by decide)]; simp [data3]⟩
  · exact ⟨by rw [key _ ⟨2, 0, 0⟩ (by decide) (by decide)]; simp [data3], by rw [key _ ⟨3, 0, 0⟩ (by decide) (by decide)]; simp [data3]⟩
  · exact ⟨by rw [key _ ⟨3, 0, 0⟩ (by decide) (by decide)]; simp [data3], by rw [key _ ⟨1, 0, 0⟩ (by decide) (by decide)]; simp [data3]⟩

/-- The run of one step and its value in the middle cell. -/
theorem run3 (F : Nat → V → V → V × ℝ) (a b c : V) (s : ℝ) (hs : 0 < s) (h1 : (F 0 c a).2 ≤ s) (h2 : (F 0 a b).2 ≤ s) (h3 : (F 0 b c).2 ≤ s)
    (h : (F 0 c a).2 = s ∨ (F 0 a b).2 = s ∨ (F 0 b c).2 = s) (cfl endTime : ℝ) (he0 : 0 < endTime) (he1 : endTime ≤ cfl / s) :
    ∃ s' u', (start (config3 F cfl endTime) (data3 a b c) [0] () >>= run (config3 F cfl endTime) 1) = .ok (some s') ∧ s'.vols[0]? = some u' ∧
      u' ⟨2, 0, 0⟩ = b + (cfl / s) • ((F 0 a b).1 - (F 0 b c).1) := by
  have hf := fits (g := 1) F (le_refl 1)
  have hsound := Step.sound (b := .periodic) layout3 hf (by decide) (by decide) sized3
  have hface : ∀ x : Int, 0 ≤ x ∧ x ≤ 3 → face CudaRecon.noRecon (twoPoint F)
      (Step.extend .periodic ⟨5, 1, 1⟩ ⟨1, 0, 0⟩ 1 1 (fun p : Step.Cells ⟨5, 1, 1⟩ ⟨1, 0, 0⟩ => data3 a b c p)) 0 ⟨x, 0, 0⟩ =
      F 0 (if x = 0 then c else if x = 1 then a else if x = 2 then b else c) (if x = 0 then a else if x = 1 then b else if x = 2 then c else a) := by
    intro x hx
    rw [face_eq _ _ (by decide)]
    have e : (⟨x, 0, 0⟩ + I3.dir 0 : I3) = ⟨x + 1, 0, 0⟩ := rfl
    rw [e, (faces3 a b c x hx).1, (faces3 a b c x hx).2]
  have hws : Step.waves .periodic 1 CudaRecon.noRecon (twoPoint F) ⟨5, 1, 1⟩ ⟨1, 0, 0⟩ ⟨1, 0, 0⟩ 1 (work3 V) (fun p : Step.Cells ⟨5, 1, 1⟩ ⟨1, 0, 0⟩ => data3 a b c p) =
      fun k => if k < 1 then s else 0 := by
    obtain ⟨t, e1, -, -, e4, e5⟩ := Step.cpuSystem_ok layout3 hf (by decide) (by decide) sized3
      (Step.extend .periodic ⟨5, 1, 1⟩ ⟨1, 0, 0⟩ 1 1 (fun p : Step.Cells ⟨5, 1, 1⟩ ⟨1, 0, 0⟩ => data3 a b c p)) 0
    funext k
    simp only [Step.waves, e1]
    split_ifs with hk
    · obtain rfl : k = 0 := by omega
      refine (e4 0 hk).unique ⟨Or.inr ?_, ?_⟩
      · rcases h with h | h | h
        · exact ⟨⟨0, 0, 0⟩, by unfold IsFace; decide, by rw [hface 0 (by decide)]; exact h.symm⟩
        · exact ⟨⟨1, 0, 0⟩, by unfold IsFace; decide, by rw [hface 1 (by decide)]; exact h.symm⟩
        · exact ⟨⟨2, 0, 0⟩, by unfold IsFace; decide, by rw [hface 2 (by decide)]; exact h.symm⟩
      · rintro x (rfl | ⟨⟨x, y, z⟩, hq, rfl⟩)
        · exact hs.le
        · unfold IsFace at hq
          simp [mem_box, I3.dir] at hq
          obtain rfl : y = 0 := by omega
          obtain rfl : z = 0 := by omega
          have hx : 0 ≤ x ∧ x ≤ 3 := by omega
          rw [hface x hx]
          obtain ⟨a, c⟩ := hx
          interval_cases x <;> simp <;> assumption
    · exact e5 k (by omega)
  obtain ⟨s', u', g1, g2, g3⟩ := WholeRun.run_one_step (c := config3 F cfl endTime) hsound rfl (fun _ => rfl) (data3 a b c) [0] rfl () (cfl / s) (by
    change computeTimestep [] [] (Step.waves .periodic 1 CudaRecon.noRecon (twoPoint F) ⟨5, 1, 1⟩ ⟨1, 0, 0⟩ ⟨1, 0, 0⟩ 1 (work3 V)
      (fun p : Step.Cells ⟨5, 1, 1⟩ ⟨1, 0, 0⟩ => data3 a b c p)) (fun _ => 1) cfl ⟨0, 0⟩ = _
    rw [hws]
    simp [computeTimestep, adjustTimestep, waveSpeedTotal, List.range_succ, hs.ne']) one_ne_zero he0 he1
  have hx : u' ⟨2, 0, 0⟩ = data3 a b c ⟨2, 0, 0⟩ + (cfl / s) • ((1 / 1 : ℝ) • net 1 CudaRecon.noRecon (twoPoint F)
      (Step.extend .periodic ⟨5, 1, 1⟩ ⟨1, 0, 0⟩ 1 1 (fun p : Step.Cells ⟨5, 1, 1⟩ ⟨1, 0, 0⟩ => data3 a b c p)) ⟨2, 0, 0⟩) :=
    congrFun g3 ⟨⟨2, 0, 0⟩, by intro d hd; interval_cases d <;> simp [I3.get]⟩
  refine ⟨s', u', g1, g2, ?_⟩
  rw [hx]
  simp only [net, List.range_succ, List.range_zero, List.nil_append, List.map_cons, List.map_nil, List.sum_cons, List.sum_nil,
    show (⟨2, 0, 0⟩ - I3.dir 0 : I3) = ⟨1, 0, 0⟩ from rfl, hface 1 (by decide), hface 2 (by decide)]
  simp [data3]

end

end EulerRun
end Verif
