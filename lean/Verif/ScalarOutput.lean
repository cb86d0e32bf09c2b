import Verif.Schedule
import Verif.LimitedRun
import Verif.RunSetupOutput

/-! Helper lemmas for C109: runs of scalar equations have time steps with a lower bound, because the values stay between bounds. -/

namespace Verif
namespace ScalarOutput
open Integrator Simulator NetFlux ScalarRun
variable {b : BC} {n G active : I3} {g dims : Nat}

theorem foldl_mono (l : List (ℝ → ℝ)) (h : ∀ f ∈ l, Monotone f) : Monotone fun w => l.foldl (fun w f => f w) w := by
  induction l with
  | nil => exact monotone_id
  | cons f l ih => exact (ih fun f hf => h f (by simp [hf])).comp (h f (by simp))

theorem total_nonneg (waveAdj : List (ℝ → ℝ)) (hwave : ∀ f ∈ waveAdj, ∀ w, w ≤ f w) (len : Nat → ℝ) (hlen : ∀ d, 0 ≤ len d) (ws : Nat → ℝ) (h0 : ∀ d, 0 ≤ ws d) :
    0 ≤ waveSpeedTotal waveAdj ws len := by
  rw [Props.waveSpeedTotal_eq]
  exact Finset.sum_nonneg fun d _ => div_nonneg ((h0 d).trans (Props.le_foldl_waveAdj waveAdj hwave (ws d))) (hlen d)

theorem total_le (waveAdj : List (ℝ → ℝ)) (hmono : ∀ f ∈ waveAdj, Monotone f) (len : Nat → ℝ) (hlen : ∀ d, 0 ≤ len d) (ws ws' : Nat → ℝ) (h : ∀ d, ws d ≤ ws' d) :
    waveSpeedTotal waveAdj ws len ≤ waveSpeedTotal waveAdj ws' len := by
  rw [Props.waveSpeedTotal_eq, Props.waveSpeedTotal_eq]
  exact Finset.sum_le_sum fun d _ => div_le_div_of_nonneg_right (foldl_mono waveAdj hmono (h d)) (hlen d)

theorem cflSum_le_total (waveAdj : List (ℝ → ℝ)) (hwave : ∀ f ∈ waveAdj, ∀ w, w ≤ f w) (len : Nat → ℝ) (hlen : ∀ d, 0 ≤ len d) (ws : Nat → ℝ) :
    Props.cflSum ws len ≤ waveSpeedTotal waveAdj ws len := by
  rw [Props.waveSpeedTotal_eq]
  exact Finset.sum_le_sum fun d _ => div_le_div_of_nonneg_right (Props.le_foldl_waveAdj waveAdj hwave (ws d)) (hlen d)

/-- If all faces have a wave speed of at most `S`, so has the step. -/
theorem waves_le {V : Type} [AddCommGroup V] [Module ℝ V] (hL : Layout n G active dims g) (hN : ∀ d < dims, 3 * G.get d ≤ n.get d) (hpos : 0 < dims) {r : Recon V} {fl : FluxFn V ℝ}
    (hf : Fits r fl g) {work : NetFlux.State V ℝ} (hw : Sized n work) (w : Step.Cells n G → V) {S : ℝ} (hS : 0 ≤ S)
    (h : ∀ k < dims, ∀ q, (face r fl (Step.extend b n G g dims w) k q).2 ≤ S) (k : Nat) : Step.waves b dims r fl n G active g work w k ≤ S := by
  obtain ⟨s, e1, -, -, e4, e5⟩ := Step.cpuSystem_ok hL hf hN hpos hw (Step.extend b n G g dims w) 0
  have e : Step.waves b dims r fl n G active g work w = s.2.2 := by simp only [Step.waves, e1]
  rw [e]
  by_cases hk : k < dims
  · rcases (e4 k hk).1 with h0 | ⟨q, -, h0⟩
    · rw [h0]; exact hS
    · rw [h0]; exact h k hk q
  · rw [e5 k (by omega)]; exact hS

/-- Values with the ghost cells. -/
theorem extend_between {m M : ℝ} {w : Step.Cells n G → ℝ} (h : ∀ p, m ≤ w p ∧ w p ≤ M) (q : I3) :
    min m 0 ≤ Step.extend b n G g dims w q ∧ Step.extend b n G g dims w q ≤ max M 0 := by
  unfold Step.extend
  split_ifs with hq
  · exact ⟨(min_le_left _ _).trans (h _).1, (h _).2.trans (le_max_left _ _)⟩
  · exact ⟨min_le_right _ _, le_max_right _ _⟩

/-- States kept by the steps, with a bound for the wave speeds: the time steps have a lower bound. -/
theorem stable_of_bound {V : Type} [AddCommGroup V] [Module ℝ V] {kind : Kind} (hL : Layout n G active dims g) (hN : ∀ d < dims, 3 * G.get d ≤ n.get d) (hpos : 0 < dims) {r : Recon V}
    {fl : FluxFn V ℝ} (hf : Fits r fl g) {work : NetFlux.State V ℝ} (hw : Sized n work) (waveAdj : List (ℝ → ℝ)) (hwave : ∀ f ∈ waveAdj, ∀ w, w ≤ f w) (hmono : ∀ f ∈ waveAdj, Monotone f)
    (len : Nat → ℝ) (hlen : ∀ d, 0 ≤ len d) (cfl : ℝ) (hcfl : 0 < cfl) (Q : (Step.Cells n G → V) → Prop) (S : ℝ)
    (hS : ∀ w, Q w → ∀ k < dims, ∀ q, (face r fl (Step.extend b n G g dims w) k q).2 ≤ S)
    (hkeep : ∀ w dt, Q w → 0 ≤ dt → dt * Props.cflSum (Step.waves b dims r fl n G active g work w) len ≤ cfl →
      Q (textbook kind (fun w => (1 / len 0) • Step.rhs b dims r fl n G g w) dt w)) :
    ∃ δ, Schedule.Stable kind ⟨Step.cpuSystem dims r fl n G active work, waveAdj, len, cfl⟩ (Step.rhs b dims r fl n G g) (Step.waves b dims r fl n G active g work) Q δ := by
  have hS0 : 0 ≤ max S 0 := le_max_right _ _
  set T := waveSpeedTotal waveAdj (fun _ => max S 0) len with hT
  have hT0 : 0 ≤ T := total_nonneg waveAdj hwave len hlen _ fun _ => hS0
  refine ⟨cfl / (T + 1), by positivity, fun w hq => ?_, fun w dt hq h0 h1 => ?_⟩
  · have h1 := total_le waveAdj hmono len hlen _ _ fun k => waves_le (b := b) hL hN hpos hf hw w hS0 (fun k hk q => (hS w hq k hk q).trans (le_max_left _ _)) k
    refine ⟨total_nonneg waveAdj hwave len hlen _ (waves_nonneg hL hN hpos hf hw w), ?_⟩
    rw [div_mul_eq_mul_div, div_le_iff₀ (by positivity)]
    exact mul_le_mul_of_nonneg_left (h1.trans (by linarith)) hcfl.le
  · exact hkeep w dt hq h0.le ((mul_le_mul_of_nonneg_left (cflSum_le_total waveAdj hwave len hlen _) h0.le).trans h1)

/-- The wave speeds between two states are at most `S`. -/
def SpeedBelow (F : ℝ → ℝ → ℝ × ℝ) (m M S : ℝ) : Prop := ∀ l r, m ≤ l ∧ l ≤ M → m ≤ r ∧ r ≤ M → (F l r).2 ≤ S

theorem speedBelow {f speed : ℝ → ℝ} {F : ℝ → ℝ → ℝ × ℝ} {m M : ℝ} (h : Bounding f speed F m M) : SpeedBelow F m M (max (speed m) (speed M)) := by
  intro l r hl hr
  rw [h.wave]
  exact max_le (h.quasi _ _ _ le_rfl hl.1 hl.2 le_rfl) (h.quasi _ _ _ le_rfl hr.1 hr.2 le_rfl)

/-- The first order schemes, and those with a limited reconstruction. -/
theorem first_order {k : Kind} (hL : Layout n G active dims g) (hN : ∀ d < dims, 3 * G.get d ≤ n.get d) (hpos : 0 < dims) (hg : 1 ≤ g) {F : ℝ → ℝ → ℝ × ℝ} {m M S : ℝ}
    (hF : ∃ f speed, Bounding f speed F m M) (hS : SpeedBelow F (min m 0) (max M 0) S) (hk : k = .rungeKutta4 → LinearFlux F) {work : NetFlux.State ℝ ℝ} (hw : Sized n work) (waveAdj : List (ℝ → ℝ))
    (hwave : ∀ f ∈ waveAdj, ∀ w, w ≤ f w) (hmono : ∀ f ∈ waveAdj, Monotone f) (len : Nat → ℝ) (hlen : ∀ d, 0 ≤ len d) (hlen0 : 0 < len 0) (hcube : ∀ d < dims, len d = len 0)
    (cfl : ℝ) (hcfl0 : 0 < cfl) (hcfl : cfl ≤ 1) :
    ∃ δ, Schedule.Stable k ⟨Step.cpuSystem dims CudaRecon.noRecon (twoPoint F) n G active work, waveAdj, len, cfl⟩ (Step.rhs b dims CudaRecon.noRecon (twoPoint F) n G g)
      (Step.waves b dims CudaRecon.noRecon (twoPoint F) n G active g work) (fun w => ∀ p, m ≤ w p ∧ w p ≤ M) δ := by
  obtain ⟨f, speed, hB⟩ := hF
  have hdl := hL.dims_le
  refine stable_of_bound hL hN hpos (fits F hg) hw waveAdj hwave hmono len hlen cfl hcfl0 _ S (fun w hq k hk q => ?_)
    (fun w dt hq h0 h1 => step_bounds hL hN hpos hg hB hw k hk len hlen hlen0 hcube h0 w (h1.trans hcfl) hq)
  have h1 := extend_between (b := b) (g := g) (dims := dims) hq q
  have h2 := extend_between (b := b) (g := g) (dims := dims) hq (q + I3.dir k)
  rw [face_eq F _ (by omega)]
  exact hS _ _ h1 h2

theorem limited {k : Kind} (hk : k ≠ .rungeKutta4) {rec : ℝ → ℝ → ℝ → ℝ × ℝ} (hrec : Props.NoNewExtrema rec) (hL : Layout n G active dims g) (hN : ∀ d < dims, 3 * G.get d ≤ n.get d)
    (hpos : 0 < dims) (hg : 2 ≤ g) {F : ℝ → ℝ → ℝ × ℝ} {m M S : ℝ} (hF : ∃ f speed, Bounding f speed F m M)
    (hS : SpeedBelow F (min m 0) (max M 0) S) {work : NetFlux.State ℝ ℝ} (hw : Sized n work) (waveAdj : List (ℝ → ℝ))
    (hwave : ∀ f ∈ waveAdj, ∀ w, w ≤ f w) (hmono : ∀ f ∈ waveAdj, Monotone f) (len : Nat → ℝ) (hlen : ∀ d, 0 ≤ len d) (hlen0 : 0 < len 0) (hcube : ∀ d < dims, len d = len 0)
    (cfl : ℝ) (hcfl0 : 0 < cfl) (hcfl : cfl ≤ 1 / 2) :
    ∃ δ, Schedule.Stable k ⟨Step.cpuSystem dims (LimitedRun.limited rec) (twoPoint F) n G active work, waveAdj, len, cfl⟩ (Step.rhs b dims (LimitedRun.limited rec) (twoPoint F) n G g)
      (Step.waves b dims (LimitedRun.limited rec) (twoPoint F) n G active g work) (fun w => ∀ p, m ≤ w p ∧ w p ≤ M) δ := by
  obtain ⟨f, speed, hB⟩ := hF
  have hdl := hL.dims_le
  refine stable_of_bound hL hN hpos (LimitedRun.fits rec F hg) hw waveAdj hwave hmono len hlen cfl hcfl0 _ S (fun w hq k hk q => ?_)
    (fun w dt hq h0 h1 => LimitedRun.step_bounds hL hN hpos hg hrec hB hw k hk len hlen hlen0 hcube h0 w (h1.trans hcfl) hq)
  have hu := fun q => extend_between (b := b) (g := g) (dims := dims) hq q
  rw [LimitedRun.face_eq _ (by omega)]
  have h1 := (LimitedRun.rec_bounds hrec (hu (q - I3.dir k)) (hu q) (hu (q + I3.dir k))).2.1
  have h2 := (LimitedRun.rec_bounds hrec (hu q) (hu (q + I3.dir k)) (hu (q + I3.dir k + I3.dir k))).1
  exact hS _ _ h1 h2

end ScalarOutput
end Verif
