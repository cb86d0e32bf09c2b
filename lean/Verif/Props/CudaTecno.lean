import Verif.CudaTecnoLemmas
import Verif.Props.Diffusion

/-!
Property theorems C75: the entropy stable diffusion on the graphics card.

Vocabulary: `s.mem` is the memory of the card with the volumes `s.vol` and the work arrays `s.dd`; `Sized n s` says that all volumes have the size `n`.
`yields`/`yieldsAll` say that the launches end with the given memory in every interleaving of the threads, `mayYield`/`mayYieldAll` that they end with it
in some interleaving. The processor is `applyDiffusion`, `addLoop`, `enoRec`, `noRec` of C24.
-/

namespace Verif.Props.CudaTecno
open Verif.Gpu Verif.NetFlux Verif.TecnoEno Verif.CudaTecno
open Verif.Diffusion hiding State
variable {N : Nat}

/-- The work volumes and the output as the operator on the processor sees them. -/
def work (s : Dev N) : Diffusion.State N := ⟨s.vol .left, s.vol .right, s.vol .entL, s.vol .entR, s.vol .output⟩

/-- C75, ENO reconstruction of orders 2 to 4. Whatever the work arrays contain, in every interleaving the card computes the left and right values the processor computes
from the same entropy variables and the same work arrays, and it changes no other volume. -/
theorem C75_eno_reconstruction (k d : Nat) (hk : 2 ≤ k) (hk4 : k ≤ 4) (hd : d < 3) (n : I3) (hn : 2 * ((k : Int) - 1) < n.get d) (s : Dev N) (hs : Sized n s) :
    ∃ s' : Dev N, yieldsAll (eno k n d) s.mem s'.mem ∧ (∀ a, a ≠ .left → a ≠ .right → s'.vol a = s.vol a) ∧
      (enoRec k fun _ _ l => (s.dd l).val).perform d n (s.vol .entL) (s.vol .entR) (s.vol .left) (s.vol .right) = .ok (s'.vol .left, s'.vol .right) := by
  obtain ⟨r, h, -⟩ := perform_ok (N := N) hd hk hk4 (fun _ _ l => (s.dd l).val) (n := n) (by omega) (hs.1 .entL) (hs.1 .entR) (hs.1 .left) (hs.1 .right)
  have e : (fun l => (⟨inFlat n, (s.dd l).val⟩ : Arr Int ℝ)) = s.dd := by
    funext l; rw [← hs.2 l]
  have h' := h
  simp only [enoRec] at h'
  rw [if_neg (by omega), if_neg (by omega), if_neg (by omega)] at h'
  obtain ⟨t, h1, h2⟩ := CudaTecno.bind_ok h'
  rw [e] at h1
  cases h2
  have y := variables_yield hd (by omega : 1 ≤ k) (s := s) _ h1
  rw [put_self] at y
  exact ⟨put s t, y, fun a a1 a2 => put_vol s t a1 a2, by rw [h, put_left, put_right]⟩

/-- Contents of the card for the examples. -/
noncomputable def exDev (n : I3) : Dev 1 where
  vol _ := field n fun p _ => p.x + 2 * p.y
  dd _ := ⟨inFlat n, fun i => i⟩

theorem exDev_sized (n : I3) : Sized n (exDev n) := ⟨fun _ => rfl, fun _ => rfl⟩

example := C75_eno_reconstruction 3 1 (by decide) (by decide) (by decide) ⟨4, 7, 1⟩ (by decide) (exDev ⟨4, 7, 1⟩) (exDev_sized _)

/-- C75, no reconstruction. -/
theorem C75_no_reconstruction (d : Nat) (n : I3) (s : Dev N) (hs : Sized n s) :
    ∃ (s' : Dev N) (l r : Arr I3 (Vec N)), yieldsAll (none n d) s.mem s'.mem ∧ (∀ a, a ≠ .left → a ≠ .right → s'.vol a = s.vol a) ∧
      noRec.perform d n (s.vol .entL) (s.vol .entR) (s.vol .left) (s.vol .right) = .ok (l, r) ∧
      ∀ q, inSize n q = true → (s'.vol .left).val q = l.val q ∧ (s'.vol .right).val q = r.val q := by
  obtain ⟨s', a1, -, -, a2, a3⟩ := none_yields d hs
  obtain ⟨lr, b1, -, -, b2⟩ := noRec_ok (d := d) (hs.1 .entL) (hs.1 .entR) (hs.1 .left) (hs.1 .right)
  refine ⟨s', lr.1, lr.2, a1, a2, b1, fun q hq => ?_⟩
  rw [(a3 q hq).1, (a3 q hq).2, (b2 q hq).1, (b2 q hq).2]
  exact ⟨rfl, rfl⟩

example := C75_no_reconstruction 1 ⟨4, 7, 2⟩ (exDev ⟨4, 7, 2⟩) (exDev_sized _)

/-- C75, the second kernel. C75 in full would say this of every cell, and of the whole operator from the conserved variables on: in every interleaving the output of the card is that of the
processor. Proved: given the same left and right values, the second kernel adds in every interleaving what the processor adds, in every cell where eigenvectors and eigenvalues at the mean of
the two neighbours agree with those at the two faces of the cell, so wherever three cells in a row hold the same state and everywhere for equations with constant coefficients; it changes no other
volume. Missing, because it is false: all other cells, and the entropy variables that go into the reconstruction (the theorems below). -/
theorem C75_second_kernel_partial (eq : Equation N) (k : Kind) (d : Nat) (n : I3) (s : Dev N) (hs : Sized n s) :
    ∃ (s' : Dev N) (o : Arr I3 (Vec N)), yields (multiplyLaunch eq k d n) s.mem s'.mem ∧ (∀ a, a ≠ .output → s'.vol a = s.vol a) ∧
      addLoop eq k d n (s.vol .conserved) (s.vol .left) (s.vol .right) (s.vol .output) = .ok o ∧
      ∀ q ∈ box (I3.dir d) (n - I3.dir d),
        (let u := (s.vol .conserved).val
         let mean := (0.5 : ℝ) • (u (q + I3.dir d) + u (q - I3.dir d))
         (eq.eigMat d mean = eq.eigMat d ((0.5 : ℝ) • (u (q + I3.dir d) + u q)) ∧ eq.eigVal d mean = eq.eigVal d ((0.5 : ℝ) • (u (q + I3.dir d) + u q))) ∧
         (eq.eigMat d mean = eq.eigMat d ((0.5 : ℝ) • (u q + u (q - I3.dir d))) ∧ eq.eigVal d mean = eq.eigVal d ((0.5 : ℝ) • (u q + u (q - I3.dir d))))) →
        (s'.vol .output).val q = o.val q := by
  obtain ⟨s', a1, -, -, a2, -, a3⟩ := multiply_ok eq k d hs
  obtain ⟨o, b1, -, b2⟩ := addLoop_ok eq k (d := d) (hs.1 .conserved) (hs.1 .left) (hs.1 .right) (hs.1 .output)
  refine ⟨s', o, a1, a2, b1, fun q hq h => ?_⟩
  obtain ⟨⟨h1, h2⟩, h3, h4⟩ := h
  have back : q - I3.dir d + I3.dir d = q := by ext <;> simp
  have neg : ∀ l r : Vec N, ∀ lam, k.mul lam (l - r) = - k.mul lam (r - l) := by
    intro l r lam
    obtain ⟨c, -, hc⟩ := k.mul_eq lam
    rw [hc, hc]
    funext i
    simp only [Pi.sub_apply, Pi.neg_apply]
    ring
  rw [a3 q hq, b2 q hq]
  congr 2
  · rw [cardFace, faceValue, ← h1, ← h2, neg, Matrix.mulVec_neg]
    module
  · rw [cardFace, faceValue, back, ← h3, ← h4, neg, Matrix.mulVec_neg]
    module

/-- Three equal states in a row, with left and right values that are not constant. -/
example : ∃ (s' : Dev 1) (o : Arr I3 (Vec 1)), yields (multiplyLaunch burgers .rusanov 1 ⟨4, 7, 1⟩) ((exDev ⟨4, 7, 1⟩).setVol .conserved (field ⟨4, 7, 1⟩ 1)).mem s'.mem ∧
    addLoop burgers .rusanov 1 ⟨4, 7, 1⟩ (field ⟨4, 7, 1⟩ 1) (field ⟨4, 7, 1⟩ fun p _ => p.x + 2 * p.y) (field ⟨4, 7, 1⟩ fun p _ => p.x + 2 * p.y)
      (field ⟨4, 7, 1⟩ fun p _ => p.x + 2 * p.y) = .ok o ∧ (s'.vol .output).val ⟨2, 3, 0⟩ = o.val ⟨2, 3, 0⟩ := by
  obtain ⟨s', o, h1, -, h2, h3⟩ := C75_second_kernel_partial burgers .rusanov 1 ⟨4, 7, 1⟩ ((exDev ⟨4, 7, 1⟩).setVol .conserved (field ⟨4, 7, 1⟩ 1)) (sized_setVol (exDev_sized _) _ rfl)
  exact ⟨s', o, h1, h2, h3 _ (by decide) ⟨⟨rfl, rfl⟩, rfl, rfl⟩⟩

/-- C75: no interleaving of the whole operator ever writes the volume of the right entropy variables, whatever the equation and the data, so the reconstruction always reads
what the volume happened to contain before. -/
theorem C75_right_values_never_computed (eq : Equation N) (k : Kind) (rec : Nat → List (Launch (Loc N) ℝ)) (dims order : Nat) (n : I3) (s : Dev N)
    (hrec : rec = none n ∨ rec = eno order n) (m : Arr (Loc N) ℝ) (hm : mayYieldAll (operator eq k rec dims n) s.mem m) (v : Fin N) (q : I3) :
    m.val (.cell .entR v q) = (s.vol .entR).val q v := by
  refine mayYieldAll_keeps (operator_uses eq k rec dims n ?_) hm (.cell .entR v q) (by simp [NotRight])
  rcases hrec with rfl | rfl
  · exact none_uses n
  · exact eno_uses order n

example : ∃ m, mayYieldAll (operator burgers .roe (none ⟨8, 1, 1⟩) 1 ⟨8, 1, 1⟩) (exDev ⟨8, 1, 1⟩).mem m ∧ m.val (.cell .entR 0 ⟨3, 0, 0⟩) = 3 := by
  obtain ⟨s', h, -⟩ := burgers_card .roe (exDev_sized ⟨8, 1, 1⟩)
  refine ⟨s'.mem, yieldsAll_may h, ?_⟩
  rw [C75_right_values_never_computed burgers .roe _ 1 0 _ _ (Or.inl rfl) _ (yieldsAll_may h) 0 ⟨3, 0, 0⟩]
  simp [exDev, field]

/-- C75 for Burgers' equation in one, two or three dimensions without reconstruction: what the card adds to a cell (not next to the boundary) in every interleaving is the sum over all
directions of a term with the speed at the mean of the two neighbours, the difference of the entropy variables at the right face, and at the left face the difference of whatever the
volume of the right values contained. Missing for C75: the processor takes the speed at the two faces and the entropy variables at both of them (`C75_fails`). -/
theorem C75_burgers_partial (k : Kind) (dims : Nat) (hdims : dims ≤ 3) (n : I3) (s : Dev 1) (hs : Sized n s) :
    ∃ s' : Dev 1, yieldsAll (operator burgers k (none n) dims n) s.mem s'.mem ∧ s'.vol .conserved = s.vol .conserved ∧
      ∀ q, inSize n q = true → (∀ d < dims, 1 ≤ q.get d ∧ q.get d + 2 < n.get d) →
        let u := (s.vol .conserved).val
        let r := (s.vol .entR).val
        (s'.vol .output).val q 0 = (s.vol .output).val q 0 + ∑ d ∈ Finset.range dims,
          0.5 * |0.5 * (u (q + I3.dir d) 0 + u (q - I3.dir d) 0)| *
            ((Flux.entropyVariable (u (q + I3.dir d) 0) - Flux.entropyVariable (u q 0)) + (r (q - I3.dir d) 0 - r q 0)) := by
  obtain ⟨s', h1, -, h2, -, h3⟩ := burgers_operator k dims hs
  refine ⟨s', h1, h2, fun q hq hd => h3 q fun d h => ?_⟩
  have := hd d h
  rw [inSize_iff] at hq
  rw [mem_box, mem_box]
  obtain rfl | rfl | rfl : d = 0 ∨ d = 1 ∨ d = 2 := by omega
  all_goals
    simp only [I3.get, I3.dir, I3.sub_x, I3.sub_y, I3.sub_z, I3.add_x, I3.add_y, I3.add_z] at *
    simp at *
    omega

/-- Two dimensions: the middle of 5 by 5 cells with the solution 1 everywhere, the other volumes holding `x + 2 y`. The directions add -1/2 and -1, although nothing should be added. -/
example : ∃ s' : Dev 1, yieldsAll (operator burgers .roe (none ⟨5, 5, 1⟩) 2 ⟨5, 5, 1⟩) ((exDev ⟨5, 5, 1⟩).setVol .conserved (field ⟨5, 5, 1⟩ 1)).mem s'.mem ∧
    (s'.vol .output).val ⟨2, 2, 0⟩ 0 = 6 - 1 / 2 - 1 := by
  obtain ⟨s', h1, -, h2⟩ := C75_burgers_partial .roe 2 (by decide) ⟨5, 5, 1⟩ ((exDev ⟨5, 5, 1⟩).setVol .conserved (field ⟨5, 5, 1⟩ 1)) (sized_setVol (exDev_sized _) _ rfl)
  refine ⟨s', h1, (h2 ⟨2, 2, 0⟩ (by decide) ?_).trans ?_⟩
  · intro d hd
    obtain rfl | rfl : d = 0 ∨ d = 1 := by omega
    all_goals simp [I3.get]
  · rw [setVol_vol, setVol_vol_ne _ (by decide), setVol_vol_ne _ (by decide)]
    norm_num [Finset.sum_range_succ, exDev, field, I3.dir]

/-- C75 fails: Burgers' equation, no reconstruction, five cells in a row. Whatever the work volumes contain, there is data with values strictly between 0 and 2 for which the card, in every interleaving,
adds something else to the middle cell than the processor. -/
theorem C75_fails (k : Kind) (s : Dev 1) (hs : Sized ⟨5, 1, 1⟩ s) :
    ∃ u : I3 → Vec 1, (∀ p, 0 < u p 0 ∧ u p 0 < 2) ∧ ∃ (s' : Dev 1) (t : Diffusion.State 1),
      yieldsAll (operator burgers k (none ⟨5, 1, 1⟩) 1 ⟨5, 1, 1⟩) (s.setVol .conserved (field ⟨5, 1, 1⟩ u)).mem s'.mem ∧
      applyDiffusion burgers k noRec 1 ⟨5, 1, 1⟩ (field ⟨5, 1, 1⟩ u) (work s) = .ok t ∧
      (s'.vol .output).val ⟨2, 0, 0⟩ 0 ≠ t.out.val ⟨2, 0, 0⟩ 0 := by
  have main : ∀ u : I3 → Vec 1, ∃ (s' : Dev 1) (t : Diffusion.State 1),
      yieldsAll (operator burgers k (none ⟨5, 1, 1⟩) 1 ⟨5, 1, 1⟩) (s.setVol .conserved (field ⟨5, 1, 1⟩ u)).mem s'.mem ∧
      applyDiffusion burgers k noRec 1 ⟨5, 1, 1⟩ (field ⟨5, 1, 1⟩ u) (work s) = .ok t ∧
      (s'.vol .output).val ⟨2, 0, 0⟩ 0 = (s.vol .output).val ⟨2, 0, 0⟩ 0 + 0.5 * |0.5 * (u ⟨3, 0, 0⟩ 0 + u ⟨1, 0, 0⟩ 0)| *
          ((Flux.entropyVariable (u ⟨3, 0, 0⟩ 0) - Flux.entropyVariable (u ⟨2, 0, 0⟩ 0)) + ((s.vol .entR).val ⟨1, 0, 0⟩ 0 - (s.vol .entR).val ⟨2, 0, 0⟩ 0)) ∧
      t.out.val ⟨2, 0, 0⟩ 0 = (s.vol .output).val ⟨2, 0, 0⟩ 0 +
        (0.5 * |0.5 * (u ⟨3, 0, 0⟩ 0 + u ⟨2, 0, 0⟩ 0)| * (Flux.entropyVariable (u ⟨3, 0, 0⟩ 0) - Flux.entropyVariable (u ⟨2, 0, 0⟩ 0)) -
          0.5 * |0.5 * (u ⟨2, 0, 0⟩ 0 + u ⟨1, 0, 0⟩ 0)| * (Flux.entropyVariable (u ⟨2, 0, 0⟩ 0) - Flux.entropyVariable (u ⟨1, 0, 0⟩ 0))) := by
    intro u
    obtain ⟨s', a1, a2⟩ := burgers_card k (sized_setVol hs .conserved (x := field ⟨5, 1, 1⟩ u) rfl)
    obtain ⟨t, b1, b2⟩ := burgers_cpu k (u := u) (w := work s) ⟨hs.1 _, hs.1 _, hs.1 _, hs.1 _, hs.1 _⟩
    have a := a2 2 (by decide) (by decide)
    have b := b2 2 (by decide) (by decide)
    rw [setVol_vol, setVol_vol_ne _ (by decide), setVol_vol_ne _ (by decide)] at a
    exact ⟨s', t, a1, b1, a, b⟩
  by_cases hr : (s.vol .entR).val ⟨1, 0, 0⟩ 0 = (s.vol .entR).val ⟨2, 0, 0⟩ 0
  · obtain ⟨s', t, h1, h2, h3, h4⟩ := main fun p _ => if p.x = 1 then 3 / 2 else 1 / 2
    refine ⟨fun p _ => if p.x = 1 then 3 / 2 else 1 / 2, fun p => ?_, s', t, h1, h2, ?_⟩
    · simp only; split_ifs <;> norm_num
    · rw [h3, h4, hr]
      norm_num [Flux.entropyVariable]
  · obtain ⟨s', t, h1, h2, h3, h4⟩ := main fun _ _ => 1 / 2
    refine ⟨fun _ _ => 1 / 2, fun p => by norm_num, s', t, h1, h2, ?_⟩
    rw [h3, h4]
    norm_num [abs_of_pos]
    exact fun h => hr (by linarith)

example := C75_fails .roe (exDev ⟨5, 1, 1⟩) (exDev_sized _)

/-- C75 fails for the totals too: seven cells in a row, two of them ghost cells on each side, periodic data, and a volume of right entropy variables that holds any constant. In every interleaving the card
adds 2/3 to the total of the output, while the processor keeps the total. -/
theorem C75_total_changes (k : Kind) (ρ : ℝ) (s : Dev 1) (hs : Sized ⟨7, 1, 1⟩ s) (hρ : ∀ q v, (s.vol .entR).val q v = ρ) :
    ∃ u : I3 → Vec 1, PeriodicIn ⟨7, 1, 1⟩ ⟨2, 0, 0⟩ 0 u ∧ (∀ p, 0 < u p 0 ∧ u p 0 < 2) ∧ ∃ (s' : Dev 1) (t : Diffusion.State 1),
      yieldsAll (operator burgers k (none ⟨7, 1, 1⟩) 1 ⟨7, 1, 1⟩) (s.setVol .conserved (field ⟨7, 1, 1⟩ u)).mem s'.mem ∧
      total ⟨7, 1, 1⟩ ⟨2, 0, 0⟩ (s'.vol .output).val 0 = total ⟨7, 1, 1⟩ ⟨2, 0, 0⟩ (s.vol .output).val 0 + 2 / 3 ∧
      applyDiffusion burgers k noRec 1 ⟨7, 1, 1⟩ (field ⟨7, 1, 1⟩ u) (work s) = .ok t ∧
      total ⟨7, 1, 1⟩ ⟨2, 0, 0⟩ t.out.val = total ⟨7, 1, 1⟩ ⟨2, 0, 0⟩ (s.vol .output).val := by
  set u : I3 → Vec 1 := fun p _ => if p.x % 3 = 0 then 3 / 2 else 1 / 2 with hu
  have hper : PeriodicIn ⟨7, 1, 1⟩ ⟨2, 0, 0⟩ 0 u := by
    intro p _ _
    simp [hu, step, I3.get]
  obtain ⟨s', a1, a2⟩ := burgers_card k (sized_setVol hs .conserved (x := field ⟨7, 1, 1⟩ u) rfl)
  obtain ⟨t, b1, b2⟩ := C24_conservative_partial burgers k noRec 1 0 (by decide) (fun d hd => noRec_faceLocal d (by omega)) ⟨7, 1, 1⟩ ⟨2, 0, 0⟩ (by decide) (by decide)
    (field ⟨7, 1, 1⟩ u) rfl (fun d hd => by obtain rfl : d = 0 := by omega
                                            exact hper) (work s) ⟨hs.1 _, hs.1 _, hs.1 _, hs.1 _, hs.1 _⟩
  refine ⟨u, hper, fun p => ?_, s', t, a1, ?_, b1, b2⟩
  · simp only [hu]; split_ifs <;> norm_num
  · have tot : ∀ f : I3 → Vec 1, total ⟨7, 1, 1⟩ ⟨2, 0, 0⟩ f 0 = f ⟨2, 0, 0⟩ 0 + f ⟨3, 0, 0⟩ 0 + f ⟨4, 0, 0⟩ 0 := by
      intro f
      have i1 : Finset.Ico (2 : Int) 5 = {2, 3, 4} := by decide
      have i2 : Finset.Ico (0 : Int) 1 = {0} := by decide
      simp [total, i1, i2]
      ring
    have h2 := a2 2 (by decide) (by decide)
    have h3 := a2 3 (by decide) (by decide)
    have h4 := a2 4 (by decide) (by decide)
    rw [setVol_vol, setVol_vol_ne _ (by decide), setVol_vol_ne _ (by decide)] at h2 h3 h4
    rw [tot, tot, h2, h3, h4]
    simp only [hρ]
    norm_num [hu, field, Flux.entropyVariable]
    ring

example := C75_total_changes .rusanov 42 ⟨fun _ => field ⟨7, 1, 1⟩ fun _ _ => 42, fun _ => ⟨inFlat ⟨7, 1, 1⟩, fun _ => 0⟩⟩ ⟨fun _ => rfl, fun _ => rfl⟩ fun _ _ => rfl

/-- The states of the next theorem: all of density 1 and energy 10, only the first one moves. -/
noncomputable def exState : Dev 3 where
  vol _ := field ⟨4, 1, 1⟩ fun p => ![1, if p.x = 0 then 2 else 0, 10]
  dd _ := ⟨inFlat ⟨4, 1, 1⟩, fun _ => 0⟩

/-- C75 fails: for the Euler equations the first kernel has a race. Both threads next to a cell write its entropy variables, scaled with the eigenvectors at different faces, and two interleavings leave
different values. -/
theorem C75_race (γ : ℝ) (hγ : 1 < γ) :
    (∀ p, 0 < ((exState.vol .conserved).val p 0) ∧ 0 < Euler.pressure γ (Euler.ofVec1 ((exState.vol .conserved).val p))) ∧
    ∃ m1 m2 : Arr (Loc 3) ℝ, mayYield (entropyLaunch (euler1 γ) 0 ⟨4, 1, 1⟩) exState.mem m1 ∧ mayYield (entropyLaunch (euler1 γ) 0 ⟨4, 1, 1⟩) exState.mem m2 ∧
      m1.val (.cell .entL 1 ⟨1, 0, 0⟩) ≠ m2.val (.cell .entL 1 ⟨1, 0, 0⟩) := by
  have hbox : ∀ c : I3, c ∈ box (I3.dir 0) (⟨4, 1, 1⟩ - I3.dir 0) ↔ c = ⟨1, 0, 0⟩ ∨ c = ⟨2, 0, 0⟩ := by
    intro c
    rw [mem_box, I3.ext_iff, I3.ext_iff]
    simp only [I3.dir, I3.sub_x, I3.sub_y, I3.sub_z]
    simp
    omega
  have e1 : (⟨1, 0, 0⟩ : I3) - I3.dir 0 = ⟨0, 0, 0⟩ := rfl
  have e2 : (⟨2, 0, 0⟩ : I3) - I3.dir 0 = ⟨1, 0, 0⟩ := rfl
  have x : ∀ (q : I3), (q = ⟨1, 0, 0⟩ ∨ q = ⟨2, 0, 0⟩) → ∀ s : Dev 3, (∀ a, (s.vol a).inb = inSize ⟨4, 1, 1⟩) → ∃ s' : Dev 3,
      (entropyBody (euler1 γ) 0 .entL .entL q).exec s.mem = .ok s'.mem ∧ (∀ a, (s'.vol a).inb = inSize ⟨4, 1, 1⟩) ∧ s'.vol .conserved = s.vol .conserved ∧
      (s'.vol .entL).val ⟨1, 0, 0⟩ = scaled (euler1 γ) 0 ((s.vol .conserved).val (q - I3.dir 0)) ((s.vol .conserved).val q) ((s.vol .conserved).val ⟨1, 0, 0⟩) := by
    intro q hq s h
    refine ⟨_, exec_entropy (euler1 γ) 0 (q := q) (s := s) (fun a => by rw [h a]; rcases hq with rfl | rfl <;> decide), fun a => ?_, setVol_vol_ne _ (by decide) _, ?_⟩
    · by_cases ha : a = .entL
      · subst ha; rw [setVol_vol]; exact h _
      · rw [setVol_vol_ne _ ha]; exact h _
    · rw [setVol_vol]
      rcases hq with rfl | rfl
      · simp only
        rw [Function.update_of_ne (by decide), Function.update_self]
      · simp only
        rw [e2, Function.update_self]
  have y : ∀ q1 q2 : I3, (q1 = ⟨1, 0, 0⟩ ∨ q1 = ⟨2, 0, 0⟩) → (q2 = ⟨1, 0, 0⟩ ∨ q2 = ⟨2, 0, 0⟩) →
      ∃ m, [q1, q2].foldlM (fun m c => (entropyBody (euler1 γ) 0 .entL .entL c).exec m) exState.mem = .ok m ∧
        m.val (.cell .entL 1 ⟨1, 0, 0⟩) = scaled (euler1 γ) 0 ((exState.vol .conserved).val (q2 - I3.dir 0)) ((exState.vol .conserved).val q2) ((exState.vol .conserved).val ⟨1, 0, 0⟩) 1 := by
    intro q1 q2 h1 h2
    obtain ⟨s1, a1, a2, a3, -⟩ := x q1 h1 exState fun _ => rfl
    obtain ⟨s2, b1, -, -, b4⟩ := x q2 h2 s1 a2
    refine ⟨s2.mem, ?_, ?_⟩
    · simp only [List.foldlM_cons, a1, b1, Res.ok_bind, List.foldlM_nil]; rfl
    · rw [← a3]; exact congrFun b4 1
  obtain ⟨m1, y1, z1⟩ := y ⟨1, 0, 0⟩ ⟨2, 0, 0⟩ (Or.inl rfl) (Or.inr rfl)
  obtain ⟨m2, y2, z2⟩ := y ⟨2, 0, 0⟩ ⟨1, 0, 0⟩ (Or.inr rfl) (Or.inl rfl)
  refine ⟨fun p => ?_, m1, m2, mayYield_box (dir_x_nonneg 0) (by decide) [⟨1, 0, 0⟩, ⟨2, 0, 0⟩] (by decide) (by intro c; rw [hbox]; simp) y1,
    mayYield_box (dir_x_nonneg 0) (by decide) [⟨2, 0, 0⟩, ⟨1, 0, 0⟩] (by decide) (by intro c; rw [hbox]; simp [or_comm]) y2, ?_⟩
  · refine ⟨by simp [exState, field], ?_⟩
    simp only [exState, field, Euler.pressure, Euler.ofVec1, Euler.dot]
    have hp : 0 < γ - 1 := by linarith
    split_ifs <;> simp [Euler.Cons.m, Euler.Cons.rho, Euler.Cons.E] <;> norm_num <;> linarith
  · have h0 : (0 : ℝ) < (γ - 1) / γ := div_pos (by linarith) (by linarith)
    have h1 : Real.sqrt ((γ - 1) / γ) ≠ 0 := (Real.sqrt_pos.2 h0).ne'
    have h2 : (γ - 1) ≠ 0 := by linarith
    rw [z1, z2, e1, e2]
    simp only [exState, field, scaled, euler1, Euler.eigenVectors1, Matrix.mulVec, dotProduct, Fin.sum_univ_three, Matrix.transpose_apply]
    simp [Euler.ofVec1, Euler.velocity, Euler.dot, Euler.entropyVariables, Euler.pressure, Euler.Cons.m, Euler.Cons.rho, Euler.Cons.E]
    norm_num
    exact ⟨h1, h2⟩

example := C75_race (7 / 5) (by norm_num)

end Verif.Props.CudaTecno
