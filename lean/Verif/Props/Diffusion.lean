import Verif.DiffusionTotals

/-!
Property theorems C24: the diffusion operator of the entropy stable schemes.

Vocabulary: `n` total size of the volumes, `G` ghost widths, `total` sum over the interior cells; the face `q` in direction `d` lies
between the cells `q` and `q + e_d`. The data the reconstruction gets at the face `q` are `entR q` and `entL (q + e_d)` (the scaled entropy
variables on its two sides); what it returns there are `right q` and `left (q + e_d)`.
-/

namespace Verif.Props
open Verif NetFlux Diffusion
variable {N : Nat}

/-- The reconstruction that does nothing is local with no neighbours. -/
theorem noRec_faceLocal (d : Nat) (hd : d < 3) : FaceLocal (noRec : TecnoRec N) d 0 := by
  refine ⟨fun f => (f 0).1 - (f 0).2, fun f f' h => by simp only [h 0 (by simp) (by simp)], ?_⟩
  intro n entL entR left right _ h1 h2 h3 h4
  obtain ⟨s, k1, k2, k3, k4⟩ := noRec_ok (d := d) h1 h2 h3 h4
  refine ⟨s, k1, k2, k3, fun q hq => ?_⟩
  have e : ∀ p : I3, p + step d 0 = p := fun p => by ext <;> simp [step]
  obtain ⟨a, b⟩ := written_inSize hd (hq.written hd)
  simp only [e]
  rw [(k4 _ b).1, (k4 _ a).2]

/-- ... and has the sign property. -/
theorem noRec_signProperty (d : Nat) (hd : d < 3) : SignProperty (noRec : TecnoRec N) d 0 := by
  intro n entL entR left right _ h1 h2 h3 h4
  obtain ⟨s, k1, k2, k3, k4⟩ := noRec_ok (d := d) h1 h2 h3 h4
  refine ⟨s, k1, k2, k3, fun q hq i => ?_⟩
  obtain ⟨a, b⟩ := written_inSize hd (hq.written hd)
  rw [(k4 _ b).1, (k4 _ a).2]
  exact mul_self_nonneg _

/-- C24, dissipation. One direction of the operator adds to each cell the difference of a diffusion flux `D` at its two faces, and at every
face for which the operator has computed the data of the faces up to `r` away (`FaceWindow`; it leaves out the last face of each grid line) the jump of the
entropy variables times `D` is non-negative, for every equation, both matrices and every reconstruction with the sign property. -/
theorem C24_dissipative_at_faces (eq : Equation N) (k : Kind) (rec : TecnoRec N) (d r : Nat) (hd : d < 3) (hrec : SignProperty rec d r) (n : I3) (hn : (r : Int) ≤ n.get d)
    (u : Arr I3 (Vec N)) (hu : u.inb = inSize n) (s : Diffusion.State N) (hs : SizedState n s) :
    ∃ (s' : Diffusion.State N) (D : I3 → Vec N), applyDirection eq k rec n u s d = .ok s' ∧
      (∀ q ∈ box (I3.dir d) (n - I3.dir d), s'.out.val q = s.out.val q + (D q - D (q - I3.dir d))) ∧
      (∀ q, FaceWindow n d r q →
        0 ≤ ∑ i, (eq.entVar (u.val (q + I3.dir d)) i - eq.entVar (u.val q) i) * D q i) := by
  obtain ⟨s1, s2, s3, s4, s5⟩ := hs
  obtain ⟨e, a1, a2, a3, a4, _⟩ := scaleLoop_ok eq hd hu s3 s4
  obtain ⟨lr, b1, b2, b3, b4⟩ := hrec n e.1 e.2 s.left s.right hn a2 a3 s1 s2
  obtain ⟨o, c1, c2, c3⟩ := addLoop_ok eq k (d := d) hu b2 b3 s5
  refine ⟨⟨lr.1, lr.2, e.1, e.2, o⟩, faceValue eq k d u.val lr.1.val lr.2.val, ?_, c3, fun q hw => ?_⟩
  · simp only [applyDirection, a1, b1, c1, Res.ok_bind, Res.pure_eq]
  · refine faceValue_dissipative eq k d _ _ _ q fun i => ?_
    rw [← (a4 q (hw.written hd)).1, ← (a4 q (hw.written hd)).2]
    exact b4 q hw i

example (γ : ℝ) (u s : I3 → Vec 3) : ∃ s', applyDirection (euler1 γ) .roe noRec ⟨10, 1, 1⟩ (field ⟨10, 1, 1⟩ u)
    ⟨field ⟨10, 1, 1⟩ s, field ⟨10, 1, 1⟩ s, field ⟨10, 1, 1⟩ s, field ⟨10, 1, 1⟩ s, field ⟨10, 1, 1⟩ s⟩ 0 = .ok s' :=
  let ⟨s', _, h, _⟩ := C24_dissipative_at_faces (euler1 γ) .roe noRec 0 0 (by decide) (noRec_signProperty 0 (by decide)) ⟨10, 1, 1⟩ (by decide) (field ⟨10, 1, 1⟩ u) rfl
    ⟨field ⟨10, 1, 1⟩ s, field ⟨10, 1, 1⟩ s, field ⟨10, 1, 1⟩ s, field ⟨10, 1, 1⟩ s, field ⟨10, 1, 1⟩ s⟩ ⟨rfl, rfl, rfl, rfl, rfl⟩
  ⟨s', h⟩

example : FaceWindow ⟨10, 1, 1⟩ 0 1 ⟨4, 0, 0⟩ :=
  (faceWindow_get (by decide)).2 ⟨by decide, by intro e he hne; interval_cases e <;> simp_all [I3.get]⟩

/-- C24, conservation, provided there are at least `r + 2` ghost cells where the reconstruction looks `r` faces to each side: with periodic
ghost cells the operator adds zero to the total of every variable. What is missing is the number of ghost cells the code actually uses: for the
reconstruction `none` (`r = 0`) it asks for one, for ENO of order `k` (`r = k - 1`) for `k`, which is one too few
(`C24_one_ghost_cell_is_not_conservative`) unless the flux or the main reconstruction asks for more. -/
theorem C24_conservative_partial (eq : Equation N) (k : Kind) (rec : TecnoRec N) (dims r : Nat) (hdims : dims ≤ 3)
    (hrec : ∀ d < dims, FaceLocal rec d r) (n G : I3) (hG : ∀ d < dims, (r : Int) + 2 ≤ G.get d)
    (hpos : ∀ e < 3, 0 ≤ G.get e ∧ G.get e ≤ n.get e - G.get e) (u : Arr I3 (Vec N)) (hu : u.inb = inSize n)
    (hper : ∀ d < dims, PeriodicIn n G d u.val) (s : Diffusion.State N) (hs : SizedState n s) :
    ∃ s', applyDiffusion eq k rec dims n u s = .ok s' ∧ total n G s'.out.val = total n G s.out.val := by
  have key := foldlM_inv (applyDirection eq k rec n u) (List.range dims) s
    (fun _ s' => SizedState n s' ∧ total n G s'.out.val = total n G s.out.val) ⟨hs, rfl⟩ ?_
  · obtain ⟨s', h1, _, h2⟩ := key
    exact ⟨s', h1, h2⟩
  · rintro pre d post s' hl ⟨h1, h2⟩
    have hd : d < dims := by
      have : d ∈ List.range dims := by rw [hl]; simp
      simpa using this
    obtain ⟨s'', lr, k1, k2, _, k3, k4⟩ := direction_flux eq k rec (by omega : d < 3) (hrec d hd) (hG d hd) hpos hu (hper d hd) h1
    refine ⟨s'', k1, k2, ?_⟩
    rw [← h2]
    have hb : G.x ≤ n.x - G.x ∧ G.y ≤ n.y - G.y ∧ G.z ≤ n.z - G.z := by
      have h0 := hpos 0 (by decide); have h1 := hpos 1 (by decide); have h2 := hpos 2 (by decide)
      simp [I3.get] at h0 h1 h2
      omega
    have e : total n G s''.out.val = total n G s'.out.val + total n G (fun p =>
        -faceValue eq k d u.val lr.1.val lr.2.val (p - I3.dir d) - -faceValue eq k d u.val lr.1.val lr.2.val p) := by
      rw [← total_add]
      refine total_congr fun p hp => ?_
      rw [k3 p hp]; congr 1; abel
    rw [e, total_difference hb (by omega) (fun q => -faceValue eq k d u.val lr.1.val lr.2.val q), netInflow_eq_zero (by omega) _ ?_, add_zero]
    intro q hq hq'
    rw [k4 q hq hq']

/-- C24, the operator as a whole never produces entropy: one direction with periodic ghost cells (at least `r + 2` of them) and a reconstruction
with the sign property changes `out` so that the sum of entropy variables times change over the interior is non-positive. -/
theorem C24_entropy_not_produced (eq : Equation N) (k : Kind) (rec : TecnoRec N) (d r : Nat) (hd : d < 3) (hrec : FaceLocal rec d r)
    (hsign : SignProperty rec d r) (n G : I3) (hG : (r : Int) + 2 ≤ G.get d) (hpos : ∀ e < 3, 0 ≤ G.get e ∧ G.get e ≤ n.get e - G.get e)
    (u : Arr I3 (Vec N)) (hu : u.inb = inSize n) (hper : PeriodicIn n G d u.val) (s : Diffusion.State N) (hs : SizedState n s) :
    ∃ s', applyDirection eq k rec n u s d = .ok s' ∧
      total n G (fun p => ∑ i, eq.entVar (u.val p) i * (s'.out.val p i - s.out.val p i)) ≤ 0 := by
  obtain ⟨s', lr, k1, k2, ⟨e, l1, l2⟩, k3, k4⟩ := direction_flux eq k rec hd hrec hG hpos hu hper hs
  refine ⟨s', k1, ?_⟩
  set D := faceValue eq k d u.val lr.1.val lr.2.val with hD
  obtain ⟨s1, s2, s3, s4, s5⟩ := hs
  obtain ⟨e', a1, a2, a3, a4, _⟩ := scaleLoop_ok eq hd hu s3 s4
  obtain rfl : e = e' := by rw [l1] at a1; exact Except.ok.inj a1
  obtain ⟨lr', b1, b2, b3, b4⟩ := hsign n e.1 e.2 s.left s.right (by have := hpos d hd; omega) a2 a3 s1 s2
  obtain rfl : lr = lr' := by rw [l2] at b1; exact Except.ok.inj b1
  set A : I3 → ℝ := fun q => ∑ i, eq.entVar (u.val (q + I3.dir d)) i * D q i with hA
  have hb : G.x ≤ n.x - G.x ∧ G.y ≤ n.y - G.y ∧ G.z ≤ n.z - G.z := by
    have h0 := hpos 0 (by decide); have h1 := hpos 1 (by decide); have h2 := hpos 2 (by decide)
    simp [I3.get] at h0 h1 h2
    omega
  have split : total n G (fun p => ∑ i, eq.entVar (u.val p) i * (s'.out.val p i - s.out.val p i)) =
      total n G (fun p => -A (p - I3.dir d) - -A p) +
      total n G (fun p => -∑ i, (eq.entVar (u.val (p + I3.dir d)) i - eq.entVar (u.val p) i) * D p i) := by
    rw [← total_add]
    refine total_congr fun p hp => ?_
    rw [k3 p hp]
    have ee : p - I3.dir d + I3.dir d = p := by ext <;> simp
    simp only [hA, ee, ← Finset.sum_neg_distrib, ← Finset.sum_sub_distrib, ← Finset.sum_add_distrib]
    refine Finset.sum_congr rfl fun i _ => ?_
    simp only [Pi.add_apply, Pi.sub_apply]
    ring
  rw [split, total_difference hb hd (fun q => -A q), netInflow_eq_zero hd _ ?_, zero_add]
  · have : ∀ p, IsInterior n G p → 0 ≤ ∑ i, (eq.entVar (u.val (p + I3.dir d)) i - eq.entVar (u.val p) i) * D p i := by
      intro p hp
      have hpd := hp d hd
      have hw : Written d n p := by
        rw [written_get hd]
        refine ⟨by omega, fun e he hne => ?_⟩
        have := hp e he; have := hpos e he
        omega
      refine faceValue_dissipative eq k d _ _ _ p fun i => ?_
      rw [← (a4 p hw).1, ← (a4 p hw).2]
      refine b4 p ((faceWindow_get hd).2 ⟨by have := hpos d hd; omega, fun e he hne => ?_⟩) i
      have := hp e he; have := hpos e he
      omega
    unfold total
    refine Finset.sum_nonpos fun z hz => Finset.sum_nonpos fun y hy => Finset.sum_nonpos fun x hx => neg_nonpos.2 (this _ ?_)
    simp only [Finset.mem_Ico] at hx hy hz
    intro e he
    interval_cases e <;> simp [I3.get] <;> omega
  · intro q hq hq'
    simp only [hA, k4 q hq hq']
    congr 1
    refine Finset.sum_congr rfl fun i _ => ?_
    congr 2
    have e : q + step d (n.get d - 2 * G.get d) + I3.dir d = (q + I3.dir d) + step d (n.get d - 2 * G.get d) := by
      ext <;> simp only [I3.add_x, I3.add_y, I3.add_z] <;> ring
    rw [e]
    have hcell : inSize n (q + I3.dir d) = true ∧ inSize n (q + I3.dir d + step d (n.get d - 2 * G.get d)) = true := by
      have hp0 := hpos d hd
      rw [dir_eq_step]
      constructor <;> rw [inSize_get] <;> intro e he <;> have hpe := hpos e he <;> by_cases hne : e = d
      · subst hne; rw [(get_geom hd q _).1]; omega
      · rw [(get_geom hd q _).2 e he hne]; have := hq' e he hne; omega
      · subst hne; rw [(get_geom hd _ _).1, (get_geom hd _ _).1]; omega
      · rw [(get_geom hd _ _).2 e he hne, (get_geom hd _ _).2 e he hne]; have := hq' e he hne; omega
    rw [hper _ hcell.1 hcell.2]

/-- A periodic state on six interior cells with two ghost cells. -/
noncomputable def exU : I3 → Vec 1 := fun p _ => if p.x % 6 = 0 then 1 / 2 else 3 / 2

theorem exU_periodic : PeriodicIn ⟨10, 1, 1⟩ ⟨2, 0, 0⟩ 0 exU := by
  intro p _ _
  funext i
  simp [exU, step, I3.get]

example (s : I3 → Vec 1) : ∃ s', applyDiffusion burgers .rusanov noRec 1 ⟨10, 1, 1⟩ (field ⟨10, 1, 1⟩ exU)
    ⟨field ⟨10, 1, 1⟩ s, field ⟨10, 1, 1⟩ s, field ⟨10, 1, 1⟩ s, field ⟨10, 1, 1⟩ s, field ⟨10, 1, 1⟩ s⟩ = .ok s' ∧
    total ⟨10, 1, 1⟩ ⟨2, 0, 0⟩ s'.out.val = total ⟨10, 1, 1⟩ ⟨2, 0, 0⟩ s :=
  C24_conservative_partial burgers .rusanov noRec 1 0 (by decide) (fun d hd => noRec_faceLocal d (by omega)) ⟨10, 1, 1⟩ ⟨2, 0, 0⟩ (by decide) (by decide)
    (field ⟨10, 1, 1⟩ exU) rfl (by intro d hd; interval_cases d; exact exU_periodic) _ ⟨rfl, rfl, rfl, rfl, rfl⟩

example (s : I3 → Vec 1) : ∃ s', applyDirection burgers .roe noRec ⟨10, 1, 1⟩ (field ⟨10, 1, 1⟩ exU)
    ⟨field ⟨10, 1, 1⟩ s, field ⟨10, 1, 1⟩ s, field ⟨10, 1, 1⟩ s, field ⟨10, 1, 1⟩ s, field ⟨10, 1, 1⟩ s⟩ 0 = .ok s' :=
  (C24_entropy_not_produced burgers .roe noRec 0 0 (by decide) (noRec_faceLocal 0 (by decide)) (noRec_signProperty 0 (by decide)) ⟨10, 1, 1⟩ ⟨2, 0, 0⟩ (by decide) (by decide)
    (field ⟨10, 1, 1⟩ exU) rfl exU_periodic _ ⟨rfl, rfl, rfl, rfl, rfl⟩).imp fun _ h => h.1

/-- The work volumes right after construction hold 42 everywhere (alsfvm/src/memory/HostMemory.cpp:36-37). -/
noncomputable def freshState (n : I3) (out : I3 → Vec N) : Diffusion.State N :=
  ⟨field n fun _ _ => 42, field n fun _ _ => 42, field n fun _ _ => 42, field n fun _ _ => 42, field n out⟩

/-- C24 fails for the ghost width the operator itself asks for. Burgers' equation, reconstruction `none` (one ghost cell), two interior
cells with values 3/2 and 1/2 and periodic ghost cells: the first application of the operator changes the total by -4/3, because the face
next to the right ghost cell uses scaled entropy variables that were never computed (the initial 42). -/
theorem C24_one_ghost_cell_is_not_conservative :
    (noRec : TecnoRec 1).ghost = 1 ∧
    ∃ u : I3 → Vec 1, PeriodicIn ⟨4, 1, 1⟩ ⟨1, 0, 0⟩ 0 u ∧ (∀ p, 0 < u p 0 ∧ u p 0 < 2) ∧
      ∀ k, ∃ s', applyDiffusion burgers k noRec 1 ⟨4, 1, 1⟩ (field ⟨4, 1, 1⟩ u) (freshState ⟨4, 1, 1⟩ fun _ _ => 0) = .ok s' ∧
        total ⟨4, 1, 1⟩ ⟨1, 0, 0⟩ s'.out.val 0 = -4 / 3 := by
  refine ⟨rfl, fun p _ => if p.x % 2 = 0 then 1 / 2 else 3 / 2, ?_, ?_, fun k => ?_⟩
  · intro p _ _
    simp [step, I3.get]
  · intro p
    simp only
    split_ifs <;> norm_num
  · set u : Arr I3 (Vec 1) := field ⟨4, 1, 1⟩ fun p _ => if p.x % 2 = 0 then 1 / 2 else 3 / 2 with hu
    obtain ⟨e, a1, a2, a3, a4, a5⟩ := scaleLoop_ok burgers (d := 0) (by decide) (n := ⟨4, 1, 1⟩) (u := u) (entL := field ⟨4, 1, 1⟩ fun _ _ => 42)
      (entR := field ⟨4, 1, 1⟩ fun _ _ => 42) rfl rfl rfl
    obtain ⟨lr, b1, b2, b3, b4⟩ := noRec_ok (d := 0) (left := field ⟨4, 1, 1⟩ fun _ _ => 42) (right := field ⟨4, 1, 1⟩ fun _ _ => 42) a2 a3 rfl rfl
    obtain ⟨o, c1, c2, c3⟩ := addLoop_ok burgers k (d := 0) (u := u) (out := field ⟨4, 1, 1⟩ fun _ _ => (0 : ℝ)) rfl b2 b3 rfl
    refine ⟨⟨lr.1, lr.2, e.1, e.2, o⟩, ?_, ?_⟩
    · simp only [applyDiffusion, List.range_one, List.foldlM_cons, List.foldlM_nil, applyDirection, freshState, a1, b1, c1, Res.ok_bind, Res.pure_eq]
    · have t : total ⟨4, 1, 1⟩ ⟨1, 0, 0⟩ o.val = o.val ⟨1, 0, 0⟩ + o.val ⟨2, 0, 0⟩ := by
        have i1 : Finset.Ico (1 : Int) 3 = {1, 2} := by decide
        have i2 : Finset.Ico (0 : Int) 1 = {0} := by decide
        simp [total, i1, i2]
      have d0 : I3.dir 0 = ⟨1, 0, 0⟩ := rfl
      have v1 := c3 ⟨1, 0, 0⟩ (by decide)
      have v2 := c3 ⟨2, 0, 0⟩ (by decide)
      have w0 : (⟨1, 0, 0⟩ : I3) - ⟨1, 0, 0⟩ = ⟨0, 0, 0⟩ := rfl
      have w1 : (⟨2, 0, 0⟩ : I3) - ⟨1, 0, 0⟩ = ⟨1, 0, 0⟩ := rfl
      rw [d0, w0] at v1
      rw [d0, w1] at v2
      rw [t, v1, v2]
      -- the last face: nothing was computed there
      have n2 : ¬ Written 0 ⟨4, 1, 1⟩ ⟨2, 0, 0⟩ := by unfold Written; decide
      have f2 : faceValue burgers k 0 u.val lr.1.val lr.2.val ⟨2, 0, 0⟩ = 0 := by
        have x := a5 ⟨2, 0, 0⟩ n2
        have e1 : (⟨2, 0, 0⟩ : I3) + I3.dir 0 = ⟨3, 0, 0⟩ := rfl
        rw [e1] at x
        obtain ⟨c, _, hc⟩ := k.mul_eq (burgers.eigVal 0 ((0.5 : ℝ) • (u.val (⟨2, 0, 0⟩ + I3.dir 0) + u.val ⟨2, 0, 0⟩)))
        rw [faceValue, hc, e1, (b4 ⟨3, 0, 0⟩ (by decide)).1, (b4 ⟨2, 0, 0⟩ (by decide)).2, x.1, x.2]
        funext i
        simp [field, Matrix.mulVec, dotProduct]
      have f0 : faceValue burgers k 0 u.val lr.1.val lr.2.val ⟨0, 0, 0⟩ = fun _ => 4 / 3 := by
        have x := a4 ⟨0, 0, 0⟩ (by unfold Written; decide)
        have e1 : (⟨0, 0, 0⟩ : I3) + I3.dir 0 = ⟨1, 0, 0⟩ := rfl
        rw [e1] at x
        have m : (0.5 : ℝ) • (u.val ⟨1, 0, 0⟩ + u.val ⟨0, 0, 0⟩) = fun _ => 1 := by
          funext i; simp [hu, field]; norm_num
        rw [faceValue, e1, m, (b4 ⟨1, 0, 0⟩ (by decide)).1, (b4 ⟨0, 0, 0⟩ (by decide)).2, x.1, x.2]
        funext i
        cases k <;> simp [Kind.mul, burgers, scaled, hu, field, Matrix.mulVec, dotProduct, Flux.entropyVariable, List.finRange_succ] <;> norm_num [Matrix.transpose]
      simp only [f0, f2, Pi.add_apply, Pi.sub_apply, Pi.zero_apply, field]
      ring

end Verif.Props
