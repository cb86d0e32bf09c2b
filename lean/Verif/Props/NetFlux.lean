import Verif.NetFluxTotals
import Verif.Boundary

/-!
Property theorems C10 (conservation), C11 (splitting), C12 (independence of the halo) and C14 (uniform states).

Vocabulary: `n` total size of the volume, `G` ghost widths, `IsInterior n G p` interior cells; `face r fl u d q` is the flux and wave
speed the flux function returns at the face between cell `q` and its right neighbour in direction `d`; `Layout` and `Fits` say that
there are `g` ghost cells in each active direction and that reconstruction and flux stay within them.
-/

namespace Verif.Props
open Verif NetFlux Finset

/-- C10, balance. One evaluation of the right hand side succeeds, and the total of the result over all interior cells is exactly the
inflow minus the outflow through the boundary faces, for every flux function, reconstruction, grid and state. -/
theorem C10_balance {V R : Type} [AddCommGroup V] [Zero R] [LinearOrder R] (r : Recon V) (fl : FluxFn V R) (n G active : I3) (dims g : Nat)
    (hL : Layout n G active dims g) (hf : Fits r fl g) (hN : ∀ d < dims, 3 * G.get d ≤ n.get d) (hpos : 0 < dims)
    (u0 u1 : Arr I3 V) (hu0 : u0.inb = inSize n) (hu1 : u1.inb = inSize n) (huv : ∀ p, IsInterior n G p → u0.val p = u1.val p)
    (s : State V R) (hsz : Sized n s) :
    ∃ s', conservedSystem dims r fl n G active u0 u1 s = .ok s' ∧
      total n G s'.out.val = ((List.range dims).map fun d => netInflow n G d fun q => (face r fl u1.val d q).1).sum := by
  obtain ⟨s', h1, _, h3, _⟩ := conservedSystem_ok hL hf hN hpos u0 u1 (readsOK_of_full hL hf (inner_regionOK hL) u0 hu0) hu1 huv s hsz
  refine ⟨s', h1, ?_⟩
  have e : total n G s'.out.val = total n G (net dims r fl u1.val) :=
    total_congr fun p hp => by rw [h3, if_pos (isInterior_iff.1 hp)]
  rw [e]
  exact total_net hL r fl u1.val

/-- C10, conservation. If the ghost cells are periodic continuations (cells one period apart have equal values in every active
direction), one evaluation of the right hand side changes the total amount of every variable by exactly zero. -/
theorem C10_conservation {V R : Type} [AddCommGroup V] [Zero R] [LinearOrder R] (r : Recon V) (fl : FluxFn V R) (n G active : I3) (dims g : Nat)
    (hL : Layout n G active dims g) (hf : Fits r fl g) (hN : ∀ d < dims, 3 * G.get d ≤ n.get d) (hpos : 0 < dims)
    (u0 u1 : Arr I3 V) (hu0 : u0.inb = inSize n) (hu1 : u1.inb = inSize n) (huv : ∀ p, IsInterior n G p → u0.val p = u1.val p)
    (hper : ∀ d < dims, ∀ p, inSize n p = true → inSize n (p + step d (n.get d - 2 * G.get d)) = true →
      u1.val (p + step d (n.get d - 2 * G.get d)) = u1.val p)
    (s : State V R) (hsz : Sized n s) :
    ∃ s', conservedSystem dims r fl n G active u0 u1 s = .ok s' ∧ total n G s'.out.val = 0 := by
  obtain ⟨s', h1, h2⟩ := C10_balance r fl n G active dims g hL hf hN hpos u0 u1 hu0 hu1 huv s hsz
  refine ⟨s', h1, ?_⟩
  rw [h2]
  apply List.sum_eq_zero
  intro x hx
  obtain ⟨d, hd, rfl⟩ := List.mem_map.1 hx
  have hd' : d < dims := by simpa using hd
  have hdl := hL.dims_le
  obtain ⟨a1, a2, a3, b1, b2, b3⟩ := layout_cases hL
  have hf' : ∀ q q', q' = q + step d (n.get d - 2 * G.get d) → IsFace n G 0 0 d q → IsFace n G 0 0 d q' →
      (face r fl u1.val d q).1 - (face r fl u1.val d q').1 = 0 := by
    intro q q' hqq hq hq'
    rw [sub_eq_zero]
    congr 1
    refine face_congr fun o ho o' ho' => ?_
    have hin := fun q hq => (geometry (start := 0) (stop := 0) hL hf ⟨by simp, by simp⟩ hd').2.1 _
      ((geometry (start := 0) (stop := 0) hL hf ⟨by simp, by simp⟩ hd').2.2.2.1 q hq o ho) o' ho'
    have e : q' + step d o + step d o' = (q + step d o + step d o') + step d (n.get d - 2 * G.get d) := by
      subst hqq
      ext <;> simp only [I3.add_x, I3.add_y, I3.add_z] <;> ring
    rw [e]
    refine (hper d hd' _ (hin q hq) ?_).symm
    rw [← e]; exact hin q' hq'
  have hd3 : d = 0 ∨ d = 1 ∨ d = 2 := by omega
  unfold netInflow
  rcases hd3 with rfl | rfl | rfl
  · simp only [if_true]
    refine Finset.sum_eq_zero fun z hz => Finset.sum_eq_zero fun y hy => ?_
    simp only [Finset.mem_Ico] at hz hy
    apply hf'
    · ext <;> simp [step, I3.get]; ring
    all_goals simp only [IsFace, mem_box, I3.dir, I3.add_x, I3.add_y, I3.add_z, I3.sub_x, I3.sub_y, I3.sub_z, I3.zero_x, I3.zero_y, I3.zero_z]
    all_goals simp
    all_goals omega
  · simp only [if_true, if_false, one_ne_zero]
    refine Finset.sum_eq_zero fun z hz => Finset.sum_eq_zero fun y hy => ?_
    simp only [Finset.mem_Ico] at hz hy
    apply hf'
    · ext <;> simp [step, I3.get]; ring
    all_goals simp only [IsFace, mem_box, I3.dir, I3.add_x, I3.add_y, I3.add_z, I3.sub_x, I3.sub_y, I3.sub_z, I3.zero_x, I3.zero_y, I3.zero_z]
    all_goals simp
    all_goals omega
  · simp only [if_false, OfNat.ofNat_ne_zero, OfNat.ofNat_ne_one]
    refine Finset.sum_eq_zero fun z hz => Finset.sum_eq_zero fun y hy => ?_
    simp only [Finset.mem_Ico] at hz hy
    apply hf'
    · ext <;> simp [step, I3.get]; ring
    all_goals simp only [IsFace, mem_box, I3.dir, I3.add_x, I3.add_y, I3.add_z, I3.sub_x, I3.sub_y, I3.sub_z, I3.zero_x, I3.zero_y, I3.zero_z]
    all_goals simp
    all_goals omega

/-- C10 together with C07: apply the periodic boundary condition to any volume, then evaluate the right hand side: the total is
unchanged. -/
theorem C10_conservation_after_periodic_boundary {V R : Type} [AddCommGroup V] [Zero R] [LinearOrder R] (r : Recon V) (fl : FluxFn V R)
    (n G active : I3) (dims g : Nat) (hL : Layout n G active dims g) (hf : Fits r fl g) (hN : ∀ d < dims, 3 * G.get d ≤ n.get d) (hpos : 0 < dims)
    (u : Arr I3 V) (hu : u.inb = inSize n) (s : State V R) (hsz : Sized n s) :
    ∃ u1 s', Boundary.apply .periodic n g dims (fun _ => false) [u] = .ok [u1] ∧
      conservedSystem dims r fl n G active u1 u1 s = .ok s' ∧ total n G s'.out.val = 0 := by
  have hdl := hL.dims_le
  have hG : ∀ d < dims, G.get d = g := fun d hd => by rw [hL.gst d (by omega), if_pos hd]
  have hg : 1 ≤ g := le_trans hf.k_pos hf.k_le
  obtain ⟨as', h1, h2⟩ := Boundary.apply_ok (bc := .periodic) (n := n) (N := n - G - G) (g := g) (dims := dims) (mpi := fun _ => false) hdl
    (fun d hd => by have := hG d hd; unfold I3.get at *; simp only [I3.sub_x, I3.sub_y, I3.sub_z]; split_ifs at * <;> omega)
    (fun d hd => by
      have := hG d hd; have := hL.size d (by omega)
      unfold I3.get at *; simp only [I3.sub_x, I3.sub_y, I3.sub_z]; split_ifs at * <;> omega) hpos (by simp) [u] (by simpa using hu)
  rw [List.forall₂_cons_left_iff] at h2
  obtain ⟨u1, l, ⟨h3, h4⟩, h5, rfl⟩ := h2
  rw [List.forall₂_nil_left_iff] at h5
  subst h5
  obtain ⟨s', h6, h7⟩ := C10_conservation r fl n G active dims g hL hf hN hpos u1 u1 h3 h3 (fun _ _ => rfl) (by
    intro d hd p hp hp'
    rw [h4 p hp, h4 _ hp']
    congr 1
    unfold Boundary.ghostSource
    have im : ∀ M c : Int, Boundary.imageDir .periodic g M false false (c + M) = Boundary.imageDir .periodic g M false false c := by
      intro M c; simp [Boundary.imageDir, Boundary.image, Boundary.wrap_add_period]
    have hd3 : d = 0 ∨ d = 1 ∨ d = 2 := by omega
    rcases hd3 with rfl | rfl | rfl
    · ext <;> simp only [I3.add_x, I3.add_y, I3.add_z, step, I3.get, hd, if_true, if_false, add_zero, zero_ne_one, OfNat.zero_ne_ofNat]
      have : n.x - 2 * G.x = (n - G - G).x := by simp; ring
      rw [this, im]
    · ext <;> simp only [I3.add_x, I3.add_y, I3.add_z, step, I3.get, hd, if_true, if_false, add_zero, one_ne_zero, OfNat.one_ne_ofNat]
      have : n.y - 2 * G.y = (n - G - G).y := by simp; ring
      rw [this, im]
    · ext <;> simp only [I3.add_x, I3.add_y, I3.add_z, step, I3.get, hd, if_true, if_false, add_zero, OfNat.ofNat_ne_zero, OfNat.ofNat_ne_one]
      have : n.z - 2 * G.z = (n - G - G).z := by simp; ring
      rw [this, im]) s hsz
  exact ⟨u1, s', h1, h6, h7⟩

/-! A concrete set-up used in the examples: two dimensions, 3x4 interior cells, two ghost cells, minmod-like three-point reconstruction
filling the requested region, central flux `(a+b)` with wave speed `1`. -/
/-- example reconstruction -/
def exRecon : Recon Int := ⟨.region, 2, [-1, 0, 1], fun _ v => v.sum, fun _ v => v.headD 0⟩
/-- example flux -/
def exFlux : FluxFn Int Int := ⟨[1], [0], fun _ l r => (l.headD 0 + r.headD 0, 1)⟩
/-- example buffers -/
def exState : State Int Int :=
  ⟨field ⟨7, 8, 1⟩ fun _ => 0, field ⟨7, 8, 1⟩ fun _ => 0, field ⟨7, 8, 1⟩ fun _ => 0, field ⟨7, 8, 1⟩ fun _ => 0, fun _ => 0⟩

theorem exLayout : Layout ⟨7, 8, 1⟩ ⟨2, 2, 0⟩ ⟨1, 1, 0⟩ 2 2 := ⟨by decide, by decide, by decide, by decide⟩
theorem exFits : Fits exRecon exFlux 2 := ⟨by decide, by decide, by decide, by decide, by decide, by decide⟩
theorem exSized : Sized ⟨7, 8, 1⟩ exState := ⟨rfl, rfl, rfl, rfl⟩

example : ∃ s', conservedSystem 2 exRecon exFlux ⟨7, 8, 1⟩ ⟨2, 2, 0⟩ ⟨1, 1, 0⟩ (field ⟨7, 8, 1⟩ fun p => p.x * p.y) (field ⟨7, 8, 1⟩ fun p => p.x * p.y)
    exState = .ok s' :=
  (C10_balance exRecon exFlux ⟨7, 8, 1⟩ ⟨2, 2, 0⟩ ⟨1, 1, 0⟩ 2 2 exLayout exFits (by decide) (by decide) _ _ rfl rfl (fun _ _ => rfl) exState exSized).imp
    fun _ h => h.1

example : ∃ s', conservedSystem 2 exRecon exFlux ⟨7, 8, 1⟩ ⟨2, 2, 0⟩ ⟨1, 1, 0⟩ (field ⟨7, 8, 1⟩ fun p => p.x % 3 + p.y % 4)
    (field ⟨7, 8, 1⟩ fun p => p.x % 3 + p.y % 4) exState = .ok s' :=
  (C10_conservation exRecon exFlux ⟨7, 8, 1⟩ ⟨2, 2, 0⟩ ⟨1, 1, 0⟩ 2 2 exLayout exFits (by decide) (by decide) _ _ rfl rfl (fun _ _ => rfl)
    (by intro d hd p _ _; interval_cases d <;> simp [field, step, I3.get]) exState exSized).imp fun _ h => h.1

example : ∃ u1 s', Boundary.apply .periodic ⟨7, 8, 1⟩ 2 2 (fun _ => false) [field ⟨7, 8, 1⟩ fun p => p.x * p.y] = .ok [u1] ∧
    conservedSystem 2 exRecon exFlux ⟨7, 8, 1⟩ ⟨2, 2, 0⟩ ⟨1, 1, 0⟩ u1 u1 exState = .ok s' ∧ total ⟨7, 8, 1⟩ ⟨2, 2, 0⟩ s'.out.val = 0 :=
  C10_conservation_after_periodic_boundary exRecon exFlux ⟨7, 8, 1⟩ ⟨2, 2, 0⟩ ⟨1, 1, 0⟩ 2 2 exLayout exFits (by decide) (by decide) _ rfl exState exSized

/-- C11. If every active direction has at least as many interior cells as ghost cells, evaluating the inner region (with whatever
ghost cells) and then the side slabs (with the exchanged ghost cells) gives in every interior cell the value of one evaluation on the
whole domain, the same wave speeds, and changes no other cell; that value is the sum over the directions of inflow minus outflow, so no
cell is missed or counted twice. -/
theorem C11_split_equals_whole {V R : Type} [AddCommGroup V] [Zero R] [LinearOrder R] (r : Recon V) (fl : FluxFn V R) (n G active : I3) (dims g : Nat)
    (hL : Layout n G active dims g) (hf : Fits r fl g) (hN : ∀ d < dims, 3 * G.get d ≤ n.get d) (hpos : 0 < dims)
    (u0 u1 : Arr I3 V) (hu0 : u0.inb = inSize n) (hu1 : u1.inb = inSize n) (huv : ∀ p, IsInterior n G p → u0.val p = u1.val p)
    (s : State V R) (hsz : Sized n s) :
    ∃ split whole, conservedSystem dims r fl n G active u0 u1 s = .ok split ∧ computeFlux dims r fl n G active 0 0 u1 s = .ok whole ∧
      (∀ p, split.out.val p = whole.out.val p) ∧ (∀ d < dims, split.ws d = whole.ws d) ∧
      (∀ p, IsInterior n G p → split.out.val p =
        ((List.range dims).map fun d => (face r fl u1.val d (p - I3.dir d)).1 - (face r fl u1.val d p).1).sum) ∧
      (∀ p, ¬ IsInterior n G p → split.out.val p = s.out.val p) := by
  obtain ⟨s', h1, _, h3, h4, _⟩ := conservedSystem_ok hL hf hN hpos u0 u1 (readsOK_of_full hL hf (inner_regionOK hL) u0 hu0) hu1 huv s hsz
  have hr : RegionOK (0 : I3) 0 := ⟨by simp, by simp⟩
  obtain ⟨s'', a1, _, a3, a4, _⟩ := computeFlux_ok hL hf hr u1 (readsOK_of_full hL hf hr u1 hu1) hpos s hsz
  refine ⟨s', s'', h1, a1, fun p => by rw [h3, a3], fun d hd => (h4 d hd).unique (a4 d hd), ?_, ?_⟩
  · intro p hp; rw [h3, if_pos (isInterior_iff.1 hp)]; rfl
  · intro p hp; rw [h3, if_neg fun h => hp (isInterior_iff.2 h)]

example : ∃ split whole, conservedSystem 2 exRecon exFlux ⟨7, 8, 1⟩ ⟨2, 2, 0⟩ ⟨1, 1, 0⟩
      (field ⟨7, 8, 1⟩ fun p => if p.x = 0 then 77 else p.x * p.y) (field ⟨7, 8, 1⟩ fun p => p.x * p.y) exState = .ok split ∧
    computeFlux 2 exRecon exFlux ⟨7, 8, 1⟩ ⟨2, 2, 0⟩ ⟨1, 1, 0⟩ 0 0 (field ⟨7, 8, 1⟩ fun p => p.x * p.y) exState = .ok whole ∧
    ∀ p, split.out.val p = whole.out.val p := by
  obtain ⟨a, b, h1, h2, h3, _⟩ := C11_split_equals_whole exRecon exFlux ⟨7, 8, 1⟩ ⟨2, 2, 0⟩ ⟨1, 1, 0⟩ 2 2 exLayout exFits (by decide) (by decide)
    (field ⟨7, 8, 1⟩ fun p => if p.x = 0 then 77 else p.x * p.y) (field ⟨7, 8, 1⟩ fun p => p.x * p.y) rfl rfl
    (by
      intro p hp
      have := hp 0 (by decide)
      simp [I3.get] at this
      have : p.x ≠ 0 := by omega
      simp [field, this]) exState exSized
  exact ⟨a, b, h1, h2, h3⟩

/-- C11, below the assumed size (not checked by the code): with one interior cell and three ghost cells the top slab reads to the left
of the buffer. -/
theorem C11_small_subdomain_overruns :
    conservedSystem 1 (⟨.region, 3, [-2, -1, 0, 1, 2], fun _ v => v.sum, fun _ v => v.sum⟩ : Recon Int) exFlux ⟨7, 1, 1⟩ ⟨3, 0, 0⟩ ⟨1, 0, 0⟩
      (field ⟨7, 1, 1⟩ fun p => p.x) (field ⟨7, 1, 1⟩ fun p => p.x)
      ⟨field ⟨7, 1, 1⟩ fun _ => 0, field ⟨7, 1, 1⟩ fun _ => 0, field ⟨7, 1, 1⟩ fun _ => 0, field ⟨7, 1, 1⟩ fun _ => 0, fun _ => 0⟩ = .error .ub := by
  rfl

/-- C12 for the reconstructions that only fill the requested region (ENO, MC, minmod, WENO2, WENOF2): the inner phase runs to the end
even if no ghost cell is accessible, so it reads no ghost cell at all, at any point of the exchange. -/
theorem C12_inner_phase_reads_no_ghost_cell {V R : Type} [AddCommGroup V] [Zero R] [LinearOrder R] (r : Recon V) (fl : FluxFn V R)
    (n G active : I3) (dims g : Nat) (hL : Layout n G active dims g) (hf : Fits r fl g) (hk : r.kind = .region) (hpos : 0 < dims)
    (u : Arr I3 V) (hu : ∀ p, u.inb p = true ↔ IsInterior n G p) (s : State V R) (hsz : Sized n s) :
    ∃ s', computeFlux dims r fl n G active G (-G) u s = .ok s' ∧
      ∀ p, InRegion n G G (-G) p → s'.out.val p = net dims r fl u.val p := by
  obtain ⟨s', h1, _, h3, _⟩ := computeFlux_ok hL hf (inner_regionOK hL) u (inner_reads_interior hL hf hk u fun p hp => (hu p).2 hp) hpos s hsz
  exact ⟨s', h1, fun p hp => by rw [h3, if_pos hp]⟩

instance (n G p : I3) : Decidable (IsInterior n G p) := by unfold IsInterior; infer_instance

example : ∃ s', computeFlux 2 exRecon exFlux ⟨7, 8, 1⟩ ⟨2, 2, 0⟩ ⟨1, 1, 0⟩ ⟨2, 2, 0⟩ (-⟨2, 2, 0⟩)
    ⟨fun p => decide (IsInterior ⟨7, 8, 1⟩ ⟨2, 2, 0⟩ p), fun p => p.x * p.y⟩ exState = .ok s' :=
  (C12_inner_phase_reads_no_ghost_cell exRecon exFlux ⟨7, 8, 1⟩ ⟨2, 2, 0⟩ ⟨1, 1, 0⟩ 2 2 exLayout exFits rfl (by decide) _ (by simp) exState exSized).imp
    fun _ h => h.1

/-- C12 for every reconstruction, comparing two possible ghost contents that stay fixed during the inner phase: same values and wave
speeds. What is missing for the full statement: the reconstructions "none" and WENO read ghost cells while they are being received
(see below), and a content changing between two reads is not covered for them. -/
theorem C12_inner_phase_value_independent_partial {V R : Type} [AddCommGroup V] [Zero R] [LinearOrder R] (r : Recon V) (fl : FluxFn V R)
    (n G active : I3) (dims g : Nat) (hL : Layout n G active dims g) (hf : Fits r fl g) (hpos : 0 < dims)
    (u v : Arr I3 V) (hu : u.inb = inSize n) (hv : v.inb = inSize n) (huv : ∀ p, IsInterior n G p → u.val p = v.val p)
    (s : State V R) (hsz : Sized n s) :
    ∃ s1 s2, computeFlux dims r fl n G active G (-G) u s = .ok s1 ∧ computeFlux dims r fl n G active G (-G) v s = .ok s2 ∧
      (∀ p, s1.out.val p = s2.out.val p) ∧ ∀ d < dims, s1.ws d = s2.ws d := by
  have hr := inner_regionOK hL
  obtain ⟨s1, a1, _, a3, a4, _⟩ := computeFlux_ok hL hf hr u (readsOK_of_full hL hf hr u hu) hpos s hsz
  obtain ⟨s2, b1, _, b3, b4, _⟩ := computeFlux_ok hL hf hr v (readsOK_of_full hL hf hr v hv) hpos s hsz
  refine ⟨s1, s2, a1, b1, ?_, ?_⟩
  · intro p
    rw [a3, b3]
    split_ifs with h
    · exact inner_net_congr hL hf huv h
    · rfl
  · intro d hd
    refine (a4 d hd).unique ?_
    convert b4 d hd using 3
    ext w
    constructor
    · rintro ⟨q, hq, h⟩; exact ⟨q, hq, by rw [← inner_face_congr hL hf hd huv hq]; exact h⟩
    · rintro ⟨q, hq, h⟩; exact ⟨q, hq, by rw [inner_face_congr hL hf hd huv hq]; exact h⟩

example : ∃ s1 s2, computeFlux 2 exRecon exFlux ⟨7, 8, 1⟩ ⟨2, 2, 0⟩ ⟨1, 1, 0⟩ ⟨2, 2, 0⟩ (-⟨2, 2, 0⟩)
      (field ⟨7, 8, 1⟩ fun p => if p.x = 0 then 77 else p.x * p.y) exState = .ok s1 ∧
    computeFlux 2 exRecon exFlux ⟨7, 8, 1⟩ ⟨2, 2, 0⟩ ⟨1, 1, 0⟩ ⟨2, 2, 0⟩ (-⟨2, 2, 0⟩) (field ⟨7, 8, 1⟩ fun p => p.x * p.y) exState = .ok s2 ∧
    ∀ p, s1.out.val p = s2.out.val p := by
  obtain ⟨a, b, h1, h2, h3, _⟩ := C12_inner_phase_value_independent_partial exRecon exFlux ⟨7, 8, 1⟩ ⟨2, 2, 0⟩ ⟨1, 1, 0⟩ 2 2 exLayout exFits (by decide)
    (field ⟨7, 8, 1⟩ fun p => if p.x = 0 then 77 else p.x * p.y) (field ⟨7, 8, 1⟩ fun p => p.x * p.y) rfl rfl
    (by
      intro p hp
      have := hp 0 (by decide)
      simp [I3.get] at this
      have : p.x ≠ 0 := by omega
      simp [field, this]) exState exSized
  exact ⟨a, b, h1, h2, h3⟩

/-- C12 fails as "reads no ghost cell" for "none" and for WENO: with inaccessible ghost cells the inner phase hits one, i.e. there is an
unsynchronised read of memory the exchange thread is writing. -/
theorem C12_none_and_weno_read_ghost_cells :
    computeFlux 1 (⟨.whole, 1, [0], fun _ v => v.headD 0, fun _ v => v.headD 0⟩ : Recon Int) exFlux ⟨5, 1, 1⟩ ⟨1, 0, 0⟩ ⟨1, 0, 0⟩ ⟨1, 0, 0⟩ (-⟨1, 0, 0⟩)
      ⟨fun p => decide (IsInterior ⟨5, 1, 1⟩ ⟨1, 0, 0⟩ p), fun p => p.x⟩
      ⟨field ⟨5, 1, 1⟩ fun _ => 0, field ⟨5, 1, 1⟩ fun _ => 0, field ⟨5, 1, 1⟩ fun _ => 0, field ⟨5, 1, 1⟩ fun _ => 0, fun _ => 0⟩ = .error .ub ∧
    computeFlux 1 (⟨.stencilFits, 2, [-1, 0, 1], fun _ v => v.headD 0, fun _ v => v.headD 0⟩ : Recon Int) exFlux ⟨7, 1, 1⟩ ⟨2, 0, 0⟩ ⟨1, 0, 0⟩
      ⟨2, 0, 0⟩ (-⟨2, 0, 0⟩) ⟨fun p => decide (IsInterior ⟨7, 1, 1⟩ ⟨2, 0, 0⟩ p), fun p => p.x⟩
      ⟨field ⟨7, 1, 1⟩ fun _ => 0, field ⟨7, 1, 1⟩ fun _ => 0, field ⟨7, 1, 1⟩ fun _ => 0, field ⟨7, 1, 1⟩ fun _ => 0, fun _ => 0⟩ = .error .ub := by
  constructor <;> rfl

/-- C14. If all cells, ghost cells included, hold the same state, the result is exactly zero in every interior cell. -/
theorem C14_uniform_state_is_steady {V R : Type} [AddCommGroup V] [Zero R] [LinearOrder R] (r : Recon V) (fl : FluxFn V R) (n G active : I3) (dims g : Nat)
    (hL : Layout n G active dims g) (hf : Fits r fl g) (hN : ∀ d < dims, 3 * G.get d ≤ n.get d) (hpos : 0 < dims) (c : V)
    (u : Arr I3 V) (hu : u.inb = inSize n) (hc : ∀ p, inSize n p = true → u.val p = c) (s : State V R) (hsz : Sized n s) :
    ∃ s', conservedSystem dims r fl n G active u u s = .ok s' ∧ ∀ p, IsInterior n G p → s'.out.val p = 0 := by
  obtain ⟨s', h1, _, h3, _⟩ := conservedSystem_ok hL hf hN hpos u u (readsOK_of_full hL hf (inner_regionOK hL) u hu) hu (fun _ _ => rfl) s hsz
  refine ⟨s', h1, fun p hp => ?_⟩
  have hp' := isInterior_iff.1 hp
  rw [h3, if_pos hp']
  apply List.sum_eq_zero
  intro x hx
  obtain ⟨d, hd, rfl⟩ := List.mem_map.1 hx
  have hd' : d < dims := by simpa using hd
  rw [sub_eq_zero]
  congr 1
  have hfaces : IsFace n G 0 0 d p ∧ IsFace n G 0 0 d (p - I3.dir d) := by
    simp only [InRegion, IsFace, mem_box, I3.add_x, I3.add_y, I3.add_z, I3.sub_x, I3.sub_y, I3.sub_z, I3.dir] at hp' ⊢
    split_ifs <;> omega
  refine face_congr fun o ho o' ho' => ?_
  have hin := fun q hq => (geometry (start := 0) (stop := 0) hL hf ⟨by simp, by simp⟩ hd').2.1 _
    ((geometry (start := 0) (stop := 0) hL hf ⟨by simp, by simp⟩ hd').2.2.2.1 q hq o ho) o' ho'
  rw [hc _ (hin _ hfaces.2), hc _ (hin _ hfaces.1)]

example : ∃ s', conservedSystem 2 exRecon exFlux ⟨7, 8, 1⟩ ⟨2, 2, 0⟩ ⟨1, 1, 0⟩ (field ⟨7, 8, 1⟩ fun _ => 5) (field ⟨7, 8, 1⟩ fun _ => 5) exState = .ok s' ∧
    ∀ p, IsInterior ⟨7, 8, 1⟩ ⟨2, 2, 0⟩ p → s'.out.val p = 0 :=
  C14_uniform_state_is_steady exRecon exFlux ⟨7, 8, 1⟩ ⟨2, 2, 0⟩ ⟨1, 1, 0⟩ 2 2 exLayout exFits (by decide) (by decide) 5 _ rfl (fun _ _ => rfl)
    exState exSized

end Verif.Props
