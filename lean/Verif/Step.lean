import Verif.IntegratorLemmas
import Verif.NetFluxSplit
import Verif.Boundary
import Mathlib.LinearAlgebra.Pi

/-!
The simulator loop with the modelled right hand side (`Verif.NetFlux`) and boundary conditions (`Verif.Boundary`) on one process and without diffusion operator.
-/

namespace Verif
namespace Step
open Integrator NetFlux
variable {K V : Type} [Field K] [LinearOrder K] [IsStrictOrderedRing K] [AddCommGroup V] [Module K V]

/-- `Boundary::applyBoundaryConditions` (alsfvm/src/boundary/BoundaryCPU.cpp:31-106) on the cells of one volume, all variables of a cell together. -/
def cpuBoundary (b : BC) (n : I3) (g dims : Nat) (u : I3 → V) : Res (I3 → V) := do
  match ← Boundary.apply b n g dims (fun _ => false) [field n u] with
  | [a] => pure a.val
  | _ => .error .ub

/-- `ConservedSystem::operator()` (alsfvm/src/simulator/ConservedSystem.cpp:31-103) with the numerical flux on the CPU, without cell exchange and with the
diffusion operator `none` (alsfvm/src/diffusion/NoDiffusion.cpp:21-24). `work` are the buffers of the numerical flux, left over from earlier calls; the integrator
passes wave speeds initialised with zero. -/
def cpuSystem (dims : Nat) (r : Recon V) (fl : FluxFn V K) (n G active : I3) (work : NetFlux.State V K) : System (I3 → V) K := fun u out => do
  let s ← conservedSystem dims r fl n G active (field n u) (field n u) { work with out := field n out, ws := fun _ => 0 }
  pure (u, s.out.val, s.ws)

/-- The interior cells. -/
abbrev Cells (n G : I3) := { p : I3 // IsInterior n G p }

/-- The interior of a volume. -/
def int (n G : I3) : (I3 → V) →ₗ[K] (Cells n G → V) := LinearMap.funLeft K V Subtype.val

instance (n G p : I3) : Decidable (IsInterior n G p) := by unfold IsInterior; infer_instance

/-- Interior values continued to the ghost cells by the boundary condition. -/
def extend (b : BC) (n G : I3) (g dims : Nat) (w : Cells n G → V) (p : I3) : V :=
  if h : IsInterior n G (Boundary.ghostSource b g (n - G - G) dims (fun _ => false) p) then w ⟨_, h⟩ else 0

/-- The right hand side as a function of the interior values. -/
def rhs (b : BC) (dims : Nat) (r : Recon V) (fl : FluxFn V K) (n G : I3) (g : Nat) (w : Cells n G → V) : Cells n G → V :=
  fun p => net dims r fl (extend b n G g dims w) p

/-- The wave speeds as a function of the interior values. -/
def waves (b : BC) (dims : Nat) (r : Recon V) (fl : FluxFn V K) (n G active : I3) (g : Nat) (work : NetFlux.State V K) (w : Cells n G → V) : Nat → K :=
  match cpuSystem dims r fl n G active work (extend b n G g dims w) 0 with
  | .ok s => s.2.2
  | .error _ => 0

/-- A volume whose ghost cells are the boundary condition's. -/
def Ready (b : BC) (n G : I3) (g dims : Nat) (u : I3 → V) : Prop := ∃ w : Cells n G → V, ∀ p, inSize n p = true → u p = extend b n G g dims w p

section
variable {b : BC} {n G active : I3} {g dims : Nat} {r : Recon V} {fl : FluxFn V K}

omit [Field K] [LinearOrder K] [IsStrictOrderedRing K] [AddCommGroup V] [Module K V] in
theorem sizes (hL : Layout n G active dims g) (hN : ∀ d < dims, 3 * G.get d ≤ n.get d) :
    (∀ d < dims, n.get d = (n - G - G).get d + 2 * g) ∧ (∀ d < dims, 1 ≤ (n - G - G).get d) ∧ ∀ d < dims, (g : Int) ≤ (n - G - G).get d := by
  have hdl := hL.dims_le
  refine ⟨fun d hd => ?_, fun d hd => ?_, fun d hd => ?_⟩ <;>
  · have h1 := hL.gst d (by omega); have h2 := hN d hd; have h3 := hL.size d (by omega)
    rw [if_pos hd] at h1
    unfold I3.get at *
    simp only [I3.sub_x, I3.sub_y, I3.sub_z]
    split_ifs at * <;> omega

omit [Field K] [LinearOrder K] [IsStrictOrderedRing K] [AddCommGroup V] [Module K V] in
theorem ghostSource_interior (hL : Layout n G active dims g) (hN : ∀ d < dims, 3 * G.get d ≤ n.get d)
    {p : I3} (hp : inSize n p = true) : IsInterior n G (Boundary.ghostSource b g (n - G - G) dims (fun _ => false) p) := by
  obtain ⟨s1, s2, s3⟩ := sizes hL hN
  have key : ∀ d < dims, G.get d ≤ Boundary.image b g ((n - G - G).get d) (p.get d) ∧ Boundary.image b g ((n - G - G).get d) (p.get d) < n.get d - G.get d := by
    intro d hd
    have := Boundary.inSize_get (d := d) hp
    have hdl := hL.dims_le
    have h1 := hL.gst d (by omega)
    rw [if_pos hd] at h1
    have := s1 d hd
    have := Boundary.image_bounds (bc := b) (g := g) (N := (n - G - G).get d) (c := p.get d) (s2 d hd) (fun _ => s3 d hd) (by omega) (by omega)
    omega
  intro d hd
  by_cases h : d < dims
  · have k := key d h
    interval_cases d <;> simpa [Boundary.ghostSource, Boundary.imageDir, I3.get, h] using k
  · have h1 := hL.gst d hd
    rw [if_neg h] at h1
    have k := Boundary.inSize_get (d := d) hp
    interval_cases d <;> simp [Boundary.ghostSource, I3.get, h] at k h1 ⊢ <;> omega

omit [Field K] [LinearOrder K] [IsStrictOrderedRing K] [AddCommGroup V] [Module K V] in
theorem ghostSource_self {p : I3} (hL : Layout n G active dims g) (hp : IsInterior n G p) :
    Boundary.ghostSource b g (n - G - G) dims (fun _ => false) p = p := by
  have key : ∀ d < dims, Boundary.image b g ((n - G - G).get d) (p.get d) = p.get d := by
    intro d hd
    have hdl := hL.dims_le
    have h1 := hL.gst d (by omega)
    rw [if_pos hd] at h1
    have := hp d (by omega)
    refine Boundary.image_interior (by omega) ?_
    unfold I3.get at *
    simp only [I3.sub_x, I3.sub_y, I3.sub_z]
    split_ifs at * <;> omega
  have k0 := key 0; have k1 := key 1; have k2 := key 2
  ext <;> simp only [Boundary.ghostSource, Boundary.imageDir] <;> split_ifs with h h' <;> simp_all [I3.get]

omit [Field K] [LinearOrder K] [IsStrictOrderedRing K] [AddCommGroup V] [Module K V] in
theorem interior_inSize (hL : Layout n G active dims g) {p : I3} (hp : IsInterior n G p) : inSize n p = true := by
  have h : ∀ d < 3, 0 ≤ p.get d ∧ p.get d < n.get d := fun d hd => by
    have := hp d hd; have := hL.gst d hd; split_ifs at this <;> omega
  rw [inSize_iff]
  have h0 := h 0 (by decide); have h1 := h 1 (by decide); have h2 := h 2 (by decide)
  simp [I3.get] at h0 h1 h2
  omega

omit [Field K] [LinearOrder K] [IsStrictOrderedRing K] [Module K V] in
theorem extend_interior (hL : Layout n G active dims g) (w : Cells n G → V) {p : I3} (hp : IsInterior n G p) : extend b n G g dims w p = w ⟨p, hp⟩ := by
  unfold extend
  have e := ghostSource_self (b := b) hL hp
  rw [dif_pos (by rw [e]; exact hp)]
  congr 1
  exact Subtype.ext e

omit [Field K] [LinearOrder K] [IsStrictOrderedRing K] [AddCommGroup V] [Module K V] in
/-- Faces of interior cells read only cells of the volume. -/
theorem face_congr_full (hL : Layout n G active dims g) (hf : Fits r fl g) {d : Nat} (hd : d < dims) {u v : I3 → V} (huv : ∀ p, inSize n p = true → u p = v p)
    {q : I3} (hq : IsFace n G 0 0 d q) : face r fl u d q = face r fl v d q := by
  have hr : RegionOK (0 : I3) 0 := ⟨by simp, by simp⟩
  obtain ⟨-, g2, -, g4, -⟩ := geometry (active := active) hL hf hr hd
  exact face_congr fun o ho o' ho' => huv _ (g2 _ (g4 q hq o ho) o' ho')

omit [Field K] [LinearOrder K] [IsStrictOrderedRing K] [Module K V] in
theorem net_congr_full (hL : Layout n G active dims g) (hf : Fits r fl g) {u v : I3 → V} (huv : ∀ p, inSize n p = true → u p = v p)
    {p : I3} (hp : IsInterior n G p) : net dims r fl u p = net dims r fl v p := by
  refine net_congr fun d hd => ?_
  have h1 : IsFace n G 0 0 d p ∧ IsFace n G 0 0 d (p - I3.dir d) := by
    rw [isInterior_iff] at hp
    simp only [InRegion, IsFace, mem_box, I3.add_x, I3.add_y, I3.add_z, I3.sub_x, I3.sub_y, I3.sub_z, I3.zero_x, I3.zero_y, I3.zero_z, I3.dir] at hp ⊢
    split_ifs <;> omega
  exact ⟨face_congr_full hL hf hd huv h1.1, face_congr_full hL hf hd huv h1.2⟩

/-- The system on volumes that agree on the cells of the volume. -/
theorem cpuSystem_ok (hL : Layout n G active dims g) (hf : Fits r fl g) (hN : ∀ d < dims, 3 * G.get d ≤ n.get d) (hpos : 0 < dims)
    {work : NetFlux.State V K} (hw : Sized n work) (u out : I3 → V) :
    ∃ s, cpuSystem dims r fl n G active work u out = .ok s ∧ s.1 = u ∧ (∀ p, IsInterior n G p → s.2.1 p = net dims r fl u p) ∧
      (∀ k < dims, IsGreatest (speeds r fl u n G 0 0 k) (s.2.2 k)) ∧ ∀ k, dims ≤ k → s.2.2 k = 0 := by
  obtain ⟨w1, w2, w3, w4⟩ := hw
  obtain ⟨s', h1, h2, h3, h4, h5⟩ := conservedSystem_ok hL hf hN hpos (field n u) (field n u) (readsOK_of_full hL hf (inner_regionOK hL) (field n u) rfl) rfl
    (fun _ _ => rfl) { work with out := field n out, ws := fun _ => 0 } ⟨w1, w2, w3, rfl⟩
  refine ⟨(u, s'.out.val, s'.ws), ?_, rfl, fun p hp => ?_, h4, fun k hk => ?_⟩
  · simp [cpuSystem, h1]
  · simp only [h3]; rw [if_pos (isInterior_iff.1 hp)]; rfl
  · simp [h5 k hk]

theorem sound (hL : Layout n G active dims g) (hf : Fits r fl g) (hN : ∀ d < dims, 3 * G.get d ≤ n.get d) (hpos : 0 < dims)
    {work : NetFlux.State V K} (hw : Sized n work) :
    Sound (cpuSystem dims r fl n G active work) (cpuBoundary b n g dims) (int n G) (rhs b dims r fl n G g) (waves b dims r fl n G active g work)
      (Ready b n G g dims) := by
  constructor
  · intro v
    obtain ⟨s1, s2, s3⟩ := sizes hL hN
    obtain ⟨as', h1, h2⟩ := Boundary.apply_ok (bc := b) (n := n) (N := n - G - G) (g := g) (dims := dims) (mpi := fun _ => false) hL.dims_le s1 s2 hpos
      (fun _ => s3) [field n v] (by simp [field])
    rw [List.forall₂_cons_left_iff] at h2
    obtain ⟨a, l, ⟨h3, h4⟩, h5, rfl⟩ := h2
    rw [List.forall₂_nil_left_iff] at h5
    subst h5
    refine ⟨a.val, by simp [cpuBoundary, h1], ?_, fun p => v p, fun p hp => ?_⟩
    · funext p
      change a.val p = v p
      rw [h4 p (interior_inSize hL p.2), ghostSource_self hL p.2]
      rfl
    · rw [h4 p hp, extend, dif_pos (ghostSource_interior hL hN hp)]
      rfl
  · rintro v out ⟨w, hv⟩
    obtain ⟨s, e1, e2, e3, e4, e5⟩ := cpuSystem_ok hL hf hN hpos hw v out
    obtain ⟨s', f1, f2, f3, f4, f5⟩ := cpuSystem_ok hL hf hN hpos hw (extend b n G g dims w) 0
    have hw' : int (K := K) n G v = w := by
      funext p
      change v p = w p
      rw [hv p (interior_inSize hL p.2), extend_interior hL w p.2]
    refine ⟨s, e1, by rw [e2], ?_, ?_⟩
    · rw [hw']
      funext p
      change s.2.1 p = net dims r fl (extend b n G g dims w) p
      rw [e3 p p.2]
      exact net_congr_full hL hf hv p.2
    · rw [hw']
      funext k
      simp only [waves, f1]
      by_cases hk : k < dims
      · refine (e4 k hk).unique ?_
        convert f4 k hk using 1
        unfold speeds
        congr 1
        ext x
        refine exists_congr fun q => and_congr_right fun hq => ?_
        rw [face_congr_full hL hf hk hv hq]
      · rw [e5 k (by omega), f5 k (by omega)]

end

end Step
end Verif
