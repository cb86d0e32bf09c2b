import Verif.CudaBoundary
import Verif.Volume

/-!
C69: boundary conditions on the graphics card.
-/

namespace Verif.Props.CudaBoundary
open Boundary Gpu
variable {α : Type}

/-- C69. For every volume with at least one interior cell in every active direction (`n` is the size including the ghost cells of
width `g` in the first `dims` directions, and 1 in the others), both boundary conditions, every choice of sides handled by message
passing and any content: the processor version succeeds, and the kernels of the graphics card version turn each variable into the
same memory area whatever the interleaving of the threads, without leaving the memory. -/
theorem C69_boundary_equals_processor_partial (bc : BC) (n N : I3) (g dims : Nat) (mpi : Nat → Bool) (hdims : 1 ≤ dims) (hdims' : dims ≤ 3)
    (hn : ∀ d < dims, n.get d = N.get d + 2 * g) (hN : ∀ d < dims, 1 ≤ N.get d)
    (hactive : ∀ d, 1 ≤ d → d < dims → 1 < n.get d) (hflat : ∀ d, dims ≤ d → d < 3 → n.get d = 1)
    (areas : List (Arr I3 α)) (ha : ∀ a ∈ areas, a.inb = inSize n) :
    ∃ areas', Boundary.apply bc n g dims mpi areas = .ok areas' ∧
      List.Forall₂ (fun a a' => yieldsAll (CudaBoundary.launches bc n g mpi) a a') areas areas' := by
  have hguard : ¬ (n.x < 2 * (g : Int) ∨ (1 < dims ∧ n.y < 2 * (g : Int)) ∨ (2 < dims ∧ n.z < 2 * (g : Int))) := by
    rintro (h | ⟨h, h'⟩ | ⟨h, h'⟩)
    · have := hn 0 hdims; have := hN 0 hdims; simp [I3.get] at *; omega
    · have := hn 1 h; have := hN 1 h; simp [I3.get] at *; omega
    · have := hn 2 h; have := hN 2 h; simp [I3.get] at *; omega
  have hpos' : ∀ d < 3, 0 < n.get d := by
    intro d hd
    by_cases h : d < dims
    · have := hn d h; have := hN d h; omega
    · have := hflat d (by omega) hd; omega
  have hpos : 0 < n.x ∧ 0 < n.y ∧ 0 < n.z :=
    ⟨by simpa [I3.get] using hpos' 0 (by decide), by simpa [I3.get] using hpos' 1 (by decide),
      by simpa [I3.get] using hpos' 2 (by decide)⟩
  simp only [apply, hguard, if_false]
  refine mapM_forall₂ _ _ _ fun a hmem => ?_
  have ha := ha a hmem
  obtain ⟨a1, h1, h2, h3⟩ := CudaBoundary.dirLaunches_ok (bc := bc) (mpi := mpi) (by decide) (hn 0 hdims) (hN 0 hdims) hpos a ha
  have hy : (1 < n.y) ↔ 1 < dims := by
    constructor
    · intro h; by_contra hc
      have := hflat 1 (by omega) (by decide); simp [I3.get] at this; omega
    · intro h; simpa [I3.get] using hactive 1 le_rfl h
  have hz : (1 < n.z) ↔ 2 < dims := by
    constructor
    · intro h; by_contra hc
      have := hflat 2 (by omega) (by decide); simp [I3.get] at this; omega
    · intro h; simpa [I3.get] using hactive 2 (by decide) h
  unfold CudaBoundary.launches
  rcases show dims = 1 ∨ dims = 2 ∨ dims = 3 by omega with h | h | h <;> subst h
  · refine ⟨a1, ?_, ?_⟩
    · rw [show List.range 1 = [0] from rfl, List.foldlM_cons, h1]; rfl
    · rw [if_neg (by rw [hy]; decide), if_neg (by rw [hz]; decide), List.append_nil, List.append_nil]
      exact h3
  · obtain ⟨a2, h4, h5, h6⟩ := CudaBoundary.dirLaunches_ok (bc := bc) (mpi := mpi) (by decide) (hn 1 (by decide)) (hN 1 (by decide)) hpos a1 h2
    refine ⟨a2, ?_, ?_⟩
    · rw [show List.range 2 = [0, 1] from rfl, List.foldlM_cons, h1, Res.ok_bind, List.foldlM_cons, h4]; rfl
    · rw [if_pos (by rw [hy]; decide), if_neg (by rw [hz]; decide), List.append_nil]
      exact yieldsAll_append h3 h6
  · obtain ⟨a2, h4, h5, h6⟩ := CudaBoundary.dirLaunches_ok (bc := bc) (mpi := mpi) (by decide) (hn 1 (by decide)) (hN 1 (by decide)) hpos a1 h2
    obtain ⟨a3, h7, h8, h9⟩ := CudaBoundary.dirLaunches_ok (bc := bc) (mpi := mpi) (by decide) (hn 2 (by decide)) (hN 2 (by decide)) hpos a2 h5
    refine ⟨a3, ?_, ?_⟩
    · rw [show List.range 3 = [0, 1, 2] from rfl, List.foldlM_cons, h1, Res.ok_bind, List.foldlM_cons, h4, Res.ok_bind,
        List.foldlM_cons, h7]; rfl
    · rw [if_pos (by rw [hy]; decide), if_pos (by rw [hz]; decide)]
      exact yieldsAll_append (yieldsAll_append h3 h6) h9

/-- The hypotheses are met by a plane volume with ghost cells wider than the interior in y, two variables and a side handled by message
passing. -/
example := C69_boundary_equals_processor_partial .periodic ⟨7, 5, 1⟩ ⟨3, 1, 1⟩ 2 2 (fun s => s == 1) (by decide) (by decide) (by decide) (by decide)
  (by decide) (by decide) [field ⟨7, 5, 1⟩ (fun p => p.x + 10 * p.y), field ⟨7, 5, 1⟩ (fun p => p.x - p.y)] (by simp [field])

/-- C69 does not extend to volumes with one cell in y and several in z: `getDimensions` calls them one-dimensional, so the processor leaves
the ghost cells in z alone while the graphics card fills them. Missing in `C69_boundary_equals_processor_partial`: exactly those
volumes. -/
theorem C69_fails_for_volumes_flat_in_y :
    ∃ (v : Volume Int) (a cpu gpu : Arr I3 Int), v.dimensions = 1 ∧ (v.tx, v.ty, v.tz, v.gx, v.gz) = (3, 1, 4, 1, 1) ∧
      a.inb = inSize ⟨3, 1, 4⟩ ∧
      Boundary.apply .periodic ⟨3, 1, 4⟩ 1 v.dimensions (fun _ => false) [a] = .ok [cpu] ∧
      yieldsAll (CudaBoundary.launches .periodic ⟨3, 1, 4⟩ 1 (fun _ => false)) a gpu ∧ cpu.val ⟨1, 0, 0⟩ ≠ gpu.val ⟨1, 0, 0⟩ := by
  have hpos : (0 : Int) < (⟨3, 1, 4⟩ : I3).x ∧ (0 : Int) < (⟨3, 1, 4⟩ : I3).y ∧ (0 : Int) < (⟨3, 1, 4⟩ : I3).z := by decide
  let a : Arr I3 Int := field ⟨3, 1, 4⟩ (fun p => p.z)
  obtain ⟨a1, h1, h2, h3⟩ := CudaBoundary.dirLaunches_ok (bc := .periodic) (n := ⟨3, 1, 4⟩) (g := 1) (d := 0) (mpi := fun _ => false)
    (N := 1) (by decide) (by decide) (by decide) hpos a rfl
  obtain ⟨b1, k1, k2, k3⟩ := applyDir_ok (bc := .periodic) (n := ⟨3, 1, 4⟩) (g := 1) (d := 0) (mpi := fun _ => false)
    (N := 1) (by decide) (by decide) (by decide) (by simp) a rfl
  rw [k1] at h1
  obtain rfl : b1 = a1 := Except.ok.inj h1
  obtain ⟨a2, h4, h5, h6⟩ := CudaBoundary.dirLaunches_ok (bc := .periodic) (n := ⟨3, 1, 4⟩) (g := 1) (d := 2) (mpi := fun _ => false)
    (N := 2) (by decide) (by decide) (by decide) hpos b1 h2
  obtain ⟨b2, k4, k5, k6⟩ := applyDir_ok (bc := .periodic) (n := ⟨3, 1, 4⟩) (g := 1) (d := 2) (mpi := fun _ => false)
    (N := 2) (by decide) (by decide) (by decide) (by simp) b1 h2
  rw [k4] at h4
  obtain rfl : b2 = a2 := Except.ok.inj h4
  refine ⟨Volume.mk' 1 1 2 1 [], a, b1, b2, rfl, rfl, rfl, ?_, ?_, ?_⟩
  · have : (Volume.mk' 1 1 2 1 [] : Volume Int).dimensions = 1 := rfl
    rw [this]
    simp only [apply, show List.range 1 = [0] from rfl, List.foldlM_cons, List.foldlM_nil, List.mapM_cons, List.mapM_nil, k1,
      Res.ok_bind, Res.pure_eq]
    rfl
  · unfold CudaBoundary.launches
    rw [if_neg (by decide), if_pos (by decide), List.append_nil]
    exact yieldsAll_append h3 h6
  · rw [k6 _ (by decide), k3 _ (by decide), k3 _ (by decide)]
    decide

/-- Where the processor version refuses a volume that is too small for its ghost cells, the graphics card version has no check and
its threads write outside the memory: here one cell in all, ghost width one. -/
theorem C69_no_size_check :
    ∃ (a : Arr I3 Int), a.inb = inSize ⟨1, 1, 1⟩ ∧ Boundary.apply .neumann ⟨1, 1, 1⟩ 1 1 (fun _ => false) [a] = .error .thrown ∧
      Machine.run [0] ⟨a, (CudaBoundary.sideLaunch .neumann ⟨1, 1, 1⟩ 1 0 false).kernel⟩ matches .error .ub :=
  ⟨field ⟨1, 1, 1⟩ (fun _ => 0), rfl, rfl, rfl⟩

end Verif.Props.CudaBoundary
