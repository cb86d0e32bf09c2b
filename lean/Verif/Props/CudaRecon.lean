import Verif.CudaReconLemmas
import Verif.Props.Weno

/-!
C73: reconstructions on the graphics card.

Vocabulary: `Dev` is the memory of the card with its volumes; `yieldsAll launches m m'` says that every interleaving of the threads of the
launches turns the memory `m` into `m'`; `DevSized n s` says that all volumes have the size `n`. `Recon.perform` and `Eno.perform` are the
reconstructions on the processor (see `Props/NetFlux.lean`, `Props/Eno.lean`), which start with the same contents of all volumes.
-/

namespace Verif.Props.CudaRecon
open Verif Gpu NetFlux CudaNetFlux Verif.CudaRecon
variable {V R : Type}

/-- C73, no reconstruction: whatever the interleaving, the card stores the values the processor stores, in all cells of both volumes, and
changes neither input nor output. -/
theorem C73_none [Zero V] (n active start stop : I3) (d : Nat) (s : Dev V R) (hs : DevSized n s) :
    ∃ (s' : Dev V R) (l r : Arr I3 V), yieldsAll (none n d start stop) s.mem s'.mem ∧
      noRecon.perform active d n start stop (s.vol .input) (s.vol .left) (s.vol .right) = .ok (l, r) ∧
      (∀ q, inSize n q = true → (s'.vol .left).val q = l.val q ∧ (s'.vol .right).val q = r.val q) ∧
      s'.vol .input = s.vol .input ∧ s'.vol .output = s.vol .output := by
  obtain ⟨s', h1, _, h3, h4, _, h5⟩ := none_all hs d start stop
  have hbox : ∀ q : I3, q ∈ box ((noRecon : Recon V).lo active d start) ((noRecon : Recon V).hi active d n stop) ↔ inSize n q = true := by
    intro q
    rw [mem_box, inSize_iff]; simp [noRecon, Recon.lo, Recon.hi, and_assoc]
  have e0 : ∀ q : I3, q + step d 0 = q := fun q => by ext <;> simp [step]
  obtain ⟨l, r, p1, _, _, p2⟩ := NetFlux.perform_ok (noRecon : Recon V) active d n start stop (s.vol .input) (s.vol .left) (s.vol .right)
    (hs.vol _) (hs.vol _) (fun q hq => (hbox q).1 hq)
    (by intro q hq o ho
        have : o = 0 := by simpa [noRecon] using ho
        subst this
        rw [hs.vol, e0]; exact (hbox q).1 hq)
  refine ⟨s', l, r, h1, p1, fun q hq => ?_, h3, h4⟩
  rw [(h5 q hq).1, (h5 q hq).2, (p2 q ((hbox q).2 hq)).1, (p2 q ((hbox q).2 hq)).2, (noRecon_val _ _ _).1, (noRecon_val _ _ _).2]
  exact ⟨rfl, rfl⟩

/-- C73, reconstructions with a fixed stencil (the limiters and the second order WENO reconstructions, or any other pointwise functions of
fewer than `k` neighbours on each side): whatever the interleaving, the card stores the values the processor stores, in all cells
the processor fills, and changes neither input nor output. Missing for the full property: volumes with a single interior layer in a direction of the
grid, as a process may own; there the card deduces a smaller dimension (`C73_single_layer`). -/
theorem C73_fixed_stencil_partial (r : Recon V) (hkind : r.kind = .region) (n G active start stop : I3) (dims g d : Nat) (hL : Layout n G active dims g)
    (hdim : ∀ e < 3, 0 < e → (e < dims ↔ 1 < n.get e - 2 * G.get e)) (hk : 1 ≤ r.k) (hkg : r.k ≤ g) (hoffs : ∀ o ∈ r.offs, -((r.k : Int) - 1) ≤ o ∧ o ≤ r.k - 1)
    (hs : RegionOK start stop) (hd : d < dims) (s : Dev V R) (hsz : DevSized n s) :
    ∃ (s' : Dev V R) (l rr : Arr I3 V), yieldsAll (stencil r n G d start stop) s.mem s'.mem ∧
      r.perform active d n start stop (s.vol .input) (s.vol .left) (s.vol .right) = .ok (l, rr) ∧
      (∀ q, (∀ e < 3, active.get e * (r.k - (if e = d then 1 else 0)) + start.get e ≤ q.get e ∧
          q.get e < n.get e - active.get e * (r.k - (if e = d then 1 else 0)) + stop.get e) →
        (s'.vol .left).val q = l.val q ∧ (s'.vol .right).val q = rr.val q) ∧
      s'.vol .input = s.vol .input ∧ s'.vol .output = s.vol .output := by
  have hf : NetFlux.Fits r (⟨[], [], fun _ l _ => (l.headD ((s.vol .input).val 0), s.speeds.val 0)⟩ : FluxFn V R) g :=
    ⟨hk, hkg, hoffs, by rw [hkind]; exact fun h => absurd h (by decide), by simp, by simp⟩
  have hgeo := geometry (start := start) (stop := stop) hL hf hs hd
  obtain ⟨l, rr, p1, _, _, p2⟩ := NetFlux.perform_ok r active d n start stop (s.vol .input) (s.vol .left) (s.vol .right)
    (hsz.vol _) (hsz.vol _) hgeo.1 (by intro q hq o ho; rw [hsz.vol]; exact hgeo.2.1 q hq o ho)
  obtain ⟨hin, hsub⟩ := stencil_range r hL (dimension_eq (by omega) hL.dims_le hdim) hk hoffs hs hd
  refine ⟨_, l, rr, stencil_ok r hsz hin, p1, fun q hq => ?_, rfl, rfl⟩
  have hq1 : q ∈ box (r.lo active d start) (r.hi active d n stop) := by
    have e1 : r.lo active d start = Eno.mainLo r.k d active start := by unfold Recon.lo; rw [hkind]; rfl
    have e2 : r.hi active d n stop = Eno.mainHi r.k d active n stop := by unfold Recon.hi; rw [hkind]; rfl
    rw [e1, e2]
    exact Eno.box_get.2 fun e he => by rw [Eno.mainLo_get _ _ _ _ he, Eno.mainHi_get _ _ _ _ _ he]; exact hq e he
  rw [(p2 q hq1).1, (p2 q hq1).2]
  exact ⟨if_pos (hsub hkind q hq1), if_pos (hsub hkind q hq1)⟩

/-- Violation of C73: in three dimensions, with a single interior layer in the third and the two ghost layers of the limiters, the kernel of the limiter MC for
the third direction reads below the volume, so an execution leaves the memory and there is no result; the processor reconstructs (the dimensions are those of
the grid, the layer that of one process). -/
theorem C73_single_layer (m : Nat) (nx ny : Int) (hnx : 6 ≤ nx) (hny : 6 ≤ ny) (s : Dev (Eno.Vec m) ℝ) (hsz : DevSized ⟨nx, ny, 5⟩ s) :
    (∀ mem', ¬ yieldsAll (stencil (Weno.mcRecon : Recon (Eno.Vec m)) ⟨nx, ny, 5⟩ ⟨2, 2, 2⟩ 2 0 0) s.mem mem') ∧
      ∃ l r, (Weno.mcRecon : Recon (Eno.Vec m)).perform ⟨1, 1, 1⟩ 2 ⟨nx, ny, 5⟩ 0 0 (s.vol .input) (s.vol .left) (s.vol .right) = .ok (l, r) := by
  have hoffs : (Weno.mcRecon : Recon (Eno.Vec m)).offs = [-1, 0, 1] := by simp [Weno.mcRecon, Weno.lineRecon, irange, List.range_succ]
  constructor
  · rintro mem' ⟨m1, hy, -⟩
    have hbad : Leaves s.mem (readCells .input ((Weno.mcRecon : Recon (Eno.Vec m)).offs.map fun o => (⟨1, 1, 0⟩ : I3) + step 2 o) fun vals =>
        .write (.cell .left ⟨1, 1, 0⟩) (.state ((Weno.mcRecon : Recon (Eno.Vec m)).lf 2 vals))
          (.write (.cell .right ⟨1, 1, 0⟩) (.state ((Weno.mcRecon : Recon (Eno.Vec m)).rf 2 vals)) .done)) := by
      rw [hoffs]
      refine .readBad ?_
      have : (s.vol .input).inb ((⟨1, 1, 0⟩ : I3) + step 2 (-1)) = false := by
        rw [hsz.vol, Bool.eq_false_iff, Ne, inSize_iff]
        simp [step]
      exact this
    have hr : reach ⟨nx, ny, 5⟩ ⟨2, 2, 2⟩ (Weno.mcRecon : Recon (Eno.Vec m)).k = ⟨1, 1, 0⟩ := by
      have : dimension ⟨nx, ny, 5⟩ ⟨2, 2, 2⟩ = 2 := by simp only [dimension]; rw [if_pos (by omega), if_neg (by omega)]
      rw [reach, this]; rfl
    have h := Leaves.grid (count := ⟨nx, ny, 5⟩ - ⟨1, 1, 0⟩ - ⟨1, 1, 0⟩ - 0 + 0) (offset := ⟨1, 1, 0⟩ + 0) (c := ⟨1, 1, 0⟩) (blockSize := 512) (by decide) (by
      simp only [mem_box, I3.add_x, I3.add_y, I3.add_z, I3.sub_x, I3.sub_y, I3.sub_z, I3.zero_x, I3.zero_y, I3.zero_z]; omega)
      (body := fun _ q => readCells .input ((Weno.mcRecon : Recon (Eno.Vec m)).offs.map fun o => q + step 2 o) fun vals =>
        .write (.cell .left q) (.state ((Weno.mcRecon : Recon (Eno.Vec m)).lf 2 vals)) (.write (.cell .right q) (.state ((Weno.mcRecon : Recon (Eno.Vec m)).rf 2 vals)) .done)) hbad
    refine h.2 m1 ?_
    rw [stencilLaunch, hr] at hy
    exact hy
  · have hbox : ∀ q ∈ box ((Weno.mcRecon : Recon (Eno.Vec m)).lo ⟨1, 1, 1⟩ 2 0) ((Weno.mcRecon : Recon (Eno.Vec m)).hi ⟨1, 1, 1⟩ 2 ⟨nx, ny, 5⟩ 0),
        0 ≤ q.x ∧ q.x < nx ∧ 0 ≤ q.y ∧ q.y < ny ∧ 1 ≤ q.z ∧ q.z < 4 := by
      intro q hq
      simp [mem_box, Recon.lo, Recon.hi, Weno.mcRecon, Weno.lineRecon, I3.dir] at hq
      omega
    obtain ⟨l, r, p1, -⟩ := NetFlux.perform_ok (Weno.mcRecon : Recon (Eno.Vec m)) ⟨1, 1, 1⟩ 2 ⟨nx, ny, 5⟩ 0 0 (s.vol .input) (s.vol .left) (s.vol .right) (hsz.vol _) (hsz.vol _)
      (fun q hq => by have := hbox q hq; rw [inSize_iff]; simp only; omega)
      (fun q hq o ho => by
        have := hbox q hq
        rw [hoffs] at ho
        rw [hsz.vol, inSize_iff]
        simp only [I3.add_x, I3.add_y, I3.add_z, step]
        simp at ho
        rcases ho with rfl | rfl | rfl <;> simp <;> omega)
    exact ⟨l, r, p1⟩

/-- C73, ENO of order 2, 3 and 4: whatever the interleaving, the card stores exactly the left and right values the processor stores, in all
cells, starting with any contents of the arrays of divided differences, and changes neither input nor output. -/
theorem C73_eno {m : Nat} (k : Nat) (hk : 2 ≤ k) (hk4 : k ≤ 4) (ind : Fin m) (n G active start stop : I3) (dims g d : Nat)
    (hL : Layout n G active dims g) (hg : 1 ≤ g) (hflat : ∀ e < 3, dims ≤ e → n.get e = 1) (hs : RegionOK start stop) (hd : d < dims)
    (s : Dev (Eno.Vec m) ℝ) (hsz : DevSized n s) :
    ∃ (s' : Dev (Eno.Vec m) ℝ) (e' : Eno.State m), yieldsAll (eno k ind n d start stop) s.mem s'.mem ∧
      Eno.perform k d ind active n start stop (s.vol .input) ⟨s.scratch, s.vol .left, s.vol .right⟩ = .ok e' ∧
      s'.vol .left = e'.left ∧ s'.vol .right = e'.right ∧ s'.vol .input = s.vol .input ∧ s'.vol .output = s.vol .output := by
  have hact := spaceFilling_eq hL hg hflat
  have hgeo := geo_of_layout (k := k) hL hs hd
  obtain ⟨s', h1, h2, h3⟩ := eno_ok ind (k := k) (n := n) (by rw [hact]; exact hgeo) hk hk4 hsz
  obtain ⟨e', p1, _, p3, p4, p5, p6⟩ := Eno.perform_ok hgeo hk hk4 ind (n := n) (u := s.vol .input) (s := ⟨s.scratch, s.vol .left, s.vol .right⟩)
    (fun p hp => by
      rw [hsz.vol, Diffusion.inSize_get]; intro e he; have := hp e he; have := hgeo.start e he; have := hgeo.stop e he; omega)
    hsz.scratch (hsz.vol _) (hsz.vol _)
  rw [hact] at h3
  refine ⟨s', e', h1, p1, ?_, ?_, by rw [h3]; rfl, by rw [h3]; rfl⟩
  · refine Arr.ext' (by rw [h2.vol, p3]) (funext fun q => ?_)
    rw [h3]
    by_cases hq : q ∈ box (Eno.mainLo k d active start) (Eno.mainHi k d active n stop)
    · rw [(p5 q hq).1]; exact if_pos hq
    · rw [(p6 q hq).1]; exact if_neg hq
  · refine Arr.ext' (by rw [h2.vol, p4]) (funext fun q => ?_)
    rw [h3]
    by_cases hq : q ∈ box (Eno.mainLo k d active start) (Eno.mainHi k d active n stop)
    · rw [(p5 q hq).2]; exact if_pos hq
    · rw [(p6 q hq).2]; exact if_neg hq

/-! Examples: a two dimensional grid with 5x6 interior cells and two ghost cells. -/

/-- example memory with two variables per cell -/
noncomputable def exCard : Dev (Eno.Vec 2) ℝ where
  vol := fun v => match v with
    | .input => field ⟨9, 10, 1⟩ fun p i => if i = 0 then (p.x * p.x : ℝ) else p.y
    | _ => field ⟨9, 10, 1⟩ fun _ _ => 7
  speeds := ⟨fun i => decide (i < 90), fun _ => 0⟩
  scratch := fun j => field ⟨9, 10, 1⟩ fun _ => j

theorem exCard_sized : DevSized ⟨9, 10, 1⟩ exCard :=
  ⟨fun v => by cases v <;> rfl, fun i hi => by simpa [exCard] using hi, fun _ => rfl⟩

theorem exLayout2 : Layout ⟨9, 10, 1⟩ ⟨2, 2, 0⟩ ⟨1, 1, 0⟩ 2 2 := ⟨by decide, by decide, by decide, by decide⟩

example := C73_none ⟨9, 10, 1⟩ ⟨1, 1, 0⟩ 0 0 1 exCard exCard_sized

/-- The limiter MC and second order WENO in the second direction, on a part of the grid. -/
example := C73_fixed_stencil_partial (Weno.mcRecon : Recon (Eno.Vec 2)) rfl ⟨9, 10, 1⟩ ⟨2, 2, 0⟩ ⟨1, 1, 0⟩ ⟨0, 1, 0⟩ ⟨-1, 0, 0⟩ 2 2 1 exLayout2 (by decide)
  (by decide) (by decide) (by intro o ho; have : o = -1 ∨ o = 0 ∨ o = 1 := by
                                simpa [Weno.mcRecon, Weno.lineRecon, irange, List.range_succ] using ho
                              simp only [Weno.mcRecon, Weno.lineRecon]; omega)
  (by unfold RegionOK; decide) (by decide) exCard exCard_sized

/-- A volume with 2 x 2 x 1 interior cells. -/
example : ∃ s : Dev (Eno.Vec 2) ℝ, DevSized ⟨6, 6, 5⟩ s ∧ ∀ mem', ¬ yieldsAll (stencil (Weno.mcRecon : Recon (Eno.Vec 2)) ⟨6, 6, 5⟩ ⟨2, 2, 2⟩ 2 0 0) s.mem mem' :=
  let s : Dev (Eno.Vec 2) ℝ := ⟨fun _ => field ⟨6, 6, 5⟩ fun p _ => p.x, ⟨fun i => decide (i < 180), fun _ => 0⟩, fun _ => field ⟨6, 6, 5⟩ fun _ => 0⟩
  have h : DevSized ⟨6, 6, 5⟩ s := ⟨fun _ => rfl, fun i hi => by simpa [s] using hi, fun _ => rfl⟩
  ⟨s, h, (C73_single_layer 2 6 6 le_rfl le_rfl s h).1⟩

example := C73_eno 2 (by decide) (by decide) (0 : Fin 2) ⟨9, 10, 1⟩ ⟨2, 2, 0⟩ ⟨1, 1, 0⟩ ⟨0, 1, 0⟩ ⟨-1, 0, 0⟩ 2 2 1 exLayout2 (by decide)
  (by decide) (by unfold RegionOK; decide) (by decide) exCard exCard_sized

end Verif.Props.CudaRecon
