import Verif.Props.Halo
import Verif.Step

/-!
One evaluation of the right hand side on all ranks: boundary conditions, halo exchange, numerical flux, time step.
-/

namespace Verif.ParallelRun
open Iterate Cartesian Halo Props.Parallel NetFlux Boundary

/-- `CartesianCellExchanger::max` (alsfvm/src/mpi/CartesianCellExchanger.cpp:38-45), the `MPI_Allreduce` with `MPI_MAX` over ranks `0 … size-1`, called by
`CellExchanger::adjustWaveSpeed` (alsfvm/src/mpi/CellExchanger.cpp:21-23): every rank gets the largest of the values of all ranks. -/
def allMax {K : Type} [LinearOrder K] (size : Int) (w : Int → K) : K := (irange 1 size).foldl (fun m r => max m (w r)) (w 0)

/-- `Integrator::computeTimestep` (alsfvm/src/integrator/Integrator.cpp:20-46) on each of several ranks with wave speeds `ws r`. The only wave speed adjuster in the
code is the cell exchanger (alsfvm/src/simulator/Simulator.cpp:220-230), which replaces each wave speed by the maximum over all ranks. -/
def parallelTimestep {K : Type} [Field K] [LinearOrder K] (size : Int) (adj : List (Integrator.Adjuster K)) (ws : Int → Nat → K) (len : Nat → K) (cfl : K)
    (info : Integrator.TimeInfo K) : WithTop K :=
  Integrator.computeTimestep [] adj (fun d => allMax size fun r => ws r d) len cfl info

/-- `Grid::getCellLengths` (alsfvm/src/grid/Grid.cpp:144-146) by component. -/
def lengthOf {K : Type} (grid : Grid K) (d : Nat) : K := if d = 0 then grid.lengths.x else if d = 1 then grid.lengths.y else grid.lengths.z

/-- The configuration reader gives all sides the same boundary condition (alsfvm/src/config/SimulatorSetup.cpp:260-287). -/
def sideOf : BC → Side
  | .neumann => .neumann
  | .periodic => .periodic

/-- `Grid::getActiveBoundaryConditions` (alsfvm/src/grid/Grid.cpp:181-189) as the boundary code reads it: is this side of the part handled by the halo exchange? -/
def exchanged {K : Type} (A : Cartesian.Part K) (side : Nat) : Bool := decide (A.bc side = .mpi)

/-- The volume of rank `r` in the memory of all ranks: `nvars` arrays of total size `n` (alsfvm/src/volume/Volume.cpp:44-60). -/
def volumeOf {K : Type} (n : I3) (nvars : Nat) (mem : Loc → K) (r : Int) : Arr I3 (Fin nvars → K) := ⟨inSize n, fun c v => mem (r, v, flatI n c)⟩

theorem allMax_eq {K : Type} [LinearOrder K] {size : Int} {w : Int → K} {W : K} (hle : ∀ r, 0 ≤ r → r < size → w r ≤ W)
    (hex : ∃ r, 0 ≤ r ∧ r < size ∧ w r = W) : allMax size w = W := by
  have key : ∀ (l : List Int) (a : K), IsGreatest ({a} ∪ {x | ∃ r ∈ l, x = w r}) (l.foldl (fun m r => max m (w r)) a) := by
    intro l
    induction l with
    | nil => intro a; simp [IsGreatest, upperBounds]
    | cons b l ih =>
      intro a
      obtain ⟨h1, h2⟩ := ih (max a (w b))
      rw [List.foldl_cons]
      constructor
      · rcases h1 with h1 | ⟨r, hr, h1⟩
        · rw [Set.mem_singleton_iff] at h1
          rw [h1]
          rcases max_choice a (w b) with h | h <;> rw [h]
          · left; rfl
          · right; exact ⟨b, by simp, rfl⟩
        · right; exact ⟨r, by simp [hr], h1⟩
      · have h3 := h2 (Or.inl rfl : max a (w b) ∈ _)
        rintro x (hx | ⟨r, hr, rfl⟩)
        · rw [Set.mem_singleton_iff] at hx; subst hx; exact le_trans (le_max_left _ _) h3
        · rcases List.mem_cons.1 hr with rfl | hr
          · exact le_trans (le_max_right _ _) h3
          · exact h2 (Or.inr ⟨r, hr, rfl⟩)
  obtain ⟨r, h0, h1, rfl⟩ := hex
  obtain ⟨k1, k2⟩ := key (irange 1 size) (w 0)
  refine le_antisymm ?_ ?_
  · rcases k1 with k | ⟨r', hr', k⟩
    · rw [Set.mem_singleton_iff] at k
      exact le_of_eq_of_le k (hle 0 (le_refl _) (by omega))
    · rw [mem_irange] at hr'
      exact le_of_eq_of_le k (hle r' (by omega) (by omega))
  · apply k2
    by_cases e : r = 0
    · left; rw [e]; rfl
    · right; exact ⟨r, by rw [mem_irange]; omega, rfl⟩

/-- Only one coordinate can be a ghost coordinate. -/
theorem ghostSource_single {bc : BC} {g : Nat} {N c : I3} {dims d : Nat} {mpi : Nat → Bool} (hd : d < dims) (hd3 : dims ≤ 3)
    (hc : ∀ e < dims, e ≠ d → (g : Int) ≤ c.get e ∧ c.get e < g + N.get e) :
    ghostSource bc g N dims mpi c = c.set d (imageDir bc g (N.get d) (mpi (2 * d)) (mpi (2 * d + 1)) (c.get d)) := by
  have hi : ∀ e < dims, e ≠ d → ∀ a b, imageDir bc g (N.get e) a b (c.get e) = c.get e := by
    intro e he hne a b
    have := hc e he hne
    unfold imageDir
    rw [image_interior this.1 this.2]
    exact ite_self _
  have key : ∀ e < 3, (ghostSource bc g N dims mpi c).get e = if e < dims then imageDir bc g (N.get e) (mpi (2 * e)) (mpi (2 * e + 1)) (c.get e) else c.get e := by
    intro e he
    interval_cases e <;> simp [ghostSource, I3.get]
  apply Cartesian.ext_get
  intro e he
  rw [key e he, get_set (by omega) he]
  split
  · next e1 => 
    split
    · next e2 => rw [e2]
    · next e2 => exact hi e e1 e2 _ _
  · next e1 => rw [if_neg (by omega)]

section
variable {K : Type} [Field K] {p : I3} {grid : Grid K} {bc : BC} {part : Int → Cartesian.Part K}

/-- The parts and the whole grid have the same shape when no direction is cut into single cells. -/
theorem shape (h : Decomposed p grid (fun _ => sideOf bc) part) (hdims : dimensionsOf (localSize grid.dims p) = activeDimension grid.dims) (g : Nat) :
    ((localSize grid.dims p).y = 1 → (localSize grid.dims p).z = 1) ∧ (grid.dims.y = 1 → grid.dims.z = 1) ∧
      dimensionsOf grid.dims = dimensionsOf (localSize grid.dims p) ∧ ghostsOf grid.dims g = ghostsOf (localSize grid.dims p) g := by
  have h1 := h.sizes (d := 1) (by omega)
  have h2 := h.sizes (d := 2) (by omega)
  simp only [I3.get, one_ne_zero, if_false, if_true, OfNat.ofNat_ne_zero, OfNat.ofNat_ne_one] at h1 h2
  have k : ∀ {a b c : Int}, 1 ≤ b → 1 ≤ a → a * b = c → a ≤ c := fun {a b c} hb ha e => by nlinarith
  have k1 := k h1.1 h1.2.1 h1.2.2
  have k2 := k h2.1 h2.2.1 h2.2.2
  unfold dimensionsOf activeDimension at *
  refine ⟨?_, ?_, ?_, ?_⟩
  · split_ifs at hdims <;> omega
  · split_ifs at hdims <;> omega
  · split_ifs at hdims ⊢ <;> omega
  · unfold ghostsOf
    ext <;> simp only <;> split_ifs at hdims ⊢ <;> first | rfl | omega

theorem layout {m : I3} (hm : 1 ≤ m.x ∧ 1 ≤ m.y ∧ 1 ≤ m.z) (hreg : m.y = 1 → m.z = 1) (g : Nat) {active : I3}
    (hact : ∀ d < 3, active.get d = if d < dimensionsOf m then 1 else 0) : Layout (totalOf m g) (ghostsOf m g) active (dimensionsOf m) g := by
  refine ⟨(dimensionsOf_bounds m).2, hact, fun d hd => (volume_sizes hm hreg g hd).1, fun d hd => ?_⟩
  have := volume_sizes hm hreg g hd
  omega

variable {nvars g : Nat}

/-- After the exchange a rank has in every cell of the volume with at most one ghost coordinate the value the serial run has after its boundary conditions. -/
theorem cross (h : Decomposed p grid (fun _ => sideOf bc) part) {m : I3} (hm : m = localSize grid.dims p) (hdims : dimensionsOf m = activeDimension grid.dims)
    (hg : ∀ d < dimensionsOf m, (g : Int) ≤ m.get d)
    {uS bS : I3 → Fin nvars → K} {u b : Int → I3 → Fin nvars → K}
    (hbS : ∀ c, inSize (totalOf grid.dims g) c = true → bS c = uS (ghostSource bc g grid.dims (dimensionsOf m) (fun _ => false) c))
    (hu : ∀ r, IsRank p r → ∀ c, Inner m g c → u r c = uS (c + (part r).grid.globalPosition))
    (hb : ∀ r, IsRank p r → ∀ c, inSize (totalOf m g) c = true → b r c = u r (ghostSource bc g m (dimensionsOf m) (exchanged (part r)) c))
    {mem : Loc → K} (hmem : ∀ r, IsRank p r → ∀ c, inSize (totalOf m g) c = true → ∀ v : Fin nvars, mem (r, v, flatI (totalOf m g) c) = b r c v)
    {evs : List Event} (hc : Complete (allTransfers p part nvars g) evs) (tr : Nat → K) {r : Int} (hr : IsRank p r) {d : Nat} (hd : d < dimensionsOf m)
    {c : I3} (hcd : 0 ≤ c.get d ∧ c.get d < (totalOf m g).get d)
    (hce : ∀ e < 3, e ≠ d → (ghostsOf m g).get e ≤ c.get e ∧ c.get e < m.get e + (ghostsOf m g).get e) :
    (volumeOf (totalOf m g) nvars (after (allTransfers p part nvars g) mem tr evs) r).val c = bS (c + (part r).grid.globalPosition) := by
  have hsh := shape h (by rw [← hm]; exact hdims) g
  rw [← hm] at hsh
  obtain ⟨hreg, hregD, hdimD, hGD⟩ := hsh
  have hm1 : 1 ≤ m.x ∧ 1 ≤ m.y ∧ 1 ≤ m.z := by
    rw [hm]; exact ⟨(h.sizes (d := 0) (by omega)).2.1, (h.sizes (d := 1) (by omega)).2.1, (h.sizes (d := 2) (by omega)).2.1⟩
  obtain ⟨hd1, hd3⟩ := dimensionsOf_bounds m
  have hvs := fun {d} (hd : d < 3) => volume_sizes hm1 hreg g hd
  have hvD := fun {d} (hd : d < 3) => volume_sizes h.dims hregD g hd
  obtain ⟨f1, f2, f3, f4, f5⟩ := h.facts hr
  rw [← hm] at f1 f2
  have hsz := fun {d} (hd : d < 3) => h.sizes (d := d) hd
  rw [← hm] at hsz
  have hpos := inside_get.1 f4
  have hgp : ∀ e < 3, 0 ≤ (part r).grid.globalPosition.get e ∧ (part r).grid.globalPosition.get e + m.get e ≤ grid.dims.get e := by
    intro e he
    obtain ⟨s1, s2, s3⟩ := hsz he
    have := hpos e he
    rw [f2 e he, ← s3]
    constructor <;> nlinarith
  have inSz : ∀ {N c : I3}, (∀ e < 3, 0 ≤ c.get e ∧ c.get e < N.get e) → inSize N c = true := by
    intro N c hh
    have h0 := hh 0 (by decide); have h1 := hh 1 (by decide); have h2 := hh 2 (by decide)
    simp [I3.get] at h0 h1 h2
    rw [inSize_iff]; omega
  -- size of the ghost layer
  have hGe : ∀ e < dimensionsOf m, (ghostsOf m g).get e = g := fun e he => by rw [(hvs (by omega)).1, if_pos he]
  have hvd := hvs (d := d) (by omega)
  rw [hGe d hd] at hvd
  have hcin : ∀ e < 3, 0 ≤ c.get e ∧ c.get e < (totalOf m g).get e := by
    intro e he
    by_cases hne : e = d
    · subst hne; exact hcd
    · have h1 := hce e he hne; have h2 := hvs he; have h3 := h2.1
      split_ifs at h3 <;> omega
  have hcs := inSz hcin
  -- the serial value
  set P := c + (part r).grid.globalPosition with hP
  have hPg : ∀ e, P.get e = c.get e + (part r).grid.globalPosition.get e := fun e => get_add _ _ _
  have hPin : inSize (totalOf grid.dims g) P = true := by
    refine inSz fun e he => ?_
    have h1 := hcin e he; have h2 := hvs he; have h3 := hvD he; have h4 := hgp e he
    rw [hPg, h3.2.1, hGD]
    omega
  have hser : bS P = uS (P.set d (image bc g (grid.dims.get d) (P.get d))) := by
    rw [hbS P hPin, ghostSource_single hd hd3]
    · simp [imageDir]
    · intro e he hne
      have h1 := hce e (by omega) hne; have h4 := hgp e (by omega)
      rw [hGe e he] at h1
      rw [hPg]; omega
  rw [hser]
  -- the values before the exchange
  have hsrc : b r c = u r (c.set d (imageDir bc g (m.get d) (exchanged (part r) (2 * d)) (exchanged (part r) (2 * d + 1)) (c.get d))) := by
    rw [hb r hr c hcs, ghostSource_single hd hd3]
    intro e he hne
    have h1 := hce e (by omega) hne
    rw [hGe e he] at h1
    omega
  have hset : ∀ w : Int, g ≤ w → w < g + m.get d → Inner m g (c.set d w) := by
    intro w h1 h2 e he
    rw [get_set (by omega) he]
    split
    · next e1 => subst e1; rw [hGe _ hd]; omega
    · next e1 => exact hce e he e1
  have hsetP : ∀ w : Int, c.set d w + (part r).grid.globalPosition = P.set d (w + (part r).grid.globalPosition.get d) := by
    intro w
    apply ext_get
    intro e he
    rw [get_add, get_set (by omega) he, get_set (by omega) he, hPg]
    split
    · next e1 => rw [e1]
    · rfl
  have hself : ∀ (Q : I3), Q.set d (Q.get d) = Q := by
    intro Q
    apply ext_get
    intro e he
    rw [get_set (by omega) he]
    split
    · next e1 => rw [e1]
    · rfl
  -- the exchange
  have hU : ∀ r', IsRank p r' → ∀ v < nvars, ∀ c', Inner m g c' → mem (r', v, place (totalOf m g) c') =
      (fun v q => if hv : v < nvars then uS (q + ghostsOf m g) ⟨v, hv⟩ else 0) v (c' - ghostsOf m g + (part r').grid.globalPosition) := by
    intro r' hr' v hv c' hc'
    have hin' : inSize (totalOf m g) c' = true := by
      refine inSz fun e he => ?_
      have h1 := hc' e he; have h2 := hvs he; have h3 := h2.1
      split_ifs at h3 <;> omega
    have e1 := hmem r' hr' c' hin' ⟨v, hv⟩
    show mem (r', v, flatI (totalOf m g) c') = _
    rw [show mem (r', v, flatI (totalOf m g) c') = b r' c' ⟨v, hv⟩ from e1, hb r' hr' c' hin']
    have e2 : ghostSource bc g m (dimensionsOf m) (exchanged (part r')) c' = c' := by
      rw [ghostSource_single (d := 0) (by omega) hd3]
      · have h0 := hc' 0 (by omega)
        rw [hGe 0 (by omega)] at h0
        have : imageDir bc g (m.get 0) (exchanged (part r') (2 * 0)) (exchanged (part r') (2 * 0 + 1)) (c'.get 0) = c'.get 0 := by
          unfold imageDir; rw [image_interior (by omega) (by omega)]; exact ite_self _
        rw [this]; ext <;> simp [I3.set, I3.get]
      · intro e he _
        have h0 := hc' e (by omega)
        rw [hGe e he] at h0
        omega
    have e3 : c' - ghostsOf m g + (part r').grid.globalPosition + ghostsOf m g = c' + (part r').grid.globalPosition := by
      apply ext_get
      intro e _
      rw [get_add, get_add, get_sub, get_add]; ring
    rw [e2, hu r' hr' c' hc']
    simp only [hv, dif_pos, e3]
  have hC := fun v (hv : v < nvars) => C48_ghost_cells_partial p grid (fun _ => sideOf bc) part h m hm hreg nvars g hg evs hc
    (fun v q => if hv : v < nvars then uS (q + ghostsOf m g) ⟨v, hv⟩ else 0) mem tr hU r hr v hv
  by_cases hin : (g : Int) ≤ c.get d ∧ c.get d < m.get d + g
  · -- interior cells
    have hcI : Inner m g c := by rw [← hself c]; exact hset _ hin.1 (by omega)
    funext v
    show after (allTransfers p part nvars g) mem tr evs (r, v, flatI (totalOf m g) c) = _
    rw [show after (allTransfers p part nvars g) mem tr evs (r, v, flatI (totalOf m g) c) = mem (r, v, flatI (totalOf m g) c) from
      (hC v v.2).1 c hcI, hmem r hr c hcs v, hsrc]
    have e1 : imageDir bc g (m.get d) (exchanged (part r) (2 * d)) (exchanged (part r) (2 * d + 1)) (c.get d) = c.get d := by
      unfold imageDir; rw [image_interior (by omega) (by omega)]; exact ite_self _
    have hgpd := hgp d (by omega)
    rw [e1, hself, hu r hr c hcI, image_interior (by rw [hPg]; omega) (by rw [hPg]; omega), hself]
  · -- ghost cells of one side
    obtain ⟨side, hsd, hside⟩ : ∃ side, side / 2 = d ∧ (if side % 2 = 0 then c.get d < g else m.get d + g ≤ c.get d) := by
      by_cases hlow : c.get d < g
      · exact ⟨2 * d, by omega, by rw [if_pos (by omega)]; exact hlow⟩
      · exact ⟨2 * d + 1, by omega, by rw [if_neg (by omega)]; omega⟩
    have hs : side < 2 * dimensionsOf m := by omega
    have hf5 := f5 side (by omega)
    have hpd := hpos d (by omega)
    obtain ⟨s1, s2, s3⟩ := hsz (d := d) (by omega)
    have hf2 := f2 d (by omega)
    have hgd := hg d hd
    by_cases hph : physical p (fun _ => sideOf bc) (position p r) side
    · -- the boundary of the whole grid
      obtain ⟨hbc, hnb⟩ := hf5.1 hph
      have hnex : exchanged (part r) side = false := by
        unfold exchanged; rw [hbc]; cases bc <;> simp [sideOf]
      have himg : imageDir bc g (m.get d) (exchanged (part r) (2 * d)) (exchanged (part r) (2 * d + 1)) (c.get d) = image bc g (m.get d) (c.get d) := by
        unfold imageDir
        rw [if_neg]
        rcases Nat.mod_two_eq_zero_or_one side with e | e
        · rw [if_pos e] at hside
          have : side = 2 * d := by omega
          rw [this] at hnex
          rw [hnex]
          simp
          omega
        · rw [if_neg (by omega)] at hside
          have : side = 2 * d + 1 := by omega
          rw [this] at hnex
          rw [hnex]
          simp
          omega
      have hib := image_bounds (bc := bc) (g := g) (N := m.get d) (c := c.get d) s2 (fun _ => hgd) hcd.1 (by omega)
      have hnotslab : ∀ side' < 2 * dimensionsOf m, (part r).neighbour side' > -1 →
          c ∉ box (slabLo (totalOf m g) g 0 side') (slabHi (totalOf m g) g 0 side') := by
        intro side' hs' hnb' hmem'
        have hsl := ((mem_slab (show side' < 6 by omega)).1 hmem').2
        by_cases e1 : side' / 2 = d
        · have : side' = side := by
            rw [e1] at hsl
            rcases Nat.mod_two_eq_zero_or_one side with e2 | e2 <;> rcases Nat.mod_two_eq_zero_or_one side' with e3 | e3 <;>
              simp only [e2, e3, if_true, one_ne_zero, if_false] at hsl hside <;> omega
          subst this
          omega
        · have h1 := hce (side' / 2) (by omega) e1
          have h2 := hvs (d := side' / 2) (by omega)
          rw [hGe (side' / 2) (by omega)] at h1 h2
          split_ifs at hsl <;> omega
      have hblk : InBlock (totalOf m g) c := inBlock_get.2 hcin
      have hun := @Decomposed.unchanged K K _ p grid (fun _ => sideOf bc) part h (by rw [← hm]; exact hreg) nvars g evs hc mem tr r
      rw [← hm] at hun
      funext v
      show after (allTransfers p part nvars g) mem tr evs (r, v, flatI (totalOf m g) c) = _
      rw [hun v hblk hnotslab, hmem r hr c hcs v, hsrc, himg, hu r hr _ (hset _ hib.1 hib.2), hsetP]
      congr 3
      -- the image in the part is the image in the whole grid
      obtain ⟨hout, hor⟩ := hph
      unfold outermost at hout
      rw [decide_eq_true_eq, hsd] at hout
      rw [hsd] at hor
      rw [hPg, hf2]
      generalize (position p r).get d = x at *
      generalize p.get d = Q at *
      generalize m.get d = M at *
      generalize grid.dims.get d = D at *
      generalize c.get d = cc at *
      cases bc
      · simp only [image, mirror]
        rcases hout with ⟨e, rfl⟩ | ⟨e, rfl⟩
        · rw [if_pos e] at hside
          rw [if_pos (by omega), if_pos (by omega)]; ring
        · rw [if_neg (by omega)] at hside
          have hD : D = M * (Q - 1) + M := by rw [← s3]; ring
          have hX : 0 ≤ M * (Q - 1) := by nlinarith
          generalize M * (Q - 1) = X at *
          rw [if_neg (by omega), if_pos (by omega), if_neg (by omega), if_pos (by omega)]
          omega
      · have hQ : Q = 1 := by
          rcases hor with hor | hor
          · exact absurd rfl hor
          · exact hor
        have hx : x = 0 := by omega
        subst hQ hx
        rw [mul_one] at s3
        rw [mul_zero, add_zero, add_zero, s3]
    · -- a side with a neighbour
      obtain ⟨hbc, hnb⟩ := hf5.2 hph
      have hnb' : (part r).neighbour side ≠ -1 := by
        have := rank_bounds (across_inside f4 (side := side) (by omega))
        rw [← hnb] at this
        omega
      have hface : FaceGhost m g side c := by
        refine ⟨fun e he hne => hce e he (by omega), ?_⟩
        rw [hsd]
        split_ifs at hside ⊢ <;> omega
      funext v
      show after (allTransfers p part nvars g) mem tr evs (r, v, flatI (totalOf m g) c) = _
      rw [show after (allTransfers p part nvars g) mem tr evs (r, v, flatI (totalOf m g) c) = _ from (hC v v.2).2 side hs hnb' c hface _ rfl]
      simp only [v.2, dif_pos]
      congr 1
      congr 1
      rw [hsd]
      apply ext_get
      intro e he
      rw [get_add, get_set (by omega) he, get_set (by omega) he]
      split
      · next e1 =>
        subst e1
        rw [hGe e hd, hPg, get_add, get_sub, hGe e hd, hf2]
        generalize hx : (position p r).get e = x at *
        have hnotout : ¬(outermost p (position p r) side = true ∧ ((fun _ => sideOf bc) side ≠ Side.periodic ∨ p.get (side / 2) = 1)) := hph
        unfold outermost at hnotout
        rw [decide_eq_true_eq, hsd, hx] at hnotout
        generalize p.get e = Q at *
        generalize m.get e = M at *
        generalize grid.dims.get e = D at *
        generalize c.get e = cc at *
        cases bc
        · have hno : ¬(side % 2 = 0 ∧ x = 0 ∨ side % 2 = 1 ∧ x = Q - 1) := fun hh => hnotout ⟨hh, Or.inl (by simp [sideOf])⟩
          have hrange : g ≤ cc + M * x ∧ cc + M * x < g + D := by
            rcases Nat.mod_two_eq_zero_or_one side with e2 | e2
            · have : 1 ≤ x := by omega
              rw [if_pos e2] at hside
              have h1 : M * 1 ≤ M * x := by nlinarith
              have h2 : M * x + M ≤ D := by rw [← s3]; nlinarith
              omega
            · have : x + 2 ≤ Q := by omega
              rw [if_neg (by omega)] at hside
              have h1 : M * (x + 2) ≤ D := by rw [← s3]; nlinarith
              have h2 : M * (x + 2) = M * x + 2 * M := by ring
              have h3 : 0 ≤ M * x := by nlinarith
              omega
          rw [image_interior hrange.1 hrange.2, Int.emod_eq_of_lt (by omega) (by omega)]
          ring
        · simp only [image, wrap]
          rw [show cc + M * x - g = cc - g + M * x by ring]; ring
      · rw [get_add, get_sub, hPg]; ring

/-- The global position of a part, and the cell of the whole grid every face of it belongs to. -/
theorem global_bounds (h : Decomposed p grid (fun _ => sideOf bc) part) {m : I3} (hm : m = localSize grid.dims p) {r : Int} (hr : IsRank p r) {e : Nat} (he : e < 3) :
    0 ≤ (part r).grid.globalPosition.get e ∧ (part r).grid.globalPosition.get e + m.get e ≤ grid.dims.get e := by
  obtain ⟨s1, s2, s3⟩ := h.sizes he
  obtain ⟨-, f2, -, f4, -⟩ := h.facts hr
  have := inside_get.1 f4 e he
  rw [f2 e he, hm, ← s3]
  constructor <;> nlinarith

/-- Every cell of the whole grid belongs to a rank. -/
theorem owner (h : Decomposed p grid (fun _ => sideOf bc) part) {m : I3} (hm : m = localSize grid.dims p) {q : I3}
    (hq : ∀ e < 3, 0 ≤ q.get e ∧ q.get e < grid.dims.get e) :
    ∃ r, IsRank p r ∧ ∀ e < 3, (part r).grid.globalPosition.get e ≤ q.get e ∧ q.get e < (part r).grid.globalPosition.get e + m.get e := by
  have hin : Inside p ⟨q.x / m.x, q.y / m.y, q.z / m.z⟩ := by
    rw [inside_get]
    intro e he
    obtain ⟨s1, s2, s3⟩ := h.sizes he
    rw [← hm] at s2 s3
    have hqe := hq e he
    have key : 0 ≤ q.get e / m.get e ∧ q.get e / m.get e < p.get e := by
      refine ⟨Int.ediv_nonneg hqe.1 (by omega), Int.ediv_lt_of_lt_mul (by omega) ?_⟩
      rw [mul_comm, s3]; exact hqe.2
    interval_cases e <;> exact key
  refine ⟨getRankIndex ⟨q.x / m.x, q.y / m.y, q.z / m.z⟩ p, rank_bounds hin, fun e he => ?_⟩
  rw [(h.facts (rank_bounds hin)).2.1 e he, position_rank hin, ← hm]
  obtain ⟨s1, s2, s3⟩ := h.sizes he
  rw [← hm] at s2 s3
  have key : m.get e * (q.get e / m.get e) ≤ q.get e ∧ q.get e < m.get e * (q.get e / m.get e) + m.get e := by
    have h1 := Int.mul_ediv_add_emod (q.get e) (m.get e)
    have h2 := Int.emod_nonneg (q.get e) (show m.get e ≠ 0 by omega)
    have h3 := Int.emod_lt_of_pos (q.get e) (show 0 < m.get e by omega)
    omega
  interval_cases e <;> exact key

omit [Field K] in
theorem isFace_get {n G : I3} {d : Nat} (hd : d < 3) {q : I3} :
    IsFace n G 0 0 d q ↔ ∀ e < 3, (if e = d then G.get e - 1 else G.get e) ≤ q.get e ∧ q.get e < n.get e - G.get e := by
  unfold IsFace
  rw [mem_box]
  constructor
  · rintro ⟨h1, h2, h3⟩ e he
    interval_cases d <;> interval_cases e <;> simp_all [I3.get, I3.dir]
  · intro hh
    have h0 := hh 0 (by omega); have h1 := hh 1 (by omega); have h2 := hh 2 (by omega)
    interval_cases d <;> simp [I3.get, I3.dir] at h0 h1 h2 ⊢ <;> omega

theorem get_step {d e : Nat} (hd : d < 3) (he : e < 3) (k : Int) : (step d k).get e = if e = d then k else 0 := by
  interval_cases d <;> interval_cases e <;> simp [step, I3.get]

theorem get_dir {d e : Nat} (hd : d < 3) (he : e < 3) : (I3.dir d).get e = if e = d then 1 else 0 := by
  interval_cases d <;> interval_cases e <;> simp [I3.dir, I3.get]

theorem net_congr' {V R : Type} [AddCommGroup V] {dims : Nat} {r : Recon V} {fl : FluxFn V R} {u v : I3 → V} {q q' : I3}
    (hh : ∀ d < dims, face r fl u d q = face r fl v d q' ∧ face r fl u d (q - I3.dir d) = face r fl v d (q' - I3.dir d)) :
    net dims r fl u q = net dims r fl v q' := by
  unfold net
  congr 1
  refine List.map_congr_left fun d hd => ?_
  obtain ⟨h1, h2⟩ := hh d (by simpa using hd)
  rw [h1, h2]

end

/-- One evaluation of the right hand side on several processes and on one process. -/
theorem parallel_ok {K : Type} [Field K] [LinearOrder K] (p : I3) (grid : Grid K) (bc : BC) (part : Int → Cartesian.Part K)
    (h : Decomposed p grid (fun _ => sideOf bc) part) (m : I3) (hm : m = localSize grid.dims p) (dims : Nat) (hdims : dims = activeDimension grid.dims)
    (hdimsm : dims = dimensionsOf m) (nvars g : Nat) (hg : ∀ d < dims, (g : Int) ≤ m.get d) (recon : Recon (Fin nvars → K)) (fl : FluxFn (Fin nvars → K) K)
    (hf : Fits recon fl g) (active : I3) (hact : ∀ d < 3, active.get d = if d < dims then 1 else 0) (U : I3 → Fin nvars → K)
    -- the single process
    (uS : Arr I3 (Fin nvars → K)) (huS : uS.inb = inSize (totalOf grid.dims g)) (hUS : ∀ c, Inner grid.dims g c → uS.val c = U (c - ghostsOf grid.dims g))
    (sS : State (Fin nvars → K) K) (hsS : Sized (totalOf grid.dims g) sS ∧ sS.ws = fun _ => 0)
    -- the ranks
    (u : Int → Arr I3 (Fin nvars → K)) (hu : ∀ r, IsRank p r → (u r).inb = inSize (totalOf m g))
    (hU : ∀ r, IsRank p r → ∀ c, Inner m g c → (u r).val c = U (c - ghostsOf m g + (part r).grid.globalPosition))
    (s : Int → State (Fin nvars → K) K) (hs : ∀ r, IsRank p r → Sized (totalOf m g) (s r) ∧ (s r).ws = fun _ => 0) :
    ∃ (bS : Arr I3 (Fin nvars → K)) (RS : State (Fin nvars → K) K), Boundary.apply bc (totalOf grid.dims g) g dims (fun _ => false) [uS] = .ok [bS] ∧
      (bS.inb = inSize (totalOf grid.dims g) ∧ ∀ c, inSize (totalOf grid.dims g) c = true → bS.val c = uS.val (Boundary.ghostSource bc g grid.dims dims (fun _ => false) c)) ∧
      conservedSystem dims recon fl (totalOf grid.dims g) (ghostsOf grid.dims g) active bS bS sS = .ok RS ∧
      ∃ b : Int → Arr I3 (Fin nvars → K), (∀ r, IsRank p r → Boundary.apply bc (totalOf m g) g dims (exchanged (part r)) [u r] = .ok [b r] ∧ (b r).inb = inSize (totalOf m g) ∧
            ∀ c, inSize (totalOf m g) c = true → (b r).val c = (u r).val (Boundary.ghostSource bc g m dims (exchanged (part r)) c)) ∧
        ∀ (mem : Loc → K) (tr : Nat → K) (evs : List Event), (∀ r, IsRank p r → ∀ c, inSize (totalOf m g) c = true → ∀ v : Fin nvars, mem (r, v.1, place (totalOf m g) c) = (b r).val c v) →
          Complete (allTransfers p part nvars g) evs →
          ∀ u0 : Int → Arr I3 (Fin nvars → K), (∀ r, IsRank p r → (u0 r).inb = inSize (totalOf m g)) →
            (∀ r, IsRank p r → ∀ c, Inner m g c → (u0 r).val c = (b r).val c) →
            ∃ R : Int → State (Fin nvars → K) K, (∀ r, IsRank p r → conservedSystem dims recon fl (totalOf m g) (ghostsOf m g) active (u0 r)
                (volumeOf (totalOf m g) nvars (after (allTransfers p part nvars g) mem tr evs) r) (s r) = .ok (R r)) ∧
              (∀ r, IsRank p r → ∀ c, Inner m g c → (R r).out.val c = RS.out.val (c + (part r).grid.globalPosition)) ∧
              (∀ r, IsRank p r → ∀ c, ¬Inner m g c → (R r).out.val c = (s r).out.val c) ∧
              (∀ r, IsRank p r → ∀ d < dims, ∀ c : I3, 0 ≤ c.get d ∧ c.get d < (totalOf m g).get d →
                (∀ e < 3, e ≠ d → (ghostsOf m g).get e ≤ c.get e ∧ c.get e < m.get e + (ghostsOf m g).get e) →
                (volumeOf (totalOf m g) nvars (after (allTransfers p part nvars g) mem tr evs) r).val c = bS.val (c + (part r).grid.globalPosition)) ∧
              (fun d => allMax (p.x * p.y * p.z) fun r => (R r).ws d) = RS.ws := by
  have hsh := shape h (by rw [← hm, ← hdimsm, ← hdims]) g
  rw [← hm] at hsh
  obtain ⟨hreg, hregD, hdimD, hGD⟩ := hsh
  have hm1 : 1 ≤ m.x ∧ 1 ≤ m.y ∧ 1 ≤ m.z := by
    rw [hm]; exact ⟨(h.sizes (d := 0) (by omega)).2.1, (h.sizes (d := 1) (by omega)).2.1, (h.sizes (d := 2) (by omega)).2.1⟩
  obtain ⟨hd1, hd3⟩ := dimensionsOf_bounds m
  rw [← hdimsm] at hd1 hd3
  have hvs := fun {d} (hd : d < 3) => volume_sizes hm1 hreg g hd
  have hvD := fun {d} (hd : d < 3) => volume_sizes h.dims hregD g hd
  have hL : Layout (totalOf m g) (ghostsOf m g) active dims g := by
    have := layout hm1 hreg g (active := active) (by rw [← hdimsm]; exact hact)
    rwa [← hdimsm] at this
  have hLD : Layout (totalOf grid.dims g) (ghostsOf grid.dims g) active dims g := by
    have := layout h.dims hregD g (active := active) (by rw [hdimD, ← hdimsm]; exact hact)
    rwa [hdimD, ← hdimsm] at this
  have hGe : ∀ e < dims, (ghostsOf m g).get e = g := fun e he => by rw [(hvs (by omega)).1, if_pos (by omega)]
  have hmD : ∀ e < 3, m.get e ≤ grid.dims.get e := by
    intro e he
    obtain ⟨s1, s2, s3⟩ := h.sizes he
    rw [← hm] at s2 s3
    nlinarith
  have hgp := fun {r} (hr : IsRank p r) {e} (he : e < 3) => global_bounds h hm hr (e := e) he
  -- boundary conditions
  obtain ⟨areas, hbS, hF⟩ := Boundary.apply_ok (bc := bc) (n := totalOf grid.dims g) (N := grid.dims) (g := g) (dims := dims) (mpi := fun _ => false) hd3
    (fun d hd => by rw [(hvD (by omega)).2.1, hGD, hGe d hd]) (fun d hd => (hvD (by omega)).2.2.2) hd1
    (fun _ d hd => le_trans (hg d hd) (hmD d (by omega))) [uS] (by simp [huS])
  cases hF with
  | @cons _ bS _ l hbS1 hrest =>
  cases hrest
  have hb : ∀ r, ∃ b : Arr I3 (Fin nvars → K), IsRank p r → Boundary.apply bc (totalOf m g) g dims (exchanged (part r)) [u r] = .ok [b] ∧
      (b.inb = inSize (totalOf m g) ∧ ∀ c, inSize (totalOf m g) c = true → b.val c = (u r).val (Boundary.ghostSource bc g m dims (exchanged (part r)) c)) := by
    intro r
    by_cases hr : IsRank p r
    · obtain ⟨areas, h1, h2⟩ := Boundary.apply_ok (bc := bc) (n := totalOf m g) (N := m) (g := g) (dims := dims) (mpi := exchanged (part r)) hd3
        (fun d hd => by rw [(hvs (by omega)).2.1, hGe d hd]) (fun d hd => (hvs (by omega)).2.2.2) hd1
        (fun _ d hd => hg d hd) [u r] (by simp [hu r hr])
      cases h2 with
      | @cons _ b _ l h3 h4 =>
      cases h4
      exact ⟨b, fun _ => ⟨h1, h3⟩⟩
    · exact ⟨u r, fun hr' => absurd hr' hr⟩
  choose b hb using hb
  -- the evaluation of one process
  have h3G : ∀ d < dims, 3 * (ghostsOf m g).get d ≤ (totalOf m g).get d := by
    intro d hd
    have h1 := hvs (d := d) (by omega); have h2 := hg d hd
    rw [h1.2.1, hGe d hd]; omega
  have h3D : ∀ d < dims, 3 * (ghostsOf grid.dims g).get d ≤ (totalOf grid.dims g).get d := by
    intro d hd
    have h1 := hvD (d := d) (by omega); have h2 := hg d hd; have h3 := hmD d (by omega)
    rw [h1.2.1, hGD, hGe d hd]; omega
  obtain ⟨RS, hRS, -, hRSo, hRSw, hRSw'⟩ := conservedSystem_ok hLD hf h3D hd1 bS bS (readsOK_of_full hLD hf (inner_regionOK hLD) bS hbS1.1) hbS1.1
    (fun _ _ => rfl) sS hsS.1
  refine ⟨bS, RS, hbS, hbS1, hRS, b, fun r hr => hb r hr, ?_⟩
  intro mem tr evs hmem hc u0 hu0 hu0b
  -- cells of the whole grid
  have hInnerD : ∀ {r}, IsRank p r → ∀ {c}, Inner m g c → Inner grid.dims g (c + (part r).grid.globalPosition) := by
    intro r hr c hcI e he
    have h1 := hcI e he; have h2 := hgp hr he
    rw [get_add, hGD]; omega
  have hsub : ∀ {r} {c : I3}, c - ghostsOf m g + (part r).grid.globalPosition = c + (part r).grid.globalPosition - ghostsOf m g := by
    intro r c
    apply ext_get
    intro e _
    rw [get_add, get_sub, get_sub, get_add]; ring
  have hcross := fun {r} (hr : IsRank p r) {d} (hd : d < dims) {c : I3} => cross h hm (by rw [← hdimsm, ← hdims]) (by rw [← hdimsm]; exact hg) (uS := uS.val) (bS := bS.val)
    (u := fun r => (u r).val) (b := fun r => (b r).val) (by rw [← hdimsm]; exact hbS1.2)
    (fun r hr c hcI => by rw [hU r hr c hcI, hUS _ (hInnerD hr hcI), hsub, hGD])
    (by rw [← hdimsm]; exact fun r hr => (hb r hr).2.2) hmem hc tr hr (d := d) (by rw [← hdimsm]; exact hd) (c := c)
  generalize hu1 : (fun r => volumeOf (totalOf m g) nvars (after (allTransfers p part nvars g) mem tr evs) r) = u1
  have hu1' : ∀ r, volumeOf (totalOf m g) nvars (after (allTransfers p part nvars g) mem tr evs) r = u1 r := fun r => congrFun hu1 r
  have hu1b : ∀ r, (u1 r).inb = inSize (totalOf m g) := fun r => by rw [← hu1' r]; rfl
  simp only [hu1'] at hcross ⊢
  have hIn : ∀ {c}, IsInterior (totalOf m g) (ghostsOf m g) c ↔ Inner m g c := by
    intro c
    refine forall₂_congr fun e he => ?_
    have := hvs he
    omega
  have hself : ∀ {r}, IsRank p r → ∀ c, Inner m g c → (b r).val c = (u1 r).val c := by
    intro r hr c hcI
    have e1 := hcross hr hd1 (c := c) (by have h1 := hcI 0 (by omega); have h2 := hvs (d := 0) (by omega); rw [hGe 0 hd1] at h1 h2; omega)
      (fun e he _ => hcI e he)
    have hsz : inSize (totalOf m g) c = true := Step.interior_inSize hL (hIn.2 hcI)
    have hszD : inSize (totalOf grid.dims g) (c + (part r).grid.globalPosition) = true := by
      refine Step.interior_inSize hLD fun e he => ?_
      have := hInnerD hr hcI e he; have := hvD he; omega
    have hgs : ∀ {N : I3} {mpi} {c : I3}, (∀ e < dims, (g : Int) ≤ c.get e ∧ c.get e < g + N.get e) → Boundary.ghostSource bc g N dims mpi c = c := by
      intro N mpi c hh
      rw [ghostSource_single (d := 0) hd1 hd3 fun e he _ => hh e he]
      have := hh 0 hd1
      unfold Boundary.imageDir
      rw [Boundary.image_interior this.1 this.2, ite_self]
      ext <;> simp [I3.set, I3.get]
    rw [e1, (hb r hr).2.2 c hsz, hbS1.2 _ hszD, hgs, hgs, hU r hr c hcI, hUS _ (hInnerD hr hcI), hsub, hGD]
    · intro e he
      have := hInnerD hr hcI e (by omega)
      rw [hGD, hGe e he] at this; omega
    · intro e he
      have := hcI e (by omega)
      rw [hGe e he] at this; omega
  have hR : ∀ r, ∃ R, IsRank p r → _ := fun r => by
    by_cases hr : IsRank p r
    · obtain ⟨R, h1, h2⟩ := conservedSystem_ok hL hf h3G hd1 (u0 r) (u1 r) (readsOK_of_full hL hf (inner_regionOK hL) _ (hu0 r hr)) (hu1b r)
        (fun c hcI => by rw [hu0b r hr c (hIn.1 hcI)]; exact hself hr c (hIn.1 hcI)) (s r) (hs r hr).1
      exact ⟨R, fun _ => And.intro h1 h2⟩
    · exact ⟨s r, fun hr' => absurd hr' hr⟩
  choose R hR using hR
  -- faces
  have hface : ∀ {r}, IsRank p r → ∀ {d}, d < dims → ∀ {q}, IsFace (totalOf m g) (ghostsOf m g) 0 0 d q →
      face recon fl (u1 r).val d q = face recon fl bS.val d (q + (part r).grid.globalPosition) := by
    intro r hr d hd q hq
    rw [isFace_get (by omega)] at hq
    refine face_congr fun o ho o' ho' => ?_
    have hob := offset_bound hf ho ho'
    have e1 : q + (part r).grid.globalPosition + step d o + step d o' = q + step d o + step d o' + (part r).grid.globalPosition := by
      apply ext_get
      intro e _
      simp only [get_add]; ring
    rw [e1]
    apply hcross hr hd
    · have := hq d (by omega)
      rw [if_pos rfl, hGe d hd] at this
      rw [get_add, get_add, get_step (by omega) (by omega), get_step (by omega) (by omega), if_pos rfl, if_pos rfl]
      have := hvs (d := d) (by omega)
      omega
    · intro e he hne
      have := hq e he
      rw [if_neg hne] at this
      rw [get_add, get_add, get_step (by omega) he, get_step (by omega) he, if_neg hne, if_neg hne]
      have := hvs he
      omega
  have hfaceD : ∀ {r}, IsRank p r → ∀ {d}, d < dims → ∀ {q}, IsFace (totalOf m g) (ghostsOf m g) 0 0 d q →
      IsFace (totalOf grid.dims g) (ghostsOf grid.dims g) 0 0 d (q + (part r).grid.globalPosition) := by
    intro r hr d hd q hq
    rw [isFace_get (by omega)] at hq ⊢
    intro e he
    have h1 := hq e he; have h2 := hgp hr he; have h3 := hvs he; have h4 := hvD he
    rw [get_add, h4.2.1, hGD]
    split_ifs at h1 ⊢ <;> omega
  refine ⟨R, fun r hr => (hR r hr).1, ?_, ?_, fun r hr d hd c h1 h2 => hcross hr hd h1 h2, ?_⟩
  · intro r hr c hcI
    obtain ⟨-, -, h2, -, -⟩ := hR r hr
    have hIR : InRegion (totalOf m g) (ghostsOf m g) 0 0 c := isInterior_iff.1 (hIn.2 hcI)
    have hIRD : InRegion (totalOf grid.dims g) (ghostsOf grid.dims g) 0 0 (c + (part r).grid.globalPosition) := by
      refine isInterior_iff.1 fun e he => ?_
      have := hInnerD hr hcI e he; have := hvD he; omega
    rw [h2, if_pos hIR, hRSo, if_pos hIRD]
    refine net_congr' fun d hd => ⟨hface hr hd ?_, ?_⟩
    · rw [isFace_get (by omega)]
      intro e he
      have := hcI e he; have := hvs he
      split_ifs <;> omega
    · have e1 : c + (part r).grid.globalPosition - I3.dir d = c - I3.dir d + (part r).grid.globalPosition := by
        apply ext_get
        intro e _
        simp only [get_add, get_sub]; ring
      rw [e1]
      refine hface hr hd ?_
      rw [isFace_get (by omega)]
      intro e he
      have := hcI e he; have := hvs he
      rw [get_sub, get_dir (by omega) he]
      split_ifs <;> omega
  · intro r hr c hcI
    obtain ⟨-, -, h2, -, -⟩ := hR r hr
    rw [h2, if_neg fun hh => hcI (hIn.1 (isInterior_iff.2 hh))]
  · have hcount : 0 < p.x * p.y * p.z := by
      have h0 := (h.sizes (d := 0) (by omega)).1; have h1 := (h.sizes (d := 1) (by omega)).1; have h2 := (h.sizes (d := 2) (by omega)).1
      simp only [I3.get, if_true, one_ne_zero, if_false, OfNat.ofNat_ne_zero, OfNat.ofNat_ne_one] at h0 h1 h2
      have h3 : 0 < p.x * p.y := by nlinarith
      nlinarith
    funext d
    by_cases hd : d < dims
    · have hle : ∀ r, IsRank p r → (R r).ws d ≤ RS.ws d := by
        intro r hr
        obtain ⟨-, -, -, h3, -⟩ := hR r hr
        apply (hRSw d hd).2
        rcases (h3 d hd).1 with h4 | ⟨q, hq, h4⟩
        · left; exact h4
        · right
          exact ⟨_, hfaceD hr hd hq, by rw [h4, hface hr hd hq]⟩
      have hge : ∀ r, IsRank p r → 0 ≤ (R r).ws d := by
        intro r hr
        obtain ⟨-, -, -, h3, -⟩ := hR r hr
        exact (h3 d hd).2 (Or.inl rfl)
      refine allMax_eq (fun r h0 h1 => hle r ⟨h0, h1⟩) ?_
      rcases (hRSw d hd).1 with h4 | ⟨Q, hQ, h4⟩
      · refine ⟨0, le_refl _, hcount, le_antisymm (hle 0 ⟨le_refl _, hcount⟩) ?_⟩
        rw [Set.mem_singleton_iff] at h4
        rw [h4]; exact hge 0 ⟨le_refl _, hcount⟩
      · have hQ' := (isFace_get (by omega)).1 hQ
        -- the cell next to the face
        have hcell : ∀ e < 3, 0 ≤ (Q.set d (max (Q.get d) g) - ghostsOf m g).get e ∧ (Q.set d (max (Q.get d) g) - ghostsOf m g).get e < grid.dims.get e := by
          intro e he
          have h1 := hQ' e he; have h2 := hvD he
          rw [hGD] at h1 h2
          rw [get_sub, get_set (by omega) he]
          split
          · next e1 =>
            subst e1
            rw [if_pos rfl] at h1
            rw [hGe e hd] at h1 h2 ⊢
            rcases max_cases (Q.get e) (g : Int) with ⟨e2, e3⟩ | ⟨e2, e3⟩ <;> rw [e2] <;> omega
          · next e1 => rw [if_neg e1] at h1; omega
        obtain ⟨r', hr', hown⟩ := owner h hm hcell
        have hq' : IsFace (totalOf m g) (ghostsOf m g) 0 0 d (Q - (part r').grid.globalPosition) := by
          rw [isFace_get (by omega)]
          intro e he
          have h1 := hown e he; have h2 := hvs he; have h3 := hQ' e he; have h4 := hgp hr' he
          rw [get_sub, get_set (by omega) he] at h1
          rw [hGD] at h3
          rw [get_sub]
          by_cases e1 : e = d
          · subst e1
            rw [if_pos rfl] at h1 h3 ⊢
            rw [hGe e hd] at h1 h2 h3 ⊢
            rcases max_cases (Q.get e) (g : Int) with ⟨e2, e3⟩ | ⟨e2, e3⟩ <;> rw [e2] at h1 <;> omega
          · rw [if_neg e1] at h1 h3 ⊢
            omega
        refine ⟨r', hr'.1, hr'.2, le_antisymm (hle r' hr') ?_⟩
        obtain ⟨-, -, -, h3, -⟩ := hR r' hr'
        apply (h3 d hd).2
        right
        refine ⟨_, hq', ?_⟩
        rw [hface hr' hd hq', h4]
        congr 2
        apply ext_get
        intro e _
        simp only [get_add, get_sub]; ring
    · rw [hRSw' d (by omega), hsS.2]
      refine allMax_eq (fun r h0 h1 => ?_) ⟨0, le_refl _, hcount, ?_⟩
      · obtain ⟨-, -, -, -, h3⟩ := hR r ⟨h0, h1⟩
        rw [h3 d (by omega), (hs r ⟨h0, h1⟩).2]
      · obtain ⟨-, -, -, -, h3⟩ := hR 0 ⟨le_refl _, hcount⟩
        rw [h3 d (by omega), (hs 0 ⟨le_refl _, hcount⟩).2]

end Verif.ParallelRun
