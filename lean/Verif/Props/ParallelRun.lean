import Verif.ParallelRun

/-! C49: a run on several processes computes what one process computes. -/

namespace Verif.Props.Parallel
open Verif Verif.Iterate Verif.Cartesian Verif.Halo Verif.NetFlux Verif.ParallelRun

/-- C49: `U` is the state on the whole grid of `grid.dims` cells. One process extends it to the ghost cells and evaluates the right hand side. Several processes each
have their part of `U`, apply the boundary conditions of their part, exchange halos in any order of reads and writes, and evaluate the right hand side of their part
while the exchange is running (`u0`: the volume as the first phase sees it, nothing is known about its ghost cells). Then no process fails, every cell of every part gets
the value the one process computes for it, and every process uses the time step of the one process. `R` and `RS` are the buffers of the fluxes (out, wave speeds).
Missing for the full statement: parts thinner than the ghost layer (false, C48), and grids cut so that the parts have fewer dimensions than the grid (false, see below). -/
theorem C49_parallel_equals_serial_partial {K : Type} [Field K] [LinearOrder K] (p : I3) (grid : Grid K) (bc : BC) (part : Int → Cartesian.Part K)
    (h : Decomposed p grid (fun _ => sideOf bc) part) (m : I3) (hm : m = localSize grid.dims p) (dims : Nat) (hdims : dims = activeDimension grid.dims)
    (hdimsm : dims = dimensionsOf m) (nvars g : Nat) (hg : ∀ d < dims, (g : Int) ≤ m.get d) (recon : Recon (Fin nvars → K)) (fl : FluxFn (Fin nvars → K) K)
    (hf : Fits recon fl g) (active : I3) (hact : ∀ d < 3, active.get d = if d < dims then 1 else 0) (U : I3 → Fin nvars → K)
    -- the single process
    (uS : Arr I3 (Fin nvars → K)) (huS : uS.inb = inSize (totalOf grid.dims g)) (hUS : ∀ c, Inner grid.dims g c → uS.val c = U (c - ghostsOf grid.dims g))
    (sS : State (Fin nvars → K) K) (hsS : Sized (totalOf grid.dims g) sS ∧ sS.ws = fun _ => 0)
    -- the ranks
    (u : Int → Arr I3 (Fin nvars → K)) (hu : ∀ r, IsRank p r → (u r).inb = inSize (totalOf m g))
    (hU : ∀ r, IsRank p r → ∀ c, Inner m g c → (u r).val c = U (c - ghostsOf m g + (part r).grid.globalPosition))
    (s : Int → State (Fin nvars → K) K) (hs : ∀ r, IsRank p r → Sized (totalOf m g) (s r) ∧ (s r).ws = fun _ => 0) :
    ∃ (bS : Arr I3 (Fin nvars → K)) (RS : State (Fin nvars → K) K), Boundary.apply bc (totalOf grid.dims g) g dims (fun _ => false) [uS] = .ok [bS] ∧
      conservedSystem dims recon fl (totalOf grid.dims g) (ghostsOf grid.dims g) active bS bS sS = .ok RS ∧
      ∃ b : Int → Arr I3 (Fin nvars → K), (∀ r, IsRank p r → Boundary.apply bc (totalOf m g) g dims (exchanged (part r)) [u r] = .ok [b r]) ∧
        ∀ (mem : Loc → K) (tr : Nat → K) (evs : List Event), (∀ r, IsRank p r → ∀ c, inSize (totalOf m g) c = true → ∀ v : Fin nvars, mem (r, v.1, place (totalOf m g) c) = (b r).val c v) →
          Complete (allTransfers p part nvars g) evs →
          ∀ u0 : Int → Arr I3 (Fin nvars → K), (∀ r, IsRank p r → (u0 r).inb = inSize (totalOf m g)) →
            (∀ r, IsRank p r → ∀ c, Inner m g c → (u0 r).val c = (b r).val c) →
            ∃ R : Int → State (Fin nvars → K) K, (∀ r, IsRank p r → conservedSystem dims recon fl (totalOf m g) (ghostsOf m g) active (u0 r)
                (volumeOf (totalOf m g) nvars (after (allTransfers p part nvars g) mem tr evs) r) (s r) = .ok (R r)) ∧
              (∀ r, IsRank p r → ∀ c, Inner m g c → (R r).out.val c = RS.out.val (c + (part r).grid.globalPosition)) ∧
              ∀ adj cfl info, ∀ r, IsRank p r → parallelTimestep (p.x * p.y * p.z) adj (fun r d => (R r).ws d) (lengthOf (part r).grid) cfl info =
                Integrator.computeTimestep [] adj RS.ws (lengthOf grid) cfl info := by
  obtain ⟨bS, RS, h1, -, h2, b, h3, h4⟩ := parallel_ok p grid bc part h m hm dims hdims hdimsm nvars g hg recon fl hf active hact U uS huS hUS sS hsS u hu hU s hs
  refine ⟨bS, RS, h1, h2, b, fun r hr => (h3 r hr).1, fun mem tr evs hmem hc u0 hu0 hu0b => ?_⟩
  obtain ⟨R, k1, k2, -, -, hws⟩ := h4 mem tr evs hmem hc u0 hu0 hu0b
  refine ⟨R, k1, k2, fun adj cfl info r hr => ?_⟩
  have hlen : lengthOf (part r).grid = lengthOf grid := by unfold lengthOf; rw [(h.facts hr).2.2.1]
  rw [parallelTimestep, hws, hlen]

/-- First order reconstruction and an upwind flux with wave speed one for several variables. -/
def exRecon (nvars : Nat) : Recon (Fin nvars → Rat) := ⟨.region, 1, [0], fun _ l => l.headD 0, fun _ l => l.headD 0⟩
/-- The upwind flux: the value of the cell on the left, with wave speed one. -/
def exUpwind (nvars : Nat) : FluxFn (Fin nvars → Rat) Rat := ⟨[1], [0], fun _ _ r => (r.headD 0, 1)⟩
theorem exFits (nvars : Nat) : Fits (exRecon nvars) (exUpwind nvars) 1 := by
  constructor <;> simp [exRecon, exUpwind]
/-- Zero buffers. -/
def exZero (n : I3) (nvars : Nat) : State (Fin nvars → Rat) Rat := ⟨field n 0, field n 0, field n 0, field n 0, fun _ => 0⟩

/-- A state with two variables. -/
def exU (c : I3) (v : Fin 2) : Rat := c.x + 10 * c.y + v.1

/-- The grid of 6 by 4 cells on 2 by 2 processes, two variables. -/
example : ∃ part, ∃ RS : State (Fin 2 → Rat) Rat, ∃ R : Int → State (Fin 2 → Rat) Rat,
    Decomposed ⟨2, 2, 1⟩ exGrid (fun _ => sideOf .periodic) part ∧
    ∀ r, IsRank ⟨2, 2, 1⟩ r → (R r).out.val ⟨1, 1, 0⟩ = RS.out.val (⟨1, 1, 0⟩ + (part r).grid.globalPosition) := by
  obtain ⟨part, h⟩ := exDecomposed
  have key := C49_parallel_equals_serial_partial ⟨2, 2, 1⟩ exGrid .periodic part h ⟨3, 2, 1⟩ (by decide) 2 (by decide) (by decide) 2 1 (by decide) (exRecon 2)
    (exUpwind 2) (exFits 2) ⟨1, 1, 0⟩ (by decide) exU (field _ fun c => exU (c - ghostsOf exGrid.dims 1)) rfl
    (fun _ _ => rfl) (exZero _ 2) ⟨⟨rfl, rfl, rfl, rfl⟩, rfl⟩
    (fun r => field _ fun c => exU (c - ghostsOf ⟨3, 2, 1⟩ 1 + (part r).grid.globalPosition)) (fun _ _ => rfl)
    (fun _ _ _ _ => rfl) (fun _ => exZero _ 2) (fun _ _ => ⟨⟨rfl, rfl, rfl, rfl⟩, rfl⟩)
  obtain ⟨bS, RS, -, -, b, -, hall⟩ := key
  obtain ⟨R, -, h2, -⟩ := hall (fun l => if hv : l.2.1 < 2 then (b l.1).val ⟨l.2.2 % 5, l.2.2 / 5, 0⟩ ⟨l.2.1, hv⟩ else 0) (fun _ => 0) _ (by
      intro r _ c hc v
      rw [inSize_iff] at hc
      simp [totalOf, ghostsOf] at hc
      have e : (⟨place (totalOf ⟨3, 2, 1⟩ 1) c % 5, place (totalOf ⟨3, 2, 1⟩ 1) c / 5, 0⟩ : I3) = c := by
        ext <;> simp [place, totalOf, ghostsOf] <;> omega
      simp only [v.2, dif_pos, e]) (complete_reads_writes _)
    (fun r => field _ (b r).val) (fun _ _ => rfl) (fun _ _ _ _ => rfl)
  exact ⟨part, RS, R, h, fun r hr => h2 r hr _ (by unfold Inner; decide)⟩

/-- A periodic grid of two by two cells. -/
def flatGrid : Grid Rat := Grid.make ⟨0, 0, 0⟩ ⟨1, 1, 0⟩ ⟨2, 2, 1⟩ 0 ⟨2, 2, 1⟩

/-- A state that varies only in y. -/
def flatU (c : I3) (_ : Fin 1) : Rat := c.y

/-- C49 is false when a grid is cut into parts with fewer dimensions: two by two cells on one by two processes. Each part is one cell thick in y, so its process takes it as
one-dimensional, exchanges nothing and computes no flux in y; with a state that varies only in y it computes zero where the single process computes one. -/
theorem C49_fails_for_flat_parts :
    Decomposed ⟨1, 2, 1⟩ flatGrid (fun _ => sideOf .periodic) (partOf ⟨1, 2, 1⟩ flatGrid) ∧ localSize flatGrid.dims ⟨1, 2, 1⟩ = ⟨2, 1, 1⟩ ∧
    activeDimension flatGrid.dims = 2 ∧ dimensionsOf ⟨2, 1, 1⟩ = 1 ∧ allTransfers ⟨1, 2, 1⟩ (partOf ⟨1, 2, 1⟩ flatGrid) 1 1 = [] ∧
    ∃ (U : I3 → Fin 1 → Rat) (bS b : Arr I3 (Fin 1 → Rat)) (RS R : State (Fin 1 → Rat) Rat),
      Boundary.apply .periodic ⟨4, 4, 1⟩ 1 2 (fun _ => false) [field ⟨4, 4, 1⟩ fun c => U (c - ⟨1, 1, 0⟩)] = .ok [bS] ∧
      conservedSystem 2 (exRecon 1) (exUpwind 1) ⟨4, 4, 1⟩ ⟨1, 1, 0⟩ ⟨1, 1, 0⟩ bS bS (exZero ⟨4, 4, 1⟩ 1) = .ok RS ∧
      (partOf ⟨1, 2, 1⟩ flatGrid 0).grid.globalPosition = ⟨0, 0, 0⟩ ∧
      Boundary.apply .periodic ⟨4, 1, 1⟩ 1 1 (exchanged (partOf ⟨1, 2, 1⟩ flatGrid 0)) [field ⟨4, 1, 1⟩ fun c => U (c - ⟨1, 0, 0⟩)] = .ok [b] ∧
      conservedSystem 1 (exRecon 1) (exUpwind 1) ⟨4, 1, 1⟩ ⟨1, 0, 0⟩ ⟨1, 0, 0⟩ b b (exZero ⟨4, 1, 1⟩ 1) = .ok R ∧
      RS.out.val ⟨1, 1, 0⟩ 0 = 1 ∧ R.out.val ⟨1, 0, 0⟩ 0 = 0 := by
  have hL2 : Layout ⟨4, 4, 1⟩ ⟨1, 1, 0⟩ ⟨1, 1, 0⟩ 2 1 := ⟨by decide, by decide, by decide, by decide⟩
  have hL1 : Layout ⟨4, 1, 1⟩ ⟨1, 0, 0⟩ ⟨1, 0, 0⟩ 1 1 := ⟨by decide, by decide, by decide, by decide⟩
  obtain ⟨l, hbS, hF⟩ := Boundary.apply_ok (bc := .periodic) (n := ⟨4, 4, 1⟩) (N := ⟨2, 2, 1⟩) (g := 1) (dims := 2) (mpi := fun _ => false) (by decide) (by decide)
    (by decide) (by decide) (by decide) [field ⟨4, 4, 1⟩ fun c => flatU (c - ⟨1, 1, 0⟩)] (by simp [field])
  cases hF with
  | @cons _ bS _ l h1 h2 =>
  cases h2
  obtain ⟨l, hb, hF⟩ := Boundary.apply_ok (bc := .periodic) (n := ⟨4, 1, 1⟩) (N := ⟨2, 1, 1⟩) (g := 1) (dims := 1) (mpi := exchanged (partOf ⟨1, 2, 1⟩ flatGrid 0))
    (by decide) (by decide) (by decide) (by decide) (by decide) [field ⟨4, 1, 1⟩ fun c => flatU (c - ⟨1, 0, 0⟩)] (by simp [field])
  cases hF with
  | @cons _ b _ l h3 h4 =>
  cases h4
  obtain ⟨RS, e1, -, e2, -⟩ := conservedSystem_ok hL2 (exFits 1) (by decide) (by decide) bS bS (readsOK_of_full hL2 (exFits 1) (inner_regionOK hL2) bS h1.1) h1.1
    (fun _ _ => rfl) (exZero ⟨4, 4, 1⟩ 1) ⟨rfl, rfl, rfl, rfl⟩
  obtain ⟨R, e3, -, e4, -⟩ := conservedSystem_ok hL1 (exFits 1) (by decide) (by decide) b b (readsOK_of_full hL1 (exFits 1) (inner_regionOK hL1) b h3.1) h3.1
    (fun _ _ => rfl) (exZero ⟨4, 1, 1⟩ 1) ⟨rfl, rfl, rfl, rfl⟩
  refine ⟨partOf_decomposed _ _ (by unfold ProcessGrid; decide) (by decide) (by decide), by decide, by decide, by decide, by decide +kernel, flatU, bS, b, RS, R, hbS, e1,
    by decide +kernel, hb, e3, ?_, ?_⟩
  · rw [e2, if_pos (by decide)]
    have hn : net 2 (exRecon 1) (exUpwind 1) bS.val ⟨1, 1, 0⟩ = (bS.val ⟨0, 1, 0⟩ - bS.val ⟨1, 1, 0⟩) + ((bS.val ⟨1, 0, 0⟩ - bS.val ⟨1, 1, 0⟩) + 0) := rfl
    rw [hn, h1.2 ⟨0, 1, 0⟩ (by decide), h1.2 ⟨1, 0, 0⟩ (by decide), h1.2 ⟨1, 1, 0⟩ (by decide)]
    decide +kernel
  · rw [e4, if_pos (by decide)]
    have hn : net 1 (exRecon 1) (exUpwind 1) b.val ⟨1, 0, 0⟩ = (b.val ⟨0, 0, 0⟩ - b.val ⟨1, 0, 0⟩) + 0 := rfl
    rw [hn, h3.2 ⟨0, 0, 0⟩ (by decide), h3.2 ⟨1, 0, 0⟩ (by decide)]
    decide +kernel

end Verif.Props.Parallel
