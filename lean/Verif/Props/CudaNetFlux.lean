import Verif.CudaNetFluxSplit
import Verif.Props.CudaRecon
import Verif.Props.NetFlux

/-!
C72: fluxes on the graphics card.

Vocabulary: `Dev` is the memory of the card with its volumes; `computes` and `evaluates` run `computeFlux` and the whole right hand side on
the card and claim a result only if every interleaving of the threads and every order of the reductions gives it; `computeFlux` and
`conservedSystem` are the same on the processor (see `Props/NetFlux.lean`); `face r fl u d q` is the flux and wave speed at the face between
cell `q` and its right neighbour, `net` the net flux into a cell. `rec.Computes r …` says that the reconstruction on the card stores the
values of `r` where the fluxes read them (proved for the reconstructions of the code, see below and C73).
-/

namespace Verif.Props.CudaNetFlux
open Verif Gpu NetFlux Verif.CudaNetFlux Verif.CudaRecon
variable {V R : Type}

/-- C72, one region: after `computeFlux` on the card every cell of the region has its net flux, all other cells of the output are unchanged,
and the wave speed reported for each direction is the largest of the wave speeds of the faces of the region, whatever the interleaving. -/
theorem C72_net_flux [AddCommGroup V] [LinearOrder R] (rec : CardRecon V R) (r : Recon V) (fl : FluxFn V R) (n G active start stop : I3)
    (dims g : Nat) (hL : Layout n G active dims g) (hf : NetFlux.Fits r fl g) (hs : RegionOK start stop) (hne : NonEmpty n G start stop)
    (hpos : 0 < dims) (hrec : ∀ d < dims, rec.Computes r fl n G d start stop) (s : Dev V R) (ws : Nat → R) (hsz : DevSized n s) :
    ∃ s' ws', computes dims rec fl n G start stop s ws s' ws' ∧
      (∀ p, InRegion n G start stop p → (s'.vol .output).val p = net dims r fl (s.vol .input).val p) ∧
      (∀ p, ¬ InRegion n G start stop p → (s'.vol .output).val p = (s.vol .output).val p) ∧
      ∀ d < dims, IsGreatest {w | ∃ q, IsFace n G start stop d q ∧ w = (face r fl (s.vol .input).val d q).2} (ws' d) := by
  obtain ⟨s', ws', h1, _, _, h4, h5, _⟩ := computes_ok hL hf hs hne hpos hrec s ws hsz
  exact ⟨s', ws', h1, fun p hp => by rw [h4, if_pos hp], fun p hp => by rw [h4, if_neg hp], h5⟩

/-- C72, one region, against the processor: on the same input, output and wave speeds, `computeFlux` on the card ends with the output and
the wave speeds of `computeFlux` on the processor, and with nothing else, for all flux functions with nonnegative wave speeds. -/
theorem C72_same_as_processor [AddCommGroup V] [Zero R] [LinearOrder R] (rec : CardRecon V R) (r : Recon V) (fl : FluxFn V R)
    (n G active start stop : I3) (dims g : Nat) (hL : Layout n G active dims g) (hf : NetFlux.Fits r fl g) (hs : RegionOK start stop)
    (hne : NonEmpty n G start stop) (hpos : 0 < dims) (hrec : ∀ d < dims, rec.Computes r fl n G d start stop)
    (hnn : ∀ d ls rs, 0 ≤ (fl.fn d ls rs).2) (s : Dev V R) (hsz : DevSized n s) (c : State V R) (hc : Sized n c)
    (hout : s.vol .output = c.out) :
    ∃ c', computeFlux dims r fl n G active start stop (s.vol .input) c = .ok c' ∧
      (∃ s', computes dims rec fl n G start stop s c.ws s' c'.ws ∧ s'.vol .output = c'.out) ∧
      ∀ s' ws', computes dims rec fl n G start stop s c.ws s' ws' → s'.vol .output = c'.out ∧ ws' = c'.ws := by
  obtain ⟨s', c', h1, h2, _, _, h5, _⟩ := computes_eq hL hf hs hne hpos hrec hnn s hsz c hc hout
  refine ⟨c', h2, ⟨s', h1, h5⟩, fun s'' ws'' h => ?_⟩
  obtain ⟨rfl, rfl⟩ := computes_unique h h1
  exact ⟨h5, rfl⟩

/-- C72, the whole right hand side (inner region while the halo is exchanged, then the slabs at the sides): the card ends with the output and
the wave speeds of the processor, and with nothing else, for all flux functions with nonnegative wave speeds. The inner region has to
contain at least one cell, since the code launches no valid kernel for an empty region. -/
theorem C72_right_hand_side [AddCommGroup V] [Zero R] [LinearOrder R] (rec : CardRecon V R) (r : Recon V) (fl : FluxFn V R)
    (n G active : I3) (dims g : Nat) (hL : Layout n G active dims g) (hf : NetFlux.Fits r fl g) (hN : ∀ d < dims, 4 * G.get d < n.get d)
    (hpos : 0 < dims) (hrec : ∀ d < dims, ∀ start stop, RegionOK start stop → NonEmpty n G start stop → rec.Computes r fl n G d start stop)
    (hnn : ∀ d ls rs, 0 ≤ (fl.fn d ls rs).2) (u1 : Arr I3 V) (hu1 : u1.inb = inSize n) (s : Dev V R) (hsz : DevSized n s)
    (c : State V R) (hc : Sized n c) (hout : s.vol .output = c.out) :
    ∃ c', conservedSystem dims r fl n G active (s.vol .input) u1 c = .ok c' ∧
      (∃ s', evaluates dims rec fl n G u1 s c.ws s' c'.ws ∧ s'.vol .output = c'.out) ∧
      ∀ s' ws', evaluates dims rec fl n G u1 s c.ws s' ws' → s'.vol .output = c'.out ∧ ws' = c'.ws := by
  obtain ⟨s', c', h1, h2, h3⟩ := evaluates_eq hL hf hN hpos hrec hnn u1 hu1 s hsz c hc hout
  refine ⟨c', h2, ⟨s', h1, h3⟩, fun s'' ws'' h => ?_⟩
  obtain ⟨rfl, rfl⟩ := evaluates_unique h h1
  exact ⟨h3, rfl⟩

/-- C72 with the reconstructions of the code: without reconstruction, with any fixed stencil reconstruction and with ENO of order 2 to 4 the
values the fluxes read on the card are those of the processor, so the theorems above apply to them. -/
theorem C72_reconstructions_apply {m : Nat} (n G active start stop : I3) (dims g d : Nat) (hL : Layout n G active dims g) (hs : RegionOK start stop)
    (hd : d < dims) :
    (∀ (V R : Type) [Zero V] (fl : FluxFn V R), NetFlux.Fits (noRecon : Recon V) fl g →
      (none n : CardRecon V R).Computes noRecon fl n G d start stop) ∧
    (∀ (V R : Type) (r : Recon V) (fl : FluxFn V R), r.kind = .region → (∀ e < 3, 0 < e → (e < dims ↔ 1 < n.get e - 2 * G.get e)) → NetFlux.Fits r fl g →
      (stencil r n G : CardRecon V R).Computes r fl n G d start stop) ∧
    (∀ (k : Nat) (ind : Fin m) (fl : FluxFn (Eno.Vec m) ℝ), 2 ≤ k → k ≤ 4 → (∀ e < 3, dims ≤ e → n.get e = 1) →
      NetFlux.Fits (Weno.enoRecon k ind) fl g → (eno k ind n).Computes (Weno.enoRecon k ind) fl n G d start stop) :=
  ⟨fun _ _ _ _ hf => none_computes hL hf hs hd, fun _ _ _ _ hkind hdim hf => stencil_computes hL (dimension_eq (by omega) hL.dims_le hdim) hf hkind hs hd,
   fun _ ind _ hk hk4 hflat hf => eno_computes ind hk hk4 hL hflat hf hs hd⟩

/-! Examples: a two dimensional grid with 5x6 interior cells and two ghost cells. -/

/-- example memory -/
def exCard : Dev Int Int where
  vol := fun v => match v with
    | .input => field ⟨9, 10, 1⟩ fun p => p.x * p.y
    | _ => field ⟨9, 10, 1⟩ fun _ => 7
  speeds := ⟨fun i => decide (i < 90), fun _ => 0⟩
  scratch := fun _ => field ⟨9, 10, 1⟩ fun _ => 0

/-- example buffers on the processor -/
def exHost : State Int Int :=
  ⟨field ⟨9, 10, 1⟩ fun _ => 0, field ⟨9, 10, 1⟩ fun _ => 0, field ⟨9, 10, 1⟩ fun _ => 0, field ⟨9, 10, 1⟩ fun _ => 7, fun _ => 0⟩

theorem exCard_sized : DevSized ⟨9, 10, 1⟩ exCard :=
  ⟨fun v => by cases v <;> rfl, fun i hi => by simpa [exCard] using hi, fun _ => rfl⟩

/-- The whole right hand side with a three-point reconstruction. -/
example := C72_right_hand_side (stencil exRecon ⟨9, 10, 1⟩ ⟨2, 2, 0⟩) exRecon exFlux ⟨9, 10, 1⟩ ⟨2, 2, 0⟩ ⟨1, 1, 0⟩ 2 2 CudaRecon.exLayout2 exFits
  (by decide) (by decide) (fun d hd start stop hs _ => stencil_computes CudaRecon.exLayout2 (by decide) exFits rfl hs hd)
  (fun _ _ _ => show (0 : Int) ≤ 1 by decide) (field ⟨9, 10, 1⟩ fun p => p.x * p.y) rfl exCard exCard_sized exHost ⟨rfl, rfl, rfl, rfl⟩ rfl

/-- One slab. -/
example := C72_net_flux (stencil exRecon ⟨9, 10, 1⟩ ⟨2, 2, 0⟩) exRecon exFlux ⟨9, 10, 1⟩ ⟨2, 2, 0⟩ ⟨1, 1, 0⟩ ⟨0, 1, 0⟩ ⟨-1, 0, 0⟩ 2 2
  CudaRecon.exLayout2 exFits (by unfold RegionOK; decide) (by unfold NonEmpty; decide) (by decide)
  (fun d hd => stencil_computes CudaRecon.exLayout2 (by decide) exFits rfl (by unfold RegionOK; decide) hd) exCard (fun _ => 0) exCard_sized

example := C72_same_as_processor (stencil exRecon ⟨9, 10, 1⟩ ⟨2, 2, 0⟩) exRecon exFlux ⟨9, 10, 1⟩ ⟨2, 2, 0⟩ ⟨1, 1, 0⟩ ⟨0, 1, 0⟩ ⟨-1, 0, 0⟩ 2 2
  CudaRecon.exLayout2 exFits (by unfold RegionOK; decide) (by unfold NonEmpty; decide) (by decide)
  (fun d hd => stencil_computes CudaRecon.exLayout2 (by decide) exFits rfl (by unfold RegionOK; decide) hd) (fun _ _ _ => show (0 : Int) ≤ 1 by decide)
  exCard exCard_sized exHost ⟨rfl, rfl, rfl, rfl⟩ rfl

/-- A flux function with negative wave speeds: the card reports -1, the processor 0; so the hypothesis on the wave speeds is needed. -/
theorem C72_negative_wave_speeds_differ :
    ∃ (s' : Dev Int Int) (ws : Nat → Int) (c' : State Int Int),
      computes 2 (none ⟨9, 10, 1⟩) ⟨[1], [0], fun _ _ _ => (0, -1)⟩ ⟨9, 10, 1⟩ ⟨2, 2, 0⟩ 0 0 exCard exHost.ws s' ws ∧ ws 0 = -1 ∧
      computeFlux 2 noRecon ⟨[1], [0], fun _ _ _ => (0, -1)⟩ ⟨9, 10, 1⟩ ⟨2, 2, 0⟩ ⟨1, 1, 0⟩ 0 0 (exCard.vol .input) exHost = .ok c' ∧ c'.ws 0 = 0 := by
  have hf : NetFlux.Fits (noRecon : Recon Int) (⟨[1], [0], fun _ _ _ => (0, -1)⟩ : FluxFn Int Int) 2 :=
    ⟨by decide, by decide, by decide, by decide, by decide, by decide⟩
  have hs : RegionOK 0 0 := by unfold RegionOK; decide
  obtain ⟨s', ws, h1, _, _, h4⟩ := C72_net_flux (none ⟨9, 10, 1⟩) noRecon _ ⟨9, 10, 1⟩ ⟨2, 2, 0⟩ ⟨1, 1, 0⟩ 0 0 2 2 CudaRecon.exLayout2 hf hs
    (by unfold NonEmpty; decide) (by decide) (fun d hd => none_computes CudaRecon.exLayout2 hf hs hd) exCard exHost.ws exCard_sized
  obtain ⟨c', p1, _, _, p4, _⟩ := computeFlux_ok CudaRecon.exLayout2 hf hs (exCard.vol .input)
    (readsOK_of_full CudaRecon.exLayout2 hf hs _ (exCard_sized.vol _)) (by decide) exHost ⟨rfl, rfl, rfl, rfl⟩
  refine ⟨s', ws, c', h1, ?_, p1, ?_⟩
  · obtain ⟨q, _, hq⟩ := (h4 0 (by decide)).1
    rw [hq]; rfl
  · rcases (p4 0 (by decide)).1 with h | ⟨q, _, hq⟩
    · exact h
    · have := (p4 0 (by decide)).2 (Or.inl rfl)
      rw [hq] at this
      exact absurd (show (0 : Int) ≤ -1 from this) (by decide)

end Verif.Props.CudaNetFlux
