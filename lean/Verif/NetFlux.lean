import Verif.Sums
import Mathlib.Order.Bounds.Basic
import Mathlib.Tactic.Abel

/-!
Model of the semi-discrete right hand side: reconstruction loops (ReconstructionCPU.cpp, NoReconstruction.cpp, WENOCPU.cpp), numerical
flux (NumericalFluxCPU.cpp) and the split evaluation of ConservedSystem.cpp.

All variables of a cell are handled together: the state space `V` is an arbitrary additive group (the code loops over the variables or
fetches all of them). `R` is the type of wave speeds.
-/

namespace Verif
namespace NetFlux
variable {V R : Type}

/-- `q + o * directionVector`. -/
def step (d : Nat) (o : Int) : I3 := ⟨if d = 0 then o else 0, if d = 1 then o else 0, if d = 2 then o else 0⟩

/-- Which cells a reconstruction fills. -/
inductive ReconKind where
  /-- every cell: NoReconstruction.cpp:51-62 with `for_each_cell_index` (alsfvm/include/alsfvm/volume/volume_foreach.hpp:44-62) -/
  | whole
  /-- the requested region plus one cell on each side in the direction: ReconstructionCPU.cpp:56-96, ENOCPU.cpp:92-130 -/
  | region
  /-- every cell whose stencil fits, in every row: WENOCPU.cpp:101-129 -/
  | stencilFits
  deriving DecidableEq, Repr

/-- A reconstruction: its kind, its number of ghost cells `k` (`getNumberOfGhostCells`), the offsets (along the direction) of the cells
a value depends on, and the pointwise functions giving the left and right face value of a cell from the values at these offsets.
The divided-difference arrays of ENOCPU are intermediate results and not part of this interface. -/
structure Recon (V : Type) where
  kind : ReconKind
  k : Nat
  offs : List Int
  lf : Nat → List V → V
  rf : Nat → List V → V

/-- A numerical flux: offsets of the cells whose reconstructed left / right values are fetched and the flux function itself together
with the wave speed it returns (alsfvm/include/alsfvm/numflux/numflux_util.hpp:63-142: two-point fluxes use the right value of cell 0 and
the left value of cell 1; four- and six-point fluxes use left values only). -/
structure FluxFn (V R : Type) where
  offsL : List Int
  offsR : List Int
  fn : Nat → List V → List V → V × R

/-- First cell reconstructed (ReconstructionCPU.cpp:71-73, ENOCPU.cpp:92-94, WENOCPU.cpp:101-103, NoReconstruction.cpp:56).
`active` tells in which directions the volume has ghost cells. -/
def Recon.lo (r : Recon V) (active : I3) (d : Nat) (start : I3) : I3 :=
  match r.kind with
  | .whole => 0
  | .region => ⟨active.x * (r.k - (I3.dir d).x) + start.x, active.y * (r.k - (I3.dir d).y) + start.y, active.z * (r.k - (I3.dir d).z) + start.z⟩
  | .stencilFits => step d (r.k - 1)

/-- End of the reconstructed cells (ReconstructionCPU.cpp:75-77, ENOCPU.cpp:96-98, WENOCPU.cpp:105-107). -/
def Recon.hi (r : Recon V) (active : I3) (d : Nat) (n stop : I3) : I3 :=
  match r.kind with
  | .whole => n
  | .region => ⟨n.x - active.x * (r.k - (I3.dir d).x) + stop.x, n.y - active.y * (r.k - (I3.dir d).y) + stop.y,
      n.z - active.z * (r.k - (I3.dir d).z) + stop.z⟩
  | .stencilFits => n - step d (r.k - 1)

/-- `performReconstruction` (ReconstructionCPU.cpp:37-97, NoReconstruction.cpp:42-64, WENOCPU.cpp:71-196). -/
def Recon.perform (r : Recon V) (active : I3) (d : Nat) (n start stop : I3) (u left right : Arr I3 V) : Res (Arr I3 V × Arr I3 V) :=
  (box (r.lo active d start) (r.hi active d n stop)).foldlM (fun s q => do
    let vals ← r.offs.mapM fun o => u.rd (q + step d o)
    let l ← s.1.wr q (r.lf d vals)
    let rr ← s.2.wr q (r.rf d vals)
    pure (l, rr)) (left, right)

/-- First loop of `computeNetFlux` (NumericalFluxCPU.cpp:64-98): minus the flux of every face, and the largest wave speed. -/
def fluxLoop [Neg V] [Zero R] [Max R] (fl : FluxFn V R) (d : Nat) (n G start stop : I3) (left right temp : Arr I3 V) : Res (Arr I3 V × R) :=
  (box (G - I3.dir d + start) (n - G + stop)).foldlM (fun s q => do
    let ls ← fl.offsL.mapM fun o => left.rd (q + step d o)
    let rs ← fl.offsR.mapM fun o => right.rd (q + step d o)
    let fw := fl.fn d ls rs
    let t ← s.1.wr q (-fw.1)
    pure (t, max s.2 fw.2)) (temp, 0)

/-- Second loop of `computeNetFlux` (NumericalFluxCPU.cpp:100-117). -/
def diffLoop [Add V] [Neg V] (d : Nat) (n G start stop : I3) (temp out : Arr I3 V) : Res (Arr I3 V) :=
  (box (G - I3.dir d + start) (n - G + stop - I3.dir d)).foldlM (fun o q => do
    let x ← (do
      let r ← temp.rd (q + I3.dir d)
      let m ← temp.rd q
      let cur ← o.rd (q + I3.dir d)
      pure (cur + (r + -m)))
    o.wr (q + I3.dir d) x) out

/-- `makeZero` (NumericalFluxCPU.cpp:121-146); default constructed states are zero. -/
def makeZero [Zero V] (n G start stop : I3) (out : Arr I3 V) : Res (Arr I3 V) :=
  (box (G + start) (n - G + stop)).foldlM (fun o q => do let x ← (pure 0 : Res V); o.wr q x) out

/-- Buffers of a `NumericalFluxCPU` object (`left`, `right`, `temporaryVolume`), the output volume and the wave speeds per direction. -/
structure State (V R : Type) where
  left : Arr I3 V
  right : Arr I3 V
  temp : Arr I3 V
  out : Arr I3 V
  ws : Nat → R

/-- One direction of `computeFlux` (NumericalFluxCPU.cpp:196-200): reconstruction followed by `computeNetFlux`. -/
def directionStep [Add V] [Neg V] [Zero R] [Max R] (r : Recon V) (fl : FluxFn V R) (n G active start stop : I3) (u : Arr I3 V) (s : State V R)
    (d : Nat) : Res (State V R) := do
  let lr ← r.perform active d n start stop u s.left s.right
  let tw ← fluxLoop fl d n G start stop lr.1 lr.2 s.temp
  let o ← diffLoop d n G start stop tw.1 s.out
  pure { left := lr.1, right := lr.2, temp := tw.1, out := o, ws := Function.update s.ws d tw.2 }

/-- `computeFlux` (NumericalFluxCPU.cpp:170-221). Re-creation of the work volumes on a size change is left out: their contents never
matter (the theorems hold for arbitrary initial contents). -/
def computeFlux [Add V] [Neg V] [Zero V] [Zero R] [Max R] (dims : Nat) (r : Recon V) (fl : FluxFn V R) (n G active start stop : I3) (u : Arr I3 V)
    (s : State V R) : Res (State V R) := do
  let o ← makeZero n G start stop s.out
  (List.range dims).foldlM (directionStep r fl n G active start stop u) { s with out := o }

/-- Side slabs of one direction (ConservedSystem.cpp:68-95). The wave speeds of a slab start at zero and are merged by maximum into
`waveSpeedSides`, kept here in the second component. -/
def sideSlabs [Add V] [Neg V] [Zero V] [Zero R] [Max R] (dims : Nat) (r : Recon V) (fl : FluxFn V R) (n G active : I3) (u : Arr I3 V)
    (s : State V R × (Nat → R)) (d : Nat) : Res (State V R × (Nat → R)) := do
  let endBottom := I3.set 0 d (-n.get d + 3 * G.get d)
  let s1 ← computeFlux dims r fl n G active 0 endBottom u { s.1 with ws := fun _ => 0 }
  let sides1 := fun k => max (s.2 k) (s1.ws k)
  let startTop := I3.set 0 d (n.get d - 3 * G.get d)
  let s2 ← computeFlux dims r fl n G active startTop 0 u { s1 with ws := fun _ => 0 }
  pure (s2, fun k => max (sides1 k) (s2.ws k))

/-- `ConservedSystem::operator()` without the diffusion term (ConservedSystem.cpp:31-100): inner region with the input `u0` as it is while
the exchange is running, then (after the join) the side slabs with the input `u1` whose ghost cells are up to date. -/
def conservedSystem [Add V] [Neg V] [Zero V] [Zero R] [Max R] (dims : Nat) (r : Recon V) (fl : FluxFn V R) (n G active : I3) (u0 u1 : Arr I3 V)
    (s : State V R) : Res (State V R) := do
  let s1 ← computeFlux dims r fl n G active G (-G) u0 s
  let s2 ← (List.range dims).foldlM (sideSlabs dims r fl n G active u1) (s1, fun _ => 0)
  pure { s2.1 with ws := fun k => max (s1.ws k) (s2.2 k) }

/-! ### Specification: the update as a pure function of the cell values -/

/-- Reconstructed left value of cell `q` in direction `d`. -/
def Recon.lval (r : Recon V) (u : I3 → V) (d : Nat) (q : I3) : V := r.lf d (r.offs.map fun o => u (q + step d o))
/-- Reconstructed right value of cell `q` in direction `d`. -/
def Recon.rval (r : Recon V) (u : I3 → V) (d : Nat) (q : I3) : V := r.rf d (r.offs.map fun o => u (q + step d o))

/-- Flux and wave speed at the face between `q` and its right neighbour in direction `d`. -/
def face (r : Recon V) (fl : FluxFn V R) (u : I3 → V) (d : Nat) (q : I3) : V × R :=
  fl.fn d (fl.offsL.map fun o => r.lval u d (q + step d o)) (fl.offsR.map fun o => r.rval u d (q + step d o))

/-- Net flux into cell `p`: inflow minus outflow, over all directions. -/
def net [AddCommGroup V] (dims : Nat) (r : Recon V) (fl : FluxFn V R) (u : I3 → V) (p : I3) : V :=
  ((List.range dims).map fun d => (face r fl u d (p - I3.dir d)).1 - (face r fl u d p).1).sum

/-- The faces visited for a region in direction `d`. -/
def IsFace (n G start stop : I3) (d : Nat) (q : I3) : Prop := q ∈ box (G - I3.dir d + start) (n - G + stop)

/-- The cells updated for a region. -/
def InRegion (n G start stop : I3) (p : I3) : Prop := p ∈ box (G + start) (n - G + stop)

instance (n G start stop p : I3) : Decidable (InRegion n G start stop p) := by unfold InRegion; infer_instance

/-! ### Side conditions -/

/-- Ghost widths of a volume with `g` ghost cells in the active directions. -/
structure Layout (n G active : I3) (dims g : Nat) : Prop where
  dims_le : dims ≤ 3
  act : ∀ d < 3, active.get d = if d < dims then 1 else 0
  gst : ∀ d < 3, G.get d = if d < dims then (g : Int) else 0
  size : ∀ d < 3, 1 + 2 * G.get d ≤ n.get d

/-- The reconstruction and the flux fit together and into `g` ghost cells: a value depends on fewer than `k` cells to each side,
`1 ≤ k ≤ g`, and a flux reads within the ghost layers; with a reconstruction that does not fill all cells the flux looks no further than the
`g - k` cells by which the ghost layers exceed those of the reconstruction (none for `k = g`: its two adjacent cells). -/
structure Fits (r : Recon V) (fl : FluxFn V R) (g : Nat) : Prop where
  k_pos : 1 ≤ r.k
  k_le : r.k ≤ g
  offs_abs : ∀ o ∈ r.offs, -(r.k - 1 : Int) ≤ o ∧ o ≤ r.k - 1
  whole_zero : r.kind = .whole → ∀ o ∈ r.offs, o = 0
  fl_offs : ∀ o ∈ fl.offsL ++ fl.offsR, 1 - (g : Int) ≤ o ∧ o ≤ g
  fl_near : r.kind ≠ .whole → ∀ o ∈ fl.offsL ++ fl.offsR, (r.k : Int) - g ≤ o ∧ o ≤ g - r.k + 1

/-- The region lies within the interior. -/
def RegionOK (start stop : I3) : Prop := (0 ≤ start.x ∧ 0 ≤ start.y ∧ 0 ≤ start.z) ∧ (stop.x ≤ 0 ∧ stop.y ≤ 0 ∧ stop.z ≤ 0)

/-! ### Helper lemmas -/

theorem mapM_rd {ι : Type} (a : Arr I3 V) (l : List ι) (f : ι → I3) (h : ∀ o ∈ l, a.inb (f o) = true) :
    (l.mapM fun o => a.rd (f o)) = .ok (l.map fun o => a.val (f o)) := by
  induction l with
  | nil => rfl
  | cons o l ih =>
    simp only [List.mapM_cons, Arr.rd_ok (h o (by simp)), Res.ok_bind, ih fun o ho => h o (by simp [ho])]
    rfl

theorem perform_ok (r : Recon V) (active : I3) (d : Nat) (n start stop : I3) (u left right : Arr I3 V)
    (hl : left.inb = inSize n) (hr : right.inb = inSize n)
    (hbox : ∀ q ∈ box (r.lo active d start) (r.hi active d n stop), inSize n q = true)
    (hread : ∀ q ∈ box (r.lo active d start) (r.hi active d n stop), ∀ o ∈ r.offs, u.inb (q + step d o) = true) :
    ∃ l' r', r.perform active d n start stop u left right = .ok (l', r') ∧ l'.inb = inSize n ∧ r'.inb = inSize n ∧
      ∀ q ∈ box (r.lo active d start) (r.hi active d n stop), l'.val q = r.lval u.val d q ∧ r'.val q = r.rval u.val d q := by
  have key := foldlM_inv (fun (s : Arr I3 V × Arr I3 V) q => do
    let vals ← r.offs.mapM fun o => u.rd (q + step d o)
    let l ← s.1.wr q (r.lf d vals)
    let rr ← s.2.wr q (r.rf d vals)
    pure (l, rr)) (box (r.lo active d start) (r.hi active d n stop)) (left, right)
    (fun pre s => s.1.inb = inSize n ∧ s.2.inb = inSize n ∧ ∀ q ∈ pre, s.1.val q = r.lval u.val d q ∧ s.2.val q = r.rval u.val d q)
    ⟨hl, hr, by simp⟩ ?_
  · obtain ⟨⟨l', r'⟩, h1, h2, h3, h4⟩ := key
    exact ⟨l', r', h1, h2, h3, h4⟩
  · rintro pre q post ⟨l, rr⟩ heq ⟨h1, h2, h3⟩
    have hq : q ∈ box (r.lo active d start) (r.hi active d n stop) := by simp only [heq, List.mem_append, List.mem_cons, true_or, or_true]
    have hin := hbox q hq
    refine ⟨({ l with val := Function.update l.val q (r.lval u.val d q) }, { rr with val := Function.update rr.val q (r.rval u.val d q) }), ?_, h1, h2, ?_⟩
    · simp only [mapM_rd u r.offs _ (hread q hq), Res.ok_bind]
      rw [Arr.wr_ok (by rw [h1]; exact hin)]
      simp only [Res.ok_bind]
      rw [Arr.wr_ok (by rw [h2]; exact hin)]
      rfl
    · intro p hp
      by_cases hpq : p = q
      · subst hpq; simp
      · rcases List.mem_append.1 hp with hp | hp
        · simp only [Function.update_of_ne hpq]; exact h3 p hp
        · exact absurd (by simpa using hp) hpq

theorem fluxLoop_ok [Neg V] [Zero R] [LinearOrder R] (fl : FluxFn V R) (d : Nat) (n G start stop : I3) (left right temp : Arr I3 V)
    (F : I3 → V × R) (ht : temp.inb = inSize n)
    (hbox : ∀ q, IsFace n G start stop d q → inSize n q = true)
    (hl : ∀ q, IsFace n G start stop d q → ∀ o ∈ fl.offsL, left.inb (q + step d o) = true)
    (hr : ∀ q, IsFace n G start stop d q → ∀ o ∈ fl.offsR, right.inb (q + step d o) = true)
    (hF : ∀ q, IsFace n G start stop d q →
      fl.fn d (fl.offsL.map fun o => left.val (q + step d o)) (fl.offsR.map fun o => right.val (q + step d o)) = F q) :
    ∃ t' w, fluxLoop fl d n G start stop left right temp = .ok (t', w) ∧ t'.inb = inSize n ∧
      (∀ q, IsFace n G start stop d q → t'.val q = -(F q).1) ∧
      IsGreatest ({0} ∪ {w | ∃ q, IsFace n G start stop d q ∧ w = (F q).2}) w := by
  have key := foldlM_inv (fun (s : Arr I3 V × R) q => do
    let ls ← fl.offsL.mapM fun o => left.rd (q + step d o)
    let rs ← fl.offsR.mapM fun o => right.rd (q + step d o)
    let fw := fl.fn d ls rs
    let t ← s.1.wr q (-fw.1)
    pure (t, max s.2 fw.2)) (box (G - I3.dir d + start) (n - G + stop)) (temp, 0)
    (fun pre s => s.1.inb = inSize n ∧ (∀ q ∈ pre, s.1.val q = -(F q).1) ∧
      IsGreatest ({0} ∪ {w | ∃ q, q ∈ pre ∧ w = (F q).2}) s.2)
    ⟨ht, by simp, by simp [IsGreatest, upperBounds]⟩ ?_
  · obtain ⟨⟨t', w⟩, h1, h2, h3, h4⟩ := key
    exact ⟨t', w, h1, h2, h3, h4⟩
  · rintro pre q post ⟨t, w⟩ heq ⟨h1, h3, h4⟩
    have hq : IsFace n G start stop d q := by
      unfold IsFace; simp only [heq, List.mem_append, List.mem_cons, true_or, or_true]
    have hin := hbox q hq
    refine ⟨({ t with val := Function.update t.val q (-(F q).1) }, max w (F q).2), ?_, h1, ?_, ?_⟩
    · simp only [mapM_rd left fl.offsL _ (hl q hq), mapM_rd right fl.offsR _ (hr q hq), Res.ok_bind, hF q hq]
      rw [Arr.wr_ok (by rw [h1]; exact hin)]
      rfl
    · intro p hp
      by_cases hpq : p = q
      · subst hpq; simp
      · rcases List.mem_append.1 hp with hp | hp
        · simp only [Function.update_of_ne hpq]; exact h3 p hp
        · exact absurd (by simpa using hp) hpq
    · obtain ⟨h5, h6⟩ := h4
      simp only at h5 h6
      constructor
      · rcases max_choice w (F q).2 with h | h
        · rw [h]
          rcases h5 with h5 | ⟨p, hp, h5⟩
          · exact Or.inl h5
          · exact Or.inr ⟨p, by simp [hp], h5⟩
        · rw [h]
          exact Or.inr ⟨q, by simp, rfl⟩
      · rintro x (hx | ⟨p, hp, hx⟩)
        · exact le_max_of_le_left (h6 (Or.inl hx))
        · rcases List.mem_append.1 hp with hp | hp
          · exact le_max_of_le_left (h6 (Or.inr ⟨p, hp, hx⟩))
          · have : p = q := by simpa using hp
            subst this; rw [hx]; exact le_max_right _ _

theorem add_right_cancel_I3 {a b c : I3} (h : a + c = b + c) : a = b := by
  have hx := congrArg I3.x h
  have hy := congrArg I3.y h
  have hz := congrArg I3.z h
  simp only [I3.add_x, I3.add_y, I3.add_z] at hx hy hz
  ext <;> omega

theorem sub_add_I3 (p e : I3) : p - e + e = p := by ext <;> simp

theorem diffLoop_ok [AddCommGroup V] (d : Nat) (n G start stop : I3) (temp out : Arr I3 V) (F : I3 → V)
    (ht : temp.inb = inSize n) (ho : out.inb = inSize n)
    (hbox : ∀ q, IsFace n G start stop d q → inSize n q = true)
    (hT : ∀ q, IsFace n G start stop d q → temp.val q = -F q) :
    ∃ o', diffLoop d n G start stop temp out = .ok o' ∧ o'.inb = inSize n ∧
      ∀ p, o'.val p = if InRegion n G start stop p then out.val p + (F (p - I3.dir d) - F p) else out.val p := by
  have hface : ∀ q ∈ box (G - I3.dir d + start) (n - G + stop - I3.dir d),
      IsFace n G start stop d q ∧ IsFace n G start stop d (q + I3.dir d) := by
    intro q hq
    simp only [IsFace, mem_box, I3.dir, I3.add_x, I3.add_y, I3.add_z, I3.sub_x, I3.sub_y, I3.sub_z] at hq ⊢
    split_ifs at hq ⊢ <;> omega
  have hreg : ∀ p, InRegion n G start stop p ↔ (p - I3.dir d) ∈ box (G - I3.dir d + start) (n - G + stop - I3.dir d) := by
    intro p
    simp only [InRegion, mem_box, I3.add_x, I3.add_y, I3.add_z, I3.sub_x, I3.sub_y, I3.sub_z]
    omega
  have key := Arr.foldlM_wr (box (G - I3.dir d + start) (n - G + stop - I3.dir d)) (fun q => q + I3.dir d)
    (fun o q => do
      let r ← temp.rd (q + I3.dir d)
      let m ← temp.rd q
      let cur ← o.rd (q + I3.dir d)
      pure (cur + (r + -m))) (fun q => out.val (q + I3.dir d) + (F q - F (q + I3.dir d))) out ?_ ?_ ?_
  · obtain ⟨o', h1, h2, h3, h4⟩ := key
    refine ⟨o', h1, by rw [h2, ho], ?_⟩
    intro p
    split_ifs with hp
    · have := h3 _ ((hreg p).1 hp)
      rw [sub_add_I3] at this
      exact this
    · refine h4 p fun q hq hcon => hp ((hreg p).2 ?_)
      rw [← hcon]
      have : q + I3.dir d - I3.dir d = q := by ext <;> simp
      rwa [this]
  · intro q hq
    rw [ho]; exact hbox _ (hface q hq).2
  · refine (nodup_box _ _).imp ?_
    intro a b hab hcon
    exact hab (add_right_cancel_I3 hcon)
  · intro b q hq hb hbv _
    have h1 := hbox _ (hface q hq).1
    have h2 := hbox _ (hface q hq).2
    rw [Arr.rd_ok (by rw [ht]; exact h2), Arr.rd_ok (by rw [ht]; exact h1), Arr.rd_ok (by rw [hb, ho]; exact h2)]
    simp only [Res.ok_bind, Res.pure_eq, hbv, hT _ (hface q hq).1, hT _ (hface q hq).2]
    congr 1
    abel

theorem makeZero_ok [Zero V] (n G start stop : I3) (out : Arr I3 V) (ho : out.inb = inSize n)
    (hbox : ∀ q, InRegion n G start stop q → inSize n q = true) :
    ∃ o', makeZero n G start stop out = .ok o' ∧ o'.inb = inSize n ∧
      ∀ p, o'.val p = if InRegion n G start stop p then 0 else out.val p := by
  have key := Arr.foldlM_wr (box (G + start) (n - G + stop)) (fun q => q) (fun _ _ => (pure 0 : Res V)) (fun _ => 0) out ?_ ?_ ?_
  · obtain ⟨o', h1, h2, h3, h4⟩ := key
    refine ⟨o', h1, by rw [h2, ho], fun p => ?_⟩
    split_ifs with hp
    · exact h3 p hp
    · exact h4 p fun q hq hcon => hp (hcon ▸ hq)
  · intro q hq; rw [ho]; exact hbox q hq
  · exact (nodup_box _ _).imp (by intro a b h; exact h)
  · intro b i _ _ _ _; rfl

/-- Everything the loops need, in coordinates. -/
theorem geometry {r : Recon V} {fl : FluxFn V R} {n G active start stop : I3} {dims g d : Nat} (hL : Layout n G active dims g)
    (hf : Fits r fl g) (hs : RegionOK start stop) (hd : d < dims) :
    (∀ q ∈ box (r.lo active d start) (r.hi active d n stop), inSize n q = true) ∧
    (∀ q ∈ box (r.lo active d start) (r.hi active d n stop), ∀ o ∈ r.offs, inSize n (q + step d o) = true) ∧
    (∀ q, IsFace n G start stop d q → inSize n q = true) ∧
    (∀ q, IsFace n G start stop d q → ∀ o ∈ fl.offsL ++ fl.offsR,
      q + step d o ∈ box (r.lo active d start) (r.hi active d n stop)) ∧
    (∀ q, InRegion n G start stop q → inSize n q = true) := by
  obtain ⟨hdl, hact, hgst, hsize⟩ := hL
  obtain ⟨hk1, hk2, hoffs, hwz, hfo, hfn⟩ := hf
  obtain ⟨hs1, hs2⟩ := hs
  have ha0 := hact 0 (by omega); have ha1 := hact 1 (by omega); have ha2 := hact 2 (by omega)
  have hg0 := hgst 0 (by omega); have hg1 := hgst 1 (by omega); have hg2 := hgst 2 (by omega)
  have hn0 := hsize 0 (by omega); have hn1 := hsize 1 (by omega); have hn2 := hsize 2 (by omega)
  simp only [I3.get, if_true, if_false, one_ne_zero, OfNat.ofNat_ne_zero, OfNat.ofNat_ne_one] at ha0 ha1 ha2 hg0 hg1 hg2 hn0 hn1 hn2
  have hg0' : G.x = g := by rw [hg0, if_pos (by omega)]
  have ha0' : active.x = 1 := by rw [ha0, if_pos (by omega)]
  have hd3 : d = 0 ∨ d = 1 ∨ d = 2 := by omega
  have hy : (active.y = 0 ∧ G.y = 0 ∧ d ≠ 1) ∨ (active.y = 1 ∧ G.y = g) := by
    by_cases h : 1 < dims
    · right; rw [ha1, hg1, if_pos h, if_pos h]; exact ⟨rfl, rfl⟩
    · left; rw [ha1, hg1, if_neg h, if_neg h]; exact ⟨rfl, rfl, by omega⟩
  have hz : (active.z = 0 ∧ G.z = 0 ∧ d ≠ 2) ∨ (active.z = 1 ∧ G.z = g) := by
    by_cases h : 2 < dims
    · right; rw [ha2, hg2, if_pos h, if_pos h]; exact ⟨rfl, rfl⟩
    · left; rw [ha2, hg2, if_neg h, if_neg h]; exact ⟨rfl, rfl, by omega⟩
  have hk2' : (r.k : Int) ≤ g := by omega
  refine ⟨?_, ?_, ?_, ?_, ?_⟩
  · intro q hq
    simp only [mem_box, inSize_iff] at hq ⊢
    unfold Recon.lo Recon.hi at hq
    cases hkind : r.kind <;> simp only [hkind, I3.dir, step, I3.zero_x, I3.zero_y, I3.zero_z, I3.sub_x, I3.sub_y, I3.sub_z] at hq
    · omega
    · rcases hy with ⟨e1, e2, e3⟩ | ⟨e1, e2⟩ <;> rcases hz with ⟨f1, f2, f3⟩ | ⟨f1, f2⟩ <;>
        simp only [e1, f1, ha0'] at hq <;> rcases hd3 with rfl | rfl | rfl <;> simp at hq <;> omega
    · rcases hd3 with rfl | rfl | rfl <;> simp at hq <;> omega
  · intro q hq o ho
    have ho' := hoffs o ho
    have hwz' : r.kind = .whole → o = 0 := fun h => hwz h o ho
    simp only [mem_box, inSize_iff, I3.add_x, I3.add_y, I3.add_z, step] at hq ⊢
    unfold Recon.lo Recon.hi at hq
    cases hkind : r.kind <;> simp only [hkind, I3.dir, step, I3.zero_x, I3.zero_y, I3.zero_z, I3.sub_x, I3.sub_y, I3.sub_z] at hq
    · have := hwz' hkind; split_ifs <;> omega
    · rcases hy with ⟨e1, e2, e3⟩ | ⟨e1, e2⟩ <;> rcases hz with ⟨f1, f2, f3⟩ | ⟨f1, f2⟩ <;>
        simp only [e1, f1, ha0'] at hq <;> rcases hd3 with rfl | rfl | rfl <;> simp at hq ⊢ <;> omega
    · rcases hd3 with rfl | rfl | rfl <;> simp at hq ⊢ <;> omega
  · intro q hq
    simp only [IsFace, mem_box, inSize_iff, I3.add_x, I3.add_y, I3.add_z, I3.sub_x, I3.sub_y, I3.sub_z, I3.dir] at hq ⊢
    rcases hd3 with rfl | rfl | rfl <;> simp at hq ⊢ <;> omega
  · intro q hq o ho
    have ho' := hfo o ho
    have hnear : r.kind ≠ .whole → (r.k : Int) - g ≤ o ∧ o ≤ g - r.k + 1 := fun h => hfn h o ho
    simp only [IsFace, mem_box, I3.add_x, I3.add_y, I3.add_z, I3.sub_x, I3.sub_y, I3.sub_z, I3.dir, step] at hq ⊢
    unfold Recon.lo Recon.hi
    cases hkind : r.kind <;> simp only [I3.dir, step, I3.zero_x, I3.zero_y, I3.zero_z, I3.sub_x, I3.sub_y, I3.sub_z]
    · rcases hd3 with rfl | rfl | rfl <;> simp at hq ⊢ <;> omega
    · have hn := hnear (by rw [hkind]; decide)
      rcases hy with ⟨e1, e2, e3⟩ | ⟨e1, e2⟩ <;> rcases hz with ⟨f1, f2, f3⟩ | ⟨f1, f2⟩ <;>
        simp only [e1, f1, ha0'] <;> rcases hd3 with rfl | rfl | rfl <;> simp at hq ⊢ <;> omega
    · have hn := hnear (by rw [hkind]; decide)
      rcases hd3 with rfl | rfl | rfl <;> simp at hq ⊢ <;> omega
  · intro q hq
    simp only [InRegion, mem_box, inSize_iff, I3.add_x, I3.add_y, I3.add_z, I3.sub_x, I3.sub_y, I3.sub_z] at hq ⊢
    omega

/-- The buffers of a state have the size of the volume. -/
def Sized (n : I3) (s : State V R) : Prop :=
  s.left.inb = inSize n ∧ s.right.inb = inSize n ∧ s.temp.inb = inSize n ∧ s.out.inb = inSize n

theorem directionStep_ok [AddCommGroup V] [Zero R] [LinearOrder R] {r : Recon V} {fl : FluxFn V R} {n G active start stop : I3} {dims g d : Nat}
    (hL : Layout n G active dims g) (hf : Fits r fl g) (hs : RegionOK start stop) (hd : d < dims) (u : Arr I3 V)
    (hu : ∀ q ∈ box (r.lo active d start) (r.hi active d n stop), ∀ o ∈ r.offs, u.inb (q + step d o) = true) (s : State V R) (hsz : Sized n s) :
    ∃ s', directionStep r fl n G active start stop u s d = .ok s' ∧ Sized n s' ∧
      (∀ p, s'.out.val p = if InRegion n G start stop p then
        s.out.val p + ((face r fl u.val d (p - I3.dir d)).1 - (face r fl u.val d p).1) else s.out.val p) ∧
      IsGreatest ({0} ∪ {w | ∃ q, IsFace n G start stop d q ∧ w = (face r fl u.val d q).2}) (s'.ws d) ∧
      ∀ e, e ≠ d → s'.ws e = s.ws e := by
  obtain ⟨hsl, hsr, hst, hso⟩ := hsz
  obtain ⟨g1, g2, g3, g4, g5⟩ := geometry (start := start) (stop := stop) hL hf hs hd
  obtain ⟨l', r', h1, h2, h3, h4⟩ := perform_ok r active d n start stop u s.left s.right hsl hsr g1 hu
  obtain ⟨t', w, h5, h6, h7, h8⟩ := fluxLoop_ok fl d n G start stop l' r' s.temp (face r fl u.val d) hst g3
    (fun q hq o ho => by rw [h2]; exact g1 _ (g4 q hq o (by simp [ho])))
    (fun q hq o ho => by rw [h3]; exact g1 _ (g4 q hq o (by simp [ho])))
    (fun q hq => by
      unfold face
      congr 1
      · exact List.map_congr_left fun o ho => (h4 _ (g4 q hq o (by simp [ho]))).1
      · exact List.map_congr_left fun o ho => (h4 _ (g4 q hq o (by simp [ho]))).2)
  obtain ⟨o', h9, h10, h11⟩ := diffLoop_ok d n G start stop t' s.out (fun q => (face r fl u.val d q).1) h6 hso g3 h7
  refine ⟨{ left := l', right := r', temp := t', out := o', ws := Function.update s.ws d w }, ?_, ⟨h2, h3, h6, h10⟩, h11, ?_, ?_⟩
  · simp only [directionStep, h1, Res.ok_bind, h5, h9, Res.pure_eq]
  · simpa using h8
  · intro e he; simp [Function.update_of_ne he]

/-- The reads of a whole flux evaluation on a region are inside the input array. -/
def ReadsOK (dims : Nat) (r : Recon V) (n active start stop : I3) (u : Arr I3 V) : Prop :=
  ∀ d < dims, ∀ q ∈ box (r.lo active d start) (r.hi active d n stop), ∀ o ∈ r.offs, u.inb (q + step d o) = true

theorem readsOK_of_full {r : Recon V} {fl : FluxFn V R} {n G active start stop : I3} {dims g : Nat} (hL : Layout n G active dims g)
    (hf : Fits r fl g) (hs : RegionOK start stop) (u : Arr I3 V) (hu : u.inb = inSize n) : ReadsOK dims r n active start stop u := by
  intro d hd q hq o ho
  rw [hu]
  exact (geometry (start := start) (stop := stop) hL hf hs hd).2.1 q hq o ho

/-- `computeFlux` sets exactly the cells of the region to their net flux and reports the largest wave speed of the region's faces. -/
theorem computeFlux_ok [AddCommGroup V] [Zero R] [LinearOrder R] {r : Recon V} {fl : FluxFn V R} {n G active start stop : I3} {dims g : Nat}
    (hL : Layout n G active dims g) (hf : Fits r fl g) (hs : RegionOK start stop) (u : Arr I3 V) (hu : ReadsOK dims r n active start stop u)
    (hpos : 0 < dims) (s : State V R) (hsz : Sized n s) :
    ∃ s', computeFlux dims r fl n G active start stop u s = .ok s' ∧ Sized n s' ∧
      (∀ p, s'.out.val p = if InRegion n G start stop p then net dims r fl u.val p else s.out.val p) ∧
      (∀ d < dims, IsGreatest ({0} ∪ {w | ∃ q, IsFace n G start stop d q ∧ w = (face r fl u.val d q).2}) (s'.ws d)) ∧
      ∀ d, dims ≤ d → s'.ws d = s.ws d := by
  obtain ⟨o', h1, h2, h3⟩ := makeZero_ok n G start stop s.out hsz.2.2.2 (geometry (start := start) (stop := stop) hL hf hs hpos).2.2.2.2
  have dirs : ∀ m ≤ dims, ∃ s', (List.range m).foldlM (directionStep r fl n G active start stop u) { s with out := o' } = .ok s' ∧ Sized n s' ∧
      (∀ p, s'.out.val p = if InRegion n G start stop p then net m r fl u.val p else s.out.val p) ∧
      (∀ d < m, IsGreatest ({0} ∪ {w | ∃ q, IsFace n G start stop d q ∧ w = (face r fl u.val d q).2}) (s'.ws d)) ∧
      ∀ d, m ≤ d → s'.ws d = s.ws d := by
    intro m
    induction m with
    | zero =>
      intro _
      exact ⟨_, rfl, ⟨hsz.1, hsz.2.1, hsz.2.2.1, h2⟩, fun p => by simpa [net] using h3 p, by simp, by simp⟩
    | succ m ih =>
      intro hm
      obtain ⟨s1, a1, a2, a3, a4, a5⟩ := ih (by omega)
      obtain ⟨s2, b1, b2, b3, b4, b5⟩ := directionStep_ok (d := m) hL hf hs (by omega) u (hu m (by omega)) s1 a2
      refine ⟨s2, by simp [List.range_succ, List.foldlM_append, a1, b1], b2, ?_, ?_, ?_⟩
      · intro p
        rw [b3, a3]
        split_ifs with hp
        · simp [net, List.range_succ]
        · rfl
      · intro d hd
        by_cases hdm : d = m
        · subst hdm; exact b4
        · rw [b5 d hdm]; exact a4 d (by omega)
      · intro d hd
        rw [b5 d (by omega)]; exact a5 d (by omega)
  obtain ⟨s', c1, c2, c3, c4, c5⟩ := dirs dims le_rfl
  exact ⟨s', by simp only [computeFlux, h1, Res.ok_bind, c1], c2, c3, c4, c5⟩

end NetFlux
end Verif
