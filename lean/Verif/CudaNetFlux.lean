import Verif.GpuGrid
import Verif.NetFlux

/-!
Model of the numerical flux on the graphics card (NumericalFluxCUDA.cu) and of the evaluation of the right hand side with it
(ConservedSystem.cpp). As in `NetFlux.lean` all variables of a cell are handled together (`V`), cells are addressed by their
coordinates, and `R` is the type of wave speeds.
-/

namespace Verif.CudaNetFlux
open Verif.Gpu Verif.NetFlux
variable {V R : Type}

/-- The volumes on the card: the input of `computeFlux`, the members `left`, `right`, `fluxOutput` of `NumericalFluxCUDA`
(alsfvm/src/numflux/NumericalFluxCUDA.cu:243-259) and the output of `computeFlux`. -/
inductive Name where
  | input | left | right | fluxOutput | output
  deriving DecidableEq, Repr

/-- Places in the memory of the card: a cell of a volume, an element of `waveSpeedBuffer` (NumericalFluxCUDA.cu:312) or an element of
one of the scalar arrays `dividedDifferences` of a reconstruction (alsfvm/src/reconstruction/ENOCUDA.cu:121-125). -/
inductive Loc where
  | cell (v : Name) (c : I3)
  | speed (i : Nat)
  | scratch (level : Nat) (c : I3)
  deriving DecidableEq

/-- What a place contains: the conserved variables of a cell or one `real`. -/
inductive Val (V R : Type) where
  | state (v : V)
  | real (r : R)

/-- The memory of the card, as volumes, wave speed buffer and scalar arrays. -/
structure Dev (V R : Type) where
  vol : Name → Arr I3 V
  speeds : Arr Nat R
  scratch : Nat → Arr I3 R

/-- The same memory as one array of places. -/
def Dev.mem (s : Dev V R) : Arr Loc (Val V R) where
  inb := fun l => match l with | .cell v c => (s.vol v).inb c | .speed i => s.speeds.inb i | .scratch j c => (s.scratch j).inb c
  val := fun l => match l with
    | .cell v c => .state ((s.vol v).val c)
    | .speed i => .real (s.speeds.val i)
    | .scratch j c => .real ((s.scratch j).val c)

/-- Read a cell of a volume (the second case cannot happen: cells contain states). -/
def readCell (v : Name) (c : I3) (k : V → Prog Loc (Val V R)) : Prog Loc (Val V R) :=
  .read (.cell v c) fun x => match x with | .state w => k w | .real _ => .done

/-- Read several cells of a volume. -/
def readCells (v : Name) : List I3 → (List V → Prog Loc (Val V R)) → Prog Loc (Val V R)
  | [], k => k []
  | c :: cs, k => readCell v c fun w => readCells v cs fun ws => k (w :: ws)

/-- `makeZeroDevice` and its launch (NumericalFluxCUDA.cu:131-191). `G` is `numberOfGhostCells`, times `dimension > 1` and
`dimension > 2` in the second and third direction. -/
def zeroLaunch [Zero V] (n G start stop : I3) : Launch Loc (Val V R) :=
  gridLaunch (n - G - G - start + stop) (G + start) 128 fun _ q => .write (.cell .output q) (.state 0) .done

/-- `computeFluxDevice` (NumericalFluxCUDA.cu:77-128) and its launch (:346-366). In the two directions other than `d` the offset is `G`;
`(dimension > 1) * (numberOfGhostCells - yDir)` is `G.y - yDir` since the direction `y` is only used when `dimension > 1`. -/
def fluxLaunch [Neg V] (fl : FluxFn V R) (d : Nat) (n G start stop : I3) : Launch Loc (Val V R) :=
  gridLaunch (n - G - G + I3.dir d - start + stop) (G - I3.dir d + start) 128 fun i q =>
    readCells .left (fl.offsL.map fun o => q + step d o) fun ls =>
    readCells .right (fl.offsR.map fun o => q + step d o) fun rs =>
    let fw := fl.fn d ls rs
    .write (.speed i) (.real fw.2) (.write (.cell .fluxOutput q) (.state (-fw.1)) .done)

/-- `totalSize` of the launch of `computeFluxDevice` (NumericalFluxCUDA.cu:356): the number of faces. -/
def faceCount (d : Nat) (n G start stop : I3) : Nat :=
  let count := n - G - G + I3.dir d - start + stop
  count.x.toNat * count.y.toNat * count.z.toNat

/-- `combineFluxDevice` (NumericalFluxCUDA.cu:40-72) and its launch (:201-219). `addToViewAt` reads the output and writes it back. -/
def combineLaunch [Add V] [Neg V] (d : Nat) (n G start stop : I3) : Launch Loc (Val V R) :=
  gridLaunch (n - G - G - start + stop) (G - I3.dir d + start) 128 fun _ q =>
    readCell .fluxOutput q fun m =>
    readCell .fluxOutput (q + I3.dir d) fun r =>
    readCell .output (q + I3.dir d) fun cur =>
    .write (.cell .output (q + I3.dir d)) (.state (cur + (-m + r))) .done

/-- The first `count` elements of the wave speed buffer, the argument of `cub::DeviceReduce::Max` (NumericalFluxCUDA.cu:374-378). -/
def Dev.speedList (s : Dev V R) (count : Nat) : List R := (List.range count).map s.speeds.val

/-- The launches of `performReconstruction(conservedVariables, d, 0, left, right, start, end)`. -/
abbrev CardRecon (V R : Type) := Nat → I3 → I3 → List (Launch Loc (Val V R))

/-- `callComputeFlux` (NumericalFluxCUDA.cu:264-303): for every direction the reconstruction, the fluxes, the maximum of the wave
speeds (which may be combined in any order) and the differences. The result is only claimed if it does not depend on the interleaving.
The initial content of `waveSpeed` plays no role, the maximum overwrites it (:384). -/
def directions [Add V] [Neg V] [Max R] (rec : CardRecon V R) (fl : FluxFn V R) (n G start stop : I3) :
    List Nat → Dev V R → (Nat → R) → Dev V R → (Nat → R) → Prop
  | [], s, ws, s', ws' => s' = s ∧ ws' = ws
  | d :: ds, s, ws, s', ws' => ∃ (s1 s2 s3 : Dev V R) (w : R), yieldsAll (rec d start stop) s.mem s1.mem ∧
      yields (fluxLaunch fl d n G start stop) s1.mem s2.mem ∧
      ((∀ i < faceCount d n G start stop, s2.speeds.inb i = true) ∧ reducesTo max (s2.speedList (faceCount d n G start stop)) w) ∧
      yields (combineLaunch d n G start stop) s2.mem s3.mem ∧
      directions rec fl n G start stop ds s3 (Function.update ws d w) s' ws'

/-- `NumericalFluxCUDA::computeFlux` (NumericalFluxCUDA.cu:390-414): starting with memory `s` and wave speeds `ws` every execution
ends with memory `s'` and wave speeds `ws'`. -/
def computes [Add V] [Neg V] [Zero V] [Max R] (dims : Nat) (rec : CardRecon V R) (fl : FluxFn V R) (n G start stop : I3)
    (s : Dev V R) (ws : Nat → R) (s' : Dev V R) (ws' : Nat → R) : Prop :=
  ∃ s1 : Dev V R, yields (zeroLaunch n G start stop) s.mem s1.mem ∧ directions rec fl n G start stop (List.range dims) s1 ws s' ws'

/-- Side slabs with the flux on the card (alsfvm/src/simulator/ConservedSystem.cpp:68-95), see `NetFlux.sideSlabs`. -/
def sides [Add V] [Neg V] [Zero V] [Zero R] [Max R] (dims : Nat) (rec : CardRecon V R) (fl : FluxFn V R) (n G : I3) :
    List Nat → Dev V R → (Nat → R) → Dev V R → (Nat → R) → Prop
  | [], s, wsides, s', wsides' => s' = s ∧ wsides' = wsides
  | d :: ds, s, wsides, s', wsides' => ∃ (s1 s2 : Dev V R) (w1 w2 : Nat → R),
      computes dims rec fl n G 0 (I3.set 0 d (-n.get d + 3 * G.get d)) s (fun _ => 0) s1 w1 ∧
      computes dims rec fl n G (I3.set 0 d (n.get d - 3 * G.get d)) 0 s1 (fun _ => 0) s2 w2 ∧
      sides dims rec fl n G ds s2 (fun k => max (max (wsides k) (w1 k)) (w2 k)) s' wsides'

/-- Overwrite the input volume (the exchange of the ghost cells has been completed). -/
def Dev.withInput (s : Dev V R) (u : Arr I3 V) : Dev V R := { s with vol := Function.update s.vol .input u }

/-- `ConservedSystem::operator()` without the diffusion term (ConservedSystem.cpp:31-100) with the flux on the card, see
`NetFlux.conservedSystem`: inner region with the input as it is in `s`, then the side slabs with the input `u1`. -/
def evaluates [Add V] [Neg V] [Zero V] [Zero R] [Max R] (dims : Nat) (rec : CardRecon V R) (fl : FluxFn V R) (n G : I3) (u1 : Arr I3 V)
    (s : Dev V R) (ws : Nat → R) (s' : Dev V R) (ws' : Nat → R) : Prop :=
  ∃ (s1 : Dev V R) (w1 w2 : Nat → R), computes dims rec fl n G G (-G) s ws s1 w1 ∧
    sides dims rec fl n G (List.range dims) (s1.withInput u1) (fun _ => 0) s' w2 ∧ ws' = fun k => max (w1 k) (w2 k)

/-! ### Side conditions -/

/-- All volumes and scalar arrays have the size `n` and the wave speed buffer has room for one wave speed per cell (NumericalFluxCUDA.cu:311-331, 344). -/
structure DevSized (n : I3) (s : Dev V R) : Prop where
  vol : ∀ v, (s.vol v).inb = inSize n
  speeds : ∀ i, i < n.x.toNat * n.y.toNat * n.z.toNat → s.speeds.inb i = true
  scratch : ∀ j, (s.scratch j).inb = inSize n

/-- The region contains at least one cell. -/
def NonEmpty (n G start stop : I3) : Prop :=
  0 < n.x - 2 * G.x - start.x + stop.x ∧ 0 < n.y - 2 * G.y - start.y + stop.y ∧ 0 < n.z - 2 * G.z - start.z + stop.z

/-- The reconstruction on the card stores, in every cell whose left or right value the fluxes of the region read, the same value as the
reconstruction `r`, and leaves the other volumes alone. -/
def CardRecon.Computes (rec : CardRecon V R) (r : Recon V) (fl : FluxFn V R) (n G : I3) (d : Nat) (start stop : I3) : Prop :=
  ∀ s : Dev V R, DevSized n s → ∃ s' : Dev V R, yieldsAll (rec d start stop) s.mem s'.mem ∧ DevSized n s' ∧
    s'.vol .input = s.vol .input ∧ s'.vol .output = s.vol .output ∧
    (∀ q, IsFace n G start stop d q → ∀ o ∈ fl.offsL, (s'.vol .left).val (q + step d o) = r.lval (s.vol .input).val d (q + step d o)) ∧
    (∀ q, IsFace n G start stop d q → ∀ o ∈ fl.offsR, (s'.vol .right).val (q + step d o) = r.rval (s.vol .input).val d (q + step d o))

/-! ### Helper lemmas -/

section Helpers
variable {cells : I3 → Prop} {touch : I3 → Loc → Prop} {s : Dev V R} {F : Loc → Val V R} {c : I3}

theorem readCell_fits {v : Name} {q : I3} {k : V → Prog Loc (Val V R)} (hin : (s.vol v).inb q = true)
    (hex : ∀ c', cells c' → touch c' (.cell v q) → c' = c)
    (hk : CellFits cells touch s.mem F c (fun _ => False) (k ((s.vol v).val q))) :
    CellFits cells touch s.mem F c (fun _ => False) (readCell v q k) :=
  .readOld hin (fun h => h) hex hk

theorem readCells_fits {v : Name} (l : List I3) : ∀ {k : List V → Prog Loc (Val V R)}, (∀ q ∈ l, (s.vol v).inb q = true) →
    (∀ q ∈ l, ∀ c', cells c' → touch c' (.cell v q) → c' = c) →
    CellFits cells touch s.mem F c (fun _ => False) (k (l.map (s.vol v).val)) →
    CellFits cells touch s.mem F c (fun _ => False) (readCells v l k) := by
  induction l with
  | nil => intro k _ _ hk; exact hk
  | cons q l ih =>
    intro k hin hex hk
    refine readCell_fits (hin q (by simp)) (hex q (by simp)) ?_
    refine ih (fun q hq => hin q (by simp [hq])) (fun q hq => hex q (by simp [hq])) ?_
    simpa using hk

end Helpers

theorem count_face (n G start stop : I3) (d : Nat) :
    n - G + stop = (G - I3.dir d + start) + (n - G - G + I3.dir d - start + stop) := by
  rw [I3.ext_iff]; simp only [I3.add_x, I3.add_y, I3.add_z, I3.sub_x, I3.sub_y, I3.sub_z]; omega

theorem count_region (n G start stop : I3) : n - G + stop = (G + start) + (n - G - G - start + stop) := by
  rw [I3.ext_iff]; simp only [I3.add_x, I3.add_y, I3.add_z, I3.sub_x, I3.sub_y, I3.sub_z]; omega

theorem count_combine (n G start stop : I3) (d : Nat) :
    n - G + stop - I3.dir d = (G - I3.dir d + start) + (n - G - G - start + stop) := by
  rw [I3.ext_iff]; simp only [I3.add_x, I3.add_y, I3.add_z, I3.sub_x, I3.sub_y, I3.sub_z]; omega

/-- Replace a volume. -/
def Dev.setVol (s : Dev V R) (v : Name) (a : Arr I3 V) : Dev V R := { s with vol := Function.update s.vol v a }

theorem zeroLaunch_ok [Zero V] (n G start stop : I3) (s : Dev V R) (hbox : ∀ q, InRegion n G start stop q → (s.vol .output).inb q = true) :
    yields (zeroLaunch n G start stop) s.mem (s.setVol .output
      ⟨(s.vol .output).inb, fun p => if InRegion n G start stop p then 0 else (s.vol .output).val p⟩).mem := by
  refine yields_grid (touch := fun c l => l = .cell .output c) (F := fun _ => .state 0) (count_region n G start stop) (by decide) ?_ ?_ ?_ ?_
  · intro c hc
    exact .write (hbox c hc) rfl rfl (.done fun l hl => Or.inr hl)
  · funext l
    cases l with
    | cell v q => by_cases hv : v = .output <;> simp [Dev.mem, Dev.setVol, hv]
    | speed i => rfl
    | scratch j q => rfl
  · rintro c hc l rfl
    simp only [Dev.mem, Dev.setVol, Function.update_self]
    rw [if_pos (show InRegion n G start stop c from hc)]
  · intro l hl
    cases l with
    | cell v q =>
      by_cases hv : v = .output
      · subst hv
        simp only [Dev.mem, Dev.setVol, Function.update_self]
        rw [if_neg]
        intro hq; exact hl q hq rfl
      · simp [Dev.mem, Dev.setVol, Function.update_of_ne hv]
    | speed i => rfl
    | scratch j q => rfl

theorem fluxLaunch_ok [Neg V] (fl : FluxFn V R) (d : Nat) (n G start stop : I3) (s : Dev V R)
    (hout : ∀ q, IsFace n G start stop d q → (s.vol .fluxOutput).inb q = true)
    (hl : ∀ q, IsFace n G start stop d q → ∀ o ∈ fl.offsL, (s.vol .left).inb (q + step d o) = true)
    (hr : ∀ q, IsFace n G start stop d q → ∀ o ∈ fl.offsR, (s.vol .right).inb (q + step d o) = true)
    (hs : ∀ i < faceCount d n G start stop, s.speeds.inb i = true) :
    ∃ s' : Dev V R, yields (fluxLaunch fl d n G start stop) s.mem s'.mem ∧ s'.speeds.inb = s.speeds.inb ∧ s'.scratch = s.scratch ∧
      (∀ v, (s'.vol v).inb = (s.vol v).inb) ∧ (∀ v, v ≠ .fluxOutput → s'.vol v = s.vol v) ∧
      (∀ q, IsFace n G start stop d q →
        let fw := fl.fn d (fl.offsL.map fun o => (s.vol .left).val (q + step d o)) (fl.offsR.map fun o => (s.vol .right).val (q + step d o))
        (s'.vol .fluxOutput).val q = -fw.1 ∧
        s'.speeds.val (threadOf (n - G - G + I3.dir d - start + stop) (G - I3.dir d + start) q) = fw.2) := by
  classical
  set count := n - G - G + I3.dir d - start + stop with hcount
  set offset := G - I3.dir d + start with hoffset
  have hbox : n - G + stop = offset + count := count_face n G start stop d
  let W (q : I3) : V × R :=
    fl.fn d (fl.offsL.map fun o => (s.vol .left).val (q + step d o)) (fl.offsR.map fun o => (s.vol .right).val (q + step d o))
  let back (i : Nat) : I3 := decode count.x.toNat count.y.toNat i + offset
  let s' : Dev V R :=
    { vol := Function.update s.vol .fluxOutput
        ⟨(s.vol .fluxOutput).inb, fun p => if p ∈ box offset (n - G + stop) then -(W p).1 else (s.vol .fluxOutput).val p⟩
      speeds := ⟨s.speeds.inb, fun i =>
        if ∃ q ∈ box offset (n - G + stop), i = threadOf count offset q then (W (back i)).2 else s.speeds.val i⟩
      scratch := s.scratch }
  have hback : ∀ q ∈ box offset (n - G + stop), back (threadOf count offset q) = q := by
    intro q hq; rw [hbox] at hq; exact decode_threadOf hq
  refine ⟨s', ?_, rfl, rfl, ?_, ?_, ?_⟩
  · refine yields_grid (touch := fun c l => l = .cell .fluxOutput c ∨ l = .speed (threadOf count offset c))
      (F := fun l => s'.mem.val l) hbox (by decide) ?_ ?_ ?_ ?_
    · intro c hc
      refine readCells_fits _ ?_ ?_ ?_
      · intro q hq
        obtain ⟨o, ho, rfl⟩ := List.mem_map.1 hq
        exact hl c hc o ho
      · rintro q _ c' _ (h | h) <;> cases h
      refine readCells_fits _ ?_ ?_ ?_
      · intro q hq
        obtain ⟨o, ho, rfl⟩ := List.mem_map.1 hq
        exact hr c hc o ho
      · rintro q _ c' _ (h | h) <;> cases h
      simp only [List.map_map]
      refine .write (hs _ ?_) (Or.inr rfl) ?_ (.write (hout c hc) (Or.inl rfl) ?_ (.done ?_))
      · rw [hbox] at hc; exact threadOf_lt hc
      · simp only [Dev.mem, s']
        rw [if_pos ⟨c, hc, rfl⟩, hback c hc]
        rfl
      · simp only [Dev.mem, s', Function.update_self]
        rw [if_pos hc]
        rfl
      · rintro l (h | h)
        · exact Or.inr h
        · exact Or.inl (Or.inr h)
    · funext l
      cases l with
      | cell v q => by_cases hv : v = .fluxOutput <;> simp [Dev.mem, s', hv]
      | speed i => rfl
      | scratch j q => rfl
    · intro c hc l _; rfl
    · intro l hl'
      cases l with
      | cell v q =>
        by_cases hv : v = .fluxOutput
        · subst hv
          simp only [Dev.mem, s', Function.update_self]
          rw [if_neg]
          intro hq; exact hl' q hq (Or.inl rfl)
        · simp [Dev.mem, s', Function.update_of_ne hv]
      | speed i =>
        simp only [Dev.mem, s']
        rw [if_neg]
        rintro ⟨q, hq, hi⟩
        exact hl' q hq (Or.inr (by rw [hi]))
      | scratch j q => rfl
  · intro v
    by_cases hv : v = .fluxOutput <;> simp [s', hv]
  · intro v hv
    simp [s', Function.update_of_ne hv]
  · intro q hq
    have hq' : q ∈ box offset (n - G + stop) := hq
    refine ⟨?_, ?_⟩
    · simp only [s', Function.update_self]
      rw [if_pos hq']
    · simp only [s']
      rw [if_pos ⟨q, hq', rfl⟩, hback q hq']

theorem combineLaunch_ok [AddCommGroup V] (d : Nat) (n G start stop : I3) (s : Dev V R)
    (hbox : ∀ q, IsFace n G start stop d q → (s.vol .fluxOutput).inb q = true ∧ (s.vol .output).inb q = true) :
    yields (combineLaunch d n G start stop) s.mem (s.setVol .output ⟨(s.vol .output).inb, fun p =>
      if InRegion n G start stop p then (s.vol .output).val p + ((s.vol .fluxOutput).val p - (s.vol .fluxOutput).val (p - I3.dir d))
      else (s.vol .output).val p⟩).mem := by
  have hface : ∀ q ∈ box (G - I3.dir d + start) (n - G + stop - I3.dir d),
      IsFace n G start stop d q ∧ IsFace n G start stop d (q + I3.dir d) := by
    intro q hq
    simp only [IsFace, mem_box, I3.dir, I3.add_x, I3.add_y, I3.add_z, I3.sub_x, I3.sub_y, I3.sub_z] at hq ⊢
    split_ifs at hq ⊢ <;> omega
  have hreg : ∀ q ∈ box (G - I3.dir d + start) (n - G + stop - I3.dir d), InRegion n G start stop (q + I3.dir d) := by
    intro q hq
    simp only [InRegion, mem_box, I3.add_x, I3.add_y, I3.add_z, I3.sub_x, I3.sub_y, I3.sub_z] at hq ⊢
    omega
  have hreg' : ∀ p, InRegion n G start stop p → p - I3.dir d ∈ box (G - I3.dir d + start) (n - G + stop - I3.dir d) := by
    intro p hp
    simp only [InRegion, mem_box, I3.add_x, I3.add_y, I3.add_z, I3.sub_x, I3.sub_y, I3.sub_z] at hp ⊢
    omega
  have hcancel : ∀ q : I3, q + I3.dir d - I3.dir d = q := fun q => by rw [I3.ext_iff]; simp
  set s' := s.setVol .output ⟨(s.vol .output).inb, fun p =>
      if InRegion n G start stop p then (s.vol .output).val p + ((s.vol .fluxOutput).val p - (s.vol .fluxOutput).val (p - I3.dir d))
      else (s.vol .output).val p⟩ with hs'
  refine yields_grid (touch := fun c l => l = .cell .output (c + I3.dir d)) (F := s'.mem.val) (count_combine n G start stop d) (by decide)
    ?_ ?_ ?_ ?_
  · intro c hc
    refine readCell_fits (hbox _ (hface c hc).1).1 (by rintro c' _ h; cases h) ?_
    refine readCell_fits (hbox _ (hface c hc).2).1 (by rintro c' _ h; cases h) ?_
    refine readCell_fits (hbox _ (hface c hc).2).2 ?_ ?_
    · rintro c' _ h
      exact (add_right_cancel_I3 (Loc.cell.inj h).2).symm
    refine .write (hbox _ (hface c hc).2).2 rfl ?_ (.done fun l hl => Or.inr hl)
    simp only [hs', Dev.mem, Dev.setVol, Function.update_self]
    rw [if_pos (hreg c hc), hcancel]
    congr 1; abel
  · funext l
    cases l with
    | cell v q => by_cases hv : v = .output <;> simp [hs', Dev.mem, Dev.setVol, hv]
    | speed i => rfl
    | scratch j q => rfl
  · intro c hc l _; rfl
  · intro l hl
    cases l with
    | cell v q =>
      by_cases hv : v = .output
      · subst hv
        simp only [hs', Dev.mem, Dev.setVol, Function.update_self]
        rw [if_neg]
        intro hq
        refine hl _ (hreg' q hq) ?_
        rw [sub_add_I3]
      · simp [hs', Dev.mem, Dev.setVol, Function.update_of_ne hv]
    | speed i => rfl
    | scratch j q => rfl

/-- Combining a nonempty list with the maximum gives its greatest element, whatever the order. -/
theorem combines_max [LinearOrder R] {l : List R} {v : R} (h : Combines max l v) : v ∈ l ∧ ∀ x ∈ l, x ≤ v := by
  induction h with
  | single a => simp
  | @node l l1 l2 a b _ _ hp ih1 ih2 =>
    refine ⟨?_, ?_⟩
    · rw [← hp.mem_iff, List.mem_append]
      rcases max_choice a b with h | h
      · rw [h]; exact Or.inl ih1.1
      · rw [h]; exact Or.inr ih2.1
    · intro x hx
      rw [← hp.mem_iff, List.mem_append] at hx
      rcases hx with hx | hx
      · exact le_max_of_le_left (ih1.2 x hx)
      · exact le_max_of_le_right (ih2.2 x hx)

theorem reduces_max [LinearOrder R] {l : List R} {v : R} (hv : v ∈ l) (hmax : ∀ x ∈ l, x ≤ v) : reducesTo max l v := by
  have huniq : ∀ w, Combines max l w → w = v := fun w hw =>
    le_antisymm (hmax w (combines_max hw).1) ((combines_max hw).2 v hv)
  cases l with
  | nil => cases hv
  | cons a l =>
    have hc : Combines max (a :: l) (l.foldl max a) := by simpa using Combines.foldl l (Combines.single (op := max) a)
    have := huniq _ hc
    rw [this] at hc
    exact ⟨hc, huniq⟩

theorem mul3_le {a b c a' b' c' : Nat} (h1 : a ≤ a') (h2 : b ≤ b') (h3 : c ≤ c') : a * b * c ≤ a' * b' * c' :=
  Nat.mul_le_mul (Nat.mul_le_mul h1 h2) h3

theorem faceCount_le {r : Recon V} {fl : FluxFn V R} {n G active start stop : I3} {dims g d : Nat} (hL : Layout n G active dims g)
    (hf : Fits r fl g) (hs : RegionOK start stop) (hd : d < dims) :
    faceCount d n G start stop ≤ n.x.toNat * n.y.toNat * n.z.toNat := by
  obtain ⟨hdl, hact, hgst, hsize⟩ := hL
  have hg : 1 ≤ g := le_trans hf.k_pos hf.k_le
  obtain ⟨hs1, hs2⟩ := hs
  have hgd : G.get d = g := by rw [hgst d (by omega), if_pos hd]
  have hg0 := hgst 0 (by omega); have hg1 := hgst 1 (by omega); have hg2 := hgst 2 (by omega)
  simp only [I3.get, if_true, if_false, one_ne_zero, OfNat.ofNat_ne_zero, OfNat.ofNat_ne_one] at hg0 hg1 hg2
  have p0 : 0 ≤ G.x := by rw [hg0]; split_ifs <;> omega
  have p1 : 0 ≤ G.y := by rw [hg1]; split_ifs <;> omega
  have p2 : 0 ≤ G.z := by rw [hg2]; split_ifs <;> omega
  have hd3 : d = 0 ∨ d = 1 ∨ d = 2 := by omega
  unfold faceCount
  simp only [I3.get] at hgd
  refine mul3_le ?_ ?_ ?_ <;> simp only [I3.add_x, I3.add_y, I3.add_z, I3.sub_x, I3.sub_y, I3.sub_z, I3.dir] <;>
    rcases hd3 with rfl | rfl | rfl <;> simp at hgd ⊢ <;> omega

/-- The wave speeds of the faces are exactly the first `faceCount` elements of the buffer. -/
theorem mem_speedList (d : Nat) (n G start stop : I3) (s : Dev V R) (W : I3 → R)
    (h : ∀ q, IsFace n G start stop d q →
      s.speeds.val (threadOf (n - G - G + I3.dir d - start + stop) (G - I3.dir d + start) q) = W q) (x : R) :
    x ∈ s.speedList (faceCount d n G start stop) ↔ ∃ q, IsFace n G start stop d q ∧ x = W q := by
  simp only [Dev.speedList, List.mem_map, List.mem_range, faceCount]
  constructor
  · rintro ⟨i, hi, rfl⟩
    have hm := decode_mem hi
    have hq : IsFace n G start stop d (decode (n - G - G + I3.dir d - start + stop).x.toNat (n - G - G + I3.dir d - start + stop).y.toNat i
        + (G - I3.dir d + start)) := by
      unfold IsFace
      rw [count_face n G start stop d]
      refine decode_mem_box ?_
      simp only [inSize_iff] at hm
      omega
    refine ⟨_, hq, ?_⟩
    rw [← h _ hq, threadOf_decode]
  · rintro ⟨q, hq, rfl⟩
    refine ⟨_, ?_, h q hq⟩
    unfold IsFace at hq
    rw [count_face n G start stop d] at hq
    exact threadOf_lt hq

theorem exists_face {n G start stop : I3} (hne : NonEmpty n G start stop) (d : Nat) : ∃ q, IsFace n G start stop d q := by
  refine ⟨G + start, ?_⟩
  unfold NonEmpty at hne
  simp only [IsFace, mem_box, I3.dir, I3.add_x, I3.add_y, I3.add_z, I3.sub_x, I3.sub_y, I3.sub_z]
  split_ifs <;> omega

theorem exists_greatest [LinearOrder R] {l : List R} (hl : l ≠ []) : ∃ v ∈ l, ∀ x ∈ l, x ≤ v := by
  induction l with
  | nil => exact absurd rfl hl
  | cons a l ih =>
    by_cases h : l = []
    · subst h; exact ⟨a, by simp, by simp⟩
    · obtain ⟨v, h1, h2⟩ := ih h
      rcases le_total a v with hav | hav
      · exact ⟨v, by simp [h1], by simpa using ⟨hav, h2⟩⟩
      · exact ⟨a, by simp, by simpa using fun x hx => (h2 x hx).trans hav⟩

/-- The directions one after the other. -/
theorem directions_ok [AddCommGroup V] [LinearOrder R] {rec : CardRecon V R} {r : Recon V} {fl : FluxFn V R} {n G active start stop : I3}
    {dims g : Nat} (hL : Layout n G active dims g) (hf : Fits r fl g) (hs : RegionOK start stop) (hne : NonEmpty n G start stop)
    (hrec : ∀ d < dims, rec.Computes r fl n G d start stop) (l : List Nat) (hl : ∀ d ∈ l, d < dims) (hnd : l.Nodup) :
    ∀ (s : Dev V R) (ws : Nat → R), DevSized n s → ∃ s' ws', directions rec fl n G start stop l s ws s' ws' ∧ DevSized n s' ∧
      s'.vol .input = s.vol .input ∧
      (∀ p, (s'.vol .output).val p = if InRegion n G start stop p then (s.vol .output).val p + (l.map fun d =>
          (face r fl (s.vol .input).val d (p - I3.dir d)).1 - (face r fl (s.vol .input).val d p).1).sum else (s.vol .output).val p) ∧
      (∀ d ∈ l, IsGreatest {w | ∃ q, IsFace n G start stop d q ∧ w = (face r fl (s.vol .input).val d q).2} (ws' d)) ∧
      ∀ d, d ∉ l → ws' d = ws d := by
  induction l with
  | nil => intro s ws hsz; exact ⟨s, ws, ⟨rfl, rfl⟩, hsz, rfl, fun p => by simp, by simp, by simp⟩
  | cons d l ih =>
    intro s ws hsz
    have hd : d < dims := hl d (by simp)
    obtain ⟨g1, g2, g3, g4, g5⟩ := geometry (start := start) (stop := stop) hL hf hs hd
    obtain ⟨s1, a1, a2, a3, a4, a5, a6⟩ := hrec d hd s hsz
    obtain ⟨s2, b1, b2, b0, b3, b4, b5⟩ := fluxLaunch_ok fl d n G start stop s1 (fun q hq => by rw [a2.vol]; exact g3 q hq)
      (fun q hq o ho => by rw [a2.vol]; exact g1 _ (g4 q hq o (by simp [ho])))
      (fun q hq o ho => by rw [a2.vol]; exact g1 _ (g4 q hq o (by simp [ho])))
      (fun i hi => a2.speeds i (lt_of_lt_of_le hi (faceCount_le hL hf hs hd)))
    have hsz2 : DevSized n s2 := ⟨fun v => by rw [b3, a2.vol], fun i hi => by rw [b2]; exact a2.speeds i hi,
      fun j => by rw [b0]; exact a2.scratch j⟩
    have hface : ∀ q, IsFace n G start stop d q → (s2.vol .fluxOutput).val q = -(face r fl (s.vol .input).val d q).1 ∧
        s2.speeds.val (threadOf (n - G - G + I3.dir d - start + stop) (G - I3.dir d + start) q) = (face r fl (s.vol .input).val d q).2 := by
      intro q hq
      have := b5 q hq
      have e1 : (fl.offsL.map fun o => (s1.vol .left).val (q + step d o)) = fl.offsL.map fun o => r.lval (s.vol .input).val d (q + step d o) :=
        List.map_congr_left fun o ho => a5 q hq o ho
      have e2 : (fl.offsR.map fun o => (s1.vol .right).val (q + step d o)) = fl.offsR.map fun o => r.rval (s.vol .input).val d (q + step d o) :=
        List.map_congr_left fun o ho => a6 q hq o ho
      rw [e1, e2] at this
      exact this
    have hcomb := combineLaunch_ok d n G start stop s2 fun q hq => by
      rw [hsz2.vol, hsz2.vol]; exact ⟨g3 q hq, g3 q hq⟩
    set s3 := s2.setVol .output ⟨(s2.vol .output).inb, fun p =>
      if InRegion n G start stop p then (s2.vol .output).val p + ((s2.vol .fluxOutput).val p - (s2.vol .fluxOutput).val (p - I3.dir d))
      else (s2.vol .output).val p⟩ with hs3
    have hsz3 : DevSized n s3 := by
      refine ⟨fun v => ?_, hsz2.speeds, hsz2.scratch⟩
      by_cases hv : v = .output
      · subst hv; simp only [hs3, Dev.setVol, Function.update_self]; exact hsz2.vol _
      · simp only [hs3, Dev.setVol, Function.update_of_ne hv]; exact hsz2.vol _
    have hmem := mem_speedList d n G start stop s2 (fun q => (face r fl (s.vol .input).val d q).2) fun q hq => (hface q hq).2
    obtain ⟨w, hw1, hw2⟩ := exists_greatest (l := s2.speedList (faceCount d n G start stop)) (by
      obtain ⟨q, hq⟩ := exists_face hne d
      intro hc
      have := (hmem _).2 ⟨q, hq, rfl⟩
      rw [hc] at this
      cases this)
    obtain ⟨s', ws', c1, c2, c3, c4, c5, c6⟩ := ih (fun e he => hl e (by simp [he])) (List.nodup_cons.1 hnd).2 s3 (Function.update ws d w) hsz3
    have hin : s3.vol .input = s.vol .input := by
      simp only [hs3, Dev.setVol]
      rw [Function.update_of_ne (by decide), b4 .input (by decide), a3]
    refine ⟨s', ws', ⟨s1, s2, s3, w, a1, b1, ⟨fun i hi => hsz2.speeds i (lt_of_lt_of_le hi (faceCount_le hL hf hs hd)), reduces_max hw1 hw2⟩,
      hcomb, c1⟩, c2, c3.trans hin, ?_, ?_, ?_⟩
    · intro p
      rw [c4, hin]
      have hout : (s3.vol .output).val p = if InRegion n G start stop p then
          (s.vol .output).val p + ((face r fl (s.vol .input).val d (p - I3.dir d)).1 - (face r fl (s.vol .input).val d p).1)
          else (s.vol .output).val p := by
        simp only [hs3, Dev.setVol, Function.update_self]
        rw [b4 .output (by decide), a4]
        split_ifs with hp
        · have f1 : IsFace n G start stop d p := by
            simp only [IsFace, InRegion, mem_box, I3.dir, I3.add_x, I3.add_y, I3.add_z, I3.sub_x, I3.sub_y, I3.sub_z] at hp ⊢
            split_ifs <;> omega
          have f2 : IsFace n G start stop d (p - I3.dir d) := by
            simp only [IsFace, InRegion, mem_box, I3.dir, I3.add_x, I3.add_y, I3.add_z, I3.sub_x, I3.sub_y, I3.sub_z] at hp ⊢
            split_ifs <;> omega
          rw [(hface _ f1).1, (hface _ f2).1]
          abel
        · rfl
      rw [hout]
      split_ifs with hp
      · simp only [List.map_cons, List.sum_cons]; abel
      · rfl
    · intro e he
      by_cases hed : e = d
      · subst hed
        rw [c6 e (List.nodup_cons.1 hnd).1, Function.update_self]
        exact ⟨(hmem w).1 hw1, fun x hx => hw2 x ((hmem x).2 hx)⟩
      · rw [← hin]
        exact c5 e ((List.mem_cons.1 he).resolve_left hed)
    · intro e he
      rw [c6 e fun hc => he (by simp [hc]), Function.update_of_ne fun hc => he (by simp [hc])]

/-- One call of `computeFlux` on the card. -/
theorem computes_ok [AddCommGroup V] [LinearOrder R] {rec : CardRecon V R} {r : Recon V} {fl : FluxFn V R} {n G active start stop : I3}
    {dims g : Nat} (hL : Layout n G active dims g) (hf : Fits r fl g) (hs : RegionOK start stop) (hne : NonEmpty n G start stop)
    (hpos : 0 < dims) (hrec : ∀ d < dims, rec.Computes r fl n G d start stop) (s : Dev V R) (ws : Nat → R) (hsz : DevSized n s) :
    ∃ s' ws', computes dims rec fl n G start stop s ws s' ws' ∧ DevSized n s' ∧ s'.vol .input = s.vol .input ∧
      (∀ p, (s'.vol .output).val p = if InRegion n G start stop p then net dims r fl (s.vol .input).val p else (s.vol .output).val p) ∧
      (∀ d < dims, IsGreatest {w | ∃ q, IsFace n G start stop d q ∧ w = (face r fl (s.vol .input).val d q).2} (ws' d)) ∧
      ∀ d, dims ≤ d → ws' d = ws d := by
  have g5 := (geometry (start := start) (stop := stop) hL hf hs hpos).2.2.2.2
  have hz := zeroLaunch_ok n G start stop s fun q hq => by rw [hsz.vol]; exact g5 q hq
  set s1 := s.setVol .output ⟨(s.vol .output).inb, fun p => if InRegion n G start stop p then 0 else (s.vol .output).val p⟩ with hs1
  have hsz1 : DevSized n s1 := by
    refine ⟨fun v => ?_, hsz.speeds, hsz.scratch⟩
    by_cases hv : v = .output
    · subst hv; simp only [hs1, Dev.setVol, Function.update_self]; exact hsz.vol _
    · simp only [hs1, Dev.setVol, Function.update_of_ne hv]; exact hsz.vol _
  have hin : s1.vol .input = s.vol .input := by simp only [hs1, Dev.setVol]; rw [Function.update_of_ne (by decide)]
  obtain ⟨s', ws', c1, c2, c3, c4, c5, c6⟩ := directions_ok hL hf hs hne hrec (List.range dims) (fun d hd => List.mem_range.1 hd)
    List.nodup_range s1 ws hsz1
  refine ⟨s', ws', ⟨s1, hz, c1⟩, c2, c3.trans hin, ?_, ?_, ?_⟩
  · intro p
    rw [c4, hin]
    simp only [hs1, Dev.setVol, Function.update_self]
    split_ifs with hp
    · simp [net]
    · rfl
  · intro d hd
    rw [← hin]; exact c5 d (List.mem_range.2 hd)
  · intro d hd
    exact c6 d (by simp; omega)

end Verif.CudaNetFlux
