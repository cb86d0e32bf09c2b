import Verif.ParallelSim
import Verif.RunAgree

/-! Helper lemmas for C93: the right hand side of all ranks together computes the right hand side of the single process on the assembled cells. -/

namespace Verif.ParallelSim
open Integrator NetFlux Halo ParallelRun Iterate Cartesian Props.Parallel

theorem each_ok {A : Type} {l : List Int} {f : Int → Res A} {a : Int → A} (h : ∀ r ∈ l, f r = .ok (a r)) (init : Int → A) :
    each l f init = .ok fun r => if r ∈ l then a r else init r := by
  induction l generalizing init with
  | nil => simp [each]
  | cons b l ih =>
    have e : each (b :: l) f init = each l f (Function.update init b (a b)) := by
      unfold each
      rw [List.foldlM_cons, h b (by simp)]
      rfl
    rw [e, ih (fun r hr => h r (by simp [hr]))]
    congr 1
    funext r
    by_cases h1 : r = b
    · subst h1
      simp
    · simp [h1]

theorem cellAt_flatI {n c : I3} (h : inSize n c = true) : cellAt n (flatI n c) = c := by
  rw [inSize_iff] at h
  have hx : flatI n c = c.x + n.x * (c.y + n.y * c.z) := by unfold flatI; ring
  unfold cellAt
  rw [hx]
  have h1 : (c.x + n.x * (c.y + n.y * c.z)) / n.x = c.y + n.y * c.z := by
    rw [Int.add_mul_ediv_left _ _ (by omega), Int.ediv_eq_zero_of_lt (by omega) (by omega), zero_add]
  ext
  · simp only [Int.add_mul_emod_self_left]; exact Int.emod_eq_of_lt (by omega) (by omega)
  · simp only [h1, Int.add_mul_emod_self_left]; exact Int.emod_eq_of_lt (by omega) (by omega)
  · simp only
    have h2 : (c.y + n.y * c.z) / n.y = c.z := by
      rw [Int.add_mul_ediv_left _ _ (by omega), Int.ediv_eq_zero_of_lt (by omega) (by omega), zero_add]
    rw [← Int.ediv_ediv_of_nonneg (by omega), h1, h2]

theorem mem_ranks {p : I3} {r : Int} : r ∈ ranks p ↔ IsRank p r := by unfold ranks IsRank; rw [mem_irange]

variable {K : Type} [Field K] {nvars : Nat}

/-- The rank that owns a cell of the whole grid. -/
def ownerOf (p m q : I3) : Int := getRankIndex ⟨q.x / m.x, q.y / m.y, q.z / m.z⟩ p

/-- The cells of the whole grid, each from the rank that owns it. -/
def assemble (p : I3) (part : Int → Cartesian.Part K) (m D : I3) (g : Nat) : Volumes nvars K →ₗ[K] (Step.Cells (totalOf D g) (ghostsOf D g) → Fin nvars → K) where
  toFun u c := u (ownerOf p m (c.1 - ghostsOf D g)) (c.1 - (part (ownerOf p m (c.1 - ghostsOf D g))).grid.globalPosition)
  map_add' _ _ := rfl
  map_smul' _ _ := rfl

/-- Every rank has in its cells what is in the corresponding cells of the volume of the whole grid. -/
def SameCells (p : I3) (part : Int → Cartesian.Part K) (m : I3) (g : Nat) (v : I3 → Fin nvars → K) (u : Volumes nvars K) : Prop :=
  ∀ r, IsRank p r → ∀ c, Inner m g c → u r c = v (c + (part r).grid.globalPosition)

/-- What a decomposed grid satisfies. -/
structure Setting (p : I3) (grid : Grid K) (bc : BC) (part : Int → Cartesian.Part K) (m : I3) (dims g : Nat) : Prop where
  dec : Decomposed p grid (fun _ => sideOf bc) part
  local_ : m = localSize grid.dims p
  dims_ : dims = activeDimension grid.dims
  same : dims = dimensionsOf m
  thick : ∀ d < dims, (g : Int) ≤ m.get d

namespace Setting
variable {p : I3} {grid : Grid K} {bc : BC} {part : Int → Cartesian.Part K} {m : I3} {dims g : Nat}

theorem geometry (h : Setting p grid bc part m dims g) :
    0 < dims ∧ dims ≤ 3 ∧ (1 ≤ m.x ∧ 1 ≤ m.y ∧ 1 ≤ m.z) ∧ (m.y = 1 → m.z = 1) ∧ (grid.dims.y = 1 → grid.dims.z = 1) ∧ dims = dimensionsOf grid.dims ∧
      ghostsOf grid.dims g = ghostsOf m g ∧ (∀ e < dims, (ghostsOf m g).get e = g) ∧ ∀ e < 3, m.get e ≤ grid.dims.get e := by
  have hsh := shape h.dec (by rw [← h.local_, ← h.same, ← h.dims_]) g
  rw [← h.local_] at hsh
  obtain ⟨hreg, hregD, hdimD, hGD⟩ := hsh
  have hm1 : 1 ≤ m.x ∧ 1 ≤ m.y ∧ 1 ≤ m.z := by
    rw [h.local_]; exact ⟨(h.dec.sizes (d := 0) (by omega)).2.1, (h.dec.sizes (d := 1) (by omega)).2.1, (h.dec.sizes (d := 2) (by omega)).2.1⟩
  obtain ⟨hd1, hd3⟩ := dimensionsOf_bounds m
  rw [← h.same] at hd1 hd3
  refine ⟨hd1, hd3, hm1, hreg, hregD, by rw [hdimD, h.same], hGD, fun e he => ?_, fun e he => ?_⟩
  · have := h.same
    rw [(volume_sizes hm1 hreg g (by omega)).1, if_pos (by omega)]
  · obtain ⟨s1, s2, s3⟩ := h.dec.sizes he
    rw [← h.local_] at s2 s3
    nlinarith

theorem layout_m (h : Setting p grid bc part m dims g) {active : I3} (hact : ∀ d < 3, active.get d = if d < dims then 1 else 0) :
    Layout (totalOf m g) (ghostsOf m g) active dims g := by
  obtain ⟨-, -, hm1, hreg, -⟩ := h.geometry
  have := layout hm1 hreg g (active := active) (by rw [← h.same]; exact hact)
  rwa [← h.same] at this

theorem layout_D (h : Setting p grid bc part m dims g) {active : I3} (hact : ∀ d < 3, active.get d = if d < dims then 1 else 0) :
    Layout (totalOf grid.dims g) (ghostsOf grid.dims g) active dims g := by
  obtain ⟨-, -, -, -, hregD, hdD, -⟩ := h.geometry
  have := layout h.dec.dims hregD g (active := active) (by rw [← hdD]; exact hact)
  rwa [← hdD] at this

theorem interior_m (h : Setting p grid bc part m dims g) {c : I3} : IsInterior (totalOf m g) (ghostsOf m g) c ↔ Inner m g c := by
  obtain ⟨-, -, hm1, hreg, -⟩ := h.geometry
  refine forall₂_congr fun e he => ?_
  have := volume_sizes hm1 hreg g he
  omega

theorem interior_D (h : Setting p grid bc part m dims g) {c : I3} : IsInterior (totalOf grid.dims g) (ghostsOf grid.dims g) c ↔ Inner grid.dims g c := by
  obtain ⟨-, -, -, -, hregD, -⟩ := h.geometry
  refine forall₂_congr fun e he => ?_
  have := volume_sizes h.dec.dims hregD g he
  omega

theorem inner_global (h : Setting p grid bc part m dims g) {r : Int} (hr : IsRank p r) {c : I3} (hc : Inner m g c) :
    Inner grid.dims g (c + (part r).grid.globalPosition) := by
  obtain ⟨-, -, -, -, -, -, hGD, -⟩ := h.geometry
  intro e he
  have h1 := hc e he; have h2 := global_bounds h.dec h.local_ hr he
  rw [get_add, hGD]; omega

/-- The owner of a cell. -/
theorem owner_eq (h : Setting p grid bc part m dims g) {r : Int} (hr : IsRank p r) {c : I3} (hc : Inner m g c) :
    ownerOf p m (c + (part r).grid.globalPosition - ghostsOf grid.dims g) = r := by
  obtain ⟨-, -, hm1, -, -, -, hGD, -⟩ := h.geometry
  obtain ⟨-, f2, -, f4, -⟩ := h.dec.facts hr
  rw [← h.local_] at f2
  have key : ∀ e < 3, ((c + (part r).grid.globalPosition - ghostsOf grid.dims g).get e) / m.get e = (position p r).get e := by
    intro e he
    have h1 := hc e he
    rw [get_sub, get_add, hGD, f2 e he, show c.get e + m.get e * (position p r).get e - (ghostsOf m g).get e =
      (c.get e - (ghostsOf m g).get e) + m.get e * (position p r).get e by ring, Int.add_mul_ediv_left, Int.ediv_eq_zero_of_lt (by omega) (by omega), zero_add]
    have := (h.dec.sizes he).2.1
    rw [← h.local_] at this
    omega
  have e : (⟨(c + (part r).grid.globalPosition - ghostsOf grid.dims g).x / m.x, (c + (part r).grid.globalPosition - ghostsOf grid.dims g).y / m.y,
      (c + (part r).grid.globalPosition - ghostsOf grid.dims g).z / m.z⟩ : I3) = position p r := by
    ext
    · exact key 0 (by omega)
    · exact key 1 (by omega)
    · exact key 2 (by omega)
  unfold ownerOf
  rw [e]
  exact rank_position h.dec.procs hr.1 hr.2

/-- Every cell of the whole grid is a cell of a rank. -/
theorem covered (h : Setting p grid bc part m dims g) {q : I3} (hq : Inner grid.dims g q) :
    ∃ r, IsRank p r ∧ ∃ c, Inner m g c ∧ q = c + (part r).grid.globalPosition := by
  obtain ⟨-, -, -, -, -, -, hGD, -⟩ := h.geometry
  obtain ⟨r, hr, ho⟩ := owner h.dec h.local_ (q := q - ghostsOf m g) (fun e he => by
    have := hq e he
    rw [get_sub, ← hGD]; omega)
  refine ⟨r, hr, q - (part r).grid.globalPosition, fun e he => ?_, ?_⟩
  · have := ho e he
    rw [get_sub] at this ⊢; omega
  · apply ext_get
    intro e _
    rw [get_add, get_sub]; ring

theorem assemble_at (h : Setting p grid bc part m dims g) (u : Volumes nvars K) {r : Int} (hr : IsRank p r) {c : I3} (hc : Inner m g c)
    (hi : IsInterior (totalOf grid.dims g) (ghostsOf grid.dims g) (c + (part r).grid.globalPosition)) :
    assemble p part m grid.dims g u ⟨_, hi⟩ = u r c := by
  change u (ownerOf p m (c + (part r).grid.globalPosition - ghostsOf grid.dims g)) (c + (part r).grid.globalPosition - (part (ownerOf p m (c + (part r).grid.globalPosition - ghostsOf grid.dims g))).grid.globalPosition) = _
  rw [h.owner_eq hr hc]
  congr 1
  apply ext_get
  intro e _
  rw [get_sub, get_add]; ring

theorem same_iff (h : Setting p grid bc part m dims g) (v : I3 → Fin nvars → K) (u : Volumes nvars K) :
    SameCells p part m g v u ↔ Step.int (K := K) (totalOf grid.dims g) (ghostsOf grid.dims g) v = assemble p part m grid.dims g u := by
  constructor
  · intro hs
    funext q
    obtain ⟨q, hq⟩ := q
    obtain ⟨r, hr, c, hc, rfl⟩ := h.covered (h.interior_D.1 hq)
    rw [h.assemble_at u hr hc hq, hs r hr c hc]
    rfl
  · intro hs r hr c hc
    have hi := h.interior_D.2 (h.inner_global hr hc)
    rw [← h.assemble_at u hr hc hi, ← hs]
    rfl

theorem assemble_ext (h : Setting p grid bc part m dims g) {u u' : Volumes nvars K} (hu : ∀ r, IsRank p r → ∀ c, Inner m g c → u r c = u' r c) :
    assemble p part m grid.dims g u = assemble p part m grid.dims g u' := by
  funext q
  obtain ⟨q, hq⟩ := q
  obtain ⟨r, hr, c, hc, rfl⟩ := h.covered (h.interior_D.1 hq)
  rw [h.assemble_at u hr hc hq, h.assemble_at u' hr hc hq, hu r hr c hc]

omit [Field K] in
theorem ghostSource_inner {N c : I3} {b : BC} {mpi : Nat → Bool} (h1 : 0 < dims) (h3 : dims ≤ 3) (hh : ∀ e < dims, (g : Int) ≤ c.get e ∧ c.get e < g + N.get e) :
    Boundary.ghostSource b g N dims mpi c = c := by
  rw [ghostSource_single (d := 0) h1 h3 fun e he _ => hh e he]
  have := hh 0 h1
  unfold Boundary.imageDir
  rw [Boundary.image_interior this.1 this.2, ite_self]
  ext <;> simp [I3.set, I3.get]

theorem source_inner (h : Setting p grid bc part m dims g) {mpi : Nat → Bool} {c : I3} (hc : Inner m g c) : Boundary.ghostSource bc g m dims mpi c = c := by
  obtain ⟨h1, h3, -, -, -, -, -, hGe, -⟩ := h.geometry
  refine ghostSource_inner h1 h3 fun e he => ?_
  have := hc e (by omega)
  rw [hGe e he] at this
  omega

end Setting

/-- The boundary conditions have been applied on every rank. -/
def Ready (bc : BC) (p : I3) (part : Int → Cartesian.Part K) (m : I3) (g dims : Nat) (u : Volumes nvars K) : Prop :=
  ∃ u0 : Volumes nvars K, ∀ r, IsRank p r → ∀ c, inSize (totalOf m g) c = true → u r c = u0 r (Boundary.ghostSource bc g m dims (exchanged (part r)) c)

section
variable [LinearOrder K] [IsStrictOrderedRing K] {p : I3} {grid : Grid K} {bc : BC} {part : Int → Cartesian.Part K} {m : I3} {dims g : Nat}

omit [LinearOrder K] [IsStrictOrderedRing K] in
/-- The boundary conditions of all ranks. -/
theorem jointBoundary_ok (h : Setting p grid bc part m dims g) (u : Volumes nvars K) :
    ∃ u', jointBoundary bc p part m g dims u = .ok u' ∧
      ∀ r, IsRank p r → ∀ c, inSize (totalOf m g) c = true → u' r c = u r (Boundary.ghostSource bc g m dims (exchanged (part r)) c) := by
  obtain ⟨hd1, hd3, hm1, hreg, -, -, -, hGe, -⟩ := h.geometry
  have hvs := fun {d} (hd : d < 3) => volume_sizes hm1 hreg g hd
  have hb : ∀ r, ∃ b : Arr I3 (Fin nvars → K), Boundary.apply bc (totalOf m g) g dims (exchanged (part r)) [field (totalOf m g) (u r)] = .ok [b] ∧
      (b.inb = inSize (totalOf m g) ∧ ∀ c, inSize (totalOf m g) c = true → b.val c = u r (Boundary.ghostSource bc g m dims (exchanged (part r)) c)) := by
    intro r
    obtain ⟨areas, h1, h2⟩ := Boundary.apply_ok (bc := bc) (n := totalOf m g) (N := m) (g := g) (dims := dims) (mpi := exchanged (part r)) hd3
      (fun d hd => by rw [(hvs (by omega)).2.1, hGe d hd]) (fun d hd => (hvs (by omega)).2.2.2) hd1
      (fun _ d hd => h.thick d hd) [field (totalOf m g) (u r)] (by simp [field])
    cases h2 with
    | @cons _ b _ l h3 h4 =>
    cases h4
    exact ⟨b, h1, h3⟩
  choose b hb using hb
  refine ⟨_, each_ok (a := fun r => (b r).val) (fun r _ => ?_) u, fun r hr c hc => ?_⟩
  · rw [(hb r).1]; rfl
  · rw [if_pos (mem_ranks.2 hr)]
    exact (hb r).2.2 c hc

/-- One evaluation of all ranks. -/
theorem jointSystem_ok (h : Setting p grid bc part m dims g) {recon : Recon (Fin nvars → K)} {fl : FluxFn (Fin nvars → K) K} (hf : Fits recon fl g) {active : I3}
    (hact : ∀ d < 3, active.get d = if d < dims then 1 else 0) {work : Int → NetFlux.State (Fin nvars → K) K} (hw : ∀ r, IsRank p r → Sized (totalOf m g) (work r))
    {workS : NetFlux.State (Fin nvars → K) K} (hwS : Sized (totalOf grid.dims g) workS) {sched : Schedule nvars K}
    (hc : Complete (allTransfers p part nvars g) sched.events) (u out : Volumes nvars K) (hr : Ready bc p part m g dims u) :
    ∃ x, jointSystem p part m g dims recon fl active work sched u out = .ok x ∧ assemble p part m grid.dims g x.1 = assemble p part m grid.dims g u ∧
      assemble p part m grid.dims g x.2.1 = Step.rhs bc dims recon fl (totalOf grid.dims g) (ghostsOf grid.dims g) g (assemble p part m grid.dims g u) ∧
      x.2.2 = Step.waves bc dims recon fl (totalOf grid.dims g) (ghostsOf grid.dims g) active g workS (assemble p part m grid.dims g u) ∧
      (∀ r, IsRank p r → ∀ c, ¬Inner m g c → x.2.1 r c = out r c) ∧
      ∀ r, IsRank p r → ∀ d < dims, ∀ c : I3, 0 ≤ c.get d ∧ c.get d < (totalOf m g).get d →
        (∀ e < 3, e ≠ d → (ghostsOf m g).get e ≤ c.get e ∧ c.get e < m.get e + (ghostsOf m g).get e) →
        x.1 r c = Step.extend bc (totalOf grid.dims g) (ghostsOf grid.dims g) g dims (assemble p part m grid.dims g u) (c + (part r).grid.globalPosition) := by
  obtain ⟨hd1, hd3, hm1, hreg, hregD, hdD, hGD, hGe, hmD⟩ := h.geometry
  have hvs := fun {d} (hd : d < 3) => volume_sizes hm1 hreg g hd
  have hvD := fun {d} (hd : d < 3) => volume_sizes h.dec.dims hregD g hd
  have hL := h.layout_m hact
  have hLD := h.layout_D hact
  obtain ⟨u0, hu0⟩ := hr
  set w := assemble p part m grid.dims g u with hwdef
  set E := Step.extend bc (totalOf grid.dims g) (ghostsOf grid.dims g) g dims w with hE
  have hN : totalOf grid.dims g - ghostsOf grid.dims g - ghostsOf grid.dims g = grid.dims := by
    apply ext_get
    intro e he
    rw [get_sub, get_sub, (hvD he).2.1]; ring
  have h3D : ∀ d < dims, 3 * (ghostsOf grid.dims g).get d ≤ (totalOf grid.dims g).get d := by
    intro d hd
    have h1 := hvD (d := d) (by omega); have h2 := h.thick d hd; have h3 := hmD d (by omega)
    rw [h1.2.1, hGD, hGe d hd]; omega
  have huI : ∀ r, IsRank p r → ∀ c, Inner m g c → u r c = u0 r c := fun r hr c hcI => by
    rw [hu0 r hr c (Step.interior_inSize hL (h.interior_m.2 hcI)), h.source_inner hcI]
  have hsub : ∀ {r} {c : I3}, c - ghostsOf m g + (part r).grid.globalPosition = c + (part r).grid.globalPosition - ghostsOf m g := by
    intro r c
    apply ext_get
    intro e _
    rw [get_add, get_sub, get_sub, get_add]; ring
  obtain ⟨bS, RS, h1, ⟨h2i, h2⟩, h3, b, h4, h5⟩ := parallel_ok p grid bc part h.dec m h.local_ dims h.dims_ h.same nvars g h.thick recon fl hf active hact
    (fun q => E (q + ghostsOf grid.dims g)) (field (totalOf grid.dims g) E) rfl
    (fun c _ => by
      show E c = E (c - ghostsOf grid.dims g + ghostsOf grid.dims g)
      congr 1
      apply ext_get
      intro e _
      rw [get_add, get_sub]; ring)
    { workS with out := field (totalOf grid.dims g) 0, ws := fun _ => 0 } ⟨⟨hwS.1, hwS.2.1, hwS.2.2.1, rfl⟩, rfl⟩
    (fun r => field (totalOf m g) (u0 r)) (fun _ _ => rfl)
    (fun r hr c hcI => by
      have hi := h.interior_D.2 (h.inner_global hr hcI)
      show u0 r c = E (c - ghostsOf m g + (part r).grid.globalPosition + ghostsOf grid.dims g)
      rw [hGD, hsub, show c + (part r).grid.globalPosition - ghostsOf m g + ghostsOf m g = c + (part r).grid.globalPosition from by
        apply ext_get; intro e _; rw [get_add, get_sub]; ring, hE, Step.extend_interior hLD w hi, hwdef, h.assemble_at u hr hcI hi, huI r hr c hcI])
    (fun r => { work r with out := field (totalOf m g) (out r), ws := fun _ => 0 })
    (fun r hr => ⟨⟨(hw r hr).1, (hw r hr).2.1, (hw r hr).2.2.1, rfl⟩, rfl⟩)
  obtain ⟨R, k1, k2, k3, k4, k5⟩ := h5 (memoryOf (totalOf m g) u) sched.transit sched.events (fun r hr c hcs v => by
      show memoryOf (totalOf m g) u (r, v.1, flatI (totalOf m g) c) = _
      unfold memoryOf
      simp only [v.2, dif_pos, cellAt_flatI hcs]
      rw [(h4 r hr).2.2 c hcs, hu0 r hr c hcs]
      rfl) hc
    (fun r => field (totalOf m g) fun c => if IsInterior (totalOf m g) (ghostsOf m g) c then u r c else sched.seen r c) (fun _ _ => rfl)
    (fun r hr c hcI => by
      show (if IsInterior (totalOf m g) (ghostsOf m g) c then u r c else sched.seen r c) = _
      rw [if_pos (h.interior_m.2 hcI), (h4 r hr).2.2 c (Step.interior_inSize hL (h.interior_m.2 hcI)), hu0 r hr c (Step.interior_inSize hL (h.interior_m.2 hcI))]
      rfl)
  -- the single process
  have hbSE : ∀ c, inSize (totalOf grid.dims g) c = true → bS.val c = E c := by
    intro c hcs
    have hi := Step.ghostSource_interior (b := bc) hLD h3D hcs
    rw [hN] at hi
    rw [h2 c hcs]
    show E _ = E c
    rw [hE, Step.extend_interior hLD w hi, Step.extend]
    simp only [hN]
    rw [dif_pos hi]
  have hbSf : field (totalOf grid.dims g) bS.val = bS := by
    obtain ⟨i, v⟩ := bS
    simp only at h2i
    subst h2i
    rfl
  have hsys : Step.cpuSystem dims recon fl (totalOf grid.dims g) (ghostsOf grid.dims g) active workS bS.val 0 = .ok (bS.val, RS.out.val, RS.ws) := by
    unfold Step.cpuSystem
    rw [hbSf, h3]
    rfl
  have hint : Step.int (K := K) (totalOf grid.dims g) (ghostsOf grid.dims g) bS.val = w := by
    funext q
    change bS.val q = _
    rw [hbSE q (Step.interior_inSize hLD q.2), hE, Step.extend_interior hLD w q.2]
  obtain ⟨x, x1, -, x3, x4⟩ := (Step.sound (b := bc) hLD hf h3D hd1 hwS).sys_ok bS.val 0 ⟨w, hbSE⟩
  rw [hsys] at x1
  cases x1
  rw [hint] at x3 x4
  refine ⟨(fun r => (volumeOf (totalOf m g) nvars (after (allTransfers p part nvars g) (memoryOf (totalOf m g) u) sched.transit sched.events) r).val,
    fun r => (if r ∈ ranks p then R r else work r).out.val, fun d => allMax (p.x * p.y * p.z) fun r => (if r ∈ ranks p then R r else work r).ws d), ?_, ?_, ?_, ?_, ?_, ?_⟩
  · exact congrArg (fun x : Res (Int → NetFlux.State (Fin nvars → K) K) => x >>= fun R => (.ok
      (fun r => (volumeOf (totalOf m g) nvars (after (allTransfers p part nvars g) (memoryOf (totalOf m g) u) sched.transit sched.events) r).val,
        fun r => (R r).out.val, fun d => allMax (p.x * p.y * p.z) fun r => (R r).ws d) : Res (Volumes nvars K × Volumes nvars K × (Nat → K))))
      (each_ok (a := R) (fun r hr => k1 r (mem_ranks.1 hr)) work)
  · refine h.assemble_ext fun r hr c hcI => ?_
    have hi := h.interior_D.2 (h.inner_global hr hcI)
    refine (k4 r hr 0 hd1 c (by have h1 := hcI 0 (by omega); have h2 := hvs (d := 0) (by omega); rw [hGe 0 hd1] at h1 h2; omega) (fun e he _ => hcI e he)).trans ?_
    rw [hbSE _ (Step.interior_inSize hLD hi), hE, Step.extend_interior hLD w hi, hwdef, h.assemble_at u hr hcI hi]
  · rw [← x3]
    symm
    rw [← h.same_iff]
    intro r hr c hcI
    show (if r ∈ ranks p then R r else work r).out.val c = _
    rw [if_pos (mem_ranks.2 hr), k2 r hr c hcI]
  · rw [← x4, ← k5]
    funext d
    have hcount : IsRank p 0 := by
      refine ⟨le_refl _, ?_⟩
      obtain ⟨p1, p2, p3⟩ := h.dec.procs
      have h3 : 0 < p.x * p.y := by nlinarith
      nlinarith
    show (irange 1 (p.x * p.y * p.z)).foldl (fun m r => max m ((if r ∈ ranks p then R r else work r).ws d)) ((if 0 ∈ ranks p then R 0 else work 0).ws d) = _
    rw [if_pos (mem_ranks.2 hcount)]
    unfold allMax
    refine List.foldl_ext _ _ _ fun a r hr => ?_
    rw [if_pos]
    rw [ranks, mem_irange]
    rw [mem_irange] at hr
    omega
  · intro r hr c hcI
    show (if r ∈ ranks p then R r else work r).out.val c = _
    rw [if_pos (mem_ranks.2 hr), k3 r hr c hcI]
    rfl
  · intro r hr d hd c hcd hce
    refine (k4 r hr d hd c hcd hce).trans (hbSE _ ?_)
    rw [inSize_iff]
    have key : ∀ e < 3, 0 ≤ (c + (part r).grid.globalPosition).get e ∧ (c + (part r).grid.globalPosition).get e < (totalOf grid.dims g).get e := by
      intro e he
      have h2 := hvs he; have h3 := hvD he; have h4 := global_bounds h.dec h.local_ hr he
      rw [get_add, h3.2.1, hGD]
      by_cases e1 : e = d
      · subst e1; omega
      · have h5 := hce e he e1
        have h6 := h2.1
        split_ifs at h6 <;> omega
    have h0 := key 0 (by decide); have h1 := key 1 (by decide); have h2 := key 2 (by decide)
    simp only [I3.get, if_true, one_ne_zero, if_false, OfNat.ofNat_ne_zero, OfNat.ofNat_ne_one] at h0 h1 h2
    omega

/-- The right hand side and the boundary conditions of all ranks together are sound for the right hand side of the single process. -/
theorem joint_sound (h : Setting p grid bc part m dims g) {recon : Recon (Fin nvars → K)} {fl : FluxFn (Fin nvars → K) K} (hf : Fits recon fl g) {active : I3}
    (hact : ∀ d < 3, active.get d = if d < dims then 1 else 0) {work : Int → NetFlux.State (Fin nvars → K) K} (hw : ∀ r, IsRank p r → Sized (totalOf m g) (work r))
    {workS : NetFlux.State (Fin nvars → K) K} (hwS : Sized (totalOf grid.dims g) workS) {sched : Schedule nvars K}
    (hc : Complete (allTransfers p part nvars g) sched.events) :
    Sound (jointSystem p part m g dims recon fl active work sched) (jointBoundary bc p part m g dims) (assemble p part m grid.dims g)
      (Step.rhs bc dims recon fl (totalOf grid.dims g) (ghostsOf grid.dims g) g) (Step.waves bc dims recon fl (totalOf grid.dims g) (ghostsOf grid.dims g) active g workS)
      (Ready bc p part m g dims) where
  bc_ok u := by
    obtain ⟨u', h1, h2⟩ := jointBoundary_ok h u
    refine ⟨u', h1, h.assemble_ext fun r hr c hcI => ?_, u, h2⟩
    rw [h2 r hr c (Step.interior_inSize (h.layout_m hact) (h.interior_m.2 hcI)), h.source_inner hcI]
  sys_ok u out hr := by
    obtain ⟨x, h1, h2, h3, h4, -⟩ := jointSystem_ok h hf hact hw hwS hc u out hr
    exact ⟨x, h1, h2, h3, h4⟩

end

end Verif.ParallelSim
