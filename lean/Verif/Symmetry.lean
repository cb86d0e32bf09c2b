import Verif.Related
import Verif.Props.Integrator
import Mathlib.Algebra.BigOperators.Group.List.Basic

/-!
Symmetries of the grid: maps of cells under which reconstruction and flux behave alike take runs to runs.
-/

namespace Verif
namespace Symmetry
open Integrator Simulator NetFlux

section
variable {V R : Type}

/-- Flux and wave speed at a face as functions of the values along the line through it; offset 0 is the cell to the left of the face. -/
def line (r : Recon V) (fl : FluxFn V R) (d : Nat) (a : Int → V) : V × R :=
  fl.fn d (fl.offsL.map fun o => r.lf d (r.offs.map fun o' => a (o + o'))) (fl.offsR.map fun o => r.rf d (r.offs.map fun o' => a (o + o')))

theorem add_step (p : I3) (d : Nat) (o o' : Int) : p + NetFlux.step d o + NetFlux.step d o' = p + NetFlux.step d (o + o') := by
  ext <;> simp only [NetFlux.step, I3.add_x, I3.add_y, I3.add_z] <;> split_ifs <;> omega

theorem face_line (r : Recon V) (fl : FluxFn V R) (u : I3 → V) (d : Nat) (q : I3) : face r fl u d q = line r fl d fun o => u (q + NetFlux.step d o) := by
  simp only [face, line, Recon.lval, Recon.rval, add_step]

theorem dir_step (d : Nat) (hd : d < 3) : I3.dir d = NetFlux.step d 1 := by interval_cases d <;> rfl

theorem sub_dir (p : I3) (d : Nat) (hd : d < 3) : p - I3.dir d = p + NetFlux.step d (-1) := by
  interval_cases d <;> ext <;> simp [I3.dir, NetFlux.step] <;> omega

theorem step_zero (p : I3) (d : Nat) : p + NetFlux.step d 0 = p := by ext <;> simp [NetFlux.step]

/-- In direction `d` the scheme does with transformed values what it does in direction `e` with the values. -/
def LineKeep (r : Recon V) (fl : FluxFn V R) (T : V → V) (d e : Nat) : Prop := ∀ a : Int → V, line r fl d (fun o => T (a o)) = (T (line r fl e a).1, (line r fl e a).2)

/-- The scheme does with transformed values in opposite order the opposite of what it does with the values. -/
def LineFlip [Neg V] (r : Recon V) (fl : FluxFn V R) (T : V → V) (d e : Nat) : Prop :=
  ∀ a : Int → V, line r fl d (fun o => T (a (-o))) = (-T (line r fl e fun o => a (o - 1)).1, (line r fl e fun o => a (o - 1)).2)

end

/-- A map of the cells of a volume of size `n'` onto those of a volume of size `n`, that takes direction `d` to direction `π d`, reversed if `flip d`. -/
structure GridMap (b : BC) (g dims : Nat) (n G n' G' : I3) (Φ : I3 → I3) (π : Nat → Nat) (flip : Nat → Bool) : Prop where
  step : ∀ d < dims, ∀ p o, Φ (p + NetFlux.step d o) = Φ p + NetFlux.step (π d) (if flip d then -o else o)
  perm : ((List.range dims).map π).Perm (List.range dims)
  perm3 : ((List.range 3).map π).Perm (List.range 3)
  lt : ∀ d, π d < dims ↔ d < dims
  interior : ∀ p, IsInterior n' G' p → IsInterior n G (Φ p)
  ghost : ∀ p, inSize n' p = true → Boundary.ghostSource b g (n - G - G) dims (fun _ => false) (Φ p) = Φ (Boundary.ghostSource b g (n' - G' - G') dims (fun _ => false) p)
  face : ∀ d < dims, ∀ q, IsFace n' G' 0 0 d q → IsFace n G 0 0 (π d) (if flip d then Φ q - I3.dir (π d) else Φ q)
  surj : ∀ d < dims, ∀ q, IsFace n G 0 0 (π d) q → ∃ q', IsFace n' G' 0 0 d q' ∧ (if flip d then Φ q' - I3.dir (π d) else Φ q') = q

section
variable {K V : Type} [Field K] [LinearOrder K] [IsStrictOrderedRing K] [AddCommGroup V] [Module K V] {b : BC} {g dims : Nat} {n G n' G' active : I3} {Φ : I3 → I3} {π : Nat → Nat} {flip : Nat → Bool} {r : Recon V} {fl : FluxFn V K}
  {T : V →ₗ[K] V}

/-- The state on the one volume from the state on the other. -/
def transport (hΦ : GridMap b g dims n G n' G' Φ π flip) (T : V →ₗ[K] V) : (Step.Cells n G → V) →ₗ[K] (Step.Cells n' G' → V) where
  toFun w p := T (w ⟨Φ p, hΦ.interior p p.2⟩)
  map_add' _ _ := by funext p; simp
  map_smul' _ _ := by funext p; simp

/-- The scheme behaves alike under the map. -/
def Fair (r : Recon V) (fl : FluxFn V K) (T : V → V) (dims : Nat) (π : Nat → Nat) (flip : Nat → Bool) : Prop :=
  ∀ d < dims, if flip d then LineFlip r fl T d (π d) else LineKeep r fl T d (π d)

omit [Field K] [LinearOrder K] [IsStrictOrderedRing K] [Module K V] in
theorem face_map {T : V → V} (hstep : ∀ d < dims, ∀ p o, Φ (p + NetFlux.step d o) = Φ p + NetFlux.step (π d) (if flip d then -o else o)) (hdims : dims ≤ 3) (hlt : ∀ d, π d < dims ↔ d < dims)
    (hfair : Fair r fl T dims π flip) (u : I3 → V) {d : Nat} (hd : d < dims) (q : I3) :
    face r fl (fun p => T (u (Φ p))) d q =
      if flip d then (-T (face r fl u (π d) (Φ q - I3.dir (π d))).1, (face r fl u (π d) (Φ q - I3.dir (π d))).2) else (T (face r fl u (π d) (Φ q)).1, (face r fl u (π d) (Φ q)).2) := by
  have h := hfair d hd
  have hπ := (hlt d).2 hd
  rw [face_line]
  simp only [hstep d hd]
  split_ifs at h ⊢ with hf
  · rw [face_line, sub_dir _ _ (by omega)]
    have := h fun o => u (Φ q + NetFlux.step (π d) o)
    rw [this]
    simp only [add_step, show ∀ o : Int, -1 + o = o - 1 from fun o => by omega]
  · rw [face_line]
    exact h fun o => u (Φ q + NetFlux.step (π d) o)

omit [LinearOrder K] [IsStrictOrderedRing K] in
theorem net_map (hΦ : GridMap b g dims n G n' G' Φ π flip) (hdims : dims ≤ 3) (hfair : Fair r fl T dims π flip) (u : I3 → V) (p : I3) :
    net dims r fl (fun p => T (u (Φ p))) p = T (net dims r fl u (Φ p)) := by
  have key : ∀ d ∈ List.range dims, (face r fl (fun p => T (u (Φ p))) d (p - I3.dir d)).1 - (face r fl (fun p => T (u (Φ p))) d p).1 =
      ((fun e => T ((face r fl u e (Φ p - I3.dir e)).1 - (face r fl u e (Φ p)).1)) ∘ π) d := by
    intro d hd
    have hd := List.mem_range.1 hd
    have hπ := (hΦ.lt d).2 hd
    simp only [Function.comp]
    rw [face_map hΦ.step hdims hΦ.lt hfair u hd, face_map hΦ.step hdims hΦ.lt hfair u hd, sub_dir p d (by omega), hΦ.step d hd]
    split_ifs with hf
    · simp only [map_sub, sub_dir _ _ (show π d < 3 by omega), add_step, neg_neg]
      rw [show (1 : Int) + -1 = 0 by omega, step_zero]
      abel
    · simp only [map_sub, sub_dir _ _ (show π d < 3 by omega)]
  unfold net
  rw [List.map_congr_left key, ← List.map_map, (hΦ.perm.map _).sum_eq, map_list_sum, List.map_map]
  rfl

omit [LinearOrder K] [IsStrictOrderedRing K] in
theorem extend_map (hL' : Layout n' G' active dims g) (hN' : ∀ d < dims, 3 * G'.get d ≤ n'.get d)
    (hΦ : GridMap b g dims n G n' G' Φ π flip) (w : Step.Cells n G → V) {p : I3} (hp : inSize n' p = true) :
    Step.extend b n' G' g dims (transport hΦ T w) p = T (Step.extend b n G g dims w (Φ p)) := by
  have h1 := Step.ghostSource_interior (b := b) hL' hN' hp
  unfold Step.extend
  rw [dif_pos h1, dif_pos (by rw [hΦ.ghost p hp]; exact hΦ.interior _ h1)]
  simp only [transport, LinearMap.coe_mk, AddHom.coe_mk, hΦ.ghost p hp]

omit [LinearOrder K] [IsStrictOrderedRing K] in
theorem rhs_map (hL : Layout n G active dims g) (hL' : Layout n' G' active dims g) (hf : Fits r fl g) (hN' : ∀ d < dims, 3 * G'.get d ≤ n'.get d)
    (hΦ : GridMap b g dims n G n' G' Φ π flip) (hfair : Fair r fl T dims π flip) (w : Step.Cells n G → V) :
    Step.rhs b dims r fl n' G' g (transport hΦ T w) = transport hΦ T (Step.rhs b dims r fl n G g w) := by
  funext p
  simp only [Step.rhs]
  rw [Step.net_congr_full hL' hf (v := fun p => T (Step.extend b n G g dims w (Φ p))) (fun q hq => extend_map hL' hN' hΦ w hq) p.2,
    net_map hΦ hL.dims_le hfair]
  rfl

theorem waves_greatest (hL : Layout n G active dims g) (hf : Fits r fl g) (hN : ∀ d < dims, 3 * G.get d ≤ n.get d) (hpos : 0 < dims) {work : NetFlux.State V K} (hw : Sized n work)
    (w : Step.Cells n G → V) : (∀ k < dims, IsGreatest (speeds r fl (Step.extend b n G g dims w) n G 0 0 k) (Step.waves b dims r fl n G active g work w k)) ∧
      ∀ k, dims ≤ k → Step.waves b dims r fl n G active g work w k = 0 := by
  obtain ⟨s, e1, -, -, e4, e5⟩ := Step.cpuSystem_ok hL hf hN hpos hw (Step.extend b n G g dims w) 0
  simp only [Step.waves, e1]
  exact ⟨e4, e5⟩

theorem waves_map (hL : Layout n G active dims g) (hL' : Layout n' G' active dims g) (hf : Fits r fl g) (hN : ∀ d < dims, 3 * G.get d ≤ n.get d) (hN' : ∀ d < dims, 3 * G'.get d ≤ n'.get d)
    (hpos : 0 < dims) {work work' : NetFlux.State V K} (hw : Sized n work) (hw' : Sized n' work') (hΦ : GridMap b g dims n G n' G' Φ π flip) (hfair : Fair r fl T dims π flip)
    (w : Step.Cells n G → V) (d : Nat) :
    Step.waves b dims r fl n' G' active g work' (transport hΦ T w) d = Step.waves b dims r fl n G active g work w (π d) := by
  obtain ⟨a1, a2⟩ := waves_greatest (b := b) hL hf hN hpos hw w
  obtain ⟨b1, b2⟩ := waves_greatest (b := b) hL' hf hN' hpos hw' (transport hΦ T w)
  by_cases hd : d < dims
  · have hπ := (hΦ.lt d).2 hd
    refine (b1 d hd).unique ?_
    have hset : speeds r fl (Step.extend b n' G' g dims (transport hΦ T w)) n' G' 0 0 d = speeds r fl (Step.extend b n G g dims w) n G 0 0 (π d) := by
      have hface : ∀ q, IsFace n' G' 0 0 d q → (face r fl (Step.extend b n' G' g dims (transport hΦ T w)) d q).2 =
          (face r fl (Step.extend b n G g dims w) (π d) (if flip d then Φ q - I3.dir (π d) else Φ q)).2 := by
        intro q hq
        rw [Step.face_congr_full hL' hf hd (v := fun p => T (Step.extend b n G g dims w (Φ p))) (fun q hq => extend_map hL' hN' hΦ w hq) hq,
          face_map hΦ.step hL.dims_le hΦ.lt hfair _ hd]
        split_ifs <;> rfl
      ext x
      simp only [speeds, Set.mem_union, Set.mem_singleton_iff, Set.mem_ofPred_eq]
      refine or_congr_right ⟨?_, ?_⟩
      · rintro ⟨q, hq, rfl⟩
        exact ⟨_, hΦ.face d hd q hq, hface q hq⟩
      · rintro ⟨q, hq, rfl⟩
        obtain ⟨q', h1, h2⟩ := hΦ.surj d hd q hq
        exact ⟨q', h1, by rw [hface q' h1, h2]⟩
    rw [hset]
    exact a1 _ hπ
  · rw [b2 d (by omega), a2 (π d) (by have := hΦ.lt d; omega)]

theorem total_map (hΦ : GridMap b g dims n G n' G' Φ π flip) (waveAdj : List (K → K)) (len len' : Nat → K) (hlen : ∀ d < 3, len' d = len (π d)) (ws ws' : Nat → K) (hws : ∀ d, ws' d = ws (π d)) :
    waveSpeedTotal waveAdj ws' len' = waveSpeedTotal waveAdj ws len := by
  have e : ∀ (ws len : Nat → K), waveSpeedTotal waveAdj ws len = ((List.range 3).map fun d => waveAdj.foldl (fun w f => f w) (ws d) / len d).sum := by
    intro ws len
    simp only [waveSpeedTotal, List.range_succ, List.range_zero, List.nil_append, List.cons_append, List.foldl_cons, List.foldl_nil, List.map_cons, List.map_nil, List.sum_cons, List.sum_nil]
    split_ifs <;> (simp [*]; try ring)
  rw [e, e, ← (hΦ.perm3.map fun d => waveAdj.foldl (fun w f => f w) (ws d) / len d).sum_eq, List.map_map]
  congr 1
  refine List.map_congr_left fun d hd => ?_
  simp only [Function.comp, hws, hlen d (List.mem_range.1 hd)]

end

section
variable {K V σ : Type} [Field K] [LinearOrder K] [IsStrictOrderedRing K] [AddCommGroup V] [Module K V]

/-- What two runs have in common if the states of the second one are related to those of the first one by `Rel`: both fail in the same way, both are unfinished, or both are finished with the same
time, the same state of the writers, related solutions, and the same calls of the writers with related states. -/
def SameRuns (Rel : (I3 → V) → (I3 → V) → Prop) (a a' : Res (Option (Sim (I3 → V) K σ))) : Prop :=
  Related.RelRes (Related.RelOpt fun s s' => s'.info = s.info ∧ s'.ws = s.ws ∧ (∃ v v', s.vols[0]? = some v ∧ s'.vols[0]? = some v' ∧ Rel v v') ∧
    List.Forall₂ (fun call call' => call'.writer = call.writer ∧ call'.info = call.info ∧ Rel call.state call'.state) s.log s'.log) a a'

/-- Runs of two schemes whose right hand sides and wave speeds are related by a linear map of the states. -/
theorem run_linear {b : BC} {g dims : Nat} {n G n' G' active : I3} {r : Recon V} {fl : FluxFn V K}
    (hL : Layout n G active dims g) (hL' : Layout n' G' active dims g) (hf : Fits r fl g) (hN : ∀ d < dims, 3 * G.get d ≤ n.get d) (hN' : ∀ d < dims, 3 * G'.get d ≤ n'.get d)
    (hpos : 0 < dims) {work work' : NetFlux.State V K} (hw : Sized n work) (hw' : Sized n' work') (S : (Step.Cells n G → V) →ₗ[K] (Step.Cells n' G' → V))
    (k : Kind) (waveAdj : List (K → K)) (len : Nat → K)
    (hrhs : ∀ w, Step.rhs b dims r fl n' G' g (S w) = S (Step.rhs b dims r fl n G g w))
    (hspeed : ∀ w, waveSpeedTotal waveAdj (Step.waves b dims r fl n' G' active g work' (S w)) len = waveSpeedTotal waveAdj (Step.waves b dims r fl n G active g work w) len)
    (Rel : (I3 → V) → (I3 → V) → Prop) (hRel : ∀ v v', Rel v v' ↔ Step.int (K := K) n' G' v' = S (Step.int (K := K) n G v)) (cfl endTime : K) (obeys obeys' : (I3 → V) → Bool)
    (hobeys : ∀ v v', Rel v v' → obeys' v' = obeys v) (writers : List ((I3 → V) → TimeInfo K → σ → Res σ))
    (hwr : ∀ f ∈ writers, ∀ v v' info st, f v info st = f v' info st) (adj : σ → List (Adjuster K))
    (c c' : Config (I3 → V) K σ) (hc : c = ⟨k, ⟨Step.cpuSystem dims r fl n G active work, waveAdj, len, cfl⟩, Step.cpuBoundary b n g dims, obeys, writers, adj, endTime⟩)
    (hc' : c' = ⟨k, ⟨Step.cpuSystem dims r fl n' G' active work', waveAdj, len, cfl⟩, Step.cpuBoundary b n' g dims, obeys', writers, adj, endTime⟩)
    (u u' : I3 → V) (hu : Rel u u') (others others' : List (I3 → V)) (ho : others.length = k.substeps) (ho' : others'.length = k.substeps) (wst : σ) (fuel : Nat) :
    SameRuns Rel (start c u others wst >>= run c fuel) (start c' u' others' wst >>= run c' fuel) := by
  subst hc hc'
  have ha := Related.run_rel (S := S) (Rw := Eq)
    (c := (⟨k, ⟨Step.cpuSystem dims r fl n G active work, waveAdj, len, cfl⟩, Step.cpuBoundary b n g dims, obeys, writers, adj, endTime⟩ : Config (I3 → V) K σ))
    (c' := (⟨k, ⟨Step.cpuSystem dims r fl n' G' active work', waveAdj, len, cfl⟩, Step.cpuBoundary b n' g dims, obeys', writers, adj, endTime⟩ : Config (I3 → V) K σ))
    ⟨Step.sound (b := b) hL hf hN hpos hw, Step.sound (b := b) hL' hf hN' hpos hw', rfl, hrhs, hspeed, rfl, rfl, rfl,
      fun v v' _ _ h => hobeys v v' ((hRel v v').2 h), fun st st' h => by rw [h], by
        refine List.forall₂_same.2 fun f hf v v' info st st' _ hst => ?_
        subst hst
        rw [hwr f hf v' v]
        cases f v info st <;> rfl⟩
    fuel u u' ((hRel u u').1 hu) others others' ho ho' wst wst rfl
  refine ha.mono ?_
  intro a a' h
  cases a <;> cases a' <;> try exact h
  obtain ⟨-, -, ⟨v, v', h1, h2, -, -, h3⟩, h4, h5, h6⟩ := h
  exact ⟨h4, h5.symm, ⟨v, v', h1, h2, (hRel v v').2 h3⟩, h6.imp fun a a' ⟨i1, i2, i3⟩ => ⟨i1, i2, (hRel _ _).2 i3⟩⟩

/-- Runs of a scheme that behaves alike under a map of the cells: with the data transported by the map, everything is transported by the map. The writers may not make their schedule depend on the
solution. -/
theorem run_map {b : BC} {g dims : Nat} {n G n' G' active : I3} {Φ : I3 → I3} {π : Nat → Nat} {flip : Nat → Bool} {r : Recon V} {fl : FluxFn V K} {T : V →ₗ[K] V}
    (hL : Layout n G active dims g) (hL' : Layout n' G' active dims g) (hf : Fits r fl g) (hN : ∀ d < dims, 3 * G.get d ≤ n.get d) (hN' : ∀ d < dims, 3 * G'.get d ≤ n'.get d)
    (hpos : 0 < dims) {work work' : NetFlux.State V K} (hw : Sized n work) (hw' : Sized n' work') (hΦ : GridMap b g dims n G n' G' Φ π flip) (hfair : Fair r fl T dims π flip)
    (k : Kind) (waveAdj : List (K → K)) (len : Nat → K) (hlen : ∀ d < 3, len d = len (π d)) (cfl endTime : K) (obeys obeys' : (I3 → V) → Bool)
    (hobeys : ∀ v v', (∀ p, IsInterior n' G' p → v' p = T (v (Φ p))) → obeys' v' = obeys v) (writers : List ((I3 → V) → TimeInfo K → σ → Res σ))
    (hwr : ∀ f ∈ writers, ∀ v v' info st, f v info st = f v' info st) (adj : σ → List (Adjuster K))
    (c c' : Config (I3 → V) K σ) (hc : c = ⟨k, ⟨Step.cpuSystem dims r fl n G active work, waveAdj, len, cfl⟩, Step.cpuBoundary b n g dims, obeys, writers, adj, endTime⟩)
    (hc' : c' = ⟨k, ⟨Step.cpuSystem dims r fl n' G' active work', waveAdj, len, cfl⟩, Step.cpuBoundary b n' g dims, obeys', writers, adj, endTime⟩)
    (u u' : I3 → V) (hu : ∀ p, IsInterior n' G' p → u' p = T (u (Φ p))) (others others' : List (I3 → V)) (ho : others.length = k.substeps) (ho' : others'.length = k.substeps) (wst : σ)
    (fuel : Nat) :
    SameRuns (fun v v' => ∀ p, IsInterior n' G' p → v' p = T (v (Φ p))) (start c u others wst >>= run c fuel) (start c' u' others' wst >>= run c' fuel) :=
  run_linear hL hL' hf hN hN' hpos hw hw' (transport hΦ T) k waveAdj len (rhs_map hL hL' hf hN' hΦ hfair)
    (fun w => total_map hΦ waveAdj len len hlen _ _ fun d => waves_map hL hL' hf hN hN' hpos hw hw' hΦ hfair w d) _
    (fun _ _ => ⟨fun h => funext fun p => h p p.2, fun h p hp => congrFun h ⟨p, hp⟩⟩) cfl endTime obeys obeys' hobeys writers hwr adj c c' hc hc' u u' hu others others' ho ho' wst fuel

end

/-! ### Mirrors and exchanges of axes -/

theorem ext_get {p q : I3} (h : ∀ d < 3, p.get d = q.get d) : p = q := by
  ext
  · exact h 0 (by omega)
  · exact h 1 (by omega)
  · exact h 2 (by omega)

theorem add_get (p q : I3) (d : Nat) : (p + q).get d = p.get d + q.get d := by unfold I3.get; split_ifs <;> rfl
theorem sub_get (p q : I3) (d : Nat) : (p - q).get d = p.get d - q.get d := by unfold I3.get; split_ifs <;> rfl

theorem step_get (d : Nat) (o : Int) {e : Nat} (hd : d < 3) (he : e < 3) : (NetFlux.step d o).get e = if e = d then o else 0 := by
  interval_cases d <;> interval_cases e <;> rfl

theorem ghost_get (b : BC) (g : Int) (N : I3) (dims : Nat) (p : I3) {e : Nat} (he : e < 3) :
    (Boundary.ghostSource b g N dims (fun _ => false) p).get e = if e < dims then Boundary.image b g (N.get e) (p.get e) else p.get e := by
  interval_cases e <;> simp [Boundary.ghostSource, I3.get, Boundary.imageDir]

theorem isFace_get {n G : I3} {d : Nat} {q : I3} (hd : d < 3) : IsFace n G 0 0 d q ↔ ∀ e < 3, G.get e - (if e = d then 1 else 0) ≤ q.get e ∧ q.get e < n.get e - G.get e := by
  simp only [IsFace, mem_box, I3.add_x, I3.add_y, I3.add_z, I3.sub_x, I3.sub_y, I3.sub_z, I3.zero_x, I3.zero_y, I3.zero_z, I3.dir]
  constructor
  · rintro ⟨h0, h1, h2⟩ e he
    interval_cases e <;> simp only [I3.get] <;> interval_cases d <;> simp at * <;> omega
  · intro h
    have h0 := h 0 (by omega)
    have h1 := h 1 (by omega)
    have h2 := h 2 (by omega)
    simp only [I3.get] at h0 h1 h2
    interval_cases d <;> simp at * <;> omega

theorem inSize_get {n p : I3} : inSize n p = true ↔ ∀ e < 3, 0 ≤ p.get e ∧ p.get e < n.get e := by
  rw [inSize_iff]
  constructor
  · rintro ⟨h0, h1, h2, h3, h4, h5⟩ e he
    interval_cases e <;> simp only [I3.get] <;> simp <;> omega
  · intro h
    have h0 := h 0 (by omega)
    have h1 := h 1 (by omega)
    have h2 := h 2 (by omega)
    simp [I3.get] at h0 h1 h2
    omega

/-- The cell at the other side in the directions of `M`. -/
def mirror (n : I3) (M : Nat → Bool) (p : I3) : I3 :=
  ⟨if M 0 then n.x - 1 - p.x else p.x, if M 1 then n.y - 1 - p.y else p.y, if M 2 then n.z - 1 - p.z else p.z⟩

/-- Exchange of two directions. -/
def exch (i j d : Nat) : Nat := if d = i then j else if d = j then i else d

/-- The cell with two coordinates exchanged. -/
def exchange (i j : Nat) (p : I3) : I3 := ⟨p.get (exch i j 0), p.get (exch i j 1), p.get (exch i j 2)⟩

theorem mirror_get (n : I3) (M : Nat → Bool) (p : I3) {e : Nat} (he : e < 3) : (mirror n M p).get e = if M e then n.get e - 1 - p.get e else p.get e := by
  interval_cases e <;> rfl

theorem exchange_get (i j : Nat) (p : I3) {e : Nat} (he : e < 3) : (exchange i j p).get e = p.get (exch i j e) := by
  interval_cases e <;> rfl

theorem exch_exch (i j d : Nat) : exch i j (exch i j d) = d := by
  unfold exch
  split_ifs <;> omega

theorem exch_lt {i j k : Nat} (hi : i < k) (hj : j < k) (d : Nat) : exch i j d < k ↔ d < k := by
  unfold exch
  split_ifs <;> omega

theorem exch_perm {i j k : Nat} (hi : i < k) (hj : j < k) : ((List.range k).map (exch i j)).Perm (List.range k) := by
  refine (List.perm_ext_iff_of_nodup (List.nodup_range.map fun a b h => ?_) List.nodup_range).2 fun a => ?_
  · rw [← exch_exch i j a, h, exch_exch]
  · simp only [List.mem_map, List.mem_range]
    exact ⟨fun ⟨b, h1, h2⟩ => h2 ▸ (exch_lt hi hj b).2 h1, fun h => ⟨exch i j a, (exch_lt hi hj a).2 h, exch_exch i j a⟩⟩

theorem image_mirror (b : BC) {g N : Int} (c : Int) (hpos : 1 ≤ N) :
    Boundary.image b g N (N + 2 * g - 1 - c) = N + 2 * g - 1 - Boundary.image b g N c := by
  cases b
  · simp only [Boundary.image, Boundary.mirror]
    split_ifs <;> omega
  · simp only [Boundary.image, Boundary.wrap]
    have e1 : c - g = (c - g) % N + N * ((c - g) / N) := (Int.emod_add_mul_ediv _ _).symm
    have h2 := Int.emod_nonneg (c - g) (show N ≠ 0 by omega)
    have h3 := Int.emod_lt_of_pos (c - g) (show 0 < N by omega)
    have e2 : (N + 2 * g - 1 - c - g) % N = N - 1 - (c - g) % N := by
      rw [show N + 2 * g - 1 - c - g = (N - 1 - (c - g) % N) + N * (-((c - g) / N)) by rw [mul_neg]; omega, Int.add_mul_emod_self_left]
      exact Int.emod_eq_of_lt (by omega) (by omega)
    omega

theorem mirror_map (b : BC) {g dims : Nat} {n G active : I3} (hL : Layout n G active dims g) (M : Nat → Bool) :
    GridMap b g dims n G n G (mirror n M) id M := by
  have hd3 := hL.dims_le
  have key : ∀ d < 3, ∀ q, ∀ e < 3, (if M d = true then mirror n M q - I3.dir (id d) else mirror n M q).get e = if M e then n.get e - 1 - q.get e - (if e = d then 1 else 0) else q.get e := by
    intro d hd q e he
    by_cases h : M d = true
    · simp only [if_pos h, id, dir_step d hd, sub_get, mirror_get n M _ he, step_get d _ hd he]
      by_cases hed : e = d
      · subst hed
        simp only [h, if_true]
      · simp only [if_neg hed, sub_zero]
    · simp only [if_neg h, mirror_get n M _ he]
      by_cases hed : e = d
      · subst hed
        simp only [if_neg h]
      · simp only [if_neg hed, sub_zero]
  have hface : ∀ d < 3, ∀ q, IsFace n G 0 0 d q → IsFace n G 0 0 d (if M d = true then mirror n M q - I3.dir (id d) else mirror n M q) := by
    intro d hd q hq
    rw [isFace_get hd] at hq ⊢
    intro e he
    rw [key d hd q e he]
    have h1 := hq e he
    split_ifs at * <;> omega
  refine ⟨?_, by simp, by simp, fun d => Iff.rfl, ?_, ?_, fun d hd q hq => hface d (by omega) q hq, ?_⟩
  · intro d hd p o
    refine ext_get fun e he => ?_
    simp only [mirror_get n M _ he, add_get, step_get d _ (show d < 3 by omega) he, id]
    by_cases h : e = d
    · subst h
      simp only [if_true]
      split_ifs <;> omega
    · simp only [if_neg h]
      split_ifs <;> omega
  · intro p hp e he
    rw [mirror_get n M _ he]
    have h1 := hp e he
    split_ifs with h
    · omega
    · exact h1
  · intro p hp
    refine ext_get fun e he => ?_
    simp only [mirror_get n M _ he, ghost_get b g _ dims _ he, sub_get]
    have h2 := hL.gst e he
    have h3 := hL.size e he
    split_ifs at h2 ⊢ with h4 h5
    · have := image_mirror b (g := g) (N := n.get e - G.get e - G.get e) (p.get e) (by omega)
      rw [show n.get e - 1 - p.get e = n.get e - G.get e - G.get e + 2 * (g : Int) - 1 - p.get e by omega, this]
      omega
    · rfl
    · rfl
    · rfl
  · intro d hd q hq
    have hd' : d < 3 := by omega
    refine ⟨_, hface d hd' q hq, ext_get fun e he => ?_⟩
    rw [key d hd' _ e he, key d hd' q e he]
    split_ifs <;> omega

theorem exchange_map (b : BC) {g dims : Nat} {n G active : I3} (hL : Layout n G active dims g) {i j : Nat} (hi : i < dims) (hj : j < dims) :
    GridMap b g dims n G (exchange i j n) G (exchange i j) (exch i j) (fun _ => false) := by
  have hd3 := hL.dims_le
  have l3 : ∀ d, exch i j d < 3 ↔ d < 3 := exch_lt (by omega) (by omega)
  have ld : ∀ d, exch i j d < dims ↔ d < dims := exch_lt hi hj
  have hG : ∀ d < 3, G.get (exch i j d) = G.get d := by
    intro d hd
    rw [hL.gst d hd, hL.gst _ ((l3 d).2 hd)]
    simp only [ld]
  have inv : ∀ p, exchange i j (exchange i j p) = p := by
    intro p
    refine ext_get fun e he => ?_
    rw [exchange_get i j _ he, exchange_get i j _ ((l3 e).2 he), exch_exch]
  have hface : ∀ d < 3, ∀ m q, IsFace (exchange i j m) G 0 0 d q → IsFace m G 0 0 (exch i j d) (exchange i j q) := by
    intro d hd m q hq
    rw [isFace_get hd] at hq
    refine (isFace_get ((l3 d).2 hd)).2 fun e he => ?_
    have h1 := hq _ ((l3 e).2 he)
    rw [exchange_get i j _ he]
    rw [hG e he, exchange_get i j _ ((l3 e).2 he), exch_exch] at h1
    have : exch i j e = d ↔ e = exch i j d := ⟨fun h => by rw [← h, exch_exch], fun h => by rw [h, exch_exch]⟩
    simpa only [this] using h1
  refine ⟨?_, exch_perm hi hj, exch_perm (by omega) (by omega), ld, ?_, ?_, ?_, ?_⟩
  · intro d hd p o
    refine ext_get fun e he => ?_
    have hd' : d < 3 := by omega
    rw [exchange_get i j _ he, add_get, add_get, exchange_get i j _ he, step_get d _ hd' ((l3 e).2 he), step_get _ _ ((l3 d).2 hd') he]
    have : exch i j e = d ↔ e = exch i j d := ⟨fun h => by rw [← h, exch_exch], fun h => by rw [h, exch_exch]⟩
    simp only [this, Bool.false_eq_true, if_false]
  · intro p hp e he
    have h1 := hp _ ((l3 e).2 he)
    rw [hG e he, exchange_get i j _ ((l3 e).2 he), exch_exch] at h1
    rwa [exchange_get i j _ he]
  · intro p hp
    refine ext_get fun e he => ?_
    rw [ghost_get b g _ dims _ he, exchange_get i j _ he, exchange_get i j _ he, ghost_get b g _ dims _ ((l3 e).2 he)]
    simp only [ld, sub_get, exchange_get i j _ ((l3 e).2 he), exch_exch, hG e he]
  · intro d hd q hq
    simp only [Bool.false_eq_true, if_false]
    exact hface d (by omega) n q hq
  · intro d hd q hq
    refine ⟨exchange i j q, ?_, by simp only [Bool.false_eq_true, if_false]; exact inv q⟩
    have := hface (exch i j d) ((l3 d).2 (by omega)) (exchange i j n) q (by rwa [inv])
    rwa [exch_exch] at this

theorem exchange_layout {g dims : Nat} {n G active : I3} (hL : Layout n G active dims g) {i j : Nat} (hi : i < dims) (hj : j < dims) : Layout (exchange i j n) G active dims g := by
  have hd3 := hL.dims_le
  refine ⟨hL.dims_le, hL.act, hL.gst, fun d hd => ?_⟩
  have l3 := (exch_lt (show i < 3 by omega) (show j < 3 by omega) d).2 hd
  have h1 := hL.size _ l3
  rw [hL.gst _ l3] at h1
  rw [hL.gst d hd, exchange_get i j _ hd]
  simpa only [exch_lt hi hj] using h1

theorem exchange_room {g dims : Nat} {n G active : I3} (hL : Layout n G active dims g) (hN : ∀ d < dims, 3 * G.get d ≤ n.get d) {i j : Nat} (hi : i < dims) (hj : j < dims) :
    ∀ d < dims, 3 * G.get d ≤ (exchange i j n).get d := by
  intro d hd
  have hd3 := hL.dims_le
  have l := (exch_lt hi hj d).2 hd
  have h1 := hN _ l
  rw [hL.gst _ (by omega), if_pos l] at h1
  rw [hL.gst d (by omega), if_pos hd, exchange_get i j _ (by omega)]
  exact h1

/-! ### Shifts -/

section
variable {K V σ : Type} [Field K] [LinearOrder K] [IsStrictOrderedRing K] [AddCommGroup V] [Module K V] {g dims : Nat} {n G active : I3} {r : Recon V} {fl : FluxFn V K} {s : I3}

/-- The cell reached by a shift on a periodic domain. -/
def shift (n G s p : I3) : I3 :=
  ⟨G.x + (p.x - G.x + s.x) % (n.x - 2 * G.x), G.y + (p.y - G.y + s.y) % (n.y - 2 * G.y), G.z + (p.z - G.z + s.z) % (n.z - 2 * G.z)⟩

theorem shift_get (n G s p : I3) {e : Nat} (he : e < 3) : (shift n G s p).get e = G.get e + (p.get e - G.get e + s.get e) % (n.get e - 2 * G.get e) := by
  interval_cases e <;> rfl

theorem shift_interior (hL : Layout n G active dims g) (s p : I3) : IsInterior n G (shift n G s p) := by
  intro e he
  have h1 := hL.size e he
  rw [shift_get n G s p he]
  have h2 := Int.emod_nonneg (p.get e - G.get e + s.get e) (show n.get e - 2 * G.get e ≠ 0 by omega)
  have h3 := Int.emod_lt_of_pos (p.get e - G.get e + s.get e) (show 0 < n.get e - 2 * G.get e by omega)
  omega

/-- A cell that is in the volume in the directions without boundary condition. -/
def Inner (n : I3) (dims : Nat) (p : I3) : Prop := ∀ e < 3, dims ≤ e → 0 ≤ p.get e ∧ p.get e < n.get e

theorem shift_eq (hL : Layout n G active dims g) (hs : ∀ e < 3, dims ≤ e → s.get e = 0) {p : I3} (hp : Inner n dims p) :
    Boundary.ghostSource .periodic g (n - G - G) dims (fun _ => false) (p + s) = shift n G s p := by
  refine ext_get fun e he => ?_
  rw [ghost_get _ _ _ _ _ he, shift_get n G s p he, add_get, sub_get, sub_get]
  have h1 := hL.gst e he
  split_ifs with h
  · rw [if_pos h] at h1
    simp only [Boundary.image, Boundary.wrap, ← h1]
    rw [show p.get e + s.get e - G.get e = p.get e - G.get e + s.get e by omega, show n.get e - G.get e - G.get e = n.get e - 2 * G.get e by omega]
  · rw [if_neg h] at h1
    have := hp e he (by omega)
    rw [hs e he (by omega), h1, Int.emod_eq_of_lt] <;> omega

/-- The state moved by a shift. -/
def moved (hL : Layout n G active dims g) (s : I3) : (Step.Cells n G → V) →ₗ[K] (Step.Cells n G → V) where
  toFun w p := w ⟨shift n G s p, shift_interior hL s p⟩
  map_add' _ _ := rfl
  map_smul' _ _ := rfl

omit [LinearOrder K] [IsStrictOrderedRing K] in
theorem extend_moved (hL : Layout n G active dims g) (hs : ∀ e < 3, dims ≤ e → s.get e = 0) (w : Step.Cells n G → V) {p : I3} (hp : Inner n dims p) :
    Step.extend .periodic n G g dims (moved (K := K) hL s w) p = Step.extend .periodic n G g dims w (p + s) := by
  have h0 : Boundary.ghostSource .periodic g (n - G - G) dims (fun _ => false) p = shift n G 0 p := by
    rw [← shift_eq hL (s := 0) (fun e he _ => by interval_cases e <;> rfl) hp]
    congr 1
    ext <;> simp
  have hi := shift_interior hL 0 p
  unfold Step.extend
  rw [dif_pos (by rw [h0]; exact hi), dif_pos (by rw [shift_eq hL hs hp]; exact shift_interior hL s p)]
  simp only [moved, LinearMap.coe_mk, AddHom.coe_mk, h0, shift_eq hL hs hp]
  congr 2
  refine ext_get fun e he => ?_
  rw [shift_get _ _ _ _ he, shift_get _ _ _ _ he, shift_get _ _ _ _ he]
  have : (0 : I3).get e = 0 := by interval_cases e <;> rfl
  rw [this, add_sub_cancel_left, add_zero, Int.emod_add_emod]

theorem extend_shift (hL : Layout n G active dims g) (hs : ∀ e < 3, dims ≤ e → s.get e = 0) (w : Step.Cells n G → V) {p : I3} (hp : Inner n dims p) (q : I3) (hq : ∀ e < 3, dims ≤ e → q.get e = 0) :
    Step.extend .periodic n G g dims w (shift n G s p + q) = Step.extend .periodic n G g dims w (p + s + q) := by
  have e1 : p + s + q = p + (s + q) := by ext <;> simp [add_assoc]
  have hp' : Inner n dims (shift n G s p) := fun e he hde => by
    have h1 := shift_interior hL s p e he
    have h2 := hL.gst e he
    rw [if_neg (by omega)] at h2
    omega
  have e2 : Boundary.ghostSource .periodic g (n - G - G) dims (fun _ => false) (shift n G s p + q) = Boundary.ghostSource .periodic g (n - G - G) dims (fun _ => false) (p + s + q) := by
    rw [e1, shift_eq hL (fun e he h => by rw [add_get, hs e he h, hq e he h]; rfl) hp, shift_eq hL hq hp']
    refine ext_get fun e he => ?_
    rw [shift_get _ _ _ _ he, shift_get _ _ _ _ he, shift_get _ _ _ _ he, add_get, add_sub_cancel_left, Int.emod_add_emod, add_assoc]
  unfold Step.extend
  simp only [e2]

omit [Field K] [LinearOrder K] [IsStrictOrderedRing K] [Module K V] in
theorem face_shift (hL : Layout n G active dims g) (hs : ∀ e < 3, dims ≤ e → s.get e = 0) (w : Step.Cells n G → V) {p : I3} (hp : Inner n dims p) {d : Nat} (hd : d < dims) (j : Int) :
    face r fl (fun p => Step.extend .periodic n G g dims w (p + s)) d (p + NetFlux.step d j) = face r fl (Step.extend .periodic n G g dims w) d (shift n G s p + NetFlux.step d j) := by
  have := hL.dims_le
  rw [face_line, face_line]
  congr 1
  funext o
  rw [add_step, add_step, extend_shift hL hs w hp _ fun e he hde => by rw [step_get d _ (by omega) he, if_neg (by omega)]]
  congr 1
  ext <;> simp <;> omega

theorem inner_of_inSize (hp : inSize n p = true) : Inner n dims p := fun e he _ => inSize_get.1 hp e he

theorem inSize_of_interior (hL : Layout n G active dims g) {p : I3} (hp : IsInterior n G p) : inSize n p = true :=
  inSize_get.2 fun e he => by
    have h1 := hp e he
    have h2 := hL.gst e he
    split_ifs at h2 <;> omega

omit [LinearOrder K] [IsStrictOrderedRing K] in
theorem rhs_moved (hL : Layout n G active dims g) (hf : Fits r fl g) (hs : ∀ e < 3, dims ≤ e → s.get e = 0) (w : Step.Cells n G → V) :
    Step.rhs .periodic dims r fl n G g (moved (K := K) hL s w) = moved (K := K) hL s (Step.rhs .periodic dims r fl n G g w) := by
  have h3 := hL.dims_le
  funext p
  simp only [Step.rhs, moved, LinearMap.coe_mk, AddHom.coe_mk]
  have e := Step.net_congr_full (u := Step.extend .periodic n G g dims (moved (K := K) hL s w)) hL hf (v := fun p => Step.extend .periodic n G g dims w (p + s))
    (fun q hq => extend_moved hL hs w (inner_of_inSize hq)) p.2
  refine e.trans ?_
  have hp := inner_of_inSize (dims := dims) (inSize_of_interior hL p.2)
  unfold net
  congr 1
  refine List.map_congr_left fun d hd => ?_
  have hd := List.mem_range.1 hd
  have f0 := face_shift (r := r) (fl := fl) hL hs w hp hd 0
  have f1 := face_shift (r := r) (fl := fl) hL hs w hp hd (-1)
  rw [step_zero, step_zero] at f0
  rw [← sub_dir _ _ (show d < 3 by omega), ← sub_dir _ _ (show d < 3 by omega)] at f1
  rw [f0, f1]

theorem waves_moved (hL : Layout n G active dims g) (hf : Fits r fl g) (hN : ∀ d < dims, 3 * G.get d ≤ n.get d) (hpos : 0 < dims) {work work' : NetFlux.State V K} (hw : Sized n work)
    (hw' : Sized n work') (hs : ∀ e < 3, dims ≤ e → s.get e = 0) (w : Step.Cells n G → V) :
    Step.waves .periodic dims r fl n G active g work' (moved (K := K) hL s w) = Step.waves .periodic dims r fl n G active g work w := by
  have h3 := hL.dims_le
  obtain ⟨a1, a2⟩ := waves_greatest (b := .periodic) hL hf hN hpos hw w
  obtain ⟨b1, b2⟩ := waves_greatest (b := .periodic) hL hf hN hpos hw' (moved (K := K) hL s w)
  funext d
  by_cases hd : d < dims
  · have hd3 : d < 3 := by omega
    refine (b1 d hd).unique ?_
    have hin : ∀ {q}, IsFace n G 0 0 d q → Inner n dims q := by
      intro q hq e he hde
      have h1 := (isFace_get hd3).1 hq e he
      have h2 := hL.gst e he
      rw [if_neg (by omega)] at h1 h2
      omega
    have hface : ∀ q, IsFace n G 0 0 d q → (face r fl (Step.extend .periodic n G g dims (moved (K := K) hL s w)) d q).2 =
        (face r fl (Step.extend .periodic n G g dims w) d (shift n G s q)).2 := by
      intro q hq
      rw [Step.face_congr_full hL hf hd (v := fun p => Step.extend .periodic n G g dims w (p + s)) (fun q hq => extend_moved hL hs w (inner_of_inSize hq)) hq]
      have f0 := face_shift (r := r) (fl := fl) hL hs w (hin hq) hd 0
      rw [step_zero, step_zero] at f0
      rw [f0]
    have hIF : ∀ {q}, IsInterior n G q → IsFace n G 0 0 d q := fun h => (isFace_get hd3).2 fun e he => by
      have := h e he
      split_ifs <;> omega
    have hset : speeds r fl (Step.extend .periodic n G g dims (moved (K := K) hL s w)) n G 0 0 d = speeds r fl (Step.extend .periodic n G g dims w) n G 0 0 d := by
      ext x
      simp only [speeds, Set.mem_union, Set.mem_singleton_iff, Set.mem_ofPred_eq]
      refine or_congr_right ⟨?_, ?_⟩
      · rintro ⟨q, hq, rfl⟩
        exact ⟨_, hIF (shift_interior hL s q), hface q hq⟩
      · rintro ⟨q, hq, rfl⟩
        have hneg : ∀ e < 3, dims ≤ e → (-s).get e = 0 := fun e he h => by
          have := hs e he h
          interval_cases e <;> simp [I3.get] at * <;> omega
        refine ⟨shift n G (-s) q, hIF (shift_interior hL _ q), ?_⟩
        rw [hface _ (hIF (shift_interior hL _ q))]
        have f0 := face_shift (r := r) (fl := fl) (s := 0) hL (fun e he _ => by interval_cases e <;> rfl) w (hin hq) hd 0
        have e0 : shift n G s (shift n G (-s) q) = shift n G 0 q := by
          refine ext_get fun e he => ?_
          rw [shift_get _ _ _ _ he, shift_get _ _ _ _ he, shift_get _ _ _ _ he, add_sub_cancel_left, Int.emod_add_emod]
          have : (-s).get e = - s.get e := by interval_cases e <;> rfl
          have h0 : (0 : I3).get e = 0 := by interval_cases e <;> rfl
          rw [this, h0, neg_add_cancel_right, add_zero]
        have e1 : ∀ p : I3, p + 0 = p := fun p => by ext <;> simp
        simp only [step_zero, e1] at f0
        rw [e0, ← f0]
    rw [hset]
    exact a1 _ hd
  · rw [b2 d (by omega), a2 d (by omega)]

/-- Runs on a periodic domain from shifted data. -/
theorem run_shift (hL : Layout n G active dims g) (hf : Fits r fl g) (hN : ∀ d < dims, 3 * G.get d ≤ n.get d) (hpos : 0 < dims) {work work' : NetFlux.State V K} (hw : Sized n work)
    (hw' : Sized n work') (hs : ∀ e < 3, dims ≤ e → s.get e = 0) (k : Kind) (waveAdj : List (K → K)) (len : Nat → K) (cfl endTime : K) (obeys obeys' : (I3 → V) → Bool)
    (hobeys : ∀ v v', (∀ p, IsInterior n G p → v' p = v (shift n G s p)) → obeys' v' = obeys v) (writers : List ((I3 → V) → TimeInfo K → σ → Res σ))
    (hwr : ∀ f ∈ writers, ∀ v v' info st, f v info st = f v' info st) (adj : σ → List (Adjuster K))
    (c c' : Config (I3 → V) K σ) (hc : c = ⟨k, ⟨Step.cpuSystem dims r fl n G active work, waveAdj, len, cfl⟩, Step.cpuBoundary .periodic n g dims, obeys, writers, adj, endTime⟩)
    (hc' : c' = ⟨k, ⟨Step.cpuSystem dims r fl n G active work', waveAdj, len, cfl⟩, Step.cpuBoundary .periodic n g dims, obeys', writers, adj, endTime⟩)
    (u u' : I3 → V) (hu : ∀ p, IsInterior n G p → u' p = u (shift n G s p)) (others others' : List (I3 → V)) (ho : others.length = k.substeps) (ho' : others'.length = k.substeps) (wst : σ)
    (fuel : Nat) :
    SameRuns (fun v v' => ∀ p, IsInterior n G p → v' p = v (shift n G s p)) (start c u others wst >>= run c fuel) (start c' u' others' wst >>= run c' fuel) :=
  run_linear hL hL hf hN hN hpos hw hw' (moved hL s) k waveAdj len (rhs_moved hL hf hs) (fun w => by rw [waves_moved hL hf hN hpos hw hw' hs w]) _
    (fun _ _ => ⟨fun h => funext fun p => h p p.2, fun h p hp => congrFun h ⟨p, hp⟩⟩) cfl endTime obeys obeys' hobeys writers hwr adj c c' hc hc' u u' hu others others' ho ho' wst fuel

end

end Symmetry
end Verif
