import Verif.Iterate
import Mathlib.Tactic.Linarith

/-! Helper lemmas for C62 and C63. -/

namespace Verif
namespace Iterate

/-- The place of the cell `c` in a memory area of `total` cells (C01). -/
def cellIndex (total c : I3) : Nat := calculateIndex c.x.toNat c.y.toNat c.z.toNat total.x.toNat total.y.toNat

/-- `c` is one of the cells of a block of the given size, starting at zero. -/
def InBlock (n c : I3) : Prop := (0 ≤ c.x ∧ c.x < n.x) ∧ (0 ≤ c.y ∧ c.y < n.y) ∧ (0 ≤ c.z ∧ c.z < n.z)

theorem cellIndex_cast {total c : I3} (ht : 0 ≤ total.x ∧ 0 ≤ total.y) (hc : 0 ≤ c.x ∧ 0 ≤ c.y ∧ 0 ≤ c.z) :
    (cellIndex total c : Int) = c.z * total.x * total.y + c.y * total.x + c.x := by
  obtain ⟨a, ha⟩ := Int.eq_ofNat_of_zero_le ht.1
  obtain ⟨b, hb⟩ := Int.eq_ofNat_of_zero_le ht.2
  obtain ⟨x, hx⟩ := Int.eq_ofNat_of_zero_le hc.1
  obtain ⟨y, hy⟩ := Int.eq_ofNat_of_zero_le hc.2.1
  obtain ⟨z, hz⟩ := Int.eq_ofNat_of_zero_le hc.2.2
  simp [cellIndex, calculateIndex, ha, hb, hx, hy, hz]

theorem cellIndex_lt {total c : I3} (hc : InBlock total c) : (cellIndex total c : Int) < total.x * total.y * total.z := by
  obtain ⟨⟨x0, x1⟩, ⟨y0, y1⟩, z0, z1⟩ := hc
  obtain ⟨a, ha⟩ := Int.eq_ofNat_of_zero_le (show 0 ≤ total.x by omega)
  obtain ⟨b, hb⟩ := Int.eq_ofNat_of_zero_le (show 0 ≤ total.y by omega)
  obtain ⟨d, hd⟩ := Int.eq_ofNat_of_zero_le (show 0 ≤ total.z by omega)
  have h := calculateIndex_lt (x := c.x.toNat) (y := c.y.toNat) (z := c.z.toNat) (nx := a) (ny := b) (nz := d) (by omega) (by omega) (by omega)
  simp only [cellIndex, ha, hb, hd, Int.toNat_natCast]
  exact_mod_cast h

theorem cellIndex_inj {total c c' : I3} (hc : InBlock total c) (hc' : InBlock total c') (h : cellIndex total c = cellIndex total c') : c = c' := by
  obtain ⟨⟨x0, x1⟩, ⟨y0, y1⟩, z0, z1⟩ := hc
  obtain ⟨⟨x0', x1'⟩, ⟨y0', y1'⟩, z0', z1'⟩ := hc'
  obtain ⟨e1, e2, e3⟩ := calculateIndex_inj (nx := total.x.toNat) (ny := total.y.toNat) (by omega) (by omega) (by omega) (by omega) h
  ext <;> omega

theorem toSize_cast {i : Int} (h0 : 0 ≤ i) (h1 : i < 2 ^ 64) : (toSize i : Int) = i := by
  simp only [toSize]
  omega

theorem sizeRange_eq {a b : Int} (ha : 0 ≤ a ∧ a < 2 ^ 64) (hb : 0 ≤ b ∧ b < 2 ^ 64) : sizeRange a b = irange a b := by
  rw [sizeRange, toSize_cast ha.1 ha.2, toSize_cast hb.1 hb.2]

/-- All components between zero and `2^64`. -/
def Small (p : I3) : Prop := (0 ≤ p.x ∧ p.x < 2 ^ 64) ∧ (0 ≤ p.y ∧ p.y < 2 ^ 64) ∧ (0 ≤ p.z ∧ p.z < 2 ^ 64)

theorem sizeBox_eq {lo hi : I3} (hlo : Small lo) (hhi : Small hi) : sizeBox lo hi = box lo hi := by
  simp only [sizeBox, box, sizeRange_eq hlo.1 hhi.1, sizeRange_eq hlo.2.1 hhi.2.1, sizeRange_eq hlo.2.2 hhi.2.2]

theorem sizeIndex_eq {total c : I3} (hsize : total.x * total.y * total.z < 2 ^ 64) (hc : InBlock total c) : sizeIndex total c = cellIndex total c := by
  have h1 := cellIndex_lt hc
  have h2 : (cellIndex total c : Int) = c.z * total.x * total.y + c.y * total.x + c.x :=
    cellIndex_cast ⟨by have := hc.1; omega, by have := hc.2.1; omega⟩ ⟨hc.1.1, hc.2.1.1, hc.2.2.1⟩
  have h3 : (sizeIndex total c : Int) = cellIndex total c := by
    rw [sizeIndex, ← h2, toSize_cast (by omega) (by omega)]
  exact_mod_cast h3

theorem le_prod {t : I3} (ht : 1 ≤ t.x ∧ 1 ≤ t.y ∧ 1 ≤ t.z) : t.x ≤ t.x * t.y * t.z ∧ t.y ≤ t.x * t.y * t.z ∧ t.z ≤ t.x * t.y * t.z := by
  have hxy : 1 ≤ t.x * t.y := by nlinarith [ht.1, ht.2.1]
  refine ⟨?_, ?_, ?_⟩
  · nlinarith [ht.1, ht.2.1, ht.2.2, mul_le_mul hxy ht.2.2 (by norm_num) (by omega)]
  · nlinarith [ht.1, ht.2.1, ht.2.2]
  · nlinarith [ht.1, ht.2.1, ht.2.2]

theorem irange_shift (a b t : Int) : irange (a + t) (b + t) = (irange a b).map (· + t) := by
  simp only [irange, List.map_map]
  rw [show b + t - (a + t) = b - a by ring]
  refine List.map_congr_left fun i _ => ?_
  simp; ring

theorem box_shift (lo hi t : I3) : box (lo + t) (hi + t) = (box lo hi).map (· + t) := by
  simp only [box, I3.add_x, I3.add_y, I3.add_z, irange_shift, List.flatMap_map, List.map_flatMap, List.map_map]
  rfl

theorem cellMidpoints_ok {K : Type} [Field K] (g : Grid K) (hint : g.dims.x * g.dims.y * g.dims.z < 2 ^ 31) :
    ∃ a, g.cellMidpoints = .ok a ∧ ∀ c, InBlock g.dims c → a.rd (cellIndex g.dims c) = .ok (g.midpoint c) := by
  have hblock : ∀ c, c ∈ box 0 g.dims ↔ InBlock g.dims c := by
    intro c; simp only [mem_box, InBlock, I3.zero_x, I3.zero_y, I3.zero_z]
  have hidx : ∀ c, InBlock g.dims c → (c.z * g.dims.x * g.dims.y + c.y * g.dims.x + c.x).toNat = cellIndex g.dims c := by
    intro c hc
    rw [← cellIndex_cast ⟨by have := hc.1; omega, by have := hc.2.1; omega⟩ ⟨hc.1.1, hc.2.1.1, hc.2.2.1⟩]
    simp
  obtain ⟨a, h1, h2, h3, -⟩ := Arr.foldlM_wr (box 0 g.dims) (fun c => (c.z * g.dims.x * g.dims.y + c.y * g.dims.x + c.x).toNat) (fun _ c => .ok (g.midpoint c)) g.midpoint
    (flat (g.dims.x * g.dims.y * g.dims.z).toNat fun _ => ⟨0, 0, 0⟩)
    (by
      intro c hc
      have hc := (hblock c).1 hc
      rw [hidx c hc]
      have := cellIndex_lt hc
      simp [flat]; omega)
    (by
      refine (nodup_box 0 g.dims).imp_of_mem ?_
      intro c c' hc hc' hne e
      have hc := (hblock c).1 hc
      have hc' := (hblock c').1 hc'
      rw [hidx c hc, hidx c' hc'] at e
      exact hne (cellIndex_inj hc hc' e))
    (by intros; rfl)
  refine ⟨a, by rw [Grid.cellMidpoints, if_neg (by omega)]; exact h1, fun c hc => ?_⟩
  have := h3 c ((hblock c).2 hc)
  rw [hidx c hc] at this
  rw [Arr.rd_ok, this]
  rw [h2]
  have := cellIndex_lt hc
  simp [flat]; omega

/-- Sizes for which no `size_t` computation wraps around: `n` interior cells with ghost widths `ghosts`. -/
structure Sizes (total n ghosts : I3) : Prop where
  total_eq : total = n + ghosts + ghosts
  pos : 1 ≤ n.x ∧ 1 ≤ n.y ∧ 1 ≤ n.z
  ghosts_nonneg : 0 ≤ ghosts.x ∧ 0 ≤ ghosts.y ∧ 0 ≤ ghosts.z
  fits : total.x * total.y * total.z < 2 ^ 64

theorem Sizes.block {total n ghosts c : I3} (h : Sizes total n ghosts) (hc : InBlock n c) : InBlock total (c + ghosts) := by
  obtain ⟨rfl, h2, h3, h4⟩ := h
  obtain ⟨c1, c2, c3⟩ := hc
  refine ⟨⟨?_, ?_⟩, ⟨?_, ?_⟩, ?_, ?_⟩ <;> simp only [I3.add_x, I3.add_y, I3.add_z] <;> omega

theorem Sizes.loop {total n ghosts : I3} (h : Sizes total n ghosts) : sizeBox ghosts (total - ghosts) = (box 0 n).map (· + ghosts) := by
  have hp := le_prod (t := total) (by rw [h.total_eq]; have := h.pos; have := h.ghosts_nonneg; simp only [I3.add_x, I3.add_y, I3.add_z]; omega)
  have hf := h.fits
  have e : total - ghosts = n + ghosts := by rw [h.total_eq]; ext <;> simp
  have hgt : total.x = n.x + ghosts.x + ghosts.x ∧ total.y = n.y + ghosts.y + ghosts.y ∧ total.z = n.z + ghosts.z + ghosts.z := by rw [h.total_eq]; simp
  have hpos := h.pos
  have hg := h.ghosts_nonneg
  rw [sizeBox_eq, e, ← box_shift]
  · congr 1; ext <;> simp
  · refine ⟨⟨?_, ?_⟩, ⟨?_, ?_⟩, ?_, ?_⟩ <;> omega
  · rw [e]; refine ⟨⟨?_, ?_⟩, ⟨?_, ?_⟩, ?_, ?_⟩ <;> simp only [I3.add_x, I3.add_y, I3.add_z] <;> omega

theorem Sizes.inner {total n ghosts : I3} (h : Sizes total n ghosts) : n.x * n.y * n.z < 2 ^ 64 := by
  refine lt_of_le_of_lt ?_ h.fits
  have hgt : total.x = n.x + ghosts.x + ghosts.x ∧ total.y = n.y + ghosts.y + ghosts.y ∧ total.z = n.z + ghosts.z + ghosts.z := by rw [h.total_eq]; simp
  have hpos := h.pos
  have hg := h.ghosts_nonneg
  exact mul_le_mul (mul_le_mul (by omega) (by omega) (by omega) (by omega)) (by omega) (by omega) (mul_nonneg (by omega) (by omega))

theorem forEachMidpoint_eq {K σ : Type} [Field K] {total ghosts : I3} (grid : Grid K) (h : Sizes total grid.dims ghosts)
    (hint : grid.dims.x * grid.dims.y * grid.dims.z < 2 ^ 31) (f : σ → V3 K → Nat → I3 → Res σ) (s : σ) :
    forEachMidpoint total ghosts grid f s = (box 0 grid.dims).foldlM (fun s c => f s (grid.midpoint c) (cellIndex total (c + ghosts)) c) s := by
  obtain ⟨a, h1, h2⟩ := cellMidpoints_ok grid hint
  rw [forEachMidpoint, h1, Res.ok_bind, h.loop, List.foldlM_map]
  have hmem : ∀ c ∈ box 0 grid.dims, InBlock grid.dims c := by
    intro c hc; simpa only [mem_box, InBlock, I3.zero_x, I3.zero_y, I3.zero_z] using hc
  have key : ∀ l : List I3, (∀ c ∈ l, InBlock grid.dims c) → ∀ s, l.foldlM (fun s c => do
      let m ← a.rd (sizeIndex grid.dims (c + ghosts - ghosts))
      f s m (sizeIndex total (c + ghosts)) (c + ghosts - ghosts)) s =
      l.foldlM (fun s c => f s (grid.midpoint c) (cellIndex total (c + ghosts)) c) s := by
    intro l
    induction l with
    | nil => intro _ s; rfl
    | cons c l ih =>
      intro hl s
      have hc := hl c (by simp)
      have e : c + ghosts - ghosts = c := by ext <;> simp
      rw [List.foldlM_cons, List.foldlM_cons, e, sizeIndex_eq h.inner hc, h2 c hc, Res.ok_bind, sizeIndex_eq h.fits (h.block hc)]
      congr 1
      funext s'
      exact ih (fun c hc => hl c (by simp [hc])) s'
  exact key _ hmem s

theorem mapM_wr {K : Type} (i : Nat) (areas : List (Arr Nat K)) (vals : List K) (hlen : vals.length = areas.length) (hin : ∀ a ∈ areas, a.inb i = true) :
    ∃ out : List (Arr Nat K), (areas.zip vals).mapM (fun av => av.1.wr i av.2) = (.ok out : Res _) ∧ out.length = areas.length ∧
      ∀ (v : Nat) (a b : Arr Nat K), areas[v]? = some b → out[v]? = some a → a.inb = b.inb ∧ vals[v]? = some (a.val i) ∧ ∀ j, j ≠ i → a.val j = b.val j := by
  induction areas generalizing vals with
  | nil => exact ⟨[], by simp, rfl, by simp⟩
  | cons a areas ih =>
    rcases vals with _ | ⟨x, vals⟩
    · simp at hlen
    obtain ⟨out, h1, h2, h3⟩ := ih vals (by simpa using hlen) fun a ha => hin a (by simp [ha])
    refine ⟨⟨a.inb, Function.update a.val i x⟩ :: out, ?_, by simp [h2], ?_⟩
    · rw [List.zip_cons_cons, List.mapM_cons, Arr.wr_ok (hin a (by simp)), Res.ok_bind, h1, Res.ok_bind]
      rfl
    · intro v a' b hb ha'
      rcases v with _ | v
      · simp at hb ha'
        subst hb ha'
        exact ⟨rfl, by simp, fun j hj => by simp [hj]⟩
      · simp at hb ha' ⊢
        exact h3 v a' b hb ha'

/-- A loop that stores, for each cell of a list, one value per memory area. -/
theorem fill_loop {K : Type} (idx : I3 → Nat) (vals : I3 → List K) (areas : List (Arr Nat K)) (cells : List I3) (hnd : cells.Nodup)
    (hinj : ∀ c ∈ cells, ∀ c' ∈ cells, idx c = idx c' → c = c') (hlen : ∀ c ∈ cells, (vals c).length = areas.length) (hin : ∀ a ∈ areas, ∀ c ∈ cells, a.inb (idx c) = true) :
    ∃ out : List (Arr Nat K), cells.foldlM (fun (s : List (Arr Nat K)) c => if (vals c).length = s.length then (s.zip (vals c)).mapM fun av => av.1.wr (idx c) av.2 else .error .thrown) areas =
        (.ok out : Res _) ∧ out.length = areas.length ∧
      ∀ (v : Nat) (a b : Arr Nat K), areas[v]? = some b → out[v]? = some a →
        a.inb = b.inb ∧ (∀ c ∈ cells, (vals c)[v]? = some (a.val (idx c))) ∧ ∀ i, (∀ c ∈ cells, i ≠ idx c) → a.val i = b.val i := by
  refine foldlM_inv (fun (s : List (Arr Nat K)) c => if (vals c).length = s.length then (s.zip (vals c)).mapM fun av => av.1.wr (idx c) av.2 else .error .thrown) cells areas
    (fun pre after => after.length = areas.length ∧ ∀ (v : Nat) (a b : Arr Nat K), areas[v]? = some b → after[v]? = some a →
      a.inb = b.inb ∧ (∀ c ∈ pre, (vals c)[v]? = some (a.val (idx c))) ∧ ∀ i, (∀ c ∈ pre, i ≠ idx c) → a.val i = b.val i)
    ⟨rfl, fun v a b hb ha => by rw [hb] at ha; cases ha; exact ⟨rfl, by simp, fun _ _ => rfl⟩⟩ ?_
  rintro pre c post s hl ⟨hl1, hs⟩
  have hc : c ∈ cells := by rw [hl]; simp
  obtain ⟨out, o1, o2, o3⟩ := mapM_wr (idx c) s (vals c) (by rw [hlen c hc, hl1]) (by
    intro a ha
    obtain ⟨v, hv⟩ := List.mem_iff_getElem?.1 ha
    have hvlt : v < areas.length := by rw [← hl1]; exact (List.getElem?_eq_some_iff.1 hv).1
    have hb : areas[v]? = some areas[v] := List.getElem?_eq_getElem hvlt
    rw [(hs v a _ hb hv).1]
    exact hin _ (List.getElem_mem hvlt) c hc)
  refine ⟨out, by rw [if_pos (by rw [hlen c hc, hl1]), o1], by rw [o2, hl1], fun v a b hb ha => ?_⟩
  have hvlt : v < s.length := by rw [← o2]; exact (List.getElem?_eq_some_iff.1 ha).1
  have hm : s[v]? = some s[v] := List.getElem?_eq_getElem hvlt
  obtain ⟨s1, s2, s3⟩ := hs v _ b hb hm
  obtain ⟨t1, t2, t3⟩ := o3 v a _ hm ha
  refine ⟨t1.trans s1, fun c' hc' => ?_, fun i hi => ?_⟩
  · rcases List.mem_append.1 hc' with hc' | hc'
    · have hne : c' ≠ c := fun e => by
        rw [hl, List.nodup_append] at hnd
        exact hnd.2.2 c' hc' c (by simp) e
      rw [s2 c' hc', t3]
      intro e
      exact hne (hinj c' (by rw [hl]; simp [hc']) c hc e)
    · have : c' = c := by simpa using hc'
      subst this
      exact t2
  · rw [t3 i (hi c (by simp)), s3 i fun c hc => hi c (by simp [hc])]

end Iterate
end Verif
