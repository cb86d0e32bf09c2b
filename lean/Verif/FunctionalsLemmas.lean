import Verif.Functionals
import Verif.StructureLemmas
import Verif.Props.TotalVariation
import Verif.Props.Iterate
import Verif.Props.Structure

/-! Helper lemmas for C40 and C53: what the functionals add to their output. -/

namespace Verif.Functionals
open Verif.Structure Verif.Boundary Verif.Iterate

/-- The value of a variable in a cell (ghost cells included, counted from zero), if the volume has both. -/
noncomputable def Vol.at (v : Vol) (var : Nat) (c : I3) : Option ℝ :=
  if inSize v.total c then v.areas[var]?.map fun f => f c else none

/-- Numbers of inner cells, ghost cells and variables. -/
def Vol.Shape (n g : I3) (k : Nat) (v : Vol) : Prop := v.n = n ∧ v.g = g ∧ v.areas.length = k

theorem Vol.Shape.total {n g : I3} {k : Nat} {v : Vol} (h : v.Shape n g k) : v.total = n + g + g := by
  obtain ⟨rfl, rfl, -⟩ := h; rfl

theorem at_ok {n g : I3} {k : Nat} {v : Vol} (h : v.Shape n g k) {var : Nat} (hv : var < k) {c : I3} (hc : inSize (n + g + g) c = true) :
    ∃ x, v.at var c = some x := by
  obtain ⟨h1, h2, h3⟩ := h
  have : var < v.areas.length := by omega
  exact ⟨v.areas[var] c, by simp [Vol.at, Vol.total, h1, h2, hc, this]⟩

/-- `v'` is `v` with `δ` added. -/
def Added (δ : Nat → I3 → ℝ) (v v' : Vol) : Prop := ∀ var c, v'.at var c = (v.at var c).map fun x => x + δ var c

theorem Added.trans {δ ε : Nat → I3 → ℝ} {a b c : Vol} (h1 : Added δ a b) (h2 : Added ε b c) : Added (fun v p => δ v p + ε v p) a c := by
  intro var p
  rw [h2, h1, Option.map_map]
  congr 1
  funext x
  simp [add_assoc]

theorem Added.congr {δ ε : Nat → I3 → ℝ} {a b : Vol} (h : Added δ a b) (he : ∀ var c, δ var c = ε var c) : Added ε a b := by
  intro var c
  rw [h, he]

theorem added_zero (v : Vol) : Added (fun _ _ => 0) v v := by
  intro var c
  simp

theorem modify_added {n g : I3} {k : Nat} {v : Vol} (hs : v.Shape n g k) {var : Nat} (hvar : var < k) (step : Arr I3 ℝ → Res (Arr I3 ℝ)) (δ : I3 → ℝ)
    (h : ∀ f, ∃ a, step (field (n + g + g) f) = .ok a ∧ ∀ c, inSize (n + g + g) c = true → a.val c = f c + δ c) :
    ∃ v', v.modify var step = .ok v' ∧ v'.Shape n g k ∧ Added (fun j c => if j = var then δ c else 0) v v' := by
  have ht := hs.total
  obtain ⟨h1, h2, h3⟩ := hs
  have hl : var < v.areas.length := by omega
  obtain ⟨a, ha, hv⟩ := h v.areas[var]
  refine ⟨{ v with areas := v.areas.set var a.val }, ?_, ⟨h1, h2, by simpa using h3⟩, ?_⟩
  · simp only [Vol.modify, List.getElem?_eq_getElem hl, ht, ha, Res.ok_bind, Res.pure_eq]
  · intro j c
    have ht' : (⟨v.n, v.g, v.areas.set var a.val⟩ : Vol).total = n + g + g := ht
    unfold Vol.at
    rw [ht', ht]
    by_cases hc : inSize (n + g + g) c = true
    · rw [if_pos hc, if_pos hc]
      by_cases hj : j = var
      · subst hj
        simp [hl, hv c hc]
      · rw [List.getElem?_set_ne (Ne.symm hj)]
        cases v.areas[j]? <;> simp [hj]
    · rw [if_neg hc, if_neg hc]; rfl

theorem vars_added {n g : I3} {k : Nat} (F : Vol → Nat → Res Vol) (δ : Nat → I3 → ℝ) (vars : List Nat) (hnd : vars.Nodup)
    (h : ∀ var ∈ vars, ∀ v : Vol, v.Shape n g k → ∃ v', F v var = .ok v' ∧ v'.Shape n g k ∧ Added (fun j c => if j = var then δ var c else 0) v v') :
    ∀ v : Vol, v.Shape n g k → ∃ v', vars.foldlM F v = .ok v' ∧ v'.Shape n g k ∧ Added (fun j c => if j ∈ vars then δ j c else 0) v v' := by
  induction vars with
  | nil => intro v hv; exact ⟨v, rfl, hv, (added_zero v).congr (by simp)⟩
  | cons a l ih =>
    intro v hv
    obtain ⟨hal, hl⟩ := List.nodup_cons.1 hnd
    obtain ⟨v1, e1, s1, a1⟩ := h a (by simp) v hv
    obtain ⟨v2, e2, s2, a2⟩ := ih hl (fun var hm => h var (by simp [hm])) v1 s1
    refine ⟨v2, ?_, s2, (a1.trans a2).congr ?_⟩
    · rw [List.foldlM_cons, e1, Res.ok_bind, e2]
    · intro j c
      by_cases hj : j = a
      · subst hj; simp [hal]
      · simp [hj]

theorem cells_added (F : Arr I3 ℝ → I3 → Res (Arr I3 ℝ)) (x : I3 → ℝ) (l : List I3) (hnd : l.Nodup) (inb : I3 → Bool) (hl : ∀ c ∈ l, inb c = true)
    (hF : ∀ c ∈ l, ∀ o : Arr I3 ℝ, F o c = addAt o c (x c)) :
    ∀ o : Arr I3 ℝ, o.inb = inb → ∃ a, l.foldlM F o = .ok a ∧ ∀ c, a.val c = o.val c + if c ∈ l then x c else 0 := by
  induction l with
  | nil => intro o _; exact ⟨o, rfl, by simp⟩
  | cons b l ih =>
    intro o ho
    obtain ⟨hbl, hnl⟩ := List.nodup_cons.1 hnd
    have hb : o.inb b = true := by rw [ho]; exact hl b (by simp)
    obtain ⟨a, ha, hv⟩ := ih hnl (fun c hc => hl c (by simp [hc])) (fun c hc => hF c (by simp [hc])) ⟨o.inb, Function.update o.val b (o.val b + x b)⟩ ho
    refine ⟨a, ?_, fun c => ?_⟩
    · rw [List.foldlM_cons, hF b (by simp), addAt, Arr.rd_ok hb, Res.ok_bind, Arr.wr_ok hb, Res.ok_bind, ha]
    · rw [hv]
      by_cases hc : c = b
      · subst hc; simp [hbl]
      · simp [hc]

/-- One entry. -/
theorem entry_added (size : I3) (x : ℝ) (p : I3) (hp : inSize size p = true) (f : I3 → ℝ) :
    ∃ a, addAt (field size f) p x = .ok a ∧ ∀ c, a.val c = f c + if c = p then x else 0 := by
  refine ⟨⟨inSize size, Function.update f p (f p + x)⟩, ?_, fun c => ?_⟩
  · have h : (field size f).inb p = true := hp
    rw [addAt, Arr.rd_ok h, Res.ok_bind, Arr.wr_ok h]; rfl
  · by_cases hc : c = p
    · subst hc; simp
    · simp [hc]

/-- The functional `f` with the weight `w` adds `w` times `φ u` to any output of the given shape, for every input satisfying `In`. -/
def Accumulates (f : Vol → Vol → ℝ → Res Vol) (n g : I3) (k : Nat) (In : Vol → Prop) (φ : Vol → Nat → I3 → ℝ) : Prop :=
  ∀ out u w, out.Shape n g k → In u → ∃ out', f out u w = .ok out' ∧ out'.Shape n g k ∧ Added (fun var c => w * φ u var c) out out'

/-- The contents of a variable by interior cell. -/
def Vol.inner (u : Vol) (var : Nat) (c : I3) : ℝ := (u.areas.getD var fun _ => 0) (c + u.g)

theorem view_ok {u : Vol} {var : Nat} (h : var < u.areas.length) : u.view var = .ok (field u.total (u.areas.getD var fun _ => 0)) := by
  simp [Vol.view, h]

theorem mem_ok {u : Vol} {var : Nat} (h : var < u.areas.length) : u.mem var = .ok (toMem u.total (u.areas.getD var fun _ => 0)) := by
  simp [Vol.mem, h]

theorem identity_accumulates (n g : I3) (hg : 0 ≤ g.x ∧ 0 ≤ g.y ∧ 0 ≤ g.z) (k : Nat) :
    Accumulates identity n 0 k (Vol.Shape n g k) (fun u var c => if var < k ∧ c ∈ box 0 n then u.inner var c else 0) := by
  intro out u w ho hu
  have hut := hu.total
  obtain ⟨rfl, rfl, rfl⟩ := hu
  have key := vars_added (n := u.n) (g := 0) (k := u.areas.length) (fun out var => do
    let viewIn ← u.view var
    out.modify var fun o => (box 0 u.n).foldlM (fun o c => do
      let value ← viewIn.rd (c + u.g)
      addAt o c (w * value)) o) (fun var c => if c ∈ box 0 u.n then w * u.inner var c else 0) (List.range u.areas.length) List.nodup_range (by
    intro var hvar v hv
    have hvar' := List.mem_range.1 hvar
    beta_reduce
    rw [view_ok hvar', Res.ok_bind]
    refine modify_added hv hvar' _ (fun c => if c ∈ box 0 u.n then w * u.inner var c else 0) fun f => ?_
    obtain ⟨a, e, hv⟩ := cells_added (fun o c => do
      let value ← (field u.total (u.areas.getD var fun _ => 0)).rd (c + u.g)
      addAt o c (w * value)) (fun c => w * u.inner var c) (box 0 u.n) (nodup_box _ _) (inSize (u.n + 0 + 0)) (by
        intro c hc
        simp only [mem_box, I3.zero_x, I3.zero_y, I3.zero_z] at hc
        simp only [inSize_iff, I3.add_x, I3.add_y, I3.add_z, I3.zero_x, I3.zero_y, I3.zero_z]
        omega) (by
        intro c hc o
        simp only [mem_box, I3.zero_x, I3.zero_y, I3.zero_z] at hc
        rw [Arr.rd_ok (by simp only [field, hut, inSize_iff, I3.add_x, I3.add_y, I3.add_z]; omega), Res.ok_bind]
        rfl) (field (u.n + 0 + 0) f) rfl
    exact ⟨a, e, fun c _ => by rw [hv]; rfl⟩) out ho
  obtain ⟨v', e, s, a⟩ := key
  refine ⟨v', e, s, a.congr fun var c => ?_⟩
  by_cases h1 : var < u.areas.length <;> by_cases h2 : c ∈ box 0 u.n <;> simp [h1, h2]

theorem zipAdd_added (F : ℝ → ℝ) (n g : I3) (k : Nat) (out u : Vol) (ho : out.Shape n g k) (hu : u.Shape n g k) :
    ∃ out', zipAdd F out u = .ok out' ∧ out'.Shape n g k ∧
      Added (fun var c => if var < k ∧ c ∈ box 0 (n + g + g) then F ((u.areas.getD var fun _ => 0) c) else 0) out out' := by
  have hut := hu.total
  have hot := ho.total
  obtain ⟨rfl, rfl, rfl⟩ := hu
  have hol := ho.2.2
  have key := vars_added (n := u.n) (g := u.g) (k := u.areas.length) (fun out var => do
    let viewIn ← u.view var
    if u.total ≠ out.total then .error .thrown
    else out.modify var fun o => (box 0 out.total).foldlM (fun o c => do
      let value ← viewIn.rd c
      addAt o c (F value)) o) (fun var c => if c ∈ box 0 (u.n + u.g + u.g) then F ((u.areas.getD var fun _ => 0) c) else 0)
      (List.range u.areas.length) List.nodup_range (by
    intro var hvar v hv
    have hvar' := List.mem_range.1 hvar
    beta_reduce
    rw [view_ok hvar', Res.ok_bind, if_neg (by rw [hut, hv.total]; simp)]
    refine modify_added hv hvar' _ (fun c => if c ∈ box 0 (u.n + u.g + u.g) then F ((u.areas.getD var fun _ => 0) c) else 0) fun f => ?_
    rw [hv.total]
    have hin : ∀ c ∈ box 0 (u.n + u.g + u.g), inSize (u.n + u.g + u.g) c = true := by
      intro c hc
      simp only [mem_box, I3.zero_x, I3.zero_y, I3.zero_z] at hc
      rw [inSize_iff]; omega
    obtain ⟨a, e, hv⟩ := cells_added (fun o c => do
      let value ← (field u.total (u.areas.getD var fun _ => 0)).rd c
      addAt o c (F value)) (fun c => F ((u.areas.getD var fun _ => 0) c)) (box 0 (u.n + u.g + u.g)) (nodup_box _ _) (inSize (u.n + u.g + u.g)) hin (by
        intro c hc o
        rw [Arr.rd_ok (by rw [hut]; exact hin c hc), Res.ok_bind]
        rfl) (field (u.n + u.g + u.g) f) rfl
    exact ⟨a, e, fun c _ => by rw [hv]; rfl⟩) out ho
  obtain ⟨v', e, s, a⟩ := key
  refine ⟨v', ?_, s, a.congr fun var c => ?_⟩
  · rw [zipAdd, hol]; exact e
  · by_cases h1 : var < u.areas.length <;> by_cases h2 : c ∈ box 0 (u.n + u.g + u.g) <;> simp [h1, h2]

theorem moment_accumulates (degree : Nat) (n g : I3) (k : Nat) :
    Accumulates (moment degree) n g k (Vol.Shape n g k)
      (fun u var c => if var < k ∧ c ∈ box 0 (n + g + g) then (u.areas.getD var fun _ => 0) c ^ degree else 0) := by
  intro out u w ho hu
  obtain ⟨v', e, s, a⟩ := zipAdd_added (fun x => w * x ^ degree) n g k out u ho hu
  exact ⟨v', e, s, a.congr fun var c => (mul_ite_zero _ _ _).symm⟩

/-- A functional that adds the weight times one number per variable. -/
theorem numbers_accumulate (k : Nat) (vars : List Nat) (hnd : vars.Nodup) (hk : ∀ v ∈ vars, v < k) (value : Nat → Res ℝ) (x : Nat → ℝ) (hx : ∀ v ∈ vars, value v = .ok (x v)) (w : ℝ)
    (out : Vol) (ho : out.Shape ⟨1, 1, 1⟩ 0 k) :
    ∃ out', vars.foldlM (fun out var => do
        let t ← value var
        out.modify var fun o => addAt o 0 (w * t)) out = .ok out' ∧ out'.Shape ⟨1, 1, 1⟩ 0 k ∧
      Added (fun var c => w * if var ∈ vars ∧ c = 0 then x var else 0) out out' := by
  have key := vars_added (n := ⟨1, 1, 1⟩) (g := 0) (k := k) (fun out var => do
        let t ← value var
        out.modify var fun o => addAt o 0 (w * t)) (fun var c => if c = 0 then w * x var else 0) vars hnd (by
    intro var hvar v hv
    beta_reduce
    rw [hx var hvar, Res.ok_bind]
    refine modify_added hv (hk var hvar) _ (fun c => if c = 0 then w * x var else 0) fun f => ?_
    obtain ⟨a, e, hv⟩ := entry_added (⟨1, 1, 1⟩ + 0 + 0) (w * x var) 0 (by decide) f
    exact ⟨a, e, fun c _ => hv c⟩) out ho
  obtain ⟨v', e, s, a⟩ := key
  refine ⟨v', e, s, a.congr fun var c => ?_⟩
  by_cases h1 : var ∈ vars <;> by_cases h2 : c = 0 <;> simp [h1, h2]

theorem toMem_val {size c : I3} (h : InBlock size c) (f : I3 → ℝ) : (toMem size f).val (cellIndex size c) = f c := by
  obtain ⟨⟨x0, x1⟩, ⟨y0, y1⟩, z0, z1⟩ := h
  obtain ⟨e1, e2, e3⟩ := calculateIndex_div (x := c.x.toNat) (y := c.y.toNat) (z := c.z.toNat) (nx := size.x.toNat) (ny := size.y.toNat) (by omega) (by omega)
  simp only [toMem, cellIndex, e1, e2, e3]
  congr 1
  ext <;> simp <;> omega

theorem toMem_rd {size c : I3} (h : InBlock size c) (f : I3 → ℝ) : (toMem size f).arr.rd (cellIndex size c) = .ok (f c) := by
  have h1 : (toMem size f).arr.inb (cellIndex size c) = true := by
    have := calculateIndex_lt (x := c.x.toNat) (y := c.y.toNat) (z := c.z.toNat) (nx := size.x.toNat) (ny := size.y.toNat) (nz := size.z.toNat)
      (by have := h.1; omega) (by have := h.2.1; omega) (by have := h.2.2; omega)
    simpa [Mem.arr, flat, toMem, Mem.size, cellIndex] using this
  rw [Arr.rd_ok h1]
  exact congrArg _ (toMem_val h f)

/-- The isotropic increment of interior data: in one dimension the difference to the left neighbour, else the Euclidean norm of the differences to the left and the lower one. -/
noncomputable def step (n : I3) (v : I3 → ℝ) (x y : Int) : ℝ :=
  if 1 < n.y then Real.sqrt ((v ⟨x, y, 0⟩ - v ⟨x, y - 1, 0⟩) ^ 2 + (v ⟨x, y, 0⟩ - v ⟨x - 1, y, 0⟩) ^ 2) else |v ⟨x, y, 0⟩ - v ⟨x - 1, y, 0⟩|

/-- The total variation of interior data. -/
noncomputable def variation (p : Nat) (n : I3) (v : I3 → ℝ) : ℝ :=
  ∑ y ∈ Finset.Ico (if 1 < n.y then 1 else 0) n.y, ∑ x ∈ Finset.Ico 1 n.x, step n v x y ^ p

theorem variation_ok (p : Nat) (n g : I3) (hn : 1 ≤ n.x ∧ 1 ≤ n.y ∧ n.z = 1) (hg : 0 ≤ g.x ∧ 0 ≤ g.y ∧ g.z = 0) (h1 : n.y = 1 → g.y = 0) (f : I3 → ℝ) :
    (toMem (n + g + g) f).totalVariation p g (n + g + g - g) = .ok (variation p n fun c => f (c + g)) := by
  obtain ⟨bv, h, e, -, -⟩ := (Props.C06_total_variation (toMem (n + g + g) f) p g (n + g + g - g)).1
    (by simp [toMem]; omega) hg.1 hg.2.1 (by simp [toMem]; omega) (by simp [toMem]; omega) (by simp [toMem]; omega) (by simp; omega)
  rw [h, e]
  congr 1
  have hny : (1 < (toMem (n + g + g) f).ny) ↔ 1 < n.y := by simp [toMem]; omega
  have hs : (∑ y ∈ Finset.Ico (if 1 < n.y then (1 : Int) else 0) n.y, ∑ x ∈ Finset.Ico (1 : Int) n.x, step n (fun c => f (c + g)) x y ^ p) =
      ∑ y ∈ Finset.Ico (g.y + if 1 < n.y then 1 else 0) (n.y + g.y), ∑ x ∈ Finset.Ico (g.x + 1) (n.x + g.x), step n (fun c => f (c + g)) (x - g.x) (y - g.y) ^ p := by
    have sh : ∀ (a b s : Int) (F : Int → ℝ), ∑ x ∈ Finset.Ico a b, F x = ∑ x ∈ Finset.Ico (s + a) (b + s), F (x - s) := by
      intro a b s F
      refine Finset.sum_bij (fun x _ => x + s) ?_ ?_ ?_ ?_
      · intro x hx; simp only [Finset.mem_Ico] at hx ⊢; omega
      · intro x _ y _ h; omega
      · intro y hy; simp only [Finset.mem_Ico] at hy; exact ⟨y - s, by simp only [Finset.mem_Ico]; omega, by omega⟩
      · intro x _; simp
    rw [sh _ _ g.y]
    exact Finset.sum_congr rfl fun y _ => sh _ _ g.x _
  rw [variation, hs]
  have ea : (n + g + g - g).y = n.y + g.y := by simp
  have eb : (n + g + g - g).x = n.x + g.x := by simp
  rw [ea, eb]
  refine Finset.sum_congr (by simp only [hny]) fun y hy => Finset.sum_congr rfl fun x hx => ?_
  congr 1
  simp only [Finset.mem_Ico] at hx hy
  have cell : ∀ a b : Int, 0 ≤ a → a < n.x + g.x → 0 ≤ b → b < n.y + g.y → (toMem (n + g + g) f).cell a b 0 = f (⟨a - g.x, b - g.y, 0⟩ + g) := by
    intro a b a0 a1 b0 b1
    have := toMem_val (size := n + g + g) (c := ⟨a, b, 0⟩) (by refine ⟨?_, ?_, ?_⟩ <;> simp <;> omega) f
    rw [Mem.cell]
    refine this.trans ?_
    congr 1
    ext <;> simp [hg.2.2]
  unfold Props.increment step
  by_cases hy1 : 1 < n.y
  · rw [if_pos hy1] at hy
    rw [if_pos (hny.2 hy1), if_pos hy1, cell x y (by omega) (by omega) (by omega) (by omega), cell x (y - 1) (by omega) (by omega) (by omega) (by omega),
      cell (x - 1) y (by omega) (by omega) (by omega) (by omega)]
    simp only [sub_right_comm]
  · rw [if_neg hy1] at hy
    rw [if_neg (fun h => hy1 (hny.1 h)), if_neg hy1, cell x y (by omega) (by omega) (by omega) (by omega), cell (x - 1) y (by omega) (by omega) (by omega) (by omega)]
    simp only [sub_right_comm]

theorem boundedVariation_accumulates (p : Nat) (lengths : V3 ℝ) (hl : lengths.z ≤ 1) (n g : I3) (hn : 1 ≤ n.x ∧ 1 ≤ n.y ∧ n.z = 1) (hg : 0 ≤ g.x ∧ 0 ≤ g.y ∧ g.z = 0)
    (h1 : n.y = 1 → g.y = 0) (k : Nat) :
    Accumulates (boundedVariation p lengths) ⟨1, 1, 1⟩ 0 k (Vol.Shape n g k) (fun u var c => if var < k ∧ c = 0 then variation p n (u.inner var) else 0) := by
  intro out u w ho hu
  have hut := hu.total
  obtain ⟨rfl, rfl, rfl⟩ := hu
  have key := numbers_accumulate u.areas.length (List.range u.areas.length) List.nodup_range (fun v hv => List.mem_range.1 hv)
    (fun var => do
      let m ← u.mem var
      m.totalVariation p u.g (u.total - u.g)) (fun var => variation p u.n (u.inner var)) (by
    intro var hvar
    beta_reduce
    rw [mem_ok (List.mem_range.1 hvar), Res.ok_bind, hut, variation_ok p u.n u.g hn hg h1]
    rfl) w out ho
  obtain ⟨v', e, s, a⟩ := key
  refine ⟨v', ?_, s, a.congr fun var c => by simp⟩
  rw [boundedVariation, if_neg (by linarith)]
  simpa only [bind_assoc] using e

/-- The integral of `F` over the interior cells: sum over the cells times the cell volume. -/
theorem integral_ok (grid : Grid ℝ) (n g total : I3) (h : Sizes total n g) (hd : grid.dims = n) (hint : n.x * n.y * n.z < 2 ^ 31)
    (f : ℝ → V3 ℝ → Nat → I3 → Res ℝ) (F : I3 → ℝ) (hf : ∀ c, InBlock n c → ∀ s, f s (grid.midpoint c) (cellIndex total (c + g)) c = .ok (s + F c)) :
    forEachMidpoint total g grid f 0 = .ok (∑ c ∈ (box 0 n).toFinset, F c) := by
  subst hd
  rw [forEachMidpoint_eq grid h hint]
  have key : ∀ l : List I3, (∀ c ∈ l, InBlock grid.dims c) → ∀ s, l.foldlM (fun s c => f s (grid.midpoint c) (cellIndex total (c + g)) c) s = .ok (s + (l.map F).sum) := by
    intro l
    induction l with
    | nil => intro _ s; simp
    | cons a l ih =>
      intro hl s
      rw [List.foldlM_cons, hf a (hl a (by simp)), Res.ok_bind, ih fun c hc => hl c (by simp [hc])]
      simp [add_assoc]
  rw [key _ (fun c hc => by simpa only [mem_box, InBlock, I3.zero_x, I3.zero_y, I3.zero_z] using hc), zero_add, List.sum_toFinset _ (nodup_box 0 _)]

/-- The centre of cell `i` of `n` cells, in coordinates in which the domain is [-1, 1]. -/
noncomputable def scaled (n i : Int) : ℝ := (2 * i + 1) / n - 1

theorem scaled_abs {n i : Int} (h0 : 0 ≤ i) (h1 : i < n) : |scaled n i| ≤ 1 := by
  have hn : (0 : ℝ) < n := by exact_mod_cast lt_of_le_of_lt h0 h1
  have hi : (0 : ℝ) ≤ i := by exact_mod_cast h0
  have hi1 : (i : ℝ) + 1 ≤ n := by exact_mod_cast h1
  have a : (2 * i + 1 : ℝ) / n ≤ 2 := by rw [div_le_iff₀ hn]; linarith
  have b : 0 ≤ (2 * i + 1 : ℝ) / n := by positivity
  rw [scaled, abs_le]
  constructor <;> linarith

theorem scaled_eq {o t : ℝ} {n i : Int} (hot : t ≠ o) (hn : 0 < n) : 2 * (Props.cellCenter o t n i - o) / (t - o) - 1 = scaled n i := by
  have h1 : t - o ≠ 0 := sub_ne_zero.2 hot
  have h2 : (n : ℝ) ≠ 0 := by exact_mod_cast hn.ne'
  rw [Props.cellCenter, scaled]
  field_simp
  ring

/-- Data between `lo` and `hi`, mapped to [0, 1], lies in [-1, 1]. -/
theorem normalized_abs {lo hi x : ℝ} (h : lo < hi) (h1 : lo ≤ x) (h2 : x ≤ hi) : |(x - lo) / (hi - lo)| ≤ 1 := by
  rw [abs_le]
  have : 0 < hi - lo := by linarith
  have a : (x - lo) / (hi - lo) ≤ 1 := by rw [div_le_one this]; linarith
  have b : 0 ≤ (x - lo) / (hi - lo) := div_nonneg (by linarith) this.le
  constructor <;> linarith

theorem legendre_accumulates (P : Int → ℝ → Res ℝ) (L : Int → ℝ → ℝ) (hP : ∀ r x, |x| ≤ 1 → P r x = .ok (L r x)) (lo hi : ℝ) (hlo : lo < hi) (a b m : Int) (k : Nat)
    (vars : List Nat) (hnd : vars.Nodup) (hk : ∀ v ∈ vars, v < k) (origin top : V3 ℝ) (hx : top.x ≠ origin.x) (hy : top.y ≠ origin.y) (n g pos size : I3)
    (hs : Sizes (n + g + g) n g) (hint : n.x * n.y * n.z < 2 ^ 31) (hl : (Grid.make origin top n pos size).lengths.z ≤ 1 ∧ (Grid.make origin top n pos size).lengths.y ≠ 1) :
    Accumulates (legendre P lo hi a b m vars (Grid.make origin top n pos size)) ⟨1, 1, 1⟩ 0 k
      (fun u => u.Shape n g k ∧ ∀ v ∈ vars, ∀ c, InBlock n c → lo ≤ u.inner v c ∧ u.inner v c ≤ hi)
      (fun u var c => if var ∈ vars ∧ c = 0 then ∑ q ∈ (box 0 n).toFinset, L a (scaled n.x q.x) * L b (scaled n.y q.y) * L m ((u.inner var q - lo) / (hi - lo)) *
        ((Grid.make origin top n pos size).lengths.x * (Grid.make origin top n pos size).lengths.y * (Grid.make origin top n pos size).lengths.z) else 0) := by
  intro out u w ho hu
  obtain ⟨hu, hb⟩ := hu
  have hut := hu.total
  obtain ⟨rfl, rfl, rfl⟩ := hu
  have hny : u.n.y ≠ 1 := fun h => hl.2 (by simp [Grid.make, Grid.computeCellLengths, h])
  set G := Grid.make origin top u.n pos size with hG
  have key := numbers_accumulate u.areas.length vars hnd hk
    (fun var => do
      let data ← u.mem var
      forEachMidpoint u.total u.g G (fun (s : ℝ) p i _ => do
        let d ← data.arr.rd i
        let a ← P a (2 * (p.x - G.origin.x) / (G.top.x - G.origin.x) - 1)
        let b ← P b (2 * (p.y - G.origin.y) / (G.top.y - G.origin.y) - 1)
        let c ← P m ((d - lo) / (hi - lo))
        pure (s + a * b * c * (G.lengths.x * G.lengths.y * G.lengths.z))) 0)
    (fun var => ∑ q ∈ (box 0 u.n).toFinset, L a (scaled u.n.x q.x) * L b (scaled u.n.y q.y) * L m ((u.inner var q - lo) / (hi - lo)) *
      (G.lengths.x * G.lengths.y * G.lengths.z)) (by
    intro var hvar
    beta_reduce
    rw [mem_ok (hk var hvar), Res.ok_bind]
    refine integral_ok G u.n u.g u.total (hut ▸ hs) rfl hint _ _ fun c hc s => ?_
    have hmid := Props.midpoint_eq origin top u.n pos size c hc
    have ex : 2 * ((G.midpoint c).x - G.origin.x) / (G.top.x - G.origin.x) - 1 = scaled u.n.x c.x := by
      rw [hmid]; exact scaled_eq hx (by have := hc.1; omega)
    have ey : 2 * ((G.midpoint c).y - G.origin.y) / (G.top.y - G.origin.y) - 1 = scaled u.n.y c.y := by
      rw [hmid]; simp only [Props.evaluationPoint, if_neg hny]; exact scaled_eq hy (by have := hc.2.1; omega)
    have hblock : InBlock u.total (c + u.g) := (hut ▸ hs : Sizes u.total u.n u.g).block hc
    rw [toMem_rd hblock, Res.ok_bind, ex, ey, hP _ _ (scaled_abs hc.1.1 hc.1.2), Res.ok_bind, hP _ _ (scaled_abs hc.2.1.1 hc.2.1.2), Res.ok_bind]
    have hn := normalized_abs hlo (hb var hvar c hc).1 (hb var hvar c hc).2
    have hi' : (u.areas.getD var fun _ => 0) (c + u.g) = u.inner var c := rfl
    rw [hi', hP _ _ hn, Res.ok_bind, Res.pure_eq]) w out ho
  obtain ⟨v', e, s, a⟩ := key
  refine ⟨v', ?_, s, a⟩
  rw [legendre, if_neg (by push Not; exact hl)]
  simpa only [bind_assoc] using e

theorem legendrePointWise_accumulates (P : Int → ℝ → Res ℝ) (L : Int → ℝ → ℝ) (hP : ∀ r x, |x| ≤ 1 → P r x = .ok (L r x)) (lo hi : ℝ) (hlo : lo < hi) (m : Int) (k : Nat)
    (vars : List Nat) (hnd : vars.Nodup) (hk : ∀ v ∈ vars, v < k) (lengths : V3 ℝ) (hl : lengths.z ≤ 1 ∧ lengths.y ≠ 1) (n g : I3) (hg : 0 ≤ g.x ∧ 0 ≤ g.y ∧ 0 ≤ g.z) :
    Accumulates (legendrePointWise P lo hi m vars lengths) n 0 k
      (fun u => u.Shape n g k ∧ ∀ v ∈ vars, ∀ c, InBlock n c → lo ≤ u.inner v c ∧ u.inner v c ≤ hi)
      (fun u var c => if var ∈ vars ∧ c ∈ box 0 n then L m ((u.inner var c - lo) / (hi - lo)) else 0) := by
  intro out u w ho hu
  obtain ⟨hu, hb⟩ := hu
  have hut := hu.total
  obtain ⟨rfl, rfl, rfl⟩ := hu
  have key := vars_added (n := u.n) (g := 0) (k := u.areas.length) (fun out var => do
    let viewIn ← u.view var
    out.modify var fun o => (box 0 u.n).foldlM (fun o c => do
      let d ← viewIn.rd (c + u.g)
      let a ← P m ((d - lo) / (hi - lo))
      addAt o c (a * w)) o) (fun var c => if c ∈ box 0 u.n then L m ((u.inner var c - lo) / (hi - lo)) * w else 0) vars hnd (by
    intro var hvar v hv
    beta_reduce
    rw [view_ok (hk var hvar), Res.ok_bind]
    refine modify_added hv (hk var hvar) _ (fun c => if c ∈ box 0 u.n then L m ((u.inner var c - lo) / (hi - lo)) * w else 0) fun f => ?_
    obtain ⟨a, e, hv⟩ := cells_added (fun o c => do
      let d ← (field u.total (u.areas.getD var fun _ => 0)).rd (c + u.g)
      let a ← P m ((d - lo) / (hi - lo))
      addAt o c (a * w)) (fun c => L m ((u.inner var c - lo) / (hi - lo)) * w) (box 0 u.n) (nodup_box _ _) (inSize (u.n + 0 + 0)) (by
        intro c hc
        simp only [mem_box, I3.zero_x, I3.zero_y, I3.zero_z] at hc
        simp only [inSize_iff, I3.add_x, I3.add_y, I3.add_z, I3.zero_x, I3.zero_y, I3.zero_z]
        omega) (by
        intro c hc o
        have hc' : InBlock u.n c := by simpa only [mem_box, InBlock, I3.zero_x, I3.zero_y, I3.zero_z] using hc
        simp only [mem_box, I3.zero_x, I3.zero_y, I3.zero_z] at hc
        rw [Arr.rd_ok (by simp only [field, hut, inSize_iff, I3.add_x, I3.add_y, I3.add_z]; omega), Res.ok_bind]
        have hi' : (field u.total (u.areas.getD var fun _ => 0)).val (c + u.g) = u.inner var c := rfl
        rw [hi', hP _ _ (normalized_abs hlo (hb var hvar c hc').1 (hb var hvar c hc').2), Res.ok_bind]) (field (u.n + 0 + 0) f) rfl
    exact ⟨a, e, fun c _ => by rw [hv]; rfl⟩) out ho
  obtain ⟨v', e, s, a⟩ := key
  refine ⟨v', ?_, s, a.congr fun var c => ?_⟩
  · rw [legendrePointWise, if_neg (by push Not; exact hl)]; exact e
  · by_cases h1 : var ∈ vars <;> by_cases h2 : c ∈ box 0 u.n <;> simp [h1, h2, mul_comm]

/-- The entropy density of LogEntropy. -/
noncomputable def logDensity (gamma : ℝ) (rho E : ℝ) (ms : List ℝ) : ℝ :=
  -rho * (Real.log ((gamma - 1) * (E - 1 / (2 * rho) * (ms.map fun x => x ^ 2).sum)) - gamma * Real.log rho) / (gamma - 1)

theorem logEntropy_accumulates (gamma : ℝ) (k rho E : Nat) (momenta : List Nat) (hr : rho < k) (hE : E < k) (hm : ∀ v ∈ momenta, v < k) (grid : Grid ℝ) (n g : I3) (hd : grid.dims = n)
    (hs : Sizes (n + g + g) n g) (hint : n.x * n.y * n.z < 2 ^ 31) :
    Accumulates (logEntropy gamma rho E momenta grid) ⟨1, 1, 1⟩ 0 k (Vol.Shape n g k)
      (fun u var c => if var = E ∧ c = 0 then ∑ q ∈ (box 0 n).toFinset, logDensity gamma (u.inner rho q) (u.inner E q) (momenta.map fun v => u.inner v q) *
        (grid.lengths.x * grid.lengths.y * grid.lengths.z) else 0) := by
  intro out u w ho hu
  have hut := hu.total
  obtain ⟨rfl, rfl, rfl⟩ := hu
  have hI := integral_ok grid u.n u.g u.total (hut ▸ hs) hd hint (fun (s : ℝ) _ i _ => do
    let d ← (toMem u.total (u.areas.getD rho fun _ => 0)).arr.rd i
    let e ← (toMem u.total (u.areas.getD E fun _ => 0)).arr.rd i
    let squares ← momenta.foldlM (fun (t : ℝ) v => do
      let m ← u.mem v
      let x ← m.arr.rd i
      pure (t + x * x)) 0
    let pressure := (gamma - 1) * (e - 1 / (2 * d) * squares)
    let entropy := Real.log pressure - gamma * Real.log d
    pure (s + -d * entropy / (gamma - 1) * (grid.lengths.x * grid.lengths.y * grid.lengths.z)))
    (fun q => logDensity gamma (u.inner rho q) (u.inner E q) (momenta.map fun v => u.inner v q) * (grid.lengths.x * grid.lengths.y * grid.lengths.z)) (by
    intro c hc s
    have hblock : InBlock u.total (c + u.g) := (hut ▸ hs : Sizes u.total u.n u.g).block hc
    have hsq : momenta.foldlM (fun (t : ℝ) v => do
        let m ← u.mem v
        let x ← m.arr.rd (cellIndex u.total (c + u.g))
        pure (t + x * x)) 0 = (.ok (0 + (momenta.map fun v => u.inner v c * u.inner v c).sum) : Res ℝ) := by
      rw [← foldlM_sum momenta (fun v => (do
        let m ← u.mem v
        let x ← m.arr.rd (cellIndex u.total (c + u.g))
        pure (x * x) : Res ℝ)) (fun v => u.inner v c * u.inner v c) 0 (by
          intro v hv
          rw [mem_ok (hm v hv), Res.ok_bind, toMem_rd hblock, Res.ok_bind, Res.pure_eq]; rfl)]
      simp only [bind_assoc, pure_bind]
    beta_reduce
    rw [toMem_rd hblock, Res.ok_bind, toMem_rd hblock, Res.ok_bind, hsq, Res.ok_bind, Res.pure_eq]
    simp only [logDensity, zero_add, List.map_map, Function.comp_def, pow_two, Vol.inner])
  have key := numbers_accumulate u.areas.length [E] (by simp) (by simpa using hE) (fun _ => .ok (∑ q ∈ (box 0 u.n).toFinset,
    logDensity gamma (u.inner rho q) (u.inner E q) (momenta.map fun v => u.inner v q) * (grid.lengths.x * grid.lengths.y * grid.lengths.z))) _ (fun v _ => rfl) w out ho
  obtain ⟨v', e, s, a⟩ := key
  refine ⟨v', ?_, s, a.congr fun var c => by simp⟩
  rw [logEntropy, mem_ok hr, Res.ok_bind, mem_ok hE, Res.ok_bind]
  refine (congrArg (· >>= _) hI).trans ?_
  simpa only [List.foldlM_cons, List.foldlM_nil, Res.ok_bind, bind_pure] using e

theorem makeVolume_shape (n g : I3) (k : Nat) : (makeVolume n g k).Shape n g k := ⟨rfl, rfl, by simp [makeVolume]⟩

theorem makeVolume_at {n g : I3} {k var : Nat} {c : I3} (hv : var < k) (hc : inSize (n + g + g) c = true) : (makeVolume n g k).at var c = some 0 := by
  simp [Vol.at, makeVolume, Vol.total, hc, hv]

theorem zero_shape {n g : I3} {k : Nat} {v : Vol} (h : v.Shape n g k) : v.zero.Shape n g k := ⟨h.1, h.2.1, by simpa [Vol.zero] using h.2.2⟩

theorem zero_at {n g : I3} {k var : Nat} {c : I3} {v : Vol} (h : v.Shape n g k) (hv : var < k) (hc : inSize (n + g + g) c = true) : v.zero.at var c = some 0 := by
  obtain ⟨rfl, rfl, rfl⟩ := h
  have : v.zero.total = v.n + v.g + v.g := rfl
  rw [Vol.at, this, if_pos hc]
  simp [Vol.zero, hv]

/-- What StructureBase adds, whatever the weight. -/
noncomputable def baseTerm (p : ℝ) (d : Nat) (H : Int) (m : I3) (v : I3 → ℝ) (q : I3) : ℝ :=
  if q.y = 0 ∧ q.z = 0 ∧ 0 ≤ q.x ∧ q.x < H then ∑ c ∈ (box 0 m).toFinset, |v c - Props.extended .periodic m v (c + Props.along d q.x)| ^ p / (m.x * m.y * m.z) else 0

theorem structureBase_adds (p : ℝ) (d : Nat) (H : Int) (n g : I3) (hg : 0 ≤ g.x ∧ 0 ≤ g.y ∧ 0 ≤ g.z) (k : Nat) (out u : Vol) (w : ℝ) (ho : out.Shape ⟨H, 1, 1⟩ 0 k) (hu : u.Shape n g k) :
    ∃ out', structureBase p d H out u w = .ok out' ∧ out'.Shape ⟨H, 1, 1⟩ 0 k ∧
      Added (fun var q => if var < k then baseTerm p d H ⟨n.x - 2 * g.x, n.y - 2 * g.y, n.z - 2 * g.z⟩ (u.inner var) q else 0) out out' := by
  have hut := hu.total
  obtain ⟨rfl, rfl, rfl⟩ := hu
  have key := vars_added (n := ⟨H, 1, 1⟩) (g := 0) (k := u.areas.length) (fun out var => do
    let viewIn ← u.view var
    out.modify var fun o => base p d H u.n u.g viewIn o)
    (fun var q => baseTerm p d H ⟨u.n.x - 2 * u.g.x, u.n.y - 2 * u.g.y, u.n.z - 2 * u.g.z⟩ (u.inner var) q) (List.range u.areas.length) List.nodup_range (by
    intro var hvar v hv
    have hvar' := List.mem_range.1 hvar
    beta_reduce
    rw [view_ok hvar', Res.ok_bind]
    refine modify_added hv hvar' _ (fun q => baseTerm p d H ⟨u.n.x - 2 * u.g.x, u.n.y - 2 * u.g.y, u.n.z - 2 * u.g.z⟩ (u.inner var) q) fun f => ?_
    obtain ⟨a, e, hv⟩ := Props.base_ok p d H u.n u.g _ rfl hg (u.areas.getD var fun _ => 0) f
    have e0 : (⟨H, 1, 1⟩ : I3) + 0 + 0 = ⟨H, 1, 1⟩ := by ext <;> simp
    rw [hut, e0]
    refine ⟨a, e, fun c _ => ?_⟩
    rw [hv, baseTerm]
    rfl) out ho
  obtain ⟨v', e, s, a⟩ := key
  exact ⟨v', e, s, a.congr fun var c => by simp⟩

/-- What StructureCube computes, whatever the weight. -/
noncomputable def cubeTerm (p : ℝ) (bc : BC) (H : Int) (n : I3) (v : I3 → ℝ) (q : I3) : ℝ :=
  if q.y = 0 ∧ q.z = 0 ∧ 1 ≤ q.x ∧ q.x < H then
    ∑ c ∈ (box 0 n).toFinset, (∑ s ∈ Props.shell (Props.dimsOf n) q.x, |v c - Props.extended bc n v (c + s)| ^ p) / (n.x * n.y * n.z) else 0

theorem structureCube_sets (p : ℝ) (bc : BC) (sides : Nat → Option BC) (H : Int) (n g : I3) (hn : 1 ≤ n.x ∧ 1 ≤ n.y ∧ 1 ≤ n.z) (hflat : n.y = 1 → n.z = 1)
    (hg : 0 ≤ g.x ∧ 0 ≤ g.y ∧ 0 ≤ g.z) (hsides : ∀ s < 2 * Props.dimsOf n, sides s = some bc) (k : Nat) (out u : Vol) (w : ℝ) (ho : out.Shape ⟨H, 1, 1⟩ 0 k) (hu : u.Shape n g k) :
    ∃ out', structureCube p sides (Props.dimsOf n) H out u w = .ok out' ∧ out'.Shape ⟨H, 1, 1⟩ 0 k ∧
      ∀ var c, var < k → inSize ⟨H, 1, 1⟩ c = true → out'.at var c = some (cubeTerm p bc H n (u.inner var) c) := by
  have hut := hu.total
  obtain ⟨rfl, rfl, rfl⟩ := hu
  have e0 : (⟨H, 1, 1⟩ : I3) + 0 + 0 = ⟨H, 1, 1⟩ := by ext <;> simp
  have key := vars_added (n := ⟨H, 1, 1⟩) (g := 0) (k := u.areas.length) (fun out var => do
    let viewIn ← u.view var
    out.modify var fun o => cubeChecked p sides (Props.dimsOf u.n) u.n u.g H viewIn o)
    (fun var q => cubeTerm p bc H u.n (u.inner var) q) (List.range u.areas.length) List.nodup_range (by
    intro var hvar v hv
    have hvar' := List.mem_range.1 hvar
    beta_reduce
    rw [view_ok hvar', Res.ok_bind]
    refine modify_added hv hvar' _ (fun q => cubeTerm p bc H u.n (u.inner var) q) fun f => ?_
    obtain ⟨a, e, hv⟩ := Props.C56_structure_cube p bc sides u.n u.g hn hflat hg hsides (u.areas.getD var fun _ => 0) H f
    rw [hut, e0]
    refine ⟨a, e, fun c _ => ?_⟩
    rw [hv, cubeTerm]
    rfl) out.zero (zero_shape ho)
  obtain ⟨v', e, s, a⟩ := key
  refine ⟨v', e, s, fun var c hv hc => ?_⟩
  rw [a, zero_at ho hv (by rw [e0]; exact hc)]
  simp [hv]

end Verif.Functionals
