import Verif.EnoLemmas
import Verif.DiffusionTotals

/-!
Model of the ENO reconstruction of the scaled entropy variables (alsfvm/src/reconstruction/tecno/ENOCPU.cpp), used by the entropy stable diffusion operator
of `Verif.Diffusion`. The divided differences are kept in flat arrays, because the code steps through them with `index + l` and `index - l - 1` in every direction.
-/

namespace Verif
namespace TecnoEno
open Verif NetFlux Eno
variable {N : Nat}

/-- `View::index` (alsfvm/include/alsfvm/memory/View.hpp:116-118): position of a cell in the flat array of a volume of total size `n`. -/
def idx (n q : I3) : Int := q.z * n.x * n.y + q.y * n.x + q.x

/-- The valid positions of a flat array for a volume of size `n`. -/
def inFlat (n : I3) (i : Int) : Bool := decide (0 ≤ i ∧ i < n.x * n.y * n.z)

/-- `computeDividedDifferences` (tecno/ENOCPU.cpp:195-243); `rdL` and `rdR` read the two inputs. -/
noncomputable def ddLoop (d : Nat) (n : I3) (level : Nat) (rdL rdR : I3 → Res ℝ) (out : Arr Int ℝ) : Res (Arr Int ℝ) :=
  (box (step d level) (n - step d level)).foldlM (fun o q => do
    let x ← (do
      let a ← rdL q
      let b ← rdR (q - I3.dir d)
      pure (a - b))
    o.wr (idx n (q - I3.dir d)) x) out

/-- The levels of divided differences of one variable (tecno/ENOCPU.cpp:63-73). -/
noncomputable def allDD (k d : Nat) (n : I3) (L R : Arr I3 ℝ) (dd : Nat → Arr Int ℝ) : Res (Nat → Arr Int ℝ) := do
  let a ← ddLoop d n 1 L.rd R.rd (dd 0)
  (List.range' 1 (k - 2)).foldlM (fun dd i => do
    let a ← ddLoop d n (i + 1) (fun q => (dd (i - 1)).rd (idx n q)) (fun q => (dd (i - 1)).rd (idx n q)) (dd i)
    pure (Function.update dd i a)) (Function.update dd 0 a)

/-- Choice of the stencil (tecno/ENOCPU.cpp:127-139). -/
noncomputable def selectShift (k d : Nat) (n : I3) (dd : Nat → Arr Int ℝ) (q : I3) : Res Nat :=
  (List.range (k - 1)).foldlM (fun s level => do
    let r ← (dd level).rd (idx n q)
    let l ← (dd level).rd (idx n (q - I3.dir d))
    pure (if |l| < |r| then s + 1 else s)) 0

/-- The array `wCur` (tecno/ENOCPU.cpp:147-155): entry `order - 1 + o` of the code is the value at `o`; `rs` and `ls` are the differences read to the right
and to the left. -/
def wCur (c : ℝ) (rs ls : List ℝ) (o : Int) : ℝ := if 0 ≤ o then c + (rs.take o.toNat).sum else c - (ls.take (-o).toNat).sum

/-- `uli`, `uri` (tecno/ENOCPU.cpp:158-163). -/
def weighted (c : List ℝ) (shift : Nat) (w : Int → ℝ) : ℝ := (c.zipIdx.map fun cj => cj.1 * w (-((shift : Int) - cj.2))).sum

/-- Left and right value of one cell (tecno/ENOCPU.cpp:119-167); the reads of `wCur` use the flat index in steps of one in every direction. -/
noncomputable def cell (k d : Nat) (n : I3) (L R : Arr I3 ℝ) (dd : Nat → Arr Int ℝ) (q : I3) : Res (ℝ × ℝ) := do
  let shift ← selectShift k d n dd q
  let cr ← row k (shift + 1)
  let cl ← row k shift
  let c ← L.rd q
  let rs ← (List.range (k - 1)).mapM fun (l : Nat) => (dd 0).rd (idx n q + l)
  let ls ← (List.range (k - 1)).mapM fun (l : Nat) => (dd 0).rd (idx n q - l - 1)
  let r ← R.rd q
  pure (weighted cl shift (wCur c rs ls), weighted cr shift (wCur c rs ls) + (r - c))

/-- Work arrays and outputs. -/
structure State (N : Nat) where
  dd : Nat → Arr Int ℝ
  left : Arr I3 (Vec N)
  right : Arr I3 (Vec N)

/-- Writing one variable of a cell. -/
def wrComp (a : Arr I3 (Vec N)) (v : Fin N) (q : I3) (x : ℝ) : Res (Arr I3 (Vec N)) := a.wr q (Function.update (a.val q) v x)

/-- The loop body for one variable (tecno/ENOCPU.cpp:59-175). -/
noncomputable def variable_ (k d : Nat) (n : I3) (leftIn rightIn : Arr I3 (Vec N)) (s : State N) (v : Fin N) : Res (State N) := do
  let dd ← allDD k d n (comp v leftIn) (comp v rightIn) s.dd
  let lr ← (box (step d (k - 1)) (n - step d (k - 1))).foldlM (fun (lr : Arr I3 (Vec N) × Arr I3 (Vec N)) q => do
    let x ← cell k d n (comp v leftIn) (comp v rightIn) dd q
    let l ← wrComp lr.1 v q x.1
    let r ← wrComp lr.2 v q x.2
    pure (l, r)) (s.left, s.right)
  pure ⟨dd, lr.1, lr.2⟩

/-- `ENOCPU<k>::performReconstruction` (tecno/ENOCPU.cpp:33-177) as an argument of the diffusion operator. `dd0` are the contents of the divided difference
arrays when the call for a direction and volume size is made (left over from earlier calls). For order 1 line 51 reads element 0 of an empty array; for a volume
with fewer than `k - 1` cells in the direction the unsigned end of the loop wraps around. -/
noncomputable def enoRec (k : Nat) (dd0 : Nat → I3 → Nat → Int → ℝ) : Diffusion.TecnoRec N where
  perform d n leftIn rightIn leftOut rightOut :=
    if 2 < d then .error .thrown else if k < 2 then .error .ub else if n.get d < (k : Int) - 1 then .error .ub else do
      let s ← (List.finRange N).foldlM (variable_ k d n leftIn rightIn) ⟨fun l => ⟨inFlat n, dd0 d n l⟩, leftOut, rightOut⟩
      pure (s.left, s.right)
  ghost := k

/-! ### Closed form -/

theorem idx_eq (n q : I3) : idx n q = (q.z * n.y + q.y) * n.x + q.x := by unfold idx; ring

theorem idx_inj {n p q : I3} (hp : inSize n p = true) (hq : inSize n q = true) (h : idx n p = idx n q) : p = q := by
  rw [inSize_iff] at hp hq
  rw [idx_eq, idx_eq] at h
  have hx : p.x = q.x := by
    have a : ((p.z * n.y + p.y) * n.x + p.x) % n.x = p.x := by rw [add_comm, Int.add_mul_emod_self_right]; exact Int.emod_eq_of_lt (by omega) (by omega)
    have b : ((q.z * n.y + q.y) * n.x + q.x) % n.x = q.x := by rw [add_comm, Int.add_mul_emod_self_right]; exact Int.emod_eq_of_lt (by omega) (by omega)
    rw [← a, ← b, h]
  have h' : p.z * n.y + p.y = q.z * n.y + q.y := by
    rw [hx] at h
    exact mul_right_cancel₀ (by omega : n.x ≠ 0) (by linarith)
  have hy : p.y = q.y := by
    have a : (p.z * n.y + p.y) % n.y = p.y := by rw [add_comm, Int.add_mul_emod_self_right]; exact Int.emod_eq_of_lt (by omega) (by omega)
    have b : (q.z * n.y + q.y) % n.y = q.y := by rw [add_comm, Int.add_mul_emod_self_right]; exact Int.emod_eq_of_lt (by omega) (by omega)
    rw [← a, ← b, h']
  have hz : p.z = q.z := by
    rw [hy] at h'
    exact mul_right_cancel₀ (by omega : n.y ≠ 0) (by linarith)
  ext <;> assumption

theorem idx_inFlat {n q : I3} (hq : inSize n q = true) : inFlat n (idx n q) = true := by
  rw [inSize_iff] at hq
  unfold inFlat
  rw [decide_eq_true_eq, idx_eq]
  have h1 : 0 ≤ q.z * n.y + q.y := by nlinarith
  have h2 : q.z * n.y + q.y ≤ n.z * n.y - 1 := by nlinarith
  constructor
  · nlinarith
  · nlinarith

/-- Differences across faces: level 0 is the jump between a cell and the next one, level `l + 1` differences of level `l`. -/
def DD (d : Nat) (L R : I3 → ℝ) : Nat → I3 → ℝ
  | 0, q => L (q + I3.dir d) - R q
  | l + 1, q => DD d L R l (q + I3.dir d) - DD d L R l q

/-- The positions at which the difference of level `l` is computed. -/
def Valid (n : I3) (d l : Nat) (q : I3) : Prop := ∀ e < 3, (if e = d then (l : Int) else 0) ≤ q.get e ∧ q.get e < n.get e - (if e = d then (l : Int) + 2 else 0)

theorem get_step {d : Nat} (hd : d < 3) (q : I3) (o : Int) {e : Nat} (he : e < 3) : (q + step d o).get e = q.get e + if e = d then o else 0 := by
  obtain ⟨a, b⟩ := Diffusion.get_geom hd q o
  by_cases h : e = d
  · subst h; rw [a, if_pos rfl]
  · rw [b e he h, if_neg h, add_zero]

theorem get_add_dir {d : Nat} (hd : d < 3) (q : I3) {e : Nat} (he : e < 3) : (q + I3.dir d).get e = q.get e + if e = d then 1 else 0 := by
  rw [Diffusion.dir_eq_step]; exact get_step hd q 1 he

theorem get_sub_dir {d : Nat} (hd : d < 3) (q : I3) {e : Nat} (he : e < 3) : (q - I3.dir d).get e = q.get e - if e = d then 1 else 0 := by
  rw [Diffusion.dir_eq_step, Diffusion.sub_step, get_step hd q _ he]; split_ifs <;> ring

theorem main_get {d : Nat} (hd : d < 3) {n q : I3} {a : Int} :
    q ∈ box (step d a) (n - step d a) ↔ ∀ e < 3, (if e = d then a else 0) ≤ q.get e ∧ q.get e < n.get e - (if e = d then a else 0) := by
  rw [box_get]
  refine forall₂_congr fun e he => ?_
  have : d = 0 ∨ d = 1 ∨ d = 2 := by omega
  rcases this with rfl | rfl | rfl <;> interval_cases e <;> simp [step, I3.get]

theorem ddLoop_ok {d : Nat} (hd : d < 3) {n : I3} {level : Nat} (hl : 1 ≤ level) {rdL rdR : I3 → Res ℝ} (a b : I3 → ℝ) {out : Arr Int ℝ}
    (ho : out.inb = inFlat n)
    (h : ∀ q ∈ box (step d level) (n - step d level), rdL q = .ok (a q) ∧ rdR (q - I3.dir d) = .ok (b (q - I3.dir d))) :
    ∃ o, ddLoop d n level rdL rdR out = .ok o ∧ o.inb = inFlat n ∧
      ∀ q ∈ box (step d level) (n - step d level), o.val (idx n (q - I3.dir d)) = a q - b (q - I3.dir d) := by
  have hin : ∀ q ∈ box (step d level) (n - step d level), inSize n (q - I3.dir d) = true := by
    intro q hq
    rw [Diffusion.inSize_get]
    intro e he
    have := (main_get hd).1 hq e he
    rw [get_sub_dir hd q he]
    split_ifs at * <;> omega
  have key := Arr.foldlM_wr (box (step d level) (n - step d level)) (fun q => idx n (q - I3.dir d))
    (fun (_ : Arr Int ℝ) q => do
      let a ← rdL q
      let b ← rdR (q - I3.dir d)
      pure (a - b))
    (fun q => a q - b (q - I3.dir d)) out (fun q hq => by rw [ho]; exact idx_inFlat (hin q hq)) ?_ ?_
  · obtain ⟨o, k1, k2, k3, -⟩ := key
    exact ⟨o, k1, by rw [k2, ho], k3⟩
  · refine List.Pairwise.imp_of_mem (fun {p q} hp hq hne he => ?_) (nodup_box (step d level) (n - step d level))
    have := idx_inj (hin p hp) (hin q hq) he
    apply hne
    have h1 := congrArg I3.x this; have h2 := congrArg I3.y this; have h3 := congrArg I3.z this
    simp at h1 h2 h3
    ext <;> assumption
  · intro _ q hq _ _ _
    rw [(h q hq).1, (h q hq).2]
    rfl

theorem allDD_ok {k d : Nat} (hd : d < 3) {n : I3} {L R : Arr I3 ℝ} (hL : L.inb = inSize n) (hR : R.inb = inSize n)
    {dd : Nat → Arr Int ℝ} (hdd : ∀ l, (dd l).inb = inFlat n) :
    ∃ dd', allDD k d n L R dd = .ok dd' ∧ (∀ l, (dd' l).inb = inFlat n) ∧
      ∀ l < max 1 (k - 1), ∀ q, Valid n d l q → (dd' l).val (idx n q) = DD d L.val R.val l q := by
  have back : ∀ q : I3, q + I3.dir d - I3.dir d = q := fun q => by ext <;> simp
  have mem : ∀ l q, Valid n d l q → q + I3.dir d ∈ box (step d ((l + 1 : Nat) : Int)) (n - step d ((l + 1 : Nat) : Int)) := by
    intro l q hq
    refine (main_get hd).2 fun e he => ?_
    have := hq e he
    rw [get_add_dir hd q he]
    push_cast
    split_ifs at * <;> omega
  have hcells : ∀ level : Nat, 1 ≤ level → ∀ q ∈ box (step d level) (n - step d level), inSize n q = true ∧ inSize n (q - I3.dir d) = true := by
    intro level hl q hq
    constructor <;> rw [Diffusion.inSize_get] <;> intro e he <;> have := (main_get hd).1 hq e he
    · split_ifs at * <;> omega
    · rw [get_sub_dir hd q he]; split_ifs at * <;> omega
  obtain ⟨a, a1, a2, a3⟩ := ddLoop_ok hd (n := n) (level := 1) le_rfl L.val R.val (hdd 0) (rdL := L.rd) (rdR := R.rd) (fun q hq => by
    obtain ⟨h1, h2⟩ := hcells 1 le_rfl q hq
    exact ⟨Arr.rd_ok (by rw [hL, h1]), Arr.rd_ok (by rw [hR, h2])⟩)
  have ind : ∀ m : Nat, ∃ dd', (List.range' 1 m).foldlM (fun dd i => do
      let a ← ddLoop d n (i + 1) (fun q => (dd (i - 1)).rd (idx n q)) (fun q => (dd (i - 1)).rd (idx n q)) (dd i)
      pure (Function.update dd i a)) (Function.update dd 0 a) = (.ok dd' : Res (Nat → Arr Int ℝ)) ∧ (∀ l, (dd' l).inb = inFlat n) ∧
      ∀ l < m + 1, ∀ q, Valid n d l q → (dd' l).val (idx n q) = DD d L.val R.val l q := by
    intro m
    induction m with
    | zero =>
      refine ⟨_, rfl, fun l => ?_, fun l hl q hq => ?_⟩
      · by_cases h : l = 0
        · subst h; simpa using a2
        · rw [Function.update_of_ne h]; exact hdd l
      · obtain rfl : l = 0 := by omega
        have := a3 _ (mem 0 q hq)
        rw [back] at this
        simpa [DD] using this
    | succ m ih =>
      obtain ⟨dd', h1, h2, h3⟩ := ih
      obtain ⟨b, b1, b2, b3⟩ := ddLoop_ok hd (n := n) (level := 1 + m + 1) (by omega) (DD d L.val R.val m) (DD d L.val R.val m) (h2 (1 + m))
        (rdL := fun q => (dd' (1 + m - 1)).rd (idx n q)) (rdR := fun q => (dd' (1 + m - 1)).rd (idx n q)) (fun q hq => by
          obtain ⟨c1, c2⟩ := hcells (1 + m + 1) (by omega) q hq
          have e : 1 + m - 1 = m := by omega
          rw [e]
          refine ⟨?_, ?_⟩
          · rw [Arr.rd_ok (by rw [h2]; exact idx_inFlat c1), h3 m (by omega)]
            intro e he
            have := (main_get hd).1 hq e he
            push_cast at this
            split_ifs at * <;> omega
          · rw [Arr.rd_ok (by rw [h2]; exact idx_inFlat c2), h3 m (by omega)]
            intro e he
            have := (main_get hd).1 hq e he
            push_cast at this
            rw [get_sub_dir hd q he]
            split_ifs at * <;> omega)
      refine ⟨Function.update dd' (1 + m) b, ?_, fun l => ?_, fun l hl q hq => ?_⟩
      · rw [List.range'_1_concat, List.foldlM_append, h1]
        simp only [Res.ok_bind, List.foldlM_cons, List.foldlM_nil, b1]
        rfl
      · by_cases h : l = 1 + m
        · subst h; simpa using b2
        · rw [Function.update_of_ne h]; exact h2 l
      · by_cases h : l = 1 + m
        · subst h
          have hm := mem (1 + m) q hq
          have := b3 _ hm
          rw [back] at this
          rw [Function.update_self, this, show 1 + m = m + 1 by omega, DD]
        · rw [Function.update_of_ne h]; exact h3 l (by omega) q hq
  obtain ⟨dd', h1, h2, h3⟩ := ind (k - 2)
  refine ⟨dd', ?_, h2, fun l hl => h3 l (by omega)⟩
  unfold allDD
  rw [a1]
  exact h1

/-- Value of one cell from the contents of the difference arrays. -/
noncomputable def cellVal (k : Nat) (D : Nat → Int → ℝ) (i j : Int) (c r : ℝ) : ℝ × ℝ :=
  let shift := (List.range (k - 1)).foldl (fun s l => if |D l j| < |D l i| then s + 1 else s) 0
  let w := wCur c ((List.range (k - 1)).map fun (l : Nat) => D 0 (i + l)) ((List.range (k - 1)).map fun (l : Nat) => D 0 (i - l - 1))
  (weighted ((table k).getD shift []) shift w, weighted ((table k).getD (shift + 1) []) shift w + (r - c))

theorem mapM_rd' {ι : Type} (a : Arr Int ℝ) (l : List ι) (f : ι → Int) (h : ∀ o ∈ l, a.inb (f o) = true) :
    (l.mapM fun o => a.rd (f o)) = .ok (l.map fun o => a.val (f o)) := by
  induction l with
  | nil => rfl
  | cons o l ih =>
    simp only [List.mapM_cons, Arr.rd_ok (h o (by simp)), Res.ok_bind, ih fun o ho => h o (by simp [ho])]
    rfl

theorem idx_step {n : I3} (hn : ∀ e < 3, 1 ≤ n.get e) {d : Nat} (hd : d < 3) : ∃ c : Int, 1 ≤ c ∧ ∀ (q : I3) (o : Int), idx n (q + step d o) = idx n q + c * o := by
  have h0 := hn 0 (by decide); have h1 := hn 1 (by decide)
  simp only [I3.get] at h0 h1
  norm_num at h0 h1
  have : d = 0 ∨ d = 1 ∨ d = 2 := by omega
  rcases this with rfl | rfl | rfl
  · exact ⟨1, le_rfl, fun q o => by simp [idx, step]; ring⟩
  · exact ⟨n.x, h0, fun q o => by simp [idx, step]; ring⟩
  · exact ⟨n.x * n.y, by nlinarith, fun q o => by simp [idx, step]; ring⟩

/-- The flat neighbours read for a cell lie in the array. -/
theorem near_inFlat {k d : Nat} (hd : d < 3) {n q : I3} (hq : q ∈ box (step d ((k : Int) - 1)) (n - step d ((k : Int) - 1))) (hk : 2 ≤ k) (o : Int)
    (h1 : -((k : Int) - 1) ≤ o) (h2 : o ≤ (k : Int) - 1) : inFlat n (idx n q + o) = true := by
  have hq' := (main_get hd).1 hq
  have hn : ∀ e < 3, 1 ≤ n.get e := fun e he => by have := hq' e he; split_ifs at this <;> omega
  obtain ⟨c, hc, hs⟩ := idx_step hn hd
  have lo : inSize n (q + step d (-((k : Int) - 1))) = true := by
    rw [Diffusion.inSize_get]; intro e he; have := hq' e he; rw [get_step hd q _ he]; split_ifs at * <;> omega
  have hi : inSize n (q + step d ((k : Int) - 1)) = true := by
    rw [Diffusion.inSize_get]; intro e he; have := hq' e he; rw [get_step hd q _ he]; split_ifs at * <;> omega
  have a := idx_inFlat lo; have b := idx_inFlat hi
  rw [hs] at a b
  unfold inFlat at *
  rw [decide_eq_true_eq] at *
  have e : (k : Int) - 1 ≤ c * ((k : Int) - 1) := by nlinarith
  have e' : c * -((k : Int) - 1) = -(c * ((k : Int) - 1)) := by ring
  omega

theorem cell_ok {k d : Nat} (hd : d < 3) (hk : 2 ≤ k) (hk4 : k ≤ 4) {n : I3} {L R : Arr I3 ℝ} (hL : L.inb = inSize n) (hR : R.inb = inSize n)
    {dd : Nat → Arr Int ℝ} (hdd : ∀ l, (dd l).inb = inFlat n) {q : I3} (hq : q ∈ box (step d ((k : Int) - 1)) (n - step d ((k : Int) - 1))) :
    cell k d n L R dd q = .ok (cellVal k (fun l => (dd l).val) (idx n q) (idx n (q - I3.dir d)) (L.val q) (R.val q)) := by
  have hq' := (main_get hd).1 hq
  have c1 : inSize n q = true := by rw [Diffusion.inSize_get]; intro e he; have := hq' e he; split_ifs at * <;> omega
  have c2 : inSize n (q - I3.dir d) = true := by
    rw [Diffusion.inSize_get]; intro e he; have := hq' e he; rw [get_sub_dir hd q he]; split_ifs at * <;> omega
  have hs : selectShift k d n dd q = .ok ((List.range (k - 1)).foldl (fun s l =>
      if |(dd l).val (idx n (q - I3.dir d))| < |(dd l).val (idx n q)| then s + 1 else s) 0) := by
    unfold selectShift
    refine foldlM_pure _ _ _ _ fun s l _ => ?_
    rw [Arr.rd_ok (by rw [hdd]; exact idx_inFlat c1), Arr.rd_ok (by rw [hdd]; exact idx_inFlat c2)]
    rfl
  have hle := foldl_count_le (fun l => |(dd l).val (idx n (q - I3.dir d))| < |(dd l).val (idx n q)|) (List.range (k - 1)) 0
  rw [List.length_range, zero_add] at hle
  unfold cell
  rw [hs, Res.ok_bind, row_ok (by omega) hk4 (by omega), Res.ok_bind, row_ok (by omega) hk4 (by omega), Res.ok_bind, Arr.rd_ok (by rw [hL, c1]), Res.ok_bind,
    mapM_rd' (dd 0) (List.range (k - 1)) (fun (l : Nat) => idx n q + l) (fun l hl => by
      rw [hdd]; have : l < k - 1 := by simpa using hl
      exact near_inFlat hd hq hk _ (by omega) (by omega)), Res.ok_bind,
    mapM_rd' (dd 0) (List.range (k - 1)) (fun (l : Nat) => idx n q - l - 1) (fun l hl => by
      rw [hdd]; have : l < k - 1 := by simpa using hl
      have := near_inFlat hd hq hk (-(l : Int) - 1) (by omega) (by omega)
      rwa [show idx n q + (-(l : Int) - 1) = idx n q - l - 1 by ring] at this), Res.ok_bind, Arr.rd_ok (by rw [hR, c1])]
  rfl

theorem variable_ok {k d : Nat} (hd : d < 3) (hk : 2 ≤ k) (hk4 : k ≤ 4) {n : I3} {leftIn rightIn : Arr I3 (Vec N)} (hL : leftIn.inb = inSize n)
    (hR : rightIn.inb = inSize n) {s : State N} (hdd : ∀ l, (s.dd l).inb = inFlat n) (hl : s.left.inb = inSize n) (hr : s.right.inb = inSize n) (v : Fin N) :
    ∃ s', variable_ k d n leftIn rightIn s v = .ok s' ∧ (∀ l, (s'.dd l).inb = inFlat n) ∧ s'.left.inb = inSize n ∧ s'.right.inb = inSize n ∧
      (∀ l < k - 1, ∀ q, Valid n d l q → (s'.dd l).val (idx n q) = DD d (fun q => leftIn.val q v) (fun q => rightIn.val q v) l q) ∧
      (∀ q ∈ box (step d ((k : Int) - 1)) (n - step d ((k : Int) - 1)),
        s'.left.val q v = (cellVal k (fun l => (s'.dd l).val) (idx n q) (idx n (q - I3.dir d)) (leftIn.val q v) (rightIn.val q v)).1 ∧
        s'.right.val q v = (cellVal k (fun l => (s'.dd l).val) (idx n q) (idx n (q - I3.dir d)) (leftIn.val q v) (rightIn.val q v)).2) ∧
      ∀ q, ∀ v' ≠ v, s'.left.val q v' = s.left.val q v' ∧ s'.right.val q v' = s.right.val q v' := by
  obtain ⟨dd', d1, d2, d3⟩ := allDD_ok (k := k) hd (n := n) (L := comp v leftIn) (R := comp v rightIn) hL hR hdd
  have hsz : ∀ q ∈ box (step d ((k : Int) - 1)) (n - step d ((k : Int) - 1)), inSize n q = true := by
    intro q hq
    rw [Diffusion.inSize_get]; intro e he; have := (main_get hd).1 hq e he; split_ifs at * <;> omega
  have key := foldlM_inv (fun (lr : Arr I3 (Vec N) × Arr I3 (Vec N)) q => do
      let x ← cell k d n (comp v leftIn) (comp v rightIn) dd' q
      let l ← wrComp lr.1 v q x.1
      let r ← wrComp lr.2 v q x.2
      pure (l, r)) (box (step d ((k : Int) - 1)) (n - step d ((k : Int) - 1))) (s.left, s.right)
    (fun pre lr => lr.1.inb = inSize n ∧ lr.2.inb = inSize n ∧
      (∀ q ∈ pre, lr.1.val q v = (cellVal k (fun l => (dd' l).val) (idx n q) (idx n (q - I3.dir d)) (leftIn.val q v) (rightIn.val q v)).1 ∧
        lr.2.val q v = (cellVal k (fun l => (dd' l).val) (idx n q) (idx n (q - I3.dir d)) (leftIn.val q v) (rightIn.val q v)).2) ∧
      ∀ q, ∀ v' ≠ v, lr.1.val q v' = s.left.val q v' ∧ lr.2.val q v' = s.right.val q v') ⟨hl, hr, by simp, by simp⟩ ?_
  · obtain ⟨lr, k1, k2, k3, k4, k5⟩ := key
    refine ⟨⟨dd', lr.1, lr.2⟩, ?_, d2, k2, k3, fun l hl => d3 l (by omega), k4, k5⟩
    unfold variable_
    rw [d1, Res.ok_bind, k1]
    rfl
  · rintro pre q post lr hlist ⟨i1, i2, i3, i4⟩
    have hq : q ∈ box (step d ((k : Int) - 1)) (n - step d ((k : Int) - 1)) := by rw [hlist]; simp
    have c := cell_ok hd hk hk4 (L := comp v leftIn) (R := comp v rightIn) hL hR d2 hq
    rw [c, Res.ok_bind]
    unfold wrComp
    rw [Arr.wr_ok (by rw [i1]; exact hsz q hq), Res.ok_bind, Arr.wr_ok (by rw [i2]; exact hsz q hq), Res.ok_bind]
    refine ⟨_, rfl, i1, i2, ?_, ?_⟩
    · intro p hp
      by_cases hpq : p = q
      · subst hpq; simp [comp]
      · have hp' : p ∈ pre := by simpa [hpq] using hp
        simp only [Function.update_of_ne hpq]
        exact i3 p hp'
    · intro p v' hv
      by_cases hpq : p = q
      · subst hpq; simp only [Function.update_self, Function.update_of_ne hv]; exact i4 p v' hv
      · simp only [Function.update_of_ne hpq]; exact i4 p v' hv

/-- Closed form of a call: every variable of every cell of the loop gets the value computed from difference arrays that hold the differences of that variable
wherever the code computes them. -/
theorem perform_ok {k d : Nat} (hd : d < 3) (hk : 2 ≤ k) (hk4 : k ≤ 4) (dd0 : Nat → I3 → Nat → Int → ℝ) {n : I3} (hn : (k : Int) - 1 ≤ n.get d)
    {leftIn rightIn left right : Arr I3 (Vec N)} (hL : leftIn.inb = inSize n) (hR : rightIn.inb = inSize n) (hl : left.inb = inSize n) (hr : right.inb = inSize n) :
    ∃ s, (enoRec k dd0).perform d n leftIn rightIn left right = .ok s ∧ s.1.inb = inSize n ∧ s.2.inb = inSize n ∧
      ∀ v : Fin N, ∃ D : Nat → Int → ℝ, (∀ l < k - 1, ∀ q, Valid n d l q → D l (idx n q) = DD d (fun q => leftIn.val q v) (fun q => rightIn.val q v) l q) ∧
        ∀ q ∈ box (step d ((k : Int) - 1)) (n - step d ((k : Int) - 1)),
          s.1.val q v = (cellVal k D (idx n q) (idx n (q - I3.dir d)) (leftIn.val q v) (rightIn.val q v)).1 ∧
          s.2.val q v = (cellVal k D (idx n q) (idx n (q - I3.dir d)) (leftIn.val q v) (rightIn.val q v)).2 := by
  have key := foldlM_inv (variable_ k d n leftIn rightIn) (List.finRange N) ⟨fun l => ⟨inFlat n, dd0 d n l⟩, left, right⟩
    (fun pre s => (∀ l, (s.dd l).inb = inFlat n) ∧ s.left.inb = inSize n ∧ s.right.inb = inSize n ∧
      ∀ v ∈ pre, ∃ D : Nat → Int → ℝ, (∀ l < k - 1, ∀ q, Valid n d l q → D l (idx n q) = DD d (fun q => leftIn.val q v) (fun q => rightIn.val q v) l q) ∧
        ∀ q ∈ box (step d ((k : Int) - 1)) (n - step d ((k : Int) - 1)),
          s.left.val q v = (cellVal k D (idx n q) (idx n (q - I3.dir d)) (leftIn.val q v) (rightIn.val q v)).1 ∧
          s.right.val q v = (cellVal k D (idx n q) (idx n (q - I3.dir d)) (leftIn.val q v) (rightIn.val q v)).2) ⟨fun _ => rfl, hl, hr, by simp⟩ ?_
  · obtain ⟨s, k1, k2, k3, k4, k5⟩ := key
    refine ⟨(s.left, s.right), ?_, k3, k4, fun v => k5 v (List.mem_finRange v)⟩
    simp only [enoRec]
    rw [if_neg (by omega), if_neg (by omega), if_neg (by omega), k1]
    rfl
  · rintro pre v post s hlist ⟨i1, i2, i3, i4⟩
    obtain ⟨s', e1, e2, e3, e4, e5, e6, e7⟩ := variable_ok hd hk hk4 hL hR i1 i2 i3 v
    refine ⟨s', e1, e2, e3, e4, fun v' hv' => ?_⟩
    by_cases h : v' = v
    · subst h
      exact ⟨fun l => (s'.dd l).val, e5, e6⟩
    · obtain ⟨D, g1, g2⟩ := i4 v' (by simpa [h] using hv')
      refine ⟨D, g1, fun q hq => ?_⟩
      rw [(e7 q v' h).1, (e7 q v' h).2]
      exact g2 q hq

end TecnoEno
end Verif
