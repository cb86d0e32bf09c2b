import Verif.Diffusion
import Mathlib.Data.Real.Basic
import Mathlib.Tactic.Linarith
import Mathlib.Tactic.IntervalCases
import Mathlib.Tactic.FieldSimp

/-!
Model of the ENO reconstruction (alsfvm/src/reconstruction/ENOCPU.cpp) of order `k` for `m` variables, with the divided difference arrays the object
keeps between calls.
-/

namespace Verif
namespace Eno
open Verif NetFlux
variable {m : Nat}

/-- A state vector. -/
abbrev Vec (m : Nat) := Fin m → ℝ

/-- The coefficient tables (alsfvm/src/reconstruction/ENOCoefficients.cpp:21-49), as exact fractions. -/
noncomputable def table : Nat → List (List ℝ)
  | 1 => [[1], [1]]
  | 2 => [[3 / 2, -1 / 2], [1 / 2, 1 / 2], [-1 / 2, 3 / 2]]
  | 3 => [[11 / 6, -7 / 6, 1 / 3], [1 / 3, 5 / 6, -1 / 6], [-1 / 6, 5 / 6, 1 / 3], [1 / 3, -7 / 6, 11 / 6]]
  | 4 => [[25 / 12, -23 / 12, 13 / 12, -1 / 4], [1 / 4, 13 / 12, -5 / 12, 1 / 12], [-1 / 12, 7 / 12, 7 / 12, -1 / 12],
      [1 / 12, -5 / 12, 13 / 12, 1 / 4], [-1 / 4, 13 / 12, -23 / 12, 25 / 12]]
  | _ => []

/-- Reading a row of a table: outside of it the behaviour is undefined. -/
noncomputable def row (k r : Nat) : Res (List ℝ) :=
  match (table k)[r]? with
  | some l => .ok l
  | none => .error .ub

/-- First and last index of the loops of `computeDividedDifferences` in one coordinate (ENOCPU.cpp:224-236); `along` tells whether the coordinate is
the direction, `act` whether the volume extends in it (`ny > 1`; always 1 for `x`). -/
def ddLo1 (k level : Nat) (along : Bool) (act start : Int) : Int := (if along then (level : Int) else act * (k : Int)) + start
/-- see `ddLo1` -/
def ddHi1 (k level : Nat) (along : Bool) (act n stop : Int) : Int := n - (if along then (level : Int) - 1 else act * ((k : Int) - 1)) + stop

/-- see `ddLo1` -/
def ddLo (k d level : Nat) (active start : I3) : I3 :=
  ⟨ddLo1 k level (d == 0) active.x start.x, ddLo1 k level (d == 1) active.y start.y, ddLo1 k level (d == 2) active.z start.z⟩
/-- see `ddLo1` -/
def ddHi (k d level : Nat) (active n stop : I3) : I3 :=
  ⟨ddHi1 k level (d == 0) active.x n.x stop.x, ddHi1 k level (d == 1) active.y n.y stop.y, ddHi1 k level (d == 2) active.z n.z stop.z⟩

/-- `computeDividedDifferences` (ENOCPU.cpp:205-267). -/
noncomputable def computeDD (k d level : Nat) (active n start stop : I3) (input output : Arr I3 ℝ) : Res (Arr I3 ℝ) :=
  (box (ddLo k d level active start) (ddHi k d level active n stop)).foldlM (fun o q => do
    let x ← (do
      let r ← input.rd q
      let l ← input.rd (q - I3.dir d)
      pure (r - l))
    o.wr (q - I3.dir d) x) output

/-- One scalar memory area of a volume. -/
def comp (i : Fin m) (u : Arr I3 (Vec m)) : Arr I3 ℝ := { inb := u.inb, val := fun q => u.val q i }

/-- The stencil selection (ENOCPU.cpp:141-153). -/
noncomputable def selectShift (k d : Nat) (dd : Nat → Arr I3 ℝ) (q : I3) : Res Nat :=
  (List.range (k - 1)).foldlM (fun s level => do
    let r ← (dd level).rd q
    let l ← (dd level).rd (q - I3.dir d)
    pure (if |l| < |r| then s + 1 else s)) 0

/-- The sum over the stencil (ENOCPU.cpp:160-174), all variables together: `Σ_j c_j u(q - (shift - j) e_d)`. -/
noncomputable def weighted (d : Nat) (u : Arr I3 (Vec m)) (q : I3) (shift : Nat) (c : List ℝ) : Res (Vec m) :=
  c.zipIdx.foldlM (fun s cj => do
    let v ← u.rd (q - step d ((shift : Int) - cj.2))
    pure (s + cj.1 • v)) 0

/-- First cell and end of the main loop (ENOCPU.cpp:92-98). -/
def mainLo (k d : Nat) (active start : I3) : I3 :=
  ⟨active.x * (k - (I3.dir d).x) + start.x, active.y * (k - (I3.dir d).y) + start.y, active.z * (k - (I3.dir d).z) + start.z⟩
/-- see `mainLo` -/
def mainHi (k d : Nat) (active n stop : I3) : I3 :=
  ⟨n.x - active.x * (k - (I3.dir d).x) + stop.x, n.y - active.y * (k - (I3.dir d).y) + stop.y, n.z - active.z * (k - (I3.dir d).z) + stop.z⟩

/-- The object's divided difference arrays and the two output volumes. -/
structure State (m : Nat) where
  dd : Nat → Arr I3 ℝ
  left : Arr I3 (Vec m)
  right : Arr I3 (Vec m)

/-- The levels of divided differences (ENOCPU.cpp:66-79): level 1 from the indicator variable, level `i + 1` from level `i`. -/
noncomputable def allDD (k d : Nat) (active n start stop : I3) (ind : Arr I3 ℝ) (dd : Nat → Arr I3 ℝ) : Res (Nat → Arr I3 ℝ) := do
  let a ← computeDD k d 1 active n start stop ind (dd 0)
  (List.range' 1 (k - 2)).foldlM (fun dd i => do
    let a ← computeDD k d (i + 1) active n start stop (dd (i - 1)) (dd i)
    pure (Function.update dd i a)) (Function.update dd 0 a)

/-- `ENOCPU<k>::performReconstruction` (ENOCPU.cpp:41-187) for a valid direction, with divided difference arrays of the right size. The loop over the
variables is merged into the loop over the cells. For order 1 the array `dividedDifferences` is empty and line 58 reads its element 0. -/
noncomputable def perform (k d : Nat) (ind : Fin m) (active n start stop : I3) (u : Arr I3 (Vec m)) (s : State m) : Res (State m) :=
  if k < 2 then .error .ub else do
    let dd ← allDD k d active n start stop (comp ind u) s.dd
    let lr ← (box (mainLo k d active start) (mainHi k d active n stop)).foldlM (fun (lr : Arr I3 (Vec m) × Arr I3 (Vec m)) q => do
      let shift ← selectShift k d dd q
      let cr ← row k (shift + 1)
      let cl ← row k shift
      let lv ← weighted d u q shift cl
      let rv ← weighted d u q shift cr
      let l ← lr.1.wr q lv
      let r ← lr.2.wr q rv
      pure (l, r)) (s.left, s.right)
    pure ⟨dd, lr.1, lr.2⟩

/-! ### Pointwise form -/

/-- Iterated forward differences of a sequence. -/
def fdiff : Nat → (Int → ℝ) → Int → ℝ
  | 0, f, i => f i
  | l + 1, f, i => fdiff l f (i + 1) - fdiff l f i

/-- The shift selected for the cell at offset 0 from the values along the line. -/
noncomputable def shiftOf (k : Nat) (f : Int → ℝ) : Nat :=
  (List.range (k - 1)).foldl (fun s l => if |fdiff (l + 1) f (-1)| < |fdiff (l + 1) f 0| then s + 1 else s) 0

/-- Weighted sum with the first value at offset `-shift`. -/
noncomputable def combo (c : List ℝ) (shift : Nat) (f : Int → Vec m) : Vec m :=
  c.zipIdx.foldl (fun s cj => s + cj.1 • f (-((shift : Int) - cj.2))) 0

/-- The face value with table row `r` and shift `s`. -/
noncomputable def value (k r s : Nat) (f : Int → Vec m) : Vec m := combo ((table k).getD r []) s f

/-! ### Lemmas -/

theorem foldl_count_le {α : Type} (p : α → Prop) [DecidablePred p] : ∀ (l : List α) (s : Nat), l.foldl (fun s a => if p a then s + 1 else s) s ≤ s + l.length
  | [], s => by simp
  | a :: l, s => by
    simp only [List.foldl_cons, List.length_cons]
    have := foldl_count_le p l (if p a then s + 1 else s)
    split_ifs at this <;> split_ifs <;> omega

theorem shiftOf_le (k : Nat) (f : Int → ℝ) : shiftOf k f ≤ k - 1 := by
  have := foldl_count_le (fun l => |fdiff (l + 1) f (-1)| < |fdiff (l + 1) f 0|) (List.range (k - 1)) 0
  simpa [shiftOf] using this

theorem fdiff_shift (l : Nat) (f : Int → ℝ) (a i : Int) : fdiff l (fun j => f (a + j)) i = fdiff l f (a + i) := by
  induction l generalizing i with
  | zero => rfl
  | succ l ih => simp only [fdiff, ih, add_assoc]

theorem foldlM_pure {α β : Type} (g : β → α → β) (f : β → α → Res β) : ∀ (l : List α) (s : β), (∀ s, ∀ a ∈ l, f s a = .ok (g s a)) →
    l.foldlM f s = .ok (l.foldl g s)
  | [], s, _ => rfl
  | a :: l, s, h => by
    rw [List.foldlM_cons, h s a (by simp), Res.ok_bind, List.foldl_cons]
    exact foldlM_pure g f l _ fun s b hb => h s b (by simp [hb])

/-- The line through `q` in direction `d`. -/
def line {α : Type} (d : Nat) (u : I3 → α) (q : I3) : Int → α := fun o => u (q + step d o)

theorem table_length {k : Nat} (h1 : 1 ≤ k) (h4 : k ≤ 4) : (table k).length = k + 1 := by
  interval_cases k <;> rfl

theorem row_length {k r : Nat} (h1 : 1 ≤ k) (h4 : k ≤ 4) (hr : r ≤ k) : ((table k).getD r []).length = k := by
  interval_cases k <;> interval_cases r <;> rfl

theorem row_ok {k r : Nat} (h1 : 1 ≤ k) (h4 : k ≤ 4) (hr : r ≤ k) : row k r = .ok ((table k).getD r []) := by
  have : r < (table k).length := by rw [table_length h1 h4]; omega
  simp [row, this]

/-- Assumptions on a call: the volume extends in the direction, the region is inside. -/
structure Geo (k d : Nat) (active start stop : I3) : Prop where
  dlt : d < 3
  act : ∀ e < 3, active.get e = 0 ∨ active.get e = 1
  actd : active.get d = 1
  start : ∀ e < 3, 0 ≤ start.get e
  stop : ∀ e < 3, stop.get e ≤ 0

theorem box_get {lo hi q : I3} : q ∈ box lo hi ↔ ∀ e < 3, lo.get e ≤ q.get e ∧ q.get e < hi.get e := by
  rw [mem_box]
  constructor
  · rintro h e he
    interval_cases e <;> simp [I3.get] <;> omega
  · intro h
    have h0 := h 0 (by decide); have h1 := h 1 (by decide); have h2 := h 2 (by decide)
    simp [I3.get] at h0 h1 h2
    omega

theorem ddLo_get (k d level : Nat) (active start : I3) {e : Nat} (he : e < 3) :
    (ddLo k d level active start).get e = (if e = d then (level : Int) else active.get e * k) + start.get e := by
  rcases d with _ | _ | _ | d <;> interval_cases e <;> simp [ddLo, ddLo1, I3.get]

theorem ddHi_get (k d level : Nat) (active n stop : I3) {e : Nat} (he : e < 3) :
    (ddHi k d level active n stop).get e = n.get e - (if e = d then (level : Int) - 1 else active.get e * (k - 1)) + stop.get e := by
  rcases d with _ | _ | _ | d <;> interval_cases e <;> simp [ddHi, ddHi1, I3.get]

theorem mainLo_get (k d : Nat) (active start : I3) {e : Nat} (he : e < 3) :
    (mainLo k d active start).get e = active.get e * (k - (if e = d then 1 else 0)) + start.get e := by
  rcases d with _ | _ | _ | d <;> interval_cases e <;> simp [mainLo, I3.get, I3.dir]

theorem mainHi_get (k d : Nat) (active n stop : I3) {e : Nat} (he : e < 3) :
    (mainHi k d active n stop).get e = n.get e - active.get e * (k - (if e = d then 1 else 0)) + stop.get e := by
  rcases d with _ | _ | _ | d <;> interval_cases e <;> simp [mainHi, I3.get, I3.dir]

theorem computeDD_ok {k d level : Nat} {active n start stop : I3} {input output : Arr I3 ℝ}
    (h1 : ∀ q ∈ box (ddLo k d level active start) (ddHi k d level active n stop),
      input.inb q = true ∧ input.inb (q - I3.dir d) = true ∧ output.inb (q - I3.dir d) = true) :
    ∃ o, computeDD k d level active n start stop input output = .ok o ∧ o.inb = output.inb ∧
      ∀ q ∈ box (ddLo k d level active start) (ddHi k d level active n stop), o.val (q - I3.dir d) = input.val q - input.val (q - I3.dir d) := by
  have key := Arr.foldlM_wr (box (ddLo k d level active start) (ddHi k d level active n stop)) (fun q => q - I3.dir d)
    (fun (_ : Arr I3 ℝ) q => do
      let r ← input.rd q
      let l ← input.rd (q - I3.dir d)
      pure (r - l))
    (fun q => input.val q - input.val (q - I3.dir d)) output (fun q hq => (h1 q hq).2.2) (Diffusion.pairwise_sub _ _ _) ?_
  · obtain ⟨o, k1, k2, k3, -⟩ := key
    exact ⟨o, k1, k2, k3⟩
  · intro b q hq _ _ _
    rw [Arr.rd_ok (h1 q hq).1, Arr.rd_ok (h1 q hq).2.1]
    rfl

open Diffusion in
theorem allDD_ok {k d : Nat} {active n start stop : I3} (hg : Geo k d active start stop) (hk : 2 ≤ k) {ind : Arr I3 ℝ}
    (hin : ∀ p, (∀ e < 3, start.get e ≤ p.get e ∧ p.get e < n.get e + stop.get e) → ind.inb p = true)
    {dd : Nat → Arr I3 ℝ} (hdd : ∀ j, (dd j).inb = inSize n) :
    ∃ dd', allDD k d active n start stop ind dd = .ok dd' ∧ (∀ j, (dd' j).inb = inSize n) ∧
      ∀ j < k - 1, ∀ q ∈ box (ddLo k d (j + 1) active start) (ddHi k d (j + 1) active n stop),
        (dd' j).val (q - I3.dir d) = fdiff (j + 1) (line d ind.val q) (-1) := by
  obtain ⟨hd, ha, had, hs, ht⟩ := hg
  -- cells of a level lie in the region
  have hreg : ∀ level, 1 ≤ level → level ≤ k - 1 → ∀ q ∈ box (ddLo k d level active start) (ddHi k d level active n stop),
      (∀ e < 3, start.get e ≤ q.get e ∧ q.get e < n.get e + stop.get e) ∧
      (∀ e < 3, start.get e ≤ (q - I3.dir d).get e ∧ (q - I3.dir d).get e < n.get e + stop.get e) := by
    intro level h1 h2 q hq
    rw [box_get] at hq
    rw [dir_eq_step, sub_step]
    refine ⟨fun e he => ?_, fun e he => ?_⟩ <;> have h := hq e he <;> rw [ddLo_get _ _ _ _ _ he, ddHi_get _ _ _ _ _ _ he] at h <;>
      have h3 := ha e he <;> by_cases hed : e = d
    · subst hed; simp only [if_true] at h; omega
    · simp only [if_neg hed] at h; rcases h3 with h3 | h3 <;> rw [h3] at h <;> omega
    · subst hed; simp only [if_true] at h; rw [(get_geom hd q _).1]; omega
    · rw [(get_geom hd q _).2 e he hed]; simp only [if_neg hed] at h; rcases h3 with h3 | h3 <;> rw [h3] at h <;> omega
  have hsz : ∀ p : I3, (∀ e < 3, start.get e ≤ p.get e ∧ p.get e < n.get e + stop.get e) → inSize n p = true := by
    intro p hp
    rw [inSize_get]
    intro e he
    have := hp e he; have := hs e he; have := ht e he
    omega
  obtain ⟨a, a1, a2, a3⟩ := computeDD_ok (k := k) (d := d) (level := 1) (active := active) (n := n) (start := start) (stop := stop) (input := ind)
    (output := dd 0) (fun q hq => by
      obtain ⟨r1, r2⟩ := hreg 1 le_rfl (by omega) q hq
      exact ⟨hin _ r1, hin _ r2, by rw [hdd]; exact hsz _ r2⟩)
  have e1 : ∀ q : I3, q + step d (-1) = q - I3.dir d := fun q => by rw [dir_eq_step, sub_step]
  have e0 : ∀ p : I3, p + step d 0 = p := fun p => by ext <;> simp [step]
  have key := foldlM_inv (fun (dd : Nat → Arr I3 ℝ) i => do
      let a ← computeDD k d (i + 1) active n start stop (dd (i - 1)) (dd i)
      pure (Function.update dd i a)) (List.range' 1 (k - 2)) (Function.update dd 0 a)
    (fun pre dd' => (∀ j, (dd' j).inb = inSize n) ∧ ∀ j, (j = 0 ∨ j ∈ pre) →
      ∀ q ∈ box (ddLo k d (j + 1) active start) (ddHi k d (j + 1) active n stop),
        (dd' j).val (q - I3.dir d) = fdiff (j + 1) (line d ind.val q) (-1)) ?_ ?_
  · obtain ⟨dd', k1, k2, k3⟩ := key
    refine ⟨dd', ?_, k2, fun j hj => k3 j ?_⟩
    · rw [allDD, a1, Res.ok_bind]; exact k1
    · by_cases h0 : j = 0
      · exact Or.inl h0
      · right; rw [List.mem_range'_1]; omega
  · constructor
    · intro j
      by_cases h0 : j = 0
      · subst h0; simp [a2, hdd]
      · simp [Function.update_of_ne h0, hdd]
    · rintro j (rfl | hj)
      · intro q hq
        simp only [Function.update_self]
        rw [a3 q hq]
        simp [fdiff, line, e0, e1]
      · simp at hj
  · rintro pre i post dd' hl ⟨h1, h2⟩
    have hi : i ∈ List.range' 1 (k - 2) := by rw [hl]; simp
    rw [List.mem_range'_1] at hi
    have hprev : i - 1 = 0 ∨ i - 1 ∈ pre := by
      by_cases h0 : i - 1 = 0
      · exact Or.inl h0
      · right
        have : i - 1 ∈ List.range' 1 (k - 2) := by rw [List.mem_range'_1]; omega
        rw [hl, List.mem_append] at this
        rcases this with h | h
        · exact h
        · exfalso
          have hp : (List.range' 1 (k - 2)).Pairwise (· < ·) := List.pairwise_lt_range'
          rw [hl, List.pairwise_append, List.pairwise_cons] at hp
          rcases List.mem_cons.1 h with h | h
          · omega
          · have := hp.2.1.1 _ h; omega
    obtain ⟨b, b1, b2, b3⟩ := computeDD_ok (k := k) (d := d) (level := i + 1) (active := active) (n := n) (start := start) (stop := stop)
      (input := dd' (i - 1)) (output := dd' i) (fun q hq => by
        obtain ⟨r1, r2⟩ := hreg (i + 1) (by omega) (by omega) q hq
        exact ⟨by rw [h1]; exact hsz _ r1, by rw [h1]; exact hsz _ r2, by rw [h1]; exact hsz _ r2⟩)
    refine ⟨_, by rw [b1, Res.ok_bind]; rfl, ?_, ?_⟩
    · intro j
      by_cases h0 : j = i
      · subst h0; simp [b2, h1]
      · simp [Function.update_of_ne h0, h1]
    · rintro j hj q hq
      by_cases h0 : j = i
      · subst h0
        simp only [Function.update_self]
        rw [b3 q hq]
        have hj1 : j - 1 + 1 = j := by omega
        -- q and q + e lie in the previous level
        have hq1 : q ∈ box (ddLo k d (j - 1 + 1) active start) (ddHi k d (j - 1 + 1) active n stop) := by
          rw [box_get] at hq ⊢
          intro e he
          have h := hq e he
          rw [ddLo_get _ _ _ _ _ he, ddHi_get _ _ _ _ _ _ he] at h ⊢
          by_cases hed : e = d
          · simp only [hed, if_true] at h ⊢; push_cast at h; omega
          · simp only [if_neg hed] at h ⊢; omega
        have hq2 : q + I3.dir d ∈ box (ddLo k d (j - 1 + 1) active start) (ddHi k d (j - 1 + 1) active n stop) := by
          rw [box_get] at hq ⊢
          intro e he
          have h := hq e he
          rw [ddLo_get _ _ _ _ _ he, ddHi_get _ _ _ _ _ _ he] at h ⊢
          rw [dir_eq_step]
          by_cases hed : e = d
          · subst hed; rw [(get_geom hd q _).1]; simp only [if_true] at h ⊢; push_cast at h; omega
          · rw [(get_geom hd q _).2 e he hed]; simp only [if_neg hed] at h ⊢; omega
        have v1 := h2 (j - 1) hprev q hq1
        have v2 := h2 (j - 1) hprev _ hq2
        have ee : q + I3.dir d - I3.dir d = q := by ext <;> simp
        rw [ee] at v2
        rw [v1, v2, hj1]
        have hline : line d ind.val (q + I3.dir d) = fun o => line d ind.val q (1 + o) := by
          funext o
          simp only [line]
          congr 1
          ext <;> simp [step, I3.dir] <;> split_ifs <;> ring
        rw [hline, fdiff_shift]
        simp [fdiff]
      · rw [Function.update_of_ne h0]
        refine h2 j ?_ q hq
        rcases hj with hj | hj
        · exact Or.inl hj
        · right
          rcases List.mem_append.1 hj with hj | hj
          · exact hj
          · exact absurd (by simpa using hj) h0

open Diffusion in
/-- Closed form of the reconstruction: every cell of the region gets the face values for the shift selected from the values along the line. -/
theorem perform_ok {k d : Nat} {active n start stop : I3} (hg : Geo k d active start stop) (hk : 2 ≤ k) (hk4 : k ≤ 4) (ind : Fin m) {u : Arr I3 (Vec m)}
    (hu : ∀ p, (∀ e < 3, start.get e ≤ p.get e ∧ p.get e < n.get e + stop.get e) → u.inb p = true)
    {s : State m} (hdd : ∀ j, (s.dd j).inb = inSize n) (hl : s.left.inb = inSize n) (hr : s.right.inb = inSize n) :
    ∃ s', perform k d ind active n start stop u s = .ok s' ∧ (∀ j, (s'.dd j).inb = inSize n) ∧ s'.left.inb = inSize n ∧ s'.right.inb = inSize n ∧
      (∀ q ∈ box (mainLo k d active start) (mainHi k d active n stop),
        s'.left.val q = value k (shiftOf k (fun o => line d u.val q o ind)) (shiftOf k (fun o => line d u.val q o ind)) (line d u.val q) ∧
        s'.right.val q = value k (shiftOf k (fun o => line d u.val q o ind) + 1) (shiftOf k (fun o => line d u.val q o ind)) (line d u.val q)) ∧
      (∀ q, q ∉ box (mainLo k d active start) (mainHi k d active n stop) → s'.left.val q = s.left.val q ∧ s'.right.val q = s.right.val q) := by
  obtain ⟨dd', d1, d2, d3⟩ := allDD_ok hg hk (ind := comp ind u) (fun p hp => hu p hp) hdd
  obtain ⟨hd, ha, had, hs, ht⟩ := hg
  have key := foldlM_wr2 (box (mainLo k d active start) (mainHi k d active n stop)) (fun q => q) (fun q => q)
    (fun (lr : Arr I3 (Vec m) × Arr I3 (Vec m)) q => do
      let shift ← selectShift k d dd' q
      let cr ← row k (shift + 1)
      let cl ← row k shift
      let lv ← weighted d u q shift cl
      let rv ← weighted d u q shift cr
      let l ← lr.1.wr q lv
      let r ← lr.2.wr q rv
      pure (l, r))
    (fun q => value k (shiftOf k (fun o => line d u.val q o ind)) (shiftOf k (fun o => line d u.val q o ind)) (line d u.val q))
    (fun q => value k (shiftOf k (fun o => line d u.val q o ind) + 1) (shiftOf k (fun o => line d u.val q o ind)) (line d u.val q))
    s.left s.right ?_ (pairwise_id _ _) (pairwise_id _ _)
  · obtain ⟨lr, k1, k2, k3, k4, k5, k6, k7⟩ := key
    refine ⟨⟨dd', lr.1, lr.2⟩, ?_, d2, by rw [← hl]; exact k2, by rw [← hr]; exact k3, fun q hq => ⟨k4 q hq, k5 q hq⟩, fun q hq => ⟨k6 q ?_, k7 q ?_⟩⟩
    · rw [perform, if_neg (by omega), d1, Res.ok_bind, k1]; rfl
    · rintro i hi rfl; exact hq hi
    · rintro i hi rfl; exact hq hi
  · intro lr q hq h1 h2
    -- where things are
    have hq' := box_get.1 hq
    have hcell : ∀ o : Int, -((k : Int) - 1) ≤ o → o ≤ (k : Int) - 1 → ∀ e < 3,
        start.get e ≤ (q + step d o).get e ∧ (q + step d o).get e < n.get e + stop.get e := by
      intro o o1 o2 e he
      have h := hq' e he
      rw [mainLo_get _ _ _ _ he, mainHi_get _ _ _ _ _ he] at h
      by_cases hed : e = d
      · subst hed; rw [(get_geom hd q _).1]; simp only [if_true, had] at h; omega
      · rw [(get_geom hd q _).2 e he hed]; simp only [if_neg hed] at h
        rcases ha e he with h3 | h3 <;> rw [h3] at h <;> omega
    have hsz : ∀ p : I3, (∀ e < 3, start.get e ≤ p.get e ∧ p.get e < n.get e + stop.get e) → inSize n p = true := by
      intro p hp
      rw [inSize_get]
      intro e he
      have := hp e he; have := hs e he; have := ht e he
      omega
    have e0 : ∀ p : I3, p + step d 0 = p := fun p => by ext <;> simp [step]
    have hqin : inSize n q = true := by
      have := hsz _ (hcell 0 (by omega) (by omega)); rwa [e0] at this
    have hsel : selectShift k d dd' q = .ok (shiftOf k fun o => line d u.val q o ind) := by
      unfold selectShift shiftOf
      refine foldlM_pure _ _ _ _ fun s level hlev => ?_
      have hlev : level < k - 1 := by simpa using hlev
      have hq1 : q ∈ box (ddLo k d (level + 1) active start) (ddHi k d (level + 1) active n stop) := by
        rw [box_get]
        intro e he
        have h := hq' e he
        rw [mainLo_get _ _ _ _ he, mainHi_get _ _ _ _ _ he] at h
        rw [ddLo_get _ _ _ _ _ he, ddHi_get _ _ _ _ _ _ he]
        by_cases hed : e = d
        · subst hed; simp only [if_true, had] at h ⊢; push_cast; omega
        · simp only [if_neg hed] at h ⊢; rcases ha e he with h3 | h3 <;> rw [h3] at h ⊢ <;> omega
      have hq2 : q + I3.dir d ∈ box (ddLo k d (level + 1) active start) (ddHi k d (level + 1) active n stop) := by
        rw [box_get]
        intro e he
        have h := hq' e he
        rw [mainLo_get _ _ _ _ he, mainHi_get _ _ _ _ _ he] at h
        rw [ddLo_get _ _ _ _ _ he, ddHi_get _ _ _ _ _ _ he, dir_eq_step]
        by_cases hed : e = d
        · subst hed; rw [(get_geom hd q _).1]; simp only [if_true, had] at h ⊢; push_cast; omega
        · rw [(get_geom hd q _).2 e he hed]; simp only [if_neg hed] at h ⊢; rcases ha e he with h3 | h3 <;> rw [h3] at h ⊢ <;> omega
      have v1 := d3 level hlev q hq1
      have v2 := d3 level hlev _ hq2
      have ee : q + I3.dir d - I3.dir d = q := by ext <;> simp
      have hline : line d (comp ind u).val (q + I3.dir d) = fun o => line d (comp ind u).val q (1 + o) := by
        funext o
        simp only [line]
        congr 1
        ext <;> simp [step, I3.dir] <;> split_ifs <;> ring
      rw [ee, hline, fdiff_shift] at v2
      have hm1 : inSize n (q - I3.dir d) = true := by
        have := hsz _ (hcell (-1) (by omega) (by omega)); rwa [← sub_step, ← dir_eq_step] at this
      rw [Arr.rd_ok (by rw [d2]; exact hqin), Arr.rd_ok (by rw [d2]; exact hm1), v1, v2]
      rfl
    have hsh := shiftOf_le k fun o => line d u.val q o ind
    set sh := shiftOf k fun o => line d u.val q o ind with hshdef
    have hw : ∀ r ≤ k, weighted d u q sh ((table k).getD r []) = .ok (value k r sh (line d u.val q)) := by
      intro r hr
      unfold weighted value combo
      refine foldlM_pure _ _ _ _ fun s cj hcj => ?_
      have hj : cj.2 < k := by
        have := List.mem_zipIdx (x := cj.1) (i := cj.2) hcj
        rw [row_length (by omega) hk4 hr] at this
        omega
      rw [sub_step, Arr.rd_ok (hu _ (hcell _ (by omega) (by omega)))]
      rfl
    rw [hsel, Res.ok_bind, row_ok (by omega) hk4 (by omega), Res.ok_bind, row_ok (by omega) hk4 (by omega), Res.ok_bind, hw _ (by omega), Res.ok_bind,
      hw _ (by omega), Res.ok_bind, Arr.wr_ok (by rw [h1, hl]; exact hqin), Res.ok_bind, Arr.wr_ok (by rw [h2, hr]; exact hqin)]
    rfl

end Eno
end Verif
