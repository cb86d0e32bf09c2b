import Mathlib.Tactic.Ring
import Mathlib.Tactic.Linarith
import Mathlib.Data.List.Nodup
import Mathlib.Logic.Function.Basic

/-!
Common vocabulary: outcomes, integer triples, loops, arrays with bounds checks, loop rules.
-/

namespace Verif

/-- How a C++ call can fail: a thrown exception (`THROW`, alsutils/include/alsutils/error/Exception.hpp)
or undefined behaviour (out-of-bounds access, null dereference, division of integers by zero). -/
inductive Err where
  | thrown
  | ub
  deriving DecidableEq, Repr

/-- Outcome of a modelled C++ call. -/
abbrev Res (α : Type) := Except Err α

@[simp] theorem Res.ok_bind {α β : Type} (a : α) (f : α → Res β) :
    ((Except.ok a : Res α) >>= f) = f a := rfl

@[simp] theorem Res.error_bind {α β : Type} (e : Err) (f : α → Res β) :
    ((Except.error e : Res α) >>= f) = .error e := rfl

@[simp] theorem Res.pure_eq {α : Type} (a : α) : (pure a : Res α) = .ok a := rfl

/-- Loop rule for a sequential `for` over the list `l` with state `σ`: an invariant indexed by the
already processed prefix that holds initially and is kept by each iteration without failing, holds at the end. -/
theorem foldlM_inv {ι σ : Type} (f : σ → ι → Res σ) (l : List ι) (s : σ)
    (P : List ι → σ → Prop) (h0 : P [] s)
    (hstep : ∀ pre i post s, l = pre ++ i :: post → P pre s → ∃ s', f s i = .ok s' ∧ P (pre ++ [i]) s') :
    ∃ s', l.foldlM f s = .ok s' ∧ P l s' := by
  suffices H : ∀ post pre s, l = pre ++ post → P pre s →
      ∃ s', post.foldlM f s = .ok s' ∧ P l s' from H l [] s rfl h0
  intro post
  induction post with
  | nil => intro pre s hl hP; exact ⟨s, rfl, by simpa [hl] using hP⟩
  | cons i post ih =>
    intro pre s hl hP
    obtain ⟨s1, h1, hP1⟩ := hstep pre i post s hl hP
    obtain ⟨s2, h2, hP2⟩ := ih (pre ++ [i]) s1 (by simp [hl]) hP1
    refine ⟨s2, ?_, hP2⟩
    simp only [List.foldlM_cons, h1]
    exact h2

/-- Integer triple, `ivec3` (alsutils/include/alsutils/vec3.hpp:24-160). -/
@[ext] structure I3 where
  x : Int
  y : Int
  z : Int
  deriving DecidableEq, Repr

namespace I3

instance : Add I3 := ⟨fun a b => ⟨a.x + b.x, a.y + b.y, a.z + b.z⟩⟩
instance : Sub I3 := ⟨fun a b => ⟨a.x - b.x, a.y - b.y, a.z - b.z⟩⟩
instance : Neg I3 := ⟨fun a => ⟨-a.x, -a.y, -a.z⟩⟩
instance : Zero I3 := ⟨⟨0, 0, 0⟩⟩

@[simp] theorem add_x (a b : I3) : (a + b).x = a.x + b.x := rfl
@[simp] theorem add_y (a b : I3) : (a + b).y = a.y + b.y := rfl
@[simp] theorem add_z (a b : I3) : (a + b).z = a.z + b.z := rfl
@[simp] theorem sub_x (a b : I3) : (a - b).x = a.x - b.x := rfl
@[simp] theorem sub_y (a b : I3) : (a - b).y = a.y - b.y := rfl
@[simp] theorem sub_z (a b : I3) : (a - b).z = a.z - b.z := rfl
@[simp] theorem neg_x (a : I3) : (-a).x = -a.x := rfl
@[simp] theorem neg_y (a : I3) : (-a).y = -a.y := rfl
@[simp] theorem neg_z (a : I3) : (-a).z = -a.z := rfl
@[simp] theorem zero_x : (0 : I3).x = 0 := rfl
@[simp] theorem zero_y : (0 : I3).y = 0 := rfl
@[simp] theorem zero_z : (0 : I3).z = 0 := rfl

/-- Component `d` of a triple (`operator[]`, alsutils/include/alsutils/vec3.hpp). Anything other than 0 and 1 is
component 2; the code never uses an index above 2. -/
def get (a : I3) (d : Nat) : Int := if d = 0 then a.x else if d = 1 then a.y else a.z

/-- Replace component `d` (`a[d] = v`). -/
def set (a : I3) (d : Nat) (v : Int) : I3 :=
  if d = 0 then { a with x := v } else if d = 1 then { a with y := v } else { a with z := v }

/-- `make_direction_vector` (alsutils/include/alsutils/types.hpp:88-90): unit vector of a direction. -/
def dir (d : Nat) : I3 := ⟨if d = 0 then 1 else 0, if d = 1 then 1 else 0, if d = 2 then 1 else 0⟩

end I3

/-- The indices visited by `for (int i = a; i < b; ++i)`. -/
def irange (a b : Int) : List Int := (List.range (b - a).toNat).map fun (i : Nat) => a + i

@[simp] theorem mem_irange {a b i : Int} : i ∈ irange a b ↔ a ≤ i ∧ i < b := by
  simp only [irange, List.mem_map, List.mem_range]
  constructor
  · rintro ⟨k, hk, rfl⟩; omega
  · rintro ⟨h1, h2⟩; exact ⟨(i - a).toNat, by omega, by omega⟩

theorem nodup_irange (a b : Int) : (irange a b).Nodup := by
  unfold irange
  refine List.Nodup.map ?_ List.nodup_range
  intro i j h
  have : (a + (i : Int)) = a + j := h
  omega

/-- The cells visited by the nested loops `for z { for y { for x { … } } }` with the bounds `lo` (inclusive) and
`hi` (exclusive), in that order. -/
def box (lo hi : I3) : List I3 :=
  (irange lo.z hi.z).flatMap fun z => (irange lo.y hi.y).flatMap fun y => (irange lo.x hi.x).map fun x => ⟨x, y, z⟩

@[simp] theorem mem_box {lo hi p : I3} :
    p ∈ box lo hi ↔ (lo.x ≤ p.x ∧ p.x < hi.x) ∧ (lo.y ≤ p.y ∧ p.y < hi.y) ∧ (lo.z ≤ p.z ∧ p.z < hi.z) := by
  simp only [box, List.mem_flatMap, List.mem_map, mem_irange]
  constructor
  · rintro ⟨z, hz, y, hy, x, hx, rfl⟩; exact ⟨hx, hy, hz⟩
  · rintro ⟨hx, hy, hz⟩; exact ⟨p.z, hz, p.y, hy, p.x, hx, rfl⟩

theorem nodup_box (lo hi : I3) : (box lo hi).Nodup := by
  unfold box
  rw [List.nodup_flatMap]
  constructor
  · intro z _
    rw [List.nodup_flatMap]
    constructor
    · intro y _
      refine List.Nodup.map ?_ (nodup_irange _ _)
      intro a b h
      simpa using congrArg I3.x h
    · refine (nodup_irange _ _).imp ?_
      intro a b hab
      simp only [Function.onFun, List.disjoint_left, List.mem_map]
      rintro p ⟨x, _, rfl⟩ ⟨x', _, h⟩
      exact hab (by simpa using (congrArg I3.y h).symm)
  · refine (nodup_irange _ _).imp ?_
    intro a b hab
    simp only [Function.onFun, List.disjoint_left, List.mem_flatMap, List.mem_map]
    rintro p ⟨y, _, x, _, rfl⟩ ⟨y', _, x', _, h⟩
    exact hab (by simpa using (congrArg I3.z h).symm)

/-- A memory area: which indices are inside the allocation, and the contents. The contents outside the allocation are
never returned by `rd`. Used with flat indices (`ι = Nat`, the `std::vector` of HostMemory.hpp) and with cell coordinates
(`ι = I3`, `View::at` of alsfvm/include/alsfvm/memory/View.hpp:65-84 whose asserts demand in-range coordinates). -/
structure Arr (ι α : Type) where
  inb : ι → Bool
  val : ι → α

namespace Arr
variable {ι κ α : Type}

/-- Bounds-checked read; out of bounds is undefined behaviour (View.hpp:79-84). -/
def rd (a : Arr ι α) (i : ι) : Res α := if a.inb i then .ok (a.val i) else .error .ub

/-- Bounds-checked write; out of bounds is undefined behaviour (View.hpp:65-70). -/
def wr [DecidableEq ι] (a : Arr ι α) (i : ι) (v : α) : Res (Arr ι α) :=
  if a.inb i then .ok { a with val := Function.update a.val i v } else .error .ub

theorem rd_ok {a : Arr ι α} {i : ι} (h : a.inb i = true) : a.rd i = .ok (a.val i) := by simp [rd, h]

theorem rd_ub {a : Arr ι α} {i : ι} (h : a.inb i = false) : a.rd i = .error .ub := by simp [rd, h]

theorem wr_ok [DecidableEq ι] {a : Arr ι α} {i : ι} {v : α} (h : a.inb i = true) :
    a.wr i v = .ok { a with val := Function.update a.val i v } := by simp [wr, h]

theorem wr_ub [DecidableEq ι] {a : Arr ι α} {i : ι} {v : α} (h : a.inb i = false) :
    a.wr i v = .error .ub := by simp [wr, h]

/-- Loop rule for loops of the form `for i in l { v = …; a[w i] = v; }` where the iterations write distinct places and the
value computed in iteration `i` depends on the array being written only through the old value at the written place. -/
theorem foldlM_wr [DecidableEq κ] (l : List ι) (w : ι → κ) (v : Arr κ α → ι → Res α) (v' : ι → α) (a : Arr κ α)
    (hw : ∀ i ∈ l, a.inb (w i) = true) (hinj : l.Pairwise fun i j => w i ≠ w j)
    (hv : ∀ b : Arr κ α, ∀ i ∈ l, b.inb = a.inb → b.val (w i) = a.val (w i) →
      (∀ q, (∀ j ∈ l, w j ≠ q) → b.val q = a.val q) → v b i = .ok (v' i)) :
    ∃ a', l.foldlM (fun b i => do let x ← v b i; b.wr (w i) x) a = .ok a' ∧ a'.inb = a.inb ∧
      (∀ i ∈ l, a'.val (w i) = v' i) ∧ ∀ q, (∀ i ∈ l, w i ≠ q) → a'.val q = a.val q := by
  have := foldlM_inv (fun b i => do let x ← v b i; b.wr (w i) x) l a
    (fun pre b => b.inb = a.inb ∧ (∀ i ∈ pre, b.val (w i) = v' i) ∧ ∀ q, (∀ i ∈ pre, w i ≠ q) → b.val q = a.val q)
    ⟨rfl, by simp, by simp⟩ ?_
  · obtain ⟨s', h1, h2, h3, h4⟩ := this
    exact ⟨s', h1, h2, h3, h4⟩
  · rintro pre i post b hl ⟨hb, hpre, hq⟩
    have hi : i ∈ l := by simp [hl]
    have hdis : ∀ j ∈ pre, w j ≠ w i := by
      intro j hj
      rw [hl, List.pairwise_append] at hinj
      exact hinj.2.2 j hj i (by simp)
    have hval : v b i = .ok (v' i) := hv b i hi hb (hq _ hdis)
      (fun q hqq => hq q fun j hj => hqq j (by simp [hl, hj]))
    have hin : b.inb (w i) = true := by rw [hb]; exact hw i hi
    refine ⟨{ b with val := Function.update b.val (w i) (v' i) }, by simp [hval, wr_ok hin], hb, ?_, ?_⟩
    · intro j hj
      rcases List.mem_append.1 hj with hj | hj
      · simp [Function.update_of_ne (hdis j hj), hpre j hj]
      · have : j = i := by simpa using hj
        subst this; simp
    · intro q hqq
      have h1 : w i ≠ q := hqq i (by simp)
      simp only [Function.update_of_ne h1.symm]
      exact hq q fun j hj => hqq j (by simp [hj])

end Arr

/-- A flat buffer of `n` elements. -/
def flat {α : Type} (n : Nat) (f : Nat → α) : Arr Nat α := ⟨fun i => decide (i < n), f⟩

/-- Is `p` inside a block of the given size? -/
def inSize (size p : I3) : Bool :=
  decide (0 ≤ p.x ∧ p.x < size.x ∧ 0 ≤ p.y ∧ p.y < size.y ∧ 0 ≤ p.z ∧ p.z < size.z)

@[simp] theorem inSize_iff {size p : I3} : inSize size p = true ↔
    0 ≤ p.x ∧ p.x < size.x ∧ 0 ≤ p.y ∧ p.y < size.y ∧ 0 ≤ p.z ∧ p.z < size.z := by simp [inSize]

/-- A memory area of the given size addressed by cell coordinates. -/
def field {α : Type} (size : I3) (f : I3 → α) : Arr I3 α := ⟨inSize size, f⟩

end Verif
