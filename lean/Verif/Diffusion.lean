import Verif.NetFluxTotals
import Verif.Flux
import Verif.Euler
import Mathlib.Data.Matrix.Mul
import Mathlib.Data.Real.Basic
import Mathlib.Algebra.Order.BigOperators.Group.Finset
import Mathlib.Tactic.FieldSimp
import Mathlib.Tactic.Positivity
import Mathlib.Tactic.IntervalCases

/-!
Model of the entropy stable diffusion operator (alsfvm/src/diffusion/TecnoDiffusionCPU.cpp) for an arbitrary system of `N` equations.
-/

namespace Verif
namespace Diffusion
open Verif NetFlux
variable {N : Nat}

/-- A state vector. -/
abbrev Vec (N : Nat) := Fin N → ℝ

/-- What the operator uses of an equation: eigenvector matrix and eigenvalues per direction and entropy variables
(`computeEigenVectorMatrix`, `computeEigenValues`, `computeEntropyVariables` of the equation classes). -/
structure Equation (N : Nat) where
  eigMat : Nat → Vec N → Matrix (Fin N) (Fin N) ℝ
  eigVal : Nat → Vec N → Vec N
  entVar : Vec N → Vec N

/-- Which diffusion matrix. -/
inductive Kind where
  | roe
  | rusanov

/-- `operator*` of `RoeMatrix` (alsfvm/include/alsfvm/diffusion/RoeMatrix.hpp:36-47) and `RusanovMatrix` (RusanovMatrix.hpp:36-56). -/
noncomputable def Kind.mul (k : Kind) (lam : Vec N) (v : Vec N) : Vec N :=
  match k with
  | .roe => fun i => |lam i| * v i
  | .rusanov => fun i => ((List.finRange N).foldl (fun m j => max |lam j| m) 0) * v i

/-- A reconstruction of the scaled entropy variables: `performReconstruction(leftIn, rightIn, direction, leftOut, rightOut)`
(alsfvm/include/alsfvm/reconstruction/tecno/TecnoReconstruction.hpp); the argument `n` is the total size of the volumes. -/
structure TecnoRec (N : Nat) where
  perform : Nat → I3 → Arr I3 (Vec N) → Arr I3 (Vec N) → Arr I3 (Vec N) → Arr I3 (Vec N) → Res (Arr I3 (Vec N) × Arr I3 (Vec N))
  ghost : Nat

/-- `tecno::NoReconstruction` (alsfvm/src/reconstruction/tecno/NoReconstruction.cpp:21-44, ghost cells NoReconstruction.hpp:40-42). The loops
over the variables are merged. -/
def noRec : TecnoRec N where
  perform _d n leftIn rightIn leftOut rightOut :=
    (box 0 n).foldlM (fun s q => do
      let a ← leftIn.rd q
      let l ← s.1.wr q a
      let b ← rightIn.rd q
      let r ← s.2.wr q b
      pure (l, r)) (leftOut, rightOut)
  ghost := 1

/-- Scaled entropy variables of the state `u`, with the eigenvectors at the average of the states `ul` and `um`
(TecnoDiffusionCPU.cpp:53-62). -/
noncomputable def scaled (eq : Equation N) (d : Nat) (ul um u : Vec N) : Vec N :=
  (eq.eigMat d ((0.5 : ℝ) • (um + ul))).transpose.mulVec (eq.entVar u)

/-- First loop of `applyDiffusionCPU` (TecnoDiffusionCPU.cpp:43-64) over `for_each_cell_index_with_neighbours`
(alsfvm/include/alsfvm/volume/volume_foreach.hpp:72-99) with offsets 1 in the direction. -/
noncomputable def scaleLoop (eq : Equation N) (d : Nat) (n : I3) (u entL entR : Arr I3 (Vec N)) : Res (Arr I3 (Vec N) × Arr I3 (Vec N)) :=
  (box (I3.dir d) (n - I3.dir d)).foldlM (fun s q => do
    let um ← u.rd q
    let ul ← u.rd (q - I3.dir d)
    let l ← s.1.wr q (scaled eq d ul um um)
    let r ← s.2.wr (q - I3.dir d) (scaled eq d ul um ul)
    pure (l, r)) (entL, entR)

/-- The diffusion at the face between two cells (the lambda `diffusion`, TecnoDiffusionCPU.cpp:76-92). -/
noncomputable def faceDiffusion (eq : Equation N) (k : Kind) (d : Nat) (u left right : Arr I3 (Vec N)) (l r : I3) : Res (Vec N) := do
  let lv ← right.rd l
  let rv ← left.rd r
  let um ← u.rd r
  let ul ← u.rd l
  let mean := (0.5 : ℝ) • (um + ul)
  pure ((0.5 : ℝ) • (eq.eigMat d mean).mulVec (k.mul (eq.eigVal d mean) (rv - lv)))

/-- Second loop of `applyDiffusionCPU` (TecnoDiffusionCPU.cpp:73-97). -/
noncomputable def addLoop (eq : Equation N) (k : Kind) (d : Nat) (n : I3) (u left right out : Arr I3 (Vec N)) : Res (Arr I3 (Vec N)) :=
  (box (I3.dir d) (n - I3.dir d)).foldlM (fun o q => do
    let x ← (do
      let a ← faceDiffusion eq k d u left right q (q + I3.dir d)
      let b ← faceDiffusion eq k d u left right (q - I3.dir d) q
      let cur ← o.rd q
      pure (cur + (a - b)))
    o.wr q x) out

/-- The work volumes of a `TecnoDiffusionCPU` object, kept from call to call (TecnoDiffusionCPU.cpp:122-137), and the output. -/
structure State (N : Nat) where
  left : Arr I3 (Vec N)
  right : Arr I3 (Vec N)
  entL : Arr I3 (Vec N)
  entR : Arr I3 (Vec N)
  out : Arr I3 (Vec N)

/-- `applyDiffusionCPU` (TecnoDiffusionCPU.cpp:28-99). -/
noncomputable def applyDirection (eq : Equation N) (k : Kind) (rec : TecnoRec N) (n : I3) (u : Arr I3 (Vec N)) (s : State N) (d : Nat) :
    Res (State N) := do
  let e ← scaleLoop eq d n u s.entL s.entR
  let lr ← rec.perform d n e.1 e.2 s.left s.right
  let o ← addLoop eq k d n u lr.1 lr.2 s.out
  pure ⟨lr.1, lr.2, e.1, e.2, o⟩

/-- `applyDiffusion` (TecnoDiffusionCPU.cpp:115-168); the work volumes already have the right size. -/
noncomputable def applyDiffusion (eq : Equation N) (k : Kind) (rec : TecnoRec N) (dims : Nat) (n : I3) (u : Arr I3 (Vec N)) (s : State N) :
    Res (State N) := (List.range dims).foldlM (applyDirection eq k rec n u) s

/-- Burgers' equation as the operator sees it (alsfvm/include/alsfvm/equation/burgers/Burgers.hpp:247-255, 289-301, log entropy). -/
noncomputable def burgers : Equation 1 where
  eigMat _ _ := fun _ _ => 1
  eigVal _ U := U
  entVar U := fun i => Flux.entropyVariable (U i)

/-- The one dimensional Euler equations as the operator sees them (alsfvm/include/alsfvm/equation/euler/Euler.hpp, see `Verif.Euler`). -/
noncomputable def euler1 (γ : ℝ) : Equation 3 where
  eigMat _ U := Euler.eigenVectors1 γ (Euler.ofVec1 U)
  eigVal _ U := Euler.eigenValues1 γ (Euler.ofVec1 U)
  entVar U := let v := Euler.entropyVariables γ (Euler.ofVec1 U); ![v.1, v.2.1 0, v.2.2]

/-! ### Lemmas -/

/-- Loop rule: every iteration writes one place of each of two arrays, with values not depending on the arrays. -/
theorem foldlM_wr2 {ι κ α : Type} [DecidableEq κ] (l : List ι) (w1 w2 : ι → κ) (f : Arr κ α × Arr κ α → ι → Res (Arr κ α × Arr κ α))
    (v1 v2 : ι → α) (a b : Arr κ α)
    (hf : ∀ s : Arr κ α × Arr κ α, ∀ i ∈ l, s.1.inb = a.inb → s.2.inb = b.inb →
      f s i = .ok ({ s.1 with val := Function.update s.1.val (w1 i) (v1 i) }, { s.2 with val := Function.update s.2.val (w2 i) (v2 i) }))
    (h1 : l.Pairwise fun i j => w1 i ≠ w1 j) (h2 : l.Pairwise fun i j => w2 i ≠ w2 j) :
    ∃ s, l.foldlM f (a, b) = .ok s ∧ s.1.inb = a.inb ∧ s.2.inb = b.inb ∧ (∀ i ∈ l, s.1.val (w1 i) = v1 i) ∧ (∀ i ∈ l, s.2.val (w2 i) = v2 i) ∧
      (∀ q, (∀ i ∈ l, w1 i ≠ q) → s.1.val q = a.val q) ∧ (∀ q, (∀ i ∈ l, w2 i ≠ q) → s.2.val q = b.val q) := by
  have := foldlM_inv f l (a, b) (fun pre s => s.1.inb = a.inb ∧ s.2.inb = b.inb ∧ (∀ i ∈ pre, s.1.val (w1 i) = v1 i) ∧
    (∀ i ∈ pre, s.2.val (w2 i) = v2 i) ∧ (∀ q, (∀ i ∈ pre, w1 i ≠ q) → s.1.val q = a.val q) ∧
    (∀ q, (∀ i ∈ pre, w2 i ≠ q) → s.2.val q = b.val q)) ⟨rfl, rfl, by simp, by simp, by simp, by simp⟩ ?_
  · obtain ⟨s, k, k'⟩ := this
    exact ⟨s, k, k'⟩
  · rintro pre i post s hl ⟨k1, k2, k3, k4, k5, k6⟩
    have hi : i ∈ l := by simp [hl]
    have d1 : ∀ j ∈ pre, w1 j ≠ w1 i := by
      intro j hj; rw [hl, List.pairwise_append] at h1; exact h1.2.2 j hj i (by simp)
    have d2 : ∀ j ∈ pre, w2 j ≠ w2 i := by
      intro j hj; rw [hl, List.pairwise_append] at h2; exact h2.2.2 j hj i (by simp)
    refine ⟨_, hf s i hi k1 k2, k1, k2, ?_, ?_, ?_, ?_⟩
    · intro j hj
      rcases List.mem_append.1 hj with hj | hj
      · simp [Function.update_of_ne (d1 j hj), k3 j hj]
      · have : j = i := by simpa using hj
        subst this; simp
    · intro j hj
      rcases List.mem_append.1 hj with hj | hj
      · simp [Function.update_of_ne (d2 j hj), k4 j hj]
      · have : j = i := by simpa using hj
        subst this; simp
    · intro q hq
      have := hq i (by simp)
      simp only [Function.update_of_ne this.symm]
      exact k5 q fun j hj => hq j (by simp [hj])
    · intro q hq
      have := hq i (by simp)
      simp only [Function.update_of_ne this.symm]
      exact k6 q fun j hj => hq j (by simp [hj])

theorem pairwise_id (lo hi : I3) : (box lo hi).Pairwise fun i j => i ≠ j := nodup_box lo hi

theorem pairwise_sub (lo hi e : I3) : (box lo hi).Pairwise fun i j => i - e ≠ j - e :=
  (nodup_box lo hi).imp fun {a b} hab h => hab (by
    have h1 := congrArg I3.x h; have h2 := congrArg I3.y h; have h3 := congrArg I3.z h
    simp at h1 h2 h3
    ext <;> assumption)

/-- Is the left neighbour face of `q` (the face between `q` and `q + e_d`) one where the first loop writes? -/
def Written (d : Nat) (n q : I3) : Prop := q + I3.dir d ∈ box (I3.dir d) (n - I3.dir d)

theorem scaleLoop_ok (eq : Equation N) {d : Nat} (_hd : d < 3) {n : I3} {u entL entR : Arr I3 (Vec N)} (hu : u.inb = inSize n)
    (hL : entL.inb = inSize n) (hR : entR.inb = inSize n) :
    ∃ s, scaleLoop eq d n u entL entR = .ok s ∧ s.1.inb = inSize n ∧ s.2.inb = inSize n ∧
      (∀ q, Written d n q → s.1.val (q + I3.dir d) = scaled eq d (u.val q) (u.val (q + I3.dir d)) (u.val (q + I3.dir d)) ∧
        s.2.val q = scaled eq d (u.val q) (u.val (q + I3.dir d)) (u.val q)) ∧
      (∀ q, ¬ Written d n q → s.1.val (q + I3.dir d) = entL.val (q + I3.dir d) ∧ s.2.val q = entR.val q) := by
  have key := foldlM_wr2 (box (I3.dir d) (n - I3.dir d)) (fun q => q) (fun q => q - I3.dir d)
    (fun s q => do
      let um ← u.rd q
      let ul ← u.rd (q - I3.dir d)
      let l ← s.1.wr q (scaled eq d ul um um)
      let r ← s.2.wr (q - I3.dir d) (scaled eq d ul um ul)
      pure (l, r))
    (fun q => scaled eq d (u.val (q - I3.dir d)) (u.val q) (u.val q)) (fun q => scaled eq d (u.val (q - I3.dir d)) (u.val q) (u.val (q - I3.dir d)))
    entL entR ?_ (pairwise_id _ _) (pairwise_sub _ _ _)
  · obtain ⟨s, k1, k2, k3, k4, k5, k6, k7⟩ := key
    have e : ∀ q : I3, q + I3.dir d - I3.dir d = q := fun q => by ext <;> simp
    refine ⟨s, k1, by rw [k2, hL], by rw [k3, hR], fun q hq => ?_, fun q hq => ?_⟩
    · have a := k4 _ hq
      have b := k5 _ hq
      simp only [e] at a b
      exact ⟨a, b⟩
    · refine ⟨k6 _ fun i hi h => hq (by unfold Written; rw [← h]; exact hi), k7 _ fun i hi h => hq ?_⟩
      unfold Written
      rw [← h]
      have : i - I3.dir d + I3.dir d = i := by ext <;> simp
      rw [this]; exact hi
  · intro s q hq h1 h2
    have hin : inSize n q = true ∧ inSize n (q - I3.dir d) = true := by
      simp only [mem_box, inSize_iff, I3.sub_x, I3.sub_y, I3.sub_z, I3.dir] at hq ⊢
      split_ifs at hq ⊢ <;> omega
    rw [Arr.rd_ok (by rw [hu]; exact hin.1), Arr.rd_ok (by rw [hu]; exact hin.2)]
    simp only [Res.ok_bind]
    rw [Arr.wr_ok (by rw [h1, hL]; exact hin.1)]
    simp only [Res.ok_bind]
    rw [Arr.wr_ok (by rw [h2, hR]; exact hin.2)]
    rfl

/-- The diffusion at the face between `q` and `q + e_d` as a function of the arrays. -/
noncomputable def faceValue (eq : Equation N) (k : Kind) (d : Nat) (u left right : I3 → Vec N) (q : I3) : Vec N :=
  (0.5 : ℝ) • (eq.eigMat d ((0.5 : ℝ) • (u (q + I3.dir d) + u q))).mulVec
    (k.mul (eq.eigVal d ((0.5 : ℝ) • (u (q + I3.dir d) + u q))) (left (q + I3.dir d) - right q))

theorem addLoop_ok (eq : Equation N) (k : Kind) {d : Nat} {n : I3} {u left right out : Arr I3 (Vec N)} (hu : u.inb = inSize n)
    (hL : left.inb = inSize n) (hR : right.inb = inSize n) (ho : out.inb = inSize n) :
    ∃ o, addLoop eq k d n u left right out = .ok o ∧ o.inb = inSize n ∧
      (∀ q ∈ box (I3.dir d) (n - I3.dir d), o.val q = out.val q +
        (faceValue eq k d u.val left.val right.val q - faceValue eq k d u.val left.val right.val (q - I3.dir d))) := by
  have key := Arr.foldlM_wr (box (I3.dir d) (n - I3.dir d)) (fun q => q)
    (fun (o : Arr I3 (Vec N)) q => do
      let a ← faceDiffusion eq k d u left right q (q + I3.dir d)
      let b ← faceDiffusion eq k d u left right (q - I3.dir d) q
      let cur ← o.rd q
      pure (cur + (a - b)))
    (fun q => out.val q + (faceValue eq k d u.val left.val right.val q - faceValue eq k d u.val left.val right.val (q - I3.dir d))) out
    ?_ (pairwise_id _ _) ?_
  · obtain ⟨o, k1, k2, k3, -⟩ := key
    exact ⟨o, k1, by rw [k2, ho], k3⟩
  · intro q hq
    rw [ho]
    simp only [mem_box, inSize_iff, I3.sub_x, I3.sub_y, I3.sub_z, I3.dir] at hq ⊢
    split_ifs at hq ⊢ <;> omega
  · intro b q hq hb hv _
    have hin : inSize n q = true ∧ inSize n (q - I3.dir d) = true ∧ inSize n (q + I3.dir d) = true := by
      simp only [mem_box, inSize_iff, I3.sub_x, I3.sub_y, I3.sub_z, I3.add_x, I3.add_y, I3.add_z, I3.dir] at hq ⊢
      split_ifs at hq ⊢ <;> omega
    have e : q - I3.dir d + I3.dir d = q := by ext <;> simp
    have f1 : faceDiffusion eq k d u left right q (q + I3.dir d) = .ok (faceValue eq k d u.val left.val right.val q) := by
      simp only [faceDiffusion]
      rw [Arr.rd_ok (a := right) (by rw [hR]; exact hin.1), Arr.rd_ok (a := left) (by rw [hL]; exact hin.2.2), Arr.rd_ok (a := u) (by rw [hu]; exact hin.2.2),
        Arr.rd_ok (a := u) (by rw [hu]; exact hin.1)]
      rfl
    have f2 : faceDiffusion eq k d u left right (q - I3.dir d) q = .ok (faceValue eq k d u.val left.val right.val (q - I3.dir d)) := by
      simp only [faceDiffusion, faceValue, e]
      rw [Arr.rd_ok (a := right) (by rw [hR]; exact hin.2.1), Arr.rd_ok (a := left) (by rw [hL]; exact hin.1), Arr.rd_ok (a := u) (by rw [hu]; exact hin.1),
        Arr.rd_ok (a := u) (by rw [hu]; exact hin.2.1)]
      rfl
    simp only [f1, f2, Res.ok_bind]
    rw [Arr.rd_ok (by rw [hb, ho]; exact hin.1), hv]
    rfl

theorem noRec_ok {d : Nat} {n : I3} {entL entR left right : Arr I3 (Vec N)} (h1 : entL.inb = inSize n) (h2 : entR.inb = inSize n)
    (h3 : left.inb = inSize n) (h4 : right.inb = inSize n) :
    ∃ s, (noRec : TecnoRec N).perform d n entL entR left right = .ok s ∧ s.1.inb = inSize n ∧ s.2.inb = inSize n ∧
      ∀ q, inSize n q = true → s.1.val q = entL.val q ∧ s.2.val q = entR.val q := by
  have key := foldlM_wr2 (box 0 n) (fun q => q) (fun q => q)
    (fun s q => do
      let a ← entL.rd q
      let l ← s.1.wr q a
      let b ← entR.rd q
      let r ← s.2.wr q b
      pure (l, r)) entL.val entR.val left right ?_ (pairwise_id _ _) (pairwise_id _ _)
  · obtain ⟨s, k1, k2, k3, k4, k5, -⟩ := key
    refine ⟨s, k1, by rw [k2, h3], by rw [k3, h4], fun q hq => ?_⟩
    have hm : q ∈ box 0 n := by simp at hq ⊢; omega
    exact ⟨k4 q hm, k5 q hm⟩
  · intro s q hq k1 k2
    have hin : inSize n q = true := by simp at hq ⊢; omega
    rw [Arr.rd_ok (by rw [h1]; exact hin)]
    simp only [Res.ok_bind]
    rw [Arr.wr_ok (by rw [k1, h3]; exact hin)]
    simp only [Res.ok_bind]
    rw [Arr.rd_ok (by rw [h2]; exact hin)]
    simp only [Res.ok_bind]
    rw [Arr.wr_ok (by rw [k2, h4]; exact hin)]
    rfl

theorem rusanov_nonneg (lam : Vec N) : ∀ (l : List (Fin N)) (m : ℝ), 0 ≤ m → 0 ≤ l.foldl (fun m j => max |lam j| m) m
  | [], m, h => h
  | a :: l, m, h => rusanov_nonneg lam l _ (le_max_of_le_right h)

/-- The matrix is diagonal with non-negative entries. -/
theorem Kind.mul_eq (k : Kind) (lam : Vec N) : ∃ c : Vec N, (∀ i, 0 ≤ c i) ∧ ∀ v, k.mul lam v = fun i => c i * v i := by
  cases k with
  | roe => exact ⟨fun i => |lam i|, fun i => abs_nonneg _, fun v => rfl⟩
  | rusanov => exact ⟨fun _ => _, fun i => rusanov_nonneg lam _ 0 le_rfl, fun v => rfl⟩

theorem faceValue_dissipative (eq : Equation N) (k : Kind) (d : Nat) (u left right : I3 → Vec N) (q : I3)
    (h : ∀ i, 0 ≤ (left (q + I3.dir d) - right q) i *
      (scaled eq d (u q) (u (q + I3.dir d)) (u (q + I3.dir d)) - scaled eq d (u q) (u (q + I3.dir d)) (u q)) i) :
    0 ≤ ∑ i, (eq.entVar (u (q + I3.dir d)) i - eq.entVar (u q) i) * faceValue eq k d u left right q i := by
  set M := eq.eigMat d ((0.5 : ℝ) • (u (q + I3.dir d) + u q)) with hM
  set J := left (q + I3.dir d) - right q with hJ
  obtain ⟨c, hc, hmul⟩ := k.mul_eq (eq.eigVal d ((0.5 : ℝ) • (u (q + I3.dir d) + u q)))
  set w := eq.entVar (u (q + I3.dir d)) - eq.entVar (u q) with hw
  have hs : scaled eq d (u q) (u (q + I3.dir d)) (u (q + I3.dir d)) - scaled eq d (u q) (u (q + I3.dir d)) (u q) = M.transpose.mulVec w := by
    simp only [scaled, hw, Matrix.mulVec_sub, hM]
  rw [hs] at h
  have e : ∑ i, (eq.entVar (u (q + I3.dir d)) i - eq.entVar (u q) i) * faceValue eq k d u left right q i =
      0.5 * ∑ j, c j * (J j * M.transpose.mulVec w j) := by
    simp only [faceValue, hmul, ← hM, ← hJ, Pi.smul_apply, smul_eq_mul, Matrix.mulVec, dotProduct, Matrix.transpose_apply, hw, Pi.sub_apply,
      Finset.mul_sum]
    rw [Finset.sum_comm]
    refine Finset.sum_congr rfl fun i _ => Finset.sum_congr rfl fun j _ => by simp only [hJ, Pi.sub_apply]; ring
  rw [e]
  exact mul_nonneg (by norm_num) (Finset.sum_nonneg fun j _ => mul_nonneg (hc j) (h j))

theorem get_geom {d : Nat} (hd : d < 3) (q : I3) (o : Int) : (q + step d o).get d = q.get d + o ∧ ∀ e < 3, e ≠ d → (q + step d o).get e = q.get e := by
  have hd3 : d = 0 ∨ d = 1 ∨ d = 2 := by omega
  rcases hd3 with rfl | rfl | rfl <;> refine ⟨by simp [step, I3.get], fun e he hne => ?_⟩ <;>
    interval_cases e <;> simp_all [step, I3.get]

theorem inSize_get {n q : I3} : inSize n q = true ↔ ∀ e < 3, 0 ≤ q.get e ∧ q.get e < n.get e := by
  rw [inSize_iff]
  constructor
  · rintro h e he
    interval_cases e <;> simp [I3.get] <;> omega
  · intro h
    have h0 := h 0 (by decide); have h1 := h 1 (by decide); have h2 := h 2 (by decide)
    simp [I3.get] at h0 h1 h2
    omega

theorem dir_eq_step (d : Nat) : I3.dir d = step d 1 := by
  ext <;> simp [I3.dir, step]

theorem sub_step (d : Nat) (q : I3) (o : Int) : q - step d o = q + step d (-o) := by
  ext <;> simp [step] <;> split_ifs <;> omega

theorem written_get {d : Nat} (hd : d < 3) {n q : I3} : Written d n q ↔ (0 ≤ q.get d ∧ q.get d + 2 < n.get d) ∧
    ∀ e < 3, e ≠ d → 0 ≤ q.get e ∧ q.get e < n.get e := by
  have hd3 : d = 0 ∨ d = 1 ∨ d = 2 := by omega
  rcases hd3 with rfl | rfl | rfl <;> simp only [Written, mem_box, I3.dir, I3.get, I3.add_x, I3.add_y, I3.add_z, I3.sub_x, I3.sub_y, I3.sub_z] <;> simp
  · constructor
    · rintro h; refine ⟨by omega, fun e he hne => ?_⟩; interval_cases e <;> simp_all
    · rintro ⟨h, h'⟩; have h1 := h' 1 (by decide) (by decide); have h2 := h' 2 (by decide) (by decide); simp at h1 h2; omega
  · constructor
    · rintro h; refine ⟨by omega, fun e he hne => ?_⟩; interval_cases e <;> simp_all
    · rintro ⟨h, h'⟩; have h1 := h' 0 (by decide) (by decide); have h2 := h' 2 (by decide) (by decide); simp at h1 h2; omega
  · constructor
    · rintro h; refine ⟨by omega, fun e he hne => ?_⟩; interval_cases e <;> simp_all
    · rintro ⟨h, h'⟩; have h1 := h' 0 (by decide) (by decide); have h2 := h' 1 (by decide) (by decide); simp at h1 h2; omega

end Diffusion
end Verif
