import Verif.Structure
import Verif.Props.Boundary
import Mathlib.Algebra.BigOperators.Field

/-! Helper lemmas for C56 and C57: what the loops of the structure functions compute. -/

namespace Verif.Props
open Verif Structure Boundary

/-- Interior data `w` (indexed from zero) extended beyond the interior: periodically, or by the nearest interior cell. -/
def extended (bc : BC) (n : I3) (w : I3 → ℝ) (q : I3) : ℝ :=
  match bc with
  | .periodic => w ⟨q.x % n.x, q.y % n.y, q.z % n.z⟩
  | .neumann => w ⟨max 0 (min q.x (n.x - 1)), max 0 (min q.y (n.y - 1)), max 0 (min q.z (n.z - 1))⟩

theorem valueAt_ok (bc : BC) (f : I3 → ℝ) (q n g : I3) (hn : 1 ≤ n.x ∧ 1 ≤ n.y ∧ 1 ≤ n.z) (hg : 0 ≤ g.x ∧ 0 ≤ g.y ∧ 0 ≤ g.z) :
    valueAt bc (field (n + g + g) f) q n g = .ok (extended bc n (fun c => f (c + g)) q) := by
  cases bc
  · simp only [valueAt, valueNeumann, extended]
    rw [Arr.rd_ok]
    · rfl
    · simp only [field, inSize_iff, I3.add_x, I3.add_y, I3.add_z]
      omega
  · exact (C09_value_at_boundary f q n g hn hg).1

theorem rd_interior (f : I3 → ℝ) {c n g : I3} (hc : c ∈ box 0 n) (hg : 0 ≤ g.x ∧ 0 ≤ g.y ∧ 0 ≤ g.z) : (field (n + g + g) f).rd (c + g) = .ok (f (c + g)) := by
  rw [Arr.rd_ok]
  · rfl
  · simp at hc
    simp only [field, inSize_iff, I3.add_x, I3.add_y, I3.add_z]
    omega

/-- The shift by `h` cells in the direction `d`. -/
def along (d : Nat) (h : Int) : I3 := ⟨h * (I3.dir d).x, h * (I3.dir d).y, h * (I3.dir d).z⟩

theorem dir_nonneg (d : Nat) : 0 ≤ (I3.dir d).x ∧ 0 ≤ (I3.dir d).y ∧ 0 ≤ (I3.dir d).z := by
  simp only [I3.dir]; split_ifs <;> simp

theorem along_nonneg (d : Nat) {h : Int} (hh : 0 ≤ h) : 0 ≤ h * (I3.dir d).x ∧ 0 ≤ h * (I3.dir d).y ∧ 0 ≤ h * (I3.dir d).z :=
  ⟨mul_nonneg hh (dir_nonneg d).1, mul_nonneg hh (dir_nonneg d).2.1, mul_nonneg hh (dir_nonneg d).2.2⟩

theorem cmod_ok {a b : Int} (ha : 0 ≤ a) (hb : 0 < b) : cmod a b = .ok (a % b) := by
  rw [cmod, if_neg (by omega), Int.tmod_eq_emod_of_nonneg ha]

theorem basicWith_ok (bc : BC) (p : ℝ) (d : Nat) (numberOfH : Int) (n g : I3) (hn : 1 ≤ n.x ∧ 1 ≤ n.y ∧ 1 ≤ n.z) (hg : 0 ≤ g.x ∧ 0 ≤ g.y ∧ 0 ≤ g.z) (f o : I3 → ℝ) :
    ∃ out, basicWith bc p d numberOfH n g (field (n + g + g) f) (field ⟨numberOfH, 1, 1⟩ o) = .ok out ∧
      ∀ q, out.val q = o q + if q.y = 0 ∧ q.z = 0 ∧ 0 ≤ q.x ∧ q.x < numberOfH then
        ∑ c ∈ (box 0 n).toFinset, |f (c + g) - extended bc n (fun c => f (c + g)) (c + along d q.x)| ^ p / (n.x * n.y * n.z) else 0 := by
  unfold basicWith
  obtain ⟨out, h1, h2, h3⟩ := loop_rows (box 0 n) 0 numberOfH
    (fun c h => |f (c + g) - extended bc n (fun c => f (c + g)) (c + along d h)| ^ p / ((n.x * n.y * n.z : Int) : ℝ))
    (fun out c h => do
      let u ← (field (n + g + g) f).rd (c + g)
      let uh ← valueAt bc (field (n + g + g) f) (c + ⟨h * (I3.dir d).x, h * (I3.dir d).y, h * (I3.dir d).z⟩) n g
      addAt out ⟨h, 0, 0⟩ (|u - uh| ^ p / ((n.x * n.y * n.z : Int) : ℝ))) (field ⟨numberOfH, 1, 1⟩ o) (by
    intro b hb c hc h hh1 hh2
    beta_reduce
    rw [rd_interior f hc hg, Res.ok_bind, valueAt_ok bc f _ n g hn hg, Res.ok_bind]
    exact addAt_ok (by rw [hb]; simp [field]; omega) _)
  refine ⟨out, h1, fun q => ?_⟩
  rw [h3]
  simp only [field, add_right_inj]
  split_ifs
  · rw [List.sum_toFinset _ (nodup_box 0 n)]; push_cast; rfl
  · rfl

/-- What `StructureBase` computes: an average over the first `n - 2 g` cells only, periodic in that block. -/
theorem base_ok (p : ℝ) (d : Nat) (numberOfH : Int) (n g m : I3) (hm : m = ⟨n.x - 2 * g.x, n.y - 2 * g.y, n.z - 2 * g.z⟩) (hg : 0 ≤ g.x ∧ 0 ≤ g.y ∧ 0 ≤ g.z)
    (f o : I3 → ℝ) :
    ∃ out, base p d numberOfH n g (field (n + g + g) f) (field ⟨numberOfH, 1, 1⟩ o) = .ok out ∧
      ∀ q, out.val q = o q + if q.y = 0 ∧ q.z = 0 ∧ 0 ≤ q.x ∧ q.x < numberOfH then
        ∑ c ∈ (box 0 m).toFinset, |f (c + g) - extended .periodic m (fun c => f (c + g)) (c + along d q.x)| ^ p / (m.x * m.y * m.z) else 0 := by
  unfold base
  rw [← hm]
  obtain ⟨out, h1, h2, h3⟩ := loop_rows (box 0 m) 0 numberOfH
    (fun c h => |f (c + g) - extended .periodic m (fun c => f (c + g)) (c + along d h)| ^ p / ((m.x * m.y * m.z : Int) : ℝ))
    (fun out c h => do
      let u ← (field (n + g + g) f).rd (c + g)
      let px ← cmod (c.x + h * (I3.dir d).x) m.x
      let py ← cmod (c.y + h * (I3.dir d).y) m.y
      let pz ← cmod (c.z + h * (I3.dir d).z) m.z
      let uh ← (field (n + g + g) f).rd (⟨px, py, pz⟩ + g)
      addAt out ⟨h, 0, 0⟩ (|u - uh| ^ p / ((m.x * m.y * m.z : Int) : ℝ))) (field ⟨numberOfH, 1, 1⟩ o) (by
    intro b hb c hc h hh1 hh2
    beta_reduce
    have hal := along_nonneg d hh1
    have hcn : c ∈ box 0 n := by
      simp [hm] at hc ⊢; omega
    simp only [mem_box, I3.zero_x, I3.zero_y, I3.zero_z] at hc
    have hx := Int.emod_nonneg (c.x + h * (I3.dir d).x) (show m.x ≠ 0 by omega)
    have hy := Int.emod_nonneg (c.y + h * (I3.dir d).y) (show m.y ≠ 0 by omega)
    have hz := Int.emod_nonneg (c.z + h * (I3.dir d).z) (show m.z ≠ 0 by omega)
    have hx' := Int.emod_lt_of_pos (c.x + h * (I3.dir d).x) (show 0 < m.x by omega)
    have hy' := Int.emod_lt_of_pos (c.y + h * (I3.dir d).y) (show 0 < m.y by omega)
    have hz' := Int.emod_lt_of_pos (c.z + h * (I3.dir d).z) (show 0 < m.z by omega)
    rw [rd_interior f hcn hg, Res.ok_bind, cmod_ok (by omega) (by omega), Res.ok_bind, cmod_ok (by omega) (by omega), Res.ok_bind, cmod_ok (by omega) (by omega), Res.ok_bind,
      rd_interior f (c := ⟨(c.x + h * (I3.dir d).x) % m.x, (c.y + h * (I3.dir d).y) % m.y, (c.z + h * (I3.dir d).z) % m.z⟩) (by
        have e1 : m.x = n.x - 2 * g.x := by rw [hm]
        have e2 : m.y = n.y - 2 * g.y := by rw [hm]
        have e3 : m.z = n.z - 2 * g.z := by rw [hm]
        simp only [mem_box, I3.zero_x, I3.zero_y, I3.zero_z]; omega) hg, Res.ok_bind]
    exact addAt_ok (by rw [hb]; simp [field]; omega) _)
  refine ⟨out, h1, fun q => ?_⟩
  rw [h3]
  simp only [field, add_right_inj]
  split_ifs
  · rw [List.sum_toFinset _ (nodup_box 0 m)]; push_cast; rfl
  · rfl

/-- What `StructureTwoPoints` computes: an average over the first `n - 2 g` cells only, both shifts in the first direction. -/
theorem twoPoints_ok (d d2 : Nat) (numberOfH : Int) (n g m : I3) (hm : m = ⟨n.x - 2 * g.x, n.y - 2 * g.y, n.z - 2 * g.z⟩) (hg : 0 ≤ g.x ∧ 0 ≤ g.y ∧ 0 ≤ g.z)
    (f o : I3 → ℝ) :
    ∃ out, twoPoints d d2 numberOfH n g (field (n + g + g) f) (field ⟨numberOfH, numberOfH, 1⟩ o) = .ok out ∧
      ∀ h1 h2, 0 ≤ h1 → h1 < numberOfH → 0 ≤ h2 → h2 < numberOfH → out.val ⟨h1, h2, 0⟩ = o ⟨h1, h2, 0⟩ +
        ∑ c ∈ (box 0 m).toFinset, (extended .neumann m (fun c => f (c + g)) (c + along d h1) - f (c + g)) ^ 2 *
          (extended .neumann m (fun c => f (c + g)) (c + along d h2) - f (c + g)) / (m.x * m.y * m.z) := by
  unfold twoPoints
  rw [← hm]
  have e1 : m.x = n.x - 2 * g.x := by rw [hm]
  have e2 : m.y = n.y - 2 * g.y := by rw [hm]
  have e3 : m.z = n.z - 2 * g.z := by rw [hm]
  let E : I3 → Int → ℝ := fun c h => extended .neumann m (fun c => f (c + g)) (c + along d h)
  let X : I3 → Int → Int → ℝ := fun c h1 h2 => (E c h1 - f (c + g)) * (E c h1 - f (c + g)) * (E c h2 - f (c + g)) / ((m.x * m.y * m.z : Int) : ℝ)
  have hE : ∀ c h, E c h = f (⟨max 0 (min (c.x + h * (I3.dir d).x) (m.x - 1)), max 0 (min (c.y + h * (I3.dir d).y) (m.y - 1)), max 0 (min (c.z + h * (I3.dir d).z) (m.z - 1))⟩ + g) :=
    fun _ _ => rfl
  have key := foldlM_addInto (box 0 m) (fun c q => ((irange 0 numberOfH).map fun h1 => ((irange 0 numberOfH).map fun h2 => if (⟨h1, h2, 0⟩ : I3) = q then X c h1 h2 else 0).sum).sum)
    (fun out c => do
    let u ← (field (n + g + g) f).rd (c + g)
    (irange 0 numberOfH).foldlM (fun out h1 => do
      let u1 ← (field (n + g + g) f).rd (⟨min (c.x + h1 * (I3.dir d).x) (m.x - 1), min (c.y + h1 * (I3.dir d).y) (m.y - 1), min (c.z + h1 * (I3.dir d).z) (m.z - 1)⟩ + g)
      (irange 0 numberOfH).foldlM (fun out h2 => do
        let px ← cmod (min (c.x + h2 * (I3.dir d).x) (m.x - 1)) m.x
        let py ← cmod (min (c.y + h2 * (I3.dir d).y) (m.y - 1)) m.y
        let pz ← cmod (min (c.z + h2 * (I3.dir d).z) (m.z - 1)) m.z
        let u2 ← (field (n + g + g) f).rd (⟨px, py, pz⟩ + g)
        addAt out ⟨h1, h2, 0⟩ ((u1 - u) * (u1 - u) * (u2 - u) / ((m.x * m.y * m.z : Int) : ℝ))) out) out) (field ⟨numberOfH, numberOfH, 1⟩ o) ?_
  · obtain ⟨out, k1, k2, k3⟩ := key
    refine ⟨out, k1, fun h1 h2 a1 a2 b1 b2 => ?_⟩
    rw [k3]
    congr 1
    rw [List.sum_toFinset _ (nodup_box 0 m)]
    congr 1
    refine List.map_congr_left fun c _ => ?_
    rw [sum_irange]
    rw [Finset.sum_eq_single h1]
    · rw [sum_irange, Finset.sum_eq_single h2]
      · rw [if_pos rfl]
        simp only [X, E]
        push_cast
        ring
      · intro k _ hk
        rw [if_neg (by simp [hk])]
      · intro h; exact absurd (Finset.mem_Ico.2 ⟨b1, b2⟩) h
    · intro k _ hk
      rw [sum_irange]
      exact Finset.sum_eq_zero fun j _ => if_neg (by simp [hk])
    · intro h; exact absurd (Finset.mem_Ico.2 ⟨a1, a2⟩) h
  · intro b hb c hc
    beta_reduce
    have hcn : c ∈ box 0 n := by
      simp [hm] at hc ⊢; omega
    simp only [mem_box, I3.zero_x, I3.zero_y, I3.zero_z] at hc
    rw [rd_interior f hcn hg, Res.ok_bind]
    refine foldlM_addInto _ (fun h1 q => ((irange 0 numberOfH).map fun h2 => if (⟨h1, h2, 0⟩ : I3) = q then X c h1 h2 else 0).sum) _ b ?_
    intro b1 hb1 h1 hh1
    rw [mem_irange] at hh1
    have hal1 := along_nonneg d hh1.1
    have rd1 : ∀ h : Int, 0 ≤ h → (field (n + g + g) f).rd (⟨min (c.x + h * (I3.dir d).x) (m.x - 1), min (c.y + h * (I3.dir d).y) (m.y - 1), min (c.z + h * (I3.dir d).z) (m.z - 1)⟩ + g) =
        .ok (E c h) := by
      intro h hh
      have hal := along_nonneg d hh
      rw [rd_interior f (by simp only [mem_box, I3.zero_x, I3.zero_y, I3.zero_z]; omega) hg, hE]
      congr 3
      ext <;> simp only <;> omega
    rw [rd1 h1 hh1.1, Res.ok_bind]
    refine foldlM_addInto _ (fun h2 q => if (⟨h1, h2, 0⟩ : I3) = q then X c h1 h2 else 0) _ b1 ?_
    intro b2 hb2 h2 hh2
    rw [mem_irange] at hh2
    have hal2 := along_nonneg d hh2.1
    have cm : ∀ a b : Int, 0 ≤ a → 1 ≤ b → cmod (min a (b - 1)) b = .ok (min a (b - 1)) := by
      intro a b ha hb
      rw [cmod_ok (by omega) (by omega), Int.emod_eq_of_lt (by omega) (by omega)]
    rw [cm _ _ (by omega) (by omega), Res.ok_bind, cm _ _ (by omega) (by omega), Res.ok_bind, cm _ _ (by omega) (by omega), Res.ok_bind, rd1 h2 hh2.1, Res.ok_bind]
    exact addAt_ok (by rw [hb2, hb1, hb]; simp [field]; omega) _

end Verif.Props
