import Mathlib.Algebra.BigOperators.Group.List.Basic
import Verif.Standalone
import Verif.OutputLemmas

/-!
Lemmas on the model of the stand-alone structure functions.
-/

namespace Verif.Standalone
open Verif

theorem require_iff {b : Bool} : require b = .ok () ↔ b = true := by
  cases b <;> simp [require]

theorem require_error {b : Bool} (h : b = false) : require b = .error .thrown := by simp [require, h]

theorem quotient_pos {a b : Nat} (h : b ≠ 0) : quotient a b = .ok (a / b) := by simp [quotient, h]

/-- The positions in the order of the loops. -/
theorem mem_loops {nx ny dx dy dz cx cy cz : Nat} {e : Nat × Nat} : e ∈ loops nx ny dx dy dz cx cy cz ↔ ∃ z < dz, ∃ y < dy, ∃ x < dx, ∃ k < cz, ∃ j < cy, ∃ i < cx,
    (z * dy * dx + y * dx + x, (z * cz + k) * nx * ny + (y * cy + j) * nx + (x * cx + i)) = e := by
  simp [loops]

/-- A loop that writes to `w e` a value that depends on that place only. -/
theorem foldlM_scatter {ι : Type} (l : List ι) (w : ι → Nat) (r : ι → Nat) (src : Arr Nat ℝ) (g : Nat → ℝ) (a : Arr Nat ℝ) (hw : ∀ e ∈ l, a.inb (w e) = true)
    (hr : ∀ e ∈ l, src.inb (r e) = true) (hg : ∀ e ∈ l, src.val (r e) = g (w e)) :
    ∃ a', l.foldlM (fun b e => do let x ← src.rd (r e); b.wr (w e) x) a = .ok a' ∧ a'.inb = a.inb ∧ ∀ e ∈ l, a'.val (w e) = g (w e) := by
  obtain ⟨a', h1, h2, h3⟩ := foldlM_inv (fun (b : Arr Nat ℝ) e => do let x ← src.rd (r e); b.wr (w e) x) l a
    (fun pre b => b.inb = a.inb ∧ ∀ e ∈ pre, b.val (w e) = g (w e)) ⟨rfl, by simp⟩ (by
      rintro pre e post b hl ⟨hb, hp⟩
      have he : e ∈ l := by simp [hl]
      have hin : b.inb (w e) = true := by rw [hb]; exact hw e he
      refine ⟨{ b with val := Function.update b.val (w e) (src.val (r e)) }, by simp [Arr.rd_ok (hr e he), Arr.wr_ok hin], hb, ?_⟩
      intro e' he'
      by_cases heq : w e' = w e
      · simp only [heq, Function.update_self]; exact hg e he
      · simp only [Function.update_of_ne heq]
        rcases List.mem_append.1 he' with h | h
        · exact hp e' h
        · rw [List.mem_singleton] at h
          exact absurd (by rw [h]) heq)
  exact ⟨a', h1, h2, h3⟩

/-- Position of a cell in a buffer with `x` fastest, decoded. -/
theorem decode {nx ny X Y Z : Nat} (hX : X < nx) (hY : Y < ny) :
    (Z * nx * ny + Y * nx + X) % nx = X ∧ (Z * nx * ny + Y * nx + X) / nx % ny = Y ∧ (Z * nx * ny + Y * nx + X) / nx / ny = Z := by
  have h0 : Z * nx * ny + Y * nx + X = nx * (ny * Z + Y) + X := by ring
  have hx : (nx * (ny * Z + Y) + X) / nx = ny * Z + Y := by
    rw [Nat.mul_add_div (by omega), Nat.div_eq_of_lt hX, Nat.add_zero]
  rw [h0, hx, Nat.mul_add_mod, Nat.mod_eq_of_lt hX, Nat.mul_add_mod, Nat.mod_eq_of_lt hY, Nat.mul_add_div (by omega), Nat.div_eq_of_lt hY, Nat.add_zero]
  exact ⟨rfl, rfl, rfl⟩

theorem position_lt {nx ny nz X Y Z : Nat} (hX : X < nx) (hY : Y < ny) (hZ : Z < nz) : Z * nx * ny + Y * nx + X < nx * ny * nz := by
  have h1 : Z * nx * ny + Y * nx + X < (Z * ny + (Y + 1)) * nx := by
    have : (Z * ny + (Y + 1)) * nx = Z * nx * ny + Y * nx + nx := by ring
    omega
  have h2 : Z * ny + (Y + 1) ≤ ny * nz := by
    have : (Z + 1) * ny ≤ nz * ny := Nat.mul_le_mul_right _ hZ
    have : (Z + 1) * ny = Z * ny + ny := by ring
    have : nz * ny = ny * nz := Nat.mul_comm _ _
    omega
  have h3 : (Z * ny + (Y + 1)) * nx ≤ ny * nz * nx := Nat.mul_le_mul_right _ h2
  have : ny * nz * nx = nx * ny * nz := by ring
  omega

/-- The conditions the program checks. -/
structure Accepted (nx ny nz dx dy dz : Nat) : Prop where
  flat : (ny = 1 → nz ≤ 1) ∧ (nx = 1 → ny ≤ 1 ∧ nz ≤ 1)
  small : dx ≤ nx ∧ dy ≤ ny ∧ dz ≤ nz
  positive : 1 ≤ dx ∧ 1 ≤ dy ∧ 1 ≤ dz
  divides : dx ∣ nx ∧ dy ∣ ny ∧ dz ∣ nz
  ratio : 1 < ny → ny / dy = nx / dx ∧ (1 < nz → nz / dz = nx / dx)

theorem readVariable_ok {nx ny nz dx dy dz : Nat} {v : FileVar} (hd : v.dims = [dx, dy, dz]) (h : Accepted nx ny nz dx dy dz) :
    ∃ b, readVariable nx ny nz v = .ok b ∧ b.inb = (fun i => decide (i < nx * ny * nz)) ∧ ∀ X Y Z : Nat, X < nx → Y < ny → Z < nz →
      b.val (Z * nx * ny + Y * nx + X) = v.buffer.val (Z / (nz / dz) * dy * dx + Y / (ny / dy) * dx + X / (nx / dx)) := by
  obtain ⟨hf, hs, hp, ⟨⟨cx, hx⟩, ⟨cy, hy⟩, ⟨cz, hz⟩⟩, hrat⟩ := h
  have ex : nx / dx = cx := by rw [hx, Nat.mul_div_cancel_left _ (by omega)]
  have ey : ny / dy = cy := by rw [hy, Nat.mul_div_cancel_left _ (by omega)]
  have ez : nz / dz = cz := by rw [hz, Nat.mul_div_cancel_left _ (by omega)]
  rw [ex, ey, ez]
  have lt : ∀ {d c a i : Nat}, a < d → i < c → a * c + i < d * c := by
    intro d c a i ha hi
    have : (a + 1) * c ≤ d * c := Nat.mul_le_mul_right _ ha
    have : (a + 1) * c = a * c + c := by ring
    omega
  have quo : ∀ {c a i : Nat}, i < c → (a * c + i) / c = a := by
    intro c a i hi
    rw [Nat.mul_comm, Nat.mul_add_div (by omega), Nat.div_eq_of_lt hi, Nat.add_zero]
  have hprod : v.dims.prod = dx * dy * dz := by simp [hd, Nat.mul_assoc]
  obtain ⟨b, h1, h2, h3⟩ := foldlM_scatter (loops nx ny dx dy dz cx cy cz) (·.2) (·.1) v.buffer
    (fun o => v.buffer.val (o / nx / ny / cz * dy * dx + o / nx % ny / cy * dx + o % nx / cx)) (flat (nx * ny * nz) fun _ => 0)
    (by
      intro e he
      obtain ⟨z, hz', y, hy', x, hx', k, hk, j, hj, i, hi, rfl⟩ := mem_loops.1 he
      have a1 := lt hx' hi
      have a2 := lt hy' hj
      have a3 := lt hz' hk
      rw [← hx] at a1; rw [← hy] at a2; rw [← hz] at a3
      simpa [flat] using position_lt a1 a2 a3)
    (by
      intro e he
      obtain ⟨z, hz', y, hy', x, hx', k, hk, j, hj, i, hi, rfl⟩ := mem_loops.1 he
      have := position_lt hx' hy' hz'
      have e : z * dy * dx = z * dx * dy := by ring
      simp only [FileVar.buffer, flat, hprod, decide_eq_true_eq, e]
      exact this)
    (by
      intro e he
      obtain ⟨z, hz', y, hy', x, hx', k, hk, j, hj, i, hi, rfl⟩ := mem_loops.1 he
      have a1 := lt hx' hi
      have a2 := lt hy' hj
      rw [← hx] at a1; rw [← hy] at a2
      obtain ⟨d1, d2, d3⟩ := decode (Z := z * cz + k) a1 a2
      simp only [d1, d2, d3, quo hi, quo hj, quo hk])
  refine ⟨b, ?_, by rw [h2]; rfl, fun X Y Z hX hY hZ => ?_⟩
  · have r1 : require (!((ny == 1 && decide (nz > 1)) || (nx == 1 && (decide (ny > 1) || decide (nz > 1))))) = .ok () := by
      rw [require_iff]
      simp only [Bool.not_eq_true', Bool.or_eq_false_iff, Bool.and_eq_false_iff, beq_eq_false_iff_ne, decide_eq_false_iff_not]
      omega
    have r2 : require (decide (dx ≤ nx)) = .ok () := by rw [require_iff]; simpa using hs.1
    have r3 : require (decide (dy ≤ ny)) = .ok () := by rw [require_iff]; simpa using hs.2.1
    have r4 : require (decide (dz ≤ nz)) = .ok () := by rw [require_iff]; simpa using hs.2.2
    have r5 : require (cx * dx == nx) = .ok () := by rw [require_iff, hx, Nat.mul_comm]; simp
    have r6 : require (cy * dy == ny) = .ok () := by rw [require_iff, hy, Nat.mul_comm]; simp
    have r7 : require (cz * dz == nz) = .ok () := by rw [require_iff, hz, Nat.mul_comm]; simp
    have r8 : require (decide (ny ≤ 1) || cy == cx) = .ok () := by
      rw [require_iff]
      by_cases h : ny ≤ 1
      · simp [h]
      · have := (hrat (by omega)).1
        rw [ex, ey] at this
        simp [this]
    have r9 : require (decide (ny ≤ 1) || decide (nz ≤ 1) || cz == cx) = .ok () := by
      rw [require_iff]
      by_cases h : ny ≤ 1
      · simp [h]
      by_cases h' : nz ≤ 1
      · simp [h']
      · have := (hrat (by omega)).2 (by omega)
        rw [ex, ez] at this
        simp [this]
    have q1 : quotient nx dx = .ok cx := by rw [quotient_pos (by omega), ex]
    have q2 : quotient ny dy = .ok cy := by rw [quotient_pos (by omega), ey]
    have q3 : quotient nz dz = .ok cz := by rw [quotient_pos (by omega), ez]
    have d0 : v.dim 0 = .ok dx := by simp [FileVar.dim, hd]
    have d1 : v.dim 1 = .ok dy := by simp [FileVar.dim, hd]
    have d2 : v.dim 2 = .ok dz := by simp [FileVar.dim, hd]
    have r10 : require (v.dims.length == 3) = .ok () := by rw [require_iff, hd]; rfl
    simp only [readVariable, r1, r2, r3, r4, r5, r6, r7, r8, r9, r10, q1, q2, q3, d0, d1, d2, Res.ok_bind]
    exact h1
  · have hcx : 0 < cx := by rcases Nat.eq_zero_or_pos cx with h | h <;> [(subst h; omega); exact h]
    have hcy : 0 < cy := by rcases Nat.eq_zero_or_pos cy with h | h <;> [(subst h; omega); exact h]
    have hcz : 0 < cz := by rcases Nat.eq_zero_or_pos cz with h | h <;> [(subst h; omega); exact h]
    have := h3 (Z / cz * dy * dx + Y / cy * dx + X / cx, Z * nx * ny + Y * nx + X) (mem_loops.2 ⟨Z / cz, by
      rw [Nat.div_lt_iff_lt_mul hcz, ← hz]; exact hZ, Y / cy, by rw [Nat.div_lt_iff_lt_mul hcy, ← hy]; exact hY, X / cx, by rw [Nat.div_lt_iff_lt_mul hcx, ← hx]; exact hX,
      Z % cz, Nat.mod_lt _ hcz, Y % cy, Nat.mod_lt _ hcy, X % cx, Nat.mod_lt _ hcx, by
        rw [Nat.div_add_mod', Nat.div_add_mod', Nat.div_add_mod']⟩)
    obtain ⟨e1, e2, e3⟩ := decode (Z := Z) hX hY
    simp only [e1, e2, e3] at this
    exact this

/-- The converse: the other files with three dimensions of positive length are refused with an exception. -/
theorem readVariable_refused {nx ny nz dx dy dz : Nat} {v : FileVar} (hd : v.dims = [dx, dy, dz]) (hp : 1 ≤ dx ∧ 1 ≤ dy ∧ 1 ≤ dz) (hn : ¬Accepted nx ny nz dx dy dz) :
    readVariable nx ny nz v = .error .thrown := by
  have d0 : v.dim 0 = .ok dx := by simp [FileVar.dim, hd]
  have d1 : v.dim 1 = .ok dy := by simp [FileVar.dim, hd]
  have d2 : v.dim 2 = .ok dz := by simp [FileVar.dim, hd]
  have key : ∀ {α : Type} {b : Bool} {f : Unit → Res α}, (b = true → f () = .error .thrown) → (require b >>= f) = .error .thrown := by
    intro α b f h
    cases hb : b
    · rfl
    · exact h hb
  simp only [readVariable, d0, d1, d2, Res.ok_bind, quotient_pos (show dx ≠ 0 by omega), quotient_pos (show dy ≠ 0 by omega), quotient_pos (show dz ≠ 0 by omega)]
  refine key fun a1 => key fun a2 => key fun a3 => key fun a4 => key fun a6 => key fun a8 => key fun a10 => key fun a11 => key fun a12 => (hn ?_).elim
  simp only [Bool.not_eq_true', Bool.or_eq_false_iff, Bool.and_eq_false_iff, beq_eq_false_iff_ne, decide_eq_false_iff_not] at a1
  simp only [decide_eq_true_eq, beq_iff_eq, Bool.or_eq_true] at a2 a3 a4 a6 a8 a10 a11 a12
  refine ⟨by omega, ⟨a2, a3, a4⟩, hp, ⟨⟨_, (Nat.mul_comm _ _ ▸ a6).symm⟩, ⟨_, (Nat.mul_comm _ _ ▸ a8).symm⟩, ⟨_, (Nat.mul_comm _ _ ▸ a10).symm⟩⟩, fun hy => ⟨?_, fun hz => ?_⟩⟩
  · rcases a11 with h | h <;> [omega; exact h]
  · rcases a12 with (h | h) | h <;> [omega; omega; exact h]

theorem samplesOf_eq (M P r : Nat) : samplesOf M P r = List.range' (r * (M / P)) (M / P) := by
  simp only [samplesOf]
  congr 1
  rw [Nat.add_mul, Nat.one_mul, Nat.add_sub_cancel_left]

/-- All ranks together treat the samples below `P * (M / P)`, in this order. -/
theorem samples_flatten (M P : Nat) (k : Nat) : ((List.range k).map (samplesOf M P)).flatten = List.range (k * (M / P)) := by
  induction k with
  | zero => simp
  | succ k ih =>
    rw [List.range_succ, List.map_append, List.flatten_append, ih, List.map_singleton, List.flatten_singleton, samplesOf_eq, Nat.succ_mul, List.range_eq_range', List.range_eq_range']
    have := List.range'_append (s := 0) (m := k * (M / P)) (n := M / P) (step := 1)
    simpa using this

end Verif.Standalone
