import Verif.Boundary

/-!
Property theorems C07 (periodic boundary), C08 (Neumann boundary) and C09 (offset lookups).
-/

namespace Verif.Props
open Verif Boundary

/-- Is `p` an interior cell of a volume with interior size `N` and `g` ghost cells on each side of the first `dims` directions? -/
def Interior (g : Int) (N : I3) (dims : Nat) (p : I3) : Prop :=
  (0 < dims → g ≤ p.x ∧ p.x < g + N.x) ∧ (1 < dims → g ≤ p.y ∧ p.y < g + N.y) ∧ (2 < dims → g ≤ p.z ∧ p.z < g + N.z)

/-- Do `p` and `q` have the same position up to whole periods in the active directions (and agree in the others)? -/
def SamePeriodic (N : I3) (dims : Nat) (p q : I3) : Prop :=
  (if 0 < dims then p.x % N.x = q.x % N.x else p.x = q.x) ∧ (if 1 < dims then p.y % N.y = q.y % N.y else p.y = q.y) ∧
  (if 2 < dims then p.z % N.z = q.z % N.z else p.z = q.z)

/-- C07. For every ghost width (also wider than the interior), dimension, non-empty interior and content: applying the periodic
boundary condition never leaves the buffer; afterwards every cell (face, edge and corner ghost cells included) has the value that the
interior cell at the same position up to whole periods had before; interior cells are untouched. -/
theorem C07_periodic {α : Type} (n N : I3) (g dims : Nat) (hdims : 1 ≤ dims) (hdims' : dims ≤ 3)
    (hn : ∀ d < dims, n.get d = N.get d + 2 * g) (hN : ∀ d < dims, 1 ≤ N.get d)
    (areas : List (Arr I3 α)) (ha : ∀ a ∈ areas, a.inb = inSize n) :
    ∃ areas', Boundary.apply .periodic n g dims (fun _ => false) areas = .ok areas' ∧
      List.Forall₂ (fun a a' => a'.inb = a.inb ∧
        (∀ p, inSize n p = true → ∃ q, inSize n q = true ∧ Interior g N dims q ∧ SamePeriodic N dims p q ∧ a'.val p = a.val q) ∧
        (∀ p, inSize n p = true → Interior g N dims p → a'.val p = a.val p)) areas areas' := by
  obtain ⟨as', h1, h2⟩ := apply_ok (bc := .periodic) (n := n) (N := N) (g := g) (dims := dims) (mpi := fun _ => false) hdims' hn hN
    hdims (by simp) areas ha
  refine ⟨as', h1, ?_⟩
  have h2' := List.forall₂_iff_get.1 h2
  refine List.forall₂_iff_get.2 ⟨h2'.1, fun i hi hi' => ?_⟩
  obtain ⟨h3, h4⟩ := h2'.2 i hi hi'
  refine ⟨by rw [h3, ha _ (List.get_mem _ _)], ?_, ?_⟩
  · intro p hp
    have hpp := inSize_iff.1 hp
    have hx := fun h : 0 < dims => hn 0 h
    have hy := fun h : 1 < dims => hn 1 h
    have hz := fun h : 2 < dims => hn 2 h
    have nx := fun h : 0 < dims => hN 0 h
    have ny := fun h : 1 < dims => hN 1 h
    have nz := fun h : 2 < dims => hN 2 h
    simp only [I3.get, if_true, if_false, one_ne_zero, OfNat.ofNat_ne_zero, OfNat.ofNat_ne_one] at hx hy hz nx ny nz
    have im : ∀ M c : Int, 1 ≤ M → 0 ≤ c → c < M + 2 * g →
        (g ≤ imageDir .periodic g M false false c ∧ imageDir .periodic g M false false c < g + M) ∧
        c % M = imageDir .periodic g M false false c % M := by
      intro M c hM h0 h1
      have e : imageDir .periodic g M false false c = wrap g M c := by simp [imageDir, image]
      rw [e]
      constructor
      · simpa [image] using image_bounds (bc := .periodic) (g := g) (N := M) (c := c) hM (by simp) h0 h1
      · unfold wrap
        rw [Int.add_emod, Int.emod_emod_of_dvd _ (dvd_refl M), ← Int.add_emod]
        congr 1; ring
    refine ⟨_, ?_, ?_, ?_, h4 p hp⟩
    · simp only [inSize_iff, ghostSource]
      refine ⟨?_, ?_, ?_, ?_, ?_, ?_⟩ <;> split_ifs with h
      all_goals first
        | omega
        | (have := hx h; have := (im N.x p.x (nx h) (by omega) (by omega)).1; omega)
        | (have := hy h; have := (im N.y p.y (ny h) (by omega) (by omega)).1; omega)
        | (have := hz h; have := (im N.z p.z (nz h) (by omega) (by omega)).1; omega)
    · refine ⟨fun h => ?_, fun h => ?_, fun h => ?_⟩ <;> simp only [ghostSource, h, if_true]
      · have := hx h; exact (im N.x p.x (nx h) (by omega) (by omega)).1
      · have := hy h; exact (im N.y p.y (ny h) (by omega) (by omega)).1
      · have := hz h; exact (im N.z p.z (nz h) (by omega) (by omega)).1
    · refine ⟨?_, ?_, ?_⟩ <;> simp only [ghostSource] <;> split_ifs with h
      · have := hx h; exact (im N.x p.x (nx h) (by omega) (by omega)).2
      · rfl
      · have := hy h; exact (im N.y p.y (ny h) (by omega) (by omega)).2
      · rfl
      · have := hz h; exact (im N.z p.z (nz h) (by omega) (by omega)).2
      · rfl
  · intro p hp hint
    rw [h4 p hp]
    congr 1
    obtain ⟨hx, hy, hz⟩ := hint
    unfold ghostSource imageDir
    ext <;> simp only [Bool.false_eq_true, and_false, or_false, if_false]
    · split_ifs with h
      · exact image_interior (hx h).1 (hx h).2
      · rfl
    · split_ifs with h
      · exact image_interior (hy h).1 (hy h).2
      · rfl
    · split_ifs with h
      · exact image_interior (hz h).1 (hz h).2
      · rfl

example : ∃ areas', Boundary.apply .periodic ⟨6, 7, 1⟩ 2 2 (fun _ => false) [field ⟨6, 7, 1⟩ (fun p => p.x + 10 * p.y)] = .ok areas' :=
  (C07_periodic ⟨6, 7, 1⟩ ⟨2, 3, 1⟩ 2 2 (by decide) (by decide) (by decide) (by decide) _ (by simp [field])).imp fun _ h => h.1

/-- C07/C46: ghost cells on sides handled by message passing keep the value of the cell on the same line that is not wrapped in
that direction: in particular a ghost cell whose only ghost coordinates are on such sides is untouched. -/
theorem C07_message_passing_sides_untouched {α : Type} (bc : BC) (n N : I3) (g dims : Nat) (mpi : Nat → Bool) (hdims : 1 ≤ dims) (hdims' : dims ≤ 3)
    (hn : ∀ d < dims, n.get d = N.get d + 2 * g) (hN : ∀ d < dims, 1 ≤ N.get d) (hg : ∀ d < dims, (g : Int) ≤ N.get d)
    (areas : List (Arr I3 α)) (ha : ∀ a ∈ areas, a.inb = inSize n) :
    ∃ areas', Boundary.apply bc n g dims mpi areas = .ok areas' ∧
      List.Forall₂ (fun a a' => ∀ p, inSize n p = true →
        (∀ d < dims, (p.get d < g → mpi (2 * d) = true) ∧ (g + N.get d ≤ p.get d → mpi (2 * d + 1) = true)) →
        a'.val p = a.val p) areas areas' := by
  obtain ⟨as', h1, h2⟩ := apply_ok (bc := bc) (n := n) (N := N) (g := g) (dims := dims) (mpi := mpi) hdims' hn hN
    hdims (fun _ => hg) areas ha
  refine ⟨as', h1, h2.imp ?_⟩
  rintro a a' ⟨_, h4⟩ p hp hmpi
  rw [h4 p hp]
  congr 1
  have im : ∀ (M c : Int) (l u : Bool), (c < g → l = true) → (g + M ≤ c → u = true) → imageDir bc g M l u c = c := by
    intro M c l u hl hu
    unfold imageDir
    split_ifs with h
    · rfl
    · refine image_interior ?_ ?_
      · by_contra hc; exact h (Or.inl ⟨by omega, hl (by omega)⟩)
      · by_contra hc; exact h (Or.inr ⟨by omega, hu (by omega)⟩)
  unfold ghostSource
  ext <;> simp only <;> split_ifs with h
  · have := hmpi 0 h; exact im _ _ _ _ this.1 this.2
  · rfl
  · have := hmpi 1 h; exact im _ _ _ _ this.1 this.2
  · rfl
  · have := hmpi 2 h; exact im _ _ _ _ this.1 this.2
  · rfl

example : ∃ areas', Boundary.apply .neumann ⟨6, 7, 1⟩ 2 2 (fun s => s == 1) [field ⟨6, 7, 1⟩ (fun p => p.x + 10 * p.y)] = .ok areas' :=
  (C07_message_passing_sides_untouched .neumann ⟨6, 7, 1⟩ ⟨2, 3, 1⟩ 2 2 (fun s => s == 1) (by decide) (by decide) (by decide) (by decide) (by decide) _
    (by simp [field])).imp fun _ h => h.1

/-- `c'` is the mirror image of `c` at the edge of the interior `[g, g+N)`: the `k`-th cell outside corresponds to the `k`-th cell
inside, interior cells to themselves. -/
def MirrorOf (g N c c' : Int) : Prop :=
  (g ≤ c ∧ c < g + N ∧ c' = c) ∨ (∃ k, 1 ≤ k ∧ k ≤ g ∧ c = g - k ∧ c' = g + (k - 1)) ∨
  (∃ k, 1 ≤ k ∧ k ≤ g ∧ c = g + N - 1 + k ∧ c' = g + N - 1 - (k - 1))

/-- C08. For every grid size, dimension and ghost width not exceeding the interior size: applying the Neumann boundary condition
never leaves the buffer; afterwards each cell has the value of its mirror image in every active direction, interior cells are
untouched. -/
theorem C08_neumann {α : Type} (n N : I3) (g dims : Nat) (hdims : 1 ≤ dims) (hdims' : dims ≤ 3)
    (hn : ∀ d < dims, n.get d = N.get d + 2 * g) (hN : ∀ d < dims, 1 ≤ N.get d) (hg : ∀ d < dims, (g : Int) ≤ N.get d)
    (areas : List (Arr I3 α)) (ha : ∀ a ∈ areas, a.inb = inSize n) :
    ∃ areas', Boundary.apply .neumann n g dims (fun _ => false) areas = .ok areas' ∧
      List.Forall₂ (fun a a' => a'.inb = a.inb ∧
        (∀ p, inSize n p = true → ∃ q, inSize n q = true ∧ Interior g N dims q ∧
          (∀ d < 3, if d < dims then MirrorOf g (N.get d) (p.get d) (q.get d) else q.get d = p.get d) ∧ a'.val p = a.val q) ∧
        (∀ p, inSize n p = true → Interior g N dims p → a'.val p = a.val p)) areas areas' := by
  obtain ⟨as', h1, h2⟩ := apply_ok (bc := .neumann) (n := n) (N := N) (g := g) (dims := dims) (mpi := fun _ => false) hdims' hn hN
    hdims (fun _ => hg) areas ha
  refine ⟨as', h1, ?_⟩
  have h2' := List.forall₂_iff_get.1 h2
  refine List.forall₂_iff_get.2 ⟨h2'.1, fun i hi hi' => ?_⟩
  obtain ⟨h3, h4⟩ := h2'.2 i hi hi'
  refine ⟨by rw [h3, ha _ (List.get_mem _ _)], ?_, ?_⟩
  · intro p hp
    have hpp := inSize_iff.1 hp
    have hx := fun h : 0 < dims => And.intro (hn 0 h) (hg 0 h)
    have hy := fun h : 1 < dims => And.intro (hn 1 h) (hg 1 h)
    have hz := fun h : 2 < dims => And.intro (hn 2 h) (hg 2 h)
    have nx := fun h : 0 < dims => hN 0 h
    have ny := fun h : 1 < dims => hN 1 h
    have nz := fun h : 2 < dims => hN 2 h
    simp only [I3.get, if_true, if_false, one_ne_zero, OfNat.ofNat_ne_zero, OfNat.ofNat_ne_one] at hx hy hz nx ny nz
    have im : ∀ M c : Int, 1 ≤ M → g ≤ M → 0 ≤ c → c < M + 2 * g →
        (g ≤ imageDir .neumann g M false false c ∧ imageDir .neumann g M false false c < g + M) ∧
        MirrorOf g M c (imageDir .neumann g M false false c) := by
      intro M c hM hgM h0 h1
      have e : imageDir .neumann g M false false c = mirror g M c := by simp [imageDir, image]
      rw [e]
      constructor
      · simpa [image] using image_bounds (bc := .neumann) (g := g) (N := M) (c := c) hM (fun _ => hgM) h0 h1
      · unfold mirror MirrorOf
        split_ifs with ha hb
        · exact Or.inr (Or.inl ⟨g - c, by omega, by omega, by omega, by omega⟩)
        · exact Or.inr (Or.inr ⟨c - (g + M - 1), by omega, by omega, by omega, by omega⟩)
        · exact Or.inl ⟨by omega, by omega, rfl⟩
    refine ⟨_, ?_, ?_, ?_, h4 p hp⟩
    · simp only [inSize_iff, ghostSource]
      refine ⟨?_, ?_, ?_, ?_, ?_, ?_⟩ <;> split_ifs with h
      all_goals first
        | omega
        | (have := hx h; have := (im N.x p.x (nx h) (by omega) (by omega) (by omega)).1; omega)
        | (have := hy h; have := (im N.y p.y (ny h) (by omega) (by omega) (by omega)).1; omega)
        | (have := hz h; have := (im N.z p.z (nz h) (by omega) (by omega) (by omega)).1; omega)
    · refine ⟨fun h => ?_, fun h => ?_, fun h => ?_⟩ <;> simp only [ghostSource, h, if_true]
      · have := hx h; exact (im N.x p.x (nx h) (by omega) (by omega) (by omega)).1
      · have := hy h; exact (im N.y p.y (ny h) (by omega) (by omega) (by omega)).1
      · have := hz h; exact (im N.z p.z (nz h) (by omega) (by omega) (by omega)).1
    · intro d hd
      have : d = 0 ∨ d = 1 ∨ d = 2 := by omega
      rcases this with rfl | rfl | rfl <;> simp only [ghostSource, I3.get, if_true, if_false, one_ne_zero, OfNat.ofNat_ne_zero, OfNat.ofNat_ne_one] <;> split_ifs with h
      · have := hx h; exact (im N.x p.x (nx h) (by omega) (by omega) (by omega)).2
      · rfl
      · have := hy h; exact (im N.y p.y (ny h) (by omega) (by omega) (by omega)).2
      · rfl
      · have := hz h; exact (im N.z p.z (nz h) (by omega) (by omega) (by omega)).2
      · rfl
  · intro p hp hint
    rw [h4 p hp]
    congr 1
    obtain ⟨hx, hy, hz⟩ := hint
    unfold ghostSource imageDir
    ext <;> simp only [Bool.false_eq_true, and_false, or_false, if_false]
    · split_ifs with h
      · exact image_interior (hx h).1 (hx h).2
      · rfl
    · split_ifs with h
      · exact image_interior (hy h).1 (hy h).2
      · rfl
    · split_ifs with h
      · exact image_interior (hz h).1 (hz h).2
      · rfl

example : ∃ areas', Boundary.apply .neumann ⟨6, 7, 8⟩ 2 3 (fun _ => false) [field ⟨6, 7, 8⟩ (fun p => p.x + 10 * p.y)] = .ok areas' :=
  (C08_neumann ⟨6, 7, 8⟩ ⟨2, 3, 4⟩ 2 3 (by decide) (by decide) (by decide) (by decide) (by decide) _ (by simp [field])).imp fun _ h => h.1

/-- C08, outside its range: the guard of the code accepts one interior cell with two ghost cells on each side, but the outer left
ghost cell then receives the previous content of the right ghost layer instead of interior data. -/
theorem C08_wide_ghost_layer_takes_stale_value :
    ∃ a', Boundary.apply .neumann ⟨5, 1, 1⟩ 2 1 (fun _ => false) [field ⟨5, 1, 1⟩ (fun p => p.x)] = .ok [a'] ∧
      a'.val ⟨0, 0, 0⟩ = 3 ∧ ∀ p : I3, inSize ⟨5, 1, 1⟩ p = true → Interior 2 ⟨1, 1, 1⟩ 1 p → p.x = 2 := by
  refine ⟨_, rfl, by rfl, ?_⟩
  intro p _ h
  have := h.1 (by decide)
  simp at this; omega

/-- C09. With at least one cell in each direction, the periodic lookup terminates and reads the interior cell congruent to the
requested position; the Neumann lookup reads the interior cell nearest to it. `N` interior cells, `g` ghost cells per direction. -/
theorem C09_value_at_boundary {α : Type} (f : I3 → α) (pos N g : I3) (hN : 1 ≤ N.x ∧ 1 ≤ N.y ∧ 1 ≤ N.z)
    (hg : 0 ≤ g.x ∧ 0 ≤ g.y ∧ 0 ≤ g.z) :
    valuePeriodic (field (N + g + g) f) pos N g = .ok (f ⟨pos.x % N.x + g.x, pos.y % N.y + g.y, pos.z % N.z + g.z⟩) ∧
    (∃ q : I3, valueNeumann (field (N + g + g) f) pos N g = .ok (f (q + g)) ∧
      ∀ d < 3, 0 ≤ q.get d ∧ q.get d < N.get d ∧
        ∀ t, 0 ≤ t → t < N.get d → |pos.get d - q.get d| ≤ |pos.get d - t|) := by
  obtain ⟨nx, ny, nz⟩ := hN
  obtain ⟨gx, gy, gz⟩ := hg
  constructor
  · obtain ⟨qx, hx, px, ex⟩ := makePositive_ok pos.x N.x (by omega)
    obtain ⟨qy, hy, py, ey⟩ := makePositive_ok pos.y N.y (by omega)
    obtain ⟨qz, hz, pz, ez⟩ := makePositive_ok pos.z N.z (by omega)
    have mx : cmod qx N.x = .ok (pos.x % N.x) := by
      rw [cmod, if_neg (by omega), Int.tmod_eq_emod_of_nonneg px, ex]
    have my : cmod qy N.y = .ok (pos.y % N.y) := by
      rw [cmod, if_neg (by omega), Int.tmod_eq_emod_of_nonneg py, ey]
    have mz : cmod qz N.z = .ok (pos.z % N.z) := by
      rw [cmod, if_neg (by omega), Int.tmod_eq_emod_of_nonneg pz, ez]
    simp only [valuePeriodic, hx, hy, hz, mx, my, mz, Res.ok_bind]
    have a1 := Int.emod_nonneg pos.x (show N.x ≠ 0 by omega)
    have a2 := Int.emod_lt_of_pos pos.x (show 0 < N.x by omega)
    have b1 := Int.emod_nonneg pos.y (show N.y ≠ 0 by omega)
    have b2 := Int.emod_lt_of_pos pos.y (show 0 < N.y by omega)
    have c1 := Int.emod_nonneg pos.z (show N.z ≠ 0 by omega)
    have c2 := Int.emod_lt_of_pos pos.z (show 0 < N.z by omega)
    rw [Arr.rd_ok]
    · rfl
    · simp only [field, inSize_iff, I3.add_x, I3.add_y, I3.add_z]; omega
  · refine ⟨⟨max 0 (min pos.x (N.x - 1)), max 0 (min pos.y (N.y - 1)), max 0 (min pos.z (N.z - 1))⟩, ?_, ?_⟩
    · unfold valueNeumann
      rw [Arr.rd_ok]
      · rfl
      · simp only [field, inSize_iff, I3.add_x, I3.add_y, I3.add_z]; omega
    · intro d hd
      have cl : ∀ p M : Int, 1 ≤ M → 0 ≤ max 0 (min p (M - 1)) ∧ max 0 (min p (M - 1)) < M ∧
          ∀ t, 0 ≤ t → t < M → |p - max 0 (min p (M - 1))| ≤ |p - t| := by
        intro p M hM
        refine ⟨by omega, by omega, fun t h0 h1 => ?_⟩
        rcases abs_cases (p - max 0 (min p (M - 1))) with h | h <;> rcases abs_cases (p - t) with h' | h' <;> omega
      have : d = 0 ∨ d = 1 ∨ d = 2 := by omega
      rcases this with rfl | rfl | rfl
      · exact cl pos.x N.x nx
      · exact cl pos.y N.y ny
      · exact cl pos.z N.z nz

example : valuePeriodic (field (⟨4, 3, 1⟩ + ⟨2, 2, 0⟩ + ⟨2, 2, 0⟩) fun p => p) ⟨-5, 7, 0⟩ ⟨4, 3, 1⟩ ⟨2, 2, 0⟩ = .ok ⟨5, 3, 0⟩ :=
  (C09_value_at_boundary (fun p => p) ⟨-5, 7, 0⟩ ⟨4, 3, 1⟩ ⟨2, 2, 0⟩ (by decide) (by decide)).1
example : valueNeumann (field (⟨4, 3, 1⟩ + ⟨2, 2, 0⟩ + ⟨2, 2, 0⟩) fun p => p) ⟨-5, 7, 0⟩ ⟨4, 3, 1⟩ ⟨2, 2, 0⟩ = .ok ⟨2, 4, 0⟩ := by decide

end Verif.Props
