import Verif.IterateLemmas
import Mathlib.Tactic.NormNum
import Mathlib.Tactic.IntervalCases

/-! C62, C63: initial data and iteration over cells. -/

namespace Verif.Props
open Verif Iterate

/-! ### C63 -/

/-- The documented region of an iteration with start and end offsets: the cells at least `s` from the first and `e` from the last cell. -/
def Region (total s e c : I3) : Prop :=
  (s.x ≤ c.x ∧ c.x < total.x - e.x) ∧ (s.y ≤ c.y ∧ c.y < total.y - e.y) ∧ (s.z ≤ c.z ∧ c.z < total.z - e.z)

/-- What the iteration relies on: at least one cell in each direction, offsets that are nonnegative and not larger than the size, and a number of cells a `size_t` can hold. -/
structure Offsets (total s e : I3) : Prop where
  pos : 1 ≤ total.x ∧ 1 ≤ total.y ∧ 1 ≤ total.z
  start : 0 ≤ s.x ∧ 0 ≤ s.y ∧ 0 ≤ s.z
  stop : (0 ≤ e.x ∧ e.x ≤ total.x) ∧ (0 ≤ e.y ∧ e.y ≤ total.y) ∧ (0 ≤ e.z ∧ e.z ≤ total.z)
  startSmall : s.x < 2 ^ 64 ∧ s.y < 2 ^ 64 ∧ s.z < 2 ^ 64
  fits : total.x * total.y * total.z < 2 ^ 64

theorem offsets_box {total s e : I3} (h : Offsets total s e) : sizeBox s (total - e) = box s (total - e) := by
  have hp := le_prod h.pos
  have hf := h.fits
  have h1 := h.start; have h2 := h.stop; have h3 := h.startSmall
  refine sizeBox_eq ?_ ?_
  · refine ⟨⟨?_, ?_⟩, ⟨?_, ?_⟩, ?_, ?_⟩ <;> omega
  · refine ⟨⟨?_, ?_⟩, ⟨?_, ?_⟩, ?_, ?_⟩ <;> simp only [I3.sub_x, I3.sub_y, I3.sub_z] <;> omega

theorem region_mem {total s e c : I3} : c ∈ box s (total - e) ↔ Region total s e c := by
  simp only [mem_box, Region, I3.sub_x, I3.sub_y, I3.sub_z]

theorem region_block {total s e c : I3} (h : Offsets total s e) (hc : Region total s e c) : InBlock total c := by
  have h1 := h.start; have h2 := h.stop
  obtain ⟨c1, c2, c3⟩ := hc
  refine ⟨⟨?_, ?_⟩, ⟨?_, ?_⟩, ?_, ?_⟩ <;> omega

/-- C63, without neighbours. Each cell of the region is visited exactly once, and nothing else is visited. -/
theorem C63_each_cell_once (total s e : I3) (h : Offsets total s e) :
    (cellIndices total s e).Nodup ∧ ∀ i, i ∈ cellIndices total s e ↔ ∃ c, Region total s e c ∧ i = cellIndex total c := by
  rw [cellIndices, offsets_box h]
  have hidx : ∀ c ∈ box s (total - e), sizeIndex total c = cellIndex total c :=
    fun c hc => sizeIndex_eq h.fits (region_block h (region_mem.1 hc))
  refine ⟨?_, fun i => ?_⟩
  · refine (nodup_box _ _).map_on fun c hc c' hc' e' => ?_
    rw [hidx c hc, hidx c' hc'] at e'
    exact cellIndex_inj (region_block h (region_mem.1 hc)) (region_block h (region_mem.1 hc')) e'
  · rw [List.mem_map]
    constructor
    · rintro ⟨c, hc, rfl⟩; exact ⟨c, region_mem.1 hc, hidx c hc⟩
    · rintro ⟨c, hc, rfl⟩; exact ⟨c, region_mem.2 hc, hidx c (region_mem.2 hc)⟩

example : Offsets ⟨7, 5, 1⟩ ⟨2, 1, 0⟩ ⟨1, 3, 0⟩ := by constructor <;> norm_num

/-- C63, all interior cells. With ghost widths `ghosts`, each interior cell is visited exactly once. -/
theorem C63_internal_cells_once (total ghosts : I3) (h : Offsets total ghosts ghosts) :
    (internalIndices total ghosts).Nodup ∧ ∀ i, i ∈ internalIndices total ghosts ↔ ∃ c, Region total ghosts ghosts c ∧ i = cellIndex total c :=
  C63_each_cell_once total ghosts ghosts h

example : Offsets ⟨10, 8, 7⟩ ⟨3, 3, 3⟩ ⟨3, 3, 3⟩ := by constructor <;> norm_num

/-- The next cell in a direction. -/
def next (d : Nat) (c : I3) : I3 := c.set d (c.get d + 1)

/-- The previous cell in a direction. -/
def previous (d : Nat) (c : I3) : I3 := c.set d (c.get d - 1)

theorem next_eq (d : Nat) (c : I3) (hd : d < 3) : c + I3.dir d = next d c := by
  interval_cases d <;> ext <;> simp [next, I3.dir, I3.set, I3.get]

theorem previous_eq (d : Nat) (c : I3) (hd : d < 3) : c - I3.dir d = previous d c := by
  interval_cases d <;> ext <;> simp [previous, I3.dir, I3.set, I3.get]

theorem neighbours_eq {d : Nat} {total s e : I3} (hd : d < 3) (h : Offsets total s e) (hs : 1 ≤ s.get d) (he : 1 ≤ e.get d) :
    (sizeBox s (total - e)).map (fun c => (sizeIndex total (c - I3.dir d), sizeIndex total c, sizeIndex total (c + I3.dir d))) =
      (box s (total - e)).map fun c => (cellIndex total (previous d c), cellIndex total c, cellIndex total (next d c)) := by
  rw [offsets_box h]
  refine List.map_congr_left fun c hc => ?_
  have hb := region_block h (region_mem.1 hc)
  obtain ⟨c1, c2, c3⟩ := region_mem.1 hc
  have hst := h.start; have hsp := h.stop
  rw [next_eq d c hd, previous_eq d c hd, sizeIndex_eq h.fits hb, sizeIndex_eq h.fits, sizeIndex_eq h.fits] <;>
    (obtain ⟨⟨b1, b2⟩, ⟨b3, b4⟩, b5, b6⟩ := hb
     interval_cases d <;> simp [I3.get] at hs he <;> refine ⟨⟨?_, ?_⟩, ⟨?_, ?_⟩, ?_, ?_⟩ <;> simp [next, previous, I3.set, I3.get] <;> omega)

/-- C63, with neighbours, for offsets of at least one in the direction of the neighbours. Each cell of the region is visited exactly once, together with the indices of its true
neighbours. Without that hypothesis the statement is false (`C63_fails_without_margin`). -/
theorem C63_neighbours_partial (d : Nat) (total s e : I3) (hd : d < 3) (h : Offsets total s e) (hs : 1 ≤ s.get d) (he : 1 ≤ e.get d) :
    ((cellIndicesWithNeighbours d total s e).map fun t => t.2.1).Nodup ∧
      ∀ t, t ∈ cellIndicesWithNeighbours d total s e ↔
        ∃ c, Region total s e c ∧ t = (cellIndex total (previous d c), cellIndex total c, cellIndex total (next d c)) := by
  rw [cellIndicesWithNeighbours, neighbours_eq hd h hs he]
  refine ⟨?_, fun t => ?_⟩
  · rw [List.map_map]
    exact (nodup_box _ _).map_on fun c hc c' hc' e' => cellIndex_inj (region_block h (region_mem.1 hc)) (region_block h (region_mem.1 hc')) e'
  · rw [List.mem_map]
    constructor
    · rintro ⟨c, hc, rfl⟩; exact ⟨c, region_mem.1 hc, rfl⟩
    · rintro ⟨c, hc, rfl⟩; exact ⟨c, region_mem.2 hc, rfl⟩

example : Offsets ⟨7, 5, 1⟩ ⟨0, 1, 0⟩ ⟨0, 2, 0⟩ ∧ 1 ≤ (⟨0, 1, 0⟩ : I3).get 1 ∧ 1 ≤ (⟨0, 2, 0⟩ : I3).get 1 := by
  refine ⟨by constructor <;> norm_num, by decide, by decide⟩

/-- C63 fails without a margin: the offsets are zero by default, and then the index passed as the left neighbour of the first cell is not the index of any cell. -/
theorem C63_fails_without_margin :
    (2 ^ 64 - 1, 0, 1) ∈ cellIndicesWithNeighbours 0 ⟨2, 2, 1⟩ 0 0 ∧ ¬ ∃ c, InBlock ⟨2, 2, 1⟩ c ∧ cellIndex ⟨2, 2, 1⟩ c = 2 ^ 64 - 1 := by
  constructor
  · decide
  · rintro ⟨c, hc, e⟩
    have := cellIndex_lt hc
    rw [e] at this
    norm_num at this

/-- C63, iteration in one direction with a given ghost layer: each cell that is internal in the direction is visited exactly once, with its true neighbours. -/
theorem C63_internal_direction_partial (d : Nat) (total : I3) (layer' : Int) (hd : d < 3) (hl : 1 ≤ layer') (hlt : layer' ≤ total.get d) (hpos : 1 ≤ total.x ∧ 1 ≤ total.y ∧ 1 ≤ total.z)
    (hfits : total.x * total.y * total.z < 2 ^ 64) :
    ∃ l, internalIndicesDir d layer' total = .ok l ∧ (l.map fun t => t.2.1).Nodup ∧
      ∀ t, t ∈ l ↔ ∃ c, (InBlock total c ∧ layer' ≤ c.get d ∧ c.get d < total.get d - layer') ∧
        t = (cellIndex total (previous d c), cellIndex total c, cellIndex total (next d c)) := by
  have hp := le_prod hpos
  have h : Offsets total (layer d layer') (layer d layer') := by
    interval_cases d <;> simp [I3.get] at hlt <;> refine ⟨hpos, ?_, ?_, ?_, hfits⟩ <;> simp [layer, I3.set] <;> omega
  have hm : 1 ≤ (layer d layer').get d := by interval_cases d <;> simpa [layer, I3.set, I3.get] using hl
  obtain ⟨h1, h2⟩ := C63_neighbours_partial d total _ _ hd h hm hm
  refine ⟨_, by rw [internalIndicesDir, if_neg (by omega)]; rfl, h1, fun t => (h2 t).trans ?_⟩
  refine exists_congr fun c => and_congr_left fun _ => ?_
  simp only [Region, InBlock]
  interval_cases d <;> simp [layer, I3.set, I3.get] <;> omega

example : (1 : Int) ≤ 2 ∧ (2 : Int) ≤ (⟨9, 6, 1⟩ : I3).get 1 ∧ (9 * 6 * 1 : Int) < 2 ^ 64 := by decide

/-- C63 fails for the default ghost layer, which is that of the x direction: in a volume of 7 cells with two ghost cells in x and none in y, iterating in the direction y visits an
index outside the volume. -/
theorem C63_default_layer_fails :
    ∃ l, internalIndicesDefault 1 ⟨7, 1, 1⟩ ⟨2, 0, 0⟩ = .ok l ∧ ∃ t ∈ l, ¬ ∃ c, InBlock ⟨7, 1, 1⟩ c ∧ cellIndex ⟨7, 1, 1⟩ c = t.2.1 := by
  refine ⟨_, by rw [internalIndicesDefault, internalIndicesDir, if_neg (by omega)], (7, 14, 21), ?_, ?_⟩
  · rw [List.mem_map]
    refine ⟨⟨0, 2, 0⟩, ?_, by decide⟩
    simp only [sizeBox, List.mem_flatMap, List.mem_map, sizeRange, mem_irange]
    exact ⟨0, by decide, 2, by decide, 0, by decide, rfl⟩
  · rintro ⟨c, hc, e⟩
    have := cellIndex_lt hc
    rw [e] at this
    norm_num at this

/-! ### C62 -/

/-- The midpoint of cell number `i` of `n` equal cells between `a` and `b`. -/
def cellCenter {K : Type} [Field K] (a b : K) (n i : Int) : K := a + (i + 1 / 2) * ((b - a) / n)

/-- The point at which initial data is evaluated: the midpoint of the cell in the x direction and in every other direction with more than one cell. In a direction with one cell, cells
have unit length by convention. -/
def evaluationPoint {K : Type} [Field K] (origin top : V3 K) (n c : I3) : V3 K :=
  ⟨cellCenter origin.x top.x n.x c.x, if n.y = 1 then origin.y + 1 / 2 else cellCenter origin.y top.y n.y c.y,
    if n.z = 1 then origin.z + 1 / 2 else cellCenter origin.z top.z n.z c.z⟩

theorem midpoint_eq {K : Type} [Field K] (origin top : V3 K) (n pos size c : I3) (hc : InBlock n c) :
    (Grid.make origin top n pos size).midpoint c = evaluationPoint origin top n c := by
  obtain ⟨-, ⟨y0, y1⟩, z0, z1⟩ := hc
  ext <;> simp only [Grid.midpoint, Grid.make, Grid.computeCellLengths, evaluationPoint, cellCenter]
  · ring
  · split_ifs with h
    · rw [show c.y = 0 by omega]; simp
    · ring
  · split_ifs with h
    · rw [show c.z = 0 by omega]; simp
    · ring

/-- C62. The function is called for each interior cell exactly once, with the midpoint of that cell, its place in memory and its position among the interior cells: the calls made are
those of a list in which every interior cell occurs once. -/
theorem C62_called_once_per_cell {K σ : Type} [Field K] (origin top : V3 K) (n ghosts total pos size : I3) (h : Sizes total n ghosts) (hint : n.x * n.y * n.z < 2 ^ 31)
    (f : σ → V3 K → Nat → I3 → Res σ) (s : σ) :
    ∃ cells : List I3, cells.Nodup ∧ (∀ c, c ∈ cells ↔ InBlock n c) ∧
      forEachMidpoint total ghosts (Grid.make origin top n pos size) f s =
        cells.foldlM (fun s c => f s (evaluationPoint origin top n c) (cellIndex total (c + ghosts)) c) s := by
  have hmem : ∀ c, c ∈ box 0 n ↔ InBlock n c := fun c => by simp only [mem_box, InBlock, I3.zero_x, I3.zero_y, I3.zero_z]
  refine ⟨box 0 n, nodup_box _ _, hmem, ?_⟩
  rw [forEachMidpoint_eq (Grid.make origin top n pos size) h hint]
  have key : ∀ l : List I3, (∀ c ∈ l, InBlock n c) → ∀ s,
      l.foldlM (fun s c => f s ((Grid.make origin top n pos size).midpoint c) (cellIndex total (c + ghosts)) c) s =
        l.foldlM (fun s c => f s (evaluationPoint origin top n c) (cellIndex total (c + ghosts)) c) s := by
    intro l
    induction l with
    | nil => intro _ s; rfl
    | cons c l ih =>
      intro hl s
      rw [List.foldlM_cons, List.foldlM_cons, midpoint_eq _ _ _ _ _ _ (hl c (by simp))]
      congr 1
      funext s'
      exact ih (fun c hc => hl c (by simp [hc])) s'
  exact key _ (fun c hc => (hmem c).1 hc) s

example : Sizes ⟨8, 10, 1⟩ ⟨4, 6, 1⟩ ⟨2, 2, 0⟩ ∧ (4 * 6 * 1 : Int) < 2 ^ 31 := ⟨⟨by decide, by decide, by decide, by decide⟩, by decide⟩

/-- The variables hold the initial data: a memory area holds value number `v` of the user's function at every interior cell, and its other elements are those of `before`. -/
def HoldsInitialData {K : Type} (total n ghosts : I3) (point : I3 → V3 K) (user : V3 K → I3 → List K) (before after : List (Arr Nat K)) : Prop :=
  after.length = before.length ∧ ∀ (v : Nat) (a b : Arr Nat K), before[v]? = some b → after[v]? = some a →
    a.inb = b.inb ∧ (∀ c, InBlock n c → (user (point c) c)[v]? = some (a.val (cellIndex total (c + ghosts)))) ∧
      ∀ i, (∀ c, InBlock n c → i ≠ cellIndex total (c + ghosts)) → a.val i = b.val i

/-- C62, the result: after filling, each variable holds the value of the user's function at the midpoint of each interior cell, and its ghost cells are unchanged. -/
theorem C62_initial_data {K : Type} [Field K] (origin top : V3 K) (n ghosts total pos size : I3) (h : Sizes total n ghosts) (hint : n.x * n.y * n.z < 2 ^ 31) (user : V3 K → I3 → List K)
    (areas : List (Arr Nat K)) (huser : ∀ m c, (user m c).length = areas.length) (hareas : ∀ a ∈ areas, ∀ i : Nat, a.inb i = true ↔ (i : Int) < total.x * total.y * total.z) :
    ∃ out, fillVolume total ghosts (Grid.make origin top n pos size) user areas = .ok out ∧
      HoldsInitialData total n ghosts (evaluationPoint origin top n) user areas out := by
  obtain ⟨cells, hnd, hmem, heq⟩ := C62_called_once_per_cell origin top n ghosts total pos size h hint
    (fun (areas : List (Arr Nat K)) m index p => if (user m p).length = areas.length then (areas.zip (user m p)).mapM fun av => av.1.wr index av.2 else .error .thrown) areas
  rw [fillVolume, heq]
  have key := fill_loop (fun c => cellIndex total (c + ghosts)) (fun c => user (evaluationPoint origin top n c) c) areas cells hnd
    (fun c hc c' hc' e => by
      have e2 := congrArg (· - ghosts) (cellIndex_inj (h.block ((hmem c).1 hc)) (h.block ((hmem c').1 hc')) e)
      simpa [I3.ext_iff] using e2)
    (fun c _ => huser _ _) (fun a ha c hc => (hareas a ha _).2 (cellIndex_lt (h.block ((hmem c).1 hc))))
  obtain ⟨out, k1, k2, k3⟩ := key
  exact ⟨out, k1, k2, fun v a b hb ha => by
    obtain ⟨q1, q2, q3⟩ := k3 v a b hb ha
    exact ⟨q1, fun c hc => q2 c ((hmem c).2 hc), fun i hi => q3 i fun c hc => hi c ((hmem c).1 hc)⟩⟩

example : ∃ areas : List (Arr Nat ℚ), areas.length = 2 ∧ ∀ a ∈ areas, ∀ i : Nat, a.inb i = true ↔ (i : Int) < 8 * 10 * 1 :=
  ⟨[flat 80 fun _ => 0, flat 80 fun _ => 1], rfl, by simp [flat]⟩

/-- C62, scripts: element `(i, j, k)` of the array handed to a script is the interior cell `(i, j, k)` in memory. -/
theorem C62_script_array (n ghosts total : I3) (h : Sizes total n ghosts) (c : I3) (hc : InBlock n c) : pythonOffset total ghosts c = cellIndex total (c + ghosts) := by
  have hb := h.block hc
  rw [cellIndex_cast ⟨by have := hb.1; omega, by have := hb.2.1; omega⟩ ⟨hb.1.1, hb.2.1.1, hb.2.2.1⟩]
  simp only [pythonOffset, I3.add_x, I3.add_y, I3.add_z]
  ring

/-- C62, scripts: different elements of the array are different elements of the memory area, all within it, and together they are exactly the interior cells. -/
theorem C62_script_array_exact (n ghosts total : I3) (h : Sizes total n ghosts) :
    (∀ c, InBlock n c → 0 ≤ pythonOffset total ghosts c ∧ pythonOffset total ghosts c < total.x * total.y * total.z) ∧
      (∀ c c', InBlock n c → InBlock n c' → pythonOffset total ghosts c = pythonOffset total ghosts c' → c = c') ∧
      ∀ cell, Region total ghosts ghosts cell ↔ InBlock total cell ∧ ∃ c, InBlock n c ∧ pythonOffset total ghosts c = cellIndex total cell := by
  have shift : ∀ c c' : I3, c + ghosts = c' + ghosts → c = c' := fun c c' e => by
    have := congrArg (· - ghosts) e
    simpa [I3.ext_iff] using this
  have hgt : total.x = n.x + ghosts.x + ghosts.x ∧ total.y = n.y + ghosts.y + ghosts.y ∧ total.z = n.z + ghosts.z + ghosts.z := by rw [h.total_eq]; simp
  have hg := h.ghosts_nonneg
  refine ⟨fun c hc => ?_, fun c c' hc hc' e => ?_, fun cell => ⟨fun hr => ?_, ?_⟩⟩
  · rw [C62_script_array n ghosts total h c hc]
    exact ⟨by omega, cellIndex_lt (h.block hc)⟩
  · rw [C62_script_array n ghosts total h c hc, C62_script_array n ghosts total h c' hc'] at e
    exact shift _ _ (cellIndex_inj (h.block hc) (h.block hc') (by exact_mod_cast e))
  · obtain ⟨r1, r2, r3⟩ := hr
    have hc : InBlock n (cell - ghosts) := by
      refine ⟨⟨?_, ?_⟩, ⟨?_, ?_⟩, ?_, ?_⟩ <;> simp only [I3.sub_x, I3.sub_y, I3.sub_z] <;> omega
    have e : cell - ghosts + ghosts = cell := by ext <;> simp
    have hb := h.block hc
    rw [e] at hb
    exact ⟨hb, cell - ghosts, hc, by rw [C62_script_array n ghosts total h _ hc, e]⟩
  · rintro ⟨hb, c, hc, e⟩
    rw [C62_script_array n ghosts total h c hc] at e
    rw [← cellIndex_inj (h.block hc) hb (by exact_mod_cast e)]
    obtain ⟨c1, c2, c3⟩ := hc
    refine ⟨⟨?_, ?_⟩, ⟨?_, ?_⟩, ?_, ?_⟩ <;> simp only [I3.add_x, I3.add_y, I3.add_z] <;> omega

example : Sizes ⟨9, 7, 7⟩ ⟨3, 1, 1⟩ ⟨3, 3, 3⟩ := ⟨by decide, by decide, by decide, by decide⟩

example : pythonOffset ⟨8, 10, 1⟩ ⟨2, 2, 0⟩ ⟨3, 1, 0⟩ = cellIndex ⟨8, 10, 1⟩ ⟨5, 3, 0⟩ :=
  C62_script_array ⟨4, 6, 1⟩ ⟨2, 2, 0⟩ ⟨8, 10, 1⟩ ⟨by decide, by decide, by decide, by decide⟩ ⟨3, 1, 0⟩ (by unfold InBlock; decide)

end Verif.Props
