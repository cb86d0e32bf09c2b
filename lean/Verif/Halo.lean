import Verif.Cartesian
import Verif.IterateLemmas

/-!
Model of the halo exchange: alsfvm/include/alsfvm/mpi/cartesian/{displacements,lengths,number_of_segments}.hpp and
alsfvm/src/mpi/CartesianCellExchanger.cpp. Overflow of `int` is not modelled, and the sizes of the volumes are assumed to be non-negative
(a negative number of segments makes the constructor of `std::vector` throw).
-/

namespace Verif.Halo

/-- `computeNumberOfSegments` (alsfvm/include/alsfvm/mpi/cartesian/number_of_segments.hpp:39-64). -/
def numberOfSegments (side dims : Nat) (n : I3) : Int :=
  if side < 2 then
    if dims = 1 then 1
    else if dims = 2 then n.y
    else n.y * n.z
  else if side < 4 then
    if dims = 2 then 1
    else n.z
  else 1

/-- The value round `i` of the loop in `computeDisplacements` gives to `displacements[i]`
(alsfvm/include/alsfvm/mpi/cartesian/displacements.hpp:61-145); `prev` is `displacements[i - 1]`, only used for `i > 0`. -/
def displacementAt (side dims : Nat) (n : I3) (g base : Int) (i : Nat) (prev : Int) : Int :=
  if dims = 1 then side * (n.x - g) + base
  else if dims = 2 then
    if side < 2 then
      let d := if side > 0 ∨ i > 0 then n.x else 0
      let d := if i = 0 ∧ side = 1 then d - g else d
      let d := if i = 0 then d + base else d
      if i > 0 then d + prev else d
    else
      let d := base * n.x
      if side > 2 then d + (n.x * n.y - n.x * g) else d
  else if side < 2 then
    let d := if i = 0 then base else 0
    let d := if side > 0 ∨ i > 0 then d + n.x else d
    let d := if i = 0 ∧ side = 1 then d - g else d
    if i > 0 then d + prev else d
  else if side < 4 then
    let d := if i = 0 then base * n.x else 0
    let d := if side > 2 ∨ i > 0 then d + n.x * n.y else d
    let d := if i = 0 ∧ side = 3 then d - g * n.x else d
    if i > 0 then d + prev else d
  else
    let d := n.x * n.y * base
    if side = 5 then d + (n.x * n.y * n.z - n.x * n.y * g) else d

/-- `computeDisplacements` (displacements.hpp:46-149). The last element of the list built so far is `displacements[i - 1]`. -/
def displacements (side dims : Nat) (n : I3) (g baseOffset : Int) : List Int :=
  let base := if side % 2 = 1 then baseOffset * -1 else baseOffset
  (List.range (numberOfSegments side dims n).toNat).foldl (fun ds i => ds ++ [displacementAt side dims n g base i (ds.getLastD 0)]) []

/-- `computeLengths` (alsfvm/include/alsfvm/mpi/cartesian/lengths.hpp:43-81). -/
def lengths (side dims : Nat) (n : I3) (g : Int) : List Int :=
  (List.range (numberOfSegments side dims n).toNat).map fun _ =>
    if dims = 1 then g
    else if dims = 2 then if side < 2 then g else g * n.x
    else if side < 2 then g
    else if side < 4 then g * n.x
    else g * n.x * n.y

/-- The positions in the buffer, in order, that a datatype made by `MPI_Type_indexed` with these block lengths and displacements stands for
(alsfvm/src/mpi/MpiIndexType.cpp:22-31, MPI standard). -/
def typemap (lens disps : List Int) : List Int := (lens.zip disps).flatMap fun ld => irange ld.2 (ld.2 + ld.1)

/-- `createDataTypeSend` (alsfvm/src/mpi/CartesianCellExchanger.cpp:106-130) for a volume of size `n` with ghost cells `G`. -/
def sendMap (dims : Nat) (n G : I3) (side : Nat) : List Int :=
  typemap (lengths side dims n (G.get (side / 2))) (displacements side dims n (G.get (side / 2)) (G.get (side / 2)))

/-- `createDataTypeReceive` (CartesianCellExchanger.cpp:132-155). -/
def recvMap (dims : Nat) (n G : I3) (side : Nat) : List Int :=
  typemap (lengths side dims n (G.get (side / 2))) (displacements side dims n (G.get (side / 2)) 0)

/-- Ghost cells per direction of a volume with `m` interior cells (constructor of `Volume`, alsfvm/src/volume/Volume.cpp:44-60). -/
def ghostsOf (m : I3) (g : Nat) : I3 := ⟨g, if m.y > 1 then g else 0, if m.z > 1 then g else 0⟩

/-- `getSize` (Volume.cpp:87-90): size including the ghost cells. -/
def totalOf (m : I3) (g : Nat) : I3 :=
  ⟨m.x + 2 * (ghostsOf m g).x, m.y + 2 * (ghostsOf m g).y, m.z + 2 * (ghostsOf m g).z⟩

/-- `getDimensions` (Volume.cpp:279-287). -/
def dimensionsOf (m : I3) : Nat := if m.y = 1 then 1 else if m.z = 1 then 2 else 3

/-- The lambda `opposite_side` (CartesianCellExchanger.cpp:66-71). -/
def oppositeSide (s : Nat) : Nat := (s % 2 + 1) % 2 + s / 2 * 2

/-- A posted message: `MPI_Isend` or `MPI_Irecv` (alsfvm/include/alsfvm/mpi/Request.hpp:64-90), other rank, tag, variable, and the buffer
positions of the datatype. -/
structure Post where
  isSend : Bool
  peer : Int
  tag : Nat
  var : Nat
  map : List Int
  deriving DecidableEq, Repr

/-- The messages one round of the loops in `exchangeCells` posts (CartesianCellExchanger.cpp:74-95). -/
def postsAt (dims : Nat) (n G : I3) (neighbour : Nat → Int) (side var : Nat) : List Post :=
  (if neighbour side > -1 then [⟨true, neighbour side, side + var * 6, var, sendMap dims n G side⟩] else []) ++
  (if neighbour (oppositeSide side) > -1 then
    [⟨false, neighbour (oppositeSide side), side + var * 6, var, recvMap dims n G (oppositeSide side)⟩] else [])

/-- `exchangeCells` (CartesianCellExchanger.cpp:51-104): all messages posted by one rank, in order. The datatypes are made at the first call and kept
(lines 54-56); all volumes given to one exchanger have the same size. -/
def posts (dims nvars : Nat) (n G : I3) (neighbour : Nat → Int) : List Post :=
  (List.range (2 * dims)).flatMap fun side => (List.range nvars).flatMap fun var => postsAt dims n G neighbour side var

/-- All messages posted by the rank that got the part `A` of the grid, for volumes with ghost width `g`. -/
def partPosts {K : Type} (nvars g : Nat) (A : Cartesian.Part K) : List Post :=
  posts (dimensionsOf A.grid.dims) nvars (totalOf A.grid.dims g) (ghostsOf A.grid.dims g) A.neighbour

/-- A place in the memory of some rank: rank, variable, position in the buffer. -/
abbrev Loc := Int × Nat × Int

/-- Message passing: the receive `r` posted by rank `b` takes the message sent by rank `r.peer` to `b` with the same tag, element by element. -/
def deliver (posted : Int → List Post) (b : Int) (r : Post) : List (Loc × Loc) :=
  if r.isSend then []
  else ((posted r.peer).filter fun s => s.isSend && decide (s.peer = b) && decide (s.tag = r.tag)).flatMap fun s =>
    (s.map.zip r.map).map fun ij => ((r.peer, s.var, ij.1), (b, r.var, ij.2))

/-- All element copies of one exchange between the ranks `0, …, size - 1`: source and destination. -/
def transfers (posted : Int → List Post) (size : Int) : List (Loc × Loc) :=
  (irange 0 size).flatMap fun b => (posted b).flatMap fun r => deliver posted b r

/-- Number of cells of each part (CartesianDecomposition.cpp:64). -/
def localSize (D p : I3) : I3 := ⟨D.x / p.x, D.y / p.y, D.z / p.z⟩

/-- All element copies of one exchange between the parts of a grid distributed on the process grid `p`. -/
def allTransfers {K : Type} (p : I3) (part : Int → Cartesian.Part K) (nvars g : Nat) : List (Loc × Loc) :=
  transfers (fun r => if 0 ≤ r ∧ r < p.x * p.y * p.z then partPosts nvars g (part r) else []) (p.x * p.y * p.z)

/-- What may happen during the exchange: element `k` is read from the buffer of the sender, or written to the buffer of the receiver. -/
inductive Event where
  | read (k : Nat)
  | write (k : Nat)
  deriving DecidableEq, Repr

/-- Memory of all ranks together with the elements in transit. -/
structure Net (α : Type) where
  mem : Loc → α
  transit : Nat → α

/-- Effect of an event. -/
def perform {α : Type} (T : List (Loc × Loc)) (s : Net α) (e : Event) : Net α :=
  match e with
  | .read k => match T[k]? with
    | some t => { s with transit := Function.update s.transit k (s.mem t.1) }
    | none => s
  | .write k => match T[k]? with
    | some t => { s with mem := Function.update s.mem t.2 (s.transit k) }
    | none => s

/-- The memory after a sequence of events. -/
def after {α : Type} (T : List (Loc × Loc)) (mem : Loc → α) (transit : Nat → α) (evs : List Event) : Loc → α :=
  (evs.foldl (perform T) ⟨mem, transit⟩).mem

/-- A possible order of events: an element is only written once it has been read, and at the end (after `waitForAll`,
alsfvm/src/mpi/RequestContainer.cpp:25-29, on all ranks) every element has been written. -/
def Complete (T : List (Loc × Loc)) (evs : List Event) : Prop :=
  (∀ pre k post, evs = pre ++ .write k :: post → .read k ∈ pre) ∧ ∀ k < T.length, .write k ∈ evs

/-! ### Lemmas -/

/-- Position of a cell in the buffer. -/
def flatI (n c : I3) : Int := c.z * n.x * n.y + c.y * n.x + c.x

theorem irange_append {a b c : Int} (h1 : a ≤ b) (h2 : b ≤ c) : irange a c = irange a b ++ irange b c := by
  unfold irange
  have e : (c - a).toNat = (b - a).toNat + (c - b).toNat := by omega
  rw [e, List.range_add, List.map_append, List.map_map]
  congr 1
  apply List.map_congr_left
  intro i _
  simp only [Function.comp]
  push_cast
  omega

theorem irange_empty {a b : Int} (h : b ≤ a) : irange a b = [] := by
  unfold irange; rw [show (b - a).toNat = 0 by omega]; rfl

theorem irange_one (a : Int) : irange a (a + 1) = [a] := by
  unfold irange; rw [show (a + 1 - a).toNat = 1 by omega]; simp [List.range_succ]

theorem irange_map_add (a b t : Int) : (irange a b).map (· + t) = irange (a + t) (b + t) := by
  unfold irange
  rw [show b + t - (a + t) = b - a by ring, List.map_map]
  apply List.map_congr_left
  intro i _
  simp only [Function.comp]; omega

/-- A contiguous range cut into `k` blocks of length `m`. -/
theorem irange_blocks (a m : Int) (hm : 0 ≤ m) (k : Nat) :
    irange (a * m) ((a + k) * m) = (irange a (a + k)).flatMap fun y => irange (y * m) (y * m + m) := by
  induction k with
  | zero => simp [irange_empty]
  | succ k ih =>
    have h1 : a * m ≤ (a + k) * m := by nlinarith [Int.natCast_nonneg k]
    have h2 : (a + k) * m ≤ (a + (k + 1 : Nat)) * m := by push_cast; nlinarith
    rw [irange_append h1 h2, ih, irange_append (show a ≤ a + (k : Int) by omega) (show a + (k : Int) ≤ a + (k + 1 : Nat) by omega), List.flatMap_append]
    congr 1
    have e : a + ((k + 1 : Nat) : Int) = a + k + 1 := by push_cast; ring
    rw [e, irange_one]
    simp only [List.flatMap_cons, List.flatMap_nil, List.append_nil]
    congr 1
    ring

theorem irange_blocks' {a b m : Int} (hm : 0 ≤ m) (hab : a ≤ b) :
    irange (a * m) (b * m) = (irange a b).flatMap fun y => irange (y * m) (y * m + m) := by
  have := irange_blocks a m hm (b - a).toNat
  rwa [show a + ((b - a).toNat : Int) = b by omega] at this

theorem range_toNat (m : Int) : (List.range m.toNat).map (fun i : Nat => (i : Int)) = irange 0 m := by
  simp [irange]

/-- The loop of `computeDisplacements` for a first value and a constant increment. -/
theorem displacements_loop (f : Nat → Int → Int) (d0 inc : Int) (hf : ∀ i prev, f i prev = if i = 0 then d0 else inc + prev) (m : Nat) :
    (List.range m).foldl (fun ds i => ds ++ [f i (ds.getLastD 0)]) [] = (List.range m).map fun (i : Nat) => d0 + i * inc := by
  induction m with
  | zero => rfl
  | succ m ih =>
    rw [List.range_succ, List.foldl_append, ih, List.map_append]
    simp only [List.foldl_cons, List.foldl_nil, List.map_cons, List.map_nil, hf]
    congr 2
    rcases Nat.eq_zero_or_pos m with rfl | hm
    · simp
    · rw [if_neg (by omega)]
      obtain ⟨k, rfl⟩ : ∃ k, m = k + 1 := ⟨m - 1, by omega⟩
      rw [List.range_succ, List.map_append]
      simp
      ring

theorem typemap_regular (m : Int) (len d0 inc : Int) :
    typemap ((List.range m.toNat).map fun _ => len) ((List.range m.toNat).map fun (i : Nat) => d0 + i * inc) =
      (irange 0 m).flatMap fun i => irange (d0 + i * inc) (d0 + i * inc + len) := by
  rw [← range_toNat, typemap, List.zip_map', List.flatMap_map, List.flatMap_map]

/-- Lower corner of the slab of `g` cells at a side that begins `base` cells inside. -/
def slabLo (n : I3) (g base : Int) (side : Nat) : I3 :=
  I3.set 0 (side / 2) (if side % 2 = 0 then base else n.get (side / 2) - g - base)

/-- Upper corner of this slab. -/
def slabHi (n : I3) (g base : Int) (side : Nat) : I3 :=
  n.set (side / 2) (if side % 2 = 0 then base + g else n.get (side / 2) - base)

/-- The datatypes stand for the cells of the slab, in the order of the memory. -/
theorem typemap_slab {side dims : Nat} {n : I3} {g base : Int} (hd : 1 ≤ dims) (hd3 : dims ≤ 3) (hs : side < 2 * dims)
    (hn : 0 ≤ n.x ∧ 0 ≤ n.y ∧ 0 ≤ n.z) (hflat : ∀ d, dims ≤ d → d < 3 → n.get d = 1) (hg : 0 ≤ g) :
    typemap (lengths side dims n g) (displacements side dims n g base) = (box (slabLo n g base side) (slabHi n g base side)).map (flatI n) := by
  obtain ⟨hx, hy, hz⟩ := hn
  have hb : ∀ lo hi : I3, (box lo hi).map (flatI n) = (irange lo.z hi.z).flatMap fun z => (irange lo.y hi.y).flatMap fun y =>
      irange (z * n.x * n.y + y * n.x + lo.x) (z * n.x * n.y + y * n.x + hi.x) := by
    intro lo hi
    simp only [box, List.map_flatMap, List.map_map]
    congr 1; funext z; congr 1; funext y
    rw [add_comm _ lo.x, add_comm _ hi.x, ← irange_map_add]
    apply List.map_congr_left
    intro x _
    simp only [Function.comp, flatI]; ring
  -- splitting the segments of the x sides in three dimensions
  have hsplit : irange 0 (n.y * n.z) = (irange 0 n.z).flatMap fun z => (irange 0 n.y).map fun y => z * n.y + y := by
    have := irange_blocks' (a := 0) (b := n.z) (m := n.y) hy hz
    rw [zero_mul, mul_comm n.z] at this
    rw [this]
    congr 1; funext z
    have e := irange_map_add 0 n.y (z * n.y)
    rw [zero_add, add_comm n.y] at e
    rw [← e]
    apply List.map_congr_left; intro y _; ring
  have hcase : (dims = 1 ∧ (side = 0 ∨ side = 1)) ∨ (dims = 2 ∧ (side = 0 ∨ side = 1 ∨ side = 2 ∨ side = 3)) ∨
      (dims = 3 ∧ (side = 0 ∨ side = 1 ∨ side = 2 ∨ side = 3 ∨ side = 4 ∨ side = 5)) := by omega
  -- common form: what has to be shown once displacement and length are known
  have main : ∀ (m len d0 inc : Int), numberOfSegments side dims n = m →
      (∀ i prev, displacementAt side dims n g (if side % 2 = 1 then base * -1 else base) i prev = if i = 0 then d0 else inc + prev) ∨
        (m = 1 ∧ ∀ prev, displacementAt side dims n g (if side % 2 = 1 then base * -1 else base) 0 prev = d0) →
      lengths side dims n g = (List.range m.toNat).map (fun _ => len) →
      ((irange 0 m).flatMap fun i => irange (d0 + i * inc) (d0 + i * inc + len)) = (box (slabLo n g base side) (slabHi n g base side)).map (flatI n) →
      typemap (lengths side dims n g) (displacements side dims n g base) = (box (slabLo n g base side) (slabHi n g base side)).map (flatI n) := by
    intro m len d0 inc hm hdis hlen hgoal
    rw [hlen, ← hgoal, ← typemap_regular]
    congr 1
    rw [displacements, hm]
    rcases hdis with hdis | ⟨h1, hdis⟩
    · exact displacements_loop _ d0 inc hdis _
    · subst h1; simp only [Int.toNat_one, List.range_one, List.foldl_cons, List.foldl_nil, hdis]; simp
  rcases hcase with ⟨rfl, h⟩ | ⟨rfl, h⟩ | ⟨rfl, h⟩
  · have h1 : n.y = 1 := by have := hflat 1; simpa [I3.get] using this
    have h2 : n.z = 1 := by have := hflat 2; simpa [I3.get] using this
    rcases h with rfl | rfl
    · refine main 1 g base 0 rfl (Or.inr ⟨rfl, fun prev => by simp [displacementAt]⟩) (by simp [lengths, numberOfSegments]) ?_
      rw [hb]; simp [slabLo, slabHi, I3.set, h1, h2, show irange 0 1 = [0] from rfl]
    · refine main 1 g (n.x - g - base) 0 rfl (Or.inr ⟨rfl, fun prev => by simp [displacementAt]; ring⟩) (by simp [lengths, numberOfSegments]) ?_
      rw [hb]; simp [slabLo, slabHi, I3.set, I3.get, h1, h2, show irange 0 1 = [0] from rfl]
      congr 1; ring
  · have h2 : n.z = 1 := by have := hflat 2; simpa [I3.get] using this
    rcases h with rfl | rfl | rfl | rfl
    · refine main n.y g base n.x rfl (Or.inl fun i prev => by simp [displacementAt]; split_ifs <;> omega) (by simp [lengths, numberOfSegments]) ?_
      rw [hb]; simp [slabLo, slabHi, I3.set, h2, show irange 0 1 = [0] from rfl]
      congr 1; funext y; congr 1 <;> ring
    · refine main n.y g (n.x - g - base) n.x rfl (Or.inl fun i prev => by simp [displacementAt]; split_ifs <;> omega) (by simp [lengths, numberOfSegments]) ?_
      rw [hb]; simp [slabLo, slabHi, I3.set, I3.get, h2, show irange 0 1 = [0] from rfl]
      congr 1; funext y; congr 1 <;> ring
    · refine main 1 (g * n.x) (base * n.x) 0 rfl (Or.inr ⟨rfl, fun prev => by simp [displacementAt]⟩) (by simp [lengths, numberOfSegments]) ?_
      rw [hb]; simp [slabLo, slabHi, I3.set, h2, show irange 0 1 = [0] from rfl]
      rw [← add_mul, irange_blocks' hx (by omega)]
    · refine main 1 (g * n.x) ((n.y - g - base) * n.x) 0 rfl (Or.inr ⟨rfl, fun prev => by simp [displacementAt]; ring⟩) (by simp [lengths, numberOfSegments]) ?_
      rw [hb]; simp [slabLo, slabHi, I3.set, I3.get, h2, show irange 0 1 = [0] from rfl]
      rw [← add_mul, irange_blocks' hx (by omega)]
      congr 2; ring
  · have hxy : 0 ≤ n.x * n.y := mul_nonneg hx hy
    rcases h with rfl | rfl | rfl | rfl | rfl | rfl
    · refine main (n.y * n.z) g base n.x rfl (Or.inl fun i prev => by simp [displacementAt]; split_ifs <;> omega) (by simp [lengths, numberOfSegments]) ?_
      rw [hb, hsplit]; simp [slabLo, slabHi, I3.set, List.flatMap_assoc, List.flatMap_map]
      congr 1; funext z; congr 1; funext y; congr 1 <;> ring
    · refine main (n.y * n.z) g (n.x - g - base) n.x rfl (Or.inl fun i prev => by simp [displacementAt]; split_ifs <;> omega) (by simp [lengths, numberOfSegments]) ?_
      rw [hb, hsplit]; simp [slabLo, slabHi, I3.set, I3.get, List.flatMap_assoc, List.flatMap_map]
      congr 1; funext z; congr 1; funext y; congr 1 <;> ring
    · refine main n.z (g * n.x) (base * n.x) (n.x * n.y) rfl (Or.inl fun i prev => by simp [displacementAt]; split_ifs <;> omega) (by simp [lengths, numberOfSegments]) ?_
      rw [hb]; simp [slabLo, slabHi, I3.set]
      congr 1; funext z
      have e := irange_blocks' (a := base + z * n.y) (b := base + z * n.y + g) hx (by omega)
      rw [show (base + z * n.y) * n.x = base * n.x + z * (n.x * n.y) by ring, show (base + z * n.y + g) * n.x = base * n.x + z * (n.x * n.y) + g * n.x by ring] at e
      rw [e, show base + z * n.y + g = base + g + z * n.y by ring, ← irange_map_add, List.flatMap_map]
      congr 1; funext y; congr 1 <;> ring
    · refine main n.z (g * n.x) ((n.y - g - base) * n.x) (n.x * n.y) rfl
        (Or.inl fun i prev => by simp [displacementAt]; split_ifs <;> first | omega | (subst_vars; ring)) (by simp [lengths, numberOfSegments]) ?_
      rw [hb]; simp [slabLo, slabHi, I3.set, I3.get]
      congr 1; funext z
      have e := irange_blocks' (a := n.y - g - base + z * n.y) (b := n.y - base + z * n.y) hx (by omega)
      rw [show (n.y - g - base + z * n.y) * n.x = (n.y - g - base) * n.x + z * (n.x * n.y) by ring,
        show (n.y - base + z * n.y) * n.x = (n.y - g - base) * n.x + z * (n.x * n.y) + g * n.x by ring] at e
      rw [e, ← irange_map_add, List.flatMap_map]
      congr 1; funext y; congr 1 <;> ring
    · refine main 1 (g * n.x * n.y) (base * (n.x * n.y)) 0 rfl (Or.inr ⟨rfl, fun prev => by simp [displacementAt]; ring⟩) (by simp [lengths, numberOfSegments]) ?_
      rw [hb]; simp [slabLo, slabHi, I3.set, show irange 0 1 = [0] from rfl]
      rw [show base * (n.x * n.y) + g * n.x * n.y = (base + g) * (n.x * n.y) by ring, irange_blocks' hxy (by omega)]
      congr 1; funext z
      have e := irange_blocks' (a := z * n.y) (b := z * n.y + n.y) hx (by omega)
      rw [show z * n.y * n.x = z * (n.x * n.y) by ring, show (z * n.y + n.y) * n.x = z * (n.x * n.y) + n.x * n.y by ring] at e
      have e2 := irange_map_add 0 n.y (z * n.y)
      rw [zero_add, add_comm n.y] at e2
      rw [e, ← e2, List.flatMap_map]
      congr 1; funext y; congr 1 <;> ring
    · refine main 1 (g * n.x * n.y) ((n.z - g - base) * (n.x * n.y)) 0 rfl (Or.inr ⟨rfl, fun prev => by simp [displacementAt]; ring⟩) (by simp [lengths, numberOfSegments]) ?_
      rw [hb]; simp [slabLo, slabHi, I3.set, I3.get, show irange 0 1 = [0] from rfl]
      rw [show (n.z - g - base) * (n.x * n.y) + g * n.x * n.y = (n.z - base) * (n.x * n.y) by ring, irange_blocks' hxy (by omega)]
      congr 1; funext z
      have e := irange_blocks' (a := z * n.y) (b := z * n.y + n.y) hx (by omega)
      rw [show z * n.y * n.x = z * (n.x * n.y) by ring, show (z * n.y + n.y) * n.x = z * (n.x * n.y) + n.x * n.y by ring] at e
      have e2 := irange_map_add 0 n.y (z * n.y)
      rw [zero_add, add_comm n.y] at e2
      rw [e, ← e2, List.flatMap_map]
      congr 1; funext y; congr 1 <;> ring

end Verif.Halo
