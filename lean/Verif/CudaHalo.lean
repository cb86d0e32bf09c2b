import Verif.HaloField
import Verif.GpuStreams

/-!
Model of the halo exchange on the graphics card: alsfvm/src/mpi/CudaCartesianCellExchanger.cu. Every rank packs the cells it has to send into
buffers (one per variable and side, each on its own stream), copies them to the host, exchanges them with its neighbours, copies what
it receives back into the same buffers, and unpacks them. Positions in the memory of a volume and in a buffer are flat:
`z * nx * ny + y * nx + x` (alsfvm/include/alsfvm/memory/View.hpp:116-118).

Simplifications: overflow of `int` is not modelled; all volumes given to one exchanger have the same size, so that the buffers made in the first
call (lines 90-101) fit; the input and the output volume are the same, as in the simulator; copies between host and device succeed; a buffer is only
used by its own stream, so the copies to and from it are taken to happen between packing and unpacking.
-/

namespace Verif.CudaHalo
open Gpu Halo
variable {α : Type}

/-- A place in the memory of the graphics card of one rank: variable and position in the volume, or variable, side and position in a buffer. -/
inductive Place where
  | vol (v : Nat) (i : Int)
  | buf (v side : Nat) (i : Int)
  deriving DecidableEq, Repr

/-- `hasSide` (CudaCartesianCellExchanger.cu:166-168). -/
def hasSide (nb : Nat → Int) (side : Nat) : Bool := nb side != -1

/-- Size of the buffer of a side (`makeBuffers`, CudaCartesianCellExchanger.cu:365-375) for a volume of total size `n` with `G` ghost cells. -/
def bufferSize (n G : I3) (side : Nat) : I3 :=
  ⟨(if side > 1 then n.x else 0) + (if side < 2 then G.x else 0),
   (if side ≠ 2 ∧ side ≠ 3 then n.y else 0) + (if side = 2 ∨ side = 3 then G.y else 0),
   (if side ≠ 4 ∧ side ≠ 5 then n.z else 0) + (if side = 4 ∨ side = 5 then G.z else 0)⟩

/-- Number of elements of the host buffers of a side (CudaCartesianCellExchanger.cu:382-383). -/
def bufferCount (n G : I3) (side : Nat) : Nat := ((bufferSize n G side).x * (bufferSize n G side).y * (bufferSize n G side).z).toNat

/-- First cell packed at a side (`extractSides`, CudaCartesianCellExchanger.cu:219-252). -/
def packLo (n G : I3) (side : Nat) : I3 :=
  if side = 0 then ⟨G.x, 0, 0⟩ else if side = 1 then ⟨n.x - 2 * G.x, 0, 0⟩
  else if side = 2 then ⟨0, G.y, 0⟩ else if side = 3 then ⟨0, n.y - 2 * G.y, 0⟩
  else if side = 4 then ⟨0, 0, G.z⟩ else ⟨0, 0, n.z - 2 * G.z⟩

/-- Cell after the last one packed at a side (`extractSides`, CudaCartesianCellExchanger.cu:219-252). -/
def packHi (n G : I3) (side : Nat) : I3 :=
  if side = 0 then ⟨2 * G.x, n.y, n.z⟩ else if side = 1 then ⟨n.x - G.x, n.y, n.z⟩
  else if side = 2 then ⟨n.x, 2 * G.y, n.z⟩ else if side = 3 then ⟨n.x, n.y - G.y, n.z⟩
  else if side = 4 then ⟨n.x, n.y, 2 * G.z⟩ else ⟨n.x, n.y, n.z - G.z⟩

/-- First cell unpacked at a side (`insertSides`, CudaCartesianCellExchanger.cu:305-332). -/
def unpackLo (n G : I3) (side : Nat) : I3 :=
  if side = 0 then ⟨0, 0, 0⟩ else if side = 1 then ⟨n.x - G.x, 0, 0⟩
  else if side = 2 then ⟨0, 0, 0⟩ else if side = 3 then ⟨0, n.y - G.y, 0⟩
  else if side = 4 then ⟨0, 0, 0⟩ else ⟨0, 0, n.z - G.z⟩

/-- Cell after the last one unpacked at a side (`insertSides`, CudaCartesianCellExchanger.cu:305-332). -/
def unpackHi (n G : I3) (side : Nat) : I3 :=
  if side = 0 then ⟨G.x, n.y, n.z⟩ else if side = 1 then ⟨n.x, n.y, n.z⟩
  else if side = 2 then ⟨n.x, G.y, n.z⟩ else if side = 3 then ⟨n.x, n.y, n.z⟩
  else if side = 4 then ⟨n.x, n.y, G.z⟩ else ⟨n.x, n.y, n.z⟩

/-- The cell of a thread relative to `start`, unless the thread has nothing to do (CudaCartesianCellExchanger.cu:28-40 and 54-66). -/
def threadCell (lo hi : I3) (i : Nat) : Option I3 :=
  let nx := extent lo.x hi.x
  let ny := extent lo.y hi.y
  let nz := extent lo.z hi.z
  let x := i % nx
  let y := (i / nx) % ny
  let z := (i / nx) / ny
  if x ≥ nx ∨ y ≥ ny ∨ z ≥ nz then none else some ⟨x, y, z⟩

/-- `extractSideDevice` (CudaCartesianCellExchanger.cu:25-48). -/
def packKernel (n G : I3) (v side : Nat) (i : Nat) : Prog Place α :=
  match threadCell (packLo n G side) (packHi n G side) i with
  | none => .done
  | some c => .read (.vol v (flatI n (c + packLo n G side))) fun a => .write (.buf v side (flatI (bufferSize n G side) c)) a .done

/-- `insertSideDevice` (CudaCartesianCellExchanger.cu:51-74). -/
def unpackKernel (n G : I3) (v side : Nat) (i : Nat) : Prog Place α :=
  match threadCell (unpackLo n G side) (unpackHi n G side) i with
  | none => .done
  | some c => .read (.buf v side (flatI (bufferSize n G side) c)) fun a => .write (.vol v (flatI n (c + unpackLo n G side))) a .done

/-- Number of cells from `start` to `end` (CudaCartesianCellExchanger.cu:175-176 and 264-265). -/
def cellsBetween (lo hi : I3) : Int := (hi.x - lo.x) * (hi.y - lo.y) * (hi.z - lo.z)

/-- `extractSide` (CudaCartesianCellExchanger.cu:170-202): one kernel per variable, unless there is nothing to copy. -/
def packSide (n G : I3) (nvars side : Nat) : List (Launch Place α) :=
  if cellsBetween (packLo n G side) (packHi n G side) ≤ 0 then []
  else (List.range nvars).map fun v => ⟨threadCount (cellsBetween (packLo n G side) (packHi n G side)).toNat 512, packKernel n G v side⟩

/-- `insertSide` (CudaCartesianCellExchanger.cu:257-290). It tests `size == 0` and would start a kernel for a negative size, which does not occur in a volume. -/
def unpackSide (n G : I3) (nvars side : Nat) : List (Launch Place α) :=
  if cellsBetween (unpackLo n G side) (unpackHi n G side) = 0 then []
  else (List.range nvars).map fun v => ⟨threadCount (cellsBetween (unpackLo n G side) (unpackHi n G side)).toNat 512, unpackKernel n G v side⟩

/-- The sides `extractSides` and `insertSides` handle (CudaCartesianCellExchanger.cu:219-252 and 305-332). -/
def sides (dims : Nat) (nb : Nat → Int) : List Nat :=
  ([0, 1] ++ if dims > 1 then [2, 3] ++ if dims > 2 then [4, 5] else [] else []).filter (hasSide nb)

/-- `extractSides` (CudaCartesianCellExchanger.cu:207-254): the kernels of all variables and sides, each on its own stream. All streams are waited for before the
messages are unpacked (line 120). -/
def pack (dims nvars : Nat) (n G : I3) (nb : Nat → Int) : Launch Place α :=
  concurrent ((sides dims nb).flatMap (packSide n G nvars))

/-- `insertSides` (CudaCartesianCellExchanger.cu:293-334). The device is waited for at the end (line 142). -/
def unpack (dims nvars : Nat) (n G : I3) (nb : Nat → Int) : Launch Place α :=
  concurrent ((sides dims nb).flatMap (unpackSide n G nvars))

/-- A message posted by the exchanger: other rank, tag, variable, and side of the host buffer, with its number of elements. -/
structure BufferPost where
  isSend : Bool
  peer : Int
  tag : Nat
  var : Nat
  side : Nat
  count : Nat
  deriving DecidableEq, Repr

/-- The messages one round of the loops in `exchangeCells` posts (CudaCartesianCellExchanger.cu:119-135). -/
def bufferPostsAt (n G : I3) (nb : Nat → Int) (var side : Nat) : List BufferPost :=
  (if hasSide nb side then [⟨true, nb side, var * 6 + side, var, side, bufferCount n G side⟩] else []) ++
  (if hasSide nb (oppositeSide side) then
    [⟨false, nb (oppositeSide side), var * 6 + side, var, oppositeSide side, bufferCount n G (oppositeSide side)⟩] else [])

/-- All messages posted by one rank in one exchange, in order (CudaCartesianCellExchanger.cu:116-137). -/
def bufferPosts (dims nvars : Nat) (n G : I3) (nb : Nat → Int) : List BufferPost :=
  (List.range nvars).flatMap fun var => (List.range (2 * dims)).flatMap fun side => bufferPostsAt n G nb var side

/-- What the host buffer of a side contains once the kernel has been waited for (CudaCartesianCellExchanger.cu:192-196, 120). -/
def message (n G : I3) (m : Arr Place α) (v side : Nat) : List α :=
  (List.range (bufferCount n G side)).map fun i : Nat => m.val (.buf v side i)

/-- What arrives in the host buffers of rank `b` (by variable and side): every receive takes a message sent by the other rank to `b` with the same tag. -/
def Delivered (n G : I3) (posted : Int → List BufferPost) (packed : Int → Arr Place α) (b : Int) (received : Nat → Nat → List α) : Prop :=
  ∀ r ∈ posted b, r.isSend = false → ∃ s ∈ posted r.peer, s.isSend = true ∧ s.peer = b ∧ s.tag = r.tag ∧
    received r.var r.side = message n G (packed r.peer) s.var s.side

/-- The received elements are copied to the buffers on the card (CudaCartesianCellExchanger.cu:273-278). Elements that did not arrive keep the old value. -/
def load (m : Arr Place α) (received : Nat → Nat → List α) : Arr Place α :=
  { m with val := fun
    | .vol v i => m.val (.vol v i)
    | .buf v side i => if 0 ≤ i then ((received v side)[i.toNat]?).getD (m.val (.buf v side i)) else m.val (.buf v side i) }

/-- The memory of a card that holds a volume and the buffers for the sides with a neighbour (`makeBuffers`, CudaCartesianCellExchanger.cu:352-388). -/
def Holds (nvars : Nat) (n G : I3) (nb : Nat → Int) (m : Arr Place α) : Prop :=
  (∀ v i, m.inb (.vol v i) = decide (v < nvars ∧ 0 ≤ i ∧ i < n.x * n.y * n.z)) ∧
  ∀ v side i, m.inb (.buf v side i) = decide (v < nvars ∧ side < 6 ∧ hasSide nb side = true ∧ 0 ≤ i ∧ i < (bufferCount n G side : Int))

/-- `exchangeCells` (CudaCartesianCellExchanger.cu:84-146) on the ranks `0, …, size - 1`: `mem'` is a possible outcome on the memories `mem` of the cards. -/
def Exchange (dims nvars : Nat) (n G : I3) (nb : Int → Nat → Int) (size : Int) (mem mem' : Int → Arr Place α) : Prop :=
  ∃ (packed : Int → Arr Place α) (received : Int → Nat → Nat → List α), ∀ b, 0 ≤ b → b < size →
    mayYield (pack dims nvars n G (nb b)) (mem b) (packed b) ∧
    Delivered n G (fun r => if 0 ≤ r ∧ r < size then bufferPosts dims nvars n G (nb r) else []) packed b (received b) ∧
    mayYield (unpack dims nvars n G (nb b)) (load (packed b) (received b)) (mem' b)

/-! ### Repeated exchanges -/

/-- One of two ranks that exchange messages again and again: number of exchanges completed, whether the buffer for the current exchange has been filled (1) and
the message posted (2), the exchange whose data is in the buffer for sending, how many posted messages are still on their way, and what has been received. -/
structure Peer where
  round : Nat := 0
  stage : Nat := 0
  buffer : Nat := 0
  pending : Nat := 0
  got : List Nat := []
  deriving DecidableEq, Repr

/-- The two ranks. -/
abbrev Pair := Bool → Peer

/-- What may happen next: a rank fills its buffer, posts its message, the buffer of the oldest posted message of a rank is transmitted, a rank completes an exchange. -/
inductive Action where
  | fill (r : Bool)
  | post (r : Bool)
  | transmit (r : Bool)
  | complete (r : Bool)
  deriving DecidableEq, Repr

/-- `exchangeCells` of two ranks as seen by the message passing library (CudaCartesianCellExchanger.cu:84-146): `fill` is the copy to the host buffer (192-196), `post`
the `MPI_Isend` (121-125), `complete` the wait for the message of the other rank (273). The buffer is read when the message is transmitted, at some
time between the `MPI_Isend` and the end of the wait for it. With `waits` a rank waits for its own message before it completes the exchange, as
`CartesianCellExchanger` does (alsfvm/src/mpi/CartesianCellExchanger.cpp:51-104 with RequestContainer.cpp:25-29). Without, only the message of the exchange before is waited
for, when its request is overwritten (line 121, Request.cpp:32-36). -/
def act (waits : Bool) (s : Pair) : Action → Option Pair
  | .fill r => if (s r).stage = 0 then some (Function.update s r { s r with stage := 1, buffer := (s r).round }) else none
  | .post r => if (s r).stage = 1 then some (Function.update s r { s r with stage := 2, pending := (s r).pending + 1 }) else none
  | .transmit r =>
    if 0 < (s r).pending then
      some (Function.update (Function.update s r { s r with pending := (s r).pending - 1 }) (!r) { s (!r) with got := (s (!r)).got ++ [(s r).buffer] })
    else none
  | .complete r =>
    if (s r).stage = 2 ∧ (s r).round < (s r).got.length ∧ (s r).pending ≤ (if waits then 0 else 1) then
      some (Function.update s r { s r with round := (s r).round + 1, stage := 0 })
    else none

/-- The states reached by a sequence of actions from the start. -/
def acts (waits : Bool) (l : List Action) : Option Pair := l.foldlM (act waits) fun _ => {}

/-! ### Lemmas -/

theorem mem_sides {dims side : Nat} {nb : Nat → Int} (hd : 1 ≤ dims) (hd3 : dims ≤ 3) :
    side ∈ sides dims nb ↔ side < 2 * dims ∧ hasSide nb side = true := by
  unfold sides
  rw [List.mem_filter]
  refine and_congr_left fun _ => ?_
  interval_cases dims <;> simp <;> omega

theorem packLo_eq {n G : I3} {side : Nat} (hs : side < 6) : packLo n G side = slabLo n (G.get (side / 2)) (G.get (side / 2)) side := by
  unfold packLo slabLo I3.get I3.set
  interval_cases side <;> simp [I3.ext_iff] <;> omega

theorem packHi_eq {n G : I3} {side : Nat} (hs : side < 6) : packHi n G side = slabHi n (G.get (side / 2)) (G.get (side / 2)) side := by
  unfold packHi slabHi I3.get I3.set
  interval_cases side <;> simp [I3.ext_iff] <;> omega

theorem unpackLo_eq {n G : I3} {side : Nat} (hs : side < 6) : unpackLo n G side = slabLo n (G.get (side / 2)) 0 side := by
  unfold unpackLo slabLo I3.get I3.set
  interval_cases side <;> simp

theorem unpackHi_eq {n G : I3} {side : Nat} (hs : side < 6) : unpackHi n G side = slabHi n (G.get (side / 2)) 0 side := by
  unfold unpackHi slabHi I3.get I3.set
  interval_cases side <;> simp

theorem packSize {n G : I3} {side : Nat} (hs : side < 6) : packHi n G side - packLo n G side = bufferSize n G side := by
  show (⟨_, _, _⟩ : I3) = _
  unfold packHi packLo bufferSize
  interval_cases side <;> simp [I3.ext_iff] <;> omega

theorem unpackSize {n G : I3} {side : Nat} (hs : side < 6) : unpackHi n G side - unpackLo n G side = bufferSize n G side := by
  show (⟨_, _, _⟩ : I3) = _
  unfold unpackHi unpackLo bufferSize
  interval_cases side <;> simp

/-- Threads and cells of a box. -/
theorem threadCell_iff {lo hi c : I3} : (∃ i < threadCount (cellsBetween lo hi).toNat 512, threadCell lo hi i = some c) ↔ c ∈ box 0 (hi - lo) := by
  have hsub : hi - lo = ⟨hi.x - lo.x, hi.y - lo.y, hi.z - lo.z⟩ := rfl
  rw [mem_box, hsub]
  show _ ↔ (0 ≤ c.x ∧ c.x < hi.x - lo.x) ∧ (0 ≤ c.y ∧ c.y < hi.y - lo.y) ∧ 0 ≤ c.z ∧ c.z < hi.z - lo.z
  constructor
  · rintro ⟨i, -, h⟩
    unfold threadCell at h
    simp only at h
    split_ifs at h with hg
    injection h with h
    subst h
    rw [not_or, not_or] at hg
    generalize hx : i % extent lo.x hi.x = x at hg
    generalize hy : i / extent lo.x hi.x % extent lo.y hi.y = y at hg
    generalize hz : i / extent lo.x hi.x / extent lo.y hi.y = z at hg
    unfold extent at hg
    simp only
    omega
  · intro h
    have hin : inSize ⟨extent lo.x hi.x, extent lo.y hi.y, extent lo.z hi.z⟩ c = true := by
      rw [inSize_iff]; unfold extent; simp only; omega
    have hlt := encode_lt hin
    have hdec := decode_encode hin
    refine ⟨Gpu.encode (extent lo.x hi.x) (extent lo.y hi.y) c, lt_of_lt_of_le ?_ (threadCount_ge (by norm_num)), ?_⟩
    · refine lt_of_lt_of_le hlt (le_of_eq ?_)
      unfold cellsBetween
      have e1 : hi.x - lo.x = (extent lo.x hi.x : Int) := by unfold extent; omega
      have e2 : hi.y - lo.y = (extent lo.y hi.y : Int) := by unfold extent; omega
      have e3 : hi.z - lo.z = (extent lo.z hi.z : Int) := by unfold extent; omega
      rw [e1, e2, e3, ← Nat.cast_mul, ← Nat.cast_mul, Int.toNat_natCast]
    · generalize Gpu.encode (extent lo.x hi.x) (extent lo.y hi.y) c = i at hdec hlt
      unfold decode at hdec
      have e0 := congrArg I3.x hdec
      have e1 := congrArg I3.y hdec
      have e2 := congrArg I3.z hdec
      rw [← Nat.div_div_eq_div_mul] at e2
      simp only at e0 e1 e2
      unfold threadCell
      simp only
      rw [inSize_iff] at hin
      simp only at hin
      rw [if_neg (by omega)]
      congr 1
      ext <;> simp only <;> omega

/-- The positions of the cells of a buffer, in the order of the cells, are 0, 1, 2, …. -/
theorem flat_box {b : I3} (hb : 0 ≤ b.x ∧ 0 ≤ b.y ∧ 0 ≤ b.z) : (box 0 b).map (flatI b) = irange 0 (b.x * b.y * b.z) := by
  obtain ⟨hx, hy, hz⟩ := hb
  have h1 := irange_blocks' (a := 0) (b := b.z) (m := b.x * b.y) (by positivity) hz
  rw [zero_mul, mul_comm b.z] at h1
  rw [h1]
  simp only [box, List.map_flatMap, List.map_map]
  show (irange 0 b.z).flatMap _ = _
  congr 1; funext z
  have h2 := irange_blocks' (a := z * b.y) (b := z * b.y + b.y) (m := b.x) hx (by omega)
  rw [show z * b.y * b.x = z * (b.x * b.y) by ring, show (z * b.y + b.y) * b.x = z * (b.x * b.y) + b.x * b.y by ring] at h2
  rw [h2]
  have e2 := irange_map_add 0 b.y (z * b.y)
  rw [zero_add, add_comm b.y] at e2
  rw [← e2, List.flatMap_map]
  show (irange 0 b.y).flatMap _ = _
  congr 1; funext y
  have e3 := irange_map_add 0 b.x ((y + z * b.y) * b.x)
  rw [zero_add, add_comm b.x] at e3
  rw [← e3]
  show (irange 0 b.x).map _ = _
  apply List.map_congr_left; intro x _
  simp only [Function.comp, flatI]; ring

end Verif.CudaHalo
