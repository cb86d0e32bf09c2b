import Verif.Cartesian
import Mathlib.Tactic.NormNum

/-! C44-C46: ranks and positions, the tiling of the grid, and neighbours. -/

namespace Verif.Props.Parallel
open Verif Verif.Cartesian

/-- The process grid has at least one process in each direction. -/
def ProcessGrid (p : I3) : Prop := 1 ≤ p.x ∧ 1 ≤ p.y ∧ 1 ≤ p.z

/-- `r` is the rank of one of the processes. -/
def IsRank (p : I3) (r : Int) : Prop := 0 ≤ r ∧ r < p.x * p.y * p.z

/-- `c` is a cell (or process position) of a block of the given size. -/
def Cell (n c : I3) : Prop := (0 ≤ c.x ∧ c.x < n.x) ∧ (0 ≤ c.y ∧ c.y < n.y) ∧ (0 ≤ c.z ∧ c.z < n.z)

/-- C44, first half: each rank has a position in the process grid, and going back gives the rank (so different ranks have different positions). -/
theorem C44_rank_to_position_and_back (p : I3) (hp : ProcessGrid p) (r : Int) (hr : IsRank p r) :
    ∃ c, getCoordinates r p = .ok c ∧ Cell p c ∧ getRankIndex c p = r :=
  ⟨_, getCoordinates_ok hp hr.1, position_inside hp hr.1 hr.2, rank_position hp hr.1 hr.2⟩

example : ProcessGrid ⟨2, 3, 1⟩ ∧ IsRank ⟨2, 3, 1⟩ 5 ∧ getCoordinates 5 ⟨2, 3, 1⟩ = .ok ⟨1, 2, 0⟩ := by
  refine ⟨by unfold ProcessGrid; decide, by unfold IsRank; decide, by rfl⟩

/-- C44, second half: each position belongs to a rank, which has this position. -/
theorem C44_position_to_rank_and_back (p : I3) (c : I3) (hc : Cell p c) : IsRank p (getRankIndex c p) ∧ getCoordinates (getRankIndex c p) p = .ok c := by
  have hp : Positive p := ⟨by have := hc.1; omega, by have := hc.2.1; omega, by have := hc.2.2; omega⟩
  refine ⟨rank_bounds hc, ?_⟩
  rw [getCoordinates_ok hp (rank_bounds hc).1, position_rank hc]

example : Cell ⟨2, 3, 1⟩ ⟨1, 2, 0⟩ := by unfold Cell; decide

/-- C44: different ranks have different positions. -/
theorem C44_positions_differ (p : I3) (hp : ProcessGrid p) (r r' : Int) (hr : IsRank p r) (hr' : IsRank p r') (hne : r ≠ r') :
    getCoordinates r p ≠ getCoordinates r' p := by
  intro h
  rw [getCoordinates_ok hp hr.1, getCoordinates_ok hp hr'.1] at h
  have h' : position p r = position p r' := by injection h
  exact hne (by rw [← rank_position hp hr.1 hr.2, h', rank_position hp hr'.1 hr'.2])

example : IsRank ⟨2, 3, 1⟩ 1 ∧ IsRank ⟨2, 3, 1⟩ 4 ∧ (1 : Int) ≠ 4 := by unfold IsRank; decide

/-- C44: a position off the grid by at most one grid length wraps around; in particular a position one off. -/
theorem C44_wraps_around (p : I3) (c : I3) (hx : -p.x ≤ c.x ∧ c.x < 2 * p.x) (hy : -p.y ≤ c.y ∧ c.y < 2 * p.y) (hz : -p.z ≤ c.z ∧ c.z < 2 * p.z) :
    getRankIndex c p = getRankIndex ⟨c.x % p.x, c.y % p.y, c.z % p.z⟩ p := by
  have key : ∀ a n : Int, -n ≤ a ∧ a < 2 * n → wrapOnce a n = wrapOnce (a % n) n := by
    intro a n h
    have h0 := Int.emod_nonneg a (show n ≠ 0 by omega)
    have h1 := Int.emod_lt_of_pos a (show 0 < n by omega)
    rw [wrapOnce_inside h0 h1]
    rcases lt_trichotomy a 0 with ha | ha | ha
    · rw [← Int.add_emod_right, Int.emod_eq_of_lt (by omega) (by omega)]; simp only [wrapOnce]; omega
    · rw [ha]; simp [wrapOnce]; omega
    · by_cases hn : a < n
      · rw [Int.emod_eq_of_lt (by omega) hn]; simp only [wrapOnce]; omega
      · rw [show a % n = (a - n) % n from (Int.sub_emod_right a n).symm, Int.emod_eq_of_lt (by omega) (by omega)]; simp only [wrapOnce]; omega
  simp only [getRankIndex, key c.x p.x hx, key c.y p.y hy, key c.z p.z hz]

example : getRankIndex ⟨-1, 3, 0⟩ ⟨2, 3, 1⟩ = getRankIndex ⟨1, 0, 0⟩ ⟨2, 3, 1⟩ ∧ ((-2 : Int) ≤ -1 ∧ (-1 : Int) < 2 * 2) := by decide

/-- C45: when the numbers of cells are multiples of the numbers of processes the decomposition is accepted by every rank. All parts have the same size. Every cell of the global
grid is one cell of exactly one part. Local cells keep the cell lengths and the midpoint of the global cell they stand for.
Partial: the property speaks of every process grid; grids with negative counts are accepted and do not tile (`C45_negative_process_counts_are_accepted`). -/
theorem C45_tiles_partial {K : Type} [Field K] (p : I3) (hp : ProcessGrid p) (grid : Grid K) (user : Nat → Side) (hdims : 1 ≤ grid.dims.x ∧ 1 ≤ grid.dims.y ∧ 1 ≤ grid.dims.z)
    (hdiv : p.x ∣ grid.dims.x ∧ p.y ∣ grid.dims.y ∧ p.z ∣ grid.dims.z) :
    ∃ part : Int → Part K, (∀ r, IsRank p r → decompose p r grid user = .ok (part r)) ∧
      (∀ r, IsRank p r → (part r).grid.dims.x * p.x = grid.dims.x ∧ (part r).grid.dims.y * p.y = grid.dims.y ∧ (part r).grid.dims.z * p.z = grid.dims.z) ∧
      (∀ r, IsRank p r → ∀ c, Cell (part r).grid.dims c → Cell grid.dims (c + (part r).grid.globalPosition)) ∧
      (∀ q, Cell grid.dims q → ∃! rc : Int × I3, IsRank p rc.1 ∧ Cell (part rc.1).grid.dims rc.2 ∧ rc.2 + (part rc.1).grid.globalPosition = q) ∧
      ∀ r, IsRank p r → (part r).grid.lengths = grid.lengths ∧ (part r).grid.globalSize = grid.dims ∧
        ∀ c, (part r).grid.midpoint c = grid.midpoint (c + (part r).grid.globalPosition) := by
  classical
  have hd0 : 0 ≤ grid.dims.x ∧ 0 ≤ grid.dims.y ∧ 0 ≤ grid.dims.z := by omega
  have hall := fun (r : Int) (hr : IsRank p r) => decompose_ok hp grid user hd0 hdiv hr.1 hr.2
  have hne : Nonempty (Part K) := ⟨⟨grid, user, fun _ => 0⟩⟩
  choose! part hok hsize hpos hglob hlen horig hsides using hall
  obtain ⟨hp1, hp2, hp3⟩ := hp
  have ex := Int.ediv_mul_cancel hdiv.1
  have ey := Int.ediv_mul_cancel hdiv.2.1
  have ez := Int.ediv_mul_cancel hdiv.2.2
  set a := grid.dims.x / p.x with ha
  set b := grid.dims.y / p.y with hb
  set d := grid.dims.z / p.z with hd
  have ha1 : 1 ≤ a := by by_contra h; nlinarith [hdims.1]
  have hb1 : 1 ≤ b := by by_contra h; nlinarith [hdims.2.1]
  have hd1 : 1 ≤ d := by by_contra h; nlinarith [hdims.2.2]
  have hblock : ∀ {m n t s : Int}, 1 ≤ m → 0 ≤ s → s < n → 0 ≤ t → t < m → 0 ≤ t + m * s ∧ t + m * s < m * n := by
    intro m n t s hm hs hs' ht ht'
    constructor
    · nlinarith
    · nlinarith [mul_le_mul_of_nonneg_left (show s + 1 ≤ n by omega) (show 0 ≤ m by omega)]
  refine ⟨part, hok, ?_, ?_, ?_, ?_⟩
  · intro r hr
    rw [hsize r hr]
    exact ⟨ex, ey, ez⟩
  · intro r hr c hc
    rw [hsize r hr] at hc
    have hin := position_inside ⟨hp1, hp2, hp3⟩ hr.1 hr.2
    rw [hpos r hr]
    refine ⟨?_, ?_, ?_⟩
    · have := hblock ha1 hin.1.1 hin.1.2 hc.1.1 hc.1.2; rw [ex] at this; exact this
    · have := hblock hb1 hin.2.1.1 hin.2.1.2 hc.2.1.1 hc.2.1.2; rw [ey] at this; exact this
    · have := hblock hd1 hin.2.2.1 hin.2.2.2 hc.2.2.1 hc.2.2.2; rw [ez] at this; exact this
  · intro q hq
    have hquot : ∀ {m n t : Int}, 1 ≤ m → 0 ≤ t → t < m * n → 0 ≤ t / m ∧ t / m < n := fun {m n t} hm ht ht' =>
      ⟨Int.ediv_nonneg ht (by omega), Int.ediv_lt_of_lt_mul (by omega) (by rw [Int.mul_comm]; exact ht')⟩
    have hnode : Inside p ⟨q.x / a, q.y / b, q.z / d⟩ :=
      ⟨hquot ha1 hq.1.1 (by rw [ex]; exact hq.1.2), hquot hb1 hq.2.1.1 (by rw [ey]; exact hq.2.1.2), hquot hd1 hq.2.2.1 (by rw [ez]; exact hq.2.2.2)⟩
    have hrank : IsRank p (getRankIndex ⟨q.x / a, q.y / b, q.z / d⟩ p) := rank_bounds hnode
    refine ⟨(getRankIndex ⟨q.x / a, q.y / b, q.z / d⟩ p, ⟨q.x % a, q.y % b, q.z % d⟩), ⟨hrank, ?_, ?_⟩, ?_⟩
    · simp only [hsize _ hrank]
      exact ⟨⟨Int.emod_nonneg _ (by omega), Int.emod_lt_of_pos _ (by omega)⟩, ⟨Int.emod_nonneg _ (by omega), Int.emod_lt_of_pos _ (by omega)⟩,
        Int.emod_nonneg _ (by omega), Int.emod_lt_of_pos _ (by omega)⟩
    · simp only [hpos _ hrank, position_rank hnode]
      ext
      · exact Int.emod_add_mul_ediv q.x a
      · exact Int.emod_add_mul_ediv q.y b
      · exact Int.emod_add_mul_ediv q.z d
    · rintro ⟨r, c⟩ ⟨hr, hc, hsum⟩
      simp only at hr hc hsum
      rw [hsize r hr] at hc
      rw [hpos r hr] at hsum
      have huniq : ∀ {m s t u : Int}, 1 ≤ m → 0 ≤ t → t < m → t + m * s = u → u / m = s ∧ u % m = t := by
        intro m s t u hm ht ht' hu
        subst hu
        rw [Int.add_mul_ediv_left _ _ (by omega), Int.ediv_eq_zero_of_lt ht ht', Int.add_mul_emod_self_left, Int.emod_eq_of_lt ht ht']
        simp
      have hx := huniq ha1 hc.1.1 hc.1.2 (congrArg I3.x hsum)
      have hy := huniq hb1 hc.2.1.1 hc.2.1.2 (congrArg I3.y hsum)
      have hz := huniq hd1 hc.2.2.1 hc.2.2.2 (congrArg I3.z hsum)
      have hnode' : (⟨q.x / a, q.y / b, q.z / d⟩ : I3) = position p r := by rw [hx.1, hy.1, hz.1]
      have hc' : (⟨q.x % a, q.y % b, q.z % d⟩ : I3) = c := by rw [hx.2, hy.2, hz.2]
      rw [hnode', hc', rank_position ⟨hp1, hp2, hp3⟩ hr.1 hr.2]
  · intro r hr
    refine ⟨hlen r hr, hglob r hr, fun c => ?_⟩
    simp only [Grid.midpoint, hlen r hr, horig r hr, I3.add_x, I3.add_y, I3.add_z, Int.cast_add, V3.mk.injEq]
    refine ⟨by ring, by ring, by ring⟩

example : ProcessGrid ⟨2, 1, 1⟩ ∧ ((2 : Int) ∣ 4 ∧ (1 : Int) ∣ 3 ∧ (1 : Int) ∣ 1) := by
  refine ⟨by unfold ProcessGrid; decide, by decide⟩

/-- Length of one of `n` equal cells between `a` and `b`. -/
def cellLength {K : Type} [Field K] (a b : K) (n : Int) : K := (b - a) / n

/-- C45: where the cells are. The whole grid divides the box between `origin` and `top` into equal cells; a direction other than x with a single cell counts as having unit length.
In every subdomain the cells have the lengths of the whole grid, and the midpoint of a local cell is the centre of the cell of the whole grid it stands for. -/
theorem C45_cells {K : Type} [Field K] (p : I3) (hp : ProcessGrid p) (origin top : V3 K) (n pos size : I3) (user : Nat → Side) (hdims : 1 ≤ n.x ∧ 1 ≤ n.y ∧ 1 ≤ n.z)
    (hdiv : p.x ∣ n.x ∧ p.y ∣ n.y ∧ p.z ∣ n.z) (r : Int) (hr : IsRank p r) :
    ∃ part q, decompose p r (Grid.make origin top n pos size) user = .ok part ∧ getCoordinates r p = .ok q ∧
      ∃ h : V3 K, part.grid.lengths = h ∧ h.x = cellLength origin.x top.x n.x ∧ h.y = (if n.y = 1 then 1 else cellLength origin.y top.y n.y) ∧
        h.z = (if n.z = 1 then 1 else cellLength origin.z top.z n.z) ∧
        ∀ c, (part.grid.midpoint c).x = origin.x + h.x * ((n.x / p.x * q.x + c.x : Int) + 1 / 2) ∧
          (part.grid.midpoint c).y = origin.y + h.y * ((n.y / p.y * q.y + c.y : Int) + 1 / 2) ∧
          (part.grid.midpoint c).z = origin.z + h.z * ((n.z / p.z * q.z + c.z : Int) + 1 / 2) := by
  obtain ⟨part, h1, h2, h3, h4, h5, h6, -⟩ := decompose_ok (K := K) hp (Grid.make origin top n pos size) user (by simp only [Grid.make]; omega) hdiv hr.1 hr.2
  refine ⟨part, position p r, h1, getCoordinates_ok hp hr.1, part.grid.lengths, rfl, ?_, ?_, ?_, fun c => ?_⟩
  · rw [h5]; rfl
  · rw [h5]; rfl
  · rw [h5]; rfl
  · simp only [Grid.midpoint, h6, h5, h3, Int.cast_add]
    simp only [Grid.make]
    refine ⟨by ring, by ring, by ring⟩

example := C45_cells (K := Rat) ⟨2, 1, 1⟩ (by unfold ProcessGrid; decide) ⟨0, 0, 0⟩ ⟨1, 3, 0⟩ ⟨4, 3, 1⟩ 0 ⟨4, 3, 1⟩ (fun _ => .neumann) (by decide) (by decide) 1 (by unfold IsRank; decide)

/-- C45: otherwise every rank reports an error. -/
theorem C45_rejects {K : Type} [Field K] (p : I3) (hp : ProcessGrid p) (grid : Grid K) (user : Nat → Side) (r : Int)
    (hdiv : ¬(p.x ∣ grid.dims.x ∧ p.y ∣ grid.dims.y ∧ p.z ∣ grid.dims.z)) : decompose p r grid user = .error .thrown := by
  rw [decompose, checkDivides_thrown hp hdiv, Res.error_bind]

example : ProcessGrid ⟨2, 1, 1⟩ ∧ ¬((2 : Int) ∣ 3 ∧ (1 : Int) ∣ 3 ∧ (1 : Int) ∣ 1) := by
  refine ⟨by unfold ProcessGrid; decide, by decide⟩

/-- Outside the range of C45: two negative numbers of processes have a positive product, pass the check of alsvinncli/src/main.cpp:187 on the number of processes for a single
process, and are accepted, with a local grid of negative size. -/
theorem C45_negative_process_counts_are_accepted :
    ∃ part, decompose (K := Rat) ⟨-1, -1, 1⟩ 0 (Grid.make ⟨0, 0, 0⟩ ⟨1, 1, 0⟩ ⟨2, 2, 1⟩ 0 ⟨2, 2, 1⟩) (fun _ => .neumann) = .ok part ∧ part.grid.dims = ⟨-2, -2, 1⟩ := by
  refine ⟨_, rfl, rfl⟩

/-- The side opposite to `side`; sides 0 and 1 are left and right in x, 2 and 3 in y, 4 and 5 in z. -/
def opposite (side : Nat) : Nat := if side % 2 = 0 then side + 1 else side - 1

/-- The subdomain at position `c` touches the boundary of the whole domain at this side. -/
def AtEdge (p c : I3) (side : Nat) : Prop := if side % 2 = 0 then c.get (side / 2) = 0 else c.get (side / 2) = p.get (side / 2) - 1

/-- The subdomains of a grid of this size have a side with this number: sides in x always, sides in y when the grid is at least two-dimensional, sides in z when it is
three-dimensional. -/
def HasSide (dims : I3) (side : Nat) : Prop := side / 2 = 0 ∨ (side / 2 = 1 ∧ (1 < dims.y ∨ 1 < dims.z)) ∨ (side / 2 = 2 ∧ 1 < dims.z)

theorem hasSide_iff (dims : I3) (side : Nat) : HasSide dims side ↔ side < 2 * activeDimension dims := by
  unfold HasSide activeDimension
  split <;> [skip; split] <;> omega

/-- C46: the neighbour relation is symmetric. `user` are the boundary conditions of the whole grid; the two sides of a direction have the same one.
Partial: the property speaks of every boundary type; with a different type on the two sides it fails (`C46_fails_for_mixed_boundaries`). -/
theorem C46_symmetric_partial {K : Type} [Field K] (p : I3) (hp : ProcessGrid p) (grid : Grid K) (user : Nat → Side) (huser : ∀ d, user (2 * d) = user (2 * d + 1))
    (hdims : 1 ≤ grid.dims.x ∧ 1 ≤ grid.dims.y ∧ 1 ≤ grid.dims.z) (hdiv : p.x ∣ grid.dims.x ∧ p.y ∣ grid.dims.y ∧ p.z ∣ grid.dims.z)
    (a : Int) (ha : IsRank p a) (A : Part K) (hA : decompose p a grid user = .ok A) (side : Nat) (hside : HasSide grid.dims side) (hb : A.neighbour side ≠ -1) :
    IsRank p (A.neighbour side) ∧ ∃ B, decompose p (A.neighbour side) grid user = .ok B ∧ B.neighbour (opposite side) = a := by
  rw [hasSide_iff] at hside
  have hd0 : 0 ≤ grid.dims.x ∧ 0 ≤ grid.dims.y ∧ 0 ≤ grid.dims.z := by omega
  obtain ⟨A', hA', -, -, -, -, -, hs⟩ := decompose_ok hp grid user hd0 hdiv ha.1 ha.2
  rw [hA] at hA'
  cases hA'
  have hact : activeDimension grid.dims ≤ 3 := by unfold activeDimension; split <;> [skip; split] <;> omega
  have hnp : ¬physical p user (position p a) side := fun h => hb ((hs side hside).1 h).2
  have hnb := ((hs side hside).2 hnp).2
  have hin := position_inside hp ha.1 ha.2
  have hin' := across_inside hin (side := side) (by omega)
  rw [hnb]
  refine ⟨rank_bounds hin', ?_⟩
  obtain ⟨B, hB, -, -, -, -, -, hs'⟩ := decompose_ok hp grid user hd0 hdiv (rank_bounds hin').1 (rank_bounds hin').2
  refine ⟨B, hB, ?_⟩
  have hopp2 : opposite side / 2 = side / 2 := by unfold opposite; split <;> omega
  have hopp : opposite side < 2 * activeDimension grid.dims := by unfold opposite; split <;> omega
  rw [position_rank hin'] at hs'
  have hd3 : side / 2 < 3 := by omega
  have hpd := inside_get.1 hin (side / 2) hd3
  have hc' : (across p (position p a) side).get (side / 2) = ((position p a).get (side / 2) + (if side % 2 = 0 then -1 else 1)) % p.get (side / 2) := by
    rw [across, get_set hd3 hd3, if_pos rfl]
  have huser' : user (opposite side) = user side := by
    have := huser (side / 2)
    unfold opposite
    split
    · next h =>
      have e : side = 2 * (side / 2) := by omega
      rw [← e] at this
      exact this.symm
    · next h =>
      have e1 : side - 1 = 2 * (side / 2) := by omega
      have e2 : side = 2 * (side / 2) + 1 := by omega
      rw [← e2] at this
      rw [e1]; exact this
  set x := (position p a).get (side / 2) with hx
  set n := p.get (side / 2) with hn
  have hcases : ∀ y : Int, (0 ≤ y ∧ y < n → y % n = y) ∧ (y = -1 → y % n = n - 1) ∧ (y = n → y % n = 0) := fun y => by
    refine ⟨fun h => Int.emod_eq_of_lt h.1 h.2, fun h => ?_, fun h => by rw [h]; exact Int.emod_self⟩
    rw [h, ← Int.add_emod_right, Int.emod_eq_of_lt (by omega) (by omega)]; omega
  have hnp' : ¬physical p user (across p (position p a) side) (opposite side) := by
    rintro ⟨hout, hcond⟩
    rw [huser', hopp2, ← hn] at hcond
    apply hnp
    refine ⟨?_, by rw [← hn]; exact hcond⟩
    simp only [outermost, hopp2, hc', decide_eq_true_eq, ← hx, ← hn] at hout ⊢
    rcases Nat.mod_two_eq_zero_or_one side with hm | hm
    · have ho : opposite side % 2 = 1 := by unfold opposite; split <;> omega
      simp only [hm, ho, if_pos] at hout ⊢
      left
      refine ⟨trivial, ?_⟩
      by_contra hx0
      have := (hcases (x + -1)).1 ⟨by omega, by omega⟩
      omega
    · have ho : opposite side % 2 = 0 := by unfold opposite; split <;> omega
      simp only [hm, ho] at hout ⊢
      right
      refine ⟨trivial, ?_⟩
      by_contra hx0
      have := (hcases (x + 1)).1 ⟨by omega, by omega⟩
      simp at hout
      omega
  rw [((hs' (opposite side) hopp).2 hnp').2]
  have hback : across p (across p (position p a) side) (opposite side) = position p a := by
    apply ext_get
    intro e he
    rw [across, get_set (by omega) he, hopp2, hc', ← hn]
    split
    · next h =>
      subst h
      rw [← hx]
      rcases Nat.mod_two_eq_zero_or_one side with hm | hm
      · have ho : opposite side % 2 = 1 := by unfold opposite; split <;> omega
        simp only [hm, ho, if_pos]
        rw [if_neg (by omega), Int.emod_add_emod, show x + -1 + 1 = x by ring, Int.emod_eq_of_lt hpd.1 hpd.2]
      · have ho : opposite side % 2 = 0 := by unfold opposite; split <;> omega
        simp only [hm, ho, if_pos]
        rw [if_neg (by omega), Int.emod_add_emod, show x + 1 + -1 = x by ring, Int.emod_eq_of_lt hpd.1 hpd.2]
    · next h => rw [across, get_set hd3 he, if_neg h]
  rw [hback, rank_position hp ha.1 ha.2]

example : ∃ A, decompose (K := Rat) ⟨3, 1, 1⟩ 0 (Grid.make ⟨0, 0, 0⟩ ⟨1, 1, 0⟩ ⟨6, 1, 1⟩ 0 ⟨6, 1, 1⟩) (fun _ => .periodic) = .ok A ∧ A.neighbour 0 = 2 ∧ A.neighbour 1 = 1 :=
  ⟨_, rfl, rfl, rfl⟩

/-- C46: a side on the edge of the domain keeps the boundary condition of the user and gets no neighbour, unless the condition is periodic and there are several processes in the
direction. All other sides are marked as exchanged and have as neighbour the rank of the adjacent position, wrapping around. -/
theorem C46_physical_boundaries {K : Type} [Field K] (p : I3) (hp : ProcessGrid p) (grid : Grid K) (user : Nat → Side) (hdims : 1 ≤ grid.dims.x ∧ 1 ≤ grid.dims.y ∧ 1 ≤ grid.dims.z)
    (hdiv : p.x ∣ grid.dims.x ∧ p.y ∣ grid.dims.y ∧ p.z ∣ grid.dims.z) (a : Int) (ha : IsRank p a) (c : I3) (hc : getCoordinates a p = .ok c) :
    ∃ A, decompose p a grid user = .ok A ∧ ∀ side, HasSide grid.dims side →
      (AtEdge p c side ∧ (user side ≠ .periodic ∨ p.get (side / 2) = 1) → A.bc side = user side ∧ A.neighbour side = -1) ∧
      (¬(AtEdge p c side ∧ (user side ≠ .periodic ∨ p.get (side / 2) = 1)) → A.bc side = .mpi ∧ IsRank p (A.neighbour side) ∧
        getCoordinates (A.neighbour side) p = .ok (c.set (side / 2) ((c.get (side / 2) + if side % 2 = 0 then -1 else 1) % p.get (side / 2)))) := by
  have hd0 : 0 ≤ grid.dims.x ∧ 0 ≤ grid.dims.y ∧ 0 ≤ grid.dims.z := by omega
  have hact : activeDimension grid.dims ≤ 3 := by unfold activeDimension; split <;> [skip; split] <;> omega
  rw [getCoordinates_ok hp ha.1] at hc
  have hc' : position p a = c := by injection hc
  obtain ⟨A, hA, -, -, -, -, -, hs⟩ := decompose_ok hp grid user hd0 hdiv ha.1 ha.2
  refine ⟨A, hA, fun side hside => ?_⟩
  rw [hasSide_iff] at hside
  have hin := position_inside hp ha.1 ha.2
  rw [hc'] at hs hin
  have hin' := across_inside hin (side := side) (by omega)
  have hedge : AtEdge p c side ↔ outermost p c side = true := by
    simp only [AtEdge, outermost, decide_eq_true_eq]
    rcases Nat.mod_two_eq_zero_or_one side with hm | hm <;> simp [hm]
  rw [hedge]
  refine ⟨(hs side hside).1, fun h => ?_⟩
  obtain ⟨h1, h2⟩ := (hs side hside).2 h
  rw [h2]
  exact ⟨h1, rank_bounds hin', by rw [getCoordinates_ok hp (rank_bounds hin').1, position_rank hin']; rfl⟩

example : AtEdge ⟨3, 1, 1⟩ ⟨2, 0, 0⟩ 1 ∧ ¬AtEdge ⟨3, 1, 1⟩ ⟨2, 0, 0⟩ 0 := by unfold AtEdge; decide

/-- C46 needs equal conditions on the two sides of a direction: with a periodic left and a Neumann right side the first rank has the last one as neighbour, but not the other way
round. The grid class accepts such conditions. -/
theorem C46_fails_for_mixed_boundaries :
    ∃ A B, decompose (K := Rat) ⟨2, 1, 1⟩ 0 (Grid.make ⟨0, 0, 0⟩ ⟨1, 1, 0⟩ ⟨4, 1, 1⟩ 0 ⟨4, 1, 1⟩) (fun s => if s = 0 then .periodic else .neumann) = .ok A ∧
      decompose (K := Rat) ⟨2, 1, 1⟩ 1 (Grid.make ⟨0, 0, 0⟩ ⟨1, 1, 0⟩ ⟨4, 1, 1⟩ 0 ⟨4, 1, 1⟩) (fun s => if s = 0 then .periodic else .neumann) = .ok B ∧
      A.neighbour 0 = 1 ∧ B.neighbour 1 = -1 :=
  ⟨_, _, rfl, rfl, rfl, rfl⟩

end Verif.Props.Parallel
