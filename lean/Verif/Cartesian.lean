import Verif.Iterate
import Verif.Boundary
import Mathlib.Tactic.IntervalCases

/-!
Model of the Cartesian domain decomposition: alsfvm/include/alsfvm/mpi/cartesian/{rank_component,rank_index}.hpp and
alsfvm/src/mpi/domain/CartesianDecomposition.cpp. Overflow of `int` is not modelled.
-/

namespace Verif.Cartesian

open Boundary (cmod)

/-- Division of `int` rounds towards zero; division by zero is undefined behaviour. -/
def cdiv (a b : Int) : Res Int := if b = 0 then .error .ub else .ok (Int.tdiv a b)

/-- `getCoordinates` (alsfvm/include/alsfvm/mpi/cartesian/rank_component.hpp:30-34). -/
def getCoordinates (rank : Int) (p : I3) : Res I3 := do
  let x ← cmod rank p.x
  let q ← cdiv rank p.x
  let y ← cmod q p.y
  let z ← cdiv rank (p.x * p.y)
  pure ⟨x, y, z⟩

/-- One component of `getRankIndex` (alsfvm/include/alsfvm/mpi/cartesian/rank_index.hpp:40-63): `if (x < 0) x += nx; if (x > nx - 1) x -= nx;`. -/
def wrapOnce (x n : Int) : Int :=
  let x := if x < 0 then x + n else x
  if x > n - 1 then x - n else x

/-- `getRankIndex` (rank_index.hpp:31-66). -/
def getRankIndex (c p : I3) : Int := wrapOnce c.x p.x + wrapOnce c.y p.y * p.x + wrapOnce c.z p.z * p.x * p.y

/-- `boundary::Type` (alsfvm/include/alsfvm/boundary/Type.hpp). -/
inductive Side where
  | neumann
  | periodic
  | mpi
  deriving DecidableEq, Repr

/-- What `decompose` returns (CartesianDecomposition.cpp:132-162): the local grid, its boundary conditions, and the neighbour of each side (-1 for none). -/
structure Part (K : Type) where
  grid : Grid K
  bc : Nat → Side
  neighbour : Nat → Int

/-- `getActiveDimension` (alsfvm/src/grid/Grid.cpp:131-139). -/
def activeDimension (dims : I3) : Nat := if dims.z > 1 then 3 else if dims.y > 1 then 2 else 1

/-- Is the position the first (even side) or last (odd side) in the direction of the side (CartesianDecomposition.cpp:93-94)? -/
def outermost (p node : I3) (side : Nat) : Bool :=
  decide ((side % 2 = 0 ∧ node.get (side / 2) = 0) ∨ (side % 2 = 1 ∧ node.get (side / 2) = p.get (side / 2) - 1))

/-- `neighbourPosition` (CartesianDecomposition.cpp:107-115). -/
def neighbourPosition (p node : I3) (side : Nat) : Res I3 := do
  let a := node.get (side / 2) + (if side % 2 = 0 then -1 else 1)
  let a := if a < 0 then a + p.get (side / 2) else a
  let a ← cmod a (p.get (side / 2))
  pure (node.set (side / 2) a)

/-- One round of the loop over the sides (CartesianDecomposition.cpp:90-128). -/
def sideStep (p node : I3) (user : Nat → Side) (s : (Nat → Side) × (Nat → Int)) (side : Nat) : Res ((Nat → Side) × (Nat → Int)) :=
  if outermost p node side = true ∧ (user side ≠ .periodic ∨ p.get (side / 2) = 1) then
    .ok (Function.update s.1 side (user side), Function.update s.2 side (-1))
  else do
    let q ← neighbourPosition p node side
    if getRankIndex q p < 0 then .error .thrown
    else .ok (s.1, Function.update s.2 side (getRankIndex q p))

/-- The divisibility test (CartesianDecomposition.cpp:52-58). -/
def checkDivides (dims p : I3) : Res Unit :=
  (List.range 3).foldlM (fun _ i => do
    let r ← cmod (dims.get i) (p.get i)
    if r ≠ 0 then .error .thrown else .ok ()) ()

/-- `decompose` (CartesianDecomposition.cpp:43-166) for one rank, for the platform "cpu". The neighbours of sides above the active dimension keep the value zero of the default
constructor of `ivec6` (alsutils/include/alsutils/vec6.hpp:32-35). -/
def decompose {K : Type} [Field K] (p : I3) (rank : Int) (grid : Grid K) (user : Nat → Side) : Res (Part K) := do
  checkDivides grid.dims p
  let node ← getCoordinates rank p
  let nx ← cdiv grid.dims.x p.x
  let ny ← cdiv grid.dims.y p.y
  let nz ← cdiv grid.dims.z p.z
  let start : I3 := ⟨nx * node.x, ny * node.y, nz * node.z⟩
  let h := grid.lengths
  let startPosition : V3 K := ⟨h.x * start.x + grid.origin.x, h.y * start.y + grid.origin.y, h.z * start.z + grid.origin.z⟩
  let active := activeDimension grid.dims
  let endPosition : V3 K :=
    ⟨startPosition.x + h.x * nx, if 1 < active then startPosition.y + h.y * ny else startPosition.y,
      if 2 < active then startPosition.z + h.z * nz else startPosition.z⟩
  let s ← (List.range (2 * active)).foldlM (sideStep p node user) (fun _ => .mpi, fun _ => 0)
  pure ⟨⟨startPosition, endPosition, ⟨nx, ny, nz⟩, h, start, grid.dims⟩, s.1, s.2⟩

/-! ### Lemmas -/

/-- All components at least one. -/
def Positive (p : I3) : Prop := 1 ≤ p.x ∧ 1 ≤ p.y ∧ 1 ≤ p.z

/-- `c` is a cell of a block of the given size. -/
def Inside (n c : I3) : Prop := (0 ≤ c.x ∧ c.x < n.x) ∧ (0 ≤ c.y ∧ c.y < n.y) ∧ (0 ≤ c.z ∧ c.z < n.z)

/-- Number of processes. -/
def count (p : I3) : Int := p.x * p.y * p.z

/-- Position of a rank. -/
def position (p : I3) (r : Int) : I3 := ⟨r % p.x, r / p.x % p.y, r / (p.x * p.y)⟩

theorem cmod_pos {a b : Int} (ha : 0 ≤ a) (hb : 1 ≤ b) : cmod a b = .ok (a % b) := by
  simp only [cmod, if_neg (show ¬b = 0 by omega), Int.tmod_eq_emod_of_nonneg ha]

theorem cdiv_pos {a b : Int} (ha : 0 ≤ a) (hb : 1 ≤ b) : cdiv a b = .ok (a / b) := by
  simp only [cdiv, if_neg (show ¬b = 0 by omega), Int.tdiv_eq_ediv_of_nonneg ha]

theorem getCoordinates_ok {p : I3} (hp : Positive p) {r : Int} (hr : 0 ≤ r) : getCoordinates r p = .ok (position p r) := by
  have h1 : 1 ≤ p.x * p.y := by nlinarith [hp.1, hp.2.1]
  have h2 : cmod (r / p.x) p.y = .ok (r / p.x % p.y) := cmod_pos (Int.ediv_nonneg hr (by have := hp.1; omega)) hp.2.1
  simp [getCoordinates, cmod_pos hr hp.1, cdiv_pos hr hp.1, cdiv_pos hr h1, h2, position]

theorem position_inside {p : I3} (hp : Positive p) {r : Int} (hr : 0 ≤ r) (hr' : r < count p) : Inside p (position p r) := by
  have hx := hp.1; have hy := hp.2.1
  have h1 : 1 ≤ p.x * p.y := by nlinarith
  refine ⟨⟨Int.emod_nonneg _ (by omega), Int.emod_lt_of_pos _ (by omega)⟩, ⟨Int.emod_nonneg _ (by omega), Int.emod_lt_of_pos _ (by omega)⟩, Int.ediv_nonneg hr (by omega), ?_⟩
  refine Int.ediv_lt_of_lt_mul (by omega) ?_
  rw [Int.mul_comm]; exact hr'

theorem wrapOnce_inside {x n : Int} (h0 : 0 ≤ x) (h1 : x < n) : wrapOnce x n = x := by
  simp only [wrapOnce]; omega

theorem getRankIndex_inside {c p : I3} (hc : Inside p c) : getRankIndex c p = c.x + c.y * p.x + c.z * p.x * p.y := by
  simp only [getRankIndex, wrapOnce_inside hc.1.1 hc.1.2, wrapOnce_inside hc.2.1.1 hc.2.1.2, wrapOnce_inside hc.2.2.1 hc.2.2.2]

theorem rank_bounds {c p : I3} (hc : Inside p c) : 0 ≤ getRankIndex c p ∧ getRankIndex c p < count p := by
  rw [getRankIndex_inside hc, count]
  obtain ⟨⟨x0, x1⟩, ⟨y0, y1⟩, z0, z1⟩ := hc
  have h1 : (c.y + 1) * p.x ≤ p.y * p.x := by nlinarith
  have h2 : (c.z + 1) * (p.x * p.y) ≤ p.z * (p.x * p.y) := by
    have : 0 ≤ p.x * p.y := by nlinarith
    nlinarith
  have h3 : 0 ≤ c.y * p.x := by nlinarith
  have h4 : 0 ≤ c.z * p.x * p.y := mul_nonneg (mul_nonneg z0 (by omega)) (by omega)
  constructor
  · omega
  · nlinarith

theorem position_rank {c p : I3} (hc : Inside p c) : position p (getRankIndex c p) = c := by
  rw [getRankIndex_inside hc]
  obtain ⟨⟨x0, x1⟩, ⟨y0, y1⟩, z0, z1⟩ := hc
  have e : c.x + c.y * p.x + c.z * p.x * p.y = c.x + p.x * (c.y + p.y * c.z) := by ring
  have hdiv : (c.x + p.x * (c.y + p.y * c.z)) / p.x = c.y + p.y * c.z := by
    rw [Int.add_mul_ediv_left _ _ (by omega), Int.ediv_eq_zero_of_lt x0 x1]; omega
  rw [e]
  ext
  · simp only [position]; rw [Int.add_mul_emod_self_left]; exact Int.emod_eq_of_lt x0 x1
  · simp only [position]; rw [hdiv, Int.add_mul_emod_self_left]; exact Int.emod_eq_of_lt y0 y1
  · simp only [position]; rw [← Int.ediv_ediv_of_nonneg (by omega), hdiv, Int.add_mul_ediv_left _ _ (by omega), Int.ediv_eq_zero_of_lt y0 y1]; omega

theorem rank_position {p : I3} (hp : Positive p) {r : Int} (hr : 0 ≤ r) (hr' : r < count p) : getRankIndex (position p r) p = r := by
  rw [getRankIndex_inside (position_inside hp hr hr')]
  simp only [position]
  have hx := hp.1
  rw [← Int.ediv_ediv_of_nonneg (show 0 ≤ p.x by omega)]
  have h1 := Int.emod_add_mul_ediv r p.x
  have h2 := Int.emod_add_mul_ediv (r / p.x) p.y
  calc _ = r % p.x + p.x * (r / p.x % p.y + p.y * (r / p.x / p.y)) := by ring
    _ = r := by rw [h2, h1]

theorem checkDivides_ok {dims p : I3} (hp : Positive p) (h : p.x ∣ dims.x ∧ p.y ∣ dims.y ∧ p.z ∣ dims.z) : checkDivides dims p = .ok () := by
  have e : ∀ {a b : Int}, 1 ≤ b → b ∣ a → cmod a b = .ok 0 := fun {a b} hb hd => by
    simp only [cmod, if_neg (show ¬b = 0 by omega), Int.tmod_eq_zero_of_dvd hd]
  simp [checkDivides, List.range_succ, I3.get, e hp.1 h.1, e hp.2.1 h.2.1, e hp.2.2 h.2.2]

theorem checkDivides_thrown {dims p : I3} (hp : Positive p) (h : ¬(p.x ∣ dims.x ∧ p.y ∣ dims.y ∧ p.z ∣ dims.z)) : checkDivides dims p = .error .thrown := by
  have e : ∀ {a b : Int}, 1 ≤ b → cmod a b = .ok (Int.tmod a b) := fun {a b} hb => by simp only [cmod, if_neg (show ¬b = 0 by omega)]
  have hd : ∀ {a b : Int}, Int.tmod a b = 0 ↔ b ∣ a := fun {a b} => Int.dvd_iff_tmod_eq_zero.symm
  by_cases h1 : p.x ∣ dims.x <;> by_cases h2 : p.y ∣ dims.y <;> by_cases h3 : p.z ∣ dims.z <;>
    simp_all [checkDivides, List.range_succ, I3.get, e hp.1, e hp.2.1, e hp.2.2]

/-- The position next to `c` across a side, wrapped around. -/
def across (p c : I3) (side : Nat) : I3 :=
  c.set (side / 2) ((c.get (side / 2) + (if side % 2 = 0 then -1 else 1)) % p.get (side / 2))

theorem inside_get {n c : I3} : Inside n c ↔ ∀ d < 3, 0 ≤ c.get d ∧ c.get d < n.get d := by
  constructor
  · rintro ⟨h1, h2, h3⟩ d hd
    interval_cases d <;> simp_all [I3.get]
  · intro h
    have h0 := h 0 (by omega); have h1 := h 1 (by omega); have h2 := h 2 (by omega)
    simp [I3.get] at h0 h1 h2
    exact ⟨h0, h1, h2⟩

theorem get_set {c : I3} {d e : Nat} {v : Int} (hd : d < 3) (he : e < 3) : (c.set d v).get e = if e = d then v else c.get e := by
  interval_cases d <;> interval_cases e <;> simp [I3.set, I3.get]

theorem ext_get {a b : I3} (h : ∀ d < 3, a.get d = b.get d) : a = b := by
  have h0 := h 0 (by omega); have h1 := h 1 (by omega); have h2 := h 2 (by omega)
  simp [I3.get] at h0 h1 h2
  ext <;> assumption

theorem across_inside {p c : I3} (hc : Inside p c) {side : Nat} (hs : side < 6) : Inside p (across p c side) := by
  rw [inside_get] at hc ⊢
  intro d hd
  have hd' : side / 2 < 3 := by omega
  have hp := hc (side / 2) hd'
  rw [across, get_set hd' hd]
  split
  · next h => subst h; exact ⟨Int.emod_nonneg _ (by omega), Int.emod_lt_of_pos _ (by omega)⟩
  · exact hc d hd

theorem neighbourPosition_ok {p c : I3} (hc : Inside p c) {side : Nat} (hs : side < 6) : neighbourPosition p c side = .ok (across p c side) := by
  have h := inside_get.1 hc (side / 2) (by omega)
  set a := c.get (side / 2) with ha
  set n := p.get (side / 2) with hn
  have key : ∀ o : Int, o = -1 ∨ o = 1 → cmod (if a + o < 0 then a + o + n else a + o) n = .ok ((a + o) % n) := by
    intro o ho
    split
    · next h' => rw [cmod_pos (by omega) (by omega), Int.add_emod_right]
    · next h' => rw [cmod_pos (by omega) (by omega)]
  simp only [neighbourPosition, across, ← ha, ← hn]
  have := key (if side % 2 = 0 then -1 else 1) (by split <;> simp)
  rw [this]
  rfl

/-- Does the side of the subdomain at `c` lie on the boundary of the whole domain, with a condition to apply there? -/
def physical (p : I3) (user : Nat → Side) (c : I3) (side : Nat) : Prop :=
  outermost p c side = true ∧ (user side ≠ .periodic ∨ p.get (side / 2) = 1)

instance (p : I3) (user : Nat → Side) (c : I3) (side : Nat) : Decidable (physical p user c side) := by unfold physical; infer_instance

theorem sides_ok {p c : I3} (hc : Inside p c) (user : Nat → Side) (m : Nat) (hm : m ≤ 6) :
    ∃ s, (List.range m).foldlM (sideStep p c user) (fun _ => .mpi, fun _ => 0) = .ok s ∧
      ∀ side < m, (physical p user c side → s.1 side = user side ∧ s.2 side = -1) ∧
        (¬physical p user c side → s.1 side = .mpi ∧ s.2 side = getRankIndex (across p c side) p) := by
  have key := foldlM_inv (sideStep p c user) (List.range m) (fun _ => .mpi, fun _ => 0)
    (fun pre s => (∀ side ∈ pre, (physical p user c side → s.1 side = user side ∧ s.2 side = -1) ∧
        (¬physical p user c side → s.1 side = .mpi ∧ s.2 side = getRankIndex (across p c side) p)) ∧ ∀ side, side ∉ pre → s.1 side = .mpi)
    ⟨by simp, by simp⟩ ?_
  · obtain ⟨s, h1, h2, -⟩ := key
    exact ⟨s, h1, fun side hside => h2 side (by simpa using hside)⟩
  · rintro pre i post s hl ⟨h1, h2⟩
    have hi : i < m := by have : i ∈ List.range m := by rw [hl]; simp
                          simpa using this
    have hnot : i ∉ pre := by
      have := hl ▸ List.nodup_range (n := m)
      rw [List.nodup_append] at this
      intro hmem
      exact this.2.2 i hmem i (by simp) rfl
    by_cases hph : physical p user c i
    · refine ⟨(Function.update s.1 i (user i), Function.update s.2 i (-1)), ?_, ?_, ?_⟩
      · unfold physical at hph; rw [sideStep, if_pos hph]
      · intro side hside
        by_cases e : side = i
        · subst e; simp [hph]
        · have := h1 side (by simpa [e] using hside)
          simpa [Function.update_of_ne e] using this
      · intro side hside
        have e : side ≠ i := fun h => hside (by simp [h])
        simpa [Function.update_of_ne e] using h2 side (fun h => hside (by simp [h]))
    · have hin := across_inside hc (side := i) (by omega)
      refine ⟨(s.1, Function.update s.2 i (getRankIndex (across p c i) p)), ?_, ?_, ?_⟩
      · have hneg : ¬getRankIndex (across p c i) p < 0 := by have := (rank_bounds hin).1; omega
        unfold physical at hph; rw [sideStep, if_neg hph, neighbourPosition_ok hc (by omega)]
        simp [hneg]
      · intro side hside
        by_cases e : side = i
        · subst e; simp [hph, h2 side hnot]
        · have := h1 side (by simpa [e] using hside)
          simpa [Function.update_of_ne e] using this
      · intro side hside
        exact h2 side (fun h => hside (by simp [h]))

/-- What `decompose` yields for an accepted process grid. -/
theorem decompose_ok {K : Type} [Field K] {p : I3} (hp : Positive p) (grid : Grid K) (user : Nat → Side)
    (hdims : 0 ≤ grid.dims.x ∧ 0 ≤ grid.dims.y ∧ 0 ≤ grid.dims.z)
    (hdiv : p.x ∣ grid.dims.x ∧ p.y ∣ grid.dims.y ∧ p.z ∣ grid.dims.z) {r : Int} (hr : 0 ≤ r) (hr' : r < count p) :
    ∃ part, decompose p r grid user = .ok part ∧
      part.grid.dims = ⟨grid.dims.x / p.x, grid.dims.y / p.y, grid.dims.z / p.z⟩ ∧
      part.grid.globalPosition = ⟨grid.dims.x / p.x * (position p r).x, grid.dims.y / p.y * (position p r).y, grid.dims.z / p.z * (position p r).z⟩ ∧
      part.grid.globalSize = grid.dims ∧ part.grid.lengths = grid.lengths ∧
      part.grid.origin = ⟨grid.lengths.x * part.grid.globalPosition.x + grid.origin.x, grid.lengths.y * part.grid.globalPosition.y + grid.origin.y,
        grid.lengths.z * part.grid.globalPosition.z + grid.origin.z⟩ ∧
      ∀ side < 2 * activeDimension grid.dims,
        (physical p user (position p r) side → part.bc side = user side ∧ part.neighbour side = -1) ∧
        (¬physical p user (position p r) side → part.bc side = .mpi ∧ part.neighbour side = getRankIndex (across p (position p r) side) p) := by
  have hact : 2 * activeDimension grid.dims ≤ 6 := by unfold activeDimension; split <;> [skip; split] <;> omega
  obtain ⟨s, h1, h2⟩ := sides_ok (position_inside hp hr hr') user _ hact
  have hok : ∃ top, decompose p r grid user = .ok ⟨⟨⟨grid.lengths.x * ((grid.dims.x / p.x * (position p r).x : Int) : K) + grid.origin.x,
      grid.lengths.y * ((grid.dims.y / p.y * (position p r).y : Int) : K) + grid.origin.y, grid.lengths.z * ((grid.dims.z / p.z * (position p r).z : Int) : K) + grid.origin.z⟩, top, ⟨grid.dims.x / p.x, grid.dims.y / p.y, grid.dims.z / p.z⟩, grid.lengths,
      ⟨grid.dims.x / p.x * (position p r).x, grid.dims.y / p.y * (position p r).y, grid.dims.z / p.z * (position p r).z⟩, grid.dims⟩, s.1, s.2⟩ := by
    simp only [decompose, checkDivides_ok hp hdiv, getCoordinates_ok hp hr, cdiv_pos hdims.1 hp.1, cdiv_pos hdims.2.1 hp.2.1, cdiv_pos hdims.2.2 hp.2.2, Res.ok_bind, h1, Res.pure_eq]
    exact ⟨_, rfl⟩
  obtain ⟨top, hok⟩ := hok
  exact ⟨_, hok, rfl, rfl, rfl, rfl, rfl, h2⟩

end Verif.Cartesian
