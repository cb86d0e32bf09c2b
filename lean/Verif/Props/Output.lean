import Verif.OutputLemmas
import Verif.HaloField
import Mathlib.Tactic.IntervalCases

/-! Property theorems C42 (names of output files) and C43 (layout of output files). -/

namespace Verif.Props.Output
open Verif Verif.Cartesian Verif.Halo Verif.Output Verif.Props.Parallel

/-! ### C42 -/

/-- C42: different pairs of base name and snapshot number give different names. -/
theorem C42_names_differ (a b : String) (m n : Nat) (h : (a, m) ≠ (b, n)) : getOutputname a m ≠ getOutputname b n := by
  intro he
  have hl : a.toList ++ '_' :: Nat.toDigits 10 m = b.toList ++ '_' :: Nat.toDigits 10 n := by
    have := congrArg String.toList he
    simpa [getOutputname, Nat.toList_repr] using this
  have key : ∀ (x y u w : List Char), '_' ∉ u → '_' ∉ w → x ++ '_' :: u = y ++ '_' :: w → x = y ∧ u = w := by
    intro x y u w hu hw hxy
    have hr := congrArg List.reverse hxy
    simp only [List.reverse_append, List.reverse_cons, List.append_assoc, List.singleton_append] at hr
    have aux : ∀ (u w x y : List Char), '_' ∉ u → '_' ∉ w → u ++ '_' :: x = w ++ '_' :: y → u = w ∧ x = y := by
      intro u
      induction u with
      | nil =>
        intro w x y _ hw h
        cases w with
        | nil => simpa using h
        | cons c w => simp only [List.nil_append, List.cons_append, List.cons.injEq] at h; exact absurd (by rw [← h.1]; simp) hw
      | cons d u ih =>
        intro w x y hu hw h
        cases w with
        | nil => simp only [List.nil_append, List.cons_append, List.cons.injEq] at h; exact absurd (by rw [h.1]; simp) hu
        | cons c w =>
          simp only [List.cons_append, List.cons.injEq] at h
          obtain ⟨e1, e2⟩ := ih w x y (fun hh => hu (List.mem_cons_of_mem _ hh)) (fun hh => hw (List.mem_cons_of_mem _ hh)) h.2
          exact ⟨by rw [h.1, e1], e2⟩
    obtain ⟨e1, e2⟩ := aux u.reverse w.reverse x.reverse y.reverse (by simpa using hu) (by simpa using hw) (by simpa using hr)
    exact ⟨List.reverse_injective e2, List.reverse_injective e1⟩
  obtain ⟨e1, e2⟩ := key _ _ _ _ Nat.underscore_not_in_toDigits Nat.underscore_not_in_toDigits hl
  have e3 : m = n := by rw [← Nat.ofDigitChars_ten_toDigits (n := m), e2, Nat.ofDigitChars_ten_toDigits]
  exact h (by rw [String.toList_injective e1, e3])

/-- Base names that end in an underscore and a number, as the other name does. -/
example : getOutputname "run_1" 12 ≠ getOutputname "run" 112 := C42_names_differ _ _ _ _ (by decide)

theorem filenames_eq (e base : String) (k s : Nat) (next : Nat → String × Nat) (hn : ∀ n, next n = (getOutputname base n ++ e, n + 1)) :
    filenames next k s = (List.range' s k).map fun n => getOutputname base n ++ e := by
  induction k generalizing s with
  | zero => rfl
  | succ k ih => rw [filenames, hn, ih, List.range'_succ]; rfl

/-- C42 for whole runs: the files written by any number of calls of one writer have pairwise different names, and two writers of the same kind with different base names have no file
name in common, whatever numbers they have reached. -/
theorem C42_snapshots_never_overwrite (a b : String) (k l s t : Nat) :
    (filenames (netcdfFilename a) k s).Nodup ∧ (filenames (hdf5Filename a) k s).Nodup ∧
      (a ≠ b → (∀ f ∈ filenames (netcdfFilename a) k s, f ∉ filenames (netcdfFilename b) l t) ∧ ∀ f ∈ filenames (hdf5Filename a) k s, f ∉ filenames (hdf5Filename b) l t) := by
  have inj : ∀ e : String, ∀ x y : String × Nat, getOutputname x.1 x.2 ++ e = getOutputname y.1 y.2 ++ e → x = y := by
    intro e x y h
    by_contra hne
    have h' := congrArg String.toList h
    simp only [String.toList_append, List.append_cancel_right_eq] at h'
    exact C42_names_differ x.1 y.1 x.2 y.2 hne (String.toList_injective h')
  have hn : ∀ c n, netcdfFilename c n = (getOutputname c n ++ ".nc", n + 1) := fun _ _ => rfl
  have hh : ∀ c n, hdf5Filename c n = (getOutputname c n ++ ".h5", n + 1) := fun _ _ => rfl
  have nd : ∀ e : String, ((List.range' s k).map fun n => getOutputname a n ++ e).Nodup := fun e =>
    List.Nodup.map (fun x y h => by have := inj e (a, x) (a, y) h; simpa using this) List.nodup_range'
  have dj : ∀ e : String, a ≠ b → ∀ f ∈ (List.range' s k).map (fun n => getOutputname a n ++ e), f ∉ (List.range' t l).map fun n => getOutputname b n ++ e := by
    intro e hab f hf hf'
    obtain ⟨x, -, rfl⟩ := List.mem_map.1 hf
    obtain ⟨y, -, h⟩ := List.mem_map.1 hf'
    have := inj e (b, y) (a, x) h
    simp only [Prod.mk.injEq] at this
    exact hab this.1.symm
  rw [filenames_eq ".nc" a k s _ (hn a), filenames_eq ".nc" b l t _ (hn b), filenames_eq ".h5" a k s _ (hh a), filenames_eq ".h5" b l t _ (hh b)]
  exact ⟨nd _, nd _, fun hab => ⟨dj _ hab, dj _ hab⟩⟩

example : filenames (netcdfFilename "out") 3 0 = ["out_0.nc", "out_1.nc", "out_2.nc"] ∧ "out" ≠ "out_1" := by decide +kernel

/-! ### C43 -/

variable {α : Type}

/-- C43, serial writers, for all sizes and contents: the file is written, and its entry `(x,y,z)` is the cell `(i,j,k)` with `(x ny + y) nz + z = (k ny + j) nx + i`; that is, the
data are right if they are read as an array with the dimensions `nz, ny, nx`. What is missing: the file declares the dimensions `nx, ny, nz`, and then entry and cell have the same
coordinates only for one-dimensional grids (`C43_serial_iff`). -/
theorem C43_serial_layout_partial (fill : α) (v : Volume α) (hv : v.WF) (var : Nat) (m : Mem α) (hm : v.areas[var]? = some m) :
    ∃ file, netcdfWrite fill v var = .ok file ∧ hdf5Write fill v var = .ok file ∧ (∀ p, file.inb p = true ↔ Cell ⟨v.nx, v.ny, v.nz⟩ p) ∧
      ∀ x y z i j k : Nat, x < v.nx → y < v.ny → z < v.nz → i < v.nx → j < v.ny → k < v.nz → (x * v.ny + y) * v.nz + z = (k * v.ny + j) * v.nx + i →
        file.val ⟨x, y, z⟩ = v.interior m i j k := by
  obtain ⟨data, h1, h2, h3⟩ := interiorData_ok fill v hv var m hm
  obtain ⟨file, g1, g2, g3, -⟩ := putVara_ok (volumeDims v) ⟨0, 0, 0⟩ (volumeDims v) data (field (volumeDims v) fun _ => fill) rfl
    (by simp [volumeDims]) (by intro i; rw [h2]; rfl)
  refine ⟨file, by simp only [netcdfWrite, h1]; exact g1, by simp only [hdf5Write, h1]; exact g1, fun p => ?_, ?_⟩
  · rw [g2, inSize_iff]
    simp only [volumeDims, Cell]
    omega
  · intro x y z i j k hx hy hz hi hj hk he
    have := g3 ⟨x, y, z⟩ (by simp only [mem_box, volumeDims]; omega)
    rw [show (⟨0, 0, 0⟩ : I3) + ⟨x, y, z⟩ = ⟨x, y, z⟩ by ext <;> simp] at this
    rw [this, ← h3 i j k hi hj hk]
    congr 1
    simp only [rowMajor, volumeDims]
    have e : ((x : Int) * v.ny + y) * v.nz + z = (((x * v.ny + y) * v.nz + z : Nat) : Int) := by push_cast; rfl
    rw [e, he, Int.toNat_natCast]
    ring

/-- The volume `3 × 2` with one ghost layer: entry `(1,0)` of the file is the third number of the buffer, that is cell `(2,0)`. -/
example : ∃ file, netcdfWrite 0 (Volume.mk' 3 2 1 1 [fun i => i]) 0 = .ok file ∧ file.val ⟨1, 0, 0⟩ = (Volume.mk' 3 2 1 1 [fun i => i]).interior ⟨5, 4, 1, fun i => i⟩ 2 0 0 := by
  obtain ⟨file, h1, -, -, h2⟩ := C43_serial_layout_partial 0 (Volume.mk' 3 2 1 1 [fun i => i]) (Volume.wf_mk' _ _ _ _ _) 0 ⟨5, 4, 1, fun i => i⟩ rfl
  exact ⟨file, h1, h2 1 0 0 2 0 0 (by decide) (by decide) (by decide) (by decide) (by decide) (by decide) (by decide)⟩

/-- The property of the serial writers for one size: whatever the ghost widths and the contents, each entry of the file is the cell with the same coordinates. -/
def SerialRight (α : Type) (nx ny nz : Nat) : Prop := ∀ (fill : α) (v : Volume α), v.WF → v.nx = nx → v.ny = ny → v.nz = nz → ∀ var m, v.areas[var]? = some m →
  ∃ file, netcdfWrite fill v var = .ok file ∧ ∀ x y z : Nat, x < nx → y < ny → z < nz → file.val ⟨x, y, z⟩ = v.interior m x y z

/-- C43, serial writers: the property holds exactly for grids with at most one direction of more than one cell (and is false for all others). -/
theorem C43_serial_iff [Nontrivial α] (nx ny nz : Nat) (hx : 1 ≤ nx) (hy : 1 ≤ ny) (hz : 1 ≤ nz) :
    SerialRight α nx ny nz ↔ (ny = 1 ∧ nz = 1) ∨ (nx = 1 ∧ nz = 1) ∨ (nx = 1 ∧ ny = 1) := by
  constructor
  · intro h
    obtain ⟨a, b, hab⟩ := exists_pair_ne α
    classical
    -- the volume without ghost cells whose cell at position one of the buffer is `b`, and all others `a`
    set v : Volume α := ⟨nx, ny, nz, 0, 0, 0, [⟨nx, ny, nz, fun i => if i = 1 then b else a⟩]⟩ with hv
    have hwf : v.WF := by
      intro m hm
      simp only [hv, List.mem_singleton] at hm
      subst hm
      simp [hv, Volume.tx, Volume.ty, Volume.tz]
    obtain ⟨file, hf, hr⟩ := h a v hwf rfl rfl rfl 0 _ rfl
    obtain ⟨file', hf', -, -, hr'⟩ := C43_serial_layout_partial a v hwf 0 _ rfl
    rw [hf] at hf'
    cases hf'
    have hval : ∀ i j k, v.interior ⟨nx, ny, nz, fun i => if i = 1 then b else a⟩ i j k = if k * nx * ny + j * nx + i = 1 then b else a := by
      intro i j k
      simp [Volume.interior, calculateIndex, hv, Volume.tx, Volume.ty]
    by_contra hcon
    rcases Nat.lt_or_ge 1 nx with h1 | h1
    · -- cell (1,0,0)
      have e1 := hr 1 0 0 h1 hy hz
      rw [hval, if_pos (by simp)] at e1
      have hbig : 2 ≤ ny * nz := by
        rcases Nat.lt_or_ge 1 ny with h2 | h2
        · nlinarith
        · have : 2 ≤ nz := by omega
          nlinarith
      -- the entry (1,0,0) has position ny*nz
      have hlt : ny * nz < nx * ny * nz := by nlinarith [Nat.mul_le_mul_right (ny * nz) h1]
      set c := ny * nz with hc
      have hi : c % nx < nx := Nat.mod_lt _ hx
      have hj : c / nx % ny < ny := Nat.mod_lt _ hy
      have hk : c / nx / ny < nz := by
        rw [Nat.div_div_eq_div_mul]
        exact Nat.div_lt_of_lt_mul hlt
      have hdec : (c / nx / ny * ny + c / nx % ny) * nx + c % nx = c := by
        rw [Nat.div_add_mod', Nat.div_add_mod']
      have e2 := hr' 1 0 0 (c % nx) (c / nx % ny) (c / nx / ny) h1 hy hz hi hj hk (by
        show (1 * ny + 0) * nz + 0 = (c / nx / ny * ny + c / nx % ny) * nx + c % nx
        rw [hdec, hc]; ring)
      rw [hval, if_neg (by
        have : c / nx / ny * nx * ny + c / nx % ny * nx + c % nx = (c / nx / ny * ny + c / nx % ny) * nx + c % nx := by ring
        rw [this, hdec]; omega)] at e2
      push_cast at e1 e2
      exact hab (e2.symm.trans e1)
    · -- cell (0,1,0)
      have h1' : nx = 1 := by omega
      have h2 : 2 ≤ ny := by omega
      have h3 : 2 ≤ nz := by omega
      have e1 := hr 0 1 0 hx h2 hz
      rw [hval, if_pos (by rw [h1']; simp)] at e1
      have hdec : nz / ny * ny + nz % ny = nz := Nat.div_add_mod' _ _
      have hk : nz / ny < nz := Nat.div_lt_self (by omega) h2
      have e2 := hr' 0 1 0 0 (nz % ny) (nz / ny) hx h2 hz hx (Nat.mod_lt _ hy) hk (by
        show (0 * ny + 1) * nz + 0 = (nz / ny * ny + nz % ny) * nx + 0
        rw [hdec, h1']; ring)
      rw [hval, if_neg (by rw [h1']; simp only [mul_one, add_zero]; rw [hdec]; omega)] at e2
      push_cast at e1 e2
      exact hab (e2.symm.trans e1)
  · intro h fill v hv e1 e2 e3 var m hm
    obtain ⟨file, hf, -, -, hr⟩ := C43_serial_layout_partial fill v hv var m hm
    refine ⟨file, hf, fun x y z h1 h2 h3 => hr x y z x y z (by omega) (by omega) (by omega) (by omega) (by omega) (by omega) ?_⟩
    rw [e1, e2, e3]
    rcases h with ⟨rfl, rfl⟩ | ⟨rfl, rfl⟩ | ⟨rfl, rfl⟩
    · obtain rfl : y = 0 := by omega
      obtain rfl : z = 0 := by omega
      simp
    · obtain rfl : x = 0 := by omega
      obtain rfl : z = 0 := by omega
      simp
    · obtain rfl : x = 0 := by omega
      obtain rfl : y = 0 := by omega
      simp

example : SerialRight ℤ 5 1 1 ∧ ¬SerialRight ℤ 2 2 1 := by
  refine ⟨(C43_serial_iff 5 1 1 (by decide) (by decide) (by decide)).2 (by decide), fun h => ?_⟩
  exact absurd ((C43_serial_iff 2 2 1 (by decide) (by decide) (by decide)).1 h) (by decide)

section
variable {K : Type} [Field K] {p : I3} {grid : Grid K} {user : Nat → Side} {part : Int → Part K}

/-- Each part lies in the global grid, also after the exchange of coordinates if the exchanged sizes agree. -/
theorem block_inside (h : Decomposed p grid user part) {r : Int} (hr : IsRank p r) {d : Nat} (hd : d < 3) :
    0 ≤ (part r).grid.globalPosition.get d ∧ (part r).grid.globalPosition.get d + (part r).grid.dims.get d ≤ grid.dims.get d := by
  obtain ⟨h1, h2, -, h4, -⟩ := h.facts hr
  obtain ⟨s1, s2, s3⟩ := h.sizes hd
  have hin := inside_get.1 h4 d hd
  rw [h1, h2 d hd, ← s3]
  constructor
  · exact mul_nonneg (by omega) hin.1
  · nlinarith [mul_le_mul_of_nonneg_left (show (position p r).get d + 1 ≤ p.get d by omega) (show 0 ≤ (localSize grid.dims p).get d by omega)]

theorem part_globalSize (h : Decomposed p grid user part) {r : Int} (hr : IsRank p r) : (part r).grid.globalSize = grid.dims := by
  obtain ⟨q, h1, -, -, h2, -⟩ := decompose_ok h.procs grid user ⟨by have := h.dims.1; omega, by have := h.dims.2.1; omega, by have := h.dims.2.2; omega⟩ h.div hr.1 hr.2
  rw [h.parts r hr] at h1
  cases h1
  exact h2

theorem part_positive (h : Decomposed p grid user part) {r : Int} (hr : IsRank p r) : 1 ≤ (part r).grid.dims.x ∧ 1 ≤ (part r).grid.dims.y ∧ 1 ≤ (part r).grid.dims.z := by
  rw [(h.facts hr).1]
  exact ⟨(h.sizes (d := 0) (by decide)).2.1, (h.sizes (d := 1) (by decide)).2.1, (h.sizes (d := 2) (by decide)).2.1⟩

/-- Every global cell lies in a part. -/
theorem cell_in_part (h : Decomposed p grid user part) (c : I3) (hc : Cell grid.dims c) : ∃ r, IsRank p r ∧ ∃ b, Inside (part r).grid.dims b ∧ b + (part r).grid.globalPosition = c := by
  obtain ⟨part', h1, -, -, h4, -⟩ := C45_tiles_partial p h.procs grid user h.dims h.div
  obtain ⟨⟨r, b⟩, ⟨hr, hb, he⟩, -⟩ := h4 c hc
  simp only at hr hb he
  have : part' r = part r := by
    have := h1 r hr
    rw [h.parts r hr] at this
    exact (Except.ok.inj this).symm
  rw [this] at hb he
  exact ⟨r, hr, b, hb, he⟩

/-- C43, parallel against serial writer: for every decomposition, every content and every order in which the data of the ranks arrive, the parallel netCDF writer writes the same variable as the
serial one, provided that the grid is one-dimensional, or two-dimensional with as many cells in x as in y, or three-dimensional with as many cells in x as in z, and that
each part has as many dimensions as the grid. What is missing: for all other sizes the parallel writer fails (`C43_parallel_fails_unless_square`), and parts with fewer dimensions than the
grid give a different file (`C43_parallel_differs_for_flat_parts`). -/
theorem C43_parallel_equals_serial_partial (h : Decomposed p grid user part) (hflat : activeDimension (localSize grid.dims p) = activeDimension grid.dims)
    (hsquare : (activeDimension grid.dims = 2 → grid.dims.x = grid.dims.y) ∧ (activeDimension grid.dims = 3 → grid.dims.x = grid.dims.z))
    (fill : α) (f : I3 → α) (v : Int → Volume α) (w : Volume α) (var : Nat) (hv : ∀ r, IsRank p r → HoldsField f (part r).grid.dims (part r).grid.globalPosition (v r) var)
    (hw : HoldsField f grid.dims ⟨0, 0, 0⟩ w var) (order : List Int) (horder : ∀ r, r ∈ order ↔ IsRank p r) :
    ∃ file file', netcdfMpiWriteAll fill (fun r => (part r).grid) v var order grid.dims = .ok file ∧ netcdfWrite fill w var = .ok file' ∧
      (∀ q, file.inb q = file'.inb q) ∧ ∀ q, Cell grid.dims q → file.val q = file'.val q := by
  set a := activeDimension grid.dims with ha
  have hswap : swapDims a grid.dims = grid.dims := by
    simp only [swapDims]
    split_ifs with h2 h3
    · have := hsquare.1 h2; ext <;> simp [this]
    · have := hsquare.2 h3; ext <;> simp [this]
    · rfl
  have hact : ∀ r, IsRank p r → activeDimension (part r).grid.dims = a := fun r hr => by rw [(h.facts hr).1, hflat]
  have hin : ∀ r, IsRank p r → ∀ d < 3, 0 ≤ (swapDims a (part r).grid.globalPosition).get d ∧
      (swapDims a (part r).grid.globalPosition).get d + (swapDims a (part r).grid.dims).get d ≤ (part r).grid.globalSize.get d := by
    intro r hr d hd
    rw [part_globalSize h hr, ← hswap]
    have b0 := block_inside h hr (d := 0) (by decide)
    have b1 := block_inside h hr (d := 1) (by decide)
    have b2 := block_inside h hr (d := 2) (by decide)
    simp only [swapDims]
    split_ifs <;> interval_cases d <;> first | exact b0 | exact b1 | exact b2
  obtain ⟨file, g1, g2, g3⟩ := foldlM_inv (fun file r => netcdfMpiWrite fill (part r).grid (v r) var file) order (field grid.dims fun _ => fill)
    (fun pre file => file.inb = inSize grid.dims ∧ ∀ r ∈ pre, ∀ c, Inside (part r).grid.dims c →
      file.val (swapDims a (c + (part r).grid.globalPosition)) = f (c + (part r).grid.globalPosition)) ⟨rfl, by simp⟩
    (by
      rintro pre r post s hl ⟨hs1, hs2⟩
      have hr : IsRank p r := (horder r).1 (by rw [hl]; simp)
      obtain ⟨s', e1, e2, e3, e4⟩ := netcdfMpiWrite_ok fill f (part r).grid (v r) var s (by rw [part_globalSize h hr]; exact hs1) (part_positive h hr) (hv r hr)
        (by rw [hact r hr]; exact hin r hr)
      rw [hact r hr] at e3 e4
      refine ⟨s', e1, by rw [e2, part_globalSize h hr], fun r' hr' c hc => ?_⟩
      rcases List.mem_append.1 hr' with hm | hm
      · by_cases hex : ∃ b, Inside (part r).grid.dims b ∧ swapDims a (b + (part r).grid.globalPosition) = swapDims a (c + (part r').grid.globalPosition)
        · obtain ⟨b, hb, he⟩ := hex
          have : b + (part r).grid.globalPosition = c + (part r').grid.globalPosition := by
            have := congrArg (swapDims a) he
            rwa [swapDims_swapDims, swapDims_swapDims] at this
          rw [← this]
          exact e3 b hb
        · rw [e4 _ fun b hb he => hex ⟨b, hb, he⟩]
          exact hs2 r' hm c hc
      · obtain rfl : r' = r := by simpa using hm
        exact e3 c hc)
  obtain ⟨hwf, ex, ey, ez, m, hm, hval⟩ := hw
  obtain ⟨file', k1, -, k2, k3⟩ := C43_serial_layout_partial fill w hwf var m hm
  have hdims : (⟨w.nx, w.ny, w.nz⟩ : I3) = grid.dims := by ext <;> simp [ex, ey, ez]
  refine ⟨file, file', g1, k1, fun q => ?_, fun q hq => ?_⟩
  · rw [g2, Bool.eq_iff_iff, inSize_iff, k2, hdims]
    simp only [Cell]
    tauto
  · -- the entry `q` holds the cell `swapDims a q`
    have hc : Cell grid.dims (swapDims a q) := by
      have := (swapDims_inside a grid.dims q).2 hq
      rwa [hswap] at this
    obtain ⟨r, hr, b, hb, he⟩ := cell_in_part h _ hc
    have e1 := g3 r ((horder r).2 hr) b hb
    rw [he, swapDims_swapDims] at e1
    rw [e1]
    obtain ⟨⟨x0, x1⟩, ⟨y0, y1⟩, z0, z1⟩ := hq
    obtain ⟨⟨X0, X1⟩, ⟨Y0, Y1⟩, Z0, Z1⟩ := hc
    have e2 := k3 q.x.toNat q.y.toNat q.z.toNat (swapDims a q).x.toNat (swapDims a q).y.toNat (swapDims a q).z.toNat (by omega) (by omega) (by omega) (by omega) (by omega) (by omega)
    rw [hval _ _ _ (by omega) (by omega) (by omega)] at e2
    have eq1 : (⟨(q.x.toNat : Int), (q.y.toNat : Int), (q.z.toNat : Int)⟩ : I3) = q := by ext <;> simp <;> omega
    have eq2 : (⟨((swapDims a q).x.toNat : Int), ((swapDims a q).y.toNat : Int), ((swapDims a q).z.toNat : Int)⟩ : I3) + ⟨0, 0, 0⟩ = swapDims a q := by
      ext <;> simp <;> omega
    rw [eq1, eq2] at e2
    symm
    apply e2
    have hlast : (q.x * w.ny + q.y) * w.nz + q.z = ((swapDims a q).z * w.ny + (swapDims a q).y) * w.nx + (swapDims a q).x := by
      rw [ex, ey, ez]
      have hd := h.dims
      simp only [activeDimension] at ha
      split_ifs at ha with h3 h2
      · have := hsquare.2 ha
        rw [ha, this]
        simp [swapDims]
      · have := hsquare.1 ha
        have hz : grid.dims.z = 1 := by omega
        have hq0 : q.z = 0 := by omega
        rw [ha, hz, hq0, this]
        simp [swapDims, hq0]
      · have hz : grid.dims.z = 1 := by omega
        have hy : grid.dims.y = 1 := by omega
        have hq0 : q.z = 0 := by omega
        have hq1 : q.y = 0 := by omega
        rw [ha, hz, hy, hq0, hq1]
        simp [swapDims, hq0, hq1]
    zify
    rw [Int.toNat_of_nonneg x0, Int.toNat_of_nonneg y0, Int.toNat_of_nonneg z0, Int.toNat_of_nonneg X0, Int.toNat_of_nonneg Y0, Int.toNat_of_nonneg Z0]
    exact hlast

/-- C43 is false for the parallel netCDF writer and every grid that is two-dimensional with different numbers of cells in x and y, or three-dimensional with different numbers in x and z,
on any number of processes (one included) as long as the parts have as many dimensions as the grid: the write fails with an exception. -/
theorem C43_parallel_fails_unless_square (h : Decomposed p grid user part) (hflat : activeDimension (localSize grid.dims p) = activeDimension grid.dims)
    (hsquare : (activeDimension grid.dims = 2 ∧ grid.dims.x ≠ grid.dims.y) ∨ (activeDimension grid.dims = 3 ∧ grid.dims.x ≠ grid.dims.z))
    (fill : α) (f : I3 → α) (v : Int → Volume α) (var : Nat) (hv : ∀ r, IsRank p r → HoldsField f (part r).grid.dims (part r).grid.globalPosition (v r) var)
    (order : List Int) (horder : ∀ r, r ∈ order ↔ IsRank p r) :
    netcdfMpiWriteAll fill (fun r => (part r).grid) v var order grid.dims = .error .thrown := by
  set a := activeDimension grid.dims with ha
  have hact : ∀ r, IsRank p r → activeDimension (part r).grid.dims = a := fun r hr => by rw [(h.facts hr).1, hflat]
  -- each rank succeeds for all files or throws for all files
  have each : ∀ r, IsRank p r → (¬∀ d < 3, (swapDims a (part r).grid.globalPosition).get d + (swapDims a (part r).grid.dims).get d ≤ grid.dims.get d) →
      ∀ file, netcdfMpiWrite fill (part r).grid (v r) var file = .error .thrown := by
    intro r hr hbad file
    obtain ⟨hwf, -, -, -, m, hm, -⟩ := hv r hr
    obtain ⟨data, h1, -, -⟩ := interiorData_ok fill (v r) hwf var m hm
    simp only [netcdfMpiWrite, h1]
    show putVara _ _ _ _ _ = _
    rw [putVara, if_neg]
    rintro ⟨⟨-, k0⟩, ⟨-, k1⟩, -, k2⟩
    rw [part_globalSize h hr, hact r hr] at k0 k1 k2
    refine hbad fun d hd => ?_
    interval_cases d
    · exact k0
    · exact k1
    · exact k2
  have all : ∀ r, IsRank p r → ∀ file, file.inb = inSize grid.dims → (∃ file', netcdfMpiWrite fill (part r).grid (v r) var file = .ok file' ∧ file'.inb = inSize grid.dims) ∨
      netcdfMpiWrite fill (part r).grid (v r) var file = .error .thrown := by
    intro r hr file hfile
    by_cases hgood : ∀ d < 3, (swapDims a (part r).grid.globalPosition).get d + (swapDims a (part r).grid.dims).get d ≤ grid.dims.get d
    · left
      obtain ⟨file', e1, e2, -⟩ := netcdfMpiWrite_ok fill f (part r).grid (v r) var file (by rw [part_globalSize h hr]; exact hfile) (part_positive h hr) (hv r hr) (by
        rw [hact r hr, part_globalSize h hr]
        intro d hd
        refine ⟨?_, hgood d hd⟩
        have b0 := (block_inside h hr (d := 0) (by decide)).1
        have b1 := (block_inside h hr (d := 1) (by decide)).1
        have b2 := (block_inside h hr (d := 2) (by decide)).1
        simp only [swapDims]
        split_ifs <;> interval_cases d <;> first | exact b0 | exact b1 | exact b2)
      exact ⟨file', e1, by rw [e2, part_globalSize h hr]⟩
    · exact .inr (each r hr hgood file)
  have fold : ∀ (l : List Int), (∀ r ∈ l, IsRank p r) → ∀ file : Arr I3 α, file.inb = inSize grid.dims →
      (∃ r ∈ l, ¬∀ d < 3, (swapDims a (part r).grid.globalPosition).get d + (swapDims a (part r).grid.dims).get d ≤ grid.dims.get d) →
      l.foldlM (fun file r => netcdfMpiWrite fill (part r).grid (v r) var file) file = .error .thrown := by
    intro l
    induction l with
    | nil => rintro - file - ⟨r, hr, -⟩; cases hr
    | cons r l ih =>
      intro hl file hfile hex
      rw [List.foldlM_cons]
      rcases all r (hl r (by simp)) file hfile with ⟨file', e1, e2⟩ | e
      · rw [e1]
        refine ih (fun r hr => hl r (List.mem_cons_of_mem _ hr)) file' e2 ?_
        obtain ⟨s, hs, hbad⟩ := hex
        rcases List.mem_cons.1 hs with rfl | hs
        · rw [each s (hl s (by simp)) hbad] at e1
          cases e1
        · exact ⟨s, hs, hbad⟩
      · rw [e]; rfl
  refine fold order (fun r hr => (horder r).1 hr) _ rfl ?_
  -- the rank at the end of direction `e` writes up to the size of that direction
  have last : ∀ e < 3, ∃ r, IsRank p r ∧ (part r).grid.globalPosition.get e + (part r).grid.dims.get e = grid.dims.get e := by
    intro e he
    obtain ⟨hp1, hp2, hp3⟩ := h.procs
    have hin : Inside p ((⟨0, 0, 0⟩ : I3).set e (p.get e - 1)) := by
      interval_cases e <;> simp only [I3.set, I3.get, Inside] <;> simp <;> omega
    refine ⟨_, rank_bounds hin, ?_⟩
    obtain ⟨h1, h2, -⟩ := h.facts (rank_bounds hin)
    rw [h2 e he, h1, position_rank hin, get_set he he, if_pos rfl, ← (h.sizes he).2.2]
    ring
  rcases hsquare with ⟨h2, hne⟩ | ⟨h3, hne⟩
  · rcases lt_or_gt_of_ne hne with hlt | hlt
    · obtain ⟨r, hr, e⟩ := last 1 (by decide)
      refine ⟨r, (horder r).2 hr, fun hall => ?_⟩
      have := hall 0 (by decide)
      rw [h2] at this
      simp only [swapDims, if_true, I3.get] at this e
      simp at this e
      omega
    · obtain ⟨r, hr, e⟩ := last 0 (by decide)
      refine ⟨r, (horder r).2 hr, fun hall => ?_⟩
      have := hall 1 (by decide)
      rw [h2] at this
      simp only [swapDims, if_true, I3.get] at this e
      simp at this e
      omega
  · rcases lt_or_gt_of_ne hne with hlt | hlt
    · obtain ⟨r, hr, e⟩ := last 2 (by decide)
      refine ⟨r, (horder r).2 hr, fun hall => ?_⟩
      have := hall 0 (by decide)
      rw [h3] at this
      simp only [swapDims, I3.get] at this e
      simp at this e
      omega
    · obtain ⟨r, hr, e⟩ := last 0 (by decide)
      refine ⟨r, (horder r).2 hr, fun hall => ?_⟩
      have := hall 2 (by decide)
      rw [h3] at this
      simp only [swapDims, I3.get] at this e
      simp at this e
      omega

end

/-! Examples and counterexamples on concrete grids. -/

/-- The volume without ghost cells that holds `f` on the block of size `dims` at `pos`. -/
def blockVolume (f : I3 → α) (dims pos : I3) : Volume α :=
  ⟨dims.x.toNat, dims.y.toNat, dims.z.toNat, 0, 0, 0, [⟨dims.x.toNat, dims.y.toNat, dims.z.toNat, fun i =>
    f (⟨(i % dims.x.toNat : Nat), (i / dims.x.toNat % dims.y.toNat : Nat), (i / dims.x.toNat / dims.y.toNat : Nat)⟩ + pos)⟩]⟩

theorem blockVolume_holds (f : I3 → α) (dims pos : I3) (h : 0 ≤ dims.x ∧ 0 ≤ dims.y ∧ 0 ≤ dims.z) : HoldsField f dims pos (blockVolume f dims pos) 0 := by
  refine ⟨?_, by simp [blockVolume, h.1], by simp [blockVolume, h.2.1], by simp [blockVolume, h.2.2], _, rfl, fun i j k hi hj hk => ?_⟩
  · intro m hm
    simp only [blockVolume, List.mem_singleton] at hm
    subst hm
    simp [blockVolume, Volume.tx, Volume.ty, Volume.tz]
  · simp only [blockVolume] at hi hj hk
    simp only [Volume.interior, calculateIndex, blockVolume, Volume.tx, Volume.ty, Nat.mul_zero, Nat.add_zero]
    set X := dims.x.toNat
    set Y := dims.y.toNat
    have e1 : (k * X * Y + j * X + i) % X = i := by
      rw [show k * X * Y + j * X + i = i + X * (k * Y + j) by ring, Nat.add_mul_mod_self_left, Nat.mod_eq_of_lt hi]
    have e2 : (k * X * Y + j * X + i) / X = j + Y * k := by
      rw [show k * X * Y + j * X + i = i + X * (j + Y * k) by ring, Nat.add_mul_div_left _ _ (by omega), Nat.div_eq_of_lt hi]; omega
    rw [e1, e2, Nat.add_mul_mod_self_left, Nat.mod_eq_of_lt hj, Nat.add_mul_div_left _ _ (by omega), Nat.div_eq_of_lt hj, Nat.zero_add]

/-- A grid of the size given with unit cells. -/
def unitGrid (dims : I3) : Grid ℚ := ⟨⟨0, 0, 0⟩, ⟨dims.x, dims.y, dims.z⟩, dims, ⟨1, 1, 1⟩, ⟨0, 0, 0⟩, dims⟩

/-- Its parts on the process grid `p`. -/
def unitPart (p dims : I3) (r : Int) : Part ℚ :=
  match decompose p r (unitGrid dims) (fun _ => .periodic) with
  | .ok q => q
  | .error _ => ⟨unitGrid dims, fun _ => .periodic, fun _ => 0⟩

theorem unit_decomposed (p dims : I3) (hp : ProcessGrid p) (hd : 1 ≤ dims.x ∧ 1 ≤ dims.y ∧ 1 ≤ dims.z) (hv : p.x ∣ dims.x ∧ p.y ∣ dims.y ∧ p.z ∣ dims.z) :
    Decomposed p (unitGrid dims) (fun _ => .periodic) (unitPart p dims) := by
  refine ⟨hp, hd, hv, fun _ => rfl, fun r hr => ?_⟩
  obtain ⟨q, h, -⟩ := decompose_ok hp (unitGrid dims) (fun _ => .periodic) ⟨by simp only [unitGrid]; omega, by simp only [unitGrid]; omega, by simp only [unitGrid]; omega⟩ hv hr.1 hr.2
  simp only [unitPart, h]

/-- A `4 × 4` grid on `2 × 2` processes, written in any order of the ranks. -/
example (f : I3 → Nat) (order : List Int) (horder : ∀ r, r ∈ order ↔ IsRank ⟨2, 2, 1⟩ r) := by
  have h := unit_decomposed ⟨2, 2, 1⟩ ⟨4, 4, 1⟩ (by unfold ProcessGrid; decide) (by decide) (by decide)
  exact C43_parallel_equals_serial_partial h (by decide) ⟨fun _ => rfl, fun h => absurd h (by decide)⟩ 0 f
    (fun r => blockVolume f (unitPart ⟨2, 2, 1⟩ ⟨4, 4, 1⟩ r).grid.dims (unitPart ⟨2, 2, 1⟩ ⟨4, 4, 1⟩ r).grid.globalPosition) (blockVolume f ⟨4, 4, 1⟩ ⟨0, 0, 0⟩) 0
    (fun r hr => blockVolume_holds f _ _ (by have := part_positive h hr; omega)) (blockVolume_holds f _ _ (by decide)) order horder

/-- A `4 × 2` grid on one process: the write fails. -/
example (f : I3 → Nat) : netcdfMpiWriteAll 0 (fun r => (unitPart ⟨1, 1, 1⟩ ⟨4, 2, 1⟩ r).grid)
    (fun r => blockVolume f (unitPart ⟨1, 1, 1⟩ ⟨4, 2, 1⟩ r).grid.dims (unitPart ⟨1, 1, 1⟩ ⟨4, 2, 1⟩ r).grid.globalPosition) 0 [0] ⟨4, 2, 1⟩ = .error .thrown := by
  have h := unit_decomposed ⟨1, 1, 1⟩ ⟨4, 2, 1⟩ (by unfold ProcessGrid; decide) (by decide) (by decide)
  exact C43_parallel_fails_unless_square h (by decide) (.inl ⟨by decide, by decide⟩) 0 f _ 0 (fun r hr => blockVolume_holds f _ _ (by have := part_positive h hr; omega)) [0]
    (fun r => by simp only [List.mem_singleton, IsRank]; omega)

/-- The cell number in a grid with two cells in x. -/
def number (c : I3) : Int := c.x + 2 * c.y

/-- The volumes of the parts. -/
def partVolume (p dims : I3) (r : Int) : Volume Int := blockVolume number (unitPart p dims r).grid.dims (unitPart p dims r).grid.globalPosition

/-- An entry of the file, if it was written. -/
def entryOf (file : Res (Arr I3 Int)) (q : I3) : Option Int := match file with
  | .ok f => some (f.val q)
  | .error _ => none

/-- C43 is false for parts with fewer dimensions than the grid: a `2 × 2` grid on two processes above each other. Each process has `2 × 1` cells and does not exchange the coordinates; the entry
`(1,0)` is the cell `(1,0)` in the parallel file, and the cell `(0,1)` in the serial file. -/
theorem C43_parallel_differs_for_flat_parts :
    Decomposed ⟨1, 2, 1⟩ (unitGrid ⟨2, 2, 1⟩) (fun _ => .periodic) (unitPart ⟨1, 2, 1⟩ ⟨2, 2, 1⟩) ∧
      (∀ r, IsRank ⟨1, 2, 1⟩ r → HoldsField number (unitPart ⟨1, 2, 1⟩ ⟨2, 2, 1⟩ r).grid.dims (unitPart ⟨1, 2, 1⟩ ⟨2, 2, 1⟩ r).grid.globalPosition (partVolume ⟨1, 2, 1⟩ ⟨2, 2, 1⟩ r) 0) ∧
      entryOf (netcdfMpiWriteAll (-1) (fun r => (unitPart ⟨1, 2, 1⟩ ⟨2, 2, 1⟩ r).grid) (partVolume ⟨1, 2, 1⟩ ⟨2, 2, 1⟩) 0 [0, 1] ⟨2, 2, 1⟩) ⟨1, 0, 0⟩ = some (number ⟨1, 0, 0⟩) ∧
      entryOf (netcdfWrite (-1) (blockVolume number ⟨2, 2, 1⟩ ⟨0, 0, 0⟩) 0) ⟨1, 0, 0⟩ = some (number ⟨0, 1, 0⟩) ∧ number ⟨1, 0, 0⟩ ≠ number ⟨0, 1, 0⟩ := by
  have h := unit_decomposed ⟨1, 2, 1⟩ ⟨2, 2, 1⟩ (by unfold ProcessGrid; decide) (by decide) (by decide)
  exact ⟨h, fun r hr => blockVolume_holds number _ _ (by have := part_positive h hr; omega), by decide +kernel, by decide +kernel, by decide⟩

/-- C43 is false for the parallel HDF5 writer as soon as the grid is cut: the dataset has the size of one part, and all ranks write to the same place. Here four cells in a row on two
processes: the file has two entries and they hold the part of the rank that comes last. -/
theorem C43_hdf5_parallel_keeps_one_part :
    Decomposed ⟨2, 1, 1⟩ (unitGrid ⟨4, 1, 1⟩) (fun _ => .periodic) (unitPart ⟨2, 1, 1⟩ ⟨4, 1, 1⟩) ∧
      (∀ r, IsRank ⟨2, 1, 1⟩ r → HoldsField number (unitPart ⟨2, 1, 1⟩ ⟨4, 1, 1⟩ r).grid.dims (unitPart ⟨2, 1, 1⟩ ⟨4, 1, 1⟩ r).grid.globalPosition (partVolume ⟨2, 1, 1⟩ ⟨4, 1, 1⟩ r) 0) ∧
      (unitPart ⟨2, 1, 1⟩ ⟨4, 1, 1⟩ 0).grid.dims = ⟨2, 1, 1⟩ ∧
      entryOf (hdf5MpiWriteAll (-1) (partVolume ⟨2, 1, 1⟩ ⟨4, 1, 1⟩) 0 [0, 1] ⟨2, 1, 1⟩) ⟨0, 0, 0⟩ = some (number ⟨2, 0, 0⟩) ∧
      entryOf (hdf5MpiWriteAll (-1) (partVolume ⟨2, 1, 1⟩ ⟨4, 1, 1⟩) 0 [1, 0] ⟨2, 1, 1⟩) ⟨0, 0, 0⟩ = some (number ⟨0, 0, 0⟩) := by
  have h := unit_decomposed ⟨2, 1, 1⟩ ⟨4, 1, 1⟩ (by unfold ProcessGrid; decide) (by decide) (by decide)
  exact ⟨h, fun r hr => blockVolume_holds number _ _ (by have := part_positive h hr; omega), by decide +kernel, by decide +kernel, by decide +kernel⟩

end Verif.Props.Output
