import Verif.Props.Output
import Verif.StandaloneRun

/-!
Property C105: the program that computes structure functions from a file of samples.
-/

namespace Verif.Props.Standalone
open Verif.Cartesian Verif.Halo Verif.Props.Parallel
open Verif Functionals Stats Boundary StandaloneSpec Verif.Standalone Output

/-- C105, reading one variable with three dimensions: it is read if and only if the grid fits, and then every cell has the value of the cell of the file that contains it; otherwise there is an
exception. -/
theorem C105_reads (nx ny nz dx dy dz : Nat) (hn : 1 ≤ nx ∧ 1 ≤ ny ∧ 1 ≤ nz) (hd : 1 ≤ dx ∧ 1 ≤ dy ∧ 1 ≤ dz) (kind : Kind) (hk : kind ≠ .other) (data : Nat → ℝ) :
    (Fits dx dy dz nx ny nz → ∃ b, readVariable nx ny nz ⟨[dx, dy, dz], kind, data⟩ = .ok b ∧ (∀ i, b.inb i = true ↔ i < nx * ny * nz) ∧
      ∀ X Y Z : Nat, X < nx → Y < ny → Z < nz → b.val ((Z * ny + Y) * nx + X) = refined dx dy dz nx ny nz data ⟨X, Y, Z⟩) ∧
      (¬Fits dx dy dz nx ny nz → readVariable nx ny nz ⟨[dx, dy, dz], kind, data⟩ = .error .thrown) := by
  constructor
  · intro h
    obtain ⟨b, h1, h2, h3⟩ := readVariable_refined (v := ⟨[dx, dy, dz], kind, data⟩) rfl hk ((fits_accepted hn hd).1 h)
    refine ⟨b, h1, fun i => by rw [h2]; simp, fun X Y Z hX hY hZ => ?_⟩
    rw [← h3 X Y Z hX hY hZ]
    congr 1
    ring
  · intro h
    exact readVariable_refused rfl hd fun ha => h ((fits_accepted hn hd).2 ha)

-- a file of 2 × 1 cells on a grid of 4 × 2 cells: the cell (3, 1) lies in the cell (1, 0)
example : Fits 2 1 1 4 2 1 ∧ refined 2 1 1 4 2 1 (fun i => i) ⟨3, 1, 0⟩ = 1 ∧ refined 2 1 1 4 2 1 (fun i => i) ⟨1, 1, 0⟩ = 0 ∧ ¬Fits 2 2 1 4 2 1 := by
  refine ⟨⟨by omega, by omega, 2, by decide⟩, by rw [refined]; norm_num [show Int.toNat 3 = 3 from rfl], by rw [refined]; norm_num, ?_⟩
  rintro ⟨-, -, c, h1, h2, -⟩
  rw [if_neg (by omega)] at h2
  omega

/-- C105: reading a variable that the serial writer has written, with the number of cells of that run, gives the cells of the run. -/
theorem C105_round_trip (fill : ℝ) (v : Volume ℝ) (hv : v.WF) (hn : 1 ≤ v.nx ∧ 1 ≤ v.ny ∧ 1 ≤ v.nz) (hflat : (v.ny = 1 → v.nz = 1) ∧ (v.nx = 1 → v.ny = 1 ∧ v.nz = 1)) (var : Nat) (m : Mem ℝ)
    (hm : v.areas[var]? = some m) (kind : Kind) (hk : kind ≠ .other) :
    ∃ file b, netcdfWrite fill v var = .ok file ∧ readVariable v.nx v.ny v.nz (.ofFile ⟨v.nx, v.ny, v.nz⟩ kind file) = .ok b ∧
      ∀ i j k : Nat, i < v.nx → j < v.ny → k < v.nz → b.val ((k * v.ny + j) * v.nx + i) = v.interior m i j k := by
  obtain ⟨file, h1, -, -, h2⟩ := Output.C43_serial_layout_partial fill v hv var m hm
  obtain ⟨b, h3, h4⟩ := read_layout v.nx v.ny v.nz hn hflat kind hk file _ h2
  exact ⟨file, b, h1, h3, h4⟩

-- a volume of 2 × 3 cells with one ghost cell in both directions
example : ∃ v : Volume ℝ, v.WF ∧ v.nx = 2 ∧ v.ny = 3 ∧ v.nz = 1 ∧ v.gx = 1 ∧ v.areas.length = 1 :=
  ⟨⟨2, 3, 1, 1, 1, 0, [⟨4, 5, 1, fun i => i⟩]⟩, by intro m hm; simp only [List.mem_singleton] at hm; subst hm; simp [Volume.tx, Volume.ty, Volume.tz], rfl, rfl, rfl, rfl, rfl⟩

section
variable {K : Type} [Field K] {p : I3} {grid : Grid K} {user : Nat → Side} {part : Int → Cartesian.Part K}

/-- C105: the same for the files of the parallel writer, which are the ones with several samples (see C43 for its conditions). -/
theorem C105_round_trip_parallel (h : Decomposed p grid user part) (hflat : activeDimension (localSize grid.dims p) = activeDimension grid.dims)
    (hsquare : (activeDimension grid.dims = 2 → grid.dims.x = grid.dims.y) ∧ (activeDimension grid.dims = 3 → grid.dims.x = grid.dims.z)) (fill : ℝ) (f : I3 → ℝ) (v : Int → Volume ℝ) (var : Nat)
    (hv : ∀ r, IsRank p r → HoldsField f (part r).grid.dims (part r).grid.globalPosition (v r) var) (order : List Int) (horder : ∀ r, r ∈ order ↔ IsRank p r)
    (hused : (grid.dims.y = 1 → grid.dims.z = 1) ∧ (grid.dims.x = 1 → grid.dims.y = 1 ∧ grid.dims.z = 1)) (kind : Kind) (hk : kind ≠ .other) :
    ∃ file b, netcdfMpiWriteAll fill (fun r => (part r).grid) v var order grid.dims = .ok file ∧
      readVariable grid.dims.x.toNat grid.dims.y.toNat grid.dims.z.toNat (.ofFile grid.dims kind file) = .ok b ∧
      ∀ i j k : Nat, i < grid.dims.x → j < grid.dims.y → k < grid.dims.z → b.val ((k * grid.dims.y.toNat + j) * grid.dims.x.toNat + i) = f ⟨i, j, k⟩ := by
  have hpos := h.dims
  obtain ⟨hwf, hx, hy, hz, m, hm, hval⟩ := Output.blockVolume_holds f grid.dims ⟨0, 0, 0⟩ (by omega)
  have hw : HoldsField f grid.dims ⟨0, 0, 0⟩ { Output.blockVolume f grid.dims ⟨0, 0, 0⟩ with areas := List.replicate (var + 1) m } var := by
    refine ⟨fun m' hm' => ?_, hx, hy, hz, m, by simp, hval⟩
    rw [List.eq_of_mem_replicate hm']
    exact hwf m (List.mem_of_getElem? hm)
  obtain ⟨file, file', e1, e2, -, e3⟩ := Output.C43_parallel_equals_serial_partial h hflat hsquare fill f v _ var hv hw order horder
  obtain ⟨file2, e4, -, -, e5⟩ := Output.C43_serial_layout_partial fill _ hw.1 var m (by simp)
  obtain rfl : file' = file2 := by rw [e2] at e4; exact Except.ok.inj e4
  have d : (⟨(grid.dims.x.toNat : Nat), (grid.dims.y.toNat : Nat), (grid.dims.z.toNat : Nat)⟩ : I3) = grid.dims := by ext <;> simp <;> omega
  obtain ⟨b, e6, e7⟩ := read_layout grid.dims.x.toNat grid.dims.y.toNat grid.dims.z.toNat (by omega) (by omega) kind hk file (fun i j k => f ⟨i, j, k⟩) (by
    intro x y z i j k h1 h2 h3 h4 h5 h6 h7
    rw [e3 _ (by unfold Cell; simp only; omega), e5 x y z i j k h1 h2 h3 h4 h5 h6 h7]
    refine (hval i j k h4 h5 h6).trans ?_
    congr 1)
  rw [d] at e6
  exact ⟨file, b, e1, e6, fun i j k hi hj hk' => e7 i j k (by omega) (by omega) (by omega)⟩

-- a grid of 4 × 4 cells on 2 × 2 processes
example : Decomposed ⟨2, 2, 1⟩ (Output.unitGrid ⟨4, 4, 1⟩) (fun _ => .periodic) (Output.unitPart ⟨2, 2, 1⟩ ⟨4, 4, 1⟩) ∧
    activeDimension (localSize ⟨4, 4, 1⟩ ⟨2, 2, 1⟩) = activeDimension ⟨4, 4, 1⟩ :=
  ⟨Output.unit_decomposed ⟨2, 2, 1⟩ ⟨4, 4, 1⟩ (by unfold ProcessGrid; decide) (by decide) (by decide), by decide⟩

end

/-- C105 (partial): if the number of processors divides the number of samples, the program writes for every variable the mean over all samples of the structure functions of the periodic continuation.
Missing: other numbers of processors (`C105_samples_lost`), and the boundary condition given on the command line (`C105_boundary_condition_ignored`). -/
theorem C105_mean_partial (o : Options) (names : List Params.Str) (file : Params.Str → Option FileVar) (time : ℝ) (P : Nat) (hP : 1 ≤ P) (hM : 1 ≤ o.samples) (hdvd : P ∣ o.samples)
    (hn : 1 ≤ o.nx ∧ 1 ≤ o.ny ∧ 1 ≤ o.nz) {dx dy dz : Nat} (hd : 1 ≤ dx ∧ 1 ≤ dy ∧ 1 ≤ dz) (hfits : Fits dx dy dz o.nx o.ny o.nz) (w : Nat → Params.Str → Nat → ℝ)
    (hf : ∀ s < o.samples, ∀ name ∈ names, ∃ kind, kind ≠ Kind.other ∧ file (variableName s name) = some ⟨[dx, dy, dz], kind, w s name⟩) :
    ∃ result v, standalone o names file time P = .ok result ∧ find (toLex (time, "structure_cube")) result = some v ∧
      ∀ (var : Nat) (name : Params.Str), names[var]? = some name → ∀ h : Nat, 1 ≤ h → h < o.numberOfH →
        v.at var ⟨h, 0, 0⟩ = some ((∑ s ∈ Finset.range o.samples,
          structureFunction .periodic o.p ⟨o.nx, o.ny, o.nz⟩ (refined dx dy dz o.nx o.ny o.nz (w s name)) h) / o.samples) := by
  have := standalone_value o names file time P hP (Nat.le_of_dvd hM hdvd) hn hd hfits w hf
  rwa [Nat.mul_div_cancel' hdvd] at this

/-- C105: the ranks together treat the samples in order, each once, if and only if the number of processors divides the number of samples; otherwise the last sample is treated by no rank. -/
theorem C105_samples (M P : Nat) (hM : 1 ≤ M) :
    (P ∣ M → ((List.range P).map (samplesOf M P)).flatten = List.range M) ∧ (¬P ∣ M → ∀ r < P, M - 1 ∉ samplesOf M P r) := by
  constructor
  · intro h
    rw [samples_flatten, Nat.mul_div_cancel' h]
  · intro h r hr hm
    have : M - 1 ∈ ((List.range P).map (samplesOf M P)).flatten := by
      rw [List.mem_flatten]
      exact ⟨_, List.mem_map_of_mem (List.mem_range.2 hr), hm⟩
    rw [samples_flatten, List.mem_range] at this
    have h1 := Nat.mul_div_le M P
    exact h ⟨M / P, by omega⟩

example : samplesOf 4 2 1 = [2, 3] ∧ samplesOf 3 2 1 = [1] ∧ 2 ∣ 4 ∧ ¬2 ∣ 3 := by decide

/-- One conserved variable "u" in one dimension, in two cells, with the values 0 and 1 in every sample. -/
noncomputable def stepFile : Params.Str → Option FileVar := fun _ => some ⟨[2, 1, 1], .double, fun i => if i = 1 then 1 else 0⟩

/-- Options for it: two values of `h`. -/
noncomputable def stepOptions (samples : Nat) (bc : BC) : Options := ⟨samples, 1, 2, 2, 1, 1, bc⟩

theorem step_box : (box 0 (⟨2, 1, 1⟩ : I3)).toFinset = {⟨0, 0, 0⟩, ⟨1, 0, 0⟩} := by decide

theorem step_shell : shell (dimsOf ⟨2, 1, 1⟩) (1 : Nat) = {⟨-1, 0, 0⟩, ⟨1, 0, 0⟩} := by decide

theorem step_refined (c : I3) (hc : c = ⟨0, 0, 0⟩ ∨ c = ⟨1, 0, 0⟩) : refined 2 1 1 2 1 1 (fun i => if i = 1 then 1 else 0) c = if c.x = 1 then 1 else 0 := by
  rcases hc with rfl | rfl <;> simp [refined]

/-- The structure function of this step is 2 for the periodic continuation: every cell has two neighbours with the other value. With the values continued constantly it is 1. -/
theorem step_structure : structureFunction .periodic 1 ⟨2, 1, 1⟩ (refined 2 1 1 2 1 1 (fun i => if i = 1 then 1 else 0)) 1 = 2 ∧
    structureFunction .neumann 1 ⟨2, 1, 1⟩ (refined 2 1 1 2 1 1 (fun i => if i = 1 then 1 else 0)) 1 = 1 := by
  have a0 := step_refined ⟨0, 0, 0⟩ (by simp)
  have a1 := step_refined ⟨1, 0, 0⟩ (by simp)
  constructor
  · rw [structureFunction, step_box, step_shell, Finset.sum_pair (by decide), Finset.sum_pair (by decide), Finset.sum_pair (by decide)]
    simp only [extended, I3.add_x, I3.add_y, I3.add_z]
    norm_num [a0, a1]
  · rw [structureFunction, step_box, step_shell, Finset.sum_pair (by decide), Finset.sum_pair (by decide), Finset.sum_pair (by decide)]
    simp only [extended, I3.add_x, I3.add_y, I3.add_z]
    norm_num [a0, a1]

theorem step_value (samples : Nat) (bc : BC) (P : Nat) (hP : 1 ≤ P) (hPM : P ≤ samples) : ∃ result v, standalone (stepOptions samples bc) ["u".toList] stepFile 0 P = .ok result ∧
    find (toLex ((0 : ℝ), "structure_cube")) result = some v ∧ v.at 0 ⟨1, 0, 0⟩ = some (2 * ((P * (samples / P) : Nat) : ℝ) / (samples : ℝ)) := by
  obtain ⟨result, v, h1, h2, h3⟩ := standalone_value (stepOptions samples bc) ["u".toList] stepFile 0 P hP hPM (by simp [stepOptions]) (dx := 2) (dy := 1) (dz := 1) (by simp)
    ⟨by simp [stepOptions], by simp [stepOptions], 1, by simp [stepOptions]⟩ (fun _ _ i => if i = 1 then 1 else 0) (fun s _ name _ => ⟨.double, by simp, rfl⟩)
  refine ⟨result, v, h1, h2, ?_⟩
  have := h3 0 "u".toList rfl 1 le_rfl (by simp [stepOptions])
  rw [show (((1 : Nat) : Int)) = 1 from rfl] at this
  rw [this]
  congr 1
  show (∑ s ∈ Finset.range (P * (samples / P)), structureFunction .periodic 1 ⟨2, 1, 1⟩ (refined 2 1 1 2 1 1 (fun i => if i = 1 then 1 else 0)) 1) / (samples : ℝ) = _
  rw [step_structure.1, Finset.sum_const, Finset.card_range, nsmul_eq_mul, mul_comm]

-- the hypotheses of `C105_mean_partial` hold for four samples on two processors, and the mean of the four structure functions is 2
example : ∃ result v, standalone (stepOptions 4 .periodic) ["u".toList] stepFile 0 2 = .ok result ∧ find (toLex ((0 : ℝ), "structure_cube")) result = some v ∧ v.at 0 ⟨1, 0, 0⟩ = some 2 := by
  obtain ⟨result, v, h1, h2, h3⟩ := step_value 4 .periodic 2 (by omega) (by omega)
  exact ⟨result, v, h1, h2, by rw [h3]; norm_num⟩

/-- C105 is false if the number of processors does not divide the number of samples: with three samples on two processors, all with the structure function 2, the program writes 4/3. With one sample on
two processors it writes nothing. -/
theorem C105_samples_lost : (∃ result v, standalone (stepOptions 3 .periodic) ["u".toList] stepFile 0 2 = .ok result ∧ find (toLex ((0 : ℝ), "structure_cube")) result = some v ∧
    v.at 0 ⟨1, 0, 0⟩ = some (4 / 3)) ∧ standalone (stepOptions 1 .periodic) ["u".toList] stepFile 0 2 = .ok [] := by
  obtain ⟨result, v, h1, h2, h3⟩ := step_value 3 .periodic 2 (by omega) (by omega)
  exact ⟨⟨result, v, h1, h2, by rw [h3]; norm_num⟩, rfl⟩

/-- C105 is false for the option `boundary-condition`: with the value for constant continuation the program writes 2, but the structure function is 1. -/
theorem C105_boundary_condition_ignored : (∃ result v, standalone (stepOptions 1 .neumann) ["u".toList] stepFile 0 1 = .ok result ∧ find (toLex ((0 : ℝ), "structure_cube")) result = some v ∧
    v.at 0 ⟨1, 0, 0⟩ = some 2) ∧ structureFunction .neumann 1 ⟨2, 1, 1⟩ (refined 2 1 1 2 1 1 (fun i => if i = 1 then 1 else 0)) 1 = 1 := by
  obtain ⟨result, v, h1, h2, h3⟩ := step_value 1 .neumann 1 (by omega) (by omega)
  exact ⟨⟨result, v, h1, h2, by rw [h3]; norm_num⟩, step_structure.2⟩

/-- C105 is false for variables of other types than `double` and `float`: whatever the file contains, all cells are read as zero. -/
theorem C105_other_types_read_as_zero (nx ny nz dx dy dz : Nat) (hn : 1 ≤ nx ∧ 1 ≤ ny ∧ 1 ≤ nz) (hd : 1 ≤ dx ∧ 1 ≤ dy ∧ 1 ≤ dz) (hfits : Fits dx dy dz nx ny nz) (data : Nat → ℝ) :
    ∃ b, readVariable nx ny nz ⟨[dx, dy, dz], .other, data⟩ = .ok b ∧ ∀ X Y Z : Nat, X < nx → Y < ny → Z < nz → b.val ((Z * ny + Y) * nx + X) = 0 := by
  obtain ⟨b, h1, -, h3⟩ := readVariable_ok (v := ⟨[dx, dy, dz], .other, data⟩) rfl ((fits_accepted hn hd).1 hfits)
  refine ⟨b, h1, fun X Y Z hX hY hZ => ?_⟩
  rw [show (Z * ny + Y) * nx + X = Z * nx * ny + Y * nx + X by ring, h3 X Y Z hX hY hZ]
  rfl

example : Fits 2 1 1 4 2 1 ∧ Kind.other ≠ Kind.double := ⟨⟨by omega, by omega, 2, by decide⟩, by decide⟩

/-- C105: a variable with more than three dimensions, all of positive length in the first three, is refused with an exception whatever the grid is. -/
theorem C105_more_dimensions_refused (nx ny nz dx dy dz : Nat) (hd : 1 ≤ dx ∧ 1 ≤ dy ∧ 1 ≤ dz) (rest : List Nat) (hrest : rest ≠ []) (kind : Kind) (data : Nat → ℝ) :
    readVariable nx ny nz ⟨dx :: dy :: dz :: rest, kind, data⟩ = .error .thrown := by
  have key : ∀ {α : Type} {b : Bool} {f : Unit → Res α}, (b = true → f () = .error .thrown) → (require b >>= f) = .error .thrown := by
    intro α b f h
    cases hb : b
    · rfl
    · exact h hb
  simp only [readVariable, FileVar.dim, List.getElem?_cons_zero, List.getElem?_cons_succ, Res.ok_bind, quotient_pos (show dx ≠ 0 by omega), quotient_pos (show dy ≠ 0 by omega),
    quotient_pos (show dz ≠ 0 by omega)]
  refine key fun _ => key fun _ => key fun _ => key fun _ => key fun _ => key fun _ => key fun _ => key fun _ => key fun _ => key fun h => ?_
  obtain ⟨r, rs, rfl⟩ := List.exists_cons_of_ne_nil hrest
  simp at h

-- a variable with the dimensions of a grid of 4 × 4 cells and one more for the time
example : readVariable 4 4 1 ⟨[4, 4, 1, 7], .double, fun _ => 0⟩ = .error .thrown := C105_more_dimensions_refused 4 4 1 4 4 1 (by decide) [7] (by decide) _ _

/-- C105 is false for files with fewer than three dimensions: the program wants to refuse them, but before it comes to that it reads the length of the third dimension. -/
theorem C105_two_dimensions_undefined (nx ny : Nat) (hx : 2 ≤ nx) (kind : Kind) (data : Nat → ℝ) : readVariable nx ny 1 ⟨[nx, ny], kind, data⟩ = .error .ub := by
  have r1 : require (!((ny == 1 && decide (1 > 1)) || (nx == 1 && (decide (ny > 1) || decide (1 > 1))))) = .ok () := by
    rw [require_iff]
    have : (nx == 1) = false := by rw [beq_eq_false_iff_ne]; omega
    simp [this]
  have r2 : require (decide (nx ≤ nx)) = .ok () := by rw [require_iff]; simp
  have r3 : require (decide (ny ≤ ny)) = .ok () := by rw [require_iff]; simp
  simp only [readVariable, r1, Res.ok_bind, FileVar.dim, List.getElem?_cons_zero, List.getElem?_cons_succ, List.getElem?_nil, r2, r3, Res.error_bind]

-- a file with 4 × 4 cells
example : readVariable 4 4 1 ⟨[4, 4], .double, fun _ => 0⟩ = .error .ub := C105_two_dimensions_undefined 4 4 (by omega) _ _

end Verif.Props.Standalone
