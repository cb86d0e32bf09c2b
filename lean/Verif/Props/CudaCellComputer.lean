import Verif.CudaCellComputer
import Verif.Props.CellComputer

/-!
C71: the cell computer on the graphics card.
-/

namespace Verif.Props.CudaCellComputer
open Verif Iterate CellComputer Gpu CudaMemory CudaCellComputer

/-- A volume with `nx × ny × nz` cells (ghost cells included) on the card: at least one cell in each direction, not more than memory can hold, the
areas `input`, one per variable of the equation. -/
structure DeviceVolume (h : Heap Fl) (input : List Nat) (nx ny nz : Nat) : Prop where
  pos : 1 ≤ nx ∧ 1 ≤ ny ∧ 1 ≤ nz
  fits : nx * ny * nz < 2 ^ 64
  areas : AllocatedAll h input (nx * ny * nz)

/-- The state in element `i` of the volume. -/
def state (h : Heap Fl) (input : List Nat) (i : Nat) : List Fl := input.map fun b => h.val (b, (i : Int))

/-! ### Helper lemmas -/

theorem hostVolume {h : Heap Fl} {input : List Nat} {nx ny nz : Nat} (hv : DeviceVolume h input nx ny nz) :
    IsVolume ⟨nx, ny, nz⟩ (hostAreas h input (nx * ny * nz)) := by
  obtain ⟨hp, hf, _⟩ := hv
  refine ⟨by simp only; omega, by simp only; exact_mod_cast hf, ?_⟩
  intro a ha i
  obtain ⟨b, _, rfl⟩ := List.mem_map.1 ha
  simp only [flat, decide_eq_true_eq]
  exact_mod_cast Iff.rfl

theorem stateAt_host (h : Heap Fl) (input : List Nat) (size : Nat) (total c : I3) :
    stateAt total (hostAreas h input size) c = state h input (cellIndex total c) := by
  simp [stateAt, hostAreas, state, flat]

theorem cellIndex_decode {nx ny i : Nat} (nz : Nat) : cellIndex ⟨nx, ny, nz⟩ (decode nx ny i) = i := by
  conv_rhs => rw [← encode_decode (nx := nx) (ny := ny) i]
  simp only [cellIndex, calculateIndex, Gpu.encode, Int.toNat_natCast]
  ring

theorem inBlock_iff {nx ny nz : Nat} {c : I3} : InBlock ⟨nx, ny, nz⟩ c ↔ inSize ⟨nx, ny, nz⟩ c = true := by
  simp only [InBlock, inSize_iff]; omega

/-- Values per element are the values per cell in another order. -/
theorem elements_perm {α : Type} (g : Nat → α) (nx ny nz : Nat) :
    ((List.range (nx * ny * nz)).map g).Perm ((box 0 ⟨nx, ny, nz⟩).map fun c => g (cellIndex ⟨nx, ny, nz⟩ c)) := by
  have h := (decode_perm_box nx ny nz).map fun c => g (cellIndex ⟨nx, ny, nz⟩ c)
  rw [List.map_map] at h
  refine List.Perm.trans (List.Perm.of_eq (List.map_congr_left fun i _ => ?_)) h
  simp only [Function.comp, cellIndex_decode]

theorem combines_max {l : List Fl} {v : Fl} (h : Combines Fl.max l v) : (∀ x ∈ l, IsFinite x) →
    ∃ m, v = .fin m ∧ .fin m ∈ l ∧ ∀ r, Fl.fin r ∈ l → r ≤ m := by
  induction h with
  | single a =>
    intro hf
    obtain ⟨m, rfl⟩ := hf a (by simp)
    exact ⟨m, rfl, by simp, fun r hr => by simp only [List.mem_singleton, Fl.fin.injEq] at hr; exact hr.le⟩
  | @node l l1 l2 a b _ _ hp ih1 ih2 =>
    intro hf
    obtain ⟨m1, rfl, i1, b1⟩ := ih1 fun x hx => hf x (hp.subset (by simp [hx]))
    obtain ⟨m2, rfl, i2, b2⟩ := ih2 fun x hx => hf x (hp.subset (by simp [hx]))
    refine ⟨max m1 m2, max_fin m1 m2, ?_, ?_⟩
    · rcases max_choice m1 m2 with e | e <;> rw [e]
      · exact hp.subset (by simp [i1])
      · exact hp.subset (by simp [i2])
    · intro r hr
      rcases List.mem_append.1 (hp.symm.subset hr) with hr | hr
      · exact (b1 r hr).trans (le_max_left _ _)
      · exact (b2 r hr).trans (le_max_right _ _)

theorem reducesTo_max {l : List Fl} {v : Fl} (hf : ∀ x ∈ l, IsFinite x) (h : Combines Fl.max l v) : reducesTo Fl.max l v := by
  refine ⟨h, fun w hw => ?_⟩
  obtain ⟨m, rfl, i1, b1⟩ := combines_max h hf
  obtain ⟨m', rfl, i2, b2⟩ := combines_max hw hf
  rw [le_antisymm (b1 m' i2) (b2 m i1)]

/-! ### Properties -/

/-- C71, extra variables. For every equation, volume and interleaving, the card stores in every cell the extra variables the processor stores. -/
theorem C71_extra_variables (eq : Equation) (h : Heap Fl) (input out : List Nat) (nx ny nz : Nat) (hv : DeviceVolume h input nx ny nz)
    (ho : DeviceVolume h out nx ny nz) (hnd : out.Nodup) (hf : ∀ cell : List Fl, cell.length = input.length → (eq.extra cell).length = out.length) :
    ∃ h' out', yields (computeExtraVariables eq input out (nx * ny * nz)) h h' ∧
      transformVolume input.length out.length ⟨nx, ny, nz⟩ eq.extra (hostAreas h input (nx * ny * nz)) (hostAreas h out (nx * ny * nz)) = .ok out' ∧
      (∀ c, InBlock ⟨nx, ny, nz⟩ c → stateAt ⟨nx, ny, nz⟩ out' c = state h' out (cellIndex ⟨nx, ny, nz⟩ c)) ∧
      ∀ l, l.1 ∉ out → h'.val l = h.val l := by
  have : Inhabited Fl := ⟨.nan⟩
  obtain ⟨h', k1, k2, k3⟩ := fetch_store eq.extra hv.areas ho.areas hnd hf
  obtain ⟨out', c1, _, _, c4⟩ := C68_converts_every_cell ⟨nx, ny, nz⟩ eq.extra _ _ (hostVolume hv) (hostVolume ho) (by simpa [hostAreas] using hf)
  refine ⟨h', out', k1, by simpa [hostAreas] using c1, ?_, k3⟩
  intro c hc
  rw [c4 c hc, stateAt_host, state, state, k2]
  have := cellIndex_lt hc
  simp only at this
  exact_mod_cast this

/-- C71, maximal wave speed. For every equation, volume, direction and interleaving of the threads and order of the reduction, if all wave speeds are
finite, the card reports the number of the processor. -/
theorem C71_max_wave_speed_partial (eq : Equation) (h : Heap Fl) (input : List Nat) (out nx ny nz d : Nat) (hd : d < 3) (hv : DeviceVolume h input nx ny nz)
    (hsize : input.length = eq.size) (ho : AllocatedAll h [out] (nx * ny * nz))
    (hf : ∀ i < nx * ny * nz, IsFinite (eq.speed d (state h input i) (eq.extra (state h input i)))) :
    ∃ l h' r, computeMaxWaveSpeed eq d input out (nx * ny * nz) = .ok l ∧ yields l h h' ∧ maxReduce h' out (nx * ny * nz) r ∧
      maxWaveSpeed eq ⟨nx, ny, nz⟩ (hostAreas h input (nx * ny * nz)) d = .ok r := by
  obtain ⟨h', k1, k2, _⟩ := fetch_elementwise (fun cell => eq.speed d cell (eq.extra cell)) hv.areas ho
  have hel : elements h' out (nx * ny * nz) = (List.range (nx * ny * nz)).map fun i => eq.speed d (state h input i) (eq.extra (state h input i)) :=
    List.map_congr_left fun i hi => k2 i (List.mem_range.1 hi)
  have hcpu : maxWaveSpeed eq ⟨nx, ny, nz⟩ (hostAreas h input (nx * ny * nz)) d =
      .ok (((box 0 ⟨nx, ny, nz⟩).map fun c => eq.speed d (state h input (cellIndex ⟨nx, ny, nz⟩ c)) (eq.extra (state h input (cellIndex ⟨nx, ny, nz⟩ c)))).foldl
        Fl.max (.fin 0)) := by
    rw [maxWaveSpeed, forEachCell_eq (hostVolume hv) (by simp [hostAreas, hsize]) (fun m cell _ => if d < 3 then Fl.max m (eq.speed d cell (eq.extra cell)) else m),
      List.foldl_map]
    simp only [hd, if_true, stateAt_host]
  refine ⟨_, h', _, by simp only [computeMaxWaveSpeed, hd, if_true]; rfl, k1, ?_, hcpu⟩
  refine reducesTo_max ?_ ?_
  · intro x hx
    rw [hel] at hx
    rcases List.mem_cons.1 hx with rfl | hx
    · exact ⟨0, rfl⟩
    · obtain ⟨i, hi, rfl⟩ := List.mem_map.1 hx
      exact hf i (List.mem_range.1 hi)
  · refine (Combines.foldl _ (Combines.single (Fl.fin 0))).perm ?_
    rw [hel]
    exact List.Perm.cons _ (elements_perm (fun i => eq.speed d (state h input i) (eq.extra (state h input i))) nx ny nz).symm

/-- Why the wave speeds must be finite: with a wave speed that is not a number the result of the reduction depends on its order, it may be NaN or not (the
processor ignores NaN, `C64_max_wave_speed_ignores_nan`). -/
theorem C71_wave_speed_depends_on_order (h : Heap Fl) (out size i : Nat) (hi : i < size) (hnan : h.val (out, (i : Int)) = .nan) (r : Fl) :
    ¬ maxReduce h out size r := by
  rintro ⟨_, hu⟩
  have hmem : Fl.nan ∈ elements h out size := List.mem_map.2 ⟨i, List.mem_range.2 hi, hnan⟩
  have h1 := hu _ (Combines.foldl (elements h out size) (Combines.single (Fl.fin 0)))
  obtain ⟨l', hp⟩ : ∃ l', (elements h out size).Perm (.nan :: l') := by classical exact ⟨_, List.perm_cons_erase hmem⟩
  have h2 := hu _ ((Combines.foldl (Fl.fin 0 :: l') (Combines.single Fl.nan)).perm
    (((List.Perm.swap _ _ _).trans (List.Perm.cons _ hp.symm)) : ([Fl.nan] ++ .fin 0 :: l').Perm _))
  have e1 : ∀ l : List Fl, l.foldl Fl.max .nan = .nan := by
    intro l
    induction l with
    | nil => rfl
    | cons a l ih => simpa [Fl.max, Fl.lt] using ih
  have e2 : ∀ l : List Fl, ∀ a, a ≠ Fl.nan → l.foldl Fl.max a ≠ .nan := by
    intro l
    induction l with
    | nil => intro a ha; exact ha
    | cons b l ih =>
      intro a ha
      refine ih _ ?_
      unfold Fl.max
      split
      · rename_i hlt
        rintro rfl
        cases a <;> simp [Fl.lt] at hlt
      · exact ha
  rw [e1] at h2
  exact e2 _ _ (by simp) (h1.trans h2.symm)

/-- C71, constraints: what the card computes. The verdict is positive exactly when *some* cell satisfies the constraint of the equation. -/
theorem C71_verdict_iff_some_cell (eq : Equation) (h : Heap Fl) (input : List Nat) (out nx ny nz : Nat) (hv : DeviceVolume h input nx ny nz)
    (ho : AllocatedAll h [out] (nx * ny * nz)) :
    ∃ h' b, yields (CudaCellComputer.obeysConstraints eq input out (nx * ny * nz)) h h' ∧ verdict h' out (nx * ny * nz) b ∧
      (b = true ↔ ∃ c, InBlock ⟨nx, ny, nz⟩ c ∧ eq.constraint (state h input (cellIndex ⟨nx, ny, nz⟩ c)) (eq.extra (state h input (cellIndex ⟨nx, ny, nz⟩ c))) = true) := by
  obtain ⟨h', k1, k2, _⟩ := fetch_elementwise (fun cell => if eq.constraint cell (eq.extra cell) then Fl.fin 1 else .fin 0) hv.areas ho
  have hel : elements h' out (nx * ny * nz) = (List.range (nx * ny * nz)).map fun i =>
      if eq.constraint (state h input i) (eq.extra (state h input i)) then Fl.fin 1 else .fin 0 :=
    List.map_congr_left fun i hi => k2 i (List.mem_range.1 hi)
  have hfin : ∀ x ∈ Fl.fin 0 :: elements h' out (nx * ny * nz), x = .fin 0 ∨ x = .fin 1 := by
    intro x hx
    rw [hel] at hx
    rcases List.mem_cons.1 hx with rfl | hx
    · exact Or.inl rfl
    · obtain ⟨i, _, rfl⟩ := List.mem_map.1 hx
      split <;> simp
  have hred : reducesTo Fl.max (.fin 0 :: elements h' out (nx * ny * nz)) ((elements h' out (nx * ny * nz)).foldl Fl.max (.fin 0)) :=
    reducesTo_max (fun x hx => by rcases hfin x hx with rfl | rfl <;> exact ⟨_, rfl⟩) (Combines.foldl _ (Combines.single (Fl.fin 0)))
  obtain ⟨m, hm, i1, b1⟩ := combines_max hred.1 (fun x hx => by rcases hfin x hx with rfl | rfl <;> exact ⟨_, rfl⟩)
  classical
  refine ⟨h', decide ((elements h' out (nx * ny * nz)).foldl Fl.max (.fin 0) ≠ .fin 0), k1, ⟨_, hred, by simp⟩, ?_⟩
  rw [decide_eq_true_eq, hm]
  constructor
  · intro hne
    have : Fl.fin m = .fin 1 := (hfin _ i1).resolve_left hne
    rw [this, hel] at i1
    rcases List.mem_cons.1 i1 with h1 | h1
    · simp at h1
    · obtain ⟨i, hi, he⟩ := List.mem_map.1 h1
      refine ⟨decode nx ny i, inBlock_iff.2 (decode_mem (List.mem_range.1 hi)), ?_⟩
      rw [cellIndex_decode]
      by_contra hc
      rw [if_neg hc] at he
      simp at he
  · rintro ⟨c, hc, hok⟩ he
    have hlt : cellIndex ⟨nx, ny, nz⟩ c < nx * ny * nz := by
      have := cellIndex_lt hc
      simp only at this
      exact_mod_cast this
    have := b1 1 (List.mem_cons_of_mem _ (by rw [hel]; exact List.mem_map.2 ⟨_, List.mem_range.2 hlt, if_pos hok⟩))
    simp only [Fl.fin.injEq] at he
    subst he
    exact absurd this (by norm_num)

/-- C71, constraints, where the cells agree: all admissible, or none satisfying the constraint of the equation. Missing for the full property: volumes with
both kinds of cells, where the card is wrong (`C71_constraints_fail`). -/
theorem C71_constraints_partial (eq : Equation) (h : Heap Fl) (input : List Nat) (out nx ny nz : Nat) (hv : DeviceVolume h input nx ny nz)
    (hsize : input.length = eq.size) (ho : AllocatedAll h [out] (nx * ny * nz))
    (hagree : (∀ c, InBlock ⟨nx, ny, nz⟩ c → Admissible eq (state h input (cellIndex ⟨nx, ny, nz⟩ c))) ∨
      ∀ c, InBlock ⟨nx, ny, nz⟩ c → eq.constraint (state h input (cellIndex ⟨nx, ny, nz⟩ c)) (eq.extra (state h input (cellIndex ⟨nx, ny, nz⟩ c))) = false) :
    ∃ h' b, yields (CudaCellComputer.obeysConstraints eq input out (nx * ny * nz)) h h' ∧ verdict h' out (nx * ny * nz) b ∧
      CellComputer.obeysConstraints eq ⟨nx, ny, nz⟩ (hostAreas h input (nx * ny * nz)) = .ok b ∧
      (b = true ↔ ∀ c, InBlock ⟨nx, ny, nz⟩ c → Admissible eq (state h input (cellIndex ⟨nx, ny, nz⟩ c))) := by
  obtain ⟨h', b, k1, k2, k3⟩ := C71_verdict_iff_some_cell eq h input out nx ny nz hv ho
  obtain ⟨b', c1, c2⟩ := check_all_cells eq ⟨nx, ny, nz⟩ _ (hostVolume hv) (by simp [hostAreas, hsize])
  simp only [stateAt_host] at c2
  have h0 : InBlock ⟨nx, ny, nz⟩ ⟨0, 0, 0⟩ := by
    have := hv.pos
    simp only [InBlock]; omega
  have hbb : b = true ↔ b' = true := by
    rw [k3, c2]
    rcases hagree with ha | ha
    · exact ⟨fun _ => ha, fun _ => ⟨_, h0, (ha _ h0).2.2⟩⟩
    · constructor
      · rintro ⟨c, hc, hok⟩
        rw [ha c hc] at hok
        cases hok
      · intro hall
        have := (hall _ h0).2.2
        rw [ha _ h0] at this
        cases this
  have : b = b' := Bool.eq_iff_iff.2 hbb
  subst this
  exact ⟨h', b, k1, k2, c1, c2⟩

/-- Violation of C71: as soon as one cell satisfies the constraint and another one is inadmissible, the card reports that the constraints are obeyed, and
the processor that they are not. -/
theorem C71_constraints_fail (eq : Equation) (h : Heap Fl) (input : List Nat) (out nx ny nz : Nat) (hv : DeviceVolume h input nx ny nz)
    (hsize : input.length = eq.size) (ho : AllocatedAll h [out] (nx * ny * nz)) (c c' : I3) (hc : InBlock ⟨nx, ny, nz⟩ c) (hc' : InBlock ⟨nx, ny, nz⟩ c')
    (hok : eq.constraint (state h input (cellIndex ⟨nx, ny, nz⟩ c)) (eq.extra (state h input (cellIndex ⟨nx, ny, nz⟩ c))) = true)
    (hbad : ¬ Admissible eq (state h input (cellIndex ⟨nx, ny, nz⟩ c'))) :
    ∃ h', yields (CudaCellComputer.obeysConstraints eq input out (nx * ny * nz)) h h' ∧ verdict h' out (nx * ny * nz) true ∧
      CellComputer.obeysConstraints eq ⟨nx, ny, nz⟩ (hostAreas h input (nx * ny * nz)) = .ok false := by
  obtain ⟨h', b, k1, k2, k3⟩ := C71_verdict_iff_some_cell eq h input out nx ny nz hv ho
  obtain ⟨b', c1, c2⟩ := check_all_cells eq ⟨nx, ny, nz⟩ _ (hostVolume hv) (by simp [hostAreas, hsize])
  simp only [stateAt_host] at c2
  have e1 : b = true := k3.2 ⟨c, hc, hok⟩
  have e2 : b' = false := by
    rw [Bool.eq_false_iff]
    intro hb
    exact hbad (c2.1 hb c' hc')
  subst e1 e2
  exact ⟨h', k1, k2, c1⟩

/-- A device with one variable in three cells: a number, NaN, a number; and a vector for results. -/
noncomputable def threeOnDevice : Heap Fl :=
  ⟨fun l => decide ((l.1 = 0 ∨ l.1 = 1) ∧ 0 ≤ l.2 ∧ l.2 < 3), fun l => if l.2 = 1 then .nan else .fin 1⟩

theorem threeOnDevice_volume : DeviceVolume threeOnDevice [0] 3 1 1 :=
  ⟨by norm_num, by norm_num, fun b hb i => by simp only [List.mem_singleton] at hb; subst hb; simp [threeOnDevice]⟩

theorem threeOnDevice_result : AllocatedAll threeOnDevice [1] (3 * 1 * 1) :=
  fun b hb i => by simp only [List.mem_singleton] at hb; subst hb; simp [threeOnDevice]

/-- The hypotheses of the violation can be met: a NaN between numbers, Burgers' equation. -/
example : ∃ h', yields (CudaCellComputer.obeysConstraints (scalar Flux.burgers) [0] 1 (3 * 1 * 1)) threeOnDevice h' ∧ verdict h' 1 (3 * 1 * 1) true ∧
    CellComputer.obeysConstraints (scalar Flux.burgers) ⟨3, 1, 1⟩ (hostAreas threeOnDevice [0] (3 * 1 * 1)) = .ok false := by
  refine C71_constraints_fail (scalar Flux.burgers) threeOnDevice [0] 1 3 1 1 threeOnDevice_volume rfl threeOnDevice_result ⟨0, 0, 0⟩ ⟨1, 0, 0⟩
    (by simp [InBlock]) (by simp [InBlock]) ?_ ?_
  · simp [state, threeOnDevice, scalar, scalarConstraint, Fl.lt, cellIndex, calculateIndex]
  · rw [state, List.map_singleton, C64_scalar_admissible]
    simp [threeOnDevice, cellIndex, calculateIndex]

/-- A device with one variable in three cells that are all numbers, a result vector and room for extra variables. -/
noncomputable def numbersOnDevice : Heap Fl :=
  ⟨fun l => decide (0 ≤ l.2 ∧ l.2 < 3), fun l => .fin l.2⟩

theorem numbersOnDevice_volume (l : List Nat) : DeviceVolume numbersOnDevice l 3 1 1 :=
  ⟨by norm_num, by norm_num, fun b _ i => by simp [numbersOnDevice]⟩

example := C71_max_wave_speed_partial (scalar Flux.burgers) numbersOnDevice [0] 1 3 1 1 0 (by norm_num) (numbersOnDevice_volume _) rfl
  (numbersOnDevice_volume [1]).areas (fun i _ => ⟨_, rfl⟩)

example := C71_constraints_partial (scalar Flux.burgers) numbersOnDevice [0] 1 3 1 1 (numbersOnDevice_volume _) rfl
  (numbersOnDevice_volume [1]).areas (Or.inl fun _ _ => (C64_scalar_admissible _ _).2 ⟨_, rfl⟩)

example := C71_extra_variables (euler 1.4 1) numbersOnDevice [0, 1, 2] [3, 4] 3 1 1 (numbersOnDevice_volume _) (numbersOnDevice_volume _) (by decide)
  (fun cell hc => by
    match cell, hc with
    | [a, b, c], _ => simp [euler, eulerExtra])

/-- The middle cell of `threeOnDevice` is not a number; no order of the reduction gives a unique answer. -/
example : ¬ maxReduce threeOnDevice 0 3 (.fin 1) := C71_wave_speed_depends_on_order threeOnDevice 0 3 1 (by decide) (by simp [threeOnDevice]) _

example := C71_verdict_iff_some_cell (scalar Flux.burgers) threeOnDevice [0] 1 3 1 1 threeOnDevice_volume threeOnDevice_result

end Verif.Props.CudaCellComputer
