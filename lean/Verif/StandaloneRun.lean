import Verif.Props.Stats
import Verif.StandaloneLemmas
import Verif.StandaloneSpec

/-!
Lemmas on the whole program of the stand-alone structure functions.
-/

namespace Verif.Standalone
open Verif Functionals Stats Structure Boundary StandaloneSpec Props.Stats

theorem fits_accepted {nx ny nz dx dy dz : Nat} (hn : 1 ≤ nx ∧ 1 ≤ ny ∧ 1 ≤ nz) (hd : 1 ≤ dx ∧ 1 ≤ dy ∧ 1 ≤ dz) :
    Fits dx dy dz nx ny nz ↔ Accepted nx ny nz dx dy dz := by
  constructor
  · rintro ⟨h1, h2, c, hx, hy, hz⟩
    have hc : 1 ≤ c := by
      rcases Nat.eq_zero_or_pos c with h | h
      · subst h; omega
      · exact h
    have le : ∀ d : Nat, d ≤ c * d := fun d => Nat.le_mul_of_pos_left d hc
    have lx := le dx
    refine ⟨⟨fun h => (h1 h).le, fun h => ⟨(h2 h).1.le, (h2 h).2.le⟩⟩, ⟨by omega, ?_, ?_⟩, hd, ⟨⟨c, by rw [hx, Nat.mul_comm]⟩, ?_, ?_⟩, fun h => ?_⟩
    · split_ifs at hy
      · omega
      · have := le dy; omega
    · split_ifs at hz
      · omega
      · have := le dz; omega
    · split_ifs at hy with h
      · rw [hy]; exact one_dvd _
      · exact ⟨c, by rw [hy, Nat.mul_comm]⟩
    · split_ifs at hz with h
      · rw [hz]; exact one_dvd _
      · exact ⟨c, by rw [hz, Nat.mul_comm]⟩
    · rw [if_neg (by omega)] at hy
      have ex : nx / dx = c := by rw [hx, Nat.mul_div_cancel _ (by omega)]
      refine ⟨by rw [ex, hy, Nat.mul_div_cancel _ (by omega)], fun h' => ?_⟩
      rw [if_neg (by omega)] at hz
      rw [ex, hz, Nat.mul_div_cancel _ (by omega)]
  · rintro ⟨h1, h2, h3, ⟨h4, h5, h6⟩, h7⟩
    refine ⟨fun h => by have := h1.1 h; omega, fun h => by have := h1.2 h; omega, nx / dx, (Nat.div_mul_cancel h4).symm, ?_, ?_⟩
    · split_ifs with h
      · rw [h] at h5; exact Nat.dvd_one.1 h5
      · rw [← (h7 (by omega)).1, Nat.div_mul_cancel h5]
    · split_ifs with h
      · rw [h] at h6; exact Nat.dvd_one.1 h6
      · have : 1 < ny := by
          rcases Nat.lt_or_ge 1 ny with h' | h'
          · exact h'
          · have := h1.1 (by omega); omega
        rw [← (h7 this).2 (by omega), Nat.div_mul_cancel h6]

theorem div_quotient {n d X : Nat} (hd : 1 ≤ d) (h : d ∣ n) : X / (n / d) = X * d / n := by
  obtain ⟨c, rfl⟩ := h
  rw [Nat.mul_div_cancel_left _ (by omega), Nat.mul_comm d c, Nat.mul_div_mul_right _ _ (by omega)]

/-- The volume of a sample. -/
theorem readVariable_refined {nx ny nz dx dy dz : Nat} {v : FileVar} (hd : v.dims = [dx, dy, dz]) (hk : v.kind ≠ .other) (h : Accepted nx ny nz dx dy dz) :
    ∃ b, readVariable nx ny nz v = .ok b ∧ b.inb = (fun i => decide (i < nx * ny * nz)) ∧ ∀ X Y Z : Nat, X < nx → Y < ny → Z < nz →
      b.val (Z * nx * ny + Y * nx + X) = refined dx dy dz nx ny nz v.data ⟨X, Y, Z⟩ := by
  obtain ⟨b, h1, h2, h3⟩ := readVariable_ok hd h
  refine ⟨b, h1, h2, fun X Y Z hX hY hZ => ?_⟩
  rw [h3 X Y Z hX hY hZ, div_quotient h.positive.1 h.divides.1, div_quotient h.positive.2.1 h.divides.2.1, div_quotient h.positive.2.2 h.divides.2.2]
  have hb : v.buffer.val = v.data := by
    simp only [FileVar.buffer, flat]
  rw [hb, refined]
  congr 1
  simp only [Int.toNat_natCast]
  ring

theorem getSample_ok {nx ny nz dx dy dz : Nat} (h : Accepted nx ny nz dx dy dz) {names : List Params.Str} {file : Params.Str → Option FileVar} {sample : Nat} {w : Params.Str → Nat → ℝ}
    (hf : ∀ name ∈ names, ∃ kind, kind ≠ Kind.other ∧ file (variableName sample name) = some ⟨[dx, dy, dz], kind, w name⟩) :
    ∃ u, getSample names file nx ny nz sample = .ok u ∧ u.Shape ⟨nx, ny, nz⟩ 0 names.length ∧ ∀ (var : Nat) (name : Params.Str), names[var]? = some name → ∀ c : I3, c ∈ box 0 (⟨nx, ny, nz⟩ : I3) →
      u.inner var c = refined dx dy dz nx ny nz (w name) c := by
  have h' : ∀ name ∈ names, ∃ a : I3 → ℝ, (match file (variableName sample name) with
      | none => (.error .thrown : Res (I3 → ℝ))
      | some v => do
        let b ← readVariable nx ny nz v
        pure fun c : I3 => b.val (c.z.toNat * nx * ny + c.y.toNat * nx + c.x.toNat)) = .ok a ∧ ∀ c ∈ box 0 (⟨nx, ny, nz⟩ : I3), a c = refined dx dy dz nx ny nz (w name) c := by
    intro name hname
    obtain ⟨kind, hk, hv⟩ := hf name hname
    obtain ⟨b, h1, -, h3⟩ := readVariable_refined (v := ⟨[dx, dy, dz], kind, w name⟩) rfl hk h
    refine ⟨_, by rw [hv]; simp only [h1, Res.ok_bind]; rfl, fun c hc => ?_⟩
    rw [mem_box] at hc
    simp only [I3.zero_x, I3.zero_y, I3.zero_z] at hc
    rw [h3 _ _ _ (by omega) (by omega) (by omega)]
    congr 1
    ext <;> simp <;> omega
  obtain ⟨areas, ha⟩ := Classical.axiomOfChoice (fun x : {x // x ∈ names} => h' x.1 x.2)
  classical
  set g : Params.Str → I3 → ℝ := fun n => if hn : n ∈ names then areas ⟨n, hn⟩ else fun _ => 0 with hg
  refine ⟨⟨⟨nx, ny, nz⟩, 0, names.map g⟩, ?_, ⟨rfl, rfl, by simp⟩, fun var name hv c hc => ?_⟩
  · have hm : ∀ f : Params.Str → Res (I3 → ℝ), (∀ n ∈ names, f n = .ok (g n)) → (do let a ← names.mapM f; pure (⟨⟨nx, ny, nz⟩, 0, a⟩ : Vol)) = .ok ⟨⟨nx, ny, nz⟩, 0, names.map g⟩ := by
      intro f hfn
      rw [mapM_ok f g names hfn, Res.ok_bind]; rfl
    refine hm _ fun n hn => ?_
    rw [hg]
    simp only [hn, dif_pos]
    exact (ha ⟨n, hn⟩).1
  · have hn : name ∈ names := List.mem_of_getElem? hv
    have : (names.map g).getD var (fun _ => 0) = g name := by simp [List.getD, hv]
    simp only [Vol.inner, this]
    rw [show c + (0 : I3) = c by ext <;> simp, hg]
    simp only [hn, dif_pos]
    exact (ha ⟨name, hn⟩).2 c hc

/-- Reading a file whose entries, in the order of the library, are the cells with `x` fastest. -/
theorem read_layout (nx ny nz : Nat) (hn : 1 ≤ nx ∧ 1 ≤ ny ∧ 1 ≤ nz) (hflat : (ny = 1 → nz = 1) ∧ (nx = 1 → ny = 1 ∧ nz = 1)) (kind : Kind) (hk : kind ≠ .other) (file : Arr I3 ℝ)
    (g : Nat → Nat → Nat → ℝ) (h2 : ∀ x y z i j k : Nat, x < nx → y < ny → z < nz → i < nx → j < ny → k < nz → (x * ny + y) * nz + z = (k * ny + j) * nx + i → file.val ⟨x, y, z⟩ = g i j k) :
    ∃ b, readVariable nx ny nz (.ofFile ⟨nx, ny, nz⟩ kind file) = .ok b ∧ ∀ i j k : Nat, i < nx → j < ny → k < nz → b.val ((k * ny + j) * nx + i) = g i j k := by
  have hfits : Fits nx ny nz nx ny nz := ⟨hflat.1, hflat.2, 1, by simp, by split_ifs <;> omega, by split_ifs <;> omega⟩
  obtain ⟨b, h3, -, h4⟩ := readVariable_refined (v := .ofFile ⟨nx, ny, nz⟩ kind file) (dx := nx) (dy := ny) (dz := nz) (by simp [FileVar.ofFile]) hk ((fits_accepted hn hn).1 hfits)
  refine ⟨b, h3, fun i j k hi hj hk' => ?_⟩
  have e0 : (k * ny + j) * nx + i = k * nx * ny + j * nx + i := by ring
  rw [e0, h4 i j k hi hj hk', refined]
  simp only [Int.toNat_natCast, Nat.mul_div_cancel _ (show 0 < nx by omega), Nat.mul_div_cancel _ (show 0 < ny by omega), Nat.mul_div_cancel _ (show 0 < nz by omega), FileVar.ofFile]
  set q := (k * ny + j) * nx + i with hq
  have hq' : q < nx * ny * nz := by
    have := position_lt hi hj hk'
    omega
  have hz : 0 < nz := by omega
  have hy : 0 < ny := by omega
  refine h2 (q / nz / ny) (q / nz % ny) (q % nz) i j k ?_ (Nat.mod_lt _ hy) (Nat.mod_lt _ hz) hi hj hk' ?_
  · rw [Nat.div_div_eq_div_mul, Nat.div_lt_iff_lt_mul (Nat.mul_pos hz hy)]
    calc q < nx * ny * nz := hq'
      _ = nx * (nz * ny) := by ring
  · rw [Nat.div_add_mod', Nat.div_add_mod']

/-- Another divisor in `combineStatistics`. -/
theorem combine_divisor {N N' : Nat} {snaps : List Snaps} {result : Snaps} {others : List Snaps} (h : combine N snaps = .ok (result :: others)) :
    ∃ result' others', combine N' snaps = .ok (result' :: others') ∧ ∀ k v, find k result = some v → ∃ v', find k result' = some v' ∧
      ∀ var c x, N ≠ 0 → v.at var c = some x → v'.at var c = some (x * N / N') := by
  cases snaps with
  | nil => cases h
  | cons r rest =>
    simp only [combine] at h ⊢
    rcases ht : rest.foldlM reduceTwo r with e | total
    · rw [ht] at h; cases h
    · rw [ht] at h
      cases h
      refine ⟨_, _, rfl, fun k v hv => ?_⟩
      rw [find_divideAll] at hv ⊢
      rcases hf : find k total with _ | t
      · rw [hf] at hv; cases hv
      · rw [hf] at hv
        cases hv
        refine ⟨_, rfl, fun var c x hN hx => ?_⟩
        simp only [Vol.at, Vol.total, List.getElem?_map, Option.map_map] at hx ⊢
        split_ifs at hx ⊢ with hs
        rcases hta : t.areas[var]? with _ | f <;> rw [hta] at hx
        · cases hx
        · simp only [Option.map_some, Function.comp, Option.some.injEq] at hx ⊢
          rw [← hx]
          have : (N : ℝ) ≠ 0 := by exact_mod_cast hN
          field_simp

/-- What the program computes for any number of processors that is not larger than the number of samples. -/
theorem standalone_value (o : Options) (names : List Params.Str) (file : Params.Str → Option FileVar) (time : ℝ) (P : Nat) (hP : 1 ≤ P) (hPM : P ≤ o.samples)
    (hn : 1 ≤ o.nx ∧ 1 ≤ o.ny ∧ 1 ≤ o.nz) {dx dy dz : Nat} (hd : 1 ≤ dx ∧ 1 ≤ dy ∧ 1 ≤ dz) (hfits : Fits dx dy dz o.nx o.ny o.nz) (w : Nat → Params.Str → Nat → ℝ)
    (hf : ∀ s < o.samples, ∀ name ∈ names, ∃ kind, kind ≠ Kind.other ∧ file (variableName s name) = some ⟨[dx, dy, dz], kind, w s name⟩) :
    ∃ result v, standalone o names file time P = .ok result ∧ find (toLex (time, "structure_cube")) result = some v ∧
      ∀ (var : Nat) (name : Params.Str), names[var]? = some name → ∀ h : Nat, 1 ≤ h → h < o.numberOfH →
        v.at var ⟨h, 0, 0⟩ = some ((∑ s ∈ Finset.range (P * (o.samples / P)),
          structureFunction .periodic o.p ⟨o.nx, o.ny, o.nz⟩ (refined dx dy dz o.nx o.ny o.nz (w s name)) h) / o.samples) := by
  have hacc := (fits_accepted hn hd).1 hfits
  have hs := fun s (h : s < o.samples) => getSample_ok hacc (hf s h)
  obtain ⟨vol, hvol⟩ := Classical.axiomOfChoice (fun x : {s // s < o.samples} => hs x.1 x.2)
  classical
  set U : Nat → Vol := fun s => if h : s < o.samples then vol ⟨s, h⟩ else ⟨0, 0, []⟩ with hU
  have hU' : ∀ s < o.samples, getSample names file o.nx o.ny o.nz s = .ok (U s) ∧ (U s).Shape ⟨o.nx, o.ny, o.nz⟩ 0 names.length ∧
      ∀ (var : Nat) (name : Params.Str), names[var]? = some name → ∀ c : I3, c ∈ box 0 (⟨o.nx, o.ny, o.nz⟩ : I3) → (U s).inner var c = refined dx dy dz o.nx o.ny o.nz (w s name) c := by
    intro s h
    simp only [hU, h, dif_pos]
    exact hvol ⟨s, h⟩
  set m := o.samples / P with hm
  have hm1 : 1 ≤ m := (Nat.one_le_div_iff (by omega)).2 hPM
  have hle : P * m ≤ o.samples := Nat.mul_div_le _ _
  -- the samples of the ranks
  have hmem : ∀ r < P, ∀ s ∈ samplesOf o.samples P r, s < o.samples := by
    intro r hr s hs'
    rw [samplesOf_eq, List.mem_range'_1, ← hm] at hs'
    have : (r + 1) * m ≤ P * m := Nat.mul_le_mul_right _ hr
    have : (r + 1) * m = r * m + m := by ring
    omega
  set ranks : List (List Vol) := (List.range P).map fun r => (samplesOf o.samples P r).map U with hranks
  have hflat : ranks.flatten = (List.range (P * m)).map U := by
    rw [hranks, hm, ← samples_flatten, List.map_flatten, List.map_map]; rfl
  have hlen : ranks.flatten.length = P * m := by rw [hflat]; simp
  have hdims : dimension o.ny o.nz = Props.dimsOf ⟨o.nx, o.ny, o.nz⟩ := by
    simp only [dimension, Props.dimsOf]
    norm_cast
  obtain ⟨snaps, result, others, e1, e2, e3⟩ := C53_structure_cube_partial "structure_cube" o.p .periodic (fun _ => some BC.periodic) o.numberOfH ⟨o.nx, o.ny, o.nz⟩ 0
    (by simp only; omega) (by intro h; simp only at h ⊢; have := hfits.1 (by omega); omega) (by simp) (by simp) names.length Vol (fun v _ => v) [time] ranks (by simp)
    (by rw [hranks, Ne, List.map_eq_nil_iff, List.range_eq_nil]; omega)
    (by
      intro r hr
      rw [hranks, List.mem_map] at hr
      obtain ⟨i, -, rfl⟩ := hr
      rw [Ne, List.map_eq_nil_iff, samplesOf_eq, ← hm, List.range'_eq_nil_iff]; omega)
    (by
      intro r hr s hs t _
      rw [hranks, List.mem_map] at hr
      obtain ⟨i, hi, rfl⟩ := hr
      obtain ⟨s', hs', rfl⟩ := List.mem_map.1 hs
      exact (hU' s' (hmem i (List.mem_range.1 hi) s' hs')).2.1)
  obtain ⟨result', others', e4, e5⟩ := combine_divisor (N' := o.samples) e2
  obtain ⟨v, f1, f2⟩ := e3 time (by simp)
  obtain ⟨v', f3, f4⟩ := e5 _ _ f1
  refine ⟨result', v', ?_, f3, fun var name hvar h hh1 hh2 => ?_⟩
  · have : (List.range P).mapM (rankSnapshots o names file time P) = .ok snaps := by
      rw [← e1, hranks, List.mapM_map]
      rw [← hdims]
      clear e1 e2 e3 e4 e5 f1 f2 f3 f4
      have : ∀ l : List Nat, (∀ r ∈ l, r < P) → l.mapM (rankSnapshots o names file time P) =
          l.mapM ((runRank (structureCube "structure_cube" (fun _ => some BC.periodic) o.p (dimension o.ny o.nz) o.numberOfH) (fun (v : Vol) _ => v) [time]) ∘
            fun r => (samplesOf o.samples P r).map U) := by
        intro l hl
        induction l with
        | nil => rfl
        | cons r l ih =>
          rw [List.mapM_cons, List.mapM_cons, ih fun r hr => hl r (by simp [hr])]
          congr 1
          simp only [rankSnapshots, Function.comp]
          rw [mapM_ok _ U _ fun s hs' => (hU' s (hmem r (hl r (by simp)) s hs')).1, Res.ok_bind]
      exact this _ fun r hr => List.mem_range.1 hr
    rw [standalone, this, Res.ok_bind, e4, Res.ok_bind]
  · have hvl : var < names.length := by
      rw [List.getElem?_eq_some_iff] at hvar
      exact hvar.1
    have key := f4 var ⟨h, 0, 0⟩ _ (by rw [hlen]; exact (Nat.mul_pos hP hm1).ne') (f2 var ⟨h, 0, 0⟩ hvl (by
      unfold Iterate.InBlock; simp; omega))
    rw [key]
    congr 1
    have hl : (ranks.flatten.length : ℝ) ≠ 0 := by rw [hlen]; exact_mod_cast (Nat.mul_pos hP hm1).ne'
    rw [div_mul_cancel₀ _ hl, hflat, List.map_map]
    congr 1
    have hsum : ∀ f : Nat → ℝ, ((List.range (P * m)).map f).sum = ∑ s ∈ Finset.range (P * m), f s := fun f => rfl
    rw [hsum]
    refine Finset.sum_congr rfl fun s hs' => ?_
    rw [Finset.mem_range] at hs'
    obtain ⟨-, -, hin⟩ := hU' s (by omega)
    simp only [Function.comp]
    rw [if_pos (by omega), structureFunction]
    refine Finset.sum_congr rfl fun c hc => ?_
    rw [List.mem_toFinset] at hc
    congr 1
    refine Finset.sum_congr rfl fun q _ => ?_
    rw [hin var name hvar c hc]
    congr 3
    simp only [Props.extended]
    refine hin var name hvar _ ?_
    rw [mem_box]
    have h1 : (o.nx : Int) ≠ 0 := by omega
    have h2 : (o.ny : Int) ≠ 0 := by omega
    have h3 : (o.nz : Int) ≠ 0 := by omega
    simp only [I3.zero_x, I3.zero_y, I3.zero_z]
    exact ⟨⟨Int.emod_nonneg _ h1, Int.emod_lt_of_pos _ (by omega)⟩, ⟨Int.emod_nonneg _ h2, Int.emod_lt_of_pos _ (by omega)⟩, Int.emod_nonneg _ h3, Int.emod_lt_of_pos _ (by omega)⟩

end Verif.Standalone
