import Verif.StatsLemmas
import Verif.Props.Functionals

/-! Property theorems C53 (combined statistics), C54 (mean and variance). -/

namespace Verif.Props.Stats
open Verif Verif.Stats Verif.Functionals Verif.Structure Verif.Boundary Verif.Iterate

/-- The statistic `name`, computed by all ranks from their samples and combined, is on rank 0 the sum over all samples of `φ (state of the sample)`, divided by the number of samples.
`ranks` is the assignment of samples to ranks, `U s t` the state of sample `s` at time `t`. Each rank has a sample
(load balancing gives all the same number, C50). The volumes of the statistic have `n` cells, `g` ghost cells and `k` variables. -/
def MeanOverSamples (parts : List Part) (name : String) (n g : I3) (k : Nat) (In : Vol → Prop) (φ : Vol → Nat → I3 → ℝ) : Prop :=
  ∀ (S : Type) (U : S → ℝ → Vol) (times : List ℝ) (ranks : List (List S)), times.Nodup → ranks ≠ [] → (∀ r ∈ ranks, r ≠ []) → (∀ r ∈ ranks, ∀ s ∈ r, ∀ t ∈ times, In (U s t)) →
    ∃ snaps result others, ranks.mapM (runRank parts U times) = .ok snaps ∧ combine ranks.flatten.length snaps = .ok (result :: others) ∧
      ∀ t ∈ times, ∃ v, find (toLex (t, name)) result = some v ∧ ∀ var c, var < k → InBlock (n + g + g) c →
        v.at var c = some ((ranks.flatten.map fun s => φ (U s t) var c).sum / ranks.flatten.length)

theorem mean_of_adds {parts : List Part} {p : Part} (hp : p ∈ parts) (hn : (parts.map Part.name).Nodup) {n g : I3} {k : Nat} {In : Vol → Prop} {φ : Part → Vol → Nat → I3 → ℝ}
    (h : ∀ q ∈ parts, q.Adds In ⟨n, g, k⟩ (φ q)) : MeanOverSamples parts p.name n g k In (φ p) := by
  intro S U times ranks ht hne hr hin
  obtain ⟨first, rest, rfl⟩ := List.exists_cons_of_ne_nil hne
  obtain ⟨snaps, result, others, e1, e2, _, _, e3⟩ := combined φ In (fun _ => ⟨n, g, k⟩) parts hn (fun q hq _ => h q hq) U times ht first rest hr hin (first :: rest).flatten.length
  refine ⟨snaps, result, others, e1, e2, fun t htm => ?_⟩
  obtain ⟨v, e4, _, e5⟩ := e3 t htm p hp
  exact ⟨v, e4, fun var c hv hc => e5 var c ⟨hv, Functionals.inSize_of_block hc⟩⟩

theorem mean_of_single {p : Part} {n g : I3} {k : Nat} {In : Vol → Prop} {φ : Vol → Nat → I3 → ℝ} (h : p.Adds In ⟨n, g, k⟩ φ) : MeanOverSamples [p] p.name n g k In φ :=
  mean_of_adds (p := p) (φ := fun _ => φ) (by simp) (by simp) (by simpa using h)

theorem zip_adds (name : String) (F : ℝ → ℝ) (n g : I3) (k : Nat) :
    (⟨name, sameSize, zipAdd F⟩ : Part).Adds (Vol.Shape n g k) ⟨n, g, k⟩ (fun u var c => if var < k ∧ c ∈ box 0 (n + g + g) then F ((u.areas.getD var fun _ => 0) c) else 0) := by
  intro u hu
  refine ⟨?_, fun v hv => zipAdd_added F n g k v u hv hu⟩
  obtain ⟨rfl, rfl, rfl⟩ := hu
  rfl

/-- The entry `c` of variable `var`, counting ghost cells. -/
noncomputable def entry (u : Vol) (var : Nat) (c : I3) : ℝ := (u.areas.getD var fun _ => 0) c

theorem drop_if {parts : List Part} {name : String} {n g : I3} {k : Nat} {In : Vol → Prop} {φ ψ : Vol → Nat → I3 → ℝ} (h : MeanOverSamples parts name n g k In φ)
    (he : ∀ u var c, var < k → InBlock (n + g + g) c → φ u var c = ψ u var c) : MeanOverSamples parts name n g k In ψ := by
  intro S U times ranks h1 h2 h3 h4
  obtain ⟨snaps, result, others, e1, e2, e3⟩ := h S U times ranks h1 h2 h3 h4
  refine ⟨snaps, result, others, e1, e2, fun t ht => ?_⟩
  obtain ⟨v, e4, e5⟩ := e3 t ht
  refine ⟨v, e4, fun var c hv hc => (e5 var c hv hc).trans ?_⟩
  congr 3
  exact List.map_congr_left fun s _ => he _ _ _ hv hc

theorem mem_box_of_block {n c : I3} (h : InBlock n c) : c ∈ box 0 n := by
  rw [mem_box]; unfold InBlock at h; simp; omega

/-- C53, for the mean: the average of the states in every cell (ghost cells included). What is missing in C53: the statistics of the `fails` theorems below. -/
theorem C53_mean_partial (n g : I3) (k : Nat) : MeanOverSamples meanVariance "mean" n g k (Vol.Shape n g k) entry := by
  refine drop_if (mean_of_adds (p := ⟨"mean", sameSize, zipAdd fun x => x⟩) (parts := meanVariance) (by simp [meanVariance]) (by simp [meanVariance]) (n := n) (g := g) (k := k)
    (In := Vol.Shape n g k)
    (φ := fun q u var c => if var < k ∧ c ∈ box 0 (n + g + g) then (if q.name = "mean" then entry u var c else entry u var c ^ 2) else 0) ?_) ?_
  · intro q hq
    simp only [meanVariance, List.mem_cons, List.not_mem_nil, or_false] at hq
    rcases hq with rfl | rfl
    · exact zip_adds _ _ n g k
    · exact zip_adds _ (fun x => x ^ 2) n g k
  · intro u var c hv hc
    simp [hv, mem_box_of_block hc]

/-- C53, for the second moment collected for the variance: before `finalizeStatistics` it is the average of the squares. -/
theorem C53_second_moment_partial (n g : I3) (k : Nat) : MeanOverSamples meanVariance "variance" n g k (Vol.Shape n g k) (fun u var c => entry u var c ^ 2) := by
  refine drop_if (mean_of_adds (p := ⟨"variance", sameSize, zipAdd fun x => x ^ 2⟩) (parts := meanVariance) (by simp [meanVariance]) (by simp [meanVariance]) (n := n) (g := g) (k := k)
    (In := Vol.Shape n g k)
    (φ := fun q u var c => if var < k ∧ c ∈ box 0 (n + g + g) then (if q.name = "mean" then entry u var c else entry u var c ^ 2) else 0) ?_) ?_
  · intro q hq
    simp only [meanVariance, List.mem_cons, List.not_mem_nil, or_false] at hq
    rcases hq with rfl | rfl
    · exact zip_adds _ _ n g k
    · exact zip_adds _ (fun x => x ^ 2) n g k
  · intro u var c hv hc
    simp [hv, mem_box_of_block hc]

/-- C53, for the moments. -/
theorem C53_one_point_moment_partial (p : Nat) (n g : I3) (k : Nat) :
    MeanOverSamples (onePointMoment p) ("m" ++ toString p) n g k (Vol.Shape n g k) (fun u var c => entry u var c ^ p) :=
  drop_if (mean_of_single (zip_adds _ (fun x => x ^ p) n g k)) fun u var c hv hc => by simp [hv, mem_box_of_block hc, entry]

/-- C53, for the total variation in one and two dimensions: the average of the total variations. -/
theorem C53_bounded_variation_partial (p : Nat) (n g : I3) (hn : 1 ≤ n.x ∧ 1 ≤ n.y ∧ n.z = 1) (hg : 0 ≤ g.x ∧ 0 ≤ g.y ∧ g.z = 0) (h1 : n.y = 1 → g.y = 0) (k : Nat) :
    MeanOverSamples (boundedVariation p) ("bv_" ++ toString p) ⟨1, 1, 1⟩ 0 k (Vol.Shape n g k) (fun u var _ => variation p n (u.inner var)) := by
  refine drop_if (φ := fun u var c => if var < k ∧ c = 0 then variation p n (u.inner var) else 0) (mean_of_single ?_) ?_
  · intro u hu
    have hl := hu.2.2
    refine ⟨by simp [ofSize, hl], fun v hv => ?_⟩
    obtain ⟨w, e, s, a⟩ := boundedVariation_accumulates p ⟨1, 1, 1⟩ (by simp) n g hn hg h1 k v u 1 hv hu
    refine ⟨w, ?_, s, a.congr fun _ _ => by simp⟩
    simpa [Verif.Functionals.boundedVariation] using e
  · intro u var c hv hc
    have : c = 0 := by
      unfold InBlock at hc
      ext <;> simp at hc ⊢ <;> omega
    simp [hv, this]

theorem functional_adds (name : String) (f : Vol → Vol → ℝ → Res Vol) (size : I3) (k : Nat) (In : Vol → Prop) (hlen : ∀ u, In u → u.areas.length = k) (φ : Vol → Nat → I3 → ℝ)
    (h : Accumulates f size 0 k In φ) : MeanOverSamples (functionalStatistics name f size) ("mean_" ++ name) size 0 k In φ := by
  refine mean_of_single ?_
  intro u hu
  refine ⟨by simp [ofSize, hlen u hu], fun v hv => ?_⟩
  obtain ⟨w, e, s, a⟩ := h v u 1 hv hu
  exact ⟨w, e, s, a.congr fun _ _ => by simp⟩

/-- C53, for the functional "identity": the average of the states in the interior cells. -/
theorem C53_functional_identity_partial (name : String) (n g : I3) (hg : 0 ≤ g.x ∧ 0 ≤ g.y ∧ 0 ≤ g.z) (k : Nat) :
    MeanOverSamples (functionalStatistics name identity n) ("mean_" ++ name) n 0 k (Vol.Shape n g k) Vol.inner := by
  refine drop_if (functional_adds name _ n k _ (fun u hu => hu.2.2) _ (identity_accumulates n g hg k)) fun u var c hv hc => ?_
  have : n + 0 + 0 = n := by ext <;> simp
  rw [this] at hc
  simp [hv, mem_box_of_block hc]

/-- C53, for the functional "bounded variation". -/
theorem C53_functional_bounded_variation_partial (name : String) (p : Nat) (lengths : V3 ℝ) (hl : lengths.z ≤ 1) (n g : I3) (hn : 1 ≤ n.x ∧ 1 ≤ n.y ∧ n.z = 1)
    (hg : 0 ≤ g.x ∧ 0 ≤ g.y ∧ g.z = 0) (h1 : n.y = 1 → g.y = 0) (k : Nat) :
    MeanOverSamples (functionalStatistics name (Verif.Functionals.boundedVariation p lengths) ⟨1, 1, 1⟩) ("mean_" ++ name) ⟨1, 1, 1⟩ 0 k (Vol.Shape n g k)
      (fun u var _ => variation p n (u.inner var)) := by
  refine drop_if (functional_adds name _ _ k _ (fun u hu => hu.2.2) _ (boundedVariation_accumulates p lengths hl n g hn hg h1 k)) fun u var c hv hc => ?_
  have : c = 0 := by
    unfold InBlock at hc
    ext <;> simp at hc ⊢ <;> omega
  simp [hv, this]

/-- C53, for the functional "legendre": the average over the samples of the Legendre coefficients (as in C40). -/
theorem C53_functional_legendre_partial (name : String) (P : Int → ℝ → Res ℝ) (L : Int → ℝ → ℝ) (hP : ∀ r x, |x| ≤ 1 → P r x = .ok (L r x)) (lo hi : ℝ) (hlo : lo < hi) (a b m : Int) (k : Nat)
    (vars : List Nat) (hnd : vars.Nodup) (hk : ∀ v ∈ vars, v < k) (origin top : V3 ℝ) (hx : top.x ≠ origin.x) (hy : top.y ≠ origin.y) (n g pos size : I3)
    (hs : Sizes (n + g + g) n g) (hint : n.x * n.y * n.z < 2 ^ 31) (hl : (Grid.make origin top n pos size).lengths.z ≤ 1 ∧ (Grid.make origin top n pos size).lengths.y ≠ 1) :
    MeanOverSamples (functionalStatistics name (legendre P lo hi a b m vars (Grid.make origin top n pos size)) ⟨1, 1, 1⟩) ("mean_" ++ name) ⟨1, 1, 1⟩ 0 k
      (fun u => u.Shape n g k ∧ ∀ v ∈ vars, ∀ c, InBlock n c → lo ≤ u.inner v c ∧ u.inner v c ≤ hi)
      (fun u var c => if var ∈ vars ∧ c = 0 then ∑ q ∈ (box 0 n).toFinset, L a (scaled n.x q.x) * L b (scaled n.y q.y) * L m ((u.inner var q - lo) / (hi - lo)) *
        ((Grid.make origin top n pos size).lengths.x * (Grid.make origin top n pos size).lengths.y * (Grid.make origin top n pos size).lengths.z) else 0) :=
  functional_adds name _ _ k _ (fun u hu => hu.1.2.2) _ (legendre_accumulates P L hP lo hi hlo a b m k vars hnd hk origin top hx hy n g pos size hs hint hl)

/-- C53, for the functional "legendre_pointwise". -/
theorem C53_functional_legendre_pointwise_partial (name : String) (P : Int → ℝ → Res ℝ) (L : Int → ℝ → ℝ) (hP : ∀ r x, |x| ≤ 1 → P r x = .ok (L r x)) (lo hi : ℝ) (hlo : lo < hi) (m : Int) (k : Nat)
    (vars : List Nat) (hnd : vars.Nodup) (hk : ∀ v ∈ vars, v < k) (lengths : V3 ℝ) (hl : lengths.z ≤ 1 ∧ lengths.y ≠ 1) (n g : I3) (hg : 0 ≤ g.x ∧ 0 ≤ g.y ∧ 0 ≤ g.z) :
    MeanOverSamples (functionalStatistics name (legendrePointWise P lo hi m vars lengths) n) ("mean_" ++ name) n 0 k
      (fun u => u.Shape n g k ∧ ∀ v ∈ vars, ∀ c, InBlock n c → lo ≤ u.inner v c ∧ u.inner v c ≤ hi)
      (fun u var c => if var ∈ vars ∧ c ∈ box 0 n then L m ((u.inner var c - lo) / (hi - lo)) else 0) :=
  functional_adds name _ _ k _ (fun u hu => hu.1.2.2) _ (legendrePointWise_accumulates P L hP lo hi hlo m k vars hnd hk lengths hl n g hg)

/-- C53, for the functional "log_entropy". -/
theorem C53_functional_log_entropy_partial (name : String) (gamma : ℝ) (k rho E : Nat) (momenta : List Nat) (hr : rho < k) (hE : E < k) (hm : ∀ v ∈ momenta, v < k) (grid : Grid ℝ) (n g : I3)
    (hd : grid.dims = n) (hs : Sizes (n + g + g) n g) (hint : n.x * n.y * n.z < 2 ^ 31) :
    MeanOverSamples (functionalStatistics name (logEntropy gamma rho E momenta grid) ⟨1, 1, 1⟩) ("mean_" ++ name) ⟨1, 1, 1⟩ 0 k (Vol.Shape n g k)
      (fun u var c => if var = E ∧ c = 0 then ∑ q ∈ (box 0 n).toFinset, logDensity gamma (u.inner rho q) (u.inner E q) (momenta.map fun v => u.inner v q) *
        (grid.lengths.x * grid.lengths.y * grid.lengths.z) else 0) :=
  functional_adds name _ _ k _ (fun u hu => hu.2.2) _ (logEntropy_accumulates gamma k rho E momenta hr hE hm grid n g hd hs hint)

/-- C53, for the functional "structure_basic" (StructureBase): the average of what it computes per sample (C57 says what that is). -/
theorem C53_functional_structure_base_partial (name : String) (p : ℝ) (d : Nat) (H : Int) (n g : I3) (hg : 0 ≤ g.x ∧ 0 ≤ g.y ∧ 0 ≤ g.z) (k : Nat) :
    MeanOverSamples (functionalStatistics name (structureBase p d H) ⟨H, 1, 1⟩) ("mean_" ++ name) ⟨H, 1, 1⟩ 0 k (Vol.Shape n g k)
      (fun u var q => baseTerm p d H ⟨n.x - 2 * g.x, n.y - 2 * g.y, n.z - 2 * g.z⟩ (u.inner var) q) := by
  refine drop_if (φ := fun u var q => if var < k then baseTerm p d H ⟨n.x - 2 * g.x, n.y - 2 * g.y, n.z - 2 * g.z⟩ (u.inner var) q else 0) (mean_of_single ?_)
    fun u var c hv hc => by simp [hv]
  intro u hu
  have hl := hu.2.2
  exact ⟨by simp [ofSize, hl], fun v hv => structureBase_adds p d H n g hg k v u 1 hv hu⟩

theorem view_adds (name : String) (size n g : I3) (k : Nat) (step : I3 → I3 → Arr I3 ℝ → Arr I3 ℝ → Res (Arr I3 ℝ)) (δ : (I3 → ℝ) → I3 → ℝ)
    (h : ∀ F f, ∃ a, step n g (field (n + g + g) F) (field size f) = .ok a ∧ ∀ c, inSize size c = true → a.val c = f c + δ (fun c => F (c + g)) c) :
    MeanOverSamples [⟨name, ofSize size, fun out u => (List.range u.areas.length).foldlM (fun out var => do
      let viewIn ← u.view var
      out.modify var fun o => step u.n u.g viewIn o) out⟩] name size 0 k (Vol.Shape n g k) (fun u var c => δ (u.inner var) c) := by
  refine drop_if (φ := fun u var c => if var ∈ List.range k then δ (u.inner var) c else 0) (mean_of_single ?_) fun u var c hv hc => by simp [hv]
  intro u hu
  have hut := hu.total
  obtain ⟨rfl, rfl, rfl⟩ := hu
  refine ⟨by simp [ofSize], fun v hv => ?_⟩
  refine vars_added (n := size) (g := 0) (k := u.areas.length) _ (fun var c => δ (u.inner var) c) (List.range u.areas.length) List.nodup_range ?_ v hv
  intro var hvar v hv
  have hvar' := List.mem_range.1 hvar
  beta_reduce
  rw [view_ok hvar', Res.ok_bind]
  refine modify_added hv hvar' _ (fun q => δ (u.inner var) q) fun f => ?_
  obtain ⟨a, e, ha⟩ := h (u.areas.getD var fun _ => 0) f
  have e0 : size + 0 + 0 = size := by ext <;> simp
  rw [hut, e0]
  exact ⟨a, e, fun c hc => ha c hc⟩

/-- C53, for the structure function StructureBasic: the average over the samples of the sum over the cells of the `p`-th powers of the differences over the distance `h` in the
direction `d`, with the boundary condition of side `d` (see C57). -/
theorem C53_structure_basic_partial (name : String) (bc : BC) (sides : Nat → Option BC) (p : ℝ) (d : Nat) (hbc : sides d = some bc) (H : Int) (n g : I3)
    (hn : 1 ≤ n.x ∧ 1 ≤ n.y ∧ 1 ≤ n.z) (hg : 0 ≤ g.x ∧ 0 ≤ g.y ∧ 0 ≤ g.z) (k : Nat) :
    MeanOverSamples (structureBasic name sides p d H) name ⟨H, 1, 1⟩ 0 k (Vol.Shape n g k)
      (fun u var h => ∑ c ∈ (box 0 n).toFinset, |u.inner var c - extended bc n (u.inner var) (c + along d h.x)| ^ p / (n.x * n.y * n.z)) := by
  refine view_adds name ⟨H, 1, 1⟩ n g k (fun n g => basic sides p d H n g) (fun v h => ∑ c ∈ (box 0 n).toFinset, |v c - extended bc n v (c + along d h.x)| ^ p / (n.x * n.y * n.z)) fun F f => ?_
  obtain ⟨a, e, ha⟩ := basicWith_ok bc p d H n g hn hg F f
  refine ⟨a, by simpa [basic, hbc] using e, fun c hc => ?_⟩
  rw [inSize_iff] at hc
  simp only at hc
  rw [ha, if_pos (by omega)]

/-- C53, for the structure function StructureCube (the statistic): the average over the samples of the structure function of C56. -/
theorem C53_structure_cube_partial (name : String) (p : ℝ) (bc : BC) (sides : Nat → Option BC) (H : Int) (n g : I3) (hn : 1 ≤ n.x ∧ 1 ≤ n.y ∧ 1 ≤ n.z) (hflat : n.y = 1 → n.z = 1)
    (hg : 0 ≤ g.x ∧ 0 ≤ g.y ∧ 0 ≤ g.z) (hsides : ∀ s < 2 * dimsOf n, sides s = some bc) (k : Nat) :
    MeanOverSamples (Verif.Stats.structureCube name sides p (dimsOf n) H) name ⟨H, 1, 1⟩ 0 k (Vol.Shape n g k) (fun u var h => if 1 ≤ h.x then
      ∑ c ∈ (box 0 n).toFinset, (∑ s ∈ shell (dimsOf n) h.x, |u.inner var c - extended bc n (u.inner var) (c + s)| ^ p) / (n.x * n.y * n.z) else 0) := by
  refine view_adds name ⟨H, 1, 1⟩ n g k (fun m g => cubeChecked p sides (dimsOf n) m g H) (fun v h => if 1 ≤ h.x then
      ∑ c ∈ (box 0 n).toFinset, (∑ s ∈ shell (dimsOf n) h.x, |v c - extended bc n v (c + s)| ^ p) / (n.x * n.y * n.z) else 0) fun F f => ?_
  obtain ⟨a, e, ha⟩ := C56_structure_cube p bc sides n g hn hflat hg hsides F H f
  refine ⟨a, e, fun c hc => ?_⟩
  rw [inSize_iff] at hc
  simp only at hc
  rw [ha]
  congr 1
  by_cases h : 1 ≤ c.x
  · rw [if_pos (by omega), if_pos h]
  · rw [if_neg (by omega), if_neg h]

/-- C53, for the two-point structure function: the average over the samples of what StructureTwoPoints computes (see C57). -/
theorem C53_structure_two_points_partial (d d2 : Nat) (H : Int) (n g : I3) (hg : 0 ≤ g.x ∧ 0 ≤ g.y ∧ 0 ≤ g.z) (k : Nat) :
    MeanOverSamples (structureTwoPoints d d2 H) "structure_2pt" ⟨H, H, 1⟩ 0 k (Vol.Shape n g k) (fun u var h =>
      ∑ c ∈ (box 0 ⟨n.x - 2 * g.x, n.y - 2 * g.y, n.z - 2 * g.z⟩).toFinset,
        (extended .neumann ⟨n.x - 2 * g.x, n.y - 2 * g.y, n.z - 2 * g.z⟩ (u.inner var) (c + along d h.x) - u.inner var c) ^ 2 *
          (extended .neumann ⟨n.x - 2 * g.x, n.y - 2 * g.y, n.z - 2 * g.z⟩ (u.inner var) (c + along d h.y) - u.inner var c) /
          ((n.x - 2 * g.x : Int) * (n.y - 2 * g.y : Int) * (n.z - 2 * g.z : Int))) := by
  refine view_adds "structure_2pt" ⟨H, H, 1⟩ n g k (fun n g => twoPoints d d2 H n g) (fun v h =>
      ∑ c ∈ (box 0 ⟨n.x - 2 * g.x, n.y - 2 * g.y, n.z - 2 * g.z⟩).toFinset,
        (extended .neumann ⟨n.x - 2 * g.x, n.y - 2 * g.y, n.z - 2 * g.z⟩ v (c + along d h.x) - v c) ^ 2 *
          (extended .neumann ⟨n.x - 2 * g.x, n.y - 2 * g.y, n.z - 2 * g.z⟩ v (c + along d h.y) - v c) /
          ((n.x - 2 * g.x : Int) * (n.y - 2 * g.y : Int) * (n.z - 2 * g.z : Int))) fun F f => ?_
  obtain ⟨a, e, ha⟩ := twoPoints_ok d d2 H n g _ rfl hg F f
  refine ⟨a, e, fun c hc => ?_⟩
  rw [inSize_iff] at hc
  obtain ⟨x, y, z⟩ := c
  simp only at hc
  obtain rfl : z = 0 := by omega
  exact ha x y (by omega) (by omega) (by omega) (by omega)

/-- C53: whatever the statistic, if it is an average over the samples in the sense above, two assignments of the same samples to ranks give the same result in every cell. -/
theorem C53_assignment_irrelevant {parts : List Part} {name : String} {n g : I3} {k : Nat} {In : Vol → Prop} {φ : Vol → Nat → I3 → ℝ} (h : MeanOverSamples parts name n g k In φ)
    {S : Type} (U : S → ℝ → Vol) (times : List ℝ) (ht : times.Nodup) (ranks ranks' : List (List S)) (hperm : ranks.flatten.Perm ranks'.flatten) (hne : ranks ≠ []) (hne' : ranks' ≠ [])
    (hr : ∀ r ∈ ranks, r ≠ []) (hr' : ∀ r ∈ ranks', r ≠ []) (hin : ∀ r ∈ ranks, ∀ s ∈ r, ∀ t ∈ times, In (U s t)) :
    ∃ snaps result others snaps' result' others', ranks.mapM (runRank parts U times) = .ok snaps ∧ combine ranks.flatten.length snaps = .ok (result :: others) ∧
      ranks'.mapM (runRank parts U times) = .ok snaps' ∧ combine ranks'.flatten.length snaps' = .ok (result' :: others') ∧
      ∀ t ∈ times, ∃ v v', find (toLex (t, name)) result = some v ∧ find (toLex (t, name)) result' = some v' ∧
        ∀ var c, var < k → InBlock (n + g + g) c → ∃ x, v.at var c = some x ∧ v'.at var c = some x := by
  obtain ⟨snaps, result, others, e1, e2, e3⟩ := h S U times ranks ht hne hr hin
  obtain ⟨snaps', result', others', e1', e2', e3'⟩ := h S U times ranks' ht hne' hr' (by
    intro r hr s hs
    obtain ⟨r0, h0, h1⟩ := List.mem_flatten.1 (hperm.mem_iff.2 (List.mem_flatten.2 ⟨r, hr, hs⟩))
    exact hin r0 h0 s h1)
  refine ⟨snaps, result, others, snaps', result', others', e1, e2, e1', e2', fun t htm => ?_⟩
  obtain ⟨v, e4, e5⟩ := e3 t htm
  obtain ⟨v', e4', e5'⟩ := e3' t htm
  refine ⟨v, v', e4, e4', fun var c hv hc => ⟨_, e5 var c hv hc, ?_⟩⟩
  rw [e5' var c hv hc, hperm.length_eq, (hperm.map _).sum_eq]

/-! Concrete cases. -/

/-- One variable on two cells, without ghost cells. -/
noncomputable def exTwo (a b : ℝ) : Vol := Functionals.exVol ⟨2, 1, 1⟩ 0 fun c => if c.x = 0 then a else b

/-- Three samples on two ranks: sample `i` is constant in time with the values `i` and `3 i`. The mean of the right cell is 3. -/
example : ∃ snaps result others, [[0, 1], [2]].mapM (runRank meanVariance (fun (i : Nat) _ => exTwo i (3 * i)) [0, 1]) = .ok snaps ∧ combine 3 snaps = .ok (result :: others) ∧
    ∃ v, find (toLex (1, "mean")) result = some v ∧ v.at 0 ⟨1, 0, 0⟩ = some 3 := by
  obtain ⟨snaps, result, others, e1, e2, e3⟩ := C53_mean_partial ⟨2, 1, 1⟩ 0 1 Nat (fun (i : Nat) _ => exTwo i (3 * i)) [0, 1] [[0, 1], [2]] (by simp) (by simp) (by simp)
    (fun _ _ _ _ _ _ => Functionals.exVol_shape _ _ _)
  refine ⟨snaps, result, others, e1, e2, ?_⟩
  obtain ⟨v, e4, e5⟩ := e3 1 (by simp)
  refine ⟨v, e4, (e5 0 ⟨1, 0, 0⟩ (by simp) (by simp [InBlock])).trans ?_⟩
  norm_num [entry, exTwo, Functionals.exVol]

/-- The second moment: (0 + 9 + 36) / 3. -/
example : ∃ snaps result others, [[0, 1], [2]].mapM (runRank meanVariance (fun (i : Nat) _ => exTwo i (3 * i)) [0, 1]) = .ok snaps ∧ combine 3 snaps = .ok (result :: others) ∧
    ∃ v, find (toLex (1, "variance")) result = some v ∧ v.at 0 ⟨1, 0, 0⟩ = some 15 := by
  obtain ⟨snaps, result, others, e1, e2, e3⟩ := C53_second_moment_partial ⟨2, 1, 1⟩ 0 1 Nat (fun (i : Nat) _ => exTwo i (3 * i)) [0, 1] [[0, 1], [2]] (by simp) (by simp) (by simp)
    (fun _ _ _ _ _ _ => Functionals.exVol_shape _ _ _)
  refine ⟨snaps, result, others, e1, e2, ?_⟩
  obtain ⟨v, e4, e5⟩ := e3 1 (by simp)
  refine ⟨v, e4, (e5 0 ⟨1, 0, 0⟩ (by simp) (by simp [InBlock])).trans ?_⟩
  norm_num [entry, exTwo, Functionals.exVol]

/-- The total variations are 0, 2 and 4. -/
example : ∃ snaps result others, [[0, 1], [2]].mapM (runRank (boundedVariation 1) (fun (i : Nat) _ => exTwo i (3 * i)) [0]) = .ok snaps ∧ combine 3 snaps = .ok (result :: others) ∧
    ∃ v, find (toLex (0, "bv_1")) result = some v ∧ v.at 0 0 = some 2 := by
  obtain ⟨snaps, result, others, e1, e2, e3⟩ := C53_bounded_variation_partial 1 ⟨2, 1, 1⟩ 0 (by simp) (by simp) (by simp) 1 Nat (fun (i : Nat) _ => exTwo i (3 * i)) [0] [[0, 1], [2]] (by simp) (by simp) (by simp)
    (fun _ _ _ _ _ _ => Functionals.exVol_shape _ _ _)
  refine ⟨snaps, result, others, e1, e2, ?_⟩
  obtain ⟨v, e4, e5⟩ := e3 0 (by simp)
  refine ⟨v, e4, (e5 0 0 (by simp) (by simp [InBlock])).trans ?_⟩
  have : ∀ i : ℕ, variation 1 ⟨2, 1, 1⟩ ((exTwo i (3 * i)).inner 0) = 2 * i := by
    intro i
    rw [exTwo, Functionals.exVol_inner, variation]
    simp only [lt_self_iff_false, if_false]
    rw [show Finset.Ico (0 : Int) 1 = {0} by decide, show Finset.Ico (1 : Int) 2 = {1} by decide]
    have : (3 * i - i : ℝ) = 2 * i := by ring
    simp [step, this]
  simp only [this]
  norm_num

example := C53_one_point_moment_partial 3 ⟨2, 1, 1⟩ 0 1 Nat (fun (i : Nat) _ => exTwo i (3 * i)) [0, 1] [[0, 1], [2]] (by simp) (by simp) (by simp) (fun _ _ _ _ _ _ => Functionals.exVol_shape _ _ _)
example := C53_functional_identity_partial "identity" ⟨2, 1, 1⟩ 0 (by simp) 1 Nat (fun (i : Nat) _ => exTwo i (3 * i)) [0, 1] [[0, 1], [2]] (by simp) (by simp) (by simp)
  (fun _ _ _ _ _ _ => Functionals.exVol_shape _ _ _)
example := C53_functional_bounded_variation_partial "bv" 1 ⟨1 / 2, 1, 1⟩ le_rfl ⟨2, 1, 1⟩ 0 (by simp) (by simp) (by simp) 1 Nat (fun (i : Nat) _ => exTwo i (3 * i)) [0, 1] [[0, 1], [2]] (by simp) (by simp)
  (by simp) (fun _ _ _ _ _ _ => Functionals.exVol_shape _ _ _)
example := C53_functional_legendre_partial "legendre" (fun _ x => if |x| ≤ 1 then .ok x else .error .thrown) (fun _ x => x) (fun _ _ h => if_pos h) 0 4 (by norm_num) 1 1 1 1 [0] (by simp) (by simp)
  ⟨0, 0, 0⟩ ⟨1, 1, 1⟩ (by norm_num) (by norm_num) ⟨2, 2, 1⟩ ⟨1, 1, 0⟩ 0 ⟨2, 2, 1⟩ Functionals.exSizes (by simp) ⟨by norm_num [Grid.make, Grid.computeCellLengths], by norm_num [Grid.make, Grid.computeCellLengths]⟩
example := C53_functional_legendre_pointwise_partial "legendre" (fun _ x => if |x| ≤ 1 then .ok x else .error .thrown) (fun _ x => x) (fun _ _ h => if_pos h) 0 4 (by norm_num) 1 1 [0] (by simp) (by simp)
  ⟨1 / 2, 1 / 2, 1⟩ ⟨le_rfl, by norm_num⟩ ⟨2, 2, 1⟩ ⟨1, 1, 0⟩ (by simp)
example := C53_functional_log_entropy_partial "entropy" (7 / 5) 4 0 3 [1, 2] (by simp) (by simp) (by simp) (Grid.make ⟨0, 0, 0⟩ ⟨1, 1, 1⟩ ⟨2, 2, 1⟩ 0 ⟨2, 2, 1⟩) ⟨2, 2, 1⟩ ⟨1, 1, 0⟩ rfl Functionals.exSizes
  (by simp)
example := C53_functional_structure_base_partial "s" 2 0 2 ⟨2, 1, 1⟩ 0 (by simp) 1 Nat (fun (i : Nat) _ => exTwo i (3 * i)) [0, 1] [[0, 1], [2]] (by simp) (by simp) (by simp)
  (fun _ _ _ _ _ _ => Functionals.exVol_shape _ _ _)
example := C53_structure_basic_partial "s" .periodic (fun _ => some .periodic) 2 0 rfl 2 ⟨2, 1, 1⟩ 0 (by simp) (by simp) 1 Nat (fun (i : Nat) _ => exTwo i (3 * i)) [0, 1] [[0, 1], [2]] (by simp) (by simp)
  (by simp) (fun _ _ _ _ _ _ => Functionals.exVol_shape _ _ _)
example := C53_structure_cube_partial "s" 2 .periodic (fun _ => some .periodic) 2 ⟨2, 1, 1⟩ 0 (by simp) (by simp) (by simp) (fun _ _ => rfl) 1 Nat (fun (i : Nat) _ => exTwo i (3 * i)) [0, 1] [[0, 1], [2]]
  (by simp) (by simp) (by simp) (fun _ _ _ _ _ _ => Functionals.exVol_shape _ _ _)
example := C53_structure_two_points_partial 0 0 2 ⟨2, 1, 1⟩ 0 (by simp) 1 Nat (fun (i : Nat) _ => exTwo i (3 * i)) [0, 1] [[0, 1], [2]] (by simp) (by simp) (by simp)
  (fun _ _ _ _ _ _ => Functionals.exVol_shape _ _ _)
example := C53_assignment_irrelevant (C53_mean_partial ⟨2, 1, 1⟩ 0 1) (fun (i : Nat) _ => exTwo i (3 * i)) [0, 1] (by simp) [[0, 1], [2]] [[2], [1], [0]] (by decide) (by simp) (by simp) (by simp)
  (by simp) (fun _ _ _ _ _ _ => Functionals.exVol_shape _ _ _)

/-! What goes wrong. -/

/-- The combined statistic is made from the last sample of each rank only: the sum over the ranks of `φ (state of the last sample)`, divided by the number of all samples. A rank is
given by its earlier samples and its last one. -/
def LastSampleOfEachRank (parts : List Part) (name : String) (n g : I3) (k : Nat) (In : Vol → Prop) (φ : Vol → Nat → I3 → ℝ) : Prop :=
  ∀ (S : Type) (U : S → ℝ → Vol) (times : List ℝ) (ranks : List (List S × S)), times.Nodup → ranks ≠ [] → (∀ r ∈ ranks, ∀ s ∈ r.1 ++ [r.2], ∀ t ∈ times, In (U s t)) →
    ∀ t ∈ times, ∀ var c, var < k → InBlock (n + g + g) c →
    ∃ snaps result others v, (ranks.map fun r => r.1 ++ [r.2]).mapM (runRank parts U times) = .ok snaps ∧
      combine (ranks.map fun r => r.1 ++ [r.2]).flatten.length snaps = .ok (result :: others) ∧ find (toLex (t, name)) result = some v ∧
      v.at var c = some ((ranks.map fun r => φ (U r.2 t) var c).sum / (ranks.map fun r => r.1 ++ [r.2]).flatten.length)

theorem last_of_sets {parts : List Part} {p : Part} (hp : p ∈ parts) (hn : (parts.map Part.name).Nodup) {n g : I3} {k : Nat} {In : Vol → Prop} {φ : Vol → Nat → I3 → ℝ}
    (hw : ∀ q ∈ parts, q.Works In ⟨n, g, k⟩) (hs : ∀ var c, var < k → InBlock (n + g + g) c → p.Sets In ⟨n, g, k⟩ var c (fun u => φ u var c)) :
    LastSampleOfEachRank parts p.name n g k In φ := by
  intro S U times ranks ht hne hin t htm var c hv hc
  obtain ⟨first, rest, rfl⟩ := List.exists_cons_of_ne_nil hne
  obtain ⟨snaps, result, others, e1, e2, v, e3, e4⟩ := combined_last In (fun _ => ⟨n, g, k⟩) parts hn (fun q hq _ => hw q hq) U times ht first rest hin p hp t htm var c
    ⟨hv, Functionals.inSize_of_block hc⟩ (fun u => φ u var c) (hs var c hv hc) ((first :: rest).map fun r => r.1 ++ [r.2]).flatten.length
  exact ⟨snaps, result, others, v, e1, e2, e3, e4⟩

/-- Such a statistic is not an average over the samples, unless all contributions vanish. -/
theorem not_mean {parts : List Part} {name : String} {n g : I3} {k : Nat} {In : Vol → Prop} {φ : Vol → Nat → I3 → ℝ} (h : LastSampleOfEachRank parts name n g k In φ) (u : Vol) (hu : In u)
    (var : Nat) (hv : var < k) (c : I3) (hc : InBlock (n + g + g) c) (hne : φ u var c ≠ 0) : ¬ MeanOverSamples parts name n g k In φ := by
  intro hm
  obtain ⟨snaps, result, others, v, e1, e2, e3, e4⟩ := h Unit (fun _ _ => u) [0] [([()], ())] (by simp) (by simp) (fun _ _ _ _ _ _ => hu) 0 (by simp) var c hv hc
  obtain ⟨snaps', result', others', f1, f2, f3⟩ := hm Unit (fun _ _ => u) [0] [[(), ()]] (by simp) (by simp) (by simp) (fun _ _ _ _ _ _ => hu)
  obtain ⟨v', f4, f5⟩ := f3 0 (by simp)
  obtain rfl : snaps = snaps' := Except.ok.inj (e1.symm.trans f1)
  have := Except.ok.inj (e2.symm.trans f2)
  obtain ⟨rfl, -⟩ := List.cons.inj this
  obtain rfl : v = v' := Option.some.inj (e3.symm.trans f4)
  have := Option.some.inj (e4.symm.trans (f5 var c hv hc))
  simp at this
  exact hne (by linarith)

theorem bvDirection_update (p d dims : Nat) (hd : d < dims) (n g : I3) (hn : 1 ≤ n.x ∧ 1 ≤ n.y ∧ 1 ≤ n.z) (hg : 0 ≤ g.x ∧ 0 ≤ g.y ∧ 0 ≤ g.z)
    (hdim : d = 0 ∨ (d = 1 ∧ 1 < n.y) ∨ (d = 2 ∧ 1 < n.y ∧ 1 < n.z)) (k : Nat) (u : Vol) (hu : u.Shape n g k) (v : Vol) (hv : v.Shape ⟨1, 1, 1⟩ 0 k) :
    ∃ w, bvDirectionUpdate p d dims v u = .ok w ∧ w.Shape ⟨1, 1, 1⟩ 0 k ∧ ∀ var < k, w.at var 0 = some (dirVariation p d n (u.inner var)) := by
  have hut := hu.total
  obtain ⟨rfl, rfl, rfl⟩ := hu
  rw [bvDirectionUpdate, if_pos hd]
  obtain ⟨w, e, s, h⟩ := numbers_set u.areas.length (fun var => do
      let m ← u.mem var
      m.totalVariationDir d p u.g (u.total - u.g)) (fun var => dirVariation p d u.n (u.inner var)) (by
    intro var hvar
    rw [mem_ok hvar, Res.ok_bind, hut, dirVariation_ok p d u.n u.g hn hg hdim]
    rfl) v hv
  refine ⟨w, ?_, s, h⟩
  simpa only [bind_assoc] using e

theorem bvDirection_last (p dims : Nat) (hdims : 1 ≤ dims ∧ dims ≤ 3) (n g : I3) (hn : 1 ≤ n.x ∧ 1 ≤ n.y ∧ 1 ≤ n.z) (hg : 0 ≤ g.x ∧ 0 ≤ g.y ∧ 0 ≤ g.z) (h1 : 2 ≤ dims → 1 < n.y)
    (h2 : dims = 3 → 1 < n.z) (k : Nat) (d : Nat) (hd : d < dims) (q : Part)
    (hq : q = ⟨["bv_x_", "bv_y_", "bv_z_"].getD d "" ++ toString p, ofSize ⟨1, 1, 1⟩, bvDirectionUpdate p d (if d = 0 then max dims 1 else dims)⟩) :
    LastSampleOfEachRank (boundedVariationDirection p dims) q.name ⟨1, 1, 1⟩ 0 k (Vol.Shape n g k) (fun u var _ => dirVariation p d n (u.inner var)) := by
  have hupd : ∀ e dims', (e = 0 ∨ (e < dims' → dims' = dims)) → e < 3 → (e = 0 → 0 < dims') → ∀ u, Vol.Shape n g k u → ∀ v, v.Shape ⟨1, 1, 1⟩ 0 k →
      ∃ w, bvDirectionUpdate p e dims' v u = .ok w ∧ w.Shape ⟨1, 1, 1⟩ 0 k := by
    intro e dims' he he3 he0 u hu v hv
    by_cases hlt : e < dims'
    · obtain ⟨w, a, b, _⟩ := bvDirection_update p e dims' hlt n g hn hg (by
        rcases he with rfl | he
        · exact Or.inl rfl
        · have := he hlt
          interval_cases e
          · exact Or.inl rfl
          · exact Or.inr (Or.inl ⟨rfl, h1 (by omega)⟩)
          · exact Or.inr (Or.inr ⟨rfl, h1 (by omega), h2 (by omega)⟩)) k u hu v hv
      exact ⟨w, a, b⟩
    · exact ⟨v, by rw [bvDirectionUpdate, if_neg hlt], hv⟩
  refine last_of_sets (n := ⟨1, 1, 1⟩) (g := 0) (k := k) ?_ ?_ ?_ ?_
  · subst hq
    have : d = 0 ∨ d = 1 ∨ d = 2 := by omega
    rcases this with rfl | rfl | rfl <;> simp [boundedVariationDirection]
  · simp only [boundedVariationDirection, List.map_cons, List.map_nil, List.nodup_cons, List.mem_cons, List.not_mem_nil, or_false, not_or, not_false_eq_true, List.nodup_nil, and_true]
    have hx : ∀ a b c : String, a.length = b.length → a ≠ b → a ++ c ≠ b ++ c := by
      intro a b c _ hne he
      exact hne (by simpa using he)
    exact ⟨⟨hx _ _ _ rfl (by decide), hx _ _ _ rfl (by decide)⟩, hx _ _ _ rfl (by decide)⟩
  · intro r hr u hu
    have hl := hu.2.2
    simp only [boundedVariationDirection, List.mem_cons, List.not_mem_nil, or_false] at hr
    rcases hr with rfl | rfl | rfl
    · exact ⟨by show Vol.Shape _ _ _ (ofSize _ u); rw [ofSize, hl]; exact makeVolume_shape _ _ _, hupd 0 _ (Or.inl rfl) (by omega) (fun _ => by simp) u hu⟩
    · exact ⟨by show Vol.Shape _ _ _ (ofSize _ u); rw [ofSize, hl]; exact makeVolume_shape _ _ _, hupd 1 dims (Or.inr fun _ => rfl) (by omega) (fun h => by omega) u hu⟩
    · exact ⟨by show Vol.Shape _ _ _ (ofSize _ u); rw [ofSize, hl]; exact makeVolume_shape _ _ _, hupd 2 dims (Or.inr fun _ => rfl) (by omega) (fun h => by omega) u hu⟩
  · intro var c hv hc u hu v w hfit hw
    have hc0 : c = 0 := by
      unfold InBlock at hc
      ext <;> simp at hc ⊢ <;> omega
    subst hc0 hq
    obtain ⟨w', e, -, hx⟩ := bvDirection_update p d (if d = 0 then max dims 1 else dims) (by split_ifs <;> omega) n g hn hg (by
      have : d = 0 ∨ d = 1 ∨ d = 2 := by omega
      rcases this with rfl | rfl | rfl
      · exact Or.inl rfl
      · exact Or.inr (Or.inl ⟨rfl, h1 (by omega)⟩)
      · exact Or.inr (Or.inr ⟨rfl, h1 (by omega), h2 (by omega)⟩)) k u hu v hfit
    obtain rfl : w = w' := Except.ok.inj (hw.symm.trans e)
    exact hx var hv

/-- What the statistic BoundedVariationDirection gives instead of the average: only the last sample of each rank counts, because the value is assigned instead of added. In the
direction `d` (0, 1, 2) of a grid with `dims` dimensions. -/
theorem C53_bv_direction_keeps_last_sample (p dims : Nat) (hdims : 1 ≤ dims ∧ dims ≤ 3) (n g : I3) (hn : 1 ≤ n.x ∧ 1 ≤ n.y ∧ 1 ≤ n.z) (hg : 0 ≤ g.x ∧ 0 ≤ g.y ∧ 0 ≤ g.z) (h1 : 2 ≤ dims → 1 < n.y)
    (h2 : dims = 3 → 1 < n.z) (k : Nat) (d : Nat) (hd : d < dims) :
    LastSampleOfEachRank (boundedVariationDirection p dims) (["bv_x_", "bv_y_", "bv_z_"].getD d "" ++ toString p) ⟨1, 1, 1⟩ 0 k (Vol.Shape n g k)
      (fun u var _ => dirVariation p d n (u.inner var)) :=
  bvDirection_last p dims hdims n g hn hg h1 h2 k d hd _ rfl

/-- C53 is false for BoundedVariationDirection. -/
theorem C53_fails_for_bv_direction : ¬ MeanOverSamples (boundedVariationDirection 1 1) "bv_x_1" ⟨1, 1, 1⟩ 0 1 (Vol.Shape ⟨2, 1, 1⟩ 0 1) (fun u var _ => dirVariation 1 0 ⟨2, 1, 1⟩ (u.inner var)) := by
  refine not_mean (C53_bv_direction_keeps_last_sample 1 1 (by simp) ⟨2, 1, 1⟩ 0 (by simp) (by simp) (by simp) (by simp) 1 0 (by simp)) (exTwo 0 1) (Functionals.exVol_shape _ _ _) 0 (by simp) 0
    (by simp [InBlock]) ?_
  rw [exTwo, Functionals.exVol_inner, dirVariation]
  simp only [show ¬ (0 : Nat) = 2 by decide, show ¬ (0 : Nat) = 1 by decide, if_true, if_false]
  rw [show Finset.Ico (0 : Int) 1 = {0} by decide, show Finset.Ico (1 : Int) 2 = {1} by decide]
  simp [I3.dir]

/-- What FunctionalStatistics gives with the functional StructureCube: only the last sample of each rank counts, because the functional sets its output to zero first. -/
theorem C53_functional_structure_cube_keeps_last_sample (name : String) (p : ℝ) (bc : BC) (sides : Nat → Option BC) (H : Int) (n g : I3) (hn : 1 ≤ n.x ∧ 1 ≤ n.y ∧ 1 ≤ n.z)
    (hflat : n.y = 1 → n.z = 1) (hg : 0 ≤ g.x ∧ 0 ≤ g.y ∧ 0 ≤ g.z) (hsides : ∀ s < 2 * dimsOf n, sides s = some bc) (k : Nat) :
    LastSampleOfEachRank (functionalStatistics name (Verif.Functionals.structureCube p sides (dimsOf n) H) ⟨H, 1, 1⟩) ("mean_" ++ name) ⟨H, 1, 1⟩ 0 k (Vol.Shape n g k)
      (fun u var c => cubeTerm p bc H n (u.inner var) c) := by
  have e0 : (⟨H, 1, 1⟩ : I3) + 0 + 0 = ⟨H, 1, 1⟩ := by ext <;> simp
  refine last_of_sets (p := ⟨"mean_" ++ name, ofSize ⟨H, 1, 1⟩, fun out u => Verif.Functionals.structureCube p sides (dimsOf n) H out u 1⟩) (n := ⟨H, 1, 1⟩) (g := 0) (k := k) (by simp [functionalStatistics])
    (by simp [functionalStatistics]) ?_ ?_
  · intro r hr u hu
    simp only [functionalStatistics, List.mem_cons, List.not_mem_nil, or_false] at hr
    subst hr
    refine ⟨by show Vol.Shape _ _ _ (ofSize _ u); rw [ofSize, hu.2.2]; exact makeVolume_shape _ _ _, fun v hv => ?_⟩
    obtain ⟨w, e, s, _⟩ := structureCube_sets p bc sides H n g hn hflat hg hsides k v u 1 hv hu
    exact ⟨w, e, s⟩
  · intro var c hv hc u hu v w hfit hw
    obtain ⟨w', e, _, hx⟩ := structureCube_sets p bc sides H n g hn hflat hg hsides k v u 1 hfit hu
    obtain rfl : w = w' := Except.ok.inj (hw.symm.trans e)
    rw [e0] at hc
    exact hx var c hv (Functionals.inSize_of_block hc)

/-- C53 is false for FunctionalStatistics with the functional StructureCube. -/
theorem C53_fails_for_functional_structure_cube :
    ¬ MeanOverSamples (functionalStatistics "s" (Verif.Functionals.structureCube 1 (fun _ => some .periodic) 1 2) ⟨2, 1, 1⟩) "mean_s" ⟨2, 1, 1⟩ 0 1 (Vol.Shape ⟨2, 1, 1⟩ 0 1)
      (fun u var c => cubeTerm 1 .periodic 2 ⟨2, 1, 1⟩ (u.inner var) c) := by
  refine not_mean (C53_functional_structure_cube_keeps_last_sample "s" 1 .periodic (fun _ => some .periodic) 2 ⟨2, 1, 1⟩ 0 (by simp) (by simp) (by simp) (fun _ _ => rfl) 1) Functionals.exFlat
    (Functionals.exVol_shape _ _ _) 0 (by simp) ⟨1, 0, 0⟩ (by simp [InBlock]) ?_
  beta_reduce
  rw [Functionals.exFlat, Functionals.exVol_inner, cubeTerm, if_pos (by simp), show (box 0 ⟨2, 1, 1⟩).toFinset = {⟨0, 0, 0⟩, ⟨1, 0, 0⟩} by decide,
      show shell (dimsOf ⟨2, 1, 1⟩) 1 = {⟨-1, 0, 0⟩, ⟨1, 0, 0⟩} by decide]
  simp [extended]

/-- C53 is false for FunctionalStatistics with the functional Moment, whatever quantity one compares with, as soon as there are ghost cells: the volume of the statistic has none, and
the sizes do not agree. -/
theorem C53_fails_for_functional_moment (degree : Nat) (φ : Vol → Nat → I3 → ℝ) :
    ¬ MeanOverSamples (functionalStatistics "m" (moment degree) ⟨2, 1, 1⟩) "mean_m" ⟨2, 1, 1⟩ 0 1 (Vol.Shape ⟨2, 1, 1⟩ ⟨1, 0, 0⟩ 1) φ := by
  intro h
  obtain ⟨snaps, _, _, e, _⟩ := h Unit (fun _ _ => Functionals.exState) [0] [[()]] (by simp) (by simp) (by simp) (fun _ _ _ _ _ _ => Functionals.exVol_shape _ _ _)
  have hrun : moment degree (ofSize ⟨2, 1, 1⟩ Functionals.exState) Functionals.exState 1 = .error .thrown := by
    have hne : Functionals.exState.total ≠ (ofSize ⟨2, 1, 1⟩ Functionals.exState).total := by decide
    have hlen : (ofSize ⟨2, 1, 1⟩ Functionals.exState).areas.length = 1 := rfl
    rw [moment, addPower, zipAdd, hlen, show List.range 1 = [0] from rfl, List.foldlM_cons, view_ok (by simp [Functionals.exState, Functionals.exVol]), Res.ok_bind, if_pos hne]
    rfl
  have : runRank (functionalStatistics "m" (moment degree) ⟨2, 1, 1⟩) (fun (_ : Unit) _ => Functionals.exState) [0] [()] = .error .thrown := by
    simp only [runRank, compute, functionalStatistics, List.foldlM_cons, touch, hrun]
    rfl
  rw [List.mapM_cons, this] at e
  cases e

/-- The arithmetic mean of finitely many numbers. -/
noncomputable def average (l : List ℝ) : ℝ := l.sum / l.length

theorem sum_sq_dev (l : List ℝ) (m : ℝ) : (l.map fun x => (x - m) ^ 2).sum = (l.map fun x => x ^ 2).sum - 2 * m * l.sum + l.length * m ^ 2 := by
  induction l with
  | nil => simp
  | cons a l ih =>
    simp only [List.map_cons, List.sum_cons, ih, List.length_cons]
    push_cast
    ring

theorem variance_eq (l : List ℝ) (h : (0 : ℝ) < l.length) : average (l.map fun x => (x - average l) ^ 2) = average (l.map fun x => x ^ 2) - average l ^ 2 := by
  have hsum : l.sum = l.length * average l := by
    rw [average]; field_simp
  generalize average l = m at *
  rw [average, sum_sq_dev, hsum, average, List.length_map, List.length_map]
  field_simp
  ring

/-- C54: after `combineStatistics` and `finalizeStatistics` the snapshot "mean" on rank 0 has in every cell the arithmetic mean of the samples, and the snapshot "variance" the mean of
the squared deviations from it, which is not negative. For every assignment of at least one sample to each rank, every state of the samples, every number of ghost cells. -/
theorem C54_mean_variance (n g : I3) (k : Nat) {S : Type} (U : S → ℝ → Vol) (times : List ℝ) (ht : times.Nodup) (ranks : List (List S)) (hne : ranks ≠ []) (hr : ∀ r ∈ ranks, r ≠ [])
    (hin : ∀ r ∈ ranks, ∀ s ∈ r, ∀ t ∈ times, (U s t).Shape n g k) :
    ∃ snaps result others final, ranks.mapM (runRank meanVariance U times) = .ok snaps ∧ combine ranks.flatten.length snaps = .ok (result :: others) ∧ finalizeMeanVariance result = .ok final ∧
      ∀ t ∈ times, ∃ m v, find (toLex (t, "mean")) final = some m ∧ find (toLex (t, "variance")) final = some v ∧ ∀ var c, var < k → InBlock (n + g + g) c →
        let values := ranks.flatten.map fun s => entry (U s t) var c
        let mean := average values
        m.at var c = some mean ∧ v.at var c = some (average (values.map fun x => (x - mean) ^ 2)) ∧ 0 ≤ average (values.map fun x => (x - mean) ^ 2) := by
  obtain ⟨first, rest, rfl⟩ := List.exists_cons_of_ne_nil hne
  let φ : Part → Vol → Nat → I3 → ℝ := fun q u var c => if var < k ∧ c ∈ box 0 (n + g + g) then (if q.name = "mean" then entry u var c else entry u var c ^ 2) else 0
  obtain ⟨snaps, result, others, e1, e2, hsort, hkeys, e3⟩ := combined φ (Vol.Shape n g k) (fun _ => ⟨n, g, k⟩) meanVariance (by simp [meanVariance]) (by
    intro q hq _
    simp only [meanVariance, List.mem_cons, List.not_mem_nil, or_false] at hq
    rcases hq with rfl | rfl
    · exact zip_adds _ _ n g k
    · exact zip_adds _ (fun x => x ^ 2) n g k) U times ht first rest hr hin (first :: rest).flatten.length
  obtain ⟨final, e4, hfin⟩ := finalize_find n g k result hsort (by
    intro key hkey
    have := (hkeys key).1 hkey
    simp only [allKeys, List.mem_flatMap, List.mem_map] at this
    obtain ⟨t, htm, p, hp, rfl⟩ := this
    obtain ⟨v, h1, h2, -⟩ := e3 t htm p hp
    obtain ⟨m, h3, h4, -⟩ := e3 t htm ⟨"mean", sameSize, zipAdd fun x => x⟩ (by simp [meanVariance])
    exact ⟨v, m, h1, h3, h2, h4⟩)
  refine ⟨snaps, result, others, final, e1, e2, e4, fun t htm => ?_⟩
  obtain ⟨m, m1, m2, m3⟩ := e3 t htm ⟨"mean", sameSize, zipAdd fun x => x⟩ (by simp [meanVariance])
  obtain ⟨v, v1, v2, v3⟩ := e3 t htm ⟨"variance", sameSize, zipAdd fun x => x ^ 2⟩ (by simp [meanVariance])
  obtain ⟨w, w1, w2⟩ := (hfin t).2 m v m1 v1
  refine ⟨m, w, ((hfin t).1).trans m1, w1, fun var c hv hc => ?_⟩
  have hbox := mem_box_of_block hc
  have hsz := Functionals.inSize_of_block hc
  intro values mean
  have hlen : (first :: rest).flatten.length = values.length := (List.length_map _).symm
  have hm : m.at var c = some mean := by
    rw [m3 var c ⟨hv, hsz⟩]
    simp only [φ, hv, hbox, and_self, if_true]
    rw [hlen]
    rfl
  have hsq : v.at var c = some (average (values.map fun x => x ^ 2)) := by
    rw [v3 var c ⟨hv, hsz⟩]
    simp only [φ, hv, hbox, and_self, if_true, show ("variance" = "mean") = False by simp, if_false]
    rw [average, List.length_map, ← hlen, List.map_map]
    rfl
  have hpos : (0 : ℝ) < values.length := by
    rw [← hlen]
    have : first ≠ [] := hr first (by simp)
    have := List.length_pos_iff.2 this
    simp only [List.flatten_cons, List.length_append]
    exact_mod_cast (by omega)
  have hvar : average (values.map fun x => (x - mean) ^ 2) = average (values.map fun x => x ^ 2) - mean ^ 2 := variance_eq values hpos
  refine ⟨hm, ?_, ?_⟩
  · rw [w2 var c hv hsz, hsq, hm, hvar]
    rfl
  · rw [average]
    refine div_nonneg (List.sum_nonneg ?_) (by positivity)
    intro x hx
    obtain ⟨y, -, rfl⟩ := List.mem_map.1 hx
    positivity

/-- The values 0, 3 and 6 in the right cell: mean 3, variance 6. -/
example : ∃ snaps result others final, [[0, 1], [2]].mapM (runRank meanVariance (fun (i : Nat) _ => exTwo i (3 * i)) [0, 1]) = .ok snaps ∧ combine 3 snaps = .ok (result :: others) ∧
    finalizeMeanVariance result = .ok final ∧ ∃ m v, find (toLex (1, "mean")) final = some m ∧ find (toLex (1, "variance")) final = some v ∧ m.at 0 ⟨1, 0, 0⟩ = some 3 ∧
      v.at 0 ⟨1, 0, 0⟩ = some 6 := by
  obtain ⟨snaps, result, others, final, e1, e2, e3, e4⟩ := C54_mean_variance ⟨2, 1, 1⟩ 0 1 (fun (i : Nat) _ => exTwo i (3 * i)) [0, 1] (by simp) [[0, 1], [2]] (by simp) (by simp)
    (fun _ _ _ _ _ _ => Functionals.exVol_shape _ _ _)
  obtain ⟨m, v, f1, f2, f3⟩ := e4 1 (by simp)
  obtain ⟨g1, g2, -⟩ := f3 0 ⟨1, 0, 0⟩ (by simp) (by simp [InBlock])
  refine ⟨snaps, result, others, final, e1, e2, e3, m, v, f1, f2, g1.trans ?_, g2.trans ?_⟩
  · norm_num [average, entry, exTwo, Functionals.exVol]
  · norm_num [average, entry, exTwo, Functionals.exVol]

example := C53_bv_direction_keeps_last_sample 1 1 (by simp) ⟨2, 1, 1⟩ 0 (by simp) (by simp) (by simp) (by simp) 1 0 (by simp)

example := C53_functional_structure_cube_keeps_last_sample "s" 2 .periodic (fun _ => some .periodic) 2 ⟨2, 1, 1⟩ 0 (by simp) (by simp) (by simp) (fun _ _ => rfl) 1

end Verif.Props.Stats
