import Verif.SampleFilesLemmas
import Verif.Props.RunSetup

/-! Property theorems C106 (the output files of a run with several samples). -/

namespace Verif.Props.SampleFiles
open Verif.Standalone (variableName)
open Verif.UQ (sampleNumbers)
open Verif.SampleFiles Params

variable {K V C : Type}

/-- C106: samples `first` to `first + samples - 1` on `processes` groups of processes, whatever the order in which the data of the processes arrive. If every sample makes `saves` writes, file `k` has for every
sample and every variable of the solution the variable `sample_<number>_<name>` with what the `k`-th write of this sample stores, once, and nothing else. Files with other names are left alone. The time in file `k` is that of the
`k`-th write of one of the samples that come first on their processes. Missing: the samples have to make the same number of writes (`C106_every_step`), the time is that of all samples only if they write at the
same times (`C106_every_step_one_process`). -/
theorem C106_files_partial (store : V → Nat → Res C) (value : V → Nat → C) (names : List Str) (hnames : names.Nodup) (order : Nat → Nat → Nat → List Nat) (base : String)
    (runs : Nat → List (V × K)) (first samples saves : Nat) (processes : Int) (multiSpatial : I3) (disk : Disk K C) (hp : 1 ≤ processes) (h64 : processes < 2 ^ 64)
    (hx : 1 ≤ multiSpatial.x) (hy : 1 ≤ multiSpatial.y) (hz : 1 ≤ multiSpatial.z) (hdiv : processes ∣ (samples : Int)) (hpos : 0 < samples)
    (horder : ∀ i k j, (order i k j).Perm (List.range processes.toNat)) (hsaves : ∀ s, first ≤ s → s < first + samples → (runs s).length = saves)
    (hstore : ∀ s, first ≤ s → s < first + samples → ∀ e ∈ runs s, ∀ i < names.length, store e.1 i = .ok (value e.1 i)) :
    ∃ disk', sampleFiles store names order base runs first samples processes multiSpatial disk = .ok disk' ∧
      (∀ k < saves, ∃ file, disk' (Output.getOutputname base k ++ ".nc") = some file ∧ (file.vars.map Prod.fst).Nodup ∧
        (∀ v, v ∈ file.vars ↔ ∃ s i name u t, (first ≤ s ∧ s < first + samples) ∧ names[i]? = some name ∧ (runs s)[k]? = some (u, t) ∧ v = (variableName s name, some (value u i))) ∧
        ∃ s u t, (first ≤ s ∧ s < first + samples) ∧ (runs s)[k]? = some (u, t) ∧ file.time = some t) ∧
      ∀ name, (∀ k < saves, name ≠ Output.getOutputname base k ++ ".nc") → disk' name = disk name := by
  set np := multiSpatial.x * multiSpatial.y * multiSpatial.z with hnp
  have hnp1 : 1 ≤ np := by
    have := Int.mul_le_mul hx hy (by omega) (by omega)
    have := Int.mul_le_mul this hz (by omega) (by omega)
    simpa [hnp] using this
  have hlenS : (sampleNumbers first samples).length = samples := by simp [sampleNumbers]
  have hmemS : ∀ s, s ∈ sampleNumbers first samples ↔ first ≤ s ∧ s < first + samples := by
    intro s
    rw [show sampleNumbers first samples = List.range' first samples by rw [sampleNumbers, List.range'_eq_map_range]]
    simp
  have hndS : (sampleNumbers first samples).Nodup := by
    rw [show sampleNumbers first samples = List.range' first samples by rw [sampleNumbers, List.range'_eq_map_range]]
    exact List.nodup_range'
  obtain ⟨share, b1, b2, b3⟩ := UQ.C50_samples_are_partitioned (sampleNumbers first samples) processes multiSpatial (processes * np) np hp h64 hx hy hz hnp rfl (by rw [hlenS]; exact hdiv)
  obtain ⟨n, hn⟩ := hdiv
  have hn0 : 0 < n := by
    by_contra h
    have := Int.mul_nonpos_of_nonneg_of_nonpos (a := processes) (b := n) (by omega) (by omega)
    omega
  have hshare : ∀ g, 0 ≤ g → g < processes → (share g).length = n.toNat := by
    intro g h0 h1
    have h := b2 g h0 h1
    rw [hlenS, hn, Int.mul_comm] at h
    have := Int.eq_of_mul_eq_mul_left (by omega) h
    omega
  set shares := (irange 0 processes).map share with hsh
  have hshares : ∀ q ∈ shares, q.length = n.toNat := by
    intro q hq
    obtain ⟨g, hg, rfl⟩ := List.mem_map.1 hq
    rw [mem_irange] at hg
    exact hshare g hg.1 hg.2
  have hslen : shares.length = processes.toNat := by simp [hsh, irange]
  have hmap : (irange 0 processes).mapM (fun g => do
      let mine ← UQ.loadBalance (sampleNumbers first samples) processes multiSpatial (processes * np) (g * np)
      (.ok mine.1 : Res (List Nat))) = .ok shares := by
    have : ∀ l : List Int, (∀ g ∈ l, 0 ≤ g ∧ g < processes) → l.mapM (fun g => do
        let mine ← UQ.loadBalance (sampleNumbers first samples) processes multiSpatial (processes * np) (g * np)
        (.ok mine.1 : Res (List Nat))) = .ok (l.map share) := by
      intro l
      induction l with
      | nil => exact fun _ => rfl
      | cons g l ih =>
        intro hl
        have hg := hl g (by simp)
        obtain ⟨a, b, h, -⟩ := b1 (g * np) (Int.mul_nonneg hg.1 (by omega)) (Int.mul_lt_mul_of_pos_right hg.2 (by omega))
        rw [Int.mul_ediv_cancel _ (by omega)] at h
        rw [List.mapM_cons, ih fun q hq => hl q (by simp [hq]), h]
        rfl
    exact this _ fun g hg => by simpa using hg
  have hperm := rounds_perm n.toNat shares hshares
  rw [hsh, b3, ← hsh] at hperm
  have hround : ∀ i < n.toNat, (shares.filterMap fun q => q[i]?).length = processes.toNat := by
    intro i hi
    rw [← hslen]
    generalize shares = l at hshares
    induction l with
    | nil => rfl
    | cons q l ih =>
      rw [List.filterMap_cons, List.getElem?_eq_getElem (by rw [hshares q (by simp)]; exact hi)]
      simp only [List.length_cons, ih fun r hr => hshares r (by simp [hr])]
  have hin : ∀ i < n.toNat, ∀ s ∈ shares.filterMap (fun q => q[i]?), first ≤ s ∧ s < first + samples := by
    intro i hi s hs
    rw [← hmemS, ← hperm.mem_iff, List.mem_flatten]
    exact ⟨_, List.mem_map.2 ⟨i, List.mem_range.2 hi, rfl⟩, hs⟩
  obtain ⟨disk', e, h1, h2⟩ := rounds_ok (store := store) (value := value) (fun i => shares.filterMap fun q => q[i]?) n.toNat processes.toNat (by omega) (by omega) hround
    (hperm.nodup_iff.2 hndS) hnames runs saves (fun i hi s hs => hsaves s (hin i hi s hs).1 (hin i hi s hs).2)
    (fun i hi s hs => hstore s (hin i hi s hs).1 (hin i hi s hs).2) order horder base disk
  refine ⟨disk', ?_, fun k hk => ?_, h2⟩
  · unfold sampleFiles
    simp only [← hnp, hmap, Res.ok_bind]
    unfold writeShares
    rcases hc : shares with _ | ⟨q, rest⟩
    · rw [hc] at hslen
      simp at hslen
      omega
    · have hq : q.length = n.toNat := hshares q (by rw [hc]; simp)
      have hall : ((q :: rest).all fun r => r.length == n.toNat) = true := by
        rw [List.all_eq_true]
        intro r hr
        simp [hshares r (by rw [hc]; exact hr)]
      rw [hc] at e
      simp only [hq, hall, if_true]
      rw [e]
      rfl
  · obtain ⟨file, g1, g2, s, hs, ⟨u, t⟩, he, ht⟩ := h1 k hk
    refine ⟨file, g1, ?_, fun v => ?_, s, u, t, hin 0 (by omega) s hs, he, ht⟩
    · rw [g2, List.map_flatMap]
      rw [List.nodup_flatMap]
      refine ⟨fun s _ => ?_, ?_⟩
      · simp only [made, block, List.map_map]
        have : (Prod.fst ∘ fun e : Str × Nat => (variableName s e.1, ((runs s)[k]?.map fun x => value x.1 e.2))) = (fun x => variableName s x) ∘ Prod.fst := rfl
        rw [this, ← List.map_map, List.zipIdx_map_fst]
        exact hnames.map fun a b h => (variableName_inj h).2
      · refine List.Pairwise.imp (R := fun a b => a ≠ b) ?_ (hperm.nodup_iff.2 hndS)
        intro a b hab
        show List.Disjoint _ _
        intro x hxa hxb
        obtain ⟨v, hv, rfl⟩ := List.mem_map.1 hxa
        obtain ⟨w, hw, hvw⟩ := List.mem_map.1 hxb
        obtain ⟨i, n1, -, rfl⟩ := mem_block.1 hv
        obtain ⟨j, n2, -, rfl⟩ := mem_block.1 hw
        exact hab (variableName_inj hvw).1.symm
    · rw [g2, List.mem_flatMap]
      constructor
      · rintro ⟨s, hs, hv⟩
        rw [hperm.mem_iff, hmemS] at hs
        obtain ⟨i, name, hi, rfl⟩ := mem_block.1 hv
        have hlt : k < (runs s).length := by rw [hsaves s hs.1 hs.2]; exact hk
        exact ⟨s, i, name, (runs s)[k].1, (runs s)[k].2, hs, hi, List.getElem?_eq_getElem hlt, by rw [List.getElem?_eq_getElem hlt]; rfl⟩
      · rintro ⟨s, i, name, u, t, hs, hi, hr, rfl⟩
        exact ⟨s, by rw [hperm.mem_iff, hmemS]; exact hs, mem_block.2 ⟨i, name, hi, by rw [hr]; rfl⟩⟩

/-- Four samples with the numbers 3 to 6 on two processes, with two writes each and two variables: sample 4 has its second variable in the second file, next to the others. -/
example : ∃ disk', sampleFiles (fun (u : Nat) i => .ok (10 * u + i)) ["rho".toList, "m".toList] (fun _ _ _ => [1, 0]) "out" (fun s => [(s, (0 : ℚ)), (s + 100, 1)]) 3 4 2 ⟨1, 1, 1⟩ (fun _ => none) = .ok disk' ∧
    ∃ file, disk' "out_1.nc" = some file ∧ file.time = some 1 ∧ ("sample_4_m".toList, some 1041) ∈ file.vars := by
  obtain ⟨disk', e, h, -⟩ := C106_files_partial (fun (u : Nat) i => .ok (10 * u + i)) (fun u i => 10 * u + i) ["rho".toList, "m".toList] (by decide) (fun _ _ _ => [1, 0]) "out"
    (fun s => [(s, (0 : ℚ)), (s + 100, 1)]) 3 4 2 2 ⟨1, 1, 1⟩ (fun _ => none) (by decide) (by decide) (by decide) (by decide) (by decide) (by decide) (by decide)
    (fun _ _ _ => List.Perm.swap 0 1 []) (fun _ _ _ => rfl) (fun _ _ _ _ _ _ _ => rfl)
  obtain ⟨file, g1, -, g2, s, u, t, -, ht, ht'⟩ := h 1 (by decide)
  refine ⟨disk', e, file, g1, ?_, (g2 _).2 ⟨4, 1, "m".toList, 104, 1, by decide, rfl, rfl, by decide +kernel⟩⟩
  rw [ht']
  exact congrArg some (congrArg Prod.snd (Option.some.inj ht)).symm

section
open Verif.Setup Integrator Verif.Simulator
variable {K V W F : Type} [Field K] [LinearOrder K] [IsStrictOrderedRing K] [AddCommGroup V] [Module K V] [AddCommGroup W] [Module K W]

omit [Module K V] in
theorem saves_entries {eval : F → V → V → K → Res V} {T : K} (hT : 0 < T) {past : List (V × TimeInfo K)} (type name : Str) (ps : Tree) (N : Nat) (hN : 0 < N) (start : K) (initial : Bool) :
    ∀ (w : WriterObj K F) (st : w.St V), w = .fixed (.base type name ps) (some (T / N)) start initial → Delivered eval T past w (w.file st).entries →
      ((w.file st).entries.map fun e => e.2.time) = ((List.range (N + 1)).drop (if initial then 0 else 1)).map (fun k : Nat => k * (T / N)) ∧ ∀ e ∈ (w.file st).entries, e ∈ past := by
  rintro w st rfl ⟨M, h1, h2, h3⟩
  have hNK : (0 : K) < N := by exact_mod_cast hN
  have hM : (M : K) ≠ 0 := by
    intro h0
    rw [h0, div_zero] at h1
    exact absurd h1 (div_pos hT hNK).ne'
  have : (N : K) = M := by
    rw [div_eq_div_iff hNK.ne' hM] at h1
    exact (mul_left_cancel₀ hT.ne' h1).symm
  have : N = M := by exact_mod_cast this
  subst this
  exact ⟨h2, h3⟩

/-- C106 for runs of the program that save the solution at `N` times (with the conditions of C86 on the run): whatever the time steps of the samples, file `k` is for the time of the `k`-th save, and has the
solution of every sample at this time. `past s` are the solutions of sample `s`, each a step of the textbook scheme after the one before. Missing: runs without a number of saves (`C106_every_step`); further
outputs and statistics that change the steps are as in C86 and C90. -/
theorem C106_saves_partial [Archimedean K] (s : Settings K F) (eval : F → V → V → K → Res V) (dx : K) (kind : Kind) (env : Env V K) (bc : V → Res V) (obeys : V → Bool)
    (int : V →ₗ[K] W) (G : W → W) (speeds : W → Nat → K) (Ready : V → Prop) (hs : Sound env.sys bc int G speeds Ready) (hx : env.len 0 ≠ 0)
    (Q : W → Prop) (δ : K) (hst : Schedule.Stable kind env G speeds Q δ) (hobeys : ∀ u, Ready u → Q (int u) → obeys u = true) (hev : ∀ f o u k, ∃ r, eval f o u k = .ok r) (hend : 0 < s.endTime) (hasked : ∀ w ∈ s.writers, Asked s.endTime w)
    (hlast : ∃ w ∈ s.writers, SavesEnd w) (u u0 : Nat → V) (others : List V) (hlen : others.length = kind.substeps) (hbc : ∀ n, bc (u n) = .ok (u0 n)) (hr : ∀ n, Ready (u0 n)) (hq : ∀ n, Q (int (u0 n)))
    (writer : Fin s.writers.length) (type name : Str) (ps : Tree) (N : Nat) (hN : 0 < N) (start : K) (initial : Bool)
    (hwriter : s.writers.get writer = .fixed (.base type name ps) (some (s.endTime / N)) start initial)
    {C : Type} (store : V → Nat → Res C) (value : V → Nat → C) (hstore : ∀ u i, store u i = .ok (value u i)) (names : List Str) (hnames : names.Nodup)
    (order : Nat → Nat → Nat → List Nat) (base : String) (first samples : Nat) (processes : Int) (multiSpatial : I3) (disk : Disk K C) (hp : 1 ≤ processes) (h64 : processes < 2 ^ 64)
    (hpx : 1 ≤ multiSpatial.x) (hpy : 1 ≤ multiSpatial.y) (hpz : 1 ≤ multiSpatial.z) (hdiv : processes ∣ (samples : Int)) (hpos : 0 < samples)
    (horder : ∀ i k j, (order i k j).Perm (List.range processes.toNat)) :
    ∃ (fuel : Nat → Nat) (past : Nat → List (V × TimeInfo K)) (sim : Nat → Sim V K (States V s.writers)) (disk' : Disk K C),
      (∀ n, program eval dx s kind env bc obeys (u n) others (fuel n) = .ok (some (sim n)) ∧ (past n).head? = some (u0 n, ⟨0, 0⟩) ∧
        (past n).Pairwise (fun a b => a.2.time < b.2.time) ∧
        (past n).IsChain (fun a b => int b.1 = textbook kind (fun w => (1 / env.len 0) • G w) (b.2.time - a.2.time) (int a.1))) ∧
      sampleFiles store names order base (fun n => ((s.writers.get writer).file ((sim n).ws writer)).entries.map fun e => (e.1, e.2.time)) first samples processes multiSpatial disk = .ok disk' ∧
      ∀ (k : Nat) (t : K), (((List.range (N + 1)).drop (if initial then 0 else 1)).map fun k : Nat => k * (s.endTime / N))[k]? = some t →
        ∃ file, disk' (Output.getOutputname base k ++ ".nc") = some file ∧ file.time = some t ∧ (file.vars.map Prod.fst).Nodup ∧
          ∀ v, v ∈ file.vars ↔ ∃ n i name u info, (first ≤ n ∧ n < first + samples) ∧ names[i]? = some name ∧ (u, info) ∈ past n ∧ info.time = t ∧
            v = (variableName n name, some (value u i)) := by
  have H := fun n => RunSetup.C86_output_partial s eval dx kind env bc obeys int G speeds Ready hs hx Q δ hst hobeys hev hend hasked hlast (u n) (u0 n) others hlen (hbc n) (hr n) (hq n)
  choose fuel past sim h1 h2 h3 h4 h5 h6 hkept h7 using H
  have hent := fun n => saves_entries hend type name ps N hN start initial _ _ hwriter (h7 n writer)
  set times := ((List.range (N + 1)).drop (if initial then 0 else 1)).map fun k : Nat => k * (s.endTime / N) with htimes
  set entries := fun n => ((s.writers.get writer).file ((sim n).ws writer)).entries with hentries
  have hlenE : ∀ n, ((entries n).map fun e => (e.1, e.2.time)).length = times.length := by
    intro n
    have := congrArg List.length (hent n).1
    rw [List.length_map] at this ⊢
    exact this
  obtain ⟨disk', e, g1, -⟩ := C106_files_partial store value names hnames order base (fun n => (entries n).map fun e => (e.1, e.2.time)) first samples times.length processes multiSpatial disk hp h64
    hpx hpy hpz hdiv hpos horder (fun n _ _ => hlenE n) (fun _ _ _ _ _ _ _ => hstore _ _)
  refine ⟨fuel, past, sim, disk', fun n => ⟨h1 n, h3 n, h5 n, h6 n⟩, e, fun k t ht => ?_⟩
  have hk : k < times.length := (List.getElem?_eq_some_iff.1 ht).1
  have htime : ∀ n x t', ((entries n).map fun e => (e.1, e.2.time))[k]? = some (x, t') → t' = t ∧ ∃ info, (x, info) ∈ past n ∧ info.time = t := by
    intro n x t' h
    rw [List.getElem?_map, Option.map_eq_some_iff] at h
    obtain ⟨⟨y, info⟩, h, he⟩ := h
    cases he
    have hh : ((entries n).map fun e => e.2.time)[k]? = times[k]? := by rw [← (hent n).1]
    rw [ht, List.getElem?_map, h] at hh
    have hti := Option.some.inj hh
    exact ⟨hti, info, (hent n).2 _ (List.mem_of_getElem? h), hti⟩
  obtain ⟨file, a1, a2, a3, n, x, t', -, a4, a5⟩ := g1 k hk
  refine ⟨file, a1, by rw [a5, (htime n x t' a4).1], a2, fun v => (a3 v).trans ⟨?_, ?_⟩⟩
  · rintro ⟨n, i, nm, x, t', hn, hi, hx, rfl⟩
    obtain ⟨-, info, b1, b2⟩ := htime n x t' hx
    exact ⟨n, i, nm, x, info, hn, hi, b1, b2, rfl⟩
  · rintro ⟨n, i, nm, x, info, hn, hi, b1, b2, rfl⟩
    have hlt : k < ((entries n).map fun e => (e.1, e.2.time)).length := by rw [hlenE]; exact hk
    obtain ⟨⟨y, t'⟩, hget⟩ : ∃ e, ((entries n).map fun e => (e.1, e.2.time))[k]? = some e := ⟨_, List.getElem?_eq_getElem hlt⟩
    obtain ⟨-, info', c1, c2⟩ := htime n _ _ hget
    have : (x, info) = (y, info') := by
      by_contra hne
      obtain ⟨a, ha, ea⟩ := List.getElem_of_mem b1
      obtain ⟨b, hb, eb⟩ := List.getElem_of_mem c1
      have hp := List.pairwise_iff_getElem.1 (h5 n)
      rcases Nat.lt_trichotomy a b with h | h | h
      · have := hp a b ha hb h
        rw [ea, eb] at this
        simp only [b2, c2] at this
        exact lt_irrefl _ this
      · subst h
        exact hne (ea.symm.trans eb)
      · have := hp b a hb ha h
        rw [ea, eb] at this
        simp only [b2, c2] at this
        exact lt_irrefl _ this
    refine ⟨n, i, nm, x, t', hn, hi, ?_, rfl⟩
    rw [hget, (Prod.mk.inj this).1]

end

section
open Verif.Setup Integrator Verif.Simulator RunSetup

/-- The second of the two saves of a decaying solution, with the initial values 12 to 15 for the samples 0 to 3, on two processes. -/
example : ∃ (past : Nat → List (ℚ × TimeInfo ℚ)) (disk' : Disk ℚ ℚ) (file : NcFile ℚ ℚ), disk' "out_1.nc" = some file ∧ file.time = some 1 ∧
    ∀ v, v ∈ file.vars ↔ ∃ (n i : Nat) (name : Str) (u : ℚ) (info : TimeInfo ℚ), (0 ≤ n ∧ n < 0 + 4) ∧ ["u".toList][i]? = some name ∧ (u, info) ∈ past n ∧ info.time = 1 ∧ v = (variableName n name, some u) := by
  obtain ⟨-, past, -, disk', -, -, h⟩ := C106_saves_partial four (fun _ out u weight => .ok (out + weight * u)) 1 .rungeKutta2 exEnv (fun v => .ok v) (fun _ => true)
    LinearMap.id _ _ _ exSound (by norm_num [exEnv]) (fun _ => True) (1 / 3) (.always (by norm_num) ex_speed) (fun _ _ _ => rfl) (fun _ _ _ _ => ⟨_, rfl⟩) (by norm_num [four, withOutput]) four_asked
    ⟨_, List.mem_cons_self, trivial⟩ (fun n => 12 + n) (fun n => 12 + n) [0, 0] rfl (fun _ => rfl) (fun _ => trivial) (fun _ => trivial) (0 : Fin 4) [] [] (.node [] []) 2 (by omega) 0 false rfl
    (fun u _ => .ok u) (fun u _ => u) (fun _ _ => rfl) ["u".toList] (by decide) (fun _ _ _ => [0, 1]) "out" 0 4 2 ⟨1, 1, 1⟩ (fun _ => none) (by decide) (by decide) (by decide) (by decide)
    (by decide) (by decide) (by decide) (fun _ _ _ => List.Perm.refl _)
  obtain ⟨file, h1, h2, -, h3⟩ := h 1 1 (by norm_num [four, withOutput, List.range_succ])
  exact ⟨past, disk', file, h1, h2, h3⟩

/-! A run without a number of saves: the solution of every step is written. The solutions do not change, and the faster they are the larger they are. -/

/-- Time steps of 1 for the solution 1, and of 1/2 for the solution 2. -/
def fastEnv : Env ℚ ℚ := ⟨fun u _ => .ok (u, 0, fun _ => u), [], fun _ => 1, 3⟩

/-- What the program writes until the time 1 with the initial value `u`, if it ends. -/
def written (u : ℚ) : Option (List (ℚ × ℚ)) :=
  match program (fun _ out u weight => .ok (out + weight * u)) 1 (withOutput 1 [out]) .forwardEuler fastEnv (fun v => .ok v) (fun _ => true) u [0] 5 with
  | .ok (some sim) => some ((out.file (sim.ws (0 : Fin 1))).entries.map fun e => (e.1, e.2.time))
  | _ => none

theorem written_values : written 1 = some [(1, 0), (1, 1)] ∧ written 2 = some [(2, 0), (2, 1 / 2), (2, 1)] := by decide +kernel

/-- The files of two samples with the initial values `a` and `b`. -/
def twoSamples (a b : ℚ) (processes : Int) (order : List Nat) (disk : Disk ℚ ℚ) : Res (Disk ℚ ℚ) :=
  sampleFiles (fun u _ => .ok u) ["u".toList] (fun _ _ _ => order) "out" (fun s => (written (if s = 0 then a else b)).getD []) 0 2 processes ⟨1, 1, 1⟩ disk

/-- The same with the samples of the processes given. -/
def shared (a b : ℚ) (shares : List (List Nat)) (order : List Nat) (disk : Disk ℚ ℚ) : Res (Disk ℚ ℚ) :=
  writeShares (fun u _ => .ok u) ["u".toList] (fun _ _ _ => order) "out" (fun s => (written (if s = 0 then a else b)).getD []) shares disk

theorem twoSamples_one (a b : ℚ) (order : List Nat) (disk : Disk ℚ ℚ) : twoSamples a b 1 order disk = shared a b [[0, 1]] order disk := by
  obtain ⟨share, b1, b2, b3⟩ := UQ.C50_samples_are_partitioned (sampleNumbers 0 2) 1 ⟨1, 1, 1⟩ 1 1 (by decide) (by decide) (by decide) (by decide) (by decide) rfl rfl (by decide)
  have hr : irange 0 1 = [0] := rfl
  obtain ⟨x, y, h, -⟩ := b1 0 (by decide) (by decide)
  have h0 : share (0 / 1) = [0, 1] := by simpa [hr, sampleNumbers, List.range_succ] using b3
  rw [h0] at h
  unfold twoSamples sampleFiles
  simp only [hr, List.mapM_cons, List.mapM_nil]
  rw [show (0 : Int) * (1 * 1 * 1) = 0 from rfl, show (1 : Int) * (1 * 1 * 1) = 1 from rfl, h]
  rfl

theorem twoSamples_two (a b : ℚ) (order : List Nat) (disk : Disk ℚ ℚ) : twoSamples a b 2 order disk = shared a b [[0], [1]] order disk := by
  obtain ⟨share, b1, b2, b3⟩ := UQ.C50_samples_are_partitioned (sampleNumbers 0 2) 2 ⟨1, 1, 1⟩ 2 1 (by decide) (by decide) (by decide) (by decide) (by decide) rfl rfl (by decide)
  have hr : irange 0 2 = [0, 1] := rfl
  obtain ⟨x, y, h, -⟩ := b1 0 (by decide) (by decide)
  obtain ⟨x', y', h', -⟩ := b1 1 (by decide) (by decide)
  have l0 : (share 0).length = 1 := by
    have := b2 0 (by decide) (by decide)
    simp only [sampleNumbers, List.length_map, List.length_range] at this
    omega
  have hf : share 0 ++ share 1 = [0, 1] := by simpa [hr, sampleNumbers, List.range_succ] using b3
  obtain ⟨c, hc⟩ := List.length_eq_one_iff.1 l0
  rw [hc] at hf
  simp only [List.singleton_append, List.cons.injEq] at hf
  rw [show (0 : Int) / 1 = 0 from rfl, hc, hf.1] at h
  rw [show (1 : Int) / 1 = 1 from rfl, hf.2] at h'
  unfold twoSamples sampleFiles
  simp only [hr, List.mapM_cons, List.mapM_nil]
  rw [show (0 : Int) * (1 * 1 * 1) = 0 from rfl, show (1 : Int) * (1 * 1 * 1) = 1 from rfl, show (2 : Int) * (1 * 1 * 1) = 2 from rfl, h, h']
  rfl

/-- What a file has: its time and its variables. -/
def shown (disk : Res (Disk ℚ ℚ)) (name : String) : Res (Option (Option ℚ × List (Str × Option ℚ))) := disk.map fun d => (d name).map fun f => (f.time, f.vars)

/-- C106 fails if the writer has no number of saves: on two processes one sample makes two writes and the other three, and the processes do not make the same collective calls. -/
theorem C106_every_step : shown (twoSamples 1 2 2 [0, 1] fun _ => none) "out_0.nc" = .error .ub := by
  rw [twoSamples_two]
  decide +kernel

/-- On one process the third write of the second sample is to a file that does not exist, and the run ends with an exception. In the other order of the samples the run ends, but the second file is for
the time 1/2 while the solution of sample 1 in it is for the time 1, and the third file has only sample 0. -/
theorem C106_every_step_one_process : shown (twoSamples 1 2 1 [0] fun _ => none) "out_0.nc" = .error .thrown ∧
    shown (twoSamples 2 1 1 [0] fun _ => none) "out_1.nc" = .ok (some (some (1 / 2), [("sample_0_u".toList, some 2), ("sample_1_u".toList, some 1)])) ∧
    shown (twoSamples 2 1 1 [0] fun _ => none) "out_2.nc" = .ok (some (some 1, [("sample_0_u".toList, some 2)])) := by
  simp only [twoSamples_one]
  exact ⟨by decide +kernel, by decide +kernel, by decide +kernel⟩

/-- If there is a file of an earlier run with the name of the third file, the second sample is added to it: to a sample and a time of another run. -/
theorem C106_old_file : shown (twoSamples 1 2 1 [0] fun name => if name = "out_2.nc" then some ⟨some 7, [("sample_0_u".toList, some 5)]⟩ else none) "out_2.nc" =
    .ok (some (some 7, [("sample_0_u".toList, some 5), ("sample_1_u".toList, some 2)])) := by
  rw [twoSamples_one]
  decide +kernel

end

end Verif.Props.SampleFiles
