import Verif.Props.UQSetup
import Verif.UQProgram
import Verif.Props.ScalarOutput
import Verif.Props.UQRun

/-! C110: from the configuration file of a scalar equation with random initial data to the statistics. -/

namespace Verif.Props.UQOutput
open Verif Verif.Setup Verif.Params Verif.Integrator Verif.Simulator Verif.NetFlux Verif.ScalarRun Verif.Props.WholeRun Verif.ScalarProgram Verif.Factories Verif.Props.Factories
open Verif.UQSetup Verif.UQProgram Verif.UQRun Verif.Props.UQRun Verif.Props.ScalarOutput Verif.Stats Verif.Functionals Verif.Props.Stats Verif.Iterate

/-! ### Averages -/

/-- The average lies between bounds of the values. -/
theorem average_mem {l : List ℝ} (hne : l ≠ []) {m M : ℝ} (h : ∀ x ∈ l, m ≤ x ∧ x ≤ M) : m ≤ average l ∧ average l ≤ M := by
  have hl : (0 : ℝ) < l.length := by exact_mod_cast List.length_pos_iff.2 hne
  have key : ∀ l : List ℝ, (∀ x ∈ l, m ≤ x ∧ x ≤ M) → m * l.length ≤ l.sum ∧ l.sum ≤ M * l.length := by
    intro l
    induction l with
    | nil => simp
    | cons a l ih =>
      intro h
      have h1 := h a (by simp)
      have h2 := ih fun x hx => h x (by simp [hx])
      simp only [List.length_cons, List.sum_cons]
      push_cast
      constructor <;> nlinarith
  unfold average
  rw [le_div_iff₀ hl, div_le_iff₀ hl]
  exact key l h

/-- The variance is not negative and at most a quarter of the square of the width (Popoviciu). -/
theorem variance_mem {l : List ℝ} (hne : l ≠ []) {m M : ℝ} (h : ∀ x ∈ l, m ≤ x ∧ x ≤ M) :
    0 ≤ average (l.map fun x => (x - average l) ^ 2) ∧ average (l.map fun x => (x - average l) ^ 2) ≤ (M - m) ^ 2 / 4 := by
  have hl : (0 : ℝ) < l.length := by exact_mod_cast List.length_pos_iff.2 hne
  set μ := average l with hμ
  have hsum : l.sum = μ * l.length := by rw [hμ]; unfold average; field_simp
  have key : ∀ l : List ℝ, (∀ x ∈ l, m ≤ x ∧ x ≤ M) → (l.map fun x => (x - μ) ^ 2).sum ≤ (M + m - 2 * μ) * l.sum + (μ ^ 2 - m * M) * l.length := by
    intro l
    induction l with
    | nil => simp
    | cons a l ih =>
      intro h
      have h1 := h a (by simp)
      have h2 := ih fun x hx => h x (by simp [hx])
      simp only [List.map_cons, List.length_cons, List.sum_cons]
      push_cast
      nlinarith [mul_nonneg (sub_nonneg.2 h1.1) (sub_nonneg.2 h1.2)]
  have h1 := key l h
  rw [hsum] at h1
  unfold average
  rw [List.length_map]
  constructor
  · refine div_nonneg (List.sum_nonneg fun x hx => ?_) hl.le
    obtain ⟨y, -, rfl⟩ := List.mem_map.1 hx
    positivity
  · rw [div_le_iff₀ hl]
    nlinarith [mul_nonneg hl.le (sq_nonneg (M + m - 2 * μ))]

variable {Fn : Type}

/-- `past` are the solutions of a sample with initial data `u`, as in C109: from `u` to the end time, each a step of the textbook scheme with the cell side `h` after the one before, all
values inside of what is allowed. -/
structure Solution (s : Settings ℝ Fn) (o : SimObj) (r : Recon ℝ) (fl : FluxFn ℝ ℝ) (h : ℝ) (Inside : ℝ → Prop) (u : I3 → ℝ) (past : List ((I3 → ℝ) × TimeInfo ℝ)) : Prop where
  first : ∃ u0, past.head? = some (u0, ⟨0, 0⟩) ∧ ∀ p, IsInterior (volumeSize s o) (ghosts s o) p → u0 p = u p
  last : ∃ e, past.getLast? = some e ∧ e.2.time = s.endTime
  increasing : past.Pairwise fun a b => a.2.time < b.2.time
  steps : past.IsChain fun a b => Step.int (K := ℝ) (volumeSize s o) (ghosts s o) b.1 =
    textbook o.integrator (fun w => (1 / h) • Step.rhs o.boundary.condition o.flux.dimension r fl (volumeSize s o) (ghosts s o) o.boundary.ghost w) (b.2.time - a.2.time)
      (Step.int (K := ℝ) (volumeSize s o) (ghosts s o) a.1)
  inside : ∀ e ∈ past, ∀ p, IsInterior (volumeSize s o) (ghosts s o) p → Inside (e.1 p)

/-- `final` shows the statistic at time `t` in the cell `c`, where the samples have the values `values`: mean and variance, or the mean of the powers. -/
def ShowsCell (stat : Stat) (final : Snaps) (t : ℝ) (c : I3) (values : List ℝ) : Prop :=
  match stat with
  | .meanVar => ∃ mean variance, find (toLex (t, "mean")) final = some mean ∧ find (toLex (t, "variance")) final = some variance ∧
      mean.at 0 c = some (average values) ∧ variance.at 0 c = some (average (values.map fun x => (x - average values) ^ 2))
  | .moment p => ∃ moment, find (toLex (t, "m" ++ toString p)) final = some moment ∧ moment.at 0 c = some (average (values.map fun x => x ^ p))
  | .other => True

/-- The statistics this is about: mean and variance or moments, at least one save until the end time. -/
def Usual (endTime : ℝ) (x : StatSetup ℝ Stat) (N : Nat) (start : Bool) : Prop :=
  x.stat ≠ .other ∧ 0 < N ∧ x.times = .fixed (some (endTime / N)) start

/-- What the run delivers for the initial data `data` of the parameters and the random numbers `w`: for each sample there are the solutions `past`, on which the number of processes has no
influence, and `U k t` is the one of sample `k` at time `t`; on every number of processes that divides the number of samples the program ends, and each statistic shows these at all of its
save times in all cells. -/
def Delivers (eval : Fn → (I3 → ℝ) → (I3 → ℝ) → ℝ → Res (I3 → ℝ)) (dx : ℝ) (s : Settings ℝ Fn) (q : UQSettings ℝ Stat) (o : SimObj) (r : Recon ℝ) (fl : FluxFn ℝ ℝ)
    (work : NetFlux.State ℝ ℝ) (obeys : (I3 → ℝ) → Bool) (others : List (I3 → ℝ)) (data : List (Str × List ℝ) → I3 → ℝ) (w : Nat → ℝ) (h : ℝ) (Inside : ℝ → Prop) : Prop :=
  ∃ (fuel : Nat) (past : Nat → List ((I3 → ℝ) × TimeInfo ℝ)) (U : Nat → ℝ → I3 → ℝ),
    (∀ k, q.first ≤ k → k < q.first + q.samples → Solution s o r fl h Inside (UQProgram.initial s q data (values w (q.parameters.map Prod.snd) k)) (past k)) ∧
    (∀ x ∈ q.statistics, ∀ N start, Usual s.endTime x N start → ∀ k, q.first ≤ k → k < q.first + q.samples → ∀ t ∈ saveTimes s.endTime N start, ∃ info, (U k t, info) ∈ past k ∧ info.time = t) ∧
    ∀ (more : Nat) (processes : Int), 1 ≤ processes → processes < 2 ^ 64 → processes ∣ (q.samples : Int) →
      ∃ out, uqFileProgram eval dx s o r fl work obeys others q data w processes (fuel + more) = .ok (some out) ∧ out.length = q.statistics.length ∧
        ∀ (j : Nat) (x : StatSetup ℝ Stat) (N : Nat) (start : Bool), q.statistics[j]? = some x → Usual s.endTime x N start →
          ∃ final, out[j]? = some final ∧ ∀ t ∈ saveTimes s.endTime N start, ∀ c, IsInterior (volumeSize s o) (ghosts s o) c →
            ShowsCell x.stat final t c ((List.range' q.first q.samples).map fun k => U k t c)

/-- Cells of the grid are cells of the volume. -/
theorem interior_block {s : Settings ℝ Fn} {o : SimObj} {c : I3} (h : IsInterior (volumeSize s o) (ghosts s o) c) : InBlock (s.grid.dims + ghosts s o + ghosts s o) c := by
  have h0 := h 0 (by omega)
  have h1 := h 1 (by omega)
  have h2 := h 2 (by omega)
  simp only [volumeSize, ghosts, Halo.totalOf, Halo.ghostsOf, I3.get] at h0 h1 h2
  simp only [InBlock, ghosts, Halo.ghostsOf, I3.add_x, I3.add_y, I3.add_z]
  split_ifs at * <;> omega

/-- The statistics from the stability of the steps. -/
theorem delivers_of_stable {cuda : Bool} {s : Settings ℝ Fn} {q : UQSettings ℝ Stat} {o : SimObj} {p : Platform} (hM : Meant cuda s.conf o p o.parameters) {r : Recon ℝ} {fl : FluxFn ℝ ℝ}
    {work : NetFlux.State ℝ ℝ} (hL : Layout (volumeSize s o) (ghosts s o) (active o) o.flux.dimension o.boundary.ghost)
    (hN : ∀ d < o.flux.dimension, 3 * (ghosts s o).get d ≤ (volumeSize s o).get d)
    (hpos : 0 < o.flux.dimension) (hlen0 : 0 < lengths s 0) (hf : Fits r fl o.boundary.ghost) (hw : Sized (volumeSize s o) work) (Inside : ℝ → Prop)
    (hst : ∃ δ, Schedule.Stable o.integrator (env s o r fl work) (Step.rhs o.boundary.condition o.flux.dimension r fl (volumeSize s o) (ghosts s o) o.boundary.ghost)
      (Step.waves o.boundary.condition o.flux.dimension r fl (volumeSize s o) (ghosts s o) (active o) o.boundary.ghost work) (fun w => ∀ p, Inside (w p)) δ)
    (hend : 0 < s.endTime) (hasked : ∀ w ∈ s.writers, Asked s.endTime w)
    (hstats : q.statistics ≠ []) (husual : ∀ x ∈ q.statistics, ∃ N start, Usual s.endTime x N start) (hsamples : 0 < q.samples)
    (hone : ((q.parameters.map Prod.snd).filter UQ.Param.random).length ≤ 1) (hdim : ∀ p ∈ q.parameters, ∀ a dx, p.2.dist = .uniform1d a dx → p.2.dim ≤ 1)
    (eval : Fn → (I3 → ℝ) → (I3 → ℝ) → ℝ → Res (I3 → ℝ)) (hev : ∀ f o u k, ∃ v, eval f o u k = .ok v) (dx : ℝ) (obeys : (I3 → ℝ) → Bool) (hobeys : ∀ u, obeys u = true)
    (others : List (I3 → ℝ)) (hot : others.length + 1 = o.volumes.length) (data : List (Str × List ℝ) → I3 → ℝ) (w : Nat → ℝ)
    (hu : ∀ k, q.first ≤ k → k < q.first + q.samples → ∀ p, IsInterior (volumeSize s o) (ghosts s o) p →
      Inside (UQProgram.initial s q data (values w (q.parameters.map Prod.snd) k) p)) :
    Delivers eval dx s q o r fl work obeys others data w (lengths s 0) Inside := by
  obtain ⟨δ, hst⟩ := hst
  have hs := Step.sound (b := o.boundary.condition) hL hf hN hpos hw
  have hsub : others.length = o.integrator.substeps := by
    rw [hM.volumes, List.length_replicate] at hot
    have : stagesOf o.integrator = o.integrator.substeps := by cases o.integrator <;> rfl
    omega
  have hsaving : ∀ x N start, Usual s.endTime x N start → (asObj x).saving = .fixed (some (s.endTime / N)) start := by
    intro x N start ⟨h1, h2, h3⟩
    unfold asObj
    rw [h3]
    cases h : x.stat <;> simp
  have hworks : Works (common eval dx s o r fl work obeys others q) (Step.int (K := ℝ) (volumeSize s o) (ghosts s o))
      (Step.rhs o.boundary.condition o.flux.dimension r fl (volumeSize s o) (ghosts s o) o.boundary.ghost)
      (Step.waves o.boundary.condition o.flux.dimension r fl (volumeSize s o) (ghosts s o) (active o) o.boundary.ghost work) _ (fun w => ∀ p, Inside (w p)) δ :=
    { sound := hs, length := hlen0.ne', stable := hst, obeys := fun u _ _ => hobeys u, functionals := hev, endTime := hend, asked := hasked, volumes := hsub
      statistics := by simpa [common] using hstats
      intervals := by
        intro x hx
        obtain ⟨y, hy, rfl⟩ := List.mem_map.1 hx
        obtain ⟨N, start, h⟩ := husual y hy
        exact ⟨N, start, h.2.1, hsaving y N start h⟩ }
  have hcol : ∀ x ∈ (common eval dx s o r fl work obeys others q).stats, Collects (Vol.Shape s.grid.dims (ghosts s o) 1) x := by
    intro x hx
    obtain ⟨y, hy, rfl⟩ := List.mem_map.1 hx
    obtain ⟨N, start, h⟩ := husual y hy
    unfold asObj
    cases hy : y.stat with
    | meanVar => exact .meanVariance _ s.grid.dims (ghosts s o) 1 fun _ h => h
    | moment p => exact C90_moments p _ _ _ _
    | other => exact absurd hy h.1
  obtain ⟨fuel, past, U, h1, h2⟩ := C90_statistics_partial _ _ _ _ _ _ δ hworks (Vol.Shape s.grid.dims (ghosts s o) 1) (fun _ _ => ⟨rfl, rfl, rfl⟩) hcol w (q.parameters.map Prod.snd) hone
    (by intro p hp; obtain ⟨y, hy, rfl⟩ := List.mem_map.1 hp; exact hdim y hy) (UQProgram.initial s q data) q.first q.samples hsamples
    (fun k hk1 hk2 p => hu k hk1 hk2 p p.2)
  have hget : ∀ (j : Nat) (x : StatSetup ℝ Stat), q.statistics[j]? = some x → (common eval dx s o r fl work obeys others q).stats[j]? = some (asObj x) := by
    intro j x hx
    simp only [common, List.getElem?_map, hx, Option.map_some]
  refine ⟨fuel, past, U, fun k hk1 hk2 => ?_, fun x hx N start hux k hk1 hk2 t ht => ?_, fun more processes hp hp64 hdvd => ?_⟩
  · obtain ⟨hT, hQ⟩ := h1 k hk1 hk2
    obtain ⟨u0, hbc, hfirst⟩ := hT.first
    obtain ⟨u0', hbc', hi, hr⟩ := hs.bc_ok (UQProgram.initial s q data (values w (q.parameters.map Prod.snd) k))
    cases hbc.symm.trans hbc'
    exact ⟨⟨u0, hfirst, fun p hp => congrFun hi ⟨p, hp⟩⟩, hT.last, hT.increasing, hT.steps, fun e he p hp => hQ e he ⟨p, hp⟩⟩
  · obtain ⟨j, hj⟩ := List.getElem?_of_mem hx
    obtain ⟨out, -, -, h3⟩ := h2 0 1 le_rfl (by norm_num) (one_dvd _)
    exact (h3 j (asObj x) N start (hget j x hj) hux.2.1 (hsaving x N start hux)).1 k hk1 hk2 t ht
  · obtain ⟨out, g1, g2, g3⟩ := h2 more processes hp hp64 hdvd
    refine ⟨out, g1, by rw [g2]; simp [common], fun j x N start hj hux => ?_⟩
    obtain ⟨-, final, g4, g5⟩ := g3 j (asObj x) N start (hget j x hj) hux.2.1 (hsaving x N start hux)
    refine ⟨final, g4, fun t ht c hc => ?_⟩
    have hb := interior_block hc
    have hval : ∀ k, entry ((common eval dx s o r fl work obeys others q).toVol (U k t)) 0 c = U k t c := fun k => rfl
    cases hx : x.stat with
    | meanVar =>
      have hparts : (asObj x).parts = meanVariance := by unfold asObj; rw [hx]
      have hfin : (asObj x).finalize = finalizeMeanVariance := by unfold asObj; rw [hx]
      obtain ⟨m, v, e1, e2, e3⟩ := g5.2 _ _ 1 hparts hfin (fun _ h => h) t ht
      obtain ⟨e4, e5⟩ := e3 0 c Nat.one_pos hb
      simp only [hval] at e4 e5
      exact ⟨m, v, e1, e2, e4, e5⟩
    | moment p =>
      have hparts : (asObj x).parts = onePointMoment p := by unfold asObj; rw [hx]
      have hfin : (asObj x).finalize = fun s => .ok s := by unfold asObj; rw [hx]
      obtain ⟨v, e1, e2⟩ := g5.1 _ _ _ 1 _ hfin (by rw [hparts]; exact C53_one_point_moment_partial p s.grid.dims (ghosts s o) 1) t ht
      have e3 := e2 0 c Nat.one_pos hb
      refine ⟨v, e1, ?_⟩
      rw [e3, List.map_map]
      rfl
    | other => trivial

/-! ### The statistics of the file -/

/-- The entry of the file asks for this statistic with `N` saves: mean and variance, or the moment with a power. -/
structure Asks (conv : Conv ℝ) (node : Tree) (stat : Stat) (N : Nat) (start : Bool) : Prop where
  stat : Word node ["name"] "meanvar".toList ∧ stat = .meanVar ∨ Word node ["name"] "onepointmoment".toList ∧ ∃ p : Nat, Value conv.int node ["p"] p ∧ stat = .moment p
  some : 0 < N
  saves : Value conv.size node ["numberOfSaves"] N
  start : Value conv.bool node ["writeInitialTimestep"] start ∨ Absent node "writeInitialTimestep" ∧ start = false

/-- The file asks for such statistics only, and for at least one. -/
structure Statistics (conv : Conv ℝ) (root : Tree) (endTime : ℝ) (entries : Tree) : Prop where
  platform : Says root ["config", "fvm", "platform"] "cpu".toList
  endTime : Value conv.real root ["config", "fvm", "endTime"] endTime
  found : At root ["config", "uq", "stats"] entries
  some : entries.children ≠ []
  asks : ∀ c ∈ entries.children, ∃ stat N start, Asks conv c.2 stat N start

theorem makeStat_asked {conv : Conv ℝ} {node : Tree} {stat : Stat} {N : Nat} {start : Bool} (h : Asks conv node stat N start) {name : Str} (hn : Word node ["name"] name) {samples : Nat} {x : Stat}
    (hx : makeStat conv "cpu".toList name samples node = .ok x) : x = stat := by
  unfold makeStat at hx
  rw [if_pos rfl] at hx
  rcases h.stat with ⟨h1, rfl⟩ | ⟨h1, p, hp, rfl⟩
  · cases hn.unique h1
    rw [if_pos rfl] at hx
    cases hx
    rfl
  · cases hn.unique h1
    rw [if_neg (by decide), if_pos rfl, get_iff.2 hp, Res.ok_bind, if_pos (Int.natCast_nonneg p), Int.toNat_natCast] at hx
    cases hx
    rfl

/-- C110: what is read from the file are the statistics it asks for, with their save times. -/
theorem C110_statistics_read (conv : Conv ℝ) (print : ℝ → Str) (library : Str → Nat → Nat → Tree → Res (UQ.Dist ℝ)) (root : Tree) (q : UQSettings ℝ Stat) (endTime : ℝ) (entries : Tree)
    (huq : readUQ conv print library (makeStat conv) statNames root = .ok q) (hfile : Statistics conv root endTime entries) :
    List.Forall₂ (fun (c : Str × Tree) x => ∀ stat N start, Asks conv c.2 stat N start → x.stat = stat ∧ x.times = .fixed (some (endTime / N)) start) entries.children q.statistics := by
  obtain ⟨config, hcfg, uq, hu, e, he, rfl⟩ := hfile.found
  obtain ⟨t, hplat, hcpu⟩ := hfile.platform
  obtain ⟨config', hcfg', hplat⟩ := hplat
  cases hcfg.unique hcfg'
  obtain ⟨str, ⟨t', hend, hend'⟩, hval⟩ := hfile.endTime
  obtain ⟨config', hcfg', hend⟩ := hend
  cases hcfg.unique hcfg'
  unfold readUQ at huq
  simp only [bind_iff, child_one hcfg, Except.ok.injEq, exists_eq_left'] at huq
  obtain ⟨ps, -, n, -, first, -, name, -, ss, hss, rfl⟩ := huq
  unfold createStatistics at hss
  simp only [bind_iff, Except.ok.injEq] at hss
  obtain ⟨node, hnode, platform, hp, os, hos, rfl⟩ := hss
  rw [child_iff] at hnode
  rw [text_iff] at hp
  cases hp.unique ⟨t, hplat, hcpu⟩
  cases At.unique hnode (show At config ["uq", "stats"] entries from ⟨uq, hu, entries, he, rfl⟩)
  rw [mapM_iff] at hos
  have hasks := hfile.asks
  generalize entries.children = l at hos hasks
  induction hos with
  | nil => exact .nil
  | @cons c o l os h1 _ ih =>
    obtain ⟨stat, N, start, hask⟩ := hasks c (by simp)
    obtain ⟨sv, hsv, hsv'⟩ := hask.saves
    have hhas : has "numberOfSaves" c.2 = true := by
      obtain ⟨d, ⟨d', hd, -⟩, -⟩ := hsv
      exact has_iff.2 ⟨d', hd⟩
    unfold createStatistic at h1
    simp only [bind_iff, if_pos hhas, Except.ok.injEq] at h1
    obtain ⟨nm, hnm, k, -, st, hst, ty, -, bn, -, files, -, initial, hinit, N', hN', T, hT, rfl⟩ := h1
    refine .cons ?_ (ih fun c hc => hasks c (by simp [hc]))
    intro stat' N'' start' h'
    rw [text_iff] at hnm
    refine ⟨makeStat_asked h' ⟨nm, hnm, trim_iff.1 rfl⟩ hst, ?_⟩
    rw [get_iff] at hN' hT
    cases hN'.unique h'.saves
    cases hT.unique (show Value conv.real config ["fvm", "endTime"] endTime from ⟨str, ⟨t', hend, hend'⟩, hval⟩)
    have : initial = start' := by
      rcases h'.start with hs | ⟨hs, rfl⟩
      · have hh : has "writeInitialTimestep" c.2 = true := by
          obtain ⟨z, ⟨z', ⟨d', hd, -⟩, -⟩, -⟩ := hs
          exact has_iff.2 ⟨d', hd⟩
        rw [if_pos hh, get_iff] at hinit
        exact hinit.unique hs
      · rw [if_neg (has_not.2 hs)] at hinit
        cases hinit
        rfl
    subst this
    unfold quotient
    rw [if_neg (by have := h'.some; omega)]

theorem usual_of_file {conv : Conv ℝ} {endTime : ℝ} {l : List (Str × Tree)} {xs : List (StatSetup ℝ Stat)} (hasks : ∀ c ∈ l, ∃ stat N start, Asks conv c.2 stat N start)
    (h : List.Forall₂ (fun (c : Str × Tree) x => ∀ stat N start, Asks conv c.2 stat N start → x.stat = stat ∧ x.times = .fixed (some (endTime / N)) start) l xs) :
    ∀ x ∈ xs, ∃ N start, Usual endTime x N start := by
  induction h with
  | nil => simp
  | @cons c x l xs h1 _ ih =>
    intro y hy
    rcases List.mem_cons.1 hy with rfl | hy
    · obtain ⟨stat, N, start, hask⟩ := hasks c (by simp)
      obtain ⟨h2, h3⟩ := h1 stat N start hask
      refine ⟨N, start, ?_, hask.some, h3⟩
      rw [h2]
      rcases hask.stat with ⟨-, rfl⟩ | ⟨-, p, -, rfl⟩ <;> simp
    · exact ih (fun c hc => hasks c (by simp [hc])) y hy

/-- C110, partial. A configuration file of a scalar equation with random initial data is read, the simulators it describes are made, and on every number of processes that divides the number
of samples the program ends and writes mean, variance and moments of the solutions of the textbook scheme, whose values stay between the bounds `m` and `M` of the initial data. Missing: what
C109 leaves out, other statistics and those collected in a window of time (`Statistics`), more than one parameter with random numbers (C51), and more than one process per sample. -/
theorem C110_file_partial (cuda : Bool) (conv : Conv ℝ) (load : Str → Option Str) (make : Str → Str → Tree → Res Fn) (print : ℝ → Str) (library : Str → Nat → Nat → Tree → Res (UQ.Dist ℝ))
    (root : Tree) (s : Settings ℝ Fn) (q : UQSettings ℝ Stat)
    (hread : readSetup cuda true conv load make root = .ok s) (huq : readUQ conv print library (makeStat conv) statNames root = .ok q)
    (hcpu : s.conf.platform = "cpu") (hdiff : s.conf.diffusion = "none") (e : Flux.ScalarName) (heq : s.conf.equation = equationName e)
    (F : Flux.Selected) (hsel : Flux.select e (toLower s.conf.flux) = some F) (hcov : Covered e (toLower s.conf.flux)) (r : Recon ℝ) (c : ℝ) (least : Int)
    (hrec : Bounded s.conf.reconstruction r c least) (hcfl : 0 < s.cfl ∧ s.cfl ≤ c)
    (hrk : s.conf.integrator = "rungekutta4" → s.conf.reconstruction = "none" ∧ e = .linear ∧ toLower s.conf.flux ≠ "roe")
    (hgrid : Boxes s.grid least) (h : ℝ) (hcubes : Cubes s.grid h) (hend : 0 < s.endTime) (hasked : ∀ w ∈ s.writers, Asked s.endTime w)
    (entries : Tree) (hfile : Statistics conv root s.endTime entries) (hsamples : 0 < q.samples)
    (hone : ((q.parameters.map Prod.snd).filter UQ.Param.random).length ≤ 1) (hdim : ∀ p ∈ q.parameters, ∀ a dx, p.2.dist = .uniform1d a dx → p.2.dim ≤ 1)
    (eval : Fn → (I3 → ℝ) → (I3 → ℝ) → ℝ → Res (I3 → ℝ)) (hev : ∀ f o u k, ∃ v, eval f o u k = .ok v) (dx : ℝ) (obeys : (I3 → ℝ) → Bool) (hobeys : ∀ u, obeys u = true) :
    ∃ o, assemble cuda s.conf = .ok o ∧ Meant cuda s.conf o .cpu o.parameters ∧
      ∀ work, Sized (volumeSize s o) work → ∀ others, others.length + 1 = o.volumes.length → ∀ data w m M,
        (∀ k, q.first ≤ k → k < q.first + q.samples → ∀ p, IsInterior (volumeSize s o) (ghosts s o) p →
          m ≤ UQProgram.initial s q data (values w (q.parameters.map Prod.snd) k) p ∧ UQProgram.initial s q data (values w (q.parameters.map Prod.snd) k) p ≤ M) →
        Delivers eval dx s q o r (asFlux F) work obeys others data w h (fun x => m ≤ x ∧ x ≤ M) := by
  have hq := C110_statistics_read conv print library root q s.endTime entries huq hfile
  have hstats : q.statistics ≠ [] := fun h0 => hfile.some (List.forall₂_nil_right_iff.1 (h0 ▸ hq))
  obtain ⟨o, ho, hM, hL, hN, hpos, hlen0, rfl, hf, hst⟩ := file_stable hread hcpu hdiff heq hsel hcov hrec hcfl hrk hgrid hcubes
  exact ⟨o, ho, hM, fun work hw others hot data w m M hu => delivers_of_stable hM hL hN hpos hlen0 hf hw _ (hst work hw m M) hend hasked hstats (usual_of_file hfile.asks hq) hsamples hone hdim eval hev dx obeys
    hobeys others hot data w hu⟩

/-- C110 for Buckley-Leverett's equation, partial. As `C110_file_partial`, with the fluxes and data of `C109_buckley_leverett_partial`. Missing: as there. -/
theorem C110_buckley_leverett_partial (cuda : Bool) (conv : Conv ℝ) (load : Str → Option Str) (make : Str → Str → Tree → Res Fn) (print : ℝ → Str)
    (library : Str → Nat → Nat → Tree → Res (UQ.Dist ℝ)) (root : Tree) (s : Settings ℝ Fn) (q : UQSettings ℝ Stat)
    (hread : readSetup cuda true conv load make root = .ok s) (huq : readUQ conv print library (makeStat conv) statNames root = .ok q)
    (hcpu : s.conf.platform = "cpu") (hdiff : s.conf.diffusion = "none") (heq : s.conf.equation = "buckleyleverett")
    (F : Flux.Selected) (hflux : toLower s.conf.flux = "rusanov" ∨ toLower s.conf.flux = "godunov") (hsel : Flux.select .buckleyleverett (toLower s.conf.flux) = some F)
    (r : Recon ℝ) (c : ℝ) (least : Int) (hrec : Bounded s.conf.reconstruction r c least) (hcfl : 0 < s.cfl ∧ s.cfl ≤ c) (hrk : s.conf.integrator ≠ "rungekutta4")
    (hgrid : Boxes s.grid least) (h : ℝ) (hcubes : Cubes s.grid h) (hend : 0 < s.endTime) (hasked : ∀ w ∈ s.writers, Asked s.endTime w)
    (entries : Tree) (hfile : Statistics conv root s.endTime entries) (hsamples : 0 < q.samples)
    (hone : ((q.parameters.map Prod.snd).filter UQ.Param.random).length ≤ 1) (hdim : ∀ p ∈ q.parameters, ∀ a dx, p.2.dist = .uniform1d a dx → p.2.dim ≤ 1)
    (eval : Fn → (I3 → ℝ) → (I3 → ℝ) → ℝ → Res (I3 → ℝ)) (hev : ∀ f o u k, ∃ v, eval f o u k = .ok v) (dx : ℝ) (obeys : (I3 → ℝ) → Bool) (hobeys : ∀ u, obeys u = true) :
    ∃ o, assemble cuda s.conf = .ok o ∧ Meant cuda s.conf o .cpu o.parameters ∧
      ∀ work, Sized (volumeSize s o) work → ∀ others, others.length + 1 = o.volumes.length → ∀ data w m M, OneSided m M →
        (∀ k, q.first ≤ k → k < q.first + q.samples → ∀ p, IsInterior (volumeSize s o) (ghosts s o) p →
          m ≤ UQProgram.initial s q data (values w (q.parameters.map Prod.snd) k) p ∧ UQProgram.initial s q data (values w (q.parameters.map Prod.snd) k) p ≤ M) →
        Delivers eval dx s q o r (asFlux F) work obeys others data w h (fun x => m ≤ x ∧ x ≤ M) := by
  have hq := C110_statistics_read conv print library root q s.endTime entries huq hfile
  have hstats : q.statistics ≠ [] := fun h0 => hfile.some (List.forall₂_nil_right_iff.1 (h0 ▸ hq))
  obtain ⟨o, ho, hM, hL, hN, hpos, hlen0, rfl, hf, hst⟩ := buckley_stable hread hcpu hdiff heq hflux hsel hrec hcfl hrk hgrid hcubes
  exact ⟨o, ho, hM, fun work hw others hot data w m M hmM hu => delivers_of_stable hM hL hN hpos hlen0 hf hw _ (hst work hw m M hmM) hend hasked hstats (usual_of_file hfile.asks hq) hsamples hone
    hdim eval hev dx obeys hobeys others hot data w hu⟩

/-- C110 for the equations whose wave speeds have a bound, as `C109_bounded_speeds_partial`: every flux, reconstruction and integrator; nothing is said about the size of the values. -/
theorem C110_bounded_speeds_partial (cuda : Bool) (conv : Conv ℝ) (load : Str → Option Str) (make : Str → Str → Tree → Res Fn) (print : ℝ → Str)
    (library : Str → Nat → Nat → Tree → Res (UQ.Dist ℝ)) (root : Tree) (s : Settings ℝ Fn) (q : UQSettings ℝ Stat)
    (hread : readSetup cuda true conv load make root = .ok s) (huq : readUQ conv print library (makeStat conv) statNames root = .ok q)
    (hcpu : s.conf.platform = "cpu") (hdiff : s.conf.diffusion = "none") (e : Flux.ScalarName)
    (he : e = .linear ∨ e = .buckleyleverett) (heq : s.conf.equation = equationName e) (F : Flux.Selected) (hsel : Flux.select e (toLower s.conf.flux) = some F) (hcfl : 0 < s.cfl)
    (hend : 0 < s.endTime) (hasked : ∀ w ∈ s.writers, Asked s.endTime w)
    (entries : Tree) (hfile : Statistics conv root s.endTime entries) (hsamples : 0 < q.samples)
    (hone : ((q.parameters.map Prod.snd).filter UQ.Param.random).length ≤ 1) (hdim : ∀ p ∈ q.parameters, ∀ a dx, p.2.dist = .uniform1d a dx → p.2.dim ≤ 1)
    (eval : Fn → (I3 → ℝ) → (I3 → ℝ) → ℝ → Res (I3 → ℝ)) (hev : ∀ f o u k, ∃ v, eval f o u k = .ok v) (dx : ℝ) (obeys : (I3 → ℝ) → Bool) (hobeys : ∀ u, obeys u = true) :
    ∃ o, assemble cuda s.conf = .ok o ∧ Meant cuda s.conf o .cpu o.parameters ∧
      (Boxes s.grid o.boundary.ghost → ∀ r, IsRecon o.flux.recon.scheme r → ∀ work, Sized (volumeSize s o) work → ∀ others, others.length + 1 = o.volumes.length → ∀ data w,
        Delivers eval dx s q o r (asFlux F) work obeys others data w ((s.grid.upper.x - s.grid.lower.x) / s.grid.dims.x) fun _ => True) := by
  have hq := C110_statistics_read conv print library root q s.endTime entries huq hfile
  have hstats : q.statistics ≠ [] := fun h0 => hfile.some (List.forall₂_nil_right_iff.1 (h0 ▸ hq))
  obtain ⟨o, ho, hM, hst⟩ := speeds_stable hread hcpu hdiff he heq hsel hcfl
  refine ⟨o, ho, hM, fun hgrid r hr work hw others hot data w => ?_⟩
  obtain ⟨hL, hN, hpos, hlen0, l0, hf, hst⟩ := hst hgrid r hr
  rw [← l0]
  exact delivers_of_stable hM hL hN hpos hlen0 hf hw _ (hst work hw) hend hasked hstats (usual_of_file hfile.asks hq) hsamples hone hdim eval hev dx obeys hobeys others hot data w fun _ _ _ _ _ => trivial

/-- C110: the written mean lies between the bounds of the initial data of all samples, and the written variance between zero and a quarter of the square of their distance. -/
theorem C110_bounds (eval : Fn → (I3 → ℝ) → (I3 → ℝ) → ℝ → Res (I3 → ℝ)) (dx : ℝ) (s : Settings ℝ Fn) (q : UQSettings ℝ Stat) (o : SimObj) (r : Recon ℝ) (fl : FluxFn ℝ ℝ)
    (work : NetFlux.State ℝ ℝ) (obeys : (I3 → ℝ) → Bool) (others : List (I3 → ℝ)) (data : List (Str × List ℝ) → I3 → ℝ) (w : Nat → ℝ) (h m M : ℝ) (hsamples : 0 < q.samples)
    (hd : Delivers eval dx s q o r fl work obeys others data w h fun x => m ≤ x ∧ x ≤ M) :
    ∃ fuel, ∀ (more : Nat) (processes : Int), 1 ≤ processes → processes < 2 ^ 64 → processes ∣ (q.samples : Int) →
      ∃ out, uqFileProgram eval dx s o r fl work obeys others q data w processes (fuel + more) = .ok (some out) ∧
        ∀ (j : Nat) (x : StatSetup ℝ Stat) (N : Nat) (start : Bool), q.statistics[j]? = some x → Usual s.endTime x N start → x.stat = .meanVar →
          ∃ final, out[j]? = some final ∧ ∀ t ∈ saveTimes s.endTime N start, ∀ c, IsInterior (volumeSize s o) (ghosts s o) c →
            ∃ mean variance a b, find (toLex (t, "mean")) final = some mean ∧ find (toLex (t, "variance")) final = some variance ∧
              mean.at 0 c = some a ∧ m ≤ a ∧ a ≤ M ∧ variance.at 0 c = some b ∧ 0 ≤ b ∧ b ≤ (M - m) ^ 2 / 4 := by
  obtain ⟨fuel, past, U, h1, h2, h3⟩ := hd
  refine ⟨fuel, fun more processes hp hp64 hdvd => ?_⟩
  obtain ⟨out, g1, -, g2⟩ := h3 more processes hp hp64 hdvd
  refine ⟨out, g1, fun j x N start hj hux hstat => ?_⟩
  obtain ⟨final, g3, g4⟩ := g2 j x N start hj hux
  refine ⟨final, g3, fun t ht c hc => ?_⟩
  have g5 := g4 t ht c hc
  rw [hstat] at g5
  obtain ⟨mean, variance, e1, e2, e3, e4⟩ := g5
  have hne : ((List.range' q.first q.samples).map fun k => U k t c) ≠ [] := by
    intro h0
    have := congrArg List.length h0
    simp at this
    omega
  have hin : ∀ y ∈ (List.range' q.first q.samples).map fun k => U k t c, m ≤ y ∧ y ≤ M := by
    intro y hy
    obtain ⟨k, hk, rfl⟩ := List.mem_map.1 hy
    rw [List.mem_range'_1] at hk
    obtain ⟨info, hmem, -⟩ := h2 x (List.mem_of_getElem? hj) N start hux k hk.1 hk.2 t ht
    exact (h1 k hk.1 hk.2).inside _ hmem c hc
  exact ⟨mean, variance, _, _, e1, e2, e3, (average_mem hne hin).1, (average_mem hne hin).2, e4, (variance_mem hne hin).1, (variance_mem hne hin).2⟩

/-- C110: the initial data of a sample get the values `xs` of the sample for the random parameters, in their order, and the values of the file for all other parameters, each name once. -/
theorem C110_initial_data (s : Settings ℝ Fn) (q : UQSettings ℝ Stat) (hs : (s.parameters.map Prod.fst).Nodup) (hq : (q.parameters.map Prod.fst).Nodup) (xs : List (List ℝ))
    (hlen : xs.length = q.parameters.length) :
    ∃ ps : List (Str × List ℝ), (∀ data, UQProgram.initial s q data xs = data ps) ∧ (ps.map Prod.fst).Nodup ∧
      ∀ name value, (name, value) ∈ ps ↔ (∃ i : Nat, (q.parameters.map Prod.fst)[i]? = some name ∧ xs[i]? = some value) ∨ ((name, value) ∈ s.parameters ∧ name ∉ q.parameters.map Prod.fst) := by
  have hz : ((q.parameters.map Prod.fst).zip xs).map Prod.fst = q.parameters.map Prod.fst := List.map_fst_zip (by simp [hlen])
  obtain ⟨h1, h2⟩ := Props.UQSetup.C91_parameters s.parameters ((q.parameters.map Prod.fst).zip xs) hs (by rw [hz]; exact hq)
  refine ⟨_, fun _ => rfl, h1, fun name value => ?_⟩
  rw [h2]
  apply or_congr
  · rw [List.mem_iff_getElem?]
    simp only [List.getElem?_zip_eq_some]
  · refine and_congr_right fun _ => ?_
    have : name ∉ q.parameters.map Prod.fst ↔ name ∉ ((q.parameters.map Prod.fst).zip xs).map Prod.fst := by rw [hz]
    rw [this]
    simp only [List.mem_map, not_exists, not_and, ne_eq]

/-- With the parameters `X = 1` and `Y = 2` in the file and the random parameter `Y`, a sample with the value 5 gets `X = 1` and `Y = 5`. -/
example (s : Settings ℝ Fn) (hs : s.parameters = [("X".toList, [1]), ("Y".toList, [2])]) (q : UQSettings ℝ Stat) (p : UQ.Param ℝ) (hq : q.parameters = [("Y".toList, p)]) :
    ∃ ps : List (Str × List ℝ), (∀ data, UQProgram.initial s q data [[5]] = data ps) ∧ ("X".toList, [1]) ∈ ps ∧ ("Y".toList, [5]) ∈ ps := by
  obtain ⟨ps, h1, -, h2⟩ := C110_initial_data s q (by rw [hs]; decide) (by rw [hq]; simp) [[5]] (by simp [hq])
  refine ⟨ps, h1, (h2 _ _).2 (.inr ⟨by rw [hs]; simp, ?_⟩), (h2 _ _).2 (.inl ⟨0, by simp [hq], rfl⟩)⟩
  rw [hq, List.map_singleton, List.mem_singleton]
  exact (by decide : ¬ "X".toList = "Y".toList)

/-! ### A file -/

/-- The children of the node `config`. -/
def configOf (t : Tree) : List (Str × Tree) := (t.children.headD (([] : Str), t)).2.children

/-- Mean and variance at the times 1/2 and 1, and the second moment at the times 0 and 1. -/
def exStats : List (Str × Tree) :=
  [Setup.inner "stat" [Setup.leaf "name" "meanvar", Setup.leaf "numberOfSaves" "2", Setup.inner "writer" [Setup.leaf "type" "netcdf", Setup.leaf "basename" "out"]],
    Setup.inner "stat" [Setup.leaf "name" "onepointmoment", Setup.leaf "p" "2", Setup.leaf "numberOfSaves" "1", Setup.leaf "writeInitialTimestep" "1",
      Setup.inner "writer" [Setup.leaf "type" "netcdf", Setup.leaf "basename" "out"]]]

/-- A random parameter `X` with one uniformly distributed number. -/
def exRandom : Tree := .node [] [Setup.leaf "name" "X", Setup.leaf "length" "1", Setup.leaf "type" "uniform"]

/-- A file with two samples of this parameter and these statistics. -/
def withUQ (t : Tree) : Tree :=
  .node [] [Setup.inner "config" (configOf t ++ [Setup.inner "uq" [Setup.leaf "samples" "2", Setup.leaf "generator" "auto",
    Setup.inner "parameters" [("parameter".toList, exRandom)],
    Setup.inner "stats" exStats]])]

/-- The sample of C85 with samples. -/
def exUQFile : Tree := withUQ (Setup.sampleFile "0 0 0" [Setup.sampleWriter])

/-- It is read as the sample without samples. -/
theorem exUQRead : ∃ s, readSetup (F := Unit) false true realDigits (fun _ => some ['p']) (fun _ _ _ => .ok ()) exUQFile = .ok s ∧
    s.conf = ⟨"cpu", "burgers", "godunov", "none", "forwardeuler", "periodic", "none", "none", ⟨16, 1, 1⟩⟩ ∧
    s.grid = ⟨⟨(0 : Nat), (0 : Nat), (0 : Nat)⟩, ⟨(1 : Nat), (1 : Nat), (0 : Nat)⟩, ⟨16, 1, 1⟩, true⟩ ∧ s.endTime = (1 : Nat) ∧ s.cfl = 9 / 10 ∧
    s.writers = [.fixed (.base "netcdf".toList "out".toList Setup.sampleWriter.2) (some (((1 : Nat) : ℝ) / (2 : Nat))) 0 false] :=
  ⟨_, by rfl, by rfl, by rfl, by rfl, by rfl, by rfl⟩

theorem toSizeT_two : toSizeT ((2 : Nat) : ℝ) = .ok 2 := by
  unfold toSizeT
  rw [if_pos (by norm_num)]
  simp

/-- The samples and the random parameter. -/
theorem exUQSamples (f : Tree) (hf : f = Setup.sampleFile "0 0 0" [Setup.sampleWriter] ∨ f = exLinearFile ∨ f = exBuckleyFile) (print : ℝ → Str) (h0 : print 0 = ['0']) (h1 : print 1 = ['1']) :
    ∃ q, readUQ realDigits print (fun _ _ _ _ => .error .thrown) (makeStat realDigits) statNames (withUQ f) = .ok q ∧ q.samples = 2 ∧ q.first = 0 ∧
      q.parameters = [("X".toList, ⟨1, .uniform ((0 : Nat) : ℝ) (1 : Nat)⟩)] ∧ q.statistics.length = 2 := by
  have hc : ∀ config, child ["config"] (withUQ f) = .ok config → readNumberOfSamples realDigits config = .ok 2 := by
    intro config h
    unfold readNumberOfSamples
    rcases hf with rfl | rfl | rfl <;> cases h <;> exact (bind_iff.2 ⟨_, rfl, toSizeT_two⟩)
  obtain ⟨config, hcfg⟩ : ∃ config, child ["config"] (withUQ f) = .ok config := ⟨_, rfl⟩
  have hn := hc _ hcfg
  have hstat : ∀ c ∈ exStats, ∃ x, createStatistic realDigits (makeStat realDigits) statNames config "cpu".toList c.2 = .ok (some x) := by
    intro c hin
    unfold createStatistic
    rw [hn]
    simp only [exStats, List.mem_cons, List.not_mem_nil, or_false] at hin
    rcases hf with rfl | rfl | rfl <;> cases hcfg <;> rcases hin with rfl | rfl <;> exact ⟨_, rfl⟩
  obtain ⟨x, hx⟩ := hstat _ (List.mem_cons_self ..)
  obtain ⟨y, hy⟩ := hstat _ (List.mem_cons_of_mem _ (List.mem_cons_self ..))
  have hs : createStatistics realDigits (makeStat realDigits) statNames config = .ok [x, y] := by
    unfold createStatistics
    have h : exStats.mapM (fun c => createStatistic realDigits (makeStat realDigits) statNames config "cpu".toList c.2) = .ok [some x, some y] := mapM_iff.2 (.cons hx (.cons hy .nil))
    have h1 : child ["uq", "stats"] config = .ok (.node [] exStats) := by rcases hf with rfl | rfl | rfl <;> cases hcfg <;> rfl
    have h2 : text ["fvm", "platform"] config = .ok "cpu".toList := by rcases hf with rfl | rfl | rfl <;> cases hcfg <;> rfl
    rw [h1, h2]
    simp only [Res.ok_bind, Params.Tree.children]
    rw [h]
    rfl
  have hp : makeSampleGenerator realDigits print (fun _ _ _ _ => .error .thrown) config = .ok [("X".toList, ⟨1, .uniform ((0 : Nat) : ℝ) (1 : Nat)⟩)] := by
    have hr : readRandom realDigits print (fun _ _ _ _ => .error .thrown) "stlmersenne".toList 2 exRandom = .ok ("X".toList, ⟨1, .uniform ((0 : Nat) : ℝ) (1 : Nat)⟩) := by
      have f : ∀ n ∈ ["lower", "upper", "a", "b", "mean", "sd"], Params.fragments n.toList = [n.toList] := by decide +kernel
      have f1 := f "lower" (by simp)
      have f2 := f "upper" (by simp)
      have f3 := f "a" (by simp)
      have f4 := f "b" (by simp)
      have f5 := f "mean" (by simp)
      have f6 := f "sd" (by simp)
      simp only [readRandom, UQ.makeParam, UQ.distributionParameters, h0, h1, UQ.createDistribution, UQ.getDouble, Params.getString, Params.getData, Params.addString, f1, f2, f3, f4, f5, f6]
      rfl
    have hg : text ["uq", "generator"] config = .ok "auto".toList := by rcases hf with rfl | rfl | rfl <;> cases hcfg <;> rfl
    have hc : child ["uq", "parameters"] config = .ok (.node [] [("parameter".toList, exRandom)]) := by rcases hf with rfl | rfl | rfl <;> cases hcfg <;> rfl
    unfold makeSampleGenerator
    simp only [hn, hg, hc, Res.ok_bind, if_pos, Params.Tree.children, List.foldlM_cons, List.foldlM_nil, hr]
    rfl
  have hfirst : readSampleStart realDigits config = .ok 0 := by rcases hf with rfl | rfl | rfl <;> cases hcfg <;> rfl
  obtain ⟨name, hname⟩ : ∃ name, text ["fvm", "name"] config = .ok name := by rcases hf with rfl | rfl | rfl <;> cases hcfg <;> exact ⟨_, rfl⟩
  refine ⟨⟨2, 0, [("X".toList, ⟨1, .uniform ((0 : Nat) : ℝ) (1 : Nat)⟩)], trim name, [x, y]⟩, ?_, rfl, rfl, rfl, rfl⟩
  unfold readUQ
  simp only [hcfg, Res.ok_bind, hn, hs, hp, hfirst, hname]

theorem exUQAsks : Asks realDigits (exStats.headD ([], .node [] [])).2 .meanVar 2 false ∧ Asks realDigits (exStats.getLastD ([], .node [] [])).2 (.moment 2) 1 true :=
  ⟨⟨.inl ⟨⟨_, text_iff.1 rfl, trim_iff.1 (by decide +kernel)⟩, rfl⟩, by norm_num, get_iff.1 rfl, .inr ⟨has_not.1 (by decide +kernel), rfl⟩⟩,
    ⟨.inr ⟨⟨_, text_iff.1 rfl, trim_iff.1 (by decide +kernel)⟩, 2, get_iff.1 rfl, rfl⟩, by norm_num, get_iff.1 rfl, .inl (get_iff.1 rfl)⟩⟩

theorem exUQStatistics (f : Tree) (hf : f = Setup.sampleFile "0 0 0" [Setup.sampleWriter] ∨ f = exLinearFile ∨ f = exBuckleyFile) : Statistics realDigits (withUQ f) ((1 : Nat) : ℝ) (.node [] exStats) := by
  refine ⟨text_iff.1 (by rcases hf with rfl | rfl | rfl <;> rfl), get_iff.1 (by rcases hf with rfl | rfl | rfl <;> rfl), child_iff.1 (by rcases hf with rfl | rfl | rfl <;> rfl), by simp [exStats, Params.Tree.children], fun c hc => ?_⟩
  simp only [exStats, Params.Tree.children, List.mem_cons, List.not_mem_nil, or_false] at hc
  rcases hc with rfl | rfl
  · exact ⟨_, _, _, exUQAsks.1⟩
  · exact ⟨_, _, _, exUQAsks.2⟩

/-- The first value of the parameter `X`, cut off at 0 and 1, in the left half; 0 in the right half. -/
noncomputable def exData (ps : List (Str × List ℝ)) (p : I3) : ℝ :=
  if p.x < 8 then max 0 (min 1 (((ps.find? fun q => q.1 == "X".toList).map Prod.snd).getD []).sum) else 0

/-- Zero and one as text. -/
noncomputable def exPrint (x : ℝ) : Str := if x = 0 then ['0'] else ['1']

/-- The hypotheses of `C110_statistics_read` and `C110_file_partial` hold for the file and data with a random jump: mean and variance are written for the solutions of both samples, and (`C110_bounds`) the mean
lies between 0 and 1, the variance between 0 and 1/4. -/
example (w : Nat → ℝ) : ∃ (s : Settings ℝ Unit) (q : UQSettings ℝ Stat) (o : SimObj),
    readSetup false true realDigits (fun _ => some ['p']) (fun _ _ _ => .ok ()) exUQFile = .ok s ∧
    readUQ realDigits exPrint (fun _ _ _ _ => .error .thrown) (makeStat realDigits) statNames exUQFile = .ok q ∧ assemble false s.conf = .ok o ∧ ∀ work, Sized (volumeSize s o) work →
      Delivers (fun _ _ v _ => .ok v) 1 s q o CudaRecon.noRecon (asFlux (Flux.two (Flux.godunov Flux.burgers))) work (fun _ => true) [0] exData w (1 / 16) (fun x => 0 ≤ x ∧ x ≤ 1) ∧
      ∃ fuel out final mean variance a b, uqFileProgram (fun _ _ v _ => .ok v) 1 s o CudaRecon.noRecon (asFlux (Flux.two (Flux.godunov Flux.burgers))) work (fun _ => true) [0] q exData w 2 fuel =
          .ok (some out) ∧ out[0]? = some final ∧ find (toLex (1, "mean")) final = some mean ∧ find (toLex (1, "variance")) final = some variance ∧
        mean.at 0 ⟨1, 0, 0⟩ = some a ∧ 0 ≤ a ∧ a ≤ 1 ∧ variance.at 0 ⟨1, 0, 0⟩ = some b ∧ 0 ≤ b ∧ b ≤ 1 / 4 := by
  obtain ⟨s, hr, hc, hg, ht, hcfl, hws⟩ := exUQRead
  obtain ⟨q, hq, hq1, hq2, hq3, hq4⟩ := exUQSamples _ (.inl rfl) exPrint (by simp [exPrint]) (by simp [exPrint])
  have hfile : Statistics realDigits exUQFile s.endTime (.node [] exStats) := by rw [ht]; exact exUQStatistics _ (.inl rfl)
  obtain ⟨o, ho, hM, h⟩ := C110_file_partial false realDigits (fun _ => some ['p']) (fun _ _ _ => .ok ()) exPrint _ _ s q hr hq (by rw [hc]) (by rw [hc]) .burgers (by rw [hc]; rfl)
    (Flux.two (Flux.godunov Flux.burgers)) (by rw [hc]; rfl) (by rw [hc]; exact .burgersGodunov) CudaRecon.noRecon 1 1 (by rw [hc]; exact .none) (by rw [hcfl]; norm_num)
    (by rw [hc]; intro h; exact absurd h (by decide))
    (by rw [hg]; exact ⟨by decide, by simp, by norm_num, by simp, by simp⟩) (1 / 16) (by rw [hg]; exact ⟨by norm_num, by simp, by simp⟩) (by rw [ht]; norm_num)
    (by rw [hws, ht]; intro w hw; exact exAsked _ _ _ _ (List.mem_singleton.1 hw)) _ hfile (by rw [hq1]; norm_num) (by rw [hq3]; exact List.length_filter_le _ _)
    (by rw [hq3]; intro p hp a dx hd; rw [List.mem_singleton.1 hp] at hd; cases hd)
    (fun _ _ v _ => .ok v) (fun _ _ _ _ => ⟨_, rfl⟩) 1 (fun _ => true) (fun _ => rfl)
  refine ⟨s, q, o, hr, hq, ho, fun work hw => ?_⟩
  have hk : o.integrator = .forwardEuler := by
    have := hM.integrator
    rw [hc] at this
    simpa [integratorTable] using this
  have hd := h work hw [0] (by rw [hM.volumes, hk]; rfl) exData w 0 1 fun k _ _ p _ => by
    unfold UQProgram.initial exData
    split_ifs
    · exact ⟨le_max_left _ _, max_le zero_le_one (min_le_left _ _)⟩
    · exact ⟨le_rfl, zero_le_one⟩
  refine ⟨hd, ?_⟩
  obtain ⟨fuel, hb⟩ := C110_bounds _ _ _ _ _ _ _ _ _ _ _ _ _ _ _ (by rw [hq1]; norm_num) hd
  obtain ⟨out, e1, e2⟩ := hb 0 2 (by norm_num) (by norm_num) (by rw [hq1]; norm_num)
  have hst := C110_statistics_read realDigits exPrint _ exUQFile q _ _ hq hfile
  obtain ⟨x, y, hxy⟩ : ∃ x y, q.statistics = [x, y] := by
    match q.statistics, hq4 with
    | [x, y], _ => exact ⟨x, y, rfl⟩
  rw [hxy] at hst
  cases hst with
  | cons h1 _ =>
    obtain ⟨g1, g2⟩ := h1 _ _ _ exUQAsks.1
    obtain ⟨final, e3, e4⟩ := e2 0 x 2 false (by rw [hxy]; rfl) ⟨by rw [g1]; simp, by norm_num, g2⟩ g1
    have hmem : (1 : ℝ) ∈ saveTimes s.endTime 2 false := by
      rw [ht]
      simp [saveTimes, List.range_succ]
    obtain ⟨o', ho', hgh⟩ : ∃ o', assemble false s.conf = .ok o' ∧ o'.boundary.ghost = 1 := by rw [hc]; exact ⟨_, rfl, rfl⟩
    obtain rfl : o' = o := by rw [ho] at ho'; cases ho'; rfl
    obtain ⟨mean, variance, a, b, f1, f2, f3, f4, f5, f6, f7, f8⟩ := e4 1 hmem ⟨1, 0, 0⟩ (by
      intro d hd
      simp only [volumeSize, ghosts, hg, hgh, Halo.totalOf, Halo.ghostsOf]
      interval_cases d <;> simp [I3.get])
    exact ⟨fuel + 0, out, final, mean, variance, a, b, e1, e3, f1, f2, f3, f4, f5, f6, f7, by norm_num at f8 ⊢; exact f8⟩

theorem exLinearUQRead : ∃ s, readSetup (F := Unit) false true realDigits (fun _ => some ['p']) (fun _ _ _ => .ok ()) (withUQ exLinearFile) = .ok s ∧
    s.conf = ⟨"cpu", "linear", "Central", "eno3", "rungekutta4", "neumann", "none", "none", ⟨16, 1, 1⟩⟩ ∧
    s.grid = ⟨⟨(0 : Nat), (0 : Nat), (0 : Nat)⟩, ⟨(1 : Nat), (1 : Nat), (0 : Nat)⟩, ⟨16, 1, 1⟩, false⟩ ∧ s.endTime = (1 : Nat) ∧ s.cfl = (2 : Nat) ∧
    s.writers = [.fixed (.base "netcdf".toList "out".toList Setup.sampleWriter.2) (some (((1 : Nat) : ℝ) / (2 : Nat))) 0 false] :=
  ⟨_, by rfl, by rfl, by rfl, by rfl, by rfl, by rfl⟩

/-- The hypotheses of `C110_bounded_speeds_partial` hold for the file of the linear equation: the statistics are those of the solutions, although the scheme is not stable. -/
example (w : Nat → ℝ) : ∃ (s : Settings ℝ Unit) (q : UQSettings ℝ Stat) (o : SimObj),
    readSetup false true realDigits (fun _ => some ['p']) (fun _ _ _ => .ok ()) (withUQ exLinearFile) = .ok s ∧
    readUQ realDigits exPrint (fun _ _ _ _ => .error .thrown) (makeStat realDigits) statNames (withUQ exLinearFile) = .ok q ∧ assemble false s.conf = .ok o ∧
    ∀ r, IsRecon (.eno 3) r → ∀ work, Sized (volumeSize s o) work →
      Delivers (fun _ _ v _ => .ok v) 1 s q o r (asFlux (Flux.two (Flux.central Flux.linear))) work (fun _ => true) [0, 0, 0, 0] exData w (1 / 16) fun _ => True := by
  obtain ⟨s, hr, hc, hg, ht, hcfl, hws⟩ := exLinearUQRead
  obtain ⟨q, hq, hq1, hq2, hq3, hq4⟩ := exUQSamples _ (.inr (.inl rfl)) exPrint (by simp [exPrint]) (by simp [exPrint])
  have hfile : Statistics realDigits (withUQ exLinearFile) s.endTime (.node [] exStats) := by rw [ht]; exact exUQStatistics _ (.inr (.inl rfl))
  obtain ⟨o, ho, hM, h⟩ := C110_bounded_speeds_partial false realDigits (fun _ => some ['p']) (fun _ _ _ => .ok ()) exPrint _ _ s q hr hq (by rw [hc]) (by rw [hc]) .linear (.inl rfl) (by rw [hc]; rfl)
    (Flux.two (Flux.central Flux.linear)) (by rw [hc]; rfl) (by rw [hcfl]; norm_num) (by rw [ht]; norm_num)
    (by rw [hws, ht]; intro w hw; exact exAsked _ _ _ _ (List.mem_singleton.1 hw)) _ hfile (by rw [hq1]; norm_num) (by rw [hq3]; exact List.length_filter_le _ _)
    (by rw [hq3]; intro p hp a dx hd; rw [List.mem_singleton.1 hp] at hd; cases hd)
    (fun _ _ v _ => .ok v) (fun _ _ _ _ => ⟨_, rfl⟩) 1 (fun _ => true) (fun _ => rfl)
  obtain ⟨o', ho', h1, h2, h3⟩ : ∃ o', assemble false s.conf = .ok o' ∧ o'.flux.recon.scheme = .eno 3 ∧ o'.boundary.ghost = 3 ∧ o'.volumes.length = 5 := by
    rw [hc]; exact ⟨_, rfl, rfl, rfl, rfl⟩
  obtain rfl : o' = o := by rw [ho] at ho'; cases ho'; rfl
  refine ⟨s, q, o', hr, hq, ho, fun r hrec work hw => ?_⟩
  have := h (by rw [hg, h2]; exact ⟨by decide, by simp, by norm_num, by simp, by simp⟩) r (by rw [h1]; exact hrec) work hw [0, 0, 0, 0] (by rw [h3]; rfl) exData w
  rw [hg] at this
  norm_num at this ⊢
  exact this

theorem exBuckleyUQRead : ∃ s, readSetup (F := Unit) false true realDigits (fun _ => some ['p']) (fun _ _ _ => .ok ()) (withUQ exBuckleyFile) = .ok s ∧
    s.conf = ⟨"cpu", "buckleyleverett", "Godunov", "none", "rungekutta2", "neumann", "none", "none", ⟨16, 1, 1⟩⟩ ∧
    s.grid = ⟨⟨(0 : Nat), (0 : Nat), (0 : Nat)⟩, ⟨(1 : Nat), (1 : Nat), (0 : Nat)⟩, ⟨16, 1, 1⟩, false⟩ ∧ s.endTime = (1 : Nat) ∧ s.cfl = (1 : Nat) ∧
    s.writers = [.fixed (.base "netcdf".toList "out".toList Setup.sampleWriter.2) (some (((1 : Nat) : ℝ) / (2 : Nat))) 0 false] :=
  ⟨_, by rfl, by rfl, by rfl, by rfl, by rfl, by rfl⟩

/-- The hypotheses of `C110_buckley_leverett_partial` hold for the file of Buckley-Leverett's equation and a random jump between 0 and 1/2. -/
example (w : Nat → ℝ) : ∃ (s : Settings ℝ Unit) (q : UQSettings ℝ Stat) (o : SimObj),
    readSetup false true realDigits (fun _ => some ['p']) (fun _ _ _ => .ok ()) (withUQ exBuckleyFile) = .ok s ∧
    readUQ realDigits exPrint (fun _ _ _ _ => .error .thrown) (makeStat realDigits) statNames (withUQ exBuckleyFile) = .ok q ∧ assemble false s.conf = .ok o ∧
    ∀ work, Sized (volumeSize s o) work → Delivers (fun _ _ v _ => .ok v) 1 s q o CudaRecon.noRecon (asFlux (Flux.two (Flux.godunov Flux.buckleyLeverett))) work (fun _ => true) [0, 0]
      (fun ps p => exData ps p / 2) w (1 / 16) fun x => 0 ≤ x ∧ x ≤ 1 / 2 := by
  obtain ⟨s, hr, hc, hg, ht, hcfl, hws⟩ := exBuckleyUQRead
  obtain ⟨q, hq, hq1, hq2, hq3, hq4⟩ := exUQSamples _ (.inr (.inr rfl)) exPrint (by simp [exPrint]) (by simp [exPrint])
  have hfile : Statistics realDigits (withUQ exBuckleyFile) s.endTime (.node [] exStats) := by rw [ht]; exact exUQStatistics _ (.inr (.inr rfl))
  obtain ⟨o, ho, hM, h⟩ := C110_buckley_leverett_partial false realDigits (fun _ => some ['p']) (fun _ _ _ => .ok ()) exPrint _ _ s q hr hq (by rw [hc]) (by rw [hc]) (by rw [hc])
    (Flux.two (Flux.godunov Flux.buckleyLeverett)) (by rw [hc]; exact .inr rfl) (by rw [hc]; rfl) CudaRecon.noRecon 1 1 (by rw [hc]; exact .none) (by rw [hcfl]; norm_num)
    (by rw [hc]; decide)
    (by rw [hg]; exact ⟨by decide, by simp, by norm_num, by simp, by simp⟩) (1 / 16) (by rw [hg]; exact ⟨by norm_num, by simp, by simp⟩) (by rw [ht]; norm_num)
    (by rw [hws, ht]; intro w hw; exact exAsked _ _ _ _ (List.mem_singleton.1 hw)) _ hfile (by rw [hq1]; norm_num) (by rw [hq3]; exact List.length_filter_le _ _)
    (by rw [hq3]; intro p hp a dx hd; rw [List.mem_singleton.1 hp] at hd; cases hd)
    (fun _ _ v _ => .ok v) (fun _ _ _ _ => ⟨_, rfl⟩) 1 (fun _ => true) (fun _ => rfl)
  have hk : o.integrator = .rungeKutta2 := by
    have := hM.integrator
    rw [hc] at this
    simpa [integratorTable] using this
  refine ⟨s, q, o, hr, hq, ho, fun work hw => h work hw [0, 0] (by rw [hM.volumes, hk]; rfl) (fun ps p => exData ps p / 2) w 0 (1 / 2) (.inl ⟨le_rfl, le_rfl⟩) fun k _ _ p _ => ?_⟩
  have hd : ∀ ps, 0 ≤ exData ps p ∧ exData ps p ≤ 1 := by
    intro ps
    unfold exData
    split_ifs
    · exact ⟨le_max_left _ _, max_le zero_le_one (min_le_left _ _)⟩
    · exact ⟨le_rfl, zero_le_one⟩
  unfold UQProgram.initial
  exact ⟨div_nonneg (hd _).1 zero_le_two, div_le_div_of_nonneg_right (hd _).2 zero_le_two⟩

end Verif.Props.UQOutput
