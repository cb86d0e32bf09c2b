import Verif.ScalarProgram
import Verif.ScalarOutput
import Verif.Props.RunBounds
import Verif.Props.BuckleyRun
import Verif.Props.RunSetup
import Verif.Props.Factories

/-! C109: from the configuration file of a scalar equation to the values in the output. -/

namespace Verif.Props.ScalarOutput
open Verif Verif.Setup Verif.Params Verif.Integrator Verif.Simulator Verif.NetFlux Verif.ScalarRun Verif.Props.WholeRun Verif.ScalarProgram Verif.Factories Verif.Props.Factories

/-- The reconstructions of C80 and C82 by their names, with the largest CFL number and the least number of cells in a direction. -/
inductive Bounded : String → Recon ℝ → ℝ → Int → Prop
  | none : Bounded "none" CudaRecon.noRecon 1 1
  | minmod : Bounded "mm" (LimitedRun.limited Limiter.mm) (1 / 2) 2
  | mc : Bounded "mc" (LimitedRun.limited Limiter.mc) (1 / 2) 2

theorem Bounded.least_pos {name : String} {r : Recon ℝ} {c : ℝ} {least : Int} (h : Bounded name r c least) : 1 ≤ least := by cases h <;> decide

/-- A grid with at least one cell, in as many directions as it has with positive extent and at least `least` cells. -/
structure Boxes (grid : GridObj ℝ) (least : Int) : Prop where
  cells : 1 ≤ grid.dims.x ∧ 1 ≤ grid.dims.y ∧ 1 ≤ grid.dims.z
  regular : grid.dims.y = 1 → grid.dims.z = 1
  x : grid.lower.x < grid.upper.x ∧ least ≤ grid.dims.x
  y : 1 < grid.dims.y → grid.lower.y < grid.upper.y ∧ least ≤ grid.dims.y
  z : 1 < grid.dims.z → grid.lower.z < grid.upper.z ∧ least ≤ grid.dims.z

/-- The cells are cubes with the side `h`, in as many directions as the grid has. -/
structure Cubes (grid : GridObj ℝ) (h : ℝ) : Prop where
  x : grid.upper.x - grid.lower.x = grid.dims.x * h
  y : 1 < grid.dims.y → grid.upper.y - grid.lower.y = grid.dims.y * h
  z : 1 < grid.dims.z → grid.upper.z - grid.lower.z = grid.dims.z * h

variable {Fn : Type}

/-- What a run from the values `u` delivers: it ends at the end time; `past` are the solutions from the initial one to the one at the end time, each a step of the textbook scheme with the
cell side `h` after the one before; all of their values lie between `m` and `M`; every output has received what was asked for. -/
def Delivers (eval : Fn → (I3 → ℝ) → (I3 → ℝ) → ℝ → Res (I3 → ℝ)) (dx : ℝ) (s : Settings ℝ Fn) (o : SimObj) (r : Recon ℝ) (fl : FluxFn ℝ ℝ) (work : NetFlux.State ℝ ℝ)
    (obeys : (I3 → ℝ) → Bool) (u : I3 → ℝ) (others : List (I3 → ℝ)) (h : ℝ) (Inside : ℝ → Prop) : Prop :=
  ∃ fuel past sim, fileProgram eval dx s o r fl work obeys u others fuel = .ok (some sim) ∧ sim.info.time = s.endTime ∧
    (∃ u0, past.head? = some (u0, ⟨0, 0⟩) ∧ ∀ p, IsInterior (volumeSize s o) (ghosts s o) p → u0 p = u p) ∧ (∃ u', past.getLast? = some (u', sim.info)) ∧
    past.Pairwise (fun a b => a.2.time < b.2.time) ∧
    past.IsChain (fun a b => Step.int (K := ℝ) (volumeSize s o) (ghosts s o) b.1 =
      textbook o.integrator (fun w => (1 / h) • Step.rhs o.boundary.condition o.flux.dimension r fl (volumeSize s o) (ghosts s o) o.boundary.ghost w) (b.2.time - a.2.time)
        (Step.int (K := ℝ) (volumeSize s o) (ghosts s o) a.1)) ∧
    (∀ e ∈ past, ∀ p, IsInterior (volumeSize s o) (ghosts s o) p → Inside (e.1 p)) ∧
    ∀ i : Fin s.writers.length, Delivered eval s.endTime past (s.writers.get i) ((s.writers.get i).file (sim.ws i)).entries

theorem length_one (s : Settings ℝ Fn) : lengths s 1 = if s.grid.dims.y = 1 then 1 else (s.grid.upper.y - s.grid.lower.y) / s.grid.dims.y := by
  simp only [lengths, ParallelRun.lengthOf, Grid.make, Grid.computeCellLengths, one_ne_zero, if_false, if_true]

theorem length_two (s : Settings ℝ Fn) (d : Nat) (hd : 2 ≤ d) : lengths s d = if s.grid.dims.z = 1 then 1 else (s.grid.upper.z - s.grid.lower.z) / s.grid.dims.z := by
  rw [lengths, ParallelRun.lengthOf, if_neg (by omega), if_neg (by omega)]
  simp only [Grid.make, Grid.computeCellLengths]

/-- The conditions of the run from those of the file. -/
theorem grid_facts {cuda : Bool} {s : Settings ℝ Fn} {o : SimObj} (ho : assemble cuda s.conf = .ok o) (hdims : s.conf.dims = s.grid.dims) (hg : Boxes s.grid o.boundary.ghost) :
    Layout (volumeSize s o) (ghosts s o) (active o) o.flux.dimension o.boundary.ghost ∧ (∀ d < o.flux.dimension, 3 * (ghosts s o).get d ≤ (volumeSize s o).get d) ∧ 0 < o.flux.dimension ∧
      lengths s 0 = (s.grid.upper.x - s.grid.lower.x) / s.grid.dims.x ∧ 0 < lengths s 0 ∧ (∀ d, 0 ≤ lengths s d) ∧
      ∀ h, Cubes s.grid h → lengths s 0 = h ∧ ∀ d < o.flux.dimension, lengths s d = lengths s 0 := by
  obtain ⟨p, e, hM⟩ := meant ho
  have c := hg.cells
  have hd : o.flux.dimension = Halo.dimensionsOf s.grid.dims := by
    rw [hM.flux.2.2.2, hdims]
    have := hg.regular
    unfold directionsOf Halo.dimensionsOf
    split_ifs <;> omega
  have hb := Halo.dimensionsOf_bounds s.grid.dims
  have hL : Layout (volumeSize s o) (ghosts s o) (active o) o.flux.dimension o.boundary.ghost := by
    rw [hd]
    refine ParallelRun.layout hg.cells hg.regular _ fun d hd3 => ?_
    rw [← hd]
    interval_cases d <;> simp [active, I3.get]
  have hy1 : ∀ d < Halo.dimensionsOf s.grid.dims, d = 1 → 1 < s.grid.dims.y := fun d hdd h1 => by unfold Halo.dimensionsOf at hdd; split_ifs at hdd <;> omega
  have hz1 : ∀ d < Halo.dimensionsOf s.grid.dims, d = 2 → 1 < s.grid.dims.z := fun d hdd h1 => by unfold Halo.dimensionsOf at hdd; split_ifs at hdd <;> omega
  have hcx : (0 : ℝ) < s.grid.dims.x := by exact_mod_cast (by omega : 0 < s.grid.dims.x)
  have hcy : (0 : ℝ) < s.grid.dims.y := by exact_mod_cast (by omega : 0 < s.grid.dims.y)
  have hcz : (0 : ℝ) < s.grid.dims.z := by exact_mod_cast (by omega : 0 < s.grid.dims.z)
  have l0 : lengths s 0 = (s.grid.upper.x - s.grid.lower.x) / s.grid.dims.x := by simp only [lengths, ParallelRun.lengthOf, Grid.make, Grid.computeCellLengths, if_true]
  have l0' : 0 < lengths s 0 := by rw [l0]; exact div_pos (sub_pos.2 hg.x.1) hcx
  refine ⟨hL, fun d hdd => ?_, by omega, l0, l0', fun d => ?_, fun h hc => ?_⟩
  · have h1 := Halo.volume_sizes hg.cells hg.regular o.boundary.ghost (d := d) (by omega)
    rw [hd] at hdd
    rw [if_pos hdd] at h1
    have h2 : (o.boundary.ghost : Int) ≤ s.grid.dims.get d := by
      have : d = 0 ∨ d = 1 ∨ d = 2 := by omega
      rcases this with rfl | rfl | rfl
      · exact hg.x.2
      · exact (hg.y (hy1 1 hdd rfl)).2
      · exact (hg.z (hz1 2 hdd rfl)).2
    simp only [volumeSize, ghosts]
    omega
  · rcases Nat.lt_or_ge d 2 with h2 | h2
    · interval_cases d
      · exact l0'.le
      · rw [length_one]
        split_ifs with h1
        · exact zero_le_one
        · exact div_nonneg (sub_nonneg.2 (hg.y (by omega)).1.le) hcy.le
    · rw [length_two s d h2]
      split_ifs with h1
      · exact zero_le_one
      · exact div_nonneg (sub_nonneg.2 (hg.z (by omega)).1.le) hcz.le
  · have l0h : lengths s 0 = h := by rw [l0, hc.x]; field_simp
    refine ⟨l0h, fun d hdd => ?_⟩
    rw [hd] at hdd
    rw [l0h]
    have : d = 0 ∨ d = 1 ∨ d = 2 := by omega
    rcases this with rfl | rfl | rfl
    · exact l0h
    · have := hy1 1 hdd rfl
      rw [length_one, if_neg (by omega), hc.y this]; field_simp
    · have := hz1 2 hdd rfl
      rw [length_two s 2 le_rfl, if_neg (by omega), hc.z this]; field_simp

/-- The fluxes of C80 look at the two cells of the face. -/
theorem two_point {e : Flux.ScalarName} {name : String} (hc : Covered e name) {f : FluxClass} (h : (equationName e, name, f) ∈ fluxTable) : pointsOf f = 2 := by
  cases hc <;> simp [fluxTable, equationName] at h <;> rw [h] <;> rfl

theorem scheme_of {cuda : Bool} {s : Settings ℝ Fn} {o : SimObj} (ho : assemble cuda s.conf = .ok o) {r : Recon ℝ} {c : ℝ} {least : Int} (hb : Bounded s.conf.reconstruction r c least) :
    (ghostsOfScheme o.flux.recon.scheme : Int) = least := by
  obtain ⟨p, e, hM⟩ := meant ho
  have h := hM.recon.1
  generalize s.conf.reconstruction = name at *
  cases hb <;> cases p <;> simp only [reconTable] at h <;> (try split_ifs at h) <;> simp at h <;> rw [h] <;> rfl

/-- The processor is chosen and no diffusion. -/
theorem assembled {cuda mpi : Bool} {conv : Conv ℝ} {load : Str → Option Str} {make : Str → Str → Tree → Res Fn} {root : Tree} {s : Settings ℝ Fn}
    (hread : readSetup cuda mpi conv load make root = .ok s) (hcpu : s.conf.platform = "cpu") (hdiff : s.conf.diffusion = "none") :
    ∃ o, assemble cuda s.conf = .ok o ∧ Meant cuda s.conf o .cpu o.parameters ∧ s.conf.dims = s.grid.dims ∧ o.diffusion = .none := by
  obtain ⟨-, -, fvm, -, -, -, hm⟩ := (Setup.C85_as_described ..).1 hread
  obtain ⟨-, o, p, e', ho, hM⟩ | ⟨hn, -⟩ := C83_as_described cuda s.conf
  swap
  · exact absurd hm.offered hn
  obtain rfl : p = .cpu := by
    rcases hM.platform with ⟨-, h⟩ | ⟨-, h, -⟩
    · exact h
    · rw [hcpu] at h; exact absurd h (by decide)
  obtain rfl := hM.parameters
  refine ⟨o, ho, hM, hm.dims, ?_⟩
  rcases hM.diffusion with ⟨-, -, hd⟩ | ⟨-, mk, rk, hd, -⟩
  · exact hd
  · rw [hdiff] at hd; exact absurd hd (by simp [matrixTable])

/-- The output from the stability of the steps. -/
theorem delivers_of_stable {cuda : Bool} {s : Settings ℝ Fn} {o : SimObj} {p : Platform} (hM : Meant cuda s.conf o p o.parameters) {r : Recon ℝ} {fl : FluxFn ℝ ℝ} {work : NetFlux.State ℝ ℝ}
    (hL : Layout (volumeSize s o) (ghosts s o) (active o) o.flux.dimension o.boundary.ghost) (hN : ∀ d < o.flux.dimension, 3 * (ghosts s o).get d ≤ (volumeSize s o).get d)
    (hpos : 0 < o.flux.dimension) (hlen0 : 0 < lengths s 0) (hf : Fits r fl o.boundary.ghost) (hw : Sized (volumeSize s o) work) (Inside : ℝ → Prop)
    (hst : ∃ δ, Schedule.Stable o.integrator (env s o r fl work) (Step.rhs o.boundary.condition o.flux.dimension r fl (volumeSize s o) (ghosts s o) o.boundary.ghost)
      (Step.waves o.boundary.condition o.flux.dimension r fl (volumeSize s o) (ghosts s o) (active o) o.boundary.ghost work) (fun w => ∀ p, Inside (w p)) δ)
    (hend : 0 < s.endTime) (hasked : ∀ w ∈ s.writers, Asked s.endTime w) (hlast : ∃ w ∈ s.writers, SavesEnd w)
    (eval : Fn → (I3 → ℝ) → (I3 → ℝ) → ℝ → Res (I3 → ℝ)) (hev : ∀ f o u k, ∃ v, eval f o u k = .ok v) (dx : ℝ) (obeys : (I3 → ℝ) → Bool) (hobeys : ∀ u, obeys u = true)
    (u : I3 → ℝ) (others : List (I3 → ℝ)) (hot : others.length + 1 = o.volumes.length) (hu : ∀ p, IsInterior (volumeSize s o) (ghosts s o) p → Inside (u p)) :
    Delivers eval dx s o r fl work obeys u others (lengths s 0) Inside := by
  obtain ⟨δ, hst⟩ := hst
  have hs := Step.sound (b := o.boundary.condition) hL hf hN hpos hw
  obtain ⟨u0, hbc, hi, hr⟩ := hs.bc_ok u
  have hsub : others.length = o.integrator.substeps := by
    rw [hM.volumes, List.length_replicate] at hot
    have : stagesOf o.integrator = o.integrator.substeps := by cases o.integrator <;> rfl
    omega
  obtain ⟨fuel, past, sim, h1, h2, h3, h4, h5, h6, h7, h8⟩ := RunSetup.C86_output_partial s eval dx o.integrator (env s o r fl work) _ obeys _ _ _ _ hs hlen0.ne'
    (fun w => ∀ p, Inside (w p)) δ hst (fun u _ _ => hobeys u) hev hend hasked hlast u u0 others hsub hbc hr (by rw [hi]; exact fun p => hu p p.2)
  exact ⟨fuel, past, sim, h1, h2, ⟨u0, h3, fun p hp => congrFun hi ⟨p, hp⟩⟩, h4, h5, h6, fun a ha p hp => h7 a ha ⟨p, hp⟩, h8⟩

/-- The steps of the run the file describes keep the bounds, if the flux does. -/
theorem file_stable_of {cuda mpi : Bool} {conv : Conv ℝ} {load : Str → Option Str} {make : Str → Str → Tree → Res Fn} {root : Tree} {s : Settings ℝ Fn}
    (hread : readSetup cuda mpi conv load make root = .ok s) (hcpu : s.conf.platform = "cpu") (hdiff : s.conf.diffusion = "none") {e : Flux.ScalarName} (heq : s.conf.equation = equationName e)
    {F : Flux.Selected} (htwo : ∀ f, (equationName e, toLower s.conf.flux, f) ∈ fluxTable → pointsOf f = 2) (Ok : ℝ → ℝ → Prop)
    (hF : ∀ m M, Ok m M → (∃ f speed, Bounding f speed (fun l r => F.fn [l, r]) m M) ∧ ∃ S, ScalarOutput.SpeedBelow (fun l r => F.fn [l, r]) (min m 0) (max M 0) S) {r : Recon ℝ} {c : ℝ} {least : Int}
    (hrec : Bounded s.conf.reconstruction r c least) (hcfl : 0 < s.cfl ∧ s.cfl ≤ c)
    (hrk : s.conf.integrator = "rungekutta4" → s.conf.reconstruction = "none" ∧ LinearFlux fun l r => F.fn [l, r])
    (hgrid : Boxes s.grid least) {h : ℝ} (hcubes : Cubes s.grid h) :
    ∃ o, assemble cuda s.conf = .ok o ∧ Meant cuda s.conf o .cpu o.parameters ∧ Layout (volumeSize s o) (ghosts s o) (active o) o.flux.dimension o.boundary.ghost ∧
      (∀ d < o.flux.dimension, 3 * (ghosts s o).get d ≤ (volumeSize s o).get d) ∧ 0 < o.flux.dimension ∧ 0 < lengths s 0 ∧ lengths s 0 = h ∧ Fits r (asFlux F) o.boundary.ghost ∧
      ∀ work, Sized (volumeSize s o) work → ∀ m M, Ok m M → ∃ δ, Schedule.Stable o.integrator (env s o r (asFlux F) work)
        (Step.rhs o.boundary.condition o.flux.dimension r (asFlux F) (volumeSize s o) (ghosts s o) o.boundary.ghost)
        (Step.waves o.boundary.condition o.flux.dimension r (asFlux F) (volumeSize s o) (ghosts s o) (active o) o.boundary.ghost work) (fun w => ∀ p, m ≤ w p ∧ w p ≤ M) δ := by
  obtain ⟨o, ho, hM, hdims, h1⟩ := assembled hread hcpu hdiff
  have hgh : (o.boundary.ghost : Int) = least := by
    rw [hM.boundary.2.2]
    have h2 := htwo o.flux.flux (by rw [← heq]; exact hM.flux.1)
    have h3 := scheme_of ho hrec
    rw [h1, ghostsOfFlux, h2]
    have h4 := hrec.least_pos
    simp only [ghostsOfDiffusion]
    omega
  obtain ⟨hL, hN, hpos, -, hlen0, hlen, hc⟩ := grid_facts ho hdims (hgh.symm ▸ hgrid)
  obtain ⟨l0, hcube⟩ := hc h hcubes
  have hk4 : o.integrator = .rungeKutta4 → s.conf.integrator = "rungekutta4" := by
    intro h4
    have := hM.integrator
    rw [h4] at this
    simpa [integratorTable] using this
  refine ⟨o, ho, hM, hL, hN, hpos, hlen0, l0, ?_⟩
  generalize hname : s.conf.reconstruction = name at *
  cases hrec with
  | none =>
    have hg1 : 1 ≤ o.boundary.ghost := by omega
    refine ⟨fits _ hg1, fun work hw m M hmM => ?_⟩
    obtain ⟨hB, S, hS⟩ := hF m M hmM
    exact ScalarOutput.first_order hL hN hpos hg1 hB hS (fun h4 => (hrk (hk4 h4)).2) hw [] (by simp) (by simp) _ hlen hlen0 hcube _ hcfl.1 hcfl.2
  | minmod =>
    have hg2 : 2 ≤ o.boundary.ghost := by omega
    refine ⟨LimitedRun.fits _ _ hg2, fun work hw m M hmM => ?_⟩
    obtain ⟨hB, S, hS⟩ := hF m M hmM
    exact ScalarOutput.limited (fun h4 => absurd (hrk (hk4 h4)).1 (by decide)) C25_minmod hL hN hpos hg2 hB hS hw [] (by simp) (by simp) _ hlen hlen0 hcube _ hcfl.1 hcfl.2
  | mc =>
    have hg2 : 2 ≤ o.boundary.ghost := by omega
    refine ⟨LimitedRun.fits _ _ hg2, fun work hw m M hmM => ?_⟩
    obtain ⟨hB, S, hS⟩ := hF m M hmM
    exact ScalarOutput.limited (fun h4 => absurd (hrk (hk4 h4)).1 (by decide)) C25_mc hL hN hpos hg2 hB hS hw [] (by simp) (by simp) _ hlen hlen0 hcube _ hcfl.1 hcfl.2

/-- The same for the fluxes of C80. -/
theorem file_stable {cuda mpi : Bool} {conv : Conv ℝ} {load : Str → Option Str} {make : Str → Str → Tree → Res Fn} {root : Tree} {s : Settings ℝ Fn}
    (hread : readSetup cuda mpi conv load make root = .ok s) (hcpu : s.conf.platform = "cpu") (hdiff : s.conf.diffusion = "none") {e : Flux.ScalarName} (heq : s.conf.equation = equationName e)
    {F : Flux.Selected} (hsel : Flux.select e (toLower s.conf.flux) = some F) (hcov : Covered e (toLower s.conf.flux)) {r : Recon ℝ} {c : ℝ} {least : Int}
    (hrec : Bounded s.conf.reconstruction r c least) (hcfl : 0 < s.cfl ∧ s.cfl ≤ c)
    (hrk : s.conf.integrator = "rungekutta4" → s.conf.reconstruction = "none" ∧ e = .linear ∧ toLower s.conf.flux ≠ "roe")
    (hgrid : Boxes s.grid least) {h : ℝ} (hcubes : Cubes s.grid h) :
    ∃ o, assemble cuda s.conf = .ok o ∧ Meant cuda s.conf o .cpu o.parameters ∧ Layout (volumeSize s o) (ghosts s o) (active o) o.flux.dimension o.boundary.ghost ∧
      (∀ d < o.flux.dimension, 3 * (ghosts s o).get d ≤ (volumeSize s o).get d) ∧ 0 < o.flux.dimension ∧ 0 < lengths s 0 ∧ lengths s 0 = h ∧ Fits r (asFlux F) o.boundary.ghost ∧
      ∀ work, Sized (volumeSize s o) work → ∀ m M, ∃ δ, Schedule.Stable o.integrator (env s o r (asFlux F) work)
        (Step.rhs o.boundary.condition o.flux.dimension r (asFlux F) (volumeSize s o) (ghosts s o) o.boundary.ghost)
        (Step.waves o.boundary.condition o.flux.dimension r (asFlux F) (volumeSize s o) (ghosts s o) (active o) o.boundary.ghost work) (fun w => ∀ p, m ≤ w p ∧ w p ≤ M) δ := by
  have hF : ∀ m M, ∃ f speed, Bounding f speed (fun l r => F.fn [l, r]) m M := bounding_of_covered hsel hcov
  obtain ⟨o, h1, h2, h3, h4, h5, h6, h7, h8, h9⟩ := file_stable_of (F := F) hread hcpu hdiff heq (fun _ => two_point hcov) (fun _ _ => True)
    (fun m M _ => ⟨hF m M, by obtain ⟨f, speed, hB⟩ := hF (min m 0) (max M 0); exact ⟨_, ScalarOutput.speedBelow hB⟩⟩) hrec hcfl
    (fun h4 => ⟨(hrk h4).1, linear_of_covered hsel hcov (hrk h4).2⟩) hgrid hcubes
  exact ⟨o, h1, h2, h3, h4, h5, h6, h7, h8, fun work hw m M => h9 work hw m M trivial⟩

/-- C109, partial. A configuration file of a scalar equation for the processor is read without error, the simulator it describes is made, and the run ends exactly at the end time, with the
values between the bounds of the initial values and with the output asked for. Missing: the fluxes, reconstructions, integrators and cells that C80 and C82 leave out (`Covered`, `Bounded`,
`hrk`, `Cubes`; some of them, without the bounds, in `C109_bounded_speeds_partial`), diffusion, graphics cards, and the outputs that C86 leaves out (`Asked`, `SavesEnd`). -/
theorem C109_file_partial (cuda mpi : Bool) (conv : Conv ℝ) (load : Str → Option Str) (make : Str → Str → Tree → Res Fn) (root : Tree) (s : Settings ℝ Fn)
    (hread : readSetup cuda mpi conv load make root = .ok s) (hcpu : s.conf.platform = "cpu") (hdiff : s.conf.diffusion = "none") (e : Flux.ScalarName) (heq : s.conf.equation = equationName e)
    (F : Flux.Selected) (hsel : Flux.select e (toLower s.conf.flux) = some F) (hcov : Covered e (toLower s.conf.flux)) (r : Recon ℝ) (c : ℝ) (least : Int)
    (hrec : Bounded s.conf.reconstruction r c least) (hcfl : 0 < s.cfl ∧ s.cfl ≤ c)
    (hrk : s.conf.integrator = "rungekutta4" → s.conf.reconstruction = "none" ∧ e = .linear ∧ toLower s.conf.flux ≠ "roe")
    (hgrid : Boxes s.grid least) (h : ℝ) (hcubes : Cubes s.grid h) (hend : 0 < s.endTime) (hasked : ∀ w ∈ s.writers, Asked s.endTime w) (hlast : ∃ w ∈ s.writers, SavesEnd w)
    (eval : Fn → (I3 → ℝ) → (I3 → ℝ) → ℝ → Res (I3 → ℝ)) (hev : ∀ f o u k, ∃ v, eval f o u k = .ok v) (dx : ℝ) (obeys : (I3 → ℝ) → Bool) (hobeys : ∀ u, obeys u = true) :
    ∃ o, assemble cuda s.conf = .ok o ∧ Meant cuda s.conf o .cpu o.parameters ∧
      ∀ work, Sized (volumeSize s o) work → ∀ u others, others.length + 1 = o.volumes.length → ∀ m M, (∀ p, IsInterior (volumeSize s o) (ghosts s o) p → m ≤ u p ∧ u p ≤ M) →
        Delivers eval dx s o r (asFlux F) work obeys u others h (fun x => m ≤ x ∧ x ≤ M) := by
  obtain ⟨o, ho, hM, hL, hN, hpos, hlen0, rfl, hf, hst⟩ := file_stable hread hcpu hdiff heq hsel hcov hrec hcfl hrk hgrid hcubes
  exact ⟨o, ho, hM, fun work hw u others hot m M hu => delivers_of_stable hM hL hN hpos hlen0 hf hw _ (hst work hw m M) hend hasked hlast eval hev dx obeys hobeys u others hot hu⟩

/-- The wave speeds of the linear equation and of Buckley and Leverett's are at most two. -/
theorem speed_le {e : Flux.ScalarName} (he : e = .linear ∨ e = .buckleyleverett) {name : String} {F : Flux.Selected} (hsel : Flux.select e name = some F) (l r : ℝ) : (F.fn [l, r]).2 ≤ 2 := by
  have hlin : Flux.twoPointSpeed Flux.linear l r ≤ 2 := by norm_num [Flux.twoPointSpeed, Flux.linear]
  have hb : ∀ u, Flux.buckleyLeverett.speed u ≤ 2 := by
    intro u
    have hd := Flux.denominator_pos u
    simp only [Flux.buckleyLeverett]
    rw [div_le_iff₀ (by positivity), abs_le]
    constructor <;> nlinarith [sq_nonneg (u * (1 - u)), sq_nonneg (2 * u - 1), sq_nonneg (u * u - u), mul_self_nonneg ((2 * u - 1) * (2 * u - 1)), mul_self_nonneg ((2 * u - 1) * u)]
  have hbl : Flux.twoPointSpeed Flux.buckleyLeverett l r ≤ 2 := max_le (hb l) (hb r)
  unfold Flux.select at hsel
  rcases he with rfl | rfl
  all_goals
    split at hsel <;> simp_all only [reduceCtorEq, Option.some.injEq]
    all_goals
      subst hsel
      first | exact hlin | exact hbl

/-- The steps of a run of Buckley-Leverett's equation keep bounds on one side of one half. -/
theorem buckley_stable {cuda mpi : Bool} {conv : Conv ℝ} {load : Str → Option Str} {make : Str → Str → Tree → Res Fn} {root : Tree} {s : Settings ℝ Fn}
    (hread : readSetup cuda mpi conv load make root = .ok s) (hcpu : s.conf.platform = "cpu") (hdiff : s.conf.diffusion = "none") (heq : s.conf.equation = equationName .buckleyleverett)
    {F : Flux.Selected} (hflux : toLower s.conf.flux = "rusanov" ∨ toLower s.conf.flux = "godunov") (hsel : Flux.select .buckleyleverett (toLower s.conf.flux) = some F)
    {r : Recon ℝ} {c : ℝ} {least : Int} (hrec : Bounded s.conf.reconstruction r c least) (hcfl : 0 < s.cfl ∧ s.cfl ≤ c) (hrk : s.conf.integrator ≠ "rungekutta4")
    (hgrid : Boxes s.grid least) {h : ℝ} (hcubes : Cubes s.grid h) :
    ∃ o, assemble cuda s.conf = .ok o ∧ Meant cuda s.conf o .cpu o.parameters ∧ Layout (volumeSize s o) (ghosts s o) (active o) o.flux.dimension o.boundary.ghost ∧
      (∀ d < o.flux.dimension, 3 * (ghosts s o).get d ≤ (volumeSize s o).get d) ∧ 0 < o.flux.dimension ∧ 0 < lengths s 0 ∧ lengths s 0 = h ∧ Fits r (asFlux F) o.boundary.ghost ∧
      ∀ work, Sized (volumeSize s o) work → ∀ m M, OneSided m M → ∃ δ, Schedule.Stable o.integrator (env s o r (asFlux F) work)
        (Step.rhs o.boundary.condition o.flux.dimension r (asFlux F) (volumeSize s o) (ghosts s o) o.boundary.ghost)
        (Step.waves o.boundary.condition o.flux.dimension r (asFlux F) (volumeSize s o) (ghosts s o) (active o) o.boundary.ghost work) (fun w => ∀ p, m ≤ w p ∧ w p ≤ M) δ :=
  file_stable_of hread hcpu hdiff heq (fun f hf => by rcases hflux with h | h <;> rw [h] at hf <;> simp [fluxTable, equationName] at hf <;> rw [hf] <;> rfl) OneSided
    (fun m M hmM => ⟨⟨_, _, bounding_buckley hflux hsel hmM⟩, 2, fun l r _ _ => speed_le (.inr rfl) hsel l r⟩) hrec hcfl (fun h4 => absurd h4 hrk) hgrid hcubes

/-- C109 for Buckley-Leverett's equation, partial. As `C109_file_partial`, for the fluxes `rusanov` and `godunov` and initial data between bounds on one side of one half. Missing: data on both
sides, for which the bounds are not kept (`C80_fails_for_buckley_leverett`, `C80_fails_for_buckley_leverett_godunov`), and what is missing in `C109_file_partial`. -/
theorem C109_buckley_leverett_partial (cuda mpi : Bool) (conv : Conv ℝ) (load : Str → Option Str) (make : Str → Str → Tree → Res Fn) (root : Tree) (s : Settings ℝ Fn)
    (hread : readSetup cuda mpi conv load make root = .ok s) (hcpu : s.conf.platform = "cpu") (hdiff : s.conf.diffusion = "none") (heq : s.conf.equation = "buckleyleverett")
    (F : Flux.Selected) (hflux : toLower s.conf.flux = "rusanov" ∨ toLower s.conf.flux = "godunov") (hsel : Flux.select .buckleyleverett (toLower s.conf.flux) = some F)
    (r : Recon ℝ) (c : ℝ) (least : Int) (hrec : Bounded s.conf.reconstruction r c least) (hcfl : 0 < s.cfl ∧ s.cfl ≤ c) (hrk : s.conf.integrator ≠ "rungekutta4")
    (hgrid : Boxes s.grid least) (h : ℝ) (hcubes : Cubes s.grid h) (hend : 0 < s.endTime) (hasked : ∀ w ∈ s.writers, Asked s.endTime w) (hlast : ∃ w ∈ s.writers, SavesEnd w)
    (eval : Fn → (I3 → ℝ) → (I3 → ℝ) → ℝ → Res (I3 → ℝ)) (hev : ∀ f o u k, ∃ v, eval f o u k = .ok v) (dx : ℝ) (obeys : (I3 → ℝ) → Bool) (hobeys : ∀ u, obeys u = true) :
    ∃ o, assemble cuda s.conf = .ok o ∧ Meant cuda s.conf o .cpu o.parameters ∧
      ∀ work, Sized (volumeSize s o) work → ∀ u others, others.length + 1 = o.volumes.length →
        ∀ m M, OneSided m M → (∀ p, IsInterior (volumeSize s o) (ghosts s o) p → m ≤ u p ∧ u p ≤ M) →
          Delivers eval dx s o r (asFlux F) work obeys u others h (fun x => m ≤ x ∧ x ≤ M) := by
  obtain ⟨o, ho, hM, hL, hN, hpos, hlen0, rfl, hf, hst⟩ := buckley_stable hread hcpu hdiff heq hflux hsel hrec hcfl hrk hgrid hcubes
  exact ⟨o, ho, hM, fun work hw u others hot m M hmM hu => delivers_of_stable hM hL hN hpos hlen0 hf hw _ (hst work hw m M hmM) hend hasked hlast eval hev dx obeys hobeys u others hot hu⟩

/-- The same for the equations whose wave speeds have a bound, without bounds for the values. -/
theorem speeds_stable {cuda mpi : Bool} {conv : Conv ℝ} {load : Str → Option Str} {make : Str → Str → Tree → Res Fn} {root : Tree} {s : Settings ℝ Fn}
    (hread : readSetup cuda mpi conv load make root = .ok s) (hcpu : s.conf.platform = "cpu") (hdiff : s.conf.diffusion = "none") {e : Flux.ScalarName}
    (he : e = .linear ∨ e = .buckleyleverett) (heq : s.conf.equation = equationName e) {F : Flux.Selected} (hsel : Flux.select e (toLower s.conf.flux) = some F) (hcfl : 0 < s.cfl) :
    ∃ o, assemble cuda s.conf = .ok o ∧ Meant cuda s.conf o .cpu o.parameters ∧
      (Boxes s.grid o.boundary.ghost → ∀ r, IsRecon o.flux.recon.scheme r → Layout (volumeSize s o) (ghosts s o) (active o) o.flux.dimension o.boundary.ghost ∧
      (∀ d < o.flux.dimension, 3 * (ghosts s o).get d ≤ (volumeSize s o).get d) ∧ 0 < o.flux.dimension ∧ 0 < lengths s 0 ∧ lengths s 0 = (s.grid.upper.x - s.grid.lower.x) / s.grid.dims.x ∧
      Fits r (asFlux F) o.boundary.ghost ∧
      ∀ work, Sized (volumeSize s o) work → ∃ δ, Schedule.Stable o.integrator (env s o r (asFlux F) work)
        (Step.rhs o.boundary.condition o.flux.dimension r (asFlux F) (volumeSize s o) (ghosts s o) o.boundary.ghost)
        (Step.waves o.boundary.condition o.flux.dimension r (asFlux F) (volumeSize s o) (ghosts s o) (active o) o.boundary.ghost work) (fun w => ∀ p, (fun _ : ℝ => True) (w p)) δ) := by
  obtain ⟨o, ho, hM, hdims, h1⟩ := assembled hread hcpu hdiff
  refine ⟨o, ho, hM, fun hgrid r hr => ?_⟩
  obtain ⟨hL, hN, hpos, l0, hlen0, hlen, -⟩ := grid_facts ho hdims hgrid
  have h2 : ∃ x, o.flux.flux = .two x := by
    have := hM.flux.1
    rw [heq] at this
    generalize toLower s.conf.flux = name, o.flux.flux = f at this ⊢
    rcases he with rfl | rfl <;> simp [fluxTable, equationName] at this
    · rcases this with ⟨-, h⟩ | ⟨-, h⟩ | ⟨-, h⟩ | ⟨-, h⟩ <;> exact ⟨_, h⟩
    · rcases this with ⟨-, h⟩ | ⟨-, h⟩ | ⟨-, h⟩ <;> exact ⟨_, h⟩
  obtain ⟨x, hx⟩ := h2
  have hf : Fits r (asFlux F) o.boundary.ghost := by
    refine Props.Factories.fits ho (.inr ?_) hr ⟨by rw [hx]; rfl, by rw [hx]; rfl⟩
    rw [hM.boundary.2.2, hx]
    simp only [furtherCells, ghostsOfFlux]
    omega
  exact ⟨hL, hN, hpos, hlen0, l0, hf, fun work hw => ScalarOutput.stable_of_bound hL hN hpos hf hw [] (by simp) (by simp) _ hlen _ hcfl _ 2
    (fun w _ k _ q => by simpa [face, asFlux, twoPoint] using speed_le he hsel _ _) fun _ _ _ _ _ _ => trivial⟩

/-- C109 for the equations whose wave speeds have a bound: every flux, reconstruction and integrator, every CFL number, cells of any shape. Nothing is said about the size of the values. -/
theorem C109_bounded_speeds_partial (cuda mpi : Bool) (conv : Conv ℝ) (load : Str → Option Str) (make : Str → Str → Tree → Res Fn) (root : Tree) (s : Settings ℝ Fn)
    (hread : readSetup cuda mpi conv load make root = .ok s) (hcpu : s.conf.platform = "cpu") (hdiff : s.conf.diffusion = "none") (e : Flux.ScalarName)
    (he : e = .linear ∨ e = .buckleyleverett) (heq : s.conf.equation = equationName e) (F : Flux.Selected) (hsel : Flux.select e (toLower s.conf.flux) = some F) (hcfl : 0 < s.cfl)
    (hend : 0 < s.endTime) (hasked : ∀ w ∈ s.writers, Asked s.endTime w) (hlast : ∃ w ∈ s.writers, SavesEnd w)
    (eval : Fn → (I3 → ℝ) → (I3 → ℝ) → ℝ → Res (I3 → ℝ)) (hev : ∀ f o u k, ∃ v, eval f o u k = .ok v) (dx : ℝ) (obeys : (I3 → ℝ) → Bool) (hobeys : ∀ u, obeys u = true) :
    ∃ o, assemble cuda s.conf = .ok o ∧ Meant cuda s.conf o .cpu o.parameters ∧
      (Boxes s.grid o.boundary.ghost → ∀ r, IsRecon o.flux.recon.scheme r → ∀ work, Sized (volumeSize s o) work → ∀ u others, others.length + 1 = o.volumes.length →
        Delivers eval dx s o r (asFlux F) work obeys u others ((s.grid.upper.x - s.grid.lower.x) / s.grid.dims.x) fun _ => True) := by
  obtain ⟨o, ho, hM, hst⟩ := speeds_stable hread hcpu hdiff he heq hsel hcfl
  refine ⟨o, ho, hM, fun hgrid r hr work hw u others hot => ?_⟩
  obtain ⟨hL, hN, hpos, hlen0, l0, hf, hst⟩ := hst hgrid r hr
  rw [← l0]
  exact delivers_of_stable hM hL hN hpos hlen0 hf hw _ (hst work hw) hend hasked hlast eval hev dx obeys hobeys u others hot fun _ _ => trivial

/-! ### A file -/

/-- Reading of digits. -/
noncomputable def realDigits : Conv ℝ :=
  ⟨fun s => (Setup.digit s).map Nat.cast, fun s => (Setup.digit s).map Nat.cast, Setup.digit, fun s => (Setup.digit s).map (· ≠ 0), fun s => (Setup.digit s).map Nat.cast,
    fun s => (Setup.digit s).map Nat.cast, fun _ => 0⟩

/-- The sample of C85: Burgers' equation on the unit interval with 16 cells and two saves until the time 1. -/
theorem exRead : ∃ s, readSetup (F := Unit) false false realDigits (fun _ => some ['p']) (fun _ _ _ => .ok ()) (Setup.sampleFile "0 0 0" [Setup.sampleWriter]) = .ok s ∧
    s.conf = ⟨"cpu", "burgers", "godunov", "none", "forwardeuler", "periodic", "none", "none", ⟨16, 1, 1⟩⟩ ∧
    s.grid = ⟨⟨(0 : Nat), (0 : Nat), (0 : Nat)⟩, ⟨(1 : Nat), (1 : Nat), (0 : Nat)⟩, ⟨16, 1, 1⟩, true⟩ ∧ s.endTime = (1 : Nat) ∧ s.cfl = 9 / 10 ∧
    s.writers = [.fixed (.base "netcdf".toList "out".toList Setup.sampleWriter.2) (some (((1 : Nat) : ℝ) / (2 : Nat))) 0 false] :=
  ⟨_, by rfl, by rfl, by rfl, by rfl, by rfl, by rfl⟩

theorem exAsked (type name : Str) (ps : Tree) (w : WriterObj ℝ Unit) (hw : w = .fixed (.base type name ps) (some (((1 : Nat) : ℝ) / (2 : Nat))) 0 false) : Asked ((1 : Nat) : ℝ) w := by
  rw [hw]; exact .saves _ _ _ 2 false (by omega)

/-- The hypotheses of `C109_file_partial` hold for the sample, from data that jump between 0 and 1: the run ends, the two saves are made at the times 1/2 and 1, and the values are between 0
and 1. -/
example : ∃ (s : Settings ℝ Unit) (o : SimObj), readSetup false false realDigits (fun _ => some ['p']) (fun _ _ _ => .ok ()) (Setup.sampleFile "0 0 0" [Setup.sampleWriter]) = .ok s ∧
    assemble false s.conf = .ok o ∧ ∀ work, Sized (volumeSize s o) work →
      Delivers (fun _ _ v _ => .ok v) 1 s o CudaRecon.noRecon (asFlux (Flux.two (Flux.godunov Flux.burgers))) work (fun _ => true) (fun p => if p.x < 8 then 1 else 0) [0] (1 / 16)
        fun x => 0 ≤ x ∧ x ≤ 1 := by
  obtain ⟨s, hr, hc, hg, ht, hcfl, hws⟩ := exRead
  obtain ⟨o, ho, hM, h⟩ := C109_file_partial false false realDigits (fun _ => some ['p']) (fun _ _ _ => .ok ()) _ s hr (by rw [hc]) (by rw [hc]) .burgers (by rw [hc]; rfl)
    (Flux.two (Flux.godunov Flux.burgers)) (by rw [hc]; rfl) (by rw [hc]; exact .burgersGodunov) CudaRecon.noRecon 1 1 (by rw [hc]; exact .none) (by rw [hcfl]; norm_num)
    (by rw [hc]; intro h; exact absurd h (by decide))
    (by rw [hg]; exact ⟨by decide, by simp, by norm_num, by simp, by simp⟩) (1 / 16) (by rw [hg]; exact ⟨by norm_num, by simp, by simp⟩) (by rw [ht]; norm_num)
    (by rw [hws, ht]; intro w hw; exact exAsked _ _ _ _ (List.mem_singleton.1 hw)) (by rw [hws]; exact ⟨_, List.mem_cons_self, trivial⟩)
    (fun _ _ v _ => .ok v) (fun _ _ _ _ => ⟨_, rfl⟩) 1 (fun _ => true) (fun _ => rfl)
  refine ⟨s, o, hr, ho, fun work hw => h work hw _ [0] ?_ 0 1 fun p _ => by split_ifs <;> norm_num⟩
  have hk : o.integrator = .forwardEuler := by
    have := hM.integrator
    rw [hc] at this
    simpa [integratorTable] using this
  rw [hM.volumes, hk]
  rfl

/-- A file of the linear equation with the central flux, ENO of order 3 and the Runge-Kutta scheme of order 4. -/
def exLinearFile : Tree :=
  .node [] [Setup.inner "config" [Setup.inner "fvm" [Setup.leaf "name" "wave", Setup.leaf "platform" "cpu", Setup.leaf "boundary" "neumann", Setup.leaf "flux" "Central", Setup.leaf "endTime" "1",
    Setup.leaf "equation" "linear", Setup.leaf "reconstruction" "eno3", Setup.leaf "cfl" "2", Setup.leaf "integrator" "rungekutta4",
    Setup.inner "initialData" [Setup.leaf "python" "wave.py"],
    Setup.inner "grid" [Setup.leaf "lowerCorner" "0 0 0", Setup.leaf "upperCorner" "1 1 0", Setup.leaf "dimension" "16 1 1"], Setup.sampleWriter]]]

theorem exLinearRead : ∃ s, readSetup (F := Unit) false false realDigits (fun _ => some ['p']) (fun _ _ _ => .ok ()) exLinearFile = .ok s ∧
    s.conf = ⟨"cpu", "linear", "Central", "eno3", "rungekutta4", "neumann", "none", "none", ⟨16, 1, 1⟩⟩ ∧
    s.grid = ⟨⟨(0 : Nat), (0 : Nat), (0 : Nat)⟩, ⟨(1 : Nat), (1 : Nat), (0 : Nat)⟩, ⟨16, 1, 1⟩, false⟩ ∧ s.endTime = (1 : Nat) ∧ s.cfl = (2 : Nat) ∧
    s.writers = [.fixed (.base "netcdf".toList "out".toList Setup.sampleWriter.2) (some (((1 : Nat) : ℝ) / (2 : Nat))) 0 false] :=
  ⟨_, by rfl, by rfl, by rfl, by rfl, by rfl, by rfl⟩

/-- The hypotheses of `C109_bounded_speeds_partial` hold for it: the run ends with its two saves although the scheme is not stable. -/
example : ∃ (s : Settings ℝ Unit) (o : SimObj), readSetup false false realDigits (fun _ => some ['p']) (fun _ _ _ => .ok ()) exLinearFile = .ok s ∧
    assemble false s.conf = .ok o ∧ ∀ r, IsRecon (.eno 3) r → ∀ work, Sized (volumeSize s o) work →
      Delivers (fun _ _ v _ => .ok v) 1 s o r (asFlux (Flux.two (Flux.central Flux.linear))) work (fun _ => true) (fun p => if p.x < 8 then 1 else 0) [0, 0, 0, 0] (1 / 16) fun _ => True := by
  obtain ⟨s, hr, hc, hg, ht, hcfl, hws⟩ := exLinearRead
  obtain ⟨o, ho, hM, h⟩ := C109_bounded_speeds_partial false false realDigits (fun _ => some ['p']) (fun _ _ _ => .ok ()) _ s hr (by rw [hc]) (by rw [hc]) .linear (.inl rfl) (by rw [hc]; rfl)
    (Flux.two (Flux.central Flux.linear)) (by rw [hc]; rfl) (by rw [hcfl]; norm_num) (by rw [ht]; norm_num)
    (by rw [hws, ht]; intro w hw; exact exAsked _ _ _ _ (List.mem_singleton.1 hw)) (by rw [hws]; exact ⟨_, List.mem_cons_self, trivial⟩)
    (fun _ _ v _ => .ok v) (fun _ _ _ _ => ⟨_, rfl⟩) 1 (fun _ => true) (fun _ => rfl)
  obtain ⟨o', ho', h1, h2, h3⟩ : ∃ o', assemble false s.conf = .ok o' ∧ o'.flux.recon.scheme = .eno 3 ∧ o'.boundary.ghost = 3 ∧ o'.volumes.length = 5 := by
    rw [hc]; exact ⟨_, rfl, rfl, rfl, rfl⟩
  obtain rfl : o' = o := by rw [ho] at ho'; cases ho'; rfl
  refine ⟨s, o', hr, ho, fun r hrec work hw => ?_⟩
  have := h (by rw [hg, h2]; exact ⟨by decide, by simp, by norm_num, by simp, by simp⟩) r (by rw [h1]; exact hrec) work hw (fun p => if p.x < 8 then 1 else 0) [0, 0, 0, 0] (by rw [h3]; rfl)
  rw [hg] at this
  norm_num at this ⊢
  exact this

/-- A file of Buckley-Leverett's equation with Runge-Kutta 2. -/
def exBuckleyFile : Tree :=
  .node [] [Setup.inner "config" [Setup.inner "fvm" [Setup.leaf "name" "oil", Setup.leaf "platform" "cpu", Setup.leaf "boundary" "neumann", Setup.leaf "flux" "Godunov", Setup.leaf "endTime" "1",
    Setup.leaf "equation" "buckleyleverett", Setup.leaf "reconstruction" "none", Setup.leaf "cfl" "1", Setup.leaf "integrator" "rungekutta2",
    Setup.inner "initialData" [Setup.leaf "python" "oil.py"],
    Setup.inner "grid" [Setup.leaf "lowerCorner" "0 0 0", Setup.leaf "upperCorner" "1 1 0", Setup.leaf "dimension" "16 1 1"], Setup.sampleWriter]]]

theorem exBuckleyRead : ∃ s, readSetup (F := Unit) false false realDigits (fun _ => some ['p']) (fun _ _ _ => .ok ()) exBuckleyFile = .ok s ∧
    s.conf = ⟨"cpu", "buckleyleverett", "Godunov", "none", "rungekutta2", "neumann", "none", "none", ⟨16, 1, 1⟩⟩ ∧
    s.grid = ⟨⟨(0 : Nat), (0 : Nat), (0 : Nat)⟩, ⟨(1 : Nat), (1 : Nat), (0 : Nat)⟩, ⟨16, 1, 1⟩, false⟩ ∧ s.endTime = (1 : Nat) ∧ s.cfl = (1 : Nat) ∧
    s.writers = [.fixed (.base "netcdf".toList "out".toList Setup.sampleWriter.2) (some (((1 : Nat) : ℝ) / (2 : Nat))) 0 false] :=
  ⟨_, by rfl, by rfl, by rfl, by rfl, by rfl, by rfl⟩

/-- The hypotheses of `C109_buckley_leverett_partial` hold for it with data that jump between 1/2 and 1. -/
example : ∃ (s : Settings ℝ Unit) (o : SimObj), readSetup false false realDigits (fun _ => some ['p']) (fun _ _ _ => .ok ()) exBuckleyFile = .ok s ∧
    assemble false s.conf = .ok o ∧ ∀ work, Sized (volumeSize s o) work →
      Delivers (fun _ _ v _ => .ok v) 1 s o CudaRecon.noRecon (asFlux (Flux.two (Flux.godunov Flux.buckleyLeverett))) work (fun _ => true) (fun p => if p.x < 8 then 1 else 1 / 2) [0, 0] (1 / 16)
        fun x => 1 / 2 ≤ x ∧ x ≤ 1 := by
  obtain ⟨s, hr, hc, hg, ht, hcfl, hws⟩ := exBuckleyRead
  obtain ⟨o, ho, hM, h⟩ := C109_buckley_leverett_partial false false realDigits (fun _ => some ['p']) (fun _ _ _ => .ok ()) _ s hr (by rw [hc]) (by rw [hc]) (by rw [hc])
    (Flux.two (Flux.godunov Flux.buckleyLeverett)) (by rw [hc]; exact .inr rfl) (by rw [hc]; rfl) CudaRecon.noRecon 1 1 (by rw [hc]; exact .none) (by rw [hcfl]; norm_num)
    (by rw [hc]; decide)
    (by rw [hg]; exact ⟨by decide, by simp, by norm_num, by simp, by simp⟩) (1 / 16) (by rw [hg]; exact ⟨by norm_num, by simp, by simp⟩) (by rw [ht]; norm_num)
    (by rw [hws, ht]; intro w hw; exact exAsked _ _ _ _ (List.mem_singleton.1 hw)) (by rw [hws]; exact ⟨_, List.mem_cons_self, trivial⟩)
    (fun _ _ v _ => .ok v) (fun _ _ _ _ => ⟨_, rfl⟩) 1 (fun _ => true) (fun _ => rfl)
  refine ⟨s, o, hr, ho, fun work hw => h work hw _ [0, 0] ?_ (1 / 2) 1 (.inr ⟨le_rfl, le_rfl⟩) fun p _ => by split_ifs <;> norm_num⟩
  have hk : o.integrator = .rungeKutta2 := by
    have := hM.integrator
    rw [hc] at this
    simpa [integratorTable] using this
  rw [hM.volumes, hk]
  rfl

end Verif.Props.ScalarOutput
