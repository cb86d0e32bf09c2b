import Verif.FactoriesLemmas
import Verif.Props.NetFlux
import Verif.Props.Diffusion
import Verif.Props.CudaNetFlux
import Verif.ParallelRun
import Verif.CudaGhosts

/-!
Property theorems C83 and C84, from the names of a configuration to the simulator.

Vocabulary (`Verif/FactoriesSpec.lean`): `Meant cuda c s p e` says that the simulator `s` is the one the configuration `c` describes, on platform `p` and for equation `e`;
`Offered cuda c` that every name of `c` stands in its table; `cuda` tells whether the program was built for graphics cards.
-/

namespace Verif.Props.Factories
open Verif Verif.Factories NetFlux

/-- C83. A configuration whose names are offered gives the simulator it describes; any other one is refused with an exception. There is no third outcome: no null pointer, no
undefined behaviour, no object of another kind. -/
theorem C83_as_described (cuda : Bool) (c : Conf) :
    (Offered cuda c ∧ ∃ s p e, assemble cuda c = .ok s ∧ Meant cuda c s p e) ∨ (¬ Offered cuda c ∧ assemble cuda c = .error .thrown) := by
  rcases assemble_either cuda c with ⟨s, h, p, e, hm⟩ | ⟨h, hm⟩
  · refine .inl ⟨⟨p, hm.platform, ⟨_, hm.flux.1⟩, ⟨_, hm.recon.1⟩, ⟨_, hm.integrator⟩, ⟨_, hm.boundary.1⟩, ?_⟩, s, p, e, h, hm⟩
    rcases hm.diffusion with ⟨h1, h2, -⟩ | ⟨h1, m, r, h2, h3, -⟩
    · exact ⟨h2, .inl h1⟩
    · exact ⟨⟨r, h3⟩, .inr ⟨h1, m, h2⟩⟩
  · refine .inr ⟨?_, h⟩
    rintro ⟨p, hp, ⟨f, hf⟩, ⟨sc, hs⟩, ⟨k, hk⟩, ⟨b, hb⟩, ⟨r, hr⟩, hd⟩
    obtain ⟨e, he⟩ : ∃ e : Eqn, (c.equation, e) ∈ equationTable := by
      simp only [table_name]
      simp only [fluxTable, List.mem_append, List.mem_flatMap, List.mem_cons, List.not_mem_nil, or_false, Prod.mk.injEq] at hf
      have : c.equation ∈ equationList.map Eqn.name := by
        simp only [equationList, List.map_cons, List.map_nil, Eqn.name, List.mem_cons, List.not_mem_nil, or_false]
        rcases hf with ⟨x, hx, hf⟩ | hf
        · rcases hf with ⟨h, -⟩ | ⟨h, -⟩ | ⟨h, -⟩ | ⟨h, -⟩ | ⟨h, -⟩ | ⟨h, -⟩ <;> rw [h] <;> rcases hx with rfl | rfl | rfl <;> simp
        · rcases hf with ⟨h, -⟩ | ⟨h, -⟩ | ⟨h, -⟩ | ⟨h, -⟩ | ⟨h, -⟩ | ⟨h, -⟩ | ⟨h, -⟩ | ⟨h, -⟩ | ⟨h, -⟩ | ⟨h, -⟩ | ⟨h, -⟩ | ⟨h, -⟩ | ⟨h, -⟩ | ⟨h, -⟩ | ⟨h, -⟩ |
            ⟨h, -⟩ | ⟨h, -⟩ | ⟨h, -⟩ | ⟨h, -⟩ <;> rw [h] <;> simp
      obtain ⟨e, -, he⟩ := List.mem_map.1 this
      exact ⟨e, he⟩
    obtain ⟨d, hdm⟩ : ∃ d, DiffusionMeant p e c d := by
      rcases hd with hd | ⟨hd, m, hm⟩
      · exact ⟨_, .inl ⟨hd, ⟨r, hr⟩, rfl⟩⟩
      · exact ⟨_, .inr ⟨hd, m, r, hm, hr, rfl⟩⟩
    exact hm ⟨e, ⟨p, f, e, directionsOf c.dims, ⟨p, sc, none⟩⟩, d, k, ⟨p, b, max (ghostsOfFlux f sc) (ghostsOfDiffusion d)⟩, (p, e),
        List.replicate (stagesOf k + 1) ⟨p, variablesOf e, c.dims, max (ghostsOfFlux f sc) (ghostsOfDiffusion d)⟩⟩
      ⟨p, e, hp, he, rfl, ⟨hf, rfl, rfl, rfl⟩, ⟨hs, rfl, by simp⟩, hdm, hk, ⟨hb, rfl, rfl⟩, rfl, rfl⟩

/-- Burgers' equation with ENO of order 3 on the processor. -/
def exConf : Conf := ⟨"cpu", "burgers", "Godunov", "eno3", "rungekutta3", "periodic", "none", "none", ⟨16, 1, 1⟩⟩

example : Offered false exConf :=
  ⟨.cpu, .inl ⟨rfl, rfl⟩, ⟨.two .godunov, by decide⟩, ⟨.eno 3, by decide⟩, ⟨.rungeKutta3, by simp [integratorTable, exConf]⟩, ⟨.periodic, by decide⟩, ⟨.none, by decide⟩, .inl rfl⟩

example : ∃ s, assemble false exConf = .ok s ∧ s.boundary.ghost = 3 ∧ s.volumes.length = 4 ∧ s.flux.flux = .two .godunov := ⟨_, rfl, rfl, rfl, rfl⟩

/-- On a program built without support for graphics cards the platform "cuda" is refused. -/
example : ¬ Offered false { exConf with platform := "cuda" } := by
  rintro ⟨p, hp, -⟩
  rcases hp with ⟨h, -⟩ | ⟨h, -⟩
  · exact absurd h (by decide)
  · exact absurd h (by decide)

/-- What a name stands for is unique, so that `Meant` leaves no choice: two simulators described by the same configuration agree in everything but, for a reconstruction made
for particular variables, the name of the class that provides these variables. -/
theorem C83_no_choice (cuda : Bool) (c : Conf) (s s' : SimObj) (p p' : Platform) (e e' : Eqn) (h : Meant cuda c s p e) (h' : Meant cuda c s' p' e') :
    p = p' ∧ e = e' ∧ s' = { s with flux := { s.flux with recon := { s.flux.recon with views := s'.flux.recon.views } } } := by
  obtain rfl := platform_unique h.platform h'.platform
  obtain rfl : e = e' := name_injective ((table_name.1 h.equation).trans (table_name.1 h'.equation).symm)
  refine ⟨rfl, rfl, ?_⟩
  obtain ⟨f1, f2, f3, f4⟩ := h.flux
  obtain ⟨f1', f2', f3', f4'⟩ := h'.flux
  obtain ⟨r1, r2, -⟩ := h.recon
  obtain ⟨r1', r2', -⟩ := h'.recon
  obtain ⟨b1, b2, b3⟩ := h.boundary
  obtain ⟨b1', b2', b3'⟩ := h'.boundary
  have c1 := h.computer
  have c1' := h'.computer
  have v1 := h.volumes
  have v1' := h'.volumes
  have q1 := h.parameters
  have q1' := h'.parameters
  have eF := flux_unique f1 f1'
  have eR := recon_unique r1 r1'
  have eD := diffusion_unique h.diffusion h'.diffusion
  have eK := key_unique (l := integratorTable) (by decide) h.integrator h'.integrator
  have eB := key_unique (l := boundaryTable) (by decide) b1 b1'
  obtain ⟨a1, ⟨a2, a3, a4, a5, ⟨a6, a7, a8⟩⟩, a9, a10, ⟨a11, a12, a13⟩, a14, a15⟩ := s
  obtain ⟨x1, ⟨x2, x3, x4, x5, ⟨x6, x7, x8⟩⟩, x9, x10, ⟨x11, x12, x13⟩, x14, x15⟩ := s'
  simp only at *
  subst eF eR eD eK eB f2 f2' f3 f3' f4 f4' r2 r2' b2 b2' b3 b3' c1 c1' v1 v1' q1 q1'
  simp_all

example : ∃ s, Meant false exConf s .cpu .burgers := by
  rcases C83_as_described false exConf with ⟨-, s, p, e, -, h⟩ | ⟨-, h⟩
  · obtain rfl : p = .cpu := by
      rcases h.platform with ⟨-, h⟩ | ⟨h, -⟩
      · exact h
      · exact absurd h (by decide)
    obtain rfl : e = .burgers := name_injective ((table_name.1 h.equation).trans rfl)
    exact ⟨s, h⟩
  · cases h

/-- C83 for the components of the momentum. If the grid has no more directions than the equation, the fluxes of an accepted configuration of Euler's equations only access
components the momentum has. What is missing: nothing refuses a grid with more directions (`C83_accepts_too_many_directions`). -/
theorem C83_components_partial (cuda : Bool) (c : Conf) (s : SimObj) (h : assemble cuda c = .ok s) (hd : directionsOf c.dims ≤ s.parameters.components)
    {K : Type} (m : List K) (hm : m.length = s.flux.equation.components) : ∀ d < s.flux.dimension, ∃ x, massFlux m d = .ok x := by
  obtain ⟨p, e, hM⟩ : ∃ p e, Meant cuda c s p e := by
    rcases C83_as_described cuda c with ⟨-, s', p, e, h1, h2⟩ | ⟨-, h1⟩
    · rw [h] at h1; cases h1; exact ⟨p, e, h2⟩
    · rw [h] at h1; cases h1
  intro d hds
  rw [hM.flux.2.2.2] at hds
  rw [hM.parameters] at hd
  rw [hM.flux.2.2.1] at hm
  have hlt : d < m.length := by omega
  exact ⟨m[d], by simp [massFlux, component, List.getElem?_eq_getElem hlt]⟩

example : ∃ s, assemble false ⟨"cpu", "euler2", "HLL3", "weno2", "rungekutta2", "neumann", "none", "none", ⟨16, 8, 1⟩⟩ = .ok s ∧ directionsOf ⟨16, 8, 1⟩ ≤ s.parameters.components :=
  ⟨_, rfl, by decide⟩

/-- Finding: the one dimensional Euler equations are accepted on a two dimensional grid, and the flux in the second direction then accesses a component of the momentum that does
not exist. -/
theorem C83_accepts_too_many_directions :
    ∃ s, assemble false ⟨"cpu", "euler1", "hll3", "none", "forwardeuler", "periodic", "none", "none", ⟨16, 8, 1⟩⟩ = .ok s ∧ s.flux.dimension = 2 ∧
      ∀ (K : Type) (m : List K), m.length = s.flux.equation.components → massFlux m 1 = .error .ub := by
  refine ⟨_, rfl, rfl, fun K m hm => ?_⟩
  have : m[1]? = none := List.getElem?_eq_none (by rw [hm]; decide)
  simp [massFlux, component, this]

/-! ### C84 -/

/-- The simulator has the ghost cells the tables say. -/
theorem meant {cuda : Bool} {c : Conf} {s : SimObj} (h : assemble cuda c = .ok s) : ∃ p e, Meant cuda c s p e := by
  rcases C83_as_described cuda c with ⟨-, s', p, e, h1, h2⟩ | ⟨-, h1⟩
  · rw [h] at h1; cases h1; exact ⟨p, e, h2⟩
  · rw [h] at h1; cases h1

theorem fits {cuda : Bool} {c : Conf} {s : SimObj} (h : assemble cuda c = .ok s) (hw : Wide s.flux.flux s.flux.recon.scheme s.boundary.ghost)
    {V R : Type} {r : Recon V} (hr : IsRecon s.flux.recon.scheme r) {fl : FluxFn V R} (hfl : IsFlux s.flux.flux fl) : Fits r fl s.boundary.ghost := by
  obtain ⟨p, e, hM⟩ := meant h
  have hg := hM.boundary.2.2
  have hs := hM.recon.1
  generalize s.flux.recon.scheme = sc at *
  generalize s.flux.flux = f at *
  generalize s.boundary.ghost = g at *
  have hk := hr.k
  have hkind := hr.kind
  have hl := hfl.left
  have hrr := hfl.right
  have hk1 : 1 ≤ r.k := by
    rw [hk]
    cases sc with
    | eno k =>
      have : 2 ≤ k := by cases p <;> simp only [reconTable] at hs <;> (try split_ifs at hs) <;> simp at hs <;> omega
      simp only [ghostsOfScheme]; omega
    | _ => simp [ghostsOfScheme]
  have hkg : r.k ≤ g := by rw [hk, hg]; unfold ghostsOfFlux; omega
  refine ⟨hk1, hkg, hr.offs, ?_, ?_, ?_⟩
  · intro hwh o ho
    have := hr.offs o ho
    have h1 : sc = .none := by rw [hkind] at hwh; cases sc <;> first | rfl | simp [filledBy] at hwh
    rw [hk, h1] at this
    simp only [ghostsOfScheme] at this
    omega
  · have : pointsOf f - 1 ≤ g := by rw [hg]; unfold ghostsOfFlux; omega
    rw [hl, hrr]
    cases f <;> simp [pointsOf, leftCells, rightCells] at this ⊢ <;> omega
  · intro hne
    have hw' : sc ≠ .none := by rintro rfl; exact hne hkind
    rcases hw with hw | hw
    · exact absurd hw hw'
    · rw [← hk] at hw
      rw [hl, hrr]
      cases f <;> simp [furtherCells, leftCells, rightCells] at hw ⊢ <;> omega

/-- C84 on the processor. Whatever configuration is accepted, as long as the ghost cells suffice for the wide stencils (`Wide`): one evaluation of the right hand side, on the
volumes the simulator creates, reads and writes no cell outside them, and the result in every interior cell is the difference of the fluxes at its faces, computed from the
current values alone and not from what the work arrays happen to contain. Needs a grid that is not flat in `y` only, with at least as many cells as ghost cells in every direction.
What is missing: configurations with `tecno4` or `tecno6` that are accepted though not `Wide` (`C84_wide_is_needed`), and grids flat in `y` only (`C84_flat_in_y`). -/
theorem C84_right_hand_side_partial (cuda : Bool) (c : Conf) (s : SimObj) (h : assemble cuda c = .ok s) (hw : Wide s.flux.flux s.flux.recon.scheme s.boundary.ghost)
    (hm : 1 ≤ c.dims.x ∧ 1 ≤ c.dims.y ∧ 1 ≤ c.dims.z) (hreg : c.dims.y = 1 → c.dims.z = 1) (hN : ∀ d < s.flux.dimension, (s.boundary.ghost : Int) ≤ c.dims.get d)
    {V R : Type} [AddCommGroup V] [Zero R] [LinearOrder R] (r : Recon V) (hr : IsRecon s.flux.recon.scheme r) (fl : FluxFn V R) (hfl : IsFlux s.flux.flux fl)
    (n G active : I3) (hn : n = Halo.totalOf c.dims s.boundary.ghost) (hG : G = Halo.ghostsOf c.dims s.boundary.ghost)
    (hact : ∀ d < 3, active.get d = if d < s.flux.dimension then 1 else 0)
    (u0 u1 : Arr I3 V) (hu0 : u0.inb = inSize n) (hu1 : u1.inb = inSize n) (huv : ∀ p, IsInterior n G p → u0.val p = u1.val p) (st : State V R) (hsz : Sized n st) :
    ∃ out, conservedSystem s.flux.dimension r fl n G active u0 u1 st = .ok out ∧
      (∀ p, IsInterior n G p → out.out.val p =
        ((List.range s.flux.dimension).map fun d => (face r fl u1.val d (p - I3.dir d)).1 - (face r fl u1.val d p).1).sum) ∧
      ∀ p, ¬ IsInterior n G p → out.out.val p = st.out.val p := by
  have hf := fits h hw hr hfl
  obtain ⟨p, e, hM⟩ := meant h
  have hd : s.flux.dimension = Halo.dimensionsOf c.dims := by
    rw [hM.flux.2.2.2]
    unfold directionsOf Halo.dimensionsOf
    split_ifs <;> omega
  have hL : Layout n G active (Halo.dimensionsOf c.dims) s.boundary.ghost := by
    subst hn hG
    exact ParallelRun.layout hm hreg _ (by rw [← hd]; exact hact)
  rw [hd] at hN hact ⊢
  have h3 : ∀ d < Halo.dimensionsOf c.dims, 3 * G.get d ≤ n.get d := by
    intro d hdd
    subst hn hG
    have := Halo.volume_sizes hm hreg s.boundary.ghost (d := d) (by have := hL.dims_le; omega)
    have h2 := hN d hdd
    rw [if_pos hdd] at this
    omega
  obtain ⟨a, b, h1, -, -, -, h5, h6⟩ := C11_split_equals_whole r fl n G active _ _ hL hf h3 (Halo.dimensionsOf_bounds c.dims).1 u0 u1 hu0 hu1 huv st hsz
  exact ⟨a, h1, h5, h6⟩

/-- Witness for `C84_wide_is_needed`: values are copied, the flux is the value of the first cell of the stencil. -/
def copyRecon (s : Scheme) : Recon Int := ⟨filledBy s, ghostsOfScheme s, [0], fun _ v => v.headD 0, fun _ v => v.headD 0⟩
/-- The flux of the witness. -/
def firstFlux (f : FluxClass) : FluxFn Int Int := ⟨leftCells f, rightCells f, fun _ l _ => (l.headD 0, 0)⟩
/-- A state whose work arrays contain `x`. -/
def stale (g : Nat) (x : Int) : State Int Int :=
  ⟨field ⟨3 * g, 1, 1⟩ fun _ => x, field ⟨3 * g, 1, 1⟩ fun _ => x, field ⟨3 * g, 1, 1⟩ fun _ => x, field ⟨3 * g, 1, 1⟩ fun _ => 0, fun _ => 0⟩

/-- Finding, and C84 is exact about it: whenever the ghost cells of an accepted configuration do not suffice for the wide stencil, there are a grid, a reconstruction and a flux of
the class chosen, and data for which the result depends on what the work arrays contained before. -/
theorem C84_wide_is_needed (cuda : Bool) (c : Conf) (s : SimObj) (h : assemble cuda c = .ok s) (hw : ¬ Wide s.flux.flux s.flux.recon.scheme s.boundary.ghost) :
    ∃ (m : I3) (r : Recon Int) (fl : FluxFn Int Int) (u : Arr I3 Int) (st st' out out' : State Int Int) (n G : I3),
      n = Halo.totalOf m s.boundary.ghost ∧ G = Halo.ghostsOf m s.boundary.ghost ∧ (s.boundary.ghost : Int) ≤ m.x ∧ m.y = 1 ∧ m.z = 1 ∧
      IsRecon s.flux.recon.scheme r ∧ IsFlux s.flux.flux fl ∧ u.inb = inSize n ∧ Sized n st ∧ Sized n st' ∧ st.out = st'.out ∧
      conservedSystem 1 r fl n G ⟨1, 0, 0⟩ u u st = .ok out ∧ conservedSystem 1 r fl n G ⟨1, 0, 0⟩ u u st' = .ok out' ∧
      ∃ p, IsInterior n G p ∧ out.out.val p ≠ out'.out.val p := by
  obtain ⟨p, e, hM⟩ := meant h
  have hg := hM.boundary.2.2
  have hs := hM.recon.1
  generalize s.flux.recon.scheme = sc at *
  generalize s.flux.flux = f at *
  generalize s.boundary.ghost = g at *
  simp only [Wide, not_or, not_le] at hw
  have hge : pointsOf f - 1 ≤ g ∧ ghostsOfScheme sc ≤ g := by rw [hg]; unfold ghostsOfFlux; omega
  have h4 : ghostsOfScheme sc ≤ 4 := by
    cases sc with
    | eno k =>
      have : k ≤ 4 := by cases p <;> simp only [reconTable] at hs <;> (try split_ifs at hs) <;> simp at hs <;> omega
      exact this
    | _ => simp [ghostsOfScheme]
  have key : (∃ t, f = .combined4 t) ∧ (sc = .eno 3 ∨ sc = .weno3) ∧ g = 3 ∨ (∃ t, f = .combined4 t) ∧ sc = .eno 4 ∧ g = 4 ∨ (∃ t, f = .combined6 t) ∧ sc = .eno 4 ∧ g = 5 := by
    cases f <;> cases sc <;> simp [pointsOf, ghostsOfScheme, furtherCells] at hge hw h4 ⊢ <;> omega
  have hn : ∀ g : Nat, (⟨3 * g, 1, 1⟩ : I3) = Halo.totalOf ⟨g, 1, 1⟩ g := by
    intro g; simp [Halo.totalOf, Halo.ghostsOf]; omega
  have hR : IsRecon sc (copyRecon sc) := ⟨rfl, rfl, by
    intro o ho
    have h1 : 1 ≤ ghostsOfScheme sc := by rcases key with ⟨-, rfl | rfl, -⟩ | ⟨-, rfl, -⟩ | ⟨-, rfl, -⟩ <;> decide
    simp only [copyRecon, List.mem_cons, List.not_mem_nil, or_false] at ho ⊢
    subst ho; omega⟩
  refine ⟨⟨g, 1, 1⟩, copyRecon sc, firstFlux f, field ⟨3 * g, 1, 1⟩ fun _ => 0, stale g 0, stale g 1, ?_⟩
  have fin : ∃ (out out' : State Int Int), conservedSystem 1 (copyRecon sc) (firstFlux f) ⟨3 * g, 1, 1⟩ ⟨g, 0, 0⟩ ⟨1, 0, 0⟩ (field ⟨3 * g, 1, 1⟩ fun _ => 0)
      (field ⟨3 * g, 1, 1⟩ fun _ => 0) (stale g 0) = .ok out ∧
      conservedSystem 1 (copyRecon sc) (firstFlux f) ⟨3 * g, 1, 1⟩ ⟨g, 0, 0⟩ ⟨1, 0, 0⟩ (field ⟨3 * g, 1, 1⟩ fun _ => 0)
      (field ⟨3 * g, 1, 1⟩ fun _ => 0) (stale g 1) = .ok out' ∧ out.out.val ⟨g, 0, 0⟩ = 0 ∧ out'.out.val ⟨g, 0, 0⟩ = 1 := by
    rcases key with ⟨⟨t, rfl⟩, rfl | rfl, rfl⟩ | ⟨⟨t, rfl⟩, rfl, rfl⟩ | ⟨⟨t, rfl⟩, rfl, rfl⟩ <;> exact ⟨_, _, rfl, rfl, rfl, rfl⟩
  obtain ⟨out, out', e1, e2, e3, e4⟩ := fin
  refine ⟨out, out', ⟨3 * g, 1, 1⟩, ⟨g, 0, 0⟩, hn g, by simp [Halo.ghostsOf], le_refl _, rfl, rfl, hR, ⟨rfl, rfl⟩, rfl, ⟨rfl, rfl, rfl, rfl⟩, ⟨rfl, rfl, rfl, rfl⟩, rfl, e1, e2,
    ⟨g, 0, 0⟩, ?_, by rw [e3, e4]; decide⟩
  have : 1 ≤ g := by rcases key with ⟨-, -, rfl⟩ | ⟨-, -, rfl⟩ | ⟨-, -, rfl⟩ <;> decide
  intro d hd
  interval_cases d <;> simp [I3.get]
  all_goals omega

/-- The fourth order entropy conservative flux with ENO of order 3 is accepted with three ghost cells. -/
example : ∃ s, assemble false ⟨"cpu", "euler2", "tecno4", "eno3", "rungekutta3", "periodic", "none", "none", ⟨16, 8, 1⟩⟩ = .ok s ∧
    ¬ Wide s.flux.flux s.flux.recon.scheme s.boundary.ghost := ⟨_, rfl, by simp [Wide]; decide⟩

/-- The same flux with WENO of order 2 has enough. -/
example : ∃ s, assemble false ⟨"cpu", "euler2", "tecno4", "weno2", "rungekutta3", "periodic", "none", "none", ⟨16, 8, 1⟩⟩ = .ok s ∧
    Wide s.flux.flux s.flux.recon.scheme s.boundary.ghost := ⟨_, rfl, by simp [Wide]; decide⟩

/-- Finding: a grid with one cell in the second direction but several in the third is accepted, the flux object works in three directions, but the volumes have no ghost cells in the
second one, and the flux reads in front of the first row. -/
theorem C84_flat_in_y :
    ∃ s, assemble false ⟨"cpu", "burgers", "godunov", "none", "forwardeuler", "periodic", "none", "none", ⟨4, 1, 4⟩⟩ = .ok s ∧ s.flux.dimension = 3 ∧
      Halo.totalOf ⟨4, 1, 4⟩ s.boundary.ghost = ⟨6, 1, 6⟩ ∧ Halo.ghostsOf ⟨4, 1, 4⟩ s.boundary.ghost = ⟨1, 0, 1⟩ ∧
      ∃ (r : Recon Int) (fl : FluxFn Int Int), IsRecon s.flux.recon.scheme r ∧ IsFlux s.flux.flux fl ∧ ∀ (u : Arr I3 Int) (st : State Int Int),
        u.inb = inSize ⟨6, 1, 6⟩ → Sized ⟨6, 1, 6⟩ st → computeFlux 3 r fl ⟨6, 1, 6⟩ ⟨1, 0, 1⟩ ⟨1, 0, 1⟩ 0 0 u st = .error .ub := by
  refine ⟨_, rfl, rfl, by decide, by decide, copyRecon .none, firstFlux (.two .godunov), ⟨rfl, rfl, by decide⟩, ⟨rfl, rfl⟩, fun u st hu hs => ?_⟩
  obtain ⟨ui, uv⟩ := u
  obtain ⟨⟨li, lv⟩, ⟨ri, rv⟩, ⟨ti, tv⟩, ⟨oi, ov⟩, ws⟩ := st
  obtain ⟨h1, h2, h3, h4⟩ := hs
  simp only at hu h1 h2 h3 h4
  subst hu h1 h2 h3 h4
  rfl

/-- C84 on the graphics card, when the diffusion operator asks for no more ghost cells than the flux: for every reconstruction that gives on the card the values of the scheme
chosen (`C72_reconstructions_apply`) and fluxes with nonnegative wave speeds, an evaluation of the right hand side exists, and each one leaves in every interior cell the difference
of the fluxes at its faces, computed from the current values alone, and the other cells as they were. Needs more than twice as many cells as ghost cells in every direction, since
the code launches no valid kernel for an empty inner region. What is missing: diffusion operators that ask for more (`C84_card_last_cells`), and what is missing on the processor. -/
theorem C84_card_partial (cuda : Bool) (c : Conf) (s : SimObj) (h : assemble cuda c = .ok s) (hw : Wide s.flux.flux s.flux.recon.scheme s.boundary.ghost)
    (hdiff : ghostsOfDiffusion s.diffusion ≤ ghostsOfFlux s.flux.flux s.flux.recon.scheme)
    (hm : 1 ≤ c.dims.x ∧ 1 ≤ c.dims.y ∧ 1 ≤ c.dims.z) (hreg : c.dims.y = 1 → c.dims.z = 1) (hN : ∀ d < s.flux.dimension, 2 * (s.flux.ghost : Int) < c.dims.get d)
    {V R : Type} [AddCommGroup V] [Zero R] [LinearOrder R] (r : Recon V) (hr : IsRecon s.flux.recon.scheme r) (fl : FluxFn V R) (hfl : IsFlux s.flux.flux fl)
    (hnn : ∀ d ls rs, 0 ≤ (fl.fn d ls rs).2) (n G active : I3) (hn : n = Halo.totalOf c.dims s.flux.ghost) (hG : G = Halo.ghostsOf c.dims s.flux.ghost)
    (hact : ∀ d < 3, active.get d = if d < s.flux.dimension then 1 else 0) (rec : CudaNetFlux.CardRecon V R)
    (hrec : ∀ d < s.flux.dimension, ∀ start stop, RegionOK start stop → CudaNetFlux.NonEmpty n G start stop → rec.Computes r fl n G d start stop)
    (u1 : Arr I3 V) (hu1 : u1.inb = inSize n) (t : CudaNetFlux.Dev V R) (ht : CudaNetFlux.DevSized n t) (huv : ∀ p, IsInterior n G p → (t.vol .input).val p = u1.val p)
    (ws : Nat → R) :
    s.flux.ghost = s.boundary.ghost ∧ (∃ t' ws', CudaNetFlux.evaluates s.flux.dimension rec fl n G u1 t ws t' ws') ∧
      ∀ t' ws', CudaNetFlux.evaluates s.flux.dimension rec fl n G u1 t ws t' ws' →
        (∀ p, IsInterior n G p → (t'.vol .output).val p =
          ((List.range s.flux.dimension).map fun d => (face r fl u1.val d (p - I3.dir d)).1 - (face r fl u1.val d p).1).sum) ∧
        ∀ p, ¬ IsInterior n G p → (t'.vol .output).val p = (t.vol .output).val p := by
  obtain ⟨p, e, hM⟩ := meant h
  have hg : s.flux.ghost = s.boundary.ghost := by
    rw [hM.boundary.2.2, max_eq_left hdiff]
    unfold FluxObj.ghost ghostsOfFlux
    congr 1
    · cases s.flux.flux <;> rfl
    · cases s.flux.recon.scheme <;> rfl
  rw [hg] at hn hG hN
  have hf := fits h hw hr hfl
  have hd : s.flux.dimension = Halo.dimensionsOf c.dims := by
    rw [hM.flux.2.2.2]
    unfold directionsOf Halo.dimensionsOf
    split_ifs <;> omega
  have hL : Layout n G active s.flux.dimension s.boundary.ghost := by
    rw [hd] at hact ⊢
    subst hn hG
    exact ParallelRun.layout hm hreg _ hact
  have h4 : ∀ d < s.flux.dimension, 4 * G.get d < n.get d := by
    intro d hdd
    have h2 := hN d hdd
    have h3 := hL.dims_le
    rw [hd] at hdd
    subst hn hG
    have := Halo.volume_sizes hm hreg s.boundary.ghost (d := d) (by omega)
    rw [if_pos hdd] at this
    omega
  have hpos : 0 < s.flux.dimension := by rw [hd]; exact (Halo.dimensionsOf_bounds c.dims).1
  set st : State V R := ⟨field n fun _ => 0, field n fun _ => 0, field n fun _ => 0, t.vol .output, ws⟩ with hst
  have hsz : Sized n st := ⟨rfl, rfl, rfl, ht.1 .output⟩
  obtain ⟨out, o1, o2, o3⟩ := C84_right_hand_side_partial cuda c s h hw hm hreg (fun d hd => by have := hN d hd; omega) r hr fl hfl n G active hn hG hact (t.vol .input) u1
    (ht.1 .input) hu1 huv st hsz
  obtain ⟨c', q1, ⟨t', q2, q3⟩, q4⟩ := CudaNetFlux.C72_right_hand_side rec r fl n G active _ _ hL hf h4 hpos hrec hnn u1 hu1 t ht st hsz rfl
  rw [o1] at q1
  cases q1
  refine ⟨hg, ⟨t', _, q2⟩, fun t'' ws'' ht'' => ?_⟩
  rw [(q4 t'' ws'' ht'').1]
  exact ⟨o2, o3⟩

/-- Finding: if the diffusion operator asks for more ghost cells than the flux, the volumes inside the flux object keep the number of the flux while those of the simulator have the
larger one. The configuration below is accepted (one ghost cell in the flux, two in the simulator), and then, on a one dimensional grid of any number `N` of cells and whatever
two-point flux is evaluated, an evaluation exists and every one leaves a net flux of zero in the last interior cell, whatever the data. -/
theorem C84_card_last_cells (N : Nat) (hN : 4 < N) :
    ∃ s, assemble true ⟨"cuda", "burgers", "tecno1", "none", "rungekutta2", "periodic", "tecnoroe", "eno2", ⟨N, 1, 1⟩⟩ = .ok s ∧ s.flux.ghost = 1 ∧ s.boundary.ghost = 2 ∧
      ∀ (V R : Type) [AddCommGroup V] [Zero R] [LinearOrder R] (fl : FluxFn V R), IsFlux s.flux.flux fl → ∀ (n G nf Gf : I3),
        n = Halo.totalOf ⟨N, 1, 1⟩ s.boundary.ghost → G = Halo.ghostsOf ⟨N, 1, 1⟩ s.boundary.ghost → nf = Halo.totalOf ⟨N, 1, 1⟩ s.flux.ghost →
        Gf = Halo.ghostsOf ⟨N, 1, 1⟩ s.flux.ghost → ∀ (u1 : Arr I3 V), u1.inb = inSize n → ∀ (t : CudaNetFlux.Dev V R), CudaGhosts.OwnSized n nf t → ∀ ws,
        (∃ t' ws', CudaGhosts.evaluatesOwn (CudaRecon.none nf) fl n G nf Gf u1 t ws t' ws') ∧
        ∀ t' ws', CudaGhosts.evaluatesOwn (CudaRecon.none nf) fl n G nf Gf u1 t ws t' ws' →
          IsInterior n G ⟨N + 1, 0, 0⟩ ∧ (t'.vol .output).val ⟨N + 1, 0, 0⟩ = 0 := by
  have q1 : ("burgers", toLower "tecno1", FluxClass.two .scalarEntropyConservative) ∈ fluxTable := by decide
  have q2 : ∀ p, ("none", Scheme.none) ∈ reconTable p "burgers" := by intro p; cases p <;> decide
  have q3 : ("eno2", TecnoScheme.eno 2) ∈ tecnoTable := by decide
  have q4 : ("periodic", BC.periodic) ∈ boundaryTable := by decide
  have q5 : "burgers" ∈ ["euler1", "euler2", "euler3", "burgers"] := by decide
  have q6 : ("tecnoroe", MatrixKind.roe) ∈ matrixTable := by decide
  have q7 : ¬ "tecnoroe" = "none" := by decide
  obtain ⟨s, hs, hsf, hsg, hsb⟩ : ∃ s, assemble true ⟨"cuda", "burgers", "tecno1", "none", "rungekutta2", "periodic", "tecnoroe", "eno2", ⟨N, 1, 1⟩⟩ = .ok s ∧
      s.flux.flux = .two .scalarEntropyConservative ∧ s.flux.ghost = 1 ∧ s.boundary.ghost = 2 := by
    rcases C83_as_described true ⟨"cuda", "burgers", "tecno1", "none", "rungekutta2", "periodic", "tecnoroe", "eno2", ⟨N, 1, 1⟩⟩ with ⟨-, s, p, e, h, hm⟩ | ⟨h, -⟩
    · have e1 : s.flux.flux = .two .scalarEntropyConservative := flux_unique hm.flux.1 q1
      have e2 : s.flux.recon.scheme = .none := recon_unique hm.recon.1 (q2 p)
      have e3 : ghostsOfDiffusion s.diffusion = 2 := by
        rcases hm.diffusion with ⟨h, -⟩ | ⟨-, m, r, -, hr, hd⟩
        · exact absurd h q7
        · rw [hd]
          have : r = .eno 2 := key_unique (l := tecnoTable) (by decide) hr q3
          rw [this]; rfl
      refine ⟨s, h, e1, ?_, ?_⟩
      · unfold FluxObj.ghost; rw [e1, e2]; rfl
      · rw [hm.boundary.2.2, e1, e2, e3]; rfl
    · exact absurd ⟨.cuda, .inr ⟨rfl, rfl, rfl⟩, ⟨_, q1⟩, ⟨_, q2 _⟩, ⟨.rungeKutta2, by simp [integratorTable]⟩, ⟨_, q4⟩,
        ⟨_, q3⟩, .inr ⟨q5, _, q6⟩⟩ h
  refine ⟨s, hs, hsg, hsb, ?_⟩
  intro V R _ _ _ fl hfl n G nf Gf hn hG hnf hGf u1 hu1 t ht ws
  have hN1 : 1 < (N : Int) := by omega
  have hn' : n = ⟨N + 2 * (2 : Nat), 1, 1⟩ := by rw [hn, hsb]; simp [Halo.totalOf, Halo.ghostsOf]
  have hG' : G = ⟨(2 : Nat), 0, 0⟩ := by rw [hG, hsb]; simp [Halo.ghostsOf]
  have hnf' : nf = ⟨N + 2 * (1 : Nat), 1, 1⟩ := by rw [hnf, hsg]; simp [Halo.totalOf, Halo.ghostsOf]
  have hGf' : Gf = ⟨(1 : Nat), 0, 0⟩ := by rw [hGf, hsg]; simp [Halo.ghostsOf]
  rw [hsf] at hfl
  refine ⟨CudaGhosts.evaluatesOwn_exists hfl.left hfl.right (N := N) (a := 1) (g := 2) (by omega) (by omega) (by omega) hn' hG' hnf' hGf' u1 hu1 t ws ht, ?_⟩
  intro t' ws' he
  refine ⟨?_, CudaGhosts.evaluatesOwn_last (CudaGhosts.none_spares nf) (N := N) (a := 1) (g := 2) (by omega) (by omega) hn' hG' hnf' hGf' ht.output he _ (by simp) (by simp)⟩
  rw [hn', hG']
  intro d hd
  interval_cases d <;> simp [I3.get]
  all_goals omega

/-- Such a memory exists. -/
example : CudaGhosts.OwnSized (V := Int) (R := Int) ⟨12, 1, 1⟩ ⟨10, 1, 1⟩
    ⟨fun v => if v = .input ∨ v = .output then field ⟨12, 1, 1⟩ fun p => p.x else field ⟨10, 1, 1⟩ fun _ => 0, ⟨fun i => decide (i < 10), fun _ => 0⟩, fun _ => ⟨fun _ => true, fun _ => 0⟩⟩ :=
  ⟨rfl, rfl, rfl, rfl, rfl, by simp⟩

/-- C84 for the diffusion operator. If the simulator has at least one ghost cell more than the operator asks for, then on the volumes the simulator creates, and for periodic data,
the operator changes no total. What is missing: nothing provides the additional cell (`C84_diffusion_too_narrow`). -/
theorem C84_diffusion_partial (cuda : Bool) (c : Conf) (s : SimObj) (h : assemble cuda c = .ok s) (v : VolumeObj) (hv : v ∈ s.volumes) (hg : ghostsOfDiffusion s.diffusion + 1 ≤ s.boundary.ghost)
    (hm : 1 ≤ c.dims.x ∧ 1 ≤ c.dims.y ∧ 1 ≤ c.dims.z) (hreg : c.dims.y = 1 → c.dims.z = 1) {N : Nat} (eq : Diffusion.Equation N) (k : Diffusion.Kind) (rec : Diffusion.TecnoRec N)
    (hrec : ∀ d < directionsOf c.dims, ∃ r, r + 1 = ghostsOfDiffusion s.diffusion ∧ FaceLocal rec d r) (n G : I3) (hn : n = Halo.totalOf v.dims v.ghost)
    (hG : G = Halo.ghostsOf v.dims v.ghost) (u : Arr I3 (Diffusion.Vec N)) (hu : u.inb = inSize n)
    (hper : ∀ d < directionsOf c.dims, PeriodicIn n G d u.val) (t : Diffusion.State N) (ht : SizedState n t) :
    ∃ t', Diffusion.applyDiffusion eq k rec (directionsOf c.dims) n u t = .ok t' ∧ total n G t'.out.val = total n G t.out.val := by
  have hd : directionsOf c.dims = Halo.dimensionsOf c.dims := by
    unfold directionsOf Halo.dimensionsOf
    split_ifs <;> omega
  obtain ⟨p, e, hM⟩ := meant h
  rw [hM.volumes] at hv
  obtain rfl := List.eq_of_mem_replicate hv
  have hL : Layout n G ⟨1, if 1 < Halo.dimensionsOf c.dims then 1 else 0, if 2 < Halo.dimensionsOf c.dims then 1 else 0⟩ (Halo.dimensionsOf c.dims) s.boundary.ghost := by
    subst hn hG
    exact ParallelRun.layout hm hreg _ (active := ⟨1, if 1 < Halo.dimensionsOf c.dims then 1 else 0, if 2 < Halo.dimensionsOf c.dims then 1 else 0⟩) (by
      intro d hd
      have := (Halo.dimensionsOf_bounds c.dims).1
      interval_cases d
      · simp [I3.get]; omega
      · simp [I3.get]
      · simp [I3.get])
  obtain ⟨r, hr1, -⟩ := hrec 0 (by rw [hd]; exact (Halo.dimensionsOf_bounds c.dims).1)
  refine C24_conservative_partial eq k rec _ r (by rw [hd]; exact hL.dims_le) (fun d hdd => ?_) n G (fun d hdd => ?_) (fun e he => ?_) u hu hper t ht
  · obtain ⟨r', hr', h⟩ := hrec d hdd
    obtain rfl : r = r' := by omega
    exact h
  · rw [hd] at hdd
    rw [hL.gst d (by have := hL.dims_le; omega), if_pos hdd]
    omega
  · have h1 := hL.size e he
    have h2 : 0 ≤ G.get e := by rw [hL.gst e he]; split_ifs <;> omega
    omega

/-- The fourth order flux brings enough ghost cells for the operator without reconstruction. -/
example : ∃ s, assemble false ⟨"cpu", "burgers", "tecno4", "none", "rungekutta3", "periodic", "tecnoroe", "none", ⟨16, 8, 1⟩⟩ = .ok s ∧
    ghostsOfDiffusion s.diffusion + 1 ≤ s.boundary.ghost ∧
    ∀ d < 2, ∃ r, r + 1 = ghostsOfDiffusion s.diffusion ∧ FaceLocal (Diffusion.noRec : Diffusion.TecnoRec 1) d r :=
  ⟨_, rfl, by decide, fun d hd => ⟨0, rfl, noRec_faceLocal d (by omega)⟩⟩

/-- Finding: with a two-point flux the operator gets the cells it asks for and no more; with one ghost cell it changes the total of periodic data. -/
theorem C84_diffusion_too_narrow :
    ∃ s, assemble false ⟨"cpu", "burgers", "tecno1", "none", "rungekutta3", "periodic", "tecnoroe", "none", ⟨2, 1, 1⟩⟩ = .ok s ∧ s.boundary.ghost = 1 ∧
      ∃ u : I3 → Diffusion.Vec 1, PeriodicIn (Halo.totalOf ⟨2, 1, 1⟩ s.boundary.ghost) (Halo.ghostsOf ⟨2, 1, 1⟩ s.boundary.ghost) 0 u ∧
        ∀ k, ∃ t', Diffusion.applyDiffusion Diffusion.burgers k Diffusion.noRec 1 ⟨4, 1, 1⟩ (field ⟨4, 1, 1⟩ u) (freshState ⟨4, 1, 1⟩ fun _ _ => 0) = .ok t' ∧
          total ⟨4, 1, 1⟩ ⟨1, 0, 0⟩ t'.out.val 0 ≠ 0 := by
  refine ⟨_, rfl, rfl, ?_⟩
  obtain ⟨-, u, h1, -, h2⟩ := C24_one_ghost_cell_is_not_conservative
  refine ⟨u, h1, fun k => ?_⟩
  obtain ⟨t', h3, h4⟩ := h2 k
  exact ⟨t', h3, by rw [h4]; norm_num⟩

/-- A configuration with a wide enough boundary, data that are not constant and arrays of the right size. -/
example : ∃ s out, assemble false exConf = .ok s ∧ conservedSystem (V := Int) (R := Int) s.flux.dimension (copyRecon (.eno 3)) (firstFlux (.two .godunov)) ⟨22, 1, 1⟩ ⟨3, 0, 0⟩ ⟨1, 0, 0⟩
      (field ⟨22, 1, 1⟩ fun p => p.x ^ 2) (field ⟨22, 1, 1⟩ fun p => p.x ^ 2)
      ⟨field ⟨22, 1, 1⟩ fun _ => 0, field ⟨22, 1, 1⟩ fun _ => 0, field ⟨22, 1, 1⟩ fun _ => 0, field ⟨22, 1, 1⟩ fun _ => 0, fun _ => 0⟩ = .ok out := by
  obtain ⟨out, h, -⟩ := C84_right_hand_side_partial false exConf _ rfl (by simp [Wide]; decide) (by decide) (by decide) (by decide) (copyRecon (.eno 3)) ⟨rfl, rfl, by decide⟩
    (firstFlux (.two .godunov)) ⟨rfl, rfl⟩ ⟨22, 1, 1⟩ ⟨3, 0, 0⟩ ⟨1, 0, 0⟩ (by decide) (by decide) (by decide) (field ⟨22, 1, 1⟩ fun p => p.x ^ 2) (field ⟨22, 1, 1⟩ fun p => p.x ^ 2) rfl rfl (fun _ _ => rfl)
    ⟨field ⟨22, 1, 1⟩ fun _ => 0, field ⟨22, 1, 1⟩ fun _ => 0, field ⟨22, 1, 1⟩ fun _ => 0, field ⟨22, 1, 1⟩ fun _ => 0, fun _ => 0⟩ ⟨rfl, rfl, rfl, rfl⟩
  exact ⟨_, out, rfl, h⟩

end Verif.Props.Factories
