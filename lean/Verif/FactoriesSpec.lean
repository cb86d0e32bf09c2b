import Verif.Factories

/-!
What the names of a configuration stand for: tables for C83 and C84, written down without reference to the factories.
-/

namespace Verif.Factories

/-- The platform of that name, if the program supports it. -/
def PlatformMeant (cuda : Bool) (name : String) (p : Platform) : Prop := (name = "cpu" ∧ p = .cpu) ∨ (cuda = true ∧ name = "cuda" ∧ p = .cuda)

/-- The equations. -/
def equationTable : List (String × Eqn) :=
  [("euler1", .euler1), ("euler2", .euler2), ("euler3", .euler3), ("burgers", .burgers), ("buckleyleverett", .buckleyLeverett), ("cubic", .cubic), ("linear", .linear)]

/-- The variables of an equation. -/
def variablesOf : Eqn → List String
  | .euler1 => ["rho", "mx", "E"]
  | .euler2 => ["rho", "mx", "my", "E"]
  | .euler3 => ["rho", "mx", "my", "mz", "E"]
  | .burgers => ["u"]
  | .buckleyLeverett => ["u"]
  | .cubic => ["u"]
  | .linear => ["u"]

/-- The numerical fluxes by equation and name (in lower case). -/
def fluxTable : List (String × String × FluxClass) :=
  (["euler1", "euler2", "euler3"].flatMap fun e =>
    [(e, "hll", .two .hll), (e, "hll3", .two .hll3), (e, "central", .two .central), (e, "tecno1", .two .eulerTecno1), (e, "tecno4", .combined4 .eulerTecno1),
     (e, "tecno6", .combined6 .eulerTecno1)]) ++
  [("burgers", "central", .two .central), ("burgers", "rusanov", .two .rusanov), ("burgers", "godunov", .two .godunov), ("burgers", "roe", .two .roe),
   ("burgers", "tecno1", .two .scalarEntropyConservative), ("burgers", "tecno4", .combined4 .scalarEntropyConservative), ("burgers", "godunov4", .combined4 .godunov),
   ("burgers", "tecno6", .combined6 .scalarEntropyConservative), ("burgers", "godunov6", .combined6 .godunov),
   ("buckleyleverett", "central", .two .central), ("buckleyleverett", "rusanov", .two .rusanov), ("buckleyleverett", "godunov", .two .godunov),
   ("cubic", "central", .two .central), ("cubic", "rusanov", .two .rusanov), ("cubic", "roe", .two .roe),
   ("linear", "central", .two .central), ("linear", "rusanov", .two .rusanov), ("linear", "roe", .two .roe), ("linear", "upwind", .two .upwind)]

/-- The reconstructions by platform, equation and name. -/
def reconTable (p : Platform) (equation : String) : List (String × Scheme) :=
  match p with
  | .cpu => [("none", .none), ("eno2", .eno 2), ("eno3", .eno 3), ("eno4", .eno 4), ("weno2", .weno2), ("weno3", .weno3), ("mc", .mc), ("mm", .mm)] ++
      if equation ∈ ["euler1", "euler2", "euler3"] then [("wenof2", .wenof2)] else []
  | .cuda => [("none", .none)] ++
      (if equation ∈ ["euler1", "euler2", "euler3", "burgers"] then
        [("eno2", .eno 2), ("eno3", .eno 3), ("eno4", .eno 4), ("weno2", .weno2), ("mc", .mc), ("mm", .mm)] else []) ++
      if equation ∈ ["euler1", "euler2", "euler3"] then [("wenof2", .wenof2)] else []

/-- The time integrators. -/
def integratorTable : List (String × Integrator.Kind) :=
  [("forwardeuler", .forwardEuler), ("rungekutta2", .rungeKutta2), ("rungekutta3", .rungeKutta3), ("rungekutta4", .rungeKutta4)]

/-- The number of stages of an integrator. -/
def stagesOf : Integrator.Kind → Nat
  | .forwardEuler => 1
  | .rungeKutta2 => 2
  | .rungeKutta3 => 3
  | .rungeKutta4 => 4

/-- The boundary conditions. -/
def boundaryTable : List (String × BC) := [("neumann", .neumann), ("periodic", .periodic)]

/-- The diffusion matrices. -/
def matrixTable : List (String × MatrixKind) := [("tecnoroe", .roe), ("tecnorusanov", .rusanov)]

/-- The reconstructions of the diffusion operator. -/
def tecnoTable : List (String × TecnoScheme) := [("none", .none), ("eno2", .eno 2), ("eno3", .eno 3), ("eno4", .eno 4)]

/-- The diffusion operator a configuration asks for. -/
def DiffusionMeant (p : Platform) (e : Eqn) (c : Conf) (d : DiffObj) : Prop :=
  (c.diffusion = "none" ∧ (∃ r, (c.diffusionReconstruction, r) ∈ tecnoTable) ∧ d = .none) ∨
  (c.equation ∈ ["euler1", "euler2", "euler3", "burgers"] ∧
    ∃ m r, (c.diffusion, m) ∈ matrixTable ∧ (c.diffusionReconstruction, r) ∈ tecnoTable ∧ d = .tecno p e m (p, r))

/-- Directions of a grid: up to the last one with more than one cell. -/
def directionsOf (dims : I3) : Nat := if 1 < dims.z then 3 else if 1 < dims.y then 2 else 1

/-- The ghost cells of a reconstruction. -/
def ghostsOfScheme : Scheme → Nat
  | .none => 1
  | .eno k => k
  | .weno3 => 3
  | .weno2 => 2
  | .wenof2 => 2
  | .mc => 2
  | .mm => 2

/-- The number of points of the stencil of a flux. -/
def pointsOf : FluxClass → Nat
  | .two _ => 2
  | .combined4 _ => 4
  | .combined6 _ => 6

/-- The ghost cells of a flux object: as many as its reconstruction, and as many as points of the stencil besides the first. -/
def ghostsOfFlux (f : FluxClass) (s : Scheme) : Nat := max (pointsOf f - 1) (ghostsOfScheme s)

/-- The ghost cells the diffusion operator asks for. -/
def ghostsOfDiffusion : DiffObj → Nat
  | .none => 0
  | .tecno _ _ _ (_, .none) => 1
  | .tecno _ _ _ (_, .eno k) => k

/-- The simulator is the one the configuration describes: one platform and one equation throughout, the named flux, reconstruction, diffusion operator, integrator and boundary
condition; one volume per stage and one more, with the variables of the equation and the larger of the two numbers of ghost cells, which the boundary object fills; a
reconstruction made for particular variables is made for those of the equation. -/
structure Meant (cuda : Bool) (c : Conf) (s : SimObj) (p : Platform) (e : Eqn) : Prop where
  platform : PlatformMeant cuda c.platform p
  equation : (c.equation, e) ∈ equationTable
  parameters : s.parameters = e
  flux : (c.equation, toLower c.flux, s.flux.flux) ∈ fluxTable ∧ s.flux.platform = p ∧ s.flux.equation = e ∧ s.flux.dimension = directionsOf c.dims
  recon : (c.reconstruction, s.flux.recon.scheme) ∈ reconTable p c.equation ∧ s.flux.recon.platform = p ∧ ∀ v ∈ s.flux.recon.views, variablesOf v = variablesOf e
  diffusion : DiffusionMeant p e c s.diffusion
  integrator : (c.integrator, s.integrator) ∈ integratorTable
  boundary : (c.boundary, s.boundary.condition) ∈ boundaryTable ∧ s.boundary.platform = p ∧
    s.boundary.ghost = max (ghostsOfFlux s.flux.flux s.flux.recon.scheme) (ghostsOfDiffusion s.diffusion)
  computer : s.computer = (p, e)
  volumes : s.volumes = List.replicate (stagesOf s.integrator + 1) ⟨p, variablesOf e, c.dims, s.boundary.ghost⟩

/-- The names are offered: every name appears in its table, for the equation and the platform at hand. -/
def Offered (cuda : Bool) (c : Conf) : Prop :=
  ∃ p, PlatformMeant cuda c.platform p ∧ (∃ f, (c.equation, toLower c.flux, f) ∈ fluxTable) ∧ (∃ s, (c.reconstruction, s) ∈ reconTable p c.equation) ∧
    (∃ k, (c.integrator, k) ∈ integratorTable) ∧ (∃ b, (c.boundary, b) ∈ boundaryTable) ∧ (∃ r, (c.diffusionReconstruction, r) ∈ tecnoTable) ∧
    (c.diffusion = "none" ∨ (c.equation ∈ ["euler1", "euler2", "euler3", "burgers"] ∧ ∃ m, (c.diffusion, m) ∈ matrixTable))

/-! For C84 -/

/-- Which cells a reconstruction fills. -/
def filledBy : Scheme → NetFlux.ReconKind
  | .none => .whole
  | .weno3 => .stencilFits
  | .eno _ => .region
  | .weno2 => .region
  | .wenof2 => .region
  | .mc => .region
  | .mm => .region

/-- A reconstruction of the given class, as far as the cells are concerned: which cells it fills, how many ghost cells it asks for, and how far it looks to each side. -/
structure IsRecon {V : Type} (s : Scheme) (r : NetFlux.Recon V) : Prop where
  kind : r.kind = filledBy s
  k : r.k = ghostsOfScheme s
  offs : ∀ o ∈ r.offs, -(r.k - 1 : Int) ≤ o ∧ o ≤ r.k - 1

/-- The cells whose left values a flux looks at: the one to the right of the face, four around it, or the five different cells of the six-point stencil. -/
def leftCells : FluxClass → List Int
  | .two _ => [1]
  | .combined4 _ => [-1, 0, 1, 2]
  | .combined6 _ => [-2, -1, 0, 1, 2, 0]

/-- The cells whose right values a flux looks at. -/
def rightCells : FluxClass → List Int
  | .two _ => [0]
  | .combined4 _ => []
  | .combined6 _ => []

/-- A flux of the given class, as far as the cells are concerned. -/
structure IsFlux {V R : Type} (f : FluxClass) (fl : NetFlux.FluxFn V R) : Prop where
  left : fl.offsL = leftCells f
  right : fl.offsR = rightCells f

/-- How many cells a flux looks beyond the two at its face. -/
def furtherCells : FluxClass → Nat
  | .two _ => 0
  | .combined4 _ => 1
  | .combined6 _ => 2

/-- The ghost cells suffice for the reconstructed values the flux looks at: without reconstruction always, otherwise the ghost cells of the reconstruction and the further
cells of the wide stencils have to fit. -/
def Wide (f : FluxClass) (s : Scheme) (g : Nat) : Prop := s = .none ∨ ghostsOfScheme s + furtherCells f ≤ g

end Verif.Factories
