import Verif.Cartesian
import Verif.Integrator
import Verif.Flux
import Verif.NetFlux

/-!
Model of the factories that turn the names of a configuration into objects, and of their use in `SimulatorSetup` and `Simulator`.

A name is an arbitrary string. `THROW` is `Err.thrown`; a null pointer returned by a factory and used later would be `Err.ub`. Objects are represented by what is chosen:
class, template arguments, platform. `cuda` tells whether the program was built with `ALSVINN_HAVE_CUDA`. Memory allocation is assumed to succeed.
-/

namespace Verif
namespace Factories

/-- The equation classes (alsfvm/include/alsfvm/equation/equation_list.hpp:39-45). -/
inductive Eqn where
  | euler1 | euler2 | euler3 | burgers | buckleyLeverett | cubic | linear
  deriving DecidableEq, Repr

/-- `getName` of the equation classes (alsfvm/include/alsfvm/equation/euler/Euler.hpp, burgers/Burgers.hpp, buckleyleverett/BuckleyLeverett.hpp, cubic/Cubic.hpp,
linear/Linear.hpp). -/
def Eqn.name : Eqn → String
  | .euler1 => "euler1"
  | .euler2 => "euler2"
  | .euler3 => "euler3"
  | .burgers => "burgers"
  | .buckleyLeverett => "buckleyleverett"
  | .cubic => "cubic"
  | .linear => "linear"

/-- `EquationList` (equation_list.hpp:39-45). -/
def equationList : List Eqn := [.euler1, .euler2, .euler3, .burgers, .buckleyLeverett, .cubic, .linear]

/-- `conservedVariables` (alsfvm/src/equation/euler/Euler.cpp:23-29, 46-51, 67-71, burgers/Burgers.cpp:22, buckleyleverett/BuckleyLeverett.cpp:23, cubic/Cubic.cpp:22,
linear/Linear.cpp:22). -/
def Eqn.conserved : Eqn → List String
  | .euler1 => ["rho", "mx", "E"]
  | .euler2 => ["rho", "mx", "my", "E"]
  | .euler3 => ["rho", "mx", "my", "mz", "E"]
  | _ => ["u"]

/-- `for_each_equation` (equation_list.hpp:61-65) with a functor that may replace the object behind a pointer; the pointer starts as null. -/
def forEachEquation {α : Type} (f : Eqn → Option α → Res (Option α)) : Res (Option α) := equationList.foldlM (fun p e => f e p) none

/-- Where an object works. -/
inductive Platform where
  | cpu | cuda
  deriving DecidableEq, Repr

/-! ### Reconstructions -/

/-- The reconstruction classes (alsfvm/include/alsfvm/reconstruction: NoReconstruction, ENOCPU/ENOCUDA, WENO2, WENOCPU<3>, WENOF2, MC, MM). -/
inductive Scheme where
  | none
  | eno (order : Nat)
  | weno2 | weno3 | wenof2 | mc | mm
  deriving DecidableEq, Repr

/-- A reconstruction object: platform, class and the equation whose variables it accesses (its template argument; `none` for the classes that treat
every variable of the volume alike). -/
structure ReconObj where
  platform : Platform
  scheme : Scheme
  views : Option Eqn
  deriving DecidableEq, Repr

/-- `getNumberOfGhostCells` (alsfvm/src/reconstruction/NoReconstruction.cpp:71-73, NoReconstructionCUDA.cu:22-24, ENOCPU.cpp:191-193, ENOCUDA.cu:230-232,
ReconstructionCPU.cpp:100-102, ReconstructionCUDA.cu:233-235 with WENO2.hpp, WENOF2.hpp, MC.hpp:53-55, MM.hpp:51-53; WENOCPU.cpp). -/
def Scheme.ghost : Scheme → Nat
  | .none => 1
  | .eno k => k
  | .weno3 => 3
  | _ => 2

/-- The chain over the equation names inside one reconstruction name (alsfvm/src/reconstruction/ReconstructionFactory.cpp:81-97 and the other chains):
Euler in one, two, three dimensions, otherwise `other`. -/
def eulerOr (p : Platform) (s : Scheme) (equation : String) (other : Res ReconObj) : Res ReconObj :=
  if equation = "euler1" then .ok ⟨p, s, some .euler1⟩
  else if equation = "euler2" then .ok ⟨p, s, some .euler2⟩
  else if equation = "euler3" then .ok ⟨p, s, some .euler3⟩
  else other

/-- The chains of the card that end with Burgers' equation (ReconstructionFactory.cpp:172-194, 244-268, 291-315, 317-341). -/
def eulerBurgers (p : Platform) (s : Scheme) (equation : String) : Res ReconObj :=
  eulerOr p s equation (if equation = "burgers" then .ok ⟨p, s, some .burgers⟩ else .error .thrown)

/-- `ReconstructionFactory::createReconstruction` on the processor (ReconstructionFactory.cpp:59-165). -/
def reconstructionCPU (name equation : String) : Res ReconObj :=
  if name = "none" then .ok ⟨.cpu, .none, none⟩
  else if name = "eno2" then .ok ⟨.cpu, .eno 2, none⟩
  else if name = "eno3" then .ok ⟨.cpu, .eno 3, none⟩
  else if name = "eno4" then .ok ⟨.cpu, .eno 4, none⟩
  else if name = "weno2" then eulerOr .cpu .weno2 equation (.ok ⟨.cpu, .weno2, some .burgers⟩)
  else if name = "weno3" then .ok ⟨.cpu, .weno3, none⟩
  else if name = "wenof2" then eulerOr .cpu .wenof2 equation (.error .thrown)
  else if name = "mc" then eulerOr .cpu .mc equation (.ok ⟨.cpu, .mc, some .burgers⟩)
  else if name = "mm" then eulerOr .cpu .mm equation (.ok ⟨.cpu, .mm, some .burgers⟩)
  else .error .thrown

/-- `ReconstructionFactory::createReconstruction` on the card (ReconstructionFactory.cpp:167-347). -/
def reconstructionCUDA (name equation : String) : Res ReconObj :=
  if name = "none" then .ok ⟨.cuda, .none, none⟩
  else if name = "eno2" then eulerBurgers .cuda (.eno 2) equation
  else if name = "eno3" then eulerBurgers .cuda (.eno 3) equation
  else if name = "eno4" then eulerBurgers .cuda (.eno 4) equation
  else if name = "weno2" then eulerBurgers .cuda .weno2 equation
  else if name = "weno3" then .error .thrown
  else if name = "wenof2" then eulerOr .cuda .wenof2 equation (.error .thrown)
  else if name = "mc" then eulerBurgers .cuda .mc equation
  else if name = "mm" then eulerBurgers .cuda .mm equation
  else .error .thrown

/-- `ReconstructionFactory::createReconstruction` (ReconstructionFactory.cpp:41-355). -/
def createReconstruction (cuda : Bool) (platform name equation : String) : Res ReconObj :=
  if equation ≠ "euler1" ∧ equation ≠ "euler2" ∧ equation ≠ "euler3" ∧ equation ≠ "burgers" ∧ equation ≠ "buckleyleverett" ∧ equation ≠ "cubic" ∧
      equation ≠ "linear" then .error .thrown
  else if platform = "cpu" then reconstructionCPU name equation
  else if cuda ∧ platform = "cuda" then reconstructionCUDA name equation
  else .error .thrown

/-! ### Numerical fluxes -/

/-- The flux classes that appear in `NumericalFluxList` (alsfvm/include/alsfvm/numflux/numerical_flux_list.hpp:41-113), without their equation argument. -/
inductive TwoPoint where
  | hll | hll3 | central | eulerTecno1 | scalarEntropyConservative | rusanov | godunov | roe | upwind
  deriving DecidableEq, Repr

/-- A flux class: two-point, or one of the combinations `TecnoCombined4<E, F>`, `TecnoCombined6<E, F>`. -/
inductive FluxClass where
  | two (f : TwoPoint)
  | combined4 (f : TwoPoint)
  | combined6 (f : TwoPoint)
  deriving DecidableEq, Repr

/-- The constants `name` (alsfvm/src/numflux/Central.cpp:21, Rusanov.cpp:21, ScalarEntropyConservativeFlux.cpp:21, euler/HLL.cpp:22-28, euler/HLL3.cpp:23-29,
euler/Tecno1.cpp:23-29, burgers/Godunov.cpp:21, burgers/Roe.cpp:6, buckleyleverett/Godunov.cpp:21, cubic/Roe.cpp:6, linear/Roe.cpp:6, linear/Upwind.cpp:6,
TecnoCombined4.cpp:24-49, TecnoCombined6.cpp:23-46). -/
def FluxClass.name : FluxClass → String
  | .two .hll => "hll"
  | .two .hll3 => "hll3"
  | .two .central => "central"
  | .two .eulerTecno1 => "tecno1"
  | .two .scalarEntropyConservative => "tecno1"
  | .two .rusanov => "rusanov"
  | .two .godunov => "godunov"
  | .two .roe => "roe"
  | .two .upwind => "upwind"
  | .combined4 .godunov => "godunov4"
  | .combined4 _ => "tecno4"
  | .combined6 .godunov => "godunov6"
  | .combined6 _ => "tecno6"

/-- `NumericalFluxList` (numerical_flux_list.hpp:41-113). -/
def fluxList : Eqn → List FluxClass
  | .euler1 => [.two .hll, .two .hll3, .two .central, .two .eulerTecno1, .combined4 .eulerTecno1, .combined6 .eulerTecno1]
  | .euler2 => [.two .hll, .two .hll3, .two .central, .two .eulerTecno1, .combined4 .eulerTecno1, .combined6 .eulerTecno1]
  | .euler3 => [.two .hll, .two .hll3, .two .central, .two .eulerTecno1, .combined4 .eulerTecno1, .combined6 .eulerTecno1]
  | .burgers => [.two .central, .two .rusanov, .two .godunov, .two .roe, .two .scalarEntropyConservative, .combined4 .scalarEntropyConservative, .combined4 .godunov,
      .combined6 .scalarEntropyConservative, .combined6 .godunov]
  | .buckleyLeverett => [.two .central, .two .godunov, .two .rusanov]
  | .cubic => [.two .central, .two .roe, .two .rusanov]
  | .linear => [.two .central, .two .rusanov, .two .roe, .two .upwind]

/-- `getStencil` (alsfvm/include/alsfvm/numflux/numflux_util.hpp:44-60; TecnoCombined4.hpp:69-71, TecnoCombined6.hpp:73-75 with the constructor of `vec6`, see
`Flux.stencil6`). -/
def FluxClass.stencil : FluxClass → List Int
  | .two _ => Flux.stencil2
  | .combined4 _ => Flux.stencil4
  | .combined6 _ => Flux.stencil6

/-- A numerical flux object `NumericalFluxCPU<Flux, Equation, dimension>` or `NumericalFluxCUDA<Flux, Equation, dimension>` with its reconstruction. -/
structure FluxObj where
  platform : Platform
  flux : FluxClass
  equation : Eqn
  dimension : Nat
  recon : ReconObj
  deriving DecidableEq, Repr

/-- `getNumberOfGhostCells` (alsfvm/src/numflux/NumericalFluxCPU.cpp:227-231, NumericalFluxCUDA.cu:420-423). -/
def FluxObj.ghost (f : FluxObj) : Nat := max (f.flux.stencil.length - 1) f.recon.scheme.ghost

/-- `boost::to_lower_copy` in the default locale: only the letters A to Z change. -/
def toLower (s : String) : String := String.ofList (s.toList.map Char.toLower)

/-- The dimension chain (NumericalFluxFactory.cpp:64-75, 80-91). -/
def withDimension (p : Platform) (f : FluxClass) (e : Eqn) (r : ReconObj) (dimension : Nat) : Res (Option FluxObj) :=
  if dimension = 3 then .ok (some ⟨p, f, e, 3, r⟩)
  else if dimension = 2 then .ok (some ⟨p, f, e, 2, r⟩)
  else if dimension = 1 then .ok (some ⟨p, f, e, 1, r⟩)
  else .error .thrown

/-- `FluxFunctor::operator()` (NumericalFluxFactory.cpp:60-99). -/
def fluxFunctor (cuda : Bool) (platform fluxName : String) (dimension : Nat) (r : ReconObj) (e : Eqn) (ptr : Option FluxObj) (f : FluxClass) : Res (Option FluxObj) :=
  if f.name = toLower fluxName then
    if platform = "cpu" then withDimension .cpu f e r dimension
    else if cuda ∧ platform = "cuda" then withDimension .cuda f e r dimension
    else .error .thrown
  else .ok ptr

/-- `NumericalFluxFactory::createNumericalFlux` (NumericalFluxFactory.cpp:131-139, 173-200); `dims` are the numbers of cells of the grid. -/
def createNumericalFlux (cuda : Bool) (platform equation fluxName reconstruction : String) (dims : I3) : Res FluxObj := do
  let r ← createReconstruction cuda platform reconstruction equation
  let p ← forEachEquation fun e ptr =>
    if e.name = equation then (fluxList e).foldlM (fluxFunctor cuda platform fluxName (Cartesian.activeDimension dims) r e) ptr else .ok ptr
  match p with
  | some f => .ok f
  | none => .error .thrown

/-! ### Diffusion -/

/-- The reconstructions of the diffusion operator (alsfvm/include/alsfvm/reconstruction/tecno). -/
inductive TecnoScheme where
  | none
  | eno (order : Nat)
  deriving DecidableEq, Repr

/-- `getNumberOfGhostCells` (reconstruction/tecno/NoReconstruction.hpp, NoReconstructionCUDA.hpp:40-42, alsfvm/src/reconstruction/tecno/ENOCPU.cpp:181-183, ENOCUDA_tecno.cu:247-249). -/
def TecnoScheme.ghost : TecnoScheme → Nat
  | .none => 1
  | .eno k => k

/-- The chain over the names (alsfvm/src/reconstruction/tecno/ReconstructionFactory.cpp:41-58, 62-79): an unknown name leaves the pointer null. -/
def tecnoByName (p : Platform) (name : String) : Option (Platform × TecnoScheme) :=
  if name = "none" then some (p, .none)
  else if name = "eno2" then some (p, .eno 2)
  else if name = "eno3" then some (p, .eno 3)
  else if name = "eno4" then some (p, .eno 4)
  else none

/-- `tecno::ReconstructionFactory::createReconstruction` (tecno/ReconstructionFactory.cpp:28-95). -/
def createTecnoReconstruction (cuda : Bool) (platform name : String) : Res (Platform × TecnoScheme) := do
  let p ← (if platform = "cpu" then .ok (tecnoByName .cpu name)
    else if cuda ∧ platform = "cuda" then .ok (tecnoByName .cuda name)
    else .error .thrown : Res (Option (Platform × TecnoScheme)))
  match p with
  | some r => .ok r
  | none => .error .thrown

/-- The diffusion matrices (alsfvm/include/alsfvm/diffusion/RoeMatrix.hpp, RusanovMatrix.hpp). -/
inductive MatrixKind where
  | roe | rusanov
  deriving DecidableEq, Repr

/-- A diffusion operator: `NoDiffusion`, or `TecnoDiffusionCPU/CUDA<Equation, Matrix>` with its reconstruction. -/
inductive DiffObj where
  | none
  | tecno (platform : Platform) (equation : Eqn) (matrix : MatrixKind) (recon : Platform × TecnoScheme)
  deriving DecidableEq, Repr

/-- `getNumberOfGhostCells` (alsfvm/src/diffusion/NoDiffusion.cpp:28-30, TecnoDiffusionCPU.cpp:171-174, TecnoDiffusionCUDA.cu:301-304). -/
def DiffObj.ghost : DiffObj → Nat
  | .none => 0
  | .tecno _ _ _ r => r.2.ghost

/-- The chain over the diffusion types for one equation (alsfvm/src/diffusion/DiffusionFactory.cpp:53-63 and the others). -/
def diffusionOf (p : Platform) (e : Eqn) (type : String) (r : Platform × TecnoScheme) : Res DiffObj :=
  if type = "tecnoroe" then .ok (.tecno p e .roe r)
  else if type = "tecnorusanov" then .ok (.tecno p e .rusanov r)
  else .error .thrown

/-- The chain over the equations (DiffusionFactory.cpp:52-106, 111-165). -/
def diffusionFor (p : Platform) (equation type : String) (r : Platform × TecnoScheme) : Res DiffObj :=
  if equation = "burgers" then diffusionOf p .burgers type r
  else if equation = "euler1" then diffusionOf p .euler1 type r
  else if equation = "euler2" then diffusionOf p .euler2 type r
  else if equation = "euler3" then diffusionOf p .euler3 type r
  else .error .thrown

/-- `DiffusionFactory::createDiffusionOperator` (DiffusionFactory.cpp:32-174). -/
def createDiffusionOperator (cuda : Bool) (platform equation type reconstruction : String) : Res DiffObj := do
  let r ← createTecnoReconstruction cuda platform reconstruction
  if type = "none" then .ok .none
  else if platform = "cpu" then diffusionFor .cpu equation type r
  else if cuda ∧ platform = "cuda" then diffusionFor .cuda equation type r
  else .error .thrown

/-! ### The other factories -/

/-- `IntegratorFactory::createIntegrator` (alsfvm/src/integrator/IntegratorFactory.cpp:31-44). -/
def createIntegrator (name : String) : Res Integrator.Kind :=
  if name = "forwardeuler" then .ok .forwardEuler
  else if name = "rungekutta2" then .ok .rungeKutta2
  else if name = "rungekutta3" then .ok .rungeKutta3
  else if name = "rungekutta4" then .ok .rungeKutta4
  else .error .thrown

/-- A boundary object `BoundaryCPU<B>` or `BoundaryCUDA<B>` and the number of ghost cells it fills. -/
structure BoundaryObj where
  platform : Platform
  condition : BC
  ghost : Nat
  deriving DecidableEq, Repr

/-- The chain over the names (alsfvm/src/boundary/BoundaryFactory.cpp:51-57, 62-68). -/
def boundaryOf (p : Platform) (name : String) (ghost : Nat) : Res BoundaryObj :=
  if name = "neumann" then .ok ⟨p, .neumann, ghost⟩
  else if name = "periodic" then .ok ⟨p, .periodic, ghost⟩
  else .error .thrown

/-- `BoundaryFactory::createBoundary` (BoundaryFactory.cpp:48-75). -/
def createBoundary (cuda : Bool) (platform name : String) (ghost : Nat) : Res BoundaryObj :=
  if platform = "cpu" then boundaryOf .cpu name ghost
  else if cuda ∧ platform = "cuda" then boundaryOf .cuda name ghost
  else .error .thrown

/-- `CellComputerFactory::createComputer` (alsfvm/src/equation/CellComputerFactory.cpp:37-58, 73-85). -/
def createComputer (cuda : Bool) (platform equation : String) : Res (Platform × Eqn) := do
  let p ← forEachEquation fun e ptr =>
    if e.name = equation then
      if platform = "cpu" then .ok (some (.cpu, e))
      else if cuda ∧ platform = "cuda" then .ok (some (.cuda, e))
      else .error .thrown
    else .ok ptr
  match p with
  | some c => .ok c
  | none => .error .thrown

/-- `EquationParameterFactory::createDefaultEquationParameters` (alsfvm/src/equation/EquationParameterFactory.cpp:32-37, 44-57): the equation whose `Parameters` class is created. -/
def createEquationParameters (equation : String) : Res Eqn := do
  let p ← forEachEquation fun e ptr => if e.name = equation then .ok (some e) else .ok ptr
  match p with
  | some e => .ok e
  | none => .error .thrown

/-- `MemoryFactory::createScalarMemory` (alsfvm/src/memory/MemoryFactory.cpp:42-56). -/
def createMemory (cuda : Bool) (platform : String) : Res Platform :=
  if platform = "cpu" then .ok .cpu
  else if platform = "cuda" then (if cuda then .ok .cuda else .error .thrown)
  else .error .thrown

/-- A volume: where it lives, its variables, its number of cells and its ghost cells. -/
structure VolumeObj where
  platform : Platform
  names : List String
  dims : I3
  ghost : Nat
  deriving DecidableEq

/-- `VolumeFactory::createConservedVolume` (alsfvm/src/volume/VolumeFactory.cpp:53-81, 114-128); the memory of every variable comes from the memory factory. -/
def createConservedVolume (cuda : Bool) (platform equation : String) (dims : I3) (ghost : Nat) : Res VolumeObj := do
  let p ← forEachEquation fun e ptr =>
    if e.name = equation then do
      let m ← createMemory cuda platform
      .ok (some ⟨m, e.conserved, dims, ghost⟩)
    else .ok ptr
  match p with
  | some v => .ok v
  | none => .error .thrown

/-! ### Putting a simulator together -/

/-- The names of a configuration, as they are handed to the factories (alsfvm/src/config/SimulatorSetup.cpp:134-202), and the numbers of cells of the grid. -/
structure Conf where
  platform : String
  equation : String
  flux : String
  reconstruction : String
  integrator : String
  boundary : String
  diffusion : String
  diffusionReconstruction : String
  dims : I3

/-- What the simulator consists of (alsfvm/src/simulator/Simulator.cpp:26-64). -/
structure SimObj where
  parameters : Eqn
  flux : FluxObj
  diffusion : DiffObj
  integrator : Integrator.Kind
  boundary : BoundaryObj
  computer : Platform × Eqn
  volumes : List VolumeObj

/-- `ConservedSystem::getNumberOfGhostCells` (alsfvm/src/simulator/ConservedSystem.cpp:111-114). -/
def systemGhost (f : FluxObj) (d : DiffObj) : Nat := max f.ghost d.ghost

/-- The part of `readSetupFromFile` that creates the objects (SimulatorSetup.cpp:134, 165-202: the grid refuses unknown boundary names in lines 277-283, the parameters are made
before the factories, the diffusion before the simulator) followed by the constructor of `Simulator` (Simulator.cpp:42-63). Reading the configuration, writers, functionals,
MPI and the creation of the work volumes inside flux and diffusion objects are left out. -/
def assemble (cuda : Bool) (c : Conf) : Res SimObj := do
  let _ ← (if c.boundary = "periodic" ∨ c.boundary = "neumann" then .ok () else .error .thrown : Res Unit)
  let parameters ← createEquationParameters c.equation
  let diffusion ← createDiffusionOperator cuda c.platform c.equation c.diffusion c.diffusionReconstruction
  let flux ← createNumericalFlux cuda c.platform c.equation c.flux c.reconstruction c.dims
  let integrator ← createIntegrator c.integrator
  let boundary ← createBoundary cuda c.platform c.boundary (systemGhost flux diffusion)
  let computer ← createComputer cuda c.platform c.equation
  let volumes ← (List.range (integrator.substeps + 1)).mapM fun _ => createConservedVolume cuda c.platform c.equation c.dims (systemGhost flux diffusion)
  .ok ⟨parameters, flux, diffusion, integrator, boundary, computer, volumes⟩

/-! ### What the flux object computes with -/

/-- The cells a reconstruction fills and looks at (`NetFlux.Recon` without its values): NoReconstruction.cpp:42-64, ENOCPU.cpp:92-130, ReconstructionCPU.cpp:56-96,
WENOCPU.cpp:101-129. -/
def Scheme.kind : Scheme → NetFlux.ReconKind
  | .none => .whole
  | .weno3 => .stencilFits
  | _ => .region

/-- Offsets of the cells a reconstructed value depends on (ENOCPU.cpp:100-127: up to `order - 1` to each side; WENO2.hpp, WENOF2.hpp, MC.hpp, MM.hpp: the two neighbours;
WENOCPU.cpp:109-129). -/
def Scheme.reach : Scheme → Nat
  | .none => 0
  | .eno k => k - 1
  | .weno3 => 2
  | _ => 1

/-- Offsets of the left and of the right values a flux reads (numflux_util.hpp:75-81, 104-107, 128-133). -/
def FluxClass.offsets : FluxClass → List Int × List Int
  | .two _ => ([1], [0])
  | f => (f.stencil, [])

/-! ### The momentum of Euler's equations -/

/-- `vec1::operator[]`, `vec2::operator[]`, `vec3::operator[]` (alsutils/include/alsutils/vec1.hpp:76-79, vec2.hpp:85-88, vec3.hpp): an access to the `i`-th number behind the
address of the vector, without a check. -/
def component {K : Type} (v : List K) (i : Nat) : Res K :=
  match v[i]? with
  | some x => .ok x
  | none => .error .ub

/-- Number of components of the momentum (alsfvm/include/alsfvm/equation/euler/ConservedVariables.hpp); zero for the scalar equations, which have none. -/
def Eqn.components : Eqn → Nat
  | .euler1 => 1
  | .euler2 => 2
  | .euler3 => 3
  | _ => 0

/-- The density component of `Euler::computePointFlux<direction>` (alsfvm/include/alsfvm/equation/euler/Euler.hpp:173-177), which all fluxes for Euler's equations call. -/
def massFlux {K : Type} (m : List K) (direction : Nat) : Res K := component m direction

end Factories
end Verif
