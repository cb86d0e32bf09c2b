import Verif.Halo
import Verif.Cartesian
import Verif.Params
import Verif.Iterate
import Mathlib.Algebra.Field.Basic
import Mathlib.Data.List.Sort

/-!
Uncertainty quantification: sample numbers, load balancing (alsuq/src/mpi/SimpleLoadBalancer.cpp), random parameters (alsuq/src/generator,
alsuq/src/distribution, alsuq/src/samples) and the loop over the samples (alsuq/src/run/Runner.cpp).
-/

namespace Verif.UQ
open Cartesian

/-! ### Sample numbers and load balancing -/

/-- The sample numbers (alsuq/src/config/Setup.cpp:70-75). -/
def sampleNumbers (start n : Nat) : List Nat := (List.range n).map (start + ·)

/-- The order of the ranks of a new communicator: by key, then by old rank. -/
def splitLe (key : Int → Int) (a b : Int) : Bool := decide (key a < key b ∨ (key a = key b ∧ a ≤ b))

/-- `MPI_Comm_split` over ranks `0 … size-1` as called by `makeSubConfiguration` (alsutils/src/mpi/Configuration.cpp:50-56): the old ranks of the members of the new communicator of
rank `r`, in the order of their new ranks. A negative color (other than `MPI_UNDEFINED`, which does not occur here) is an error, which ends the program. -/
def commSplit (size : Int) (color key : Int → Int) (r : Int) : Res (List Int) :=
  if (irange 0 size).any (fun q => color q < 0) then .error .thrown
  else .ok (((irange 0 size).filter fun q => color q == color r).mergeSort (splitLe key))

/-- The loop choosing the samples (alsuq/src/mpi/SimpleLoadBalancer.cpp:82-97); `first … last-1` are the indices. -/
def takeSamples (samples : List Nat) (first last : Nat) : Res (List Nat) :=
  (List.range (last - first)).foldlM (fun out k => match samples[first + k]? with
    | none => .error .thrown
    | some s => .ok (out ++ [s])) []

/-- `loadBalance` (alsuq/src/mpi/SimpleLoadBalancer.cpp:27-101) on rank `rank` of `size`: the samples of this rank, the members of its statistical and of its spatial
communicator. The product of the process counts is computed without overflow; the modulus in line 46 converts `multiSample` to an unsigned number. -/
def loadBalance (samples : List Nat) (multiSample : Int) (multiSpatial : I3) (size rank : Int) : Res (List Nat × List Int × List Int) :=
  if multiSample * multiSpatial.x * multiSpatial.y * multiSpatial.z ≠ size then .error .thrown
  else if Iterate.toSize multiSample = 0 then .error .ub
  else if samples.length % Iterate.toSize multiSample ≠ 0 then .error .thrown
  else do
    let perProcess := samples.length / Iterate.toSize multiSample
    let np := multiSpatial.x * multiSpatial.y * multiSpatial.z
    if np = 0 then .error .ub
    else do
      let statistical ← commSplit size (fun q => Int.tmod q np) (fun q => Int.tdiv q np) rank
      let spatial ← commSplit size (fun q => Int.tdiv q np) (fun q => Int.tmod q np) rank
      let own := statistical.idxOf rank
      let mine ← takeSamples samples (perProcess * own) (perProcess * (own + 1))
      pure (mine, statistical, spatial)

/-! ### Random parameters -/

/-- `STLMersenne::generate` (alsuq/src/generator/STLMersenne.cpp:38-85). The generator is one object for the whole program (lines 25-29): a stream of random numbers
`w 0, w 1, …` (engine and distribution together; the distribution uses one number of the engine per call) and the number `pos` of numbers used so far. Integers without overflow. -/
def mersenne {K : Type} (w : Nat → K) (dim comp sample pos : Nat) : Res (K × Nat) :=
  if comp ≥ dim then .error .thrown
  else
    let pos := if pos / dim < sample then pos + (sample * dim - pos) else pos
    let pos := if pos % dim < comp then pos + (comp - pos % dim) else pos
    .ok (w pos, pos + 1)

/-- The distributions: `Uniform` (alsuq/src/distribution/Uniform.cpp), `Uniform1D` with its cell size (alsuq/src/distribution/Uniform1D.cpp), and those that compute a value
from component and sample number without the generator (alsuq/src/distribution/DLLDistribution.cpp:102-106, FunctionDistribution.cpp:12-15); the functions of loaded libraries
are assumed to depend only on their arguments. -/
inductive Dist (K : Type) where
  | uniform (a b : K)
  | uniform1d (a deltaX : K)
  | function (f : Nat → Nat → K)

/-- `Distribution::generate` (alsuq/src/distribution/Uniform.cpp:27-34, Uniform1D.cpp:29-38, DLLDistribution.cpp:102-106, FunctionDistribution.cpp:12-15). -/
def Dist.generate {K : Type} [Field K] (w : Nat → K) (d : Dist K) (dim comp sample pos : Nat) : Res (K × Nat) :=
  match d with
  | .uniform a b => do
    let (x, pos) ← mersenne w dim comp sample pos
    pure (x * (b - a) + a, pos)
  | .uniform1d a deltaX => if comp > 0 then .error .thrown else .ok (a + deltaX * (sample + 1 / 2), pos)
  | .function f => .ok (f comp sample, pos)

/-- A random parameter of the configuration: number of components and distribution (alsuq/include/alsuq/samples/SampleGenerator.hpp:28-32). -/
structure Param (K : Type) where
  dim : Nat
  dist : Dist K

/-- `SampleGenerator::generate` (alsuq/src/samples/SampleGenerator.cpp:29-56). -/
def Param.generate {K : Type} [Field K] (w : Nat → K) (p : Param K) (sample pos : Nat) : Res (List K × Nat) :=
  (List.range p.dim).foldlM (fun s i => do
    let (x, pos) ← p.dist.generate w p.dim i sample s.2
    pure (s.1 ++ [x], pos)) ([], pos)

/-- The parameters of one sample (alsuq/src/run/Runner.cpp:46-51), in the order of their names. -/
def sampleParameters {K : Type} [Field K] (w : Nat → K) (params : List (Param K)) (sample pos : Nat) : Res (List (List K) × Nat) :=
  params.foldlM (fun s p => do
    let (x, pos) ← p.generate w sample s.2
    pure (s.1 ++ [x], pos)) ([], pos)

/-- The parameters of all samples of a process, as `Runner::run` (alsuq/src/run/Runner.cpp:42-51) generates them. -/
def runParameters {K : Type} [Field K] (w : Nat → K) (params : List (Param K)) (samples : List Nat) (pos : Nat) : Res (List (List (List K)) × Nat) :=
  samples.foldlM (fun s sample => do
    let (x, pos) ← sampleParameters w params sample s.2
    pure (s.1 ++ [x], pos)) ([], pos)

/-! ### Configuration of the distributions -/

/-- Text to number as `ptree::get<double>` does it, which throws when the text is no number (alsutils/src/parameters/Parameters.cpp:32-34). -/
def getDouble {K : Type} (parse : Params.Str → Option K) (name : Params.Str) (t : Params.Tree) : Res K := do
  match parse (← Params.getString name t) with
  | some x => pure x
  | none => .error .thrown

/-- The parameters for the distribution (alsuq/src/config/Setup.cpp:167-176): the node of the configuration after six calls of `addDoubleParameter`, which is `put`
(alsutils/src/parameters/Parameters.cpp:72-74). -/
def distributionParameters {K : Type} [Field K] (text : K → Params.Str) (node : Params.Tree) : Params.Tree :=
  let t := Params.addString "lower".toList (text 0) node
  let t := Params.addString "upper".toList (text 1) t
  let t := Params.addString "a".toList (text 0) t
  let t := Params.addString "b".toList (text 1) t
  let t := Params.addString "mean".toList (text 0) t
  Params.addString "sd".toList (text 1) t

/-- `createDistribution` (alsuq/src/distribution/DistributionFactory.cpp:28-64, Uniform.cpp:21-25, Uniform1D.cpp:22-27). `library` stands for the distributions of loaded
libraries and the quasi Monte Carlo generators. `Uniform1D` divides by the number of samples. -/
def createDistribution {K : Type} [Field K] (parse : Params.Str → Option K) (library : Params.Str → Nat → Nat → Params.Tree → Res (Dist K)) (name : Params.Str)
    (dims numberOfSamples : Nat) (t : Params.Tree) : Res (Dist K) :=
  if name = "normal".toList then .error .thrown
  else if name = "uniform".toList then do
    let a ← getDouble parse "lower".toList t
    let b ← getDouble parse "upper".toList t
    pure (.uniform a b)
  else if name = "uniform1d".toList then do
    let a ← getDouble parse "a".toList t
    let b ← getDouble parse "b".toList t
    pure (.uniform1d a ((b - a) / numberOfSamples))
  else if name = "dll".toList ∨ name.take 4 = "qmc_".toList then library name dims numberOfSamples t
  else .error .thrown

/-- One parameter of `makeSampleGenerator` (alsuq/src/config/Setup.cpp:162-187). -/
def makeParam {K : Type} [Field K] (text : K → Params.Str) (parse : Params.Str → Option K) (library : Params.Str → Nat → Nat → Params.Tree → Res (Dist K))
    (type : Params.Str) (length numberOfSamples : Nat) (node : Params.Tree) : Res (Param K) := do
  let d ← createDistribution parse library type length numberOfSamples (distributionParameters text node)
  pure ⟨length, d⟩

end Verif.UQ
