import Verif.GpuLoop
import Verif.TecnoEno

/-!
Model of the entropy stable diffusion operator on the graphics card: alsfvm/src/diffusion/TecnoDiffusionCUDA.cu and the reconstructions it
uses, alsfvm/src/reconstruction/tecno/NoReconstructionCUDA_tecno.cu and ENOCUDA_tecno.cu. Every access of a thread concerns one variable of
one cell. Volumes are indexed by cells, the arrays of divided differences by flat positions, because the kernel steps through them.
-/

namespace Verif.CudaTecno
open Verif.Gpu Verif.NetFlux Verif.TecnoEno
open Verif.Diffusion hiding State
variable {N : Nat}

/-- The volumes involved (TecnoDiffusionCUDA.cu:149-160, 205-208). -/
inductive Area where
  | conserved | entL | entR | left | right | output
  deriving DecidableEq, Repr

/-- Places in the memory of the card. -/
inductive Loc (N : Nat) where
  | cell (a : Area) (v : Fin N) (c : I3)
  | dd (level : Nat) (i : Int)
  deriving DecidableEq

/-- The volumes and the work arrays `dividedDifferences` of the ENO reconstruction (ENOCUDA_tecno.cu:234-242). -/
structure Dev (N : Nat) where
  vol : Area → Arr I3 (Vec N)
  dd : Nat → Arr Int ℝ

/-- The memory they make up. -/
def Dev.mem (s : Dev N) : Arr (Loc N) ℝ where
  inb := fun l => match l with
    | .cell a _ c => (s.vol a).inb c
    | .dd j i => (s.dd j).inb i
  val := fun l => match l with
    | .cell a v c => (s.vol a).val c v
    | .dd j i => (s.dd j).val i

/-- Replace a volume. -/
def Dev.setVol (s : Dev N) (a : Area) (x : Arr I3 (Vec N)) : Dev N := { s with vol := Function.update s.vol a x }

/-- Replace a work array. -/
def Dev.setDD (s : Dev N) (j : Nat) (x : Arr Int ℝ) : Dev N := { s with dd := Function.update s.dd j x }

/-- `fetchConservedVariables` (for instance alsfvm/include/alsfvm/equation/euler/Euler.hpp:104-109): read the given variables of a cell one after the other. -/
noncomputable def readVec (a : Area) (c : I3) : List (Fin N) → Vec N → (Vec N → Prog (Loc N) ℝ) → Prog (Loc N) ℝ
  | [], w, k => k w
  | v :: vs, w, k => .read (.cell a v c) fun x => readVec a c vs (Function.update w v x) k

/-- Read all variables of a cell. -/
noncomputable def fetch (a : Area) (c : I3) (k : Vec N → Prog (Loc N) ℝ) : Prog (Loc N) ℝ := readVec a c (List.finRange N) 0 k

/-- `setViewAt` (for instance Euler.hpp:121-127): write the given variables of a cell. -/
def writeVec (a : Area) (c : I3) (w : Vec N) : List (Fin N) → Prog (Loc N) ℝ → Prog (Loc N) ℝ
  | [], k => k
  | v :: vs, k => .write (.cell a v c) (w v) (writeVec a c w vs k)

/-- Write all variables of a cell. -/
def store (a : Area) (c : I3) (w : Vec N) (k : Prog (Loc N) ℝ) : Prog (Loc N) ℝ := writeVec a c w (List.finRange N) k

/-- `addToViewAt` (for instance Euler.hpp:143-149): add to the given variables of a cell. -/
noncomputable def addVec (a : Area) (c : I3) (w : Vec N) : List (Fin N) → Prog (Loc N) ℝ → Prog (Loc N) ℝ
  | [], k => k
  | v :: vs, k => .read (.cell a v c) fun x => .write (.cell a v c) (x + w v) (addVec a c w vs k)

/-- Add to all variables of a cell. -/
noncomputable def addTo (a : Area) (c : I3) (w : Vec N) (k : Prog (Loc N) ℝ) : Prog (Loc N) ℝ := addVec a c w (List.finRange N) k

/-! ### The kernels of the operator -/

/-- `computeEntropyVariables` (TecnoDiffusionCUDA.cu:29-80): the scaled entropy variables of a cell go to `toL`, those of its left neighbour to `toR`. -/
noncomputable def entropyBody (eq : Equation N) (d : Nat) (toL toR : Area) (q : I3) : Prog (Loc N) ℝ :=
  fetch .conserved q fun um => fetch .conserved (q - I3.dir d) fun ul =>
  store toL q (scaled eq d ul um um) (store toR (q - I3.dir d) (scaled eq d ul um ul) .done)

/-- Its launch (TecnoDiffusionCUDA.cu:158-195). Line 160 makes the second view from the left volume too, so both kinds of values go to `entL`. -/
noncomputable def entropyLaunch (eq : Equation N) (d : Nat) (n : I3) : Launch (Loc N) ℝ :=
  boxLaunch (I3.dir d) (n - I3.dir d) 512 (entropyBody eq d .entL .entL)

/-- The lambda `diffusion` (TecnoDiffusionCUDA.cu:124-141). `l`, `r` are its arguments; the conserved variables are read at `outerL`, `outerR`, the neighbours of the cell of the thread
(lines 130-133 use the captured `rightIndex` and `leftIndex`, not the arguments). -/
noncomputable def diffusionAt (eq : Equation N) (k : Kind) (d : Nat) (outerL outerR l r : I3) (cont : Vec N → Prog (Loc N) ℝ) : Prog (Loc N) ℝ :=
  fetch .right l fun lv => fetch .left r fun rv => fetch .conserved outerR fun um => fetch .conserved outerL fun ul =>
  let mean := (0.5 : ℝ) • (um + ul)
  cont ((-0.5 : ℝ) • (eq.eigMat d mean).mulVec (k.mul (eq.eigVal d mean) (lv - rv)))

/-- `multiplyDiffusionMatrix` (TecnoDiffusionCUDA.cu:82-147). -/
noncomputable def multiplyBody (eq : Equation N) (k : Kind) (d : Nat) (q : I3) : Prog (Loc N) ℝ :=
  diffusionAt eq k d (q - I3.dir d) (q + I3.dir d) q (q + I3.dir d) fun a =>
  diffusionAt eq k d (q - I3.dir d) (q + I3.dir d) (q - I3.dir d) q fun b =>
  addTo .output q (a - b) .done

/-- Its launch (TecnoDiffusionCUDA.cu:214-224). -/
noncomputable def multiplyLaunch (eq : Equation N) (k : Kind) (d : Nat) (n : I3) : Launch (Loc N) ℝ :=
  boxLaunch (I3.dir d) (n - I3.dir d) 512 (multiplyBody eq k d)

/-! ### The reconstructions -/

/-- A copy of one variable of a volume to another one with `cudaMemcpyAsync`, modelled as a kernel with one thread per cell. -/
def copyLaunch (n : I3) (src dst : Area) (v : Fin N) : Launch (Loc N) ℝ :=
  gridLaunch n 0 1 fun _ q => .read (.cell src v q) fun x => .write (.cell dst v q) x .done

/-- `NoReconstructionCUDA::performReconstruction` (tecno/NoReconstructionCUDA_tecno.cu:23-39). -/
def none (n : I3) (_d : Nat) : List (Launch (Loc N) ℝ) :=
  (List.finRange N).flatMap fun v => [copyLaunch n .entL .left v, copyLaunch n .entR .right v]

/-- `computeDividedDifferencesKernel` (tecno/ENOCUDA_tecno.cu:251-286); `srcL`, `srcR` are the inputs. -/
noncomputable def ddBody (d : Nat) (n : I3) (srcL srcR : I3 → Loc N) (j : Nat) (q : I3) : Prog (Loc N) ℝ :=
  .read (srcL q) fun a => .read (srcR (q - I3.dir d)) fun b => .write (.dd j (idx n (q - I3.dir d))) (a - b) .done

/-- Its launch by `computeDividedDifferences` (tecno/ENOCUDA_tecno.cu:288-333). The asserts there (more than `2 * level` cells in the direction) are preconditions. -/
noncomputable def ddLaunch (d : Nat) (n : I3) (level : Nat) (srcL srcR : I3 → Loc N) (j : Nat) : Launch (Loc N) ℝ :=
  gridLaunch (n - step d level - step d level) (step d level) 1024 fun _ q => ddBody d n srcL srcR j q

/-- The loop over the levels (tecno/ENOCUDA_tecno.cu:79-87), which hands the shift to the continuation. -/
noncomputable def select (d : Nat) (n q : I3) : List Nat → Nat → (Nat → Prog (Loc N) ℝ) → Prog (Loc N) ℝ
  | [], shift, k => k shift
  | level :: ls, shift, k =>
    .read (.dd level (idx n q)) fun r => .read (.dd level (idx n (q - I3.dir d))) fun l =>
    select d n q ls (if |l| < |r| then shift + 1 else shift) k

/-- Read a list of places. -/
def readList : List (Loc N) → (List ℝ → Prog (Loc N) ℝ) → Prog (Loc N) ℝ
  | [], k => k []
  | l :: ls, k => .read l fun x => readList ls fun xs => k (x :: xs)

/-- `performEnoReconstructionKernel` for one variable (tecno/ENOCUDA_tecno.cu:36-115). The flat positions of lines 98-101 step by one in every direction. The arithmetic of lines 92-110
has the same text as tecno/ENOCPU.cpp:141-163 and is modelled by the same functions `wCur` and `weighted`. -/
noncomputable def enoBody (k d : Nat) (n : I3) (v : Fin N) (q : I3) : Prog (Loc N) ℝ :=
  select d n q (List.range (k - 1)) 0 fun shift =>
  .read (.cell .entL v q) fun c =>
  readList ((List.range (k - 1)).map fun (l : Nat) => .dd 0 (idx n q + l)) fun rs =>
  readList ((List.range (k - 1)).map fun (l : Nat) => .dd 0 (idx n q - l - 1)) fun ls =>
  .write (.cell .left v q) (weighted ((Eno.table k).getD shift []) shift (wCur c rs ls))
    (.read (.cell .entR v q) fun r =>
      .write (.cell .right v q) (weighted ((Eno.table k).getD (shift + 1) []) shift (wCur c rs ls) + (r - c)) .done)

/-- Its launch (tecno/ENOCUDA_tecno.cu:195-224). -/
noncomputable def enoLaunch (k d : Nat) (n : I3) (v : Fin N) : Launch (Loc N) ℝ :=
  boxLaunch (step d (k - 1)) (n - step d (k - 1)) 512 (enoBody k d n v)

/-- The loop body for one variable (tecno/ENOCUDA_tecno.cu:155-229). -/
noncomputable def enoVariable (k d : Nat) (n : I3) (v : Fin N) : List (Launch (Loc N) ℝ) :=
  ddLaunch d n 1 (.cell .entL v) (.cell .entR v) 0 ::
    ((List.range' 1 (k - 2)).map fun i => ddLaunch d n (i + 1) (fun q => .dd (i - 1) (idx n q)) (fun q => .dd (i - 1) (idx n q)) i)
    ++ [enoLaunch k d n v]

/-- `ENOCUDA<k>::performReconstruction` (tecno/ENOCUDA_tecno.cu:128-232) for a valid direction, `k` from 2 to 4. -/
noncomputable def eno (k : Nat) (n : I3) (d : Nat) : List (Launch (Loc N) ℝ) := (List.finRange N).flatMap (enoVariable k d n)

/-! ### The operator -/

/-- Launches one after the other, with outcomes that need not be determined. -/
def mayYieldAll {L V : Type} [DecidableEq L] : List (Launch L V) → Arr L V → Arr L V → Prop
  | [], m, m' => m' = m
  | k :: ks, m, m' => ∃ m1, mayYield k m m1 ∧ mayYieldAll ks m1 m'

/-- `applyDiffusionCUDA` (TecnoDiffusionCUDA.cu:149-228) for one direction. -/
noncomputable def direction (eq : Equation N) (k : Kind) (rec : Nat → List (Launch (Loc N) ℝ)) (n : I3) (d : Nat) : List (Launch (Loc N) ℝ) :=
  entropyLaunch eq d n :: rec d ++ [multiplyLaunch eq k d n]

/-- `applyDiffusion` (TecnoDiffusionCUDA.cu:248-298); the work volumes already have the right size. -/
noncomputable def operator (eq : Equation N) (k : Kind) (rec : Nat → List (Launch (Loc N) ℝ)) (dims : Nat) (n : I3) : List (Launch (Loc N) ℝ) :=
  (List.range dims).flatMap (direction eq k rec n)

end Verif.CudaTecno
