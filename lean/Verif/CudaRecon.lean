import Verif.CudaNetFlux
import Verif.Eno

/-!
Model of the reconstructions on the graphics card: NoReconstructionCUDA.cu, ReconstructionCUDA.cu (the limiters MC and minmod and the
second order WENO reconstructions) and ENOCUDA.cu.
-/

namespace Verif.CudaRecon
open Verif.Gpu Verif.NetFlux Verif.CudaNetFlux
variable {V R : Type}

/-! ### No reconstruction -/

/-- A copy of the input to another volume with `cudaMemcpyAsync` (alsfvm/src/reconstruction/NoReconstructionCUDA.cu:37-44), all variables
together, modelled as a kernel with one thread per cell. -/
def copyLaunch (n : I3) (target : Name) : Launch Loc (Val V R) :=
  gridLaunch n 0 1 fun _ q => readCell .input q fun v => .write (.cell target q) (.state v) .done

/-- `NoReconstructionCUDA::performReconstruction` (NoReconstructionCUDA.cu:27-46). -/
def none (n : I3) : CardRecon V R := fun _ _ _ => [copyLaunch n .left, copyLaunch n .right]

/-- The reconstruction on the processor it corresponds to (alsfvm/src/reconstruction/NoReconstruction.cpp:42-64), as a record. -/
def noRecon [Zero V] : Recon V := ⟨.whole, 1, [0], fun _ v => v.headD 0, fun _ v => v.headD 0⟩

/-! ### Reconstructions with a fixed stencil -/

/-- The dimension deduced from the volume (alsfvm/src/reconstruction/ReconstructionCUDA.cu:192-193); `n` includes the ghost cells `G`. -/
def dimension (n G : I3) : Nat := 1 + (if 1 < n.y - 2 * G.y then 1 else 0) + (if 1 < n.z - 2 * G.z then 1 else 0)

/-- The directions in which the kernel leaves out ghost cells (ReconstructionCUDA.cu:51-56, 74-81). -/
def reach (n G : I3) (k : Nat) : I3 :=
  ⟨(k : Int) - 1, if 1 < dimension n G then (k : Int) - 1 else 0, if 2 < dimension n G then (k : Int) - 1 else 0⟩

/-- `reconstructDevice` (ReconstructionCUDA.cu:32-62) and its launch (:74-100), for a reconstruction `r` given by its stencil and its
pointwise functions (MC.hpp, MM.hpp, WENO2.hpp, WENOF2.hpp, see `NetFlux.Recon`). -/
def stencilLaunch (r : Recon V) (n G : I3) (d : Nat) (start stop : I3) : Launch Loc (Val V R) :=
  gridLaunch (n - reach n G r.k - reach n G r.k - start + stop) (reach n G r.k + start) 512 fun _ q =>
    readCells .input (r.offs.map fun o => q + step d o) fun vals =>
    .write (.cell .left q) (.state (r.lf d vals)) (.write (.cell .right q) (.state (r.rf d vals)) .done)

/-- `ReconstructionCUDA::performReconstruction` (ReconstructionCUDA.cu:182-230) for a valid direction. -/
def stencil (r : Recon V) (n G : I3) : CardRecon V R := fun d start stop => [stencilLaunch r n G d start stop]

/-! ### ENO -/

/-- `make_space_filling_vector` (alsutils/include/alsutils/types.hpp:92-95). -/
def spaceFilling (n : I3) : I3 := ⟨if 1 < n.x then 1 else 0, if 1 < n.y then 1 else 0, if 1 < n.z then 1 else 0⟩

/-- Read an element of a scalar array (the second case cannot happen). -/
def readScratch (level : Nat) (c : I3) (k : R → Prog Loc (Val V R)) : Prog Loc (Val V R) :=
  .read (.scratch level c) fun x => match x with | .real w => k w | .state _ => .done

/-- Offset of `computeDividedDifferencesKernel` (alsfvm/src/reconstruction/ENOCUDA.cu:259-264), equal to `start` of the launch (:296-299). -/
def ddStart (k d level : Nat) (n start : I3) : I3 :=
  let f := spaceFilling n
  let e := I3.dir d
  ⟨(level : Int) * e.x + (k : Int) * f.x * (if e.x = 0 then 1 else 0) + start.x,
   (level : Int) * e.y + (k : Int) * f.y * (if e.y = 0 then 1 else 0) + start.y,
   (level : Int) * e.z + (k : Int) * f.z * (if e.z = 0 then 1 else 0) + start.z⟩

/-- `end` of the launch of `computeDividedDifferencesKernel` (ENOCUDA.cu:300-302). -/
def ddEnd (k d level : Nat) (n stop : I3) : I3 :=
  let f := spaceFilling n
  let e := I3.dir d
  ⟨n.x - ((level : Int) - 1) * e.x - ((k : Int) - 1) * (if e.x = 0 then 1 else 0) * f.x + stop.x,
   n.y - ((level : Int) - 1) * e.y - ((k : Int) - 1) * (if e.y = 0 then 1 else 0) * f.y + stop.y,
   n.z - ((level : Int) - 1) * e.z - ((k : Int) - 1) * (if e.z = 0 then 1 else 0) * f.z + stop.z⟩

/-- The first level of divided differences, from the indicator variable of the input (ENOCUDA.cu:150-154 and the kernel :235-273).
`ind` picks the variable. -/
def ddLaunchInput [Sub R] (ind : V → R) (k d : Nat) (n start stop : I3) : Launch Loc (Val V R) :=
  gridLaunch (ddEnd k d 1 n stop - ddStart k d 1 n start) (ddStart k d 1 n start) 1024 fun _ q =>
    readCell .input q fun r => readCell .input (q - I3.dir d) fun l =>
    .write (.scratch 0 (q - I3.dir d)) (.real (ind r - ind l)) .done

/-- Level `i + 1` of the divided differences, from the previous one (ENOCUDA.cu:156-159 and the kernel :235-273). -/
def ddLaunch [Sub R] (k d i : Nat) (n start stop : I3) : Launch Loc (Val V R) :=
  gridLaunch (ddEnd k d (i + 1) n stop - ddStart k d (i + 1) n start) (ddStart k d (i + 1) n start) 1024 fun _ q =>
    readScratch (i - 1) q fun r => readScratch (i - 1) (q - I3.dir d) fun l =>
    .write (.scratch i (q - I3.dir d)) (.real (r - l)) .done

/-- `start` of the main kernel (ENOCUDA.cu:54, 192). -/
def mainStart (k d : Nat) (n start : I3) : I3 :=
  let f := spaceFilling n
  let e := I3.dir d
  ⟨(k : Int) * f.x - e.x + start.x, (k : Int) * f.y - e.y + start.y, (k : Int) * f.z - e.z + start.z⟩

/-- `end` of the main kernel (ENOCUDA.cu:193-194). -/
def mainEnd (k d : Nat) (n stop : I3) : I3 :=
  let f := spaceFilling n
  let e := I3.dir d
  ⟨n.x - ((k : Int) * f.x - e.x) + stop.x, n.y - ((k : Int) * f.y - e.y) + stop.y, n.z - ((k : Int) * f.z - e.z) + stop.z⟩

/-- The stencil selection (ENOCUDA.cu:77-87): run through the levels and hand the shift to the continuation. -/
noncomputable def select (d : Nat) (q : I3) : List Nat → Nat → (Nat → Prog Loc (Val V ℝ)) → Prog Loc (Val V ℝ)
  | [], shift, k => k shift
  | level :: ls, shift, k =>
    readScratch level q fun r => readScratch level (q - I3.dir d) fun l =>
    select d q ls (if |l| < |r| then shift + 1 else shift) k

/-- `performEnoReconstructionKernel` (ENOCUDA.cu:33-112) and its launch (:190-221). The sum over the stencil starts at zero and adds the
values in order (:94-108). -/
noncomputable def enoLaunch {m : Nat} (k d : Nat) (n start stop : I3) : Launch Loc (Val (Eno.Vec m) ℝ) :=
  boxLaunch (mainStart k d n start) (mainEnd k d n stop) 512 fun q =>
    select d q (List.range (k - 1)) 0 fun shift =>
    readCells .input ((List.range k).map fun j => q - step d ((shift : Int) - (j : Nat))) fun vals =>
    let sum (c : List ℝ) : Eno.Vec m := (c.zip vals).foldl (fun s cv => s + cv.1 • cv.2) 0
    .write (.cell .left q) (.state (sum ((Eno.table k).getD shift [])))
      (.write (.cell .right q) (.state (sum ((Eno.table k).getD (shift + 1) []))) .done)

/-- `ENOCUDA<Equation, k>::performReconstruction` (ENOCUDA.cu:129-226) for a valid direction, `k` from 2 to 4. -/
noncomputable def eno {m : Nat} (k : Nat) (ind : Fin m) (n : I3) : CardRecon (Eno.Vec m) ℝ := fun d start stop =>
  ddLaunchInput (fun v => v ind) k d n start stop :: (List.range' 1 (k - 2)).map (fun i => ddLaunch k d i n start stop)
    ++ [enoLaunch k d n start stop]

end Verif.CudaRecon
