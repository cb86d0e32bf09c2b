import Verif.Setup

/-! Choice of the graphics card of a process. -/

namespace Verif.Devices
open Params Setup

/-- What the functions of the CUDA runtime that `setCudaDevice` calls do for a process: the number of cards `cudaGetDeviceCount` gives (`none`: it returns an error), whether `cudaDeviceReset` and
`cudaThreadExit` succeed, and for which cards `cudaSetDevice` does. The current card is 0 before the first call of `cudaSetDevice` and after a reset. -/
structure Runtime where
  count : Option Int
  reset : Bool
  threadExit : Bool
  settable : Int → Bool

/-- `std::atoi`: white space, a sign and digits; 0 without digits, undefined behaviour for numbers that are not in the range of `int`. -/
def atoi (s : Str) : Res Int :=
  let s := s.dropWhile isSpace
  let negative : Bool := s.head? == some '-'
  let s := if s.head? == some '-' || s.head? == some '+' then s.drop 1 else s
  let n : Int := Nat.ofDigitChars 10 (s.takeWhile Char.isDigit) 0
  let n := if negative then -n else n
  if -2147483648 ≤ n ∧ n ≤ 2147483647 then .ok n else .error .ub

/-- `CUDA_SAFE_CALL_SILENT` (alsutils/include/alsutils/cuda/cuda_safe_call.hpp:30-36): throws unless the call succeeds. -/
def safeCall (ok : Bool) : Res Unit := if ok then .ok () else .error .thrown

/-- What is left behind: the current card of the process and whether a warning was logged. -/
structure Chosen where
  device : Int
  warned : Bool
deriving DecidableEq, Repr

/-- The body of `try` (alsutils/include/alsutils/mpi/set_cuda_device.hpp:37-76). The call of `cudaGetDevice` succeeds and gives the card set before, so the warning of lines 72-75 does not occur. -/
def choose (cuda : Runtime) (localRank : Option Str) : Res Int := do
  let deviceCount ← match cuda.count with
    | some n => .ok n
    | none => .error .thrown
  if deviceCount > 1 then
    match localRank with
    | none => .ok 0
    | some rankAsString =>
      let mpiRank ← atoi rankAsString
      safeCall cuda.reset
      safeCall cuda.threadExit
      let device := mpiRank.tmod deviceCount
      safeCall (0 ≤ device && device < deviceCount && cuda.settable device)
      .ok device
  else .ok 0

/-- `setCudaDevice` (set_cuda_device.hpp:34-82), called by `main` of alsvinncli (alsvinncli/src/main.cpp:125, if built with MPI), of alsuqcli (alsuqcli/src/main.cpp:110) and of structure_standalone
(library_examples/alsuq/structure_standalone/src/main.cpp:349) before `MPI_Init`. `localRank` is the value of the environment variable `OMPI_COMM_WORLD_LOCAL_RANK`. An exception is caught and
logged as a warning. -/
def setCudaDevice (cuda : Runtime) (localRank : Option Str) : Res Chosen :=
  match choose cuda localRank with
  | .ok d => .ok ⟨d, false⟩
  | .error .thrown => .ok ⟨0, true⟩
  | .error .ub => .error .ub

end Verif.Devices
