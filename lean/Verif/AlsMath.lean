import Verif.Basic
import Mathlib.Algebra.Field.Basic
import Mathlib.Data.Real.Sqrt
import Mathlib.Algebra.BigOperators.Fin

/-!
Model of the Legendre polynomials, vectors and matrices of alsutils (alsutils/include/alsutils/math/legendre.hpp, vec1.hpp … vec6.hpp, mat.hpp).
-/

namespace Verif
namespace AlsMath

/-- `legendre<n>` (alsutils/include/alsutils/math/legendre.hpp:38-68). `real(1.0 / n)` is the exact inverse. -/
def legendre {K : Type} [Field K] : Nat → K → K
  | 0, _ => 1
  | 1, x => x
  | n + 2, x => 1 / ((n + 2 : Nat) : K) * (x * legendre (n + 1) x - ((n + 2 : Nat) - 1 : K) * legendre n x)

/-- `legendre_p` (legendre.hpp:78-121): degrees 0 to 11, everything else fails an assertion. -/
def legendreP {K : Type} [Field K] (degree : Int) (x : K) : Res K := if 0 ≤ degree ∧ degree ≤ 11 then .ok (legendre degree.toNat x) else .error .thrown

/-! ### Vectors -/

/-- A `vecN`: its components in the order of declaration (vec1.hpp:25, vec2.hpp:25-26, vec3.hpp:26-28, vec4.hpp:26-29, vec5.hpp:26-30, vec6.hpp:25-30). -/
abbrev Vec (n : Nat) (T : Type) := Fin n → T

/-- The constructor with one argument per component (vec1.hpp:31-34, vec2.hpp:38-41, vec3.hpp:39-42, vec4.hpp:35-38, vec5.hpp:41-44, vec6.hpp:36-39). The one of `vec6` sets its
last component to zero. -/
def construct {n : Nat} {T : Type} [Zero T] (f : Vec n T) : Vec n T := fun i => if n = 6 ∧ i.val = 5 then 0 else f i

/-- The default constructor (vec1.hpp:27-30, …, vec6.hpp:32-35). -/
def zeroVec {n : Nat} {T : Type} [Zero T] : Vec n T := fun _ => 0

/-- `convert` (vec1.hpp:69-71, vec2.hpp:78-80, vec3.hpp:79-81, vec4.hpp:82-84, vec5.hpp:85-87, vec6.hpp:58-60). -/
def convert {n : Nat} {S T : Type} [Zero T] (f : S → T) (a : Vec n S) : Vec n T := construct fun i => f (a i)

/-- `operator-` (vec1.hpp:140-143, vec2.hpp:146-149, vec3.hpp:161-164, vec4.hpp:154-157, vec5.hpp:158-161, vec6.hpp:123-127). -/
def sub {n : Nat} {T : Type} [Zero T] [Sub T] (a b : Vec n T) : Vec n T := construct fun i => a i - b i

/-- `operator/` of two vectors (vec1.hpp:121-124, vec2.hpp:127-130, vec3.hpp:132-135, vec4.hpp:135-138, vec5.hpp:138-141, vec6.hpp:102-106). -/
def div {n : Nat} {T : Type} [Zero T] [Div T] (a b : Vec n T) : Vec n T := construct fun i => a i / b i

/-- `operator*` with a number (vec1.hpp:131-133, vec2.hpp:137-139, vec3.hpp:142-144, vec4.hpp:145-147, vec5.hpp:148-151, vec6.hpp:113-116). -/
def smul {n : Nat} {T : Type} [Zero T] [Mul T] (s : T) (a : Vec n T) : Vec n T := construct fun i => a i * s

/-- `operator/` with a number (vec1.hpp:150-152, vec2.hpp:156-158, vec3.hpp:171-173, vec4.hpp:164-166, vec5.hpp:168-171, vec6.hpp:134-137). -/
def divScalar {n : Nat} {T : Type} [Zero T] [Div T] (a : Vec n T) (s : T) : Vec n T := construct fun i => a i / s

/-- `operator+` (vec1.hpp:159-162, vec2.hpp:165-168, vec3.hpp:180-183, vec5.hpp:178-181). That of `vec4` and `vec6` (vec4.hpp:173-176, vec6.hpp:144-147) does not compile
(`b.z.a.v`) and is used nowhere: no result. -/
def add {n : Nat} {T : Type} [Zero T] [Add T] (a b : Vec n T) : Option (Vec n T) := if n = 4 ∨ n = 6 then none else some (construct fun i => a i + b i)

/-- `operator+=` (vec1.hpp:108-112, vec2.hpp:113-118, vec3.hpp:114-120, vec4.hpp:117-124, vec5.hpp:120-127); `vec6` has none. -/
def addAssign {n : Nat} {T : Type} [Add T] (a b : Vec n T) : Option (Vec n T) := if n = 6 then none else some fun i => a i + b i

/-- `dot` (vec1.hpp:92-94, vec2.hpp:101-103, vec3.hpp:102-104, vec4.hpp:105-107, vec5.hpp:108-110, vec6.hpp:81-84); the sum starts from zero instead of the first product. -/
def dot {n : Nat} {T : Type} [Zero T] [Add T] [Mul T] (a b : Vec n T) : T := (List.finRange n).foldl (fun s i => s + a i * b i) 0

/-! ### Matrices -/

/-- `matrix<T, NumberOfRows, NumberOfColumns>` (mat.hpp:22-26, 153-155): `data[column][row]`. -/
abbrev Mat (rows cols : Nat) (T : Type) := Fin cols → Fin rows → T

variable {rows cols n : Nat} {T : Type}

/-- `operator()` (mat.hpp:38-42). -/
def at' (m : Mat rows cols T) (row : Fin rows) (column : Fin cols) : T := m column row

/-- Assignment through `operator()` (mat.hpp:45-49). -/
def set (m : Mat rows cols T) (row : Fin rows) (column : Fin cols) (x : T) : Mat rows cols T := Function.update m column (Function.update (m column) row x)

/-- Constructor (mat.hpp:28-35). -/
def zeroMat [Zero T] : Mat rows cols T := fun _ _ => 0

/-- Matrix times vector (mat.hpp:54-70); the vector starts at zero (its default constructor). -/
def mulVec [Zero T] [Add T] [Mul T] (m : Mat n n T) (v : Vec n T) : Vec n T :=
  (List.finRange n).foldl (fun p column => (List.finRange n).foldl (fun p row => Function.update p row (p row + at' m row column * v column)) p) zeroVec

/-- Matrix times matrix (mat.hpp:73-88). -/
def mul [Zero T] [Add T] [Mul T] (a b : Mat n n T) : Mat n n T :=
  (List.finRange n).foldl (fun p row => (List.finRange n).foldl (fun p column =>
    (List.finRange n).foldl (fun p i => set p row column (at' p row column + at' a row i * at' b i column)) p) p) zeroMat

/-- `transposed` (mat.hpp:90-101). -/
def transposed [Zero T] (m : Mat rows cols T) : Mat cols rows T :=
  (List.finRange cols).foldl (fun t column => (List.finRange rows).foldl (fun t row => set t column row (at' m row column)) t) zeroMat

/-- `identity` (mat.hpp:124-134). -/
def identity [Zero T] [One T] : Mat n n T := (List.finRange n).foldl (fun m i => set m i i 1) zeroMat

/-- `normalized` (mat.hpp:103-122) of a square matrix (others do not compile). The single precision square root is modelled as exact. -/
noncomputable def normalizedMat (m : Mat n n ℝ) : Mat n n ℝ :=
  (List.finRange n).foldl (fun out column =>
    (List.finRange n).foldl (fun out row => set out row column (at' m row column / Real.sqrt ((List.finRange n).foldl (fun s row => s + at' m row column * at' m row column) 0))) out)
    zeroMat

/-! ### Loops -/

/-- A loop that adds to one quantity. -/
theorem foldl_adds {σ ι T : Type} [AddMonoid T] (get : σ → T) (step : σ → ι → σ) (h : ι → T) (hstep : ∀ s i, get (step s i) = get s + h i) (l : List ι) (s : σ) :
    get (l.foldl step s) = get s + (l.map h).sum := by
  induction l generalizing s with
  | nil => simp
  | cons i l ih => simp [ih, hstep, add_assoc]

/-- A loop that assigns to one quantity when it reaches `j`. -/
theorem foldl_assigns {σ ι T : Type} [DecidableEq ι] (get : σ → T) (step : σ → ι → σ) (j : ι) (v : T) (hstep : ∀ s i, get (step s i) = if i = j then v else get s) (l : List ι) (s : σ) :
    get (l.foldl step s) = if j ∈ l then v else get s := by
  induction l generalizing s with
  | nil => simp
  | cons i l ih =>
    rw [List.foldl_cons, ih, hstep]
    by_cases h1 : j ∈ l
    · simp [h1]
    · by_cases h2 : i = j
      · simp [h2]
      · have h3 : ¬ j = i := fun e => h2 e.symm
        simp [h1, h2, h3]

theorem at_set (m : Mat rows cols T) (row r : Fin rows) (column c : Fin cols) (x : T) : at' (set m row column x) r c = if row = r ∧ column = c then x else at' m r c := by
  simp only [at', set, Function.update_apply]
  by_cases hc : c = column
  · subst hc
    by_cases hr : r = row
    · subst hr; simp
    · have : ¬ row = r := fun e => hr e.symm
      simp [hr, this]
  · have : ¬ column = c := fun e => hc e.symm
    simp [hc, this]

theorem sum_finRange [AddCommMonoid T] (f : Fin n → T) : ((List.finRange n).map f).sum = ∑ i, f i := by
  rw [← List.ofFn_eq_map, List.sum_ofFn]

end AlsMath
end Verif
