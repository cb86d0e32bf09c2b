import Verif.CudaCells
import Verif.CellComputer

/-!
Model of the cell computer on the graphics card: alsfvm/src/equation/CUDACellComputer.cu. Volumes on the card are lists of allocations, one per
variable.
-/

namespace Verif.CudaCellComputer
open Gpu CudaMemory CellComputer

/-- `fetchConservedVariables(views, index)` (for instance alsfvm/include/alsfvm/equation/euler/Euler.hpp:101-106): read the variables of one
element, one after the other. -/
def fetch {K : Type} : List Nat → Int → (List K → Prog (Nat × Int) K) → Prog (Nat × Int) K
  | [], _, k => k []
  | b :: bs, i, k => .read (b, i) fun v => fetch bs i fun vs => k (v :: vs)

/-- `setExtraViewAt(views, index, values)` (for instance Euler.hpp:181-191): write the variables of one element. -/
def store {K : Type} : List Nat → Int → List K → Prog (Nat × Int) K
  | b :: bs, i, v :: vs => .write (b, i) v (store bs i vs)
  | _, _, _ => .done

/-- `computeExtraVariablesDevice` (CUDACellComputer.cu:31-48). -/
def extraKernel (eq : Equation) (input out : List Nat) (size i : Nat) : Prog (Nat × Int) Fl :=
  if size ≤ i then .done else fetch input i fun cell => store out i (eq.extra cell)

/-- `computeExtraVariables` (CUDACellComputer.cu:143-153); `size` is the number of cells, ghost cells included. -/
def computeExtraVariables (eq : Equation) (input out : List Nat) (size : Nat) : Launch (Nat × Int) Fl := launch size (extraKernel eq input out size)

/-- `computeWaveSpeedDevice` (CUDACellComputer.cu:55-70). -/
def speedKernel (eq : Equation) (direction : Nat) (input : List Nat) (out size i : Nat) : Prog (Nat × Int) Fl :=
  if size ≤ i then .done else fetch input i fun cell => .write (out, i) (eq.speed direction cell (eq.extra cell)) .done

/-- `computeMaxWaveSpeed` up to the reduction (CUDACellComputer.cu:77-89, 157-183); `out` is the device vector, whose size is that of the volume. -/
def computeMaxWaveSpeed (eq : Equation) (direction : Nat) (input : List Nat) (out size : Nat) : Res (Launch (Nat × Int) Fl) :=
  if direction < 3 then .ok (launch size (speedKernel eq direction input out size)) else .error .thrown

/-- The elements of the device vector. -/
def elements {K : Type} (h : Heap K) (out size : Nat) : List K := (List.range size).map fun i : Nat => h.val (out, (i : Int))

/-- `thrust::reduce(begin, end, 0.0, thrust::maximum<real>())` (CUDACellComputer.cu:91-92): the value `r` is the reduction, in whatever order. -/
def maxReduce (h : Heap Fl) (out size : Nat) (r : Fl) : Prop := reducesTo Fl.max (.fin 0 :: elements h out size) r

/-- `checkObeysConstraintsDevice` (CUDACellComputer.cu:100-114). The flags are `size_t`; here they are the numbers 0 and 1. -/
def constraintKernel (eq : Equation) (input : List Nat) (out size i : Nat) : Prog (Nat × Int) Fl :=
  if size ≤ i then .done else fetch input i fun cell => .write (out, i) (if eq.constraint cell (eq.extra cell) then .fin 1 else .fin 0) .done

/-- `obeysConstraints` up to the reduction (CUDACellComputer.cu:120-133, 193-200). -/
def obeysConstraints (eq : Equation) (input : List Nat) (out size : Nat) : Launch (Nat × Int) Fl := launch size (constraintKernel eq input out size)

/-- The flags are reduced with `thrust::maximum<size_t>` and the result converted to `bool` (CUDACellComputer.cu:135-136). -/
def verdict (h : Heap Fl) (out size : Nat) (b : Bool) : Prop := ∃ r, maxReduce h out size r ∧ (b = true ↔ r ≠ .fin 0)

/-- All areas of a volume on the card are allocations with `size` elements. -/
def AllocatedAll {K : Type} (h : Heap K) (bufs : List Nat) (size : Nat) : Prop := ∀ b ∈ bufs, ∀ i : Int, h.inb (b, i) = decide (0 ≤ i ∧ i < (size : Int))

/-- The volume copied to the host. -/
def hostAreas {K : Type} (h : Heap K) (bufs : List Nat) (size : Nat) : List (Arr Nat K) := bufs.map fun b => flat size fun i => h.val (b, (i : Int))

/-! ### Helper lemmas -/

theorem AllocatedAll.inb {K : Type} {h : Heap K} {bufs : List Nat} {size : Nat} (ha : AllocatedAll h bufs size) {b : Nat} (hb : b ∈ bufs) {i : Nat}
    (hi : i < size) : h.inb (b, (i : Int)) = true := by
  rw [ha b hb]
  exact decide_eq_true ⟨Int.natCast_nonneg _, Int.ofNat_lt.2 hi⟩

theorem fetch_fits {K : Type} {n : Nat} {touch : Nat → Nat × Int → Prop} {m : Heap K} {F : Nat × Int → K} {i : Nat} {x : Int} {S : Nat × Int → Prop}
    (bufs : List Nat) : ∀ {k : List K → Prog (Nat × Int) K}, (∀ b ∈ bufs, m.inb (b, x) = true ∧ ¬ S (b, x) ∧ ∀ j < n, touch j (b, x) → j = i) →
    Fits n touch m F i S (k (bufs.map fun b => m.val (b, x))) → Fits n touch m F i S (fetch bufs x k) := by
  induction bufs with
  | nil => intro k _ hk; exact hk
  | cons b bs ih =>
    intro k hb hk
    obtain ⟨h1, h2, h3⟩ := hb b (by simp)
    exact .readOld h1 h2 h3 (ih (fun c hc => hb c (by simp [hc])) hk)

theorem store_fits {K : Type} {n : Nat} {touch : Nat → Nat × Int → Prop} {m : Heap K} {F : Nat × Int → K} {i : Nat} {x : Int}
    (bufs : List Nat) : ∀ {vs : List K} {S : Nat × Int → Prop}, vs.length = bufs.length →
    (∀ b ∈ bufs, m.inb (b, x) = true ∧ touch i (b, x)) → (∀ bv ∈ bufs.zip vs, bv.2 = F (bv.1, x)) →
    (∀ l, touch i l → S l ∨ (l.1 ∈ bufs ∧ l.2 = x)) → Fits n touch m F i S (store bufs x vs) := by
  induction bufs with
  | nil =>
    intro vs S _ _ _ hS
    unfold store
    exact .done fun l hl => by simpa using hS l hl
  | cons b bs ih =>
    intro vs S hlen hb hv hS
    cases vs with
    | nil => simp at hlen
    | cons v vs =>
      unfold store
      refine .write (hb b (by simp)).1 (hb b (by simp)).2 (hv (b, v) (by simp)) (ih (by simpa using hlen) (fun c hc => hb c (by simp [hc]))
        (fun bv h => hv bv (by simp [h])) ?_)
      intro l hl
      rcases hS l hl with h | ⟨h1, h2⟩
      · exact Or.inl (Or.inl h)
      · rcases List.mem_cons.1 h1 with h1 | h1
        · exact Or.inl (Or.inr (Prod.ext h1 h2))
        · exact Or.inr ⟨h1, h2⟩

/-- A launch where thread `i` fetches the variables with index `i` and writes one element of `out`. -/
theorem fetch_elementwise {K : Type} {h : Heap K} {input : List Nat} {out size : Nat} (f : List K → K) (hin : AllocatedAll h input size)
    (hout : AllocatedAll h [out] size) :
    ∃ h', yields (launch size fun i => if size ≤ i then .done else fetch input i fun cell => .write (out, i) (f cell) .done) h h' ∧
      (∀ i : Nat, i < size → h'.val (out, (i : Int)) = f (input.map fun b => h.val (b, (i : Int)))) ∧ ∀ l, l.1 ≠ out → h'.val l = h.val l := by
  obtain ⟨h', k1, _, k3, k4⟩ := elementwise (h := h) (out := out) (size := size)
    (kernel := fun i => if size ≤ i then .done else fetch input i fun cell => .write (out, i) (f cell) .done)
    (fun i => f (input.map fun b => h.val (b, i))) (fun i hi => if_pos hi) (by
      intro T i hi
      rw [if_neg (by omega)]
      refine fetch_fits input (fun b hb => ⟨hin.inb hb hi, id, own⟩) ?_
      exact .write (hout.inb (by simp) hi) ⟨hi, rfl⟩ rfl (.done fun l hl => Or.inr hl.2))
  exact ⟨h', k1, k3, fun l hl => k4 l fun hc => hl hc.1⟩

/-- A launch where thread `i` fetches the variables with index `i` and stores variables with index `i`. -/
theorem fetch_store {K : Type} [Inhabited K] {h : Heap K} {input out : List Nat} {size : Nat} (f : List K → List K) (hin : AllocatedAll h input size)
    (hout : AllocatedAll h out size) (hnd : out.Nodup) (hf : ∀ cell : List K, cell.length = input.length → (f cell).length = out.length) :
    ∃ h', yields (launch size fun i => if size ≤ i then .done else fetch input i fun cell => store out i (f cell)) h h' ∧
      (∀ i : Nat, i < size → (out.map fun b => h'.val (b, (i : Int))) = f (input.map fun b => h.val (b, (i : Int)))) ∧
      ∀ l, l.1 ∉ out → h'.val l = h.val l := by
  let F (l : Nat × Int) : K := (f (input.map fun b => h.val (b, l.2))).getD (out.idxOf l.1) default
  have hlen : ∀ i : Int, (f (input.map fun b => h.val (b, i))).length = out.length := fun i => hf _ (by simp)
  have hzip : ∀ i : Int, ∀ bv ∈ out.zip (f (input.map fun b => h.val (b, i))), bv.2 = F (bv.1, i) := by
    intro i bv hbv
    obtain ⟨j, hj, he⟩ := List.getElem_of_mem hbv
    have hj1 : j < out.length := by simp only [List.length_zip] at hj; omega
    have hj2 : j < (f (input.map fun b => h.val (b, i))).length := by rw [hlen]; exact hj1
    have e : bv = (out[j], (f (input.map fun b => h.val (b, i)))[j]) := by rw [← he, List.getElem_zip]
    subst e
    simp only [F]
    rw [hnd.idxOf_getElem]
    simp [List.getD, List.getElem?_eq_getElem hj2]
  refine ⟨{ h with val := fun l => if l.1 ∈ out ∧ 0 ≤ l.2 ∧ l.2 < (size : Int) then F l else h.val l }, ?_, ?_, ?_⟩
  · refine yields_of_fits (touch := fun j l => j < size ∧ l.1 ∈ out ∧ l.2 = (j : Int)) (F := F) ?_ rfl ?_ ?_
    · intro i _
      simp only [launch]
      by_cases hi : i < size
      · rw [if_neg (by omega)]
        refine fetch_fits input (fun b hb => ⟨hin.inb hb hi, id, ?_⟩) ?_
        · rintro j _ ⟨_, _, he⟩
          simp only at he; omega
        · exact store_fits out (hlen _) (fun b hb => ⟨hout.inb hb hi, hi, hb, rfl⟩) (hzip _) (fun l hl => Or.inr hl.2)
      · rw [if_pos (by omega)]
        exact .done fun l hl => absurd hl.1 hi
    · rintro i _ l ⟨hi, h1, h2⟩
      exact if_pos ⟨h1, by omega, by omega⟩
    · intro l hl
      refine if_neg ?_
      rintro ⟨h1, h2, h3⟩
      refine hl l.2.toNat ?_ ⟨by omega, h1, by omega⟩
      exact lt_of_lt_of_le (show l.2.toNat < size by omega) (threadCount_ge (by norm_num))
  · intro i hi
    refine List.ext_getElem (by simp [hlen]) ?_
    intro j hj1 hj2
    have hj : j < out.length := by simpa using hj1
    simp only [List.getElem_map]
    rw [if_pos ⟨List.getElem_mem _, Int.natCast_nonneg _, Int.ofNat_lt.2 hi⟩]
    simp only [F]
    rw [hnd.idxOf_getElem]
    simp [List.getD, List.getElem?_eq_getElem hj2]
  · intro l hl
    exact if_neg fun hc => hl hc.1

end Verif.CudaCellComputer
