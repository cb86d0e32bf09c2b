import Verif.EnoLemmas
import Verif.Limiter
import Verif.Euler

/-!
Model of the WENO reconstruction (alsfvm/src/reconstruction/WENOCPU.cpp), the specialised second order version (WENO2.hpp) and the positivity limited
version for the Euler equations (WENOF2.hpp): what is computed in one cell from the values along the line through it, and the records that put these
functions into the loops of `Verif.NetFlux`.
-/

namespace Verif
namespace Weno
open Verif NetFlux Eno
variable {m : Nat}

/-- `ALSFVM_WENO_EPSILON` (alsfvm/include/alsfvm/reconstruction/WENOCoefficients.hpp:21); order 3 has the same value (WENOCoefficients.cpp:24-25). -/
noncomputable def eps : ℝ := 1e-8

/-- `WENOCoefficients<k>::coefficients` (alsfvm/src/reconstruction/WENOCoefficients.cpp:28-37). -/
noncomputable def coef : (k : Nat) → Fin k → ℝ
  | 2 => ![2 / 3, 1 / 3]
  | 3 => ![3 / 10, 3 / 5, 1 / 10]
  | _ => fun _ => 0

/-- `computeBeta<i>` (WENOCoefficients.hpp:37-68); the stencil entry `V[j]` of the code is the value at offset `j - (k - 1)`. -/
noncomputable def beta : (k : Nat) → Fin k → (Int → ℝ) → ℝ
  | 2, i, f => ![(f 1 - f 0) * (f 1 - f 0), (f 0 - f (-1)) * (f 0 - f (-1))] i
  | 3, i, f => ![13 / 12 * (f 0 - 2 * f 1 + f 2) ^ 2 + 1 / 4 * (3 * f 0 - 4 * f 1 + f 2) ^ 2,
      13 / 12 * (f (-1) - 2 * f 0 + f 1) ^ 2 + 1 / 4 * (f (-1) - f 1) ^ 2,
      13 / 12 * (f (-2) - 2 * f (-1) + f 0) ^ 2 + 1 / 4 * (f (-2) - 4 * f (-1) + 3 * f 0) ^ 2] i
  | _, _, _ => 0

/-- `right[i]` of `computeAlpha` (WENOCPU.cpp:51-52). -/
noncomputable def alphaRight (k : Nat) (f : Int → ℝ) (i : Fin k) : ℝ := coef k i / (beta k i f + eps) ^ 2
/-- `left[i]` of `computeAlpha` (WENOCPU.cpp:55-56): the coefficients in reverse order. -/
noncomputable def alphaLeft (k : Nat) (f : Int → ℝ) (i : Fin k) : ℝ := coef k i.rev / (beta k i f + eps) ^ 2

/-- Face values of all variables (WENOCPU.cpp:160-191); the sums of `alpha` are accumulated in `computeAlpha` (WENOCPU.cpp:53-57). -/
noncomputable def wenoLeft (k : Nat) (ind : Fin m) (f : Int → Vec m) : Vec m :=
  ∑ s : Fin k, (alphaLeft k (fun o => f o ind) s / ∑ i, alphaLeft k (fun o => f o ind) i) • value k s s f
/-- see `wenoLeft` -/
noncomputable def wenoRight (k : Nat) (ind : Fin m) (f : Int → Vec m) : Vec m :=
  ∑ s : Fin k, (alphaRight k (fun o => f o ind) s / ∑ i, alphaRight k (fun o => f o ind) i) • value k (s + 1) s f

/-- The weights `(w0Left, w1Left)` of alsfvm/include/alsfvm/reconstruction/WENO2.hpp:40-49 and WENOF2.hpp:44-52 from the three weight values. -/
noncomputable def w2Left (l c r : ℝ) : ℝ × ℝ :=
  let b0 := (r - c) * (r - c)
  let b1 := (c - l) * (c - l)
  let a0 := 1 / (3 * (eps + b0) * (eps + b0))
  let a1 := 2 / (3 * (eps + b1) * (eps + b1))
  (a0 / (a0 + a1), a1 / (a0 + a1))
/-- The weights `(w0Right, w1Right)` (WENO2.hpp:51-56, WENOF2.hpp:54-59). -/
noncomputable def w2Right (l c r : ℝ) : ℝ × ℝ :=
  let b0 := (r - c) * (r - c)
  let b1 := (c - l) * (c - l)
  let a0 := 2 / (3 * (eps + b0) * (eps + b0))
  let a1 := 1 / (3 * (eps + b1) * (eps + b1))
  (a0 / (a0 + a1), a1 / (a0 + a1))

/-- WENO2.hpp:62-65, left face values; `getWeight` is the variable `ind` (the density, or the only variable). -/
noncomputable def weno2Left (ind : Fin m) (f : Int → Vec m) : Vec m := fun i =>
  let w := w2Left (f (-1) ind) (f 0 ind) (f 1 ind)
  0.5 * (w.2 * f (-1) i + (3 * w.1 + w.2) * f 0 i - w.1 * f 1 i)
/-- WENO2.hpp:67-69, right face values. -/
noncomputable def weno2Right (ind : Fin m) (f : Int → Vec m) : Vec m := fun i =>
  let w := w2Right (f (-1) ind) (f 0 ind) (f 1 ind)
  0.5 * (w.1 * f 1 i + (3 * w.2 + w.1) * f 0 i - w.2 * f (-1) i)

section WENOF2
open Euler
variable {n : Nat}

/-- The limited slope (WENOF2.hpp:70-76, 94-100): weighted slopes of the primitive variables, density and pressure slopes cut off at `BOUND`. -/
noncomputable def slopeF (w : ℝ × ℝ) (l c r : Prim n) : Prim n where
  rho := max (-1.9 * c.rho) (min (1.9 * c.rho) (w.2 * (c.rho - l.rho) + w.1 * (r.rho - c.rho)))
  u := fun i => w.2 * (c.u i - l.u i) + w.1 * (r.u i - c.u i)
  p := max (-1.9 * c.p) (min (1.9 * c.p) (w.2 * (c.p - l.p) + w.1 * (r.p - c.p)))

/-- The scaling factor `aijk` (WENOF2.hpp:78-84, 102-106). -/
noncomputable def scaleF (γ : ℝ) (c d : Prim n) : ℝ :=
  let L := 0.125 * c.rho * dot d.u d.u - 0.5 * min 0 (d.rho * dot c.u d.u) + 0.5 * d.rho * d.rho * dot d.u d.u / c.rho
  let R := c.p / (γ - 1)
  0.5 * Real.sqrt (R / max R L)

/-- Face states of WENOF2 (WENOF2.hpp:61-111) from the conserved states of the cell and its neighbours; the weights come from the densities
(`getWeight`, alsfvm/include/alsfvm/equation/euler/Euler.hpp:286-288). -/
noncomputable def wenoF2 (γ : ℝ) (l c r : Cons n) : Cons n × Cons n :=
  let wl := w2Left l.rho c.rho r.rho
  let wr := w2Right l.rho c.rho r.rho
  let P := toPrim γ c
  let dl := slopeF wl (toPrim γ l) P (toPrim γ r)
  let dr := slopeF wr (toPrim γ l) P (toPrim γ r)
  let al := scaleF γ P dl
  let ar := scaleF γ P dr
  (toCons γ ⟨P.rho - al * dl.rho, fun i => P.u i - al * dl.u i, P.p - al * dl.p⟩,
   toCons γ ⟨P.rho + ar * dr.rho, fun i => P.u i + ar * dr.u i, P.p + ar * dr.p⟩)

end WENOF2

/-! ### The loops -/

/-- The values along a line read from the list of values at the offsets `-w, …, w`. -/
def ofList {V : Type} [Zero V] (w : Nat) (vals : List V) : Int → V := fun o => vals.getD (o + w).toNat 0

/-- A reconstruction record for `Verif.NetFlux` given by two functions of the values along the line that use the offsets `-(k-1), …, k-1` only. -/
def lineRecon {V : Type} [Zero V] (kind : ReconKind) (k w : Nat) (lf rf : (Int → V) → V) : Recon V where
  kind := kind
  k := k
  offs := irange (-w) (w + 1)
  lf _ vals := lf (ofList w vals)
  rf _ vals := rf (ofList w vals)

/-- `WENOCPU<k>` with its loop (WENOCPU.cpp:71-196). -/
noncomputable def wenoRecon (k : Nat) (ind : Fin m) : Recon (Vec m) := lineRecon .stencilFits k (k - 1) (wenoLeft k ind) (wenoRight k ind)
/-- `ReconstructionCPU<WENO2>` with its loop (ReconstructionCPU.cpp:37-97; two ghost cells WENO2.hpp:93-95). -/
noncomputable def weno2Recon (ind : Fin m) : Recon (Vec m) := lineRecon .region 2 1 (weno2Left ind) (weno2Right ind)
/-- `ReconstructionCPU<MM>` (MM.hpp:27-53). -/
noncomputable def mmRecon : Recon (Vec m) :=
  lineRecon .region 2 1 (fun f i => (Limiter.mm (f (-1) i) (f 0 i) (f 1 i)).1) (fun f i => (Limiter.mm (f (-1) i) (f 0 i) (f 1 i)).2)
/-- `ReconstructionCPU<MC>` (MC.hpp:28-55). -/
noncomputable def mcRecon : Recon (Vec m) :=
  lineRecon .region 2 1 (fun f i => (Limiter.mc (f (-1) i) (f 0 i) (f 1 i)).1) (fun f i => (Limiter.mc (f (-1) i) (f 0 i) (f 1 i)).2)
/-- `ReconstructionCPU<WENOF2>` (WENOF2.hpp:34-117). -/
noncomputable def wenoF2Recon {n : Nat} (γ : ℝ) : Recon (Euler.Cons n) :=
  lineRecon .region 2 1 (fun f => (wenoF2 γ (f (-1)) (f 0) (f 1)).1) (fun f => (wenoF2 γ (f (-1)) (f 0) (f 1)).2)
/-- `ENOCPU<k>` seen from outside (its inner working is `Eno.perform`; `Props.C26_refines_record` connects the two). -/
noncomputable def enoRecon (k : Nat) (ind : Fin m) : Recon (Vec m) :=
  lineRecon .region k (k - 1) (fun f => value k (shiftOf k fun o => f o ind) (shiftOf k fun o => f o ind) f)
    (fun f => value k ((shiftOf k fun o => f o ind) + 1) (shiftOf k fun o => f o ind) f)

/-! ### Lemmas -/

/-- A function of the line only uses the offsets `-w, …, w`. -/
def Local {V W : Type} (w : Nat) (F : (Int → V) → W) : Prop := ∀ f g : Int → V, (∀ o : Int, -w ≤ o → o ≤ w → f o = g o) → F f = F g

theorem ofList_line {V : Type} [Zero V] (w d : Nat) (u : I3 → V) (q : I3) (o : Int) (h1 : -w ≤ o) (h2 : o ≤ w) :
    ofList w ((irange (-w) (w + 1)).map fun o => u (q + step d o)) o = line d u q o := by
  have h : (o + w).toNat < ((w : Int) + 1 - -w).toNat := by omega
  have e : -(w : Int) + ((o + w).toNat : Int) = o := by omega
  rw [irange, List.map_map, ofList, List.getD_eq_getElem?_getD, List.getElem?_map, List.getElem?_range h]
  simp only [Option.map_some, Option.getD_some, Function.comp, line, e]

theorem lineRecon_lval {V : Type} [Zero V] {kind : ReconKind} {k w : Nat} {lf rf : (Int → V) → V} (hl : Local w lf) (u : I3 → V) (d : Nat) (q : I3) :
    (lineRecon kind k w lf rf).lval u d q = lf (line d u q) :=
  hl _ _ fun o h1 h2 => ofList_line w d u q o h1 h2

theorem lineRecon_rval {V : Type} [Zero V] {kind : ReconKind} {k w : Nat} {lf rf : (Int → V) → V} (hl : Local w rf) (u : I3 → V) (d : Nat) (q : I3) :
    (lineRecon kind k w lf rf).rval u d q = rf (line d u q) :=
  hl _ _ fun o h1 h2 => ofList_line w d u q o h1 h2

theorem value_local {k r s w : Nat} (h1 : 1 ≤ k) (h4 : k ≤ 4) (hr : r ≤ k) (hs : s ≤ k - 1) (hw : k - 1 ≤ w) : Local w (value (m := m) k r s) := by
  intro f g h
  funext i
  rw [value_apply, value_apply]
  congr 1
  refine List.map_congr_left fun cj hcj => ?_
  have hj : cj.2 < k := by
    have := List.mem_zipIdx (x := cj.1) (i := cj.2) hcj
    rw [row_length h1 h4 hr] at this
    omega
  rw [h _ (by omega) (by omega)]

theorem beta_local {k : Nat} (h2 : 2 ≤ k) (h3 : k ≤ 3) (i : Fin k) : Local (k - 1) (beta k i) := by
  intro f g h
  interval_cases k
  · have a := h (-1) (by norm_num) (by norm_num); have b := h 0 (by norm_num) (by norm_num); have c := h 1 (by norm_num) (by norm_num)
    simp only [beta, a, b, c]
  · have a := h (-1) (by norm_num) (by norm_num); have b := h 0 (by norm_num) (by norm_num); have c := h 1 (by norm_num) (by norm_num)
    have d := h (-2) (by norm_num) (by norm_num); have e := h 2 (by norm_num) (by norm_num)
    simp only [beta, a, b, c, d, e]

theorem wenoLeft_local {k : Nat} (h2 : 2 ≤ k) (h3 : k ≤ 3) (ind : Fin m) : Local (k - 1) (wenoLeft k ind) := by
  intro f g h
  have hb : ∀ i, beta k i (fun o => f o ind) = beta k i (fun o => g o ind) :=
    fun i => beta_local h2 h3 i _ _ fun o o1 o2 => congrFun (h o o1 o2) ind
  have ha : ∀ i, alphaLeft k (fun o => f o ind) i = alphaLeft k (fun o => g o ind) i := fun i => by simp only [alphaLeft, hb]
  simp only [wenoLeft, ha]
  refine Finset.sum_congr rfl fun s _ => ?_
  rw [value_local (by omega) (by omega) (by omega) (by omega) le_rfl f g h]

theorem wenoRight_local {k : Nat} (h2 : 2 ≤ k) (h3 : k ≤ 3) (ind : Fin m) : Local (k - 1) (wenoRight k ind) := by
  intro f g h
  have hb : ∀ i, beta k i (fun o => f o ind) = beta k i (fun o => g o ind) :=
    fun i => beta_local h2 h3 i _ _ fun o o1 o2 => congrFun (h o o1 o2) ind
  have ha : ∀ i, alphaRight k (fun o => f o ind) i = alphaRight k (fun o => g o ind) i := fun i => by simp only [alphaRight, hb]
  simp only [wenoRight, ha]
  refine Finset.sum_congr rfl fun s _ => ?_
  rw [value_local (by omega) (by omega) (by omega) (by omega) le_rfl f g h]

theorem eps_pos : 0 < eps := by unfold eps; norm_num

theorem beta_nonneg (k : Nat) (i : Fin k) (f : Int → ℝ) : 0 ≤ beta k i f := by
  match k, i with
  | 0, i => exact i.elim0
  | 1, _ => exact le_rfl
  | 2, i => fin_cases i <;> simp only [beta] <;> simp [mul_self_nonneg]
  | 3, i => fin_cases i <;> simp only [beta] <;> simp <;> positivity
  | k + 4, _ => exact le_rfl

theorem coef_pos {k : Nat} (h2 : 2 ≤ k) (h3 : k ≤ 3) (i : Fin k) : 0 < coef k i := by
  interval_cases k <;> fin_cases i <;> norm_num [coef]

theorem alphaLeft_pos {k : Nat} (h2 : 2 ≤ k) (h3 : k ≤ 3) (f : Int → ℝ) (i : Fin k) : 0 < alphaLeft k f i :=
  div_pos (coef_pos h2 h3 _) (pow_pos (add_pos_of_nonneg_of_pos (beta_nonneg k i f) eps_pos) 2)

theorem alphaRight_pos {k : Nat} (h2 : 2 ≤ k) (h3 : k ≤ 3) (f : Int → ℝ) (i : Fin k) : 0 < alphaRight k f i :=
  div_pos (coef_pos h2 h3 _) (pow_pos (add_pos_of_nonneg_of_pos (beta_nonneg k i f) eps_pos) 2)

theorem get_step {d : Nat} (hd : d < 3) (q : I3) (o : Int) {e : Nat} (he : e < 3) : (q + step d o).get e = q.get e + if e = d then o else 0 := by
  obtain ⟨a, b⟩ := Diffusion.get_geom hd q o
  by_cases h : e = d
  · subst h; rw [a, if_pos rfl]
  · rw [b e he h, if_neg h, add_zero]

/-- The cells filled by a reconstruction of kind `stencilFits`. -/
theorem stencilFits_iff {V : Type} [Zero V] {k w d : Nat} (hd : d < 3) {lf rf : (Int → V) → V} {active n start stop q : I3} :
    q ∈ box ((lineRecon .stencilFits k w lf rf).lo active d start) ((lineRecon .stencilFits k w lf rf).hi active d n stop) ↔
      ∀ e < 3, 0 ≤ q.get e - (if e = d then (k : Int) - 1 else 0) ∧ q.get e + (if e = d then (k : Int) - 1 else 0) < n.get e := by
  rw [box_get]
  refine forall₂_congr fun e he => ?_
  have : d = 0 ∨ d = 1 ∨ d = 2 := by omega
  rcases this with rfl | rfl | rfl <;> interval_cases e <;> simp [lineRecon, Recon.lo, Recon.hi, step, I3.get] <;> omega

theorem stencilFits_ok {V : Type} [Zero V] {k w d : Nat} (hd : d < 3) (hk : 1 ≤ k) (hw : w ≤ k - 1) {lf rf : (Int → V) → V} (hlf : Local w lf)
    (hrf : Local w rf) {active n start stop : I3} {u left right : Arr I3 V} (hu : u.inb = inSize n) (hl : left.inb = inSize n) (hr : right.inb = inSize n) :
    ∃ l' r', (lineRecon .stencilFits k w lf rf).perform active d n start stop u left right = .ok (l', r') ∧
      ∀ q, (∀ e < 3, 0 ≤ q.get e - (if e = d then (k : Int) - 1 else 0) ∧ q.get e + (if e = d then (k : Int) - 1 else 0) < n.get e) →
        l'.val q = lf (line d u.val q) ∧ r'.val q = rf (line d u.val q) := by
  obtain ⟨l', r', h1, _, _, h4⟩ := NetFlux.perform_ok (lineRecon .stencilFits k w lf rf) active d n start stop u left right hl hr
    (fun q hq => by
      rw [Diffusion.inSize_get]; intro e he; have := (stencilFits_iff hd).1 hq e he; split_ifs at this <;> omega)
    (fun q hq o ho => by
      have ho' : -(w : Int) ≤ o ∧ o < w + 1 := by simpa [lineRecon] using ho
      rw [hu, Diffusion.inSize_get]; intro e he; have := (stencilFits_iff hd).1 hq e he
      rw [get_step hd q o he]; split_ifs at * <;> omega)
  refine ⟨l', r', h1, fun q hq => ?_⟩
  obtain ⟨a, b⟩ := h4 q ((stencilFits_iff hd).2 hq)
  rw [a, b, lineRecon_lval hlf, lineRecon_rval hrf]
  exact ⟨rfl, rfl⟩

theorem region_ok {V : Type} [Zero V] {k w d : Nat} (hk : 1 ≤ k) (hw : w ≤ k - 1) {lf rf : (Int → V) → V} (hlf : Local w lf)
    (hrf : Local w rf) {active n start stop : I3} (hg : Geo k d active start stop) {u left right : Arr I3 V} (hu : u.inb = inSize n)
    (hl : left.inb = inSize n) (hr : right.inb = inSize n) :
    ∃ l' r', (lineRecon .region k w lf rf).perform active d n start stop u left right = .ok (l', r') ∧
      ∀ q ∈ box (mainLo k d active start) (mainHi k d active n stop), l'.val q = lf (line d u.val q) ∧ r'.val q = rf (line d u.val q) := by
  have hbox : ∀ q ∈ box (mainLo k d active start) (mainHi k d active n stop), ∀ o : Int, -(w : Int) ≤ o → o ≤ w → inSize n (q + step d o) = true := by
    intro q hq o o1 o2
    rw [Diffusion.inSize_get]; intro e he
    have h := box_get.1 hq e he
    rw [mainLo_get _ _ _ _ he, mainHi_get _ _ _ _ _ he] at h
    rw [get_step hg.dlt q o he]
    have h1 := hg.start e he; have h2 := hg.stop e he; have h3 := hg.act e he; have h4 := hg.actd
    by_cases hed : e = d
    · subst hed; simp only [if_true] at *; rw [h4] at h; omega
    · simp only [hed, if_false] at *; rcases h3 with h3 | h3 <;> rw [h3] at h <;> omega
  obtain ⟨l', r', h1, _, _, h4⟩ := NetFlux.perform_ok (lineRecon .region k w lf rf) active d n start stop u left right hl hr
    (fun q hq => by simpa [show step d 0 = 0 by simp [step]; rfl] using hbox q hq 0 (by omega) (by omega))
    (fun q hq o ho => by
      have ho' : -(w : Int) ≤ o ∧ o < w + 1 := by simpa [lineRecon] using ho
      rw [hu]; exact hbox q hq o (by omega) (by omega))
  refine ⟨l', r', h1, fun q hq => ?_⟩
  obtain ⟨a, b⟩ := h4 q hq
  rw [a, b, lineRecon_lval hlf, lineRecon_rval hrf]
  exact ⟨rfl, rfl⟩

theorem weno2Left_local (ind : Fin m) : Local 1 (weno2Left ind) := by
  intro f g h
  have a := h (-1) (by norm_num) (by norm_num); have b := h 0 (by norm_num) (by norm_num); have c := h 1 (by norm_num) (by norm_num)
  unfold weno2Left; simp only [a, b, c]

theorem weno2Right_local (ind : Fin m) : Local 1 (weno2Right ind) := by
  intro f g h
  have a := h (-1) (by norm_num) (by norm_num); have b := h 0 (by norm_num) (by norm_num); have c := h 1 (by norm_num) (by norm_num)
  unfold weno2Right; simp only [a, b, c]

theorem wenoF2_local {n : Nat} (γ : ℝ) : Local 1 (fun f : Int → Euler.Cons n => (wenoF2 γ (f (-1)) (f 0) (f 1)).1) ∧
    Local 1 (fun f : Int → Euler.Cons n => (wenoF2 γ (f (-1)) (f 0) (f 1)).2) := by
  constructor <;> intro f g h <;>
    (have a := h (-1) (by norm_num) (by norm_num); have b := h 0 (by norm_num) (by norm_num); have c := h 1 (by norm_num) (by norm_num)
     simp only [a, b, c])

theorem weno2Left_eq (ind : Fin m) (f : Int → Vec m) : weno2Left ind f = wenoLeft 2 ind f := by
  funext i
  simp only [weno2Left, wenoLeft, w2Left, Fin.sum_univ_two, Pi.add_apply, Pi.smul_apply, smul_eq_mul, value_apply, alphaLeft, beta, coef]
  have e1 : eps + (f 1 ind - f 0 ind) * (f 1 ind - f 0 ind) ≠ 0 := (add_pos_of_pos_of_nonneg eps_pos (mul_self_nonneg _)).ne'
  have e2 : eps + (f 0 ind - f (-1) ind) * (f 0 ind - f (-1) ind) ≠ 0 := (add_pos_of_pos_of_nonneg eps_pos (mul_self_nonneg _)).ne'
  have e3 := add_comm eps ((f 1 ind - f 0 ind) * (f 1 ind - f 0 ind))
  have e4 := add_comm eps ((f 0 ind - f (-1) ind) * (f 0 ind - f (-1) ind))
  norm_num [table, List.zipIdx_cons, Fin.rev]
  rw [← e3, ← e4]
  generalize eps + (f 1 ind - f 0 ind) * (f 1 ind - f 0 ind) = A at *
  generalize eps + (f 0 ind - f (-1) ind) * (f 0 ind - f (-1) ind) = B at *
  have hs : 2 * A ^ 2 + B ^ 2 ≠ 0 := by positivity
  field_simp
  ring

theorem weno2Right_eq (ind : Fin m) (f : Int → Vec m) : weno2Right ind f = wenoRight 2 ind f := by
  funext i
  simp only [weno2Right, wenoRight, w2Right, Fin.sum_univ_two, Pi.add_apply, Pi.smul_apply, smul_eq_mul, value_apply, alphaRight, beta, coef]
  have e1 : eps + (f 1 ind - f 0 ind) * (f 1 ind - f 0 ind) ≠ 0 := (add_pos_of_pos_of_nonneg eps_pos (mul_self_nonneg _)).ne'
  have e2 : eps + (f 0 ind - f (-1) ind) * (f 0 ind - f (-1) ind) ≠ 0 := (add_pos_of_pos_of_nonneg eps_pos (mul_self_nonneg _)).ne'
  have e3 := add_comm eps ((f 1 ind - f 0 ind) * (f 1 ind - f 0 ind))
  have e4 := add_comm eps ((f 0 ind - f (-1) ind) * (f 0 ind - f (-1) ind))
  norm_num [table, List.zipIdx_cons]
  rw [← e3, ← e4]
  generalize eps + (f 1 ind - f 0 ind) * (f 1 ind - f 0 ind) = A at *
  generalize eps + (f 0 ind - f (-1) ind) * (f 0 ind - f (-1) ind) = B at *
  have hs : A ^ 2 + 2 * B ^ 2 ≠ 0 := by positivity
  field_simp
  ring

/-- For a linear weight variable all smoothness indicators agree. -/
theorem beta_linear {k : Nat} (hk : 2 ≤ k) (hk3 : k ≤ 3) (f : Int → ℝ) (a b : ℝ)
    (hab : ∀ o : Int, -((k : Int) - 1) ≤ o → o ≤ (k : Int) - 1 → f o = a + b * o) (i : Fin k) : beta k i f = b ^ 2 := by
  interval_cases k
  · have h0 := hab (-1) (by norm_num) (by norm_num); have h1 := hab 0 (by norm_num) (by norm_num); have h2 := hab 1 (by norm_num) (by norm_num)
    fin_cases i <;> simp [beta, h0, h1, h2] <;> ring
  · have h0 := hab (-1) (by norm_num) (by norm_num); have h1 := hab 0 (by norm_num) (by norm_num); have h2 := hab 1 (by norm_num) (by norm_num)
    have h3 := hab (-2) (by norm_num) (by norm_num); have h4 := hab 2 (by norm_num) (by norm_num)
    fin_cases i <;> simp [beta, h0, h1, h2, h3, h4] <;> ring

theorem coef_sum {k : Nat} (hk : 2 ≤ k) (hk3 : k ≤ 3) : ∑ i, coef k i = 1 := by
  interval_cases k
  · norm_num [coef, Fin.sum_univ_two]
  · rw [Fin.sum_univ_three]; change (3 / 10 : ℝ) + 3 / 5 + 1 / 10 = 1; norm_num

theorem weno_full_order {k : Nat} (hk : 2 ≤ k) (hk3 : k ≤ 3) (ind : Fin m) (f : Int → Vec m) (a b : ℝ)
    (hab : ∀ o : Int, -((k : Int) - 1) ≤ o → o ≤ (k : Int) - 1 → f o ind = a + b * o) (i : Fin m) (p : Polynomial ℝ) (x0 h : ℝ) (hh : h ≠ 0)
    (hp : p.natDegree < 2 * k - 1)
    (hf : ∀ o : Int, -((k : Int) - 1) ≤ o → o ≤ (k : Int) - 1 → f o i = cellAverage p (x0 + o * h) (x0 + (o + 1) * h)) :
    wenoLeft k ind f i = p.eval x0 ∧ wenoRight k ind f i = p.eval (x0 + h) := by
  have hb : ∀ s, beta k s (fun o => f o ind) = b ^ 2 := beta_linear hk hk3 _ a b hab
  have hE : b ^ 2 + eps ≠ 0 := (add_pos_of_nonneg_of_pos (sq_nonneg b) eps_pos).ne'
  have hL : ∀ s, alphaLeft k (fun o => f o ind) s / ∑ j, alphaLeft k (fun o => f o ind) j = coef k s.rev := by
    intro s
    simp only [alphaLeft, hb, ← Finset.sum_div]
    rw [show ∑ j : Fin k, coef k j.rev = 1 by rw [← coef_sum hk hk3]; exact Equiv.sum_comp Fin.revPerm (coef k)]
    field_simp
  have hR : ∀ s, alphaRight k (fun o => f o ind) s / ∑ j, alphaRight k (fun o => f o ind) j = coef k s := by
    intro s
    simp only [alphaRight, hb, ← Finset.sum_div]
    rw [coef_sum hk hk3]
    field_simp
  simp only [wenoLeft, wenoRight, hL, hR]
  clear hL hR hb hab
  have hc : ∀ j, 2 * k - 1 ≤ j → p.coeff j = 0 := fun j hj => Polynomial.coeff_eq_zero_of_natDegree_lt (by omega)
  have hA : ∀ o : Int, -((k : Int) - 1) ≤ o → o ≤ (k : Int) - 1 → f o i = (p.coeff 0 * h + p.coeff 1 * (((x0 + (o + 1) * h) ^ 2 - (x0 + o * h) ^ 2) / 2) +
      p.coeff 2 * (((x0 + (o + 1) * h) ^ 3 - (x0 + o * h) ^ 3) / 3) + p.coeff 3 * (((x0 + (o + 1) * h) ^ 4 - (x0 + o * h) ^ 4) / 4) +
      p.coeff 4 * (((x0 + (o + 1) * h) ^ 5 - (x0 + o * h) ^ 5) / 5)) / h := by
    intro o o1 o2
    rw [hf o o1 o2, cellAverage_eq p (by omega)]
    have e : x0 + ((o : ℝ) + 1) * h - (x0 + o * h) = h := by ring
    rw [e]
  simp only [Finset.sum_apply, Pi.smul_apply, smul_eq_mul, value_apply]
  rw [eval_eq p (by omega), eval_eq p (by omega)]
  interval_cases k
  · have a0 := hA (-1) (by norm_num) (by norm_num); have a1 := hA 0 (by norm_num) (by norm_num); have a2 := hA 1 (by norm_num) (by norm_num)
    rw [hc 3 (by omega), hc 4 (by omega)] at *
    norm_num [table, List.zipIdx_cons, Fin.sum_univ_two, coef, Fin.rev, a0, a1, a2]
    constructor <;> field_simp <;> ring
  · have a0 := hA (-1) (by norm_num) (by norm_num); have a1 := hA 0 (by norm_num) (by norm_num); have a2 := hA 1 (by norm_num) (by norm_num)
    have a3 := hA (-2) (by norm_num) (by norm_num); have a4 := hA 2 (by norm_num) (by norm_num)
    have c0 : coef 3 0 = 3 / 10 := rfl
    have c1 : coef 3 1 = 3 / 5 := rfl
    have c2 : coef 3 2 = 1 / 10 := rfl
    rw [Fin.sum_univ_three, Fin.sum_univ_three, show Fin.rev (0 : Fin 3) = 2 from rfl, show Fin.rev (1 : Fin 3) = 1 from rfl,
      show Fin.rev (2 : Fin 3) = 0 from rfl, c0, c1, c2]
    norm_num [table, List.zipIdx_cons, a0, a1, a2, a3, a4]
    constructor <;> field_simp <;> ring

theorem cut_pos {c d a : ℝ} (hc : 0 < c) (ha : 0 ≤ a) (ha2 : a ≤ 1 / 2) :
    0 < c - a * max (-1.9 * c) (min (1.9 * c) d) ∧ 0 < c + a * max (-1.9 * c) (min (1.9 * c) d) := by
  have h1 : -1.9 * c ≤ max (-1.9 * c) (min (1.9 * c) d) := le_max_left _ _
  have h2 : max (-1.9 * c) (min (1.9 * c) d) ≤ 1.9 * c := max_le (by norm_num; linarith) (min_le_left _ _)
  generalize max (-1.9 * c) (min (1.9 * c) d) = x at *
  norm_num at h1 h2
  constructor <;> nlinarith

open Euler in
theorem scaleF_bounds {n : Nat} {γ : ℝ} (hγ : 1 < γ) (c d : Prim n) (hp : 0 < c.p) : 0 ≤ scaleF γ c d ∧ scaleF γ c d ≤ 1 / 2 := by
  unfold scaleF
  have hR : 0 < c.p / (γ - 1) := div_pos hp (by linarith)
  constructor
  · positivity
  · have : Real.sqrt (c.p / (γ - 1) / max (c.p / (γ - 1)) (0.125 * c.rho * dot d.u d.u - 0.5 * min 0 (d.rho * dot c.u d.u) +
        0.5 * d.rho * d.rho * dot d.u d.u / c.rho)) ≤ 1 :=
      Real.sqrt_le_one.2 (div_le_one_of_le₀ (le_max_left _ _) (le_max_of_le_left hR.le))
    norm_num at this ⊢
    linarith

open Euler in
theorem wenoF2_pos {n : Nat} {γ : ℝ} (hγ : 1 < γ) (l c r : Cons n) (hρ : 0 < c.rho) (hp : 0 < pressure γ c) :
    (0 < (wenoF2 γ l c r).1.rho ∧ 0 < pressure γ (wenoF2 γ l c r).1) ∧ (0 < (wenoF2 γ l c r).2.rho ∧ 0 < pressure γ (wenoF2 γ l c r).2) := by
  have hP : 0 < (toPrim γ c).p := hp
  obtain ⟨a1, a2⟩ := scaleF_bounds hγ (toPrim γ c) (slopeF (w2Left l.rho c.rho r.rho) (toPrim γ l) (toPrim γ c) (toPrim γ r)) hP
  obtain ⟨b1, b2⟩ := scaleF_bounds hγ (toPrim γ c) (slopeF (w2Right l.rho c.rho r.rho) (toPrim γ l) (toPrim γ c) (toPrim γ r)) hP
  have hL := (cut_pos (c := (toPrim γ c).rho) (d := (w2Left l.rho c.rho r.rho).2 * ((toPrim γ c).rho - (toPrim γ l).rho) +
    (w2Left l.rho c.rho r.rho).1 * ((toPrim γ r).rho - (toPrim γ c).rho)) hρ a1 a2).1
  have hR := (cut_pos (c := (toPrim γ c).rho) (d := (w2Right l.rho c.rho r.rho).2 * ((toPrim γ c).rho - (toPrim γ l).rho) +
    (w2Right l.rho c.rho r.rho).1 * ((toPrim γ r).rho - (toPrim γ c).rho)) hρ b1 b2).2
  unfold wenoF2
  refine ⟨⟨hL, ?_⟩, ⟨hR, ?_⟩⟩
  · dsimp only
    rw [pressure_toCons hγ.ne' hL.ne']
    exact (cut_pos hP a1 a2).1
  · dsimp only
    rw [pressure_toCons hγ.ne' hR.ne']
    exact (cut_pos hP b1 b2).2

theorem fdiff_local (l : Nat) : ∀ (f g : Int → ℝ) (i : Int), (∀ o, i ≤ o → o ≤ i + l → f o = g o) → fdiff l f i = fdiff l g i := by
  induction l with
  | zero => intro f g i h; exact h i le_rfl (by omega)
  | succ l ih =>
    intro f g i h
    simp only [fdiff]
    rw [ih f g (i + 1) fun o h1 h2 => h o (by omega) (by push_cast; omega), ih f g i fun o h1 h2 => h o h1 (by push_cast; omega)]

theorem shiftOf_local {k : Nat} (hk : 2 ≤ k) : Local (k - 1) (shiftOf k) := by
  intro f g h
  unfold shiftOf
  refine List.foldl_ext _ _ _ fun s l hl => ?_
  have hl' : l < k - 1 := by simpa using hl
  rw [fdiff_local (l + 1) f g (-1) fun o h1 h2 => h o (by omega) (by push_cast at h2; omega),
    fdiff_local (l + 1) f g 0 fun o h1 h2 => h o (by omega) (by push_cast at h2; omega)]

theorem eno_local {k : Nat} (hk : 2 ≤ k) (hk4 : k ≤ 4) (ind : Fin m) :
    Local (k - 1) (fun f : Int → Vec m => value k (shiftOf k fun o => f o ind) (shiftOf k fun o => f o ind) f) ∧
    Local (k - 1) (fun f : Int → Vec m => value k ((shiftOf k fun o => f o ind) + 1) (shiftOf k fun o => f o ind) f) := by
  constructor <;> intro f g h <;> dsimp only <;>
    rw [shiftOf_local hk (fun o => f o ind) (fun o => g o ind) fun o h1 h2 => congrFun (h o h1 h2) ind] <;>
    (have := shiftOf_le k fun o => g o ind
     exact value_local (by omega) hk4 (by omega) this le_rfl f g h)

end Weno
end Verif
