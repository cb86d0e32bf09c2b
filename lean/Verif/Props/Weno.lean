import Verif.Weno

/-!
Property theorems C28 and C29: the WENO reconstructions, and the connection of the reconstructions along a line with C10 and C26.

Vocabulary: `StencilFits k d n q`: the cells up to `k - 1` away from `q` along direction `d` are all inside a volume of total size `n`; these are the cells
`WENOCPU<k>` fills. `cellAverage p a b` is the average of the polynomial over `[a, b]`. The cell `q` is `[x0, x0 + h]`, the cell `o` further `[x0 + o h, x0 + (o+1) h]`.
-/

namespace Verif.Props
open Verif NetFlux Eno Weno
variable {m : Nat}

/-- The whole stencil of the cell lies inside the volume. -/
def StencilFits (k d : Nat) (n q : I3) : Prop :=
  ∀ e < 3, 0 ≤ q.get e - (if e = d then (k : Int) - 1 else 0) ∧ q.get e + (if e = d then (k : Int) - 1 else 0) < n.get e

/-- The data of variable `i` around cell `q` at the offsets `a, …, b` are the cell averages of `p`. -/
def AveragesOf (p : Polynomial ℝ) (x0 h : ℝ) (u : I3 → Vec m) (d : Nat) (q : I3) (i : Fin m) (a b : Int) : Prop :=
  ∀ o : Int, a ≤ o → o ≤ b → u (q + step d o) i = cellAverage p (x0 + o * h) (x0 + (o + 1) * h)

/-- C28, convexity. There are positive weights with sum one, one set for each face and the same for all variables, such that the face values of every variable
are the weighted means of the face values of the `k` interpolating polynomials: the `s`-th has degree below `k` and the given averages in the `k` cells that
start `s` cells to the left. The call reads and writes inside the volumes only. -/
theorem C28_convex_combination (k d : Nat) (hk : 2 ≤ k) (hk3 : k ≤ 3) (hd : d < 3) (ind : Fin m) (active n start stop : I3)
    (u left right : Arr I3 (Vec m)) (hu : u.inb = inSize n) (hl : left.inb = inSize n) (hr : right.inb = inSize n) :
    ∃ l' r', (wenoRecon k ind).perform active d n start stop u left right = .ok (l', r') ∧ ∀ q, StencilFits k d n q →
      ∃ wl wr : Fin k → ℝ, (∀ s, 0 < wl s) ∧ (∑ s, wl s = 1) ∧ (∀ s, 0 < wr s) ∧ (∑ s, wr s = 1) ∧
        ∀ (i : Fin m) (p : Fin k → Polynomial ℝ) (x0 h : ℝ), h ≠ 0 → (∀ s, (p s).natDegree < k) →
          (∀ s : Fin k, AveragesOf (p s) x0 h u.val d q i (-(s : Int)) ((k : Int) - 1 - s)) →
          l'.val q i = ∑ s, wl s * (p s).eval x0 ∧ r'.val q i = ∑ s, wr s * (p s).eval (x0 + h) := by
  obtain ⟨l', r', h1, h2⟩ := stencilFits_ok (k := k) (w := k - 1) hd (by omega) le_rfl (wenoLeft_local hk hk3 ind) (wenoRight_local hk hk3 ind)
    (active := active) (start := start) (stop := stop) hu hl hr
  refine ⟨l', r', h1, fun q hq => ?_⟩
  obtain ⟨a, b⟩ := h2 q hq
  haveI : Nonempty (Fin k) := ⟨⟨0, by omega⟩⟩
  have pl : 0 < ∑ i, alphaLeft k (fun o => line d u.val q o ind) i := Finset.sum_pos (fun i _ => alphaLeft_pos hk hk3 _ i) Finset.univ_nonempty
  have pr : 0 < ∑ i, alphaRight k (fun o => line d u.val q o ind) i := Finset.sum_pos (fun i _ => alphaRight_pos hk hk3 _ i) Finset.univ_nonempty
  refine ⟨fun s => alphaLeft k (fun o => line d u.val q o ind) s / ∑ i, alphaLeft k (fun o => line d u.val q o ind) i,
    fun s => alphaRight k (fun o => line d u.val q o ind) s / ∑ i, alphaRight k (fun o => line d u.val q o ind) i,
    fun s => div_pos (alphaLeft_pos hk hk3 _ s) pl, by rw [← Finset.sum_div, div_self pl.ne'], fun s => div_pos (alphaRight_pos hk hk3 _ s) pr,
    by rw [← Finset.sum_div, div_self pr.ne'], fun i p x0 h hh hp hav => ?_⟩
  have hv := fun s : Fin k => value_exact (by omega : 1 ≤ k) (by omega) (by omega : (s : Nat) ≤ k - 1) (p s) (hp s) x0 h hh (line d u.val q) i
    fun o o1 o2 => hav s o o1 o2
  rw [a, b]
  simp only [wenoLeft, wenoRight, Finset.sum_apply, Pi.smul_apply, smul_eq_mul, (hv _).1, (hv _).2]
  exact ⟨trivial, trivial⟩

/-- C28, constants. If a variable is constant on the stencil, both face values are exactly that constant, whatever the other variables are. -/
theorem C28_constants (k d : Nat) (hk : 2 ≤ k) (hk3 : k ≤ 3) (hd : d < 3) (ind : Fin m) (active n start stop : I3)
    (u left right : Arr I3 (Vec m)) (hu : u.inb = inSize n) (hl : left.inb = inSize n) (hr : right.inb = inSize n) :
    ∃ l' r', (wenoRecon k ind).perform active d n start stop u left right = .ok (l', r') ∧ ∀ q, StencilFits k d n q →
      ∀ (i : Fin m) (c : ℝ), (∀ o : Int, -((k : Int) - 1) ≤ o → o ≤ (k : Int) - 1 → u.val (q + step d o) i = c) → l'.val q i = c ∧ r'.val q i = c := by
  obtain ⟨l', r', h1, h2⟩ := C28_convex_combination k d hk hk3 hd ind active n start stop u left right hu hl hr
  refine ⟨l', r', h1, fun q hq i c hc => ?_⟩
  obtain ⟨wl, wr, _, sl, _, sr, h3⟩ := h2 q hq
  obtain ⟨a, b⟩ := h3 i (fun _ => Polynomial.C c) 0 1 one_ne_zero (fun s => by simp; omega) (fun s o o1 o2 => by
    rw [hc o (by omega) (by omega)]; simp [cellAverage])
  rw [a, b]
  simp only [Polynomial.eval_C, ← Finset.sum_mul, sl, sr, one_mul]
  exact ⟨trivial, trivial⟩

/-- C28, full order. Where the weight variable varies linearly (`a + b o` at offset `o`), every variable is reconstructed exactly for polynomials of degree up to
`2 k - 2`. -/
theorem C28_full_order (k d : Nat) (hk : 2 ≤ k) (hk3 : k ≤ 3) (hd : d < 3) (ind : Fin m) (active n start stop : I3)
    (u left right : Arr I3 (Vec m)) (hu : u.inb = inSize n) (hl : left.inb = inSize n) (hr : right.inb = inSize n) :
    ∃ l' r', (wenoRecon k ind).perform active d n start stop u left right = .ok (l', r') ∧ ∀ q, StencilFits k d n q →
      (∃ a b : ℝ, ∀ o : Int, -((k : Int) - 1) ≤ o → o ≤ (k : Int) - 1 → u.val (q + step d o) ind = a + b * o) →
      ∀ (i : Fin m) (p : Polynomial ℝ) (x0 h : ℝ), h ≠ 0 → p.natDegree < 2 * k - 1 → AveragesOf p x0 h u.val d q i (-((k : Int) - 1)) ((k : Int) - 1) →
        l'.val q i = p.eval x0 ∧ r'.val q i = p.eval (x0 + h) := by
  obtain ⟨l', r', h1, h2⟩ := stencilFits_ok (k := k) (w := k - 1) hd (by omega) le_rfl (wenoLeft_local hk hk3 ind) (wenoRight_local hk hk3 ind)
    (active := active) (start := start) (stop := stop) hu hl hr
  refine ⟨l', r', h1, fun q hq ⟨a, b, hab⟩ i p x0 h hh hp hav => ?_⟩
  obtain ⟨v1, v2⟩ := h2 q hq
  rw [v1, v2]
  exact weno_full_order hk hk3 ind (line d u.val q) a b (fun o o1 o2 => hab o o1 o2) i p x0 h hh hp fun o o1 o2 => hav o o1 o2

/-- C28, the two implementations. In every cell that both fill, the specialised second order reconstruction gives the same face values as the general one of
order 2 with the same weight variable. -/
theorem C28_specialised_agrees (d : Nat) (ind : Fin m) (active n start stop : I3) (hg : Geo 2 d active start stop)
    (u left right left2 right2 : Arr I3 (Vec m)) (hu : u.inb = inSize n) (hl : left.inb = inSize n) (hr : right.inb = inSize n)
    (hl2 : left2.inb = inSize n) (hr2 : right2.inb = inSize n) :
    ∃ l' r' l2 r2, (wenoRecon 2 ind).perform active d n start stop u left right = .ok (l', r') ∧
      (weno2Recon ind).perform active d n start stop u left2 right2 = .ok (l2, r2) ∧
      ∀ q, (∀ e < 3, active.get e * (2 - (if e = d then 1 else 0)) + start.get e ≤ q.get e ∧
          q.get e < n.get e - active.get e * (2 - (if e = d then 1 else 0)) + stop.get e) → l2.val q = l'.val q ∧ r2.val q = r'.val q := by
  obtain ⟨l', r', h1, h2⟩ := stencilFits_ok (k := 2) (w := 1) hg.dlt (by omega) le_rfl (wenoLeft_local le_rfl (by omega) ind)
    (wenoRight_local le_rfl (by omega) ind) (active := active) (start := start) (stop := stop) hu hl hr
  obtain ⟨l2, r2, g1, g2⟩ := region_ok (k := 2) (w := 1) (by omega) le_rfl (weno2Left_local ind) (weno2Right_local ind) hg hu hl2 hr2
  refine ⟨l', r', l2, r2, h1, g1, fun q hq => ?_⟩
  obtain ⟨a, b⟩ := g2 q (box_get.2 fun e he => by rw [mainLo_get _ _ _ _ he, mainHi_get _ _ _ _ _ he]; exact hq e he)
  obtain ⟨c, e⟩ := h2 q fun e he => by
    have h := hq e he; have h1 := hg.start e he; have h2 := hg.stop e he; have h3 := hg.act e he; have h4 := hg.actd
    by_cases hed : e = d
    · subst hed; simp only [if_true] at *; rw [h4] at h; push_cast; omega
    · simp only [hed, if_false] at *; rcases h3 with h3 | h3 <;> rw [h3] at h <;> omega
  rw [a, b, c, e, weno2Left_eq, weno2Right_eq]
  exact ⟨rfl, rfl⟩

/-- Buffers for the examples. -/
noncomputable def exWeno : Arr I3 (Vec 1) := field ⟨9, 1, 1⟩ fun _ _ => 7

/-- A step: in the cell right of the jump the weights are still positive and sum to one, and `wl`, `wr` exist for the reconstruction of order 3. -/
example : ∃ l' r', (wenoRecon 3 (0 : Fin 1)).perform ⟨1, 0, 0⟩ 0 ⟨9, 1, 1⟩ 0 0 (field ⟨9, 1, 1⟩ fun p _ => if p.x < 4 then 0 else 1) exWeno exWeno = .ok (l', r') ∧
    StencilFits 3 0 ⟨9, 1, 1⟩ ⟨4, 0, 0⟩ :=
  (C28_convex_combination 3 0 (by decide) (by decide) (by decide) (0 : Fin 1) ⟨1, 0, 0⟩ ⟨9, 1, 1⟩ 0 0 _ exWeno exWeno rfl rfl rfl).imp fun _ h => h.imp
    fun _ h => ⟨h.1, by unfold StencilFits; decide⟩

/-- Averages of `x ^ 4` with the linear weight `x`: exact of degree 4 with order 3. -/
example : ∃ l' r', (wenoRecon 3 (0 : Fin 2)).perform ⟨1, 0, 0⟩ 0 ⟨9, 1, 1⟩ 0 0
      (field ⟨9, 1, 1⟩ fun p => ![(p.x : ℝ), cellAverage (Polynomial.X ^ 4) p.x (p.x + 1)])
      (field ⟨9, 1, 1⟩ fun _ _ => 7) (field ⟨9, 1, 1⟩ fun _ _ => 7) = .ok (l', r') ∧ l'.val ⟨3, 0, 0⟩ 1 = 81 ∧ r'.val ⟨3, 0, 0⟩ 1 = 256 := by
  obtain ⟨l', r', h1, h2⟩ := C28_full_order 3 0 (by decide) (by decide) (by decide) (0 : Fin 2) ⟨1, 0, 0⟩ ⟨9, 1, 1⟩ 0 0
    (field ⟨9, 1, 1⟩ fun p => ![(p.x : ℝ), cellAverage (Polynomial.X ^ 4) p.x (p.x + 1)]) (field ⟨9, 1, 1⟩ fun _ _ => 7) (field ⟨9, 1, 1⟩ fun _ _ => 7)
    rfl rfl rfl
  obtain ⟨a, b⟩ := h2 ⟨3, 0, 0⟩ (by unfold StencilFits; decide) ⟨3, 1, fun o _ _ => by simp [field, step]⟩ 1 (Polynomial.X ^ 4) 3 1 one_ne_zero
    (by simp) (fun o _ _ => by
      simp only [field, I3.add_x, step, if_true, Matrix.cons_val_one]
      simp only [Matrix.cons_val_fin_one]
      congr 1 <;> push_cast <;> ring)
  refine ⟨l', r', h1, ?_, ?_⟩
  · rw [a]; simp; norm_num
  · rw [b]; simp; norm_num

/-- A constant second variable beside a jumping weight variable. -/
example : ∃ l' r', (wenoRecon 2 (0 : Fin 2)).perform ⟨1, 0, 0⟩ 0 ⟨9, 1, 1⟩ 0 0
      (field ⟨9, 1, 1⟩ fun p => ![if p.x < 4 then 0 else 1, 5]) (field ⟨9, 1, 1⟩ fun _ _ => 7) (field ⟨9, 1, 1⟩ fun _ _ => 7) = .ok (l', r') ∧
      l'.val ⟨4, 0, 0⟩ 1 = 5 := by
  obtain ⟨l', r', h1, h2⟩ := C28_constants 2 0 (by decide) (by decide) (by decide) (0 : Fin 2) ⟨1, 0, 0⟩ ⟨9, 1, 1⟩ 0 0
    (field ⟨9, 1, 1⟩ fun p => ![if p.x < 4 then 0 else 1, 5]) (field ⟨9, 1, 1⟩ fun _ _ => 7) (field ⟨9, 1, 1⟩ fun _ _ => 7) rfl rfl rfl
  exact ⟨l', r', h1, (h2 ⟨4, 0, 0⟩ (by unfold StencilFits; decide) 1 5 fun o _ _ => by simp [field]).1⟩

example : Geo 2 0 ⟨1, 0, 0⟩ 0 0 := ⟨by decide, by decide, rfl, by decide, by decide⟩

open Euler in
/-- C29. Whenever density and pressure are positive in a cell, they are positive in both face states WENOF2 computes for it, in any number of space dimensions
and for any neighbour states (with non-zero density, so that their velocities exist). -/
theorem C29_positive_face_states {N : Nat} (γ : ℝ) (hγ : 1 < γ) (d : Nat) (active n start stop : I3) (hg : Geo 2 d active start stop)
    (u left right : Arr I3 (Cons N)) (hu : u.inb = inSize n) (hl : left.inb = inSize n) (hr : right.inb = inSize n) :
    ∃ l' r', (wenoF2Recon γ).perform active d n start stop u left right = .ok (l', r') ∧
      ∀ q, (∀ e < 3, active.get e * (2 - (if e = d then 1 else 0)) + start.get e ≤ q.get e ∧
          q.get e < n.get e - active.get e * (2 - (if e = d then 1 else 0)) + stop.get e) →
        (u.val (q + step d (-1))).rho ≠ 0 → (u.val (q + step d 1)).rho ≠ 0 →
        0 < (u.val q).rho → 0 < pressure γ (u.val q) →
        (0 < (l'.val q).rho ∧ 0 < pressure γ (l'.val q)) ∧ (0 < (r'.val q).rho ∧ 0 < pressure γ (r'.val q)) := by
  obtain ⟨l', r', g1, g2⟩ := region_ok (k := 2) (w := 1) (by omega) le_rfl (wenoF2_local (n := N) γ).1 (wenoF2_local γ).2 hg hu hl hr
  refine ⟨l', r', g1, fun q hq _ _ hρ hp => ?_⟩
  obtain ⟨a, b⟩ := g2 q (box_get.2 fun e he => by rw [mainLo_get _ _ _ _ he, mainHi_get _ _ _ _ _ he]; exact hq e he)
  rw [a, b]
  have e : line d u.val q 0 = u.val q := by
    have : q + step d 0 = q := by rw [show step d 0 = 0 by simp [step]; rfl]; exact I3.ext (by simp) (by simp) (by simp)
    simp [line, this]
  simp only [e]
  exact wenoF2_pos hγ _ _ _ hρ hp

open Euler in
/-- Strong jumps: a cell with density 1 and pressure 2/5 between neighbours of density 1000 and momentum 50 or -50. -/
example : ∃ l' r', (wenoF2Recon (1.4 : ℝ)).perform ⟨1, 0, 0⟩ 0 ⟨5, 1, 1⟩ 0 0
      (field ⟨5, 1, 1⟩ fun p => if p.x = 2 then ((1, fun _ => 0, 1) : Cons 1) else (1000, fun _ => 50 * (p.x - 2), 10000))
      (field ⟨5, 1, 1⟩ fun _ => (0, fun _ => 0, 0)) (field ⟨5, 1, 1⟩ fun _ => (0, fun _ => 0, 0)) = .ok (l', r') ∧ 0 < (l'.val ⟨2, 0, 0⟩).rho := by
  obtain ⟨l', r', h1, h2⟩ := C29_positive_face_states (N := 1) 1.4 (by norm_num) 0 ⟨1, 0, 0⟩ ⟨5, 1, 1⟩ 0 0
    ⟨by decide, by decide, rfl, by decide, by decide⟩
    (field ⟨5, 1, 1⟩ fun p => if p.x = 2 then ((1, fun _ => 0, 1) : Cons 1) else (1000, fun _ => 50 * (p.x - 2), 10000))
    (field ⟨5, 1, 1⟩ fun _ => (0, fun _ => 0, 0)) (field ⟨5, 1, 1⟩ fun _ => (0, fun _ => 0, 0)) rfl rfl rfl
  refine ⟨l', r', h1, (h2 ⟨2, 0, 0⟩ (by decide) (by norm_num [field, step, Cons.rho]) (by norm_num [field, step, Cons.rho])
    (by norm_num [field, Cons.rho]) (by norm_num [field, pressure, dot, Cons.E, Cons.m, Cons.rho])).1.1⟩

/-- C26, refinement. In every cell it has to fill, the ENO reconstruction with its stored divided differences gives the values of the record `enoRecon`, a pure
function of the cells along the line; so the theorems about the right hand side (C10, C11, C12, C14) hold for it. -/
theorem C26_refines_record (k d : Nat) (hk : 2 ≤ k) (hk4 : k ≤ 4) (ind : Fin m) (active n start stop : I3) (hg : Geo k d active start stop)
    (u : Arr I3 (Vec m)) (hu : u.inb = inSize n) (s : Eno.State m) (hdd : ∀ j, (s.dd j).inb = inSize n) (hl : s.left.inb = inSize n)
    (hr : s.right.inb = inSize n) :
    ∃ s' l' r', Eno.perform k d ind active n start stop u s = .ok s' ∧
      (enoRecon k ind).perform active d n start stop u s.left s.right = .ok (l', r') ∧
      ∀ q, (∀ e < 3, active.get e * (k - (if e = d then 1 else 0)) + start.get e ≤ q.get e ∧
          q.get e < n.get e - active.get e * (k - (if e = d then 1 else 0)) + stop.get e) → s'.left.val q = l'.val q ∧ s'.right.val q = r'.val q := by
  obtain ⟨s', h1, _, _, _, h5, _⟩ := Eno.perform_ok hg hk hk4 ind (u := u) (fun p hp => by
    rw [hu, Diffusion.inSize_get]; intro e he; have := hp e he; have := hg.start e he; have := hg.stop e he; omega) hdd hl hr
  obtain ⟨l', r', g1, g2⟩ := region_ok (k := k) (w := k - 1) (by omega) le_rfl (eno_local hk hk4 ind).1 (eno_local hk hk4 ind).2 hg hu hl hr
  refine ⟨s', l', r', h1, g1, fun q hq => ?_⟩
  have hq' : q ∈ box (mainLo k d active start) (mainHi k d active n stop) :=
    box_get.2 fun e he => by rw [mainLo_get _ _ _ _ he, mainHi_get _ _ _ _ _ he]; exact hq e he
  rw [(h5 q hq').1, (h5 q hq').2, (g2 q hq').1, (g2 q hq').2]
  exact ⟨rfl, rfl⟩

example : Geo 3 1 ⟨1, 1, 0⟩ ⟨0, 2, 0⟩ ⟨-1, 0, 0⟩ := ⟨by decide, by decide, rfl, by decide, by decide⟩

/-- Every reconstruction along a line with at least its own number of ghost cells fits together with every two-point flux, as C10 to C14 ask for. -/
theorem C10_line_reconstructions_fit {V R : Type} [Zero V] (kind : ReconKind) (hkind : kind ≠ .whole) (k w g : Nat) (lf rf : (Int → V) → V) (hw : w + 1 ≤ k) (hg : k ≤ g)
    (fl : FluxFn V R) (h1 : fl.offsL = [1]) (h2 : fl.offsR = [0]) : Fits (lineRecon kind k w lf rf) fl g where
  k_pos := by change 1 ≤ k; omega
  k_le := hg
  offs_abs := by
    intro o ho
    have ho' : -(w : Int) ≤ o ∧ o < w + 1 := by simpa [lineRecon] using ho
    change -((k : Int) - 1) ≤ o ∧ o ≤ (k : Int) - 1
    omega
  whole_zero h := absurd h hkind
  fl_offs := by rw [h1, h2]; simp; omega
  fl_near := by rw [h1, h2]; simp [lineRecon]; omega

/-- WENO of order 3 with any two-point flux conserves mass on a periodic two dimensional grid. -/
example (fl : FluxFn (Vec 1) ℝ) (h1 : fl.offsL = [1]) (h2 : fl.offsR = [0]) : Fits (wenoRecon 3 (0 : Fin 1)) fl 3 ∧ Fits (mcRecon : Recon (Vec 1)) fl 2 ∧
    Fits (enoRecon 4 (0 : Fin 1)) fl 4 :=
  ⟨C10_line_reconstructions_fit _ (by decide) 3 2 3 _ _ (by decide) (by decide) fl h1 h2,
   C10_line_reconstructions_fit _ (by decide) 2 1 2 _ _ (by decide) (by decide) fl h1 h2,
   C10_line_reconstructions_fit _ (by decide) 4 3 4 _ _ (by decide) (by decide) fl h1 h2⟩

end Verif.Props
