import Verif.CudaFunctionalsLemmas
import Verif.Props.AlsMath

/-!
Property theorems C76: the functionals on the graphics card.

Vocabulary: `h` is the memory of the card; `out.values h` and `u.values h` are the contents of the output and the input as the processor sees them. `does as h h'` says that
the launches and copies `as`, one after the other, turn `h` into `h'` in every interleaving of the threads. The functions of the processor are those of C40.
-/

namespace Verif.Props.CudaFunctionals
open Verif.Gpu Verif.CudaMemory Verif.Functionals Verif.Structure Verif.Boundary Verif.Iterate Verif.CudaFunctionals

variable {h : Heap ℝ} {out u : CardVol}

/-- Output and input are volumes on the card with the same variables and no allocation in common. -/
structure Volumes (out u : CardVol) (h : Heap ℝ) : Prop where
  output : out.OnCard h
  input : u.OnCard h
  disjoint : ∀ b ∈ u.bufs, b ∉ out.bufs
  count : u.bufs.length = out.bufs.length

/-- `b` is an allocation of `size` numbers which belongs neither to the input nor to the output. -/
structure Buffer (out u : CardVol) (h : Heap ℝ) (b : Nat) (size : Int) : Prop where
  input : b ∉ u.bufs
  output : b ∉ out.bufs
  size : ∀ i : Int, h.inb (b, i) = decide (0 ≤ i ∧ i < size)

/-- In every interleaving the card leaves in the output what the processor computes, and changes nothing else but the buffers. -/
def SameAsProcessor (card : Res (List Action)) (processor : Vol → Vol → Res Vol) (out u : CardVol) (buffers : List Nat) (h : Heap ℝ) : Prop :=
  ∃ as h' result, card = .ok as ∧ does as h h' ∧ processor (out.values h) (u.values h) = .ok result ∧
    (∀ var c, (out.values h').at var c = result.at var c) ∧ h'.inb = h.inb ∧ ∀ l : Nat × Int, l.1 ∉ out.bufs → l.1 ∉ buffers → h'.val l = h.val l

/-- The card and the processor both compute something, but not the same in the cell `c` of the variable `var`. -/
def DiffersAt (card : Res (List Action)) (processor : Vol → Vol → Res Vol) (out u : CardVol) (h : Heap ℝ) (var : Nat) (c : I3) : Prop :=
  ∃ as h' result, card = .ok as ∧ does as h h' ∧ processor (out.values h) (u.values h) = .ok result ∧ (out.values h').at var c ≠ result.at var c

/-- C76, identity. -/
theorem C76_identity (hv : Volumes out u h) (hn : out.n = u.n) (hg : out.g = 0) (weight : ℝ) :
    SameAsProcessor (identityCUDA (List.range u.bufs.length) out u weight) (fun o v => identity o v weight) out u [] h := by
  have hsize : out.total = u.n := by rw [CardVol.total, hn, hg]; ext <;> simp
  obtain ⟨as, h', e1, e2, e3, e4, e5⟩ := points_does (fun v => weight * v) hv.output hv.input hv.disjoint hsize (List.range u.bufs.length) List.nodup_range (fun v hv' => List.mem_range.1 hv')
    (fun v hv' => hv.count ▸ List.mem_range.1 hv')
  obtain ⟨r, f1, f2, f3⟩ := identity_accumulates u.n u.g hv.input.g u.bufs.length (out.values h) (u.values h) weight
    (by rw [← hn, ← hg, hv.count]; exact values_shape out h) (values_shape u h)
  refine ⟨as, h', r, e1, e2, f1, added_same_in e5 f3 fun var c hc => ?_, e3, fun l hl _ => e4 l hl⟩
  have hc : inSize out.total c = true := hc
  have hc' : c ∈ box 0 u.n := by rw [hsize, inSize_iff] at hc; simp only [mem_box, I3.zero_x, I3.zero_y, I3.zero_z]; omega
  simp only [List.mem_range, hc', and_true]
  split_ifs <;> simp

/-- The Legendre polynomials of the library: `P` computes their values `L` between -1 and 1. -/
structure Library (P : Int → ℝ → Res ℝ) (L : Nat → ℝ → ℝ) : Prop where
  values : ∀ (r : Nat) (x : ℝ), |x| ≤ 1 → P r x = .ok (L r x)
  polynomials : ∀ x, IsLegendre x fun n => L n x

/-- C76, pointwise Legendre polynomials. C76 in full would say this for all degrees, all values and all grids. Proved: degrees 0 and 1, values between the given bounds, and grids the
processor accepts. Missing, because it is false: degrees from 2 on (`C76_legendre_fails_for_higher_degrees`, `C76_legendre_fails_from_degree_twelve`) and the grids which the processor rejects
(`C76_legendre_fails_for_rejected_grids`). Outside of the bounds the function of the library throws, that of the card does not. -/
theorem C76_legendre_pointwise_partial {P : Int → ℝ → Res ℝ} {L : Nat → ℝ → ℝ} (hP : Library P L) {lo hi : ℝ} (hlo : lo < hi) {degree : Int} (hdeg : degree = 0 ∨ degree = 1)
    (vars : List Nat) (hnd : vars.Nodup) (hvars : ∀ v ∈ vars, v < u.bufs.length) (lengths : V3 ℝ) (hl : lengths.z ≤ 1 ∧ lengths.y ≠ 1)
    (hv : Volumes out u h) (hn : out.n = u.n) (hg : out.g = 0) (hval : ∀ v ∈ vars, ∀ c, InBlock u.n c → lo ≤ (u.values h).inner v c ∧ (u.values h).inner v c ≤ hi) (weight : ℝ) :
    SameAsProcessor (legendrePointWiseCUDA lo hi degree vars out u weight) (fun o v => legendrePointWise P lo hi degree vars lengths o v weight) out u [] h := by
  have hsize : out.total = u.n := by rw [CardVol.total, hn, hg]; ext <;> simp
  have h0 : 0 ≤ degree := by omega
  have hLd : ∀ x, L degree.toNat x = AlsMath.legendre degree.toNat x := by
    intro x
    obtain rfl | rfl := hdeg
    · simpa [AlsMath.legendre] using (hP.polynomials x).zero
    · simpa [AlsMath.legendre] using (hP.polynomials x).one
  obtain ⟨as, h', e1, e2, e3, e4, e5⟩ := points_does (fun v => weight * AlsMath.legendre degree.toNat ((v - lo) / (hi - lo))) hv.output hv.input hv.disjoint hsize vars hnd hvars
    (fun v hv' => hv.count ▸ hvars v hv')
  obtain ⟨r, f1, f2, f3⟩ := legendrePointWise_accumulates (fun _ => P degree) (fun _ => L degree.toNat)
    (fun _ x hx => by have := hP.values degree.toNat x hx; rwa [Int.toNat_of_nonneg h0] at this) lo hi hlo degree u.bufs.length vars hnd hvars lengths hl u.n u.g hv.input.g
    (out.values h) (u.values h) weight (by rw [← hn, ← hg, hv.count]; exact values_shape out h) ⟨values_shape u h, hval⟩
  refine ⟨as, h', r, ?_, e2, f1, added_same_in e5 f3 fun var c hc => ?_, e3, fun l hl _ => e4 l hl⟩
  · rw [legendrePointWiseCUDA, ← e1]
    congr 1
    funext var
    rw [if_pos (by omega)]
  · have hc : inSize out.total c = true := hc
    have hc' : c ∈ box 0 u.n := by rw [hsize, inSize_iff] at hc; simp only [mem_box, I3.zero_x, I3.zero_y, I3.zero_z]; omega
    simp only [hc', and_true, hLd]
    split_ifs <;> simp

theorem legendre_cast (n : Nat) : ((AlsMath.legendre n (1 : ℚ) : ℚ) : ℝ) = AlsMath.legendre n (1 : ℝ) ∧ ((AlsMath.legendre (n + 1) (1 : ℚ) : ℚ) : ℝ) = AlsMath.legendre (n + 1) (1 : ℝ) := by
  induction n with
  | zero => simp [AlsMath.legendre]
  | succ n ih =>
    refine ⟨ih.2, ?_⟩
    rw [AlsMath.legendre, AlsMath.legendre, ← ih.1, ← ih.2]
    push_cast
    ring

theorem legendre_one {L : Nat → ℝ} (hL : IsLegendre 1 L) (n : Nat) : L n = 1 ∧ L (n + 1) = 1 := by
  induction n with
  | zero => exact ⟨hL.zero, hL.one⟩
  | succ n ih =>
    refine ⟨ih.2, ?_⟩
    have hb := hL.bonnet n
    rw [ih.1, ih.2] at hb
    have hn : (n : ℝ) + 2 ≠ 0 := by positivity
    have : ((n : ℝ) + 2) * L (n + 2) = (n + 2) * 1 := by rw [hb]; ring
    exact mul_left_cancel₀ hn this

/-- C76 fails for the pointwise Legendre polynomials of every degree from 2 to 11: card and processor disagree wherever the state has the maximal value. -/
theorem C76_legendre_fails_for_higher_degrees {P : Int → ℝ → Res ℝ} {L : Nat → ℝ → ℝ} (hP : Library P L) {lo hi : ℝ} (hlo : lo < hi) {degree : Int} (hdeg : 2 ≤ degree ∧ degree ≤ 11)
    (vars : List Nat) (hnd : vars.Nodup) (hvars : ∀ v ∈ vars, v < u.bufs.length) (lengths : V3 ℝ) (hl : lengths.z ≤ 1 ∧ lengths.y ≠ 1)
    (hv : Volumes out u h) (hn : out.n = u.n) (hg : out.g = 0) (hval : ∀ v ∈ vars, ∀ c, InBlock u.n c → lo ≤ (u.values h).inner v c ∧ (u.values h).inner v c ≤ hi)
    {weight : ℝ} (hw : weight ≠ 0) {var : Nat} (hvar : var ∈ vars) {c : I3} (hc : InBlock u.n c) (hmax : (u.values h).inner var c = hi) :
    DiffersAt (legendrePointWiseCUDA lo hi degree vars out u weight) (fun o v => legendrePointWise P lo hi degree vars lengths o v weight) out u h var c := by
  have hsize : out.total = u.n := by rw [CardVol.total, hn, hg]; ext <;> simp
  obtain ⟨as, h', e1, e2, e3, e4, e5⟩ := points_does (fun v => weight * AlsMath.legendre degree.toNat ((v - lo) / (hi - lo))) hv.output hv.input hv.disjoint hsize vars hnd hvars
    (fun v hv' => hv.count ▸ hvars v hv')
  obtain ⟨r, f1, f2, f3⟩ := legendrePointWise_accumulates (fun _ => P degree) (fun _ => L degree.toNat)
    (fun _ x hx => by have := hP.values degree.toNat x hx; rwa [Int.toNat_of_nonneg (by omega)] at this) lo hi hlo degree u.bufs.length vars hnd hvars lengths hl u.n u.g hv.input.g
    (out.values h) (u.values h) weight (by rw [← hn, ← hg, hv.count]; exact values_shape out h) ⟨values_shape u h, hval⟩
  have hbox : c ∈ box 0 u.n := by obtain ⟨h1, h2, h3⟩ := hc; simp only [mem_box, I3.zero_x, I3.zero_y, I3.zero_z]; omega
  have hin : inSize out.total c = true := by rw [hsize, inSize_iff]; obtain ⟨h1, h2, h3⟩ := hc; omega
  have hvo : var < out.bufs.length := hv.count ▸ hvars var hvar
  refine ⟨as, h', r, ?_, e2, f1, ?_⟩
  · rw [legendrePointWiseCUDA, ← e1]
    congr 1
    funext var
    rw [if_pos (by omega)]
  · have hq : (hi - lo) / (hi - lo) = 1 := div_self (by linarith)
    obtain ⟨n, hdn⟩ : ∃ n, degree.toNat = n + 2 := ⟨degree.toNat - 2, by omega⟩
    have hsmall := (legendre_at_one_small n).1
    have hneq : AlsMath.legendre (n + 2) (1 : ℝ) ≠ 1 := by
      rw [← (legendre_cast (n + 2)).1]
      intro e
      have : AlsMath.legendre (n + 2) (1 : ℚ) = 1 := by exact_mod_cast e
      rw [this] at hsmall
      norm_num at hsmall
    rw [e5, f3, values_at, if_pos hin, List.getElem?_eq_getElem hvo]
    simp only [Option.map_some, hmax, hq, hdn, hvar, hbox, and_self, if_true, (legendre_one (hP.polynomials 1) (n + 2)).1]
    intro e
    have := mul_left_cancel₀ hw (add_left_cancel (Option.some.inj e))
    exact hneq this

/-- C76 fails for the pointwise Legendre polynomials from degree 12 on: the card throws, the processor computes. -/
theorem C76_legendre_fails_from_degree_twelve {P : Int → ℝ → Res ℝ} {L : Nat → ℝ → ℝ} (hP : Library P L) {lo hi : ℝ} (hlo : lo < hi) {degree : Int} (hdeg : 12 ≤ degree)
    (vars : List Nat) (hne : vars ≠ []) (hnd : vars.Nodup) (hvars : ∀ v ∈ vars, v < u.bufs.length) (lengths : V3 ℝ) (hl : lengths.z ≤ 1 ∧ lengths.y ≠ 1)
    (hv : Volumes out u h) (hn : out.n = u.n) (hg : out.g = 0) (hval : ∀ v ∈ vars, ∀ c, InBlock u.n c → lo ≤ (u.values h).inner v c ∧ (u.values h).inner v c ≤ hi) (weight : ℝ) :
    legendrePointWiseCUDA lo hi degree vars out u weight = .error .thrown ∧ ∃ result, legendrePointWise P lo hi degree vars lengths (out.values h) (u.values h) weight = .ok result := by
  obtain ⟨r, f1, f2, f3⟩ := legendrePointWise_accumulates (fun _ => P degree) (fun _ => L degree.toNat)
    (fun _ x hx => by have := hP.values degree.toNat x hx; rwa [Int.toNat_of_nonneg (by omega)] at this) lo hi hlo degree u.bufs.length vars hnd hvars lengths hl u.n u.g hv.input.g
    (out.values h) (u.values h) weight (by rw [← hn, ← hg, hv.count]; exact values_shape out h) ⟨values_shape u h, hval⟩
  refine ⟨?_, r, f1⟩
  obtain ⟨v, vs, rfl⟩ := List.exists_cons_of_ne_nil hne
  rw [legendrePointWiseCUDA, List.mapM_cons, if_neg (by omega)]
  rfl

/-- C76 fails for the pointwise Legendre polynomials on grids where a cell is longer than 1 in z or exactly 1 long in y (so on every one-dimensional grid of unit height):
the processor throws, the card computes. -/
theorem C76_legendre_fails_for_rejected_grids (P : Int → ℝ → Res ℝ) (lo hi : ℝ) {degree : Int} (hdeg : 0 ≤ degree ∧ degree ≤ 11) (vars : List Nat) (hnd : vars.Nodup)
    (hvars : ∀ v ∈ vars, v < u.bufs.length) (lengths : V3 ℝ) (hl : 1 < lengths.z ∨ lengths.y = 1) (hv : Volumes out u h) (hn : out.n = u.n) (hg : out.g = 0) (weight : ℝ) :
    legendrePointWise P lo hi degree vars lengths (out.values h) (u.values h) weight = .error .thrown ∧
      ∃ as h', legendrePointWiseCUDA lo hi degree vars out u weight = .ok as ∧ does as h h' := by
  have hsize : out.total = u.n := by rw [CardVol.total, hn, hg]; ext <;> simp
  obtain ⟨as, h', e1, e2, -⟩ := points_does (fun v => weight * AlsMath.legendre degree.toNat ((v - lo) / (hi - lo))) hv.output hv.input hv.disjoint hsize vars hnd hvars
    (fun v hv' => hv.count ▸ hvars v hv')
  refine ⟨by rw [legendrePointWise, if_pos hl], as, h', ?_, e2⟩
  rw [legendrePointWiseCUDA, ← e1]
  congr 1
  funext var
  rw [if_pos hdeg]

/-- C76, logarithmic entropy. The two work arrays are those of the class, the first of them created for this number of cells. -/
theorem C76_log_entropy (gamma : ℝ) {rho E : Nat} {momenta : List Nat} (hm3 : 1 ≤ momenta.length ∧ momenta.length ≤ 3) (hr : rho < u.bufs.length) (hE : E < u.bufs.length)
    (hm : ∀ v ∈ momenta, v < u.bufs.length) (grid : Grid ℝ) (hd : grid.dims = u.n) (hpos : 1 ≤ u.n.x ∧ 1 ≤ u.n.y ∧ 1 ≤ u.n.z)
    (hfit : u.total.x * u.total.y * u.total.z < 2 ^ 64) (hint : u.n.x * u.n.y * u.n.z < 2 ^ 31) (hv : Volumes out u h) (hn : out.n = ⟨1, 1, 1⟩) (hg : out.g = 0)
    {buffer bufferOut : Nat} (hb : Buffer out u h buffer (u.n.x * u.n.y * u.n.z)) (hbo : Buffer out u h bufferOut 1) (weight : ℝ) :
    SameAsProcessor (logEntropyCUDA gamma rho E momenta grid.lengths buffer u.n bufferOut out u weight) (fun o v => logEntropy gamma rho E momenta grid o v weight)
      out u [buffer, bufferOut] h := by
  have hone : out.total = ⟨1, 1, 1⟩ := by rw [CardVol.total, hn, hg]; ext <;> simp
  obtain ⟨as, h', e1, e2, e3, e4, e5⟩ := entropy_does gamma hm3 grid.lengths weight hv.output hv.input hone hr hE hm (hv.count ▸ hE) ⟨hb.input, hb.output⟩
    ⟨hbo.input, hbo.output⟩ hb.size hbo.size
  obtain ⟨r, f1, f2, f3⟩ := logEntropy_accumulates gamma u.bufs.length rho E momenta hr hE hm grid u.n u.g hd ⟨rfl, hpos, hv.input.g, hfit⟩ hint
    (out.values h) (u.values h) weight (by rw [← hn, ← hg, hv.count]; exact values_shape out h) (values_shape u h)
  refine ⟨as, h', r, e1, e2, f1, added_same_in e5 f3 fun var c hc => ?_, e3, fun l hl hl' => e4 l hl fun e => hl' (by simpa using e)⟩
  have hc : inSize out.total c = true := hc
  have hc' : c = 0 := by
    rw [hone, inSize_iff] at hc
    simp only at hc
    ext <;> simp only [I3.zero_x, I3.zero_y, I3.zero_z] <;> omega
  simp only [hc', and_true]
  split_ifs <;> simp

/-- C76, structure functions: for the same boundary condition on all active sides. -/
theorem C76_structure_cube (p : ℝ) (bc : BC) (sides : Nat → Option BC) (H : Int) (hv : Volumes out u h) (hpos : 1 ≤ u.n.x ∧ 1 ≤ u.n.y ∧ 1 ≤ u.n.z)
    (hflat : u.n.y = 1 → u.n.z = 1) (hsides : ∀ s < 2 * dimsOf u.n, sides s = some bc) (hn : out.n = ⟨H, 1, 1⟩) (hg : out.g = 0)
    {buffer : Nat} (hb : Buffer out u h buffer (u.n.x * u.n.y * u.n.z)) (weight : ℝ) :
    SameAsProcessor (structureCubeCUDA p sides (dimsOf u.n) H buffer out u weight) (fun o v => structureCube p sides (dimsOf u.n) H o v weight) out u [buffer] h := by
  have hout : out.total = ⟨H, 1, 1⟩ := by rw [CardVol.total, hn, hg]; ext <;> simp
  obtain ⟨h0, eh0⟩ : ∃ h0 : Heap ℝ, h0 = ⟨h.inb, fun l => if l.1 ∈ out.bufs then 0 else h.val l⟩ := ⟨_, rfl⟩
  have i0 : h0.inb = h.inb := by rw [eh0]
  have k0 : ∀ l : Nat × Int, l.1 ∉ out.bufs → h0.val l = h.val l := by intro l hl; rw [eh0]; exact if_neg hl
  have u0 : u.values h0 = u.values h := values_keep fun b hb i => k0 (b, i) (hv.disjoint b hb)
  obtain ⟨as, h', e1, e2, e3, e4, e5⟩ := cube_does p bc sides H (hv.output.congr i0) (hv.input.congr i0) hv.disjoint hpos hflat hsides hout hv.count hb.input hb.output
    (by rw [i0]; exact hb.size)
  obtain ⟨r, f1, f2, f3⟩ := structureCube_sets p bc sides H u.n u.g hpos hflat hv.input.g hsides u.bufs.length (out.values h) (u.values h) weight
    (by rw [← hn, ← hg, hv.count]; exact values_shape out h) (values_shape u h)
  refine ⟨.host (zeroVol out) :: as, h', r, ?_, ⟨h0, by rw [zeroVol, eh0], e2⟩, f1, fun var c => ?_, e3.trans i0,
    fun l hl hl' => (e4 l hl (by simpa using hl')).trans (k0 l hl)⟩
  · rw [structureCubeCUDA, e1]; rfl
  · by_cases hin : inSize ⟨H, 1, 1⟩ c = true ∧ var < u.bufs.length
    · obtain ⟨hc, hvar⟩ := hin
      have hvo : var < out.bufs.length := hv.count ▸ hvar
      rw [f3 var c hvar hc, e5, values_at, if_pos (by rw [hout]; exact hc), List.getElem?_eq_getElem hvo, u0, eh0]
      simp only [Option.map_some, List.getElem_mem, if_true, if_pos hvar, zero_add, cubeTerm]
      rw [inSize_iff] at hc
      simp only at hc
      have hy : c.y = 0 := by omega
      have hz : c.z = 0 := by omega
      simp only [hy, hz, true_and]
      split_ifs with hs
      · rw [Finset.sum_div]
      · rfl
    · have l1 : (out.values h').at var c = none := by
        rw [Vol.at]
        split_ifs with hc
        · have hc : inSize out.total c = true := hc
          rw [hout] at hc
          have : ¬ var < out.bufs.length := fun e => hin ⟨hc, hv.count ▸ e⟩
          simp [CardVol.values, this]
        · rfl
      rw [l1, Vol.at, f2.total]
      split_ifs with hc
      · have e0 : (⟨H, 1, 1⟩ : I3) + 0 + 0 = ⟨H, 1, 1⟩ := by ext <;> simp
        rw [e0] at hc
        have : ¬ var < r.areas.length := fun e => hin ⟨hc, f2.2.2 ▸ e⟩
        simp [this]
      · rfl

/-! Concrete cases. -/

/-- Memory for the examples: an input with `k` variables on `n` cells with `g` ghost cells (allocations 0, …, k - 1), an output with as many variables of size `m`
(allocations k, …, 2 k - 1), a buffer of `n` cells (allocation 2 k) and one of a single number (allocation 2 k + 1). The contents are all ones in the input and zero elsewhere. -/
def exHeap (k : Nat) (n g m : I3) : Heap ℝ where
  inb l := decide (0 ≤ l.2 ∧ l.2 < (if l.1 < k then (n + g + g).x * (n + g + g).y * (n + g + g).z else if l.1 < 2 * k then m.x * m.y * m.z
    else if l.1 = 2 * k then n.x * n.y * n.z else 1))
  val l := if l.1 < k then 1 else 0

/-- The input volume of the examples. -/
def exIn (k : Nat) (n g : I3) : CardVol := ⟨n, g, List.range k⟩
/-- The output volume of the examples. -/
def exOut (k : Nat) (m : I3) : CardVol := ⟨m, 0, List.range' k k⟩

theorem exVolumes (k : Nat) (n g m : I3) (hn : 0 ≤ n.x ∧ 0 ≤ n.y ∧ 0 ≤ n.z) (hg : 0 ≤ g.x ∧ 0 ≤ g.y ∧ 0 ≤ g.z) (hm : 0 ≤ m.x ∧ 0 ≤ m.y ∧ 0 ≤ m.z) :
    Volumes (exOut k m) (exIn k n g) (exHeap k n g m) where
  output := ⟨hm, by simp [exOut], List.nodup_range', by
    intro b hb i
    simp only [exOut, List.mem_range'_1] at hb
    have h1 : ¬ b < k := by omega
    have h2 : b < 2 * k := by omega
    simp [exHeap, h1, h2, exOut, CardVol.total]⟩
  input := ⟨hn, hg, List.nodup_range, by
    intro b hb i
    simp only [exIn, List.mem_range] at hb
    simp only [exHeap, if_pos hb]
    rfl⟩
  disjoint := by
    intro b hb hb'
    simp only [exIn, exOut, List.mem_range, List.mem_range'_1] at hb hb'
    omega
  count := by simp [exIn, exOut]

theorem exBuffer (k : Nat) (n g m : I3) : Buffer (exOut k m) (exIn k n g) (exHeap k n g m) (2 * k) (n.x * n.y * n.z) where
  input := by simp [exIn]; omega
  output := by simp [exOut]; omega
  size i := by
    have h1 : ¬ 2 * k < k := by omega
    simp [exHeap, h1]

theorem exSingle (k : Nat) (n g m : I3) : Buffer (exOut k m) (exIn k n g) (exHeap k n g m) (2 * k + 1) 1 where
  input := by simp [exIn]; omega
  output := by simp [exOut]; omega
  size i := by
    have h1 : ¬ 2 * k + 1 < k := by omega
    have h2 : ¬ 2 * k + 1 < 2 * k := by omega
    simp [exHeap, h1]

theorem exInner {k : Nat} {n g m : I3} {v : Nat} (hv : v < k) (c : I3) : ((exIn k n g).values (exHeap k n g m)).inner v c = 1 := by
  have : v < (exIn k n g).bufs.length := by simpa [exIn] using hv
  rw [values_inner this]
  simp [exIn, exHeap, hv]

example := C76_identity (exVolumes 2 ⟨3, 4, 1⟩ ⟨2, 2, 0⟩ ⟨3, 4, 1⟩ (by decide) (by decide) (by decide)) rfl rfl 5

/-- The Legendre polynomials by Bonnet's recurrence. -/
noncomputable def exL : Nat → ℝ → ℝ
  | 0, _ => 1
  | 1, x => x
  | n + 2, x => ((2 * n + 3) * x * exL (n + 1) x - (n + 1) * exL n x) / (n + 2)

theorem exLibrary : Library (fun r x => .ok (exL r.toNat x)) exL where
  values r x _ := by simp
  polynomials x := ⟨by simp [exL], by simp [exL], fun n => by
    have hn : (n : ℝ) + 2 ≠ 0 := by positivity
    simp only [exL]
    field_simp⟩

example := C76_legendre_pointwise_partial exLibrary (lo := 0) (hi := 2) (by norm_num) (degree := 1) (Or.inr rfl) [1] (by decide) (by simp [exIn]) ⟨1, 1 / 2, 1⟩ (by norm_num)
  (exVolumes 2 ⟨3, 4, 1⟩ ⟨2, 2, 0⟩ ⟨3, 4, 1⟩ (by decide) (by decide) (by decide)) rfl rfl
  (by intro v hv c _; rw [List.mem_singleton.1 hv, exInner (by decide)]; norm_num) 5

example := C76_legendre_fails_for_higher_degrees exLibrary (lo := 0) (hi := 1) (by norm_num) (degree := 2) (by decide) [1] (by decide) (by simp [exIn]) ⟨1, 1 / 2, 1⟩ (by norm_num)
  (exVolumes 2 ⟨3, 4, 1⟩ ⟨2, 2, 0⟩ ⟨3, 4, 1⟩ (by decide) (by decide) (by decide)) rfl rfl
  (by intro v hv c _; rw [List.mem_singleton.1 hv, exInner (by decide)]; norm_num) (weight := 5) (by norm_num) (var := 1) (by simp) (c := ⟨1, 2, 0⟩) (by simp [InBlock, exIn])
  (exInner (by decide) _)

example := C76_legendre_fails_from_degree_twelve exLibrary (lo := 0) (hi := 1) (by norm_num) (degree := 12) (by decide) [1] (by decide) (by decide) (by simp [exIn]) ⟨1, 1 / 2, 1⟩ (by norm_num)
  (exVolumes 2 ⟨3, 4, 1⟩ ⟨2, 2, 0⟩ ⟨3, 4, 1⟩ (by decide) (by decide) (by decide)) rfl rfl
  (by intro v hv c _; rw [List.mem_singleton.1 hv, exInner (by decide)]; norm_num) 5

example := C76_legendre_fails_for_rejected_grids (fun r x => .ok (exL r.toNat x)) 0 1 (degree := 1) (by decide) [0] (by decide) (by simp [exIn]) ⟨1 / 3, 1, 1⟩ (by norm_num)
  (exVolumes 1 ⟨3, 1, 1⟩ ⟨2, 0, 0⟩ ⟨3, 1, 1⟩ (by decide) (by decide) (by decide)) rfl rfl 5

example := C76_log_entropy (1.4 : ℝ) (rho := 0) (E := 3) (momenta := [1, 2]) (by decide) (by simp [exIn]) (by simp [exIn]) (by simp [exIn])
  (Grid.make ⟨0, 0, 0⟩ ⟨1, 1, 1⟩ ⟨3, 4, 1⟩ 0 ⟨3, 4, 1⟩) rfl
  (by decide) (by decide) (by decide) (exVolumes 4 ⟨3, 4, 1⟩ ⟨2, 2, 0⟩ ⟨1, 1, 1⟩ (by decide) (by decide) (by decide)) rfl rfl (exBuffer 4 _ _ _) (exSingle 4 _ _ _) 5

example := C76_structure_cube (2 : ℝ) .periodic (fun _ => some .periodic) 3 (exVolumes 4 ⟨3, 4, 1⟩ ⟨2, 2, 0⟩ ⟨3, 1, 1⟩ (by decide) (by decide) (by decide)) (by decide) (by decide)
  (fun _ _ => rfl) rfl rfl (exBuffer 4 _ _ _) 5

end Verif.Props.CudaFunctionals
