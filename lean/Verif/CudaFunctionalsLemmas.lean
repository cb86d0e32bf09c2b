import Verif.CudaFunctionals
import Verif.FunctionalsLemmas

/-! Helper lemmas for C76 and C77. -/

namespace Verif.CudaFunctionals
open Gpu CudaMemory Functionals Structure Boundary

/-- A launch where thread `i` changes nothing but element `i` of one allocation. -/
theorem flat_yields {h : Heap ℝ} {out size bs : Nat} {kernel : Nat → Prog (Nat × Int) ℝ} (hb : 0 < bs) (f : Nat → ℝ) (R : Nat → Nat × Int → Prop)
    (hR : ∀ i < size, ∀ l, R i l → l.1 ≠ out) (huse : ∀ i < size, Uses (R i) (fun l => l = (out, (i : Int))) (kernel i))
    (hex : ∀ i < size, ∃ m, (kernel i).exec h = .ok m ∧ m.val (out, (i : Int)) = f i) :
    ∃ h', yields (flatLaunch size bs kernel) h h' ∧ h'.inb = h.inb ∧ (∀ i < size, h'.val (out, ((i : Nat) : Int)) = f i) ∧
      ∀ l, (∀ i < size, l ≠ (out, ((i : Nat) : Int))) → h'.val l = h.val l := by
  obtain ⟨h', e1, e2, e3, e4⟩ := foldlM_inv (fun m c => (kernel c).exec m) (List.range size) h
    (fun pre b => b.inb = h.inb ∧ (∀ i ∈ pre, b.val (out, ((i : Nat) : Int)) = f i) ∧ ∀ l, (∀ i ∈ pre, l ≠ (out, ((i : Nat) : Int))) → b.val l = h.val l)
    ⟨rfl, by simp, fun _ _ => rfl⟩ (by
      rintro pre i post b hl ⟨h1, h2, h3⟩
      have hi : i < size := List.mem_range.1 (by rw [hl]; simp)
      have hnd : i ∉ pre := by
        have := List.nodup_range (n := size)
        rw [hl] at this
        intro hm
        exact (List.nodup_append.1 this).2.2 i hm i (by simp) rfl
      obtain ⟨m, m1, m2⟩ := hex i hi
      obtain ⟨b', k1, k2, k3, k4⟩ := exec_congr (m2 := b) (huse i hi) h1 (by
        rintro l (hl | rfl)
        · exact h3 l fun j _ e => hR i hi l hl (by rw [e])
        · refine h3 _ fun j hj e => hnd ?_
          have := congrArg Prod.snd e
          simp only at this
          have : i = j := by omega
          rw [this]; exact hj) m1
      refine ⟨b', k1, k2.trans h1, fun j hj => ?_, fun l hl => ?_⟩
      · rcases List.mem_append.1 hj with hj | hj
        · rw [k4 _ (fun e => hnd (by
            have := congrArg Prod.snd e
            simp only at this
            have : i = j := by omega
            rw [this]; exact hj)), h2 j hj]
        · rw [List.mem_singleton.1 hj, k3 _ (Or.inr rfl), m2]
      · rw [k4 l (hl i (by simp)), h3 l fun j hj => hl j (by simp [hj])])
  refine ⟨h', ?_, e2, fun i hi => e3 i (List.mem_range.2 hi), fun l hl => e4 l fun i hi => hl i (List.mem_range.1 hi)⟩
  refine yields_cells (List.range size) List.nodup_range id (fun _ _ _ _ e => e) ?_ ?_ ?_ (fun i hi => huse i (List.mem_range.1 hi)) ?_ e1
  · intro i hi
    exact lt_of_lt_of_le (List.mem_range.1 hi) (threadCount_ge hb)
  · intro i hi
    have := List.mem_range.1 hi
    simp only [flatLaunch, id, if_neg (by omega : ¬ size ≤ i)]
  · intro i _ hi
    simp only [flatLaunch]
    rw [if_pos]
    by_contra hc
    exact hi i (List.mem_range.2 (by omega)) rfl
  · rintro i hi j hj hij l rfl hr
    rcases hr with hr | hr
    · exact hR j (List.mem_range.1 hj) _ hr rfl
    · have := congrArg Prod.snd hr
      simp only at this
      omega

section
variable {h h' : Heap ℝ} {v out u : CardVol}

theorem CardVol.OnCard.total (hv : v.OnCard h) : 0 ≤ v.total.x ∧ 0 ≤ v.total.y ∧ 0 ≤ v.total.z := by
  obtain ⟨h1, h2, -, -⟩ := hv
  simp only [CardVol.total, I3.add_x, I3.add_y, I3.add_z]
  omega

theorem toNat_size {s : I3} (hs : 0 ≤ s.x ∧ 0 ≤ s.y ∧ 0 ≤ s.z) : (⟨s.x.toNat, s.y.toNat, s.z.toNat⟩ : I3) = s := by
  rw [I3.ext_iff]; simp only; omega

theorem cells_eq {s : I3} (hs : 0 ≤ s.x ∧ 0 ≤ s.y ∧ 0 ≤ s.z) : ((cells s : Nat) : Int) = s.x * s.y * s.z := by
  simp only [cells]
  push_cast
  rw [Int.toNat_of_nonneg hs.1, Int.toNat_of_nonneg hs.2.1, Int.toNat_of_nonneg hs.2.2]

theorem at3_spec {s c : I3} (hc : inSize s c = true) : ∃ i, i < cells s ∧ at3 s c = ((i : Nat) : Int) ∧ cellOf s i = c := by
  have hs : 0 ≤ s.x ∧ 0 ≤ s.y ∧ 0 ≤ s.z := by simp only [inSize_iff] at hc; omega
  have hc' : inSize ⟨s.x.toNat, s.y.toNat, s.z.toNat⟩ c = true := by rw [toNat_size hs]; exact hc
  exact ⟨encode s.x.toNat s.y.toNat c, encode_lt hc', index_eq hc', decode_encode hc'⟩

theorem cellOf_mem {s : I3} (hs : 0 ≤ s.x ∧ 0 ≤ s.y ∧ 0 ≤ s.z) {i : Nat} (hi : i < cells s) : inSize s (cellOf s i) = true ∧ at3 s (cellOf s i) = ((i : Nat) : Int) := by
  have hd := decode_mem (nx := s.x.toNat) (ny := s.y.toNat) (nz := s.z.toNat) hi
  refine ⟨?_, ?_⟩
  · rw [toNat_size hs] at hd; exact hd
  · simp only [at3, cellOf]
    rw [index_eq hd, encode_decode]

theorem CardVol.OnCard.cell (hv : v.OnCard h) {b : Nat} (hb : b ∈ v.bufs) {c : I3} (hc : inSize v.total c = true) : h.inb (b, at3 v.total c) = true := by
  obtain ⟨i, hi, e, -⟩ := at3_spec hc
  rw [hv.inb b hb, e, ← cells_eq hv.total]
  exact decide_eq_true ⟨by omega, by exact_mod_cast hi⟩

theorem CardVol.OnCard.elem (hv : v.OnCard h) {b : Nat} (hb : b ∈ v.bufs) {i : Nat} (hi : i < cells v.total) : h.inb (b, (i : Int)) = true := by
  rw [hv.inb b hb, ← cells_eq hv.total]
  exact decide_eq_true ⟨by omega, by exact_mod_cast hi⟩

theorem CardVol.OnCard.congr (hv : v.OnCard h) (hi : h'.inb = h.inb) : v.OnCard h' := ⟨hv.n, hv.g, hv.nodup, fun b hb i => by rw [hi]; exact hv.inb b hb i⟩

theorem inner_mem (hv : u.OnCard h) {c : I3} (hc : inSize u.n c = true) : inSize u.total (c + u.g) = true := by
  have := hv.g
  simp only [inSize_iff] at hc
  simp only [inSize_iff, CardVol.total, I3.add_x, I3.add_y, I3.add_z]
  omega

theorem bufOf_ok {var : Nat} (hv : var < u.bufs.length) : bufOf u var = .ok u.bufs[var] := by
  simp [bufOf, hv]

theorem values_at (var : Nat) (c : I3) : (v.values h).at var c = if inSize v.total c then v.bufs[var]?.map fun b => h.val (b, at3 v.total c) else none := by
  have ht : (v.values h).total = v.total := rfl
  rw [Vol.at, ht]
  split
  · simp [CardVol.values, List.getElem?_map, Function.comp_def]
  · rfl

theorem values_shape (v : CardVol) (h : Heap ℝ) : (v.values h).Shape v.n v.g v.bufs.length := ⟨rfl, rfl, by simp [CardVol.values]⟩

theorem values_inner {var : Nat} (hv : var < u.bufs.length) (c : I3) : (u.values h).inner var c = h.val (u.bufs[var], at3 u.total (c + u.g)) := by
  simp [Vol.inner, CardVol.values, hv]

/-- Volumes with other allocations keep their contents. -/
theorem values_keep (hk : ∀ b ∈ u.bufs, ∀ i, h'.val (b, i) = h.val (b, i)) : u.values h' = u.values h := by
  simp only [CardVol.values]
  congr 1
  refine List.map_congr_left fun b hb => ?_
  funext c
  exact hk b hb _

/-- An addition to one allocation of the output. -/
theorem added_of (ho : out.OnCard h) {var : Nat} (hv : var < out.bufs.length) (δ : I3 → ℝ)
    (h1 : ∀ c, inSize out.total c = true → h'.val (out.bufs[var], at3 out.total c) = h.val (out.bufs[var], at3 out.total c) + δ c)
    (h2 : ∀ l : Nat × Int, l.1 ≠ out.bufs[var] → l.1 ∈ out.bufs → h'.val l = h.val l) :
    Added (fun j c => if j = var then δ c else 0) (out.values h) (out.values h') := by
  intro j c
  rw [values_at, values_at]
  by_cases hc : inSize out.total c = true
  · rw [if_pos hc, if_pos hc]
    by_cases hj : j = var
    · subst hj
      simp [hv, h1 c hc]
    · by_cases hjl : j < out.bufs.length
      · have : out.bufs[j] ≠ out.bufs[var] := fun e => hj ((List.Nodup.getElem_inj_iff ho.nodup).1 e)
        simp [hjl, hj, h2 (out.bufs[j], at3 out.total c) this (List.getElem_mem hjl)]
      · simp [hjl]
  · rw [if_neg hc, if_neg hc]; rfl

/-- The same additions give the same values. -/
theorem added_same {δ ε : Nat → I3 → ℝ} {a b b' : Vol} (h1 : Added δ a b) (h2 : Added ε a b') (he : ∀ var c, δ var c = ε var c) : ∀ var c, b.at var c = b'.at var c := by
  intro var c
  rw [h1, h2, he]

theorem added_same_in {δ ε : Nat → I3 → ℝ} {a b b' : Vol} (h1 : Added δ a b) (h2 : Added ε a b') (he : ∀ var c, inSize a.total c = true → δ var c = ε var c) :
    ∀ var c, b.at var c = b'.at var c := by
  intro var c
  rw [h1, h2]
  by_cases hc : inSize a.total c = true
  · rw [he var c hc]
  · rw [Vol.at, if_neg hc]; rfl

theorem does_append {as bs : List Action} : ∀ {h h1 h2 : Heap ℝ}, does as h h1 → does bs h1 h2 → does (as ++ bs) h h2 := by
  induction as with
  | nil => intro h h1 h2 e1 e2; rw [does] at e1; subst e1; exact e2
  | cons a as ih =>
    intro h h1 h2 e1 e2
    cases a <;> (obtain ⟨h3, f1, f2⟩ := e1; exact ⟨h3, f1, ih f2 e2⟩)

theorem does_unique {as : List Action} : ∀ {h h1 h2 : Heap ℝ}, does as h h1 → does as h h2 → h1 = h2 := by
  induction as with
  | nil => intro h h1 h2 e1 e2; rw [does] at e1 e2; rw [e1, e2]
  | cons a as ih =>
    intro h h1 h2 e1 e2
    cases a with
    | launch k =>
      obtain ⟨h3, f1, f2⟩ := e1
      obtain ⟨h4, g1, g2⟩ := e2
      rw [yields_unique f1 g1] at f2
      exact ih f2 g2
    | host f =>
      obtain ⟨h3, f1, f2⟩ := e1
      obtain ⟨h4, g1, g2⟩ := e2
      rw [f1] at g1; cases g1
      exact ih f2 g2

/-- One variable after the other: actions for each variable that add `δ var` to it. -/
theorem vars_does (hdis : ∀ b ∈ u.bufs, b ∉ out.bufs) (acts : Nat → Res (List Action)) (δ : Nat → I3 → ℝ) (free : Nat → Prop)
    (hfree : ∀ b ∈ u.bufs, ¬ free b) :
    ∀ (vars : List Nat), vars.Nodup → (∀ var ∈ vars, ∀ h1 : Heap ℝ, h1.inb = h.inb → u.values h1 = u.values h → ∃ as h2, acts var = .ok as ∧ does as h1 h2 ∧ h2.inb = h1.inb ∧
      (∀ l : Nat × Int, l.1 ∉ out.bufs → ¬ free l.1 → h2.val l = h1.val l) ∧ Added (fun j c => if j = var then δ var c else 0) (out.values h1) (out.values h2)) →
    ∀ h1 : Heap ℝ, h1.inb = h.inb → u.values h1 = u.values h → ∃ as h2, vars.mapM acts = .ok as ∧ does as.flatten h1 h2 ∧ h2.inb = h1.inb ∧
      (∀ l : Nat × Int, l.1 ∉ out.bufs → ¬ free l.1 → h2.val l = h1.val l) ∧ Added (fun j c => if j ∈ vars then δ j c else 0) (out.values h1) (out.values h2) := by
  intro vars
  induction vars with
  | nil =>
    intro _ _ h1 _ _
    exact ⟨[], h1, rfl, rfl, rfl, fun _ _ _ => rfl, (added_zero _).congr (by simp)⟩
  | cons a vars ih =>
    intro hnd hstep h1 hi hu
    obtain ⟨hal, hl⟩ := List.nodup_cons.1 hnd
    obtain ⟨as, h2, e1, e2, e3, e4, e5⟩ := hstep a (by simp) h1 hi hu
    have hu2 : u.values h2 = u.values h := (values_keep fun b hb i => e4 (b, i) (hdis b hb) (hfree b hb)).trans hu
    obtain ⟨bs, h3, f1, f2, f3, f4, f5⟩ := ih hl (fun var hv => hstep var (by simp [hv])) h2 (e3.trans hi) hu2
    refine ⟨as :: bs, h3, ?_, does_append e2 f2, f3.trans e3, fun l hl hf => (f4 l hl hf).trans (e4 l hl hf), (e5.trans f5).congr ?_⟩
    · rw [List.mapM_cons, e1, f1]; rfl
    · intro j c
      by_cases hj : j = a
      · subst hj; simp [hal]
      · simp [hj]

/-! ### Pointwise kernels -/

theorem point_does (F : ℝ → ℝ) (ho : out.OnCard h) (hu : u.OnCard h) (hdis : ∀ b ∈ u.bufs, b ∉ out.bufs) (hsize : out.total = u.n) {var : Nat}
    (hvu : var < u.bufs.length) (hvo : var < out.bufs.length) :
    ∃ a h', pointLaunch F out u var = .ok a ∧ does [a] h h' ∧ h'.inb = h.inb ∧ (∀ l : Nat × Int, l.1 ∉ out.bufs → h'.val l = h.val l) ∧
      Added (fun j c => if j = var then F ((u.values h).inner var c) else 0) (out.values h) (out.values h') := by
  have hne : u.bufs[var] ≠ out.bufs[var] := fun e => hdis _ (List.getElem_mem hvu) (e ▸ List.getElem_mem hvo)
  have hin : ∀ i < cells out.total, h.inb (u.bufs[var], at3 u.total (cellOf out.total i + u.g)) = true := by
    intro i hi
    refine hu.cell (List.getElem_mem hvu) (inner_mem hu ?_)
    have := (cellOf_mem ho.total hi).1
    rwa [hsize] at this ⊢
  obtain ⟨h', e1, e2, e3, e4⟩ := flat_yields (h := h) (out := out.bufs[var]) (size := cells out.total) (bs := 1024)
    (kernel := pointKernel F out.bufs[var] u.bufs[var] out.total u.total u.g) (by norm_num)
    (fun i => h.val (out.bufs[var], (i : Int)) + F (h.val (u.bufs[var], at3 u.total (cellOf out.total i + u.g)))) (fun _ l => l.1 = u.bufs[var])
    (fun i _ l hl => by rw [hl]; exact hne)
    (fun i _ => .read (Or.inl rfl) fun _ => .read (Or.inr rfl) fun _ => .write rfl .done)
    (fun i hi => by
      refine ⟨⟨h.inb, Function.update h.val (out.bufs[var], (i : Int)) (h.val (out.bufs[var], (i : Int)) + F (h.val (u.bufs[var], at3 u.total (cellOf out.total i + u.g))))⟩, ?_, by simp⟩
      have hb := ho.elem (List.getElem_mem hvo) hi
      rw [pointKernel, exec_read_ok (hin i hi), exec_read_ok hb, exec_write_ok hb]
      rfl)
  refine ⟨.launch _, h', ?_, ⟨h', e1, rfl⟩, e2, fun l hl => e4 l fun i _ e => hl (by rw [e]; exact List.getElem_mem hvo), ?_⟩
  · rw [pointLaunch, bufOf_ok hvu, Res.ok_bind, bufOf_ok hvo, Res.ok_bind]; rfl
  · refine added_of ho hvo (fun c => F ((u.values h).inner var c)) (fun c hc => ?_) fun l hl _ => e4 l fun i _ e => hl (by rw [e])
    obtain ⟨i, hi, ei, ec⟩ := at3_spec hc
    rw [ei, e3 i hi, ec, values_inner hvu]

/-! ### Logarithmic entropy -/

theorem uses_sumSquares {R W : Nat × Int → Prop} {k : ℝ → Prog (Nat × Int) ℝ} (hk : ∀ s, Uses R W (k s)) : ∀ (ls : List (Nat × Int)), (∀ l ∈ ls, R l) → ∀ s, Uses R W (sumSquares ls s k) := by
  intro ls
  induction ls with
  | nil => intro _ s; exact hk s
  | cons l ls ih => intro hl s; exact .read (Or.inl (hl l (by simp))) fun m => ih (fun l' h' => hl l' (by simp [h'])) _

theorem exec_sumSquares {k : ℝ → Prog (Nat × Int) ℝ} : ∀ (ls : List (Nat × Int)), (∀ l ∈ ls, h.inb l = true) → ∀ s,
    (sumSquares ls s k).exec h = (k (s + (ls.map fun l => h.val l * h.val l).sum)).exec h := by
  intro ls
  induction ls with
  | nil => intro _ s; simp [sumSquares]
  | cons l ls ih =>
    intro hl s
    rw [sumSquares, exec_read_ok (hl l (by simp)), ih fun l' h' => hl l' (by simp [h'])]
    simp [add_assoc]

theorem reduce_cells (hn : 0 ≤ u.n.x ∧ 0 ≤ u.n.y ∧ 0 ≤ u.n.z) {buf : Nat} (f : I3 → ℝ) (hf : ∀ i < cells u.n, h.val (buf, ((i : Nat) : Int)) = f (cellOf u.n i)) :
    reduce h buf (cells u.n) = ∑ c ∈ (box 0 u.n).toFinset, f c := by
  rw [reduce, List.map_congr_left (g := fun i => f (cellOf u.n i)) (fun i hi => hf i (List.mem_range.1 hi)), List.sum_toFinset _ (nodup_box _ _)]
  have := ((decode_perm_box u.n.x.toNat u.n.y.toNat u.n.z.toNat).map f).sum_eq
  rw [toNat_size hn, List.map_map] at this
  exact this

theorem wr_at {m : Heap ℝ} {l : Nat × Int} {x : ℝ} (hb : m.inb l = true) : m.wr l x = .ok ⟨m.inb, Function.update m.val l x⟩ := Arr.wr_ok hb

theorem mapM_bufOf {vars : List Nat} (hv : ∀ v ∈ vars, v < u.bufs.length) : vars.mapM (bufOf u) = .ok (vars.map fun v => u.bufs.getD v 0) := by
  induction vars with
  | nil => rfl
  | cons a vars ih =>
    have ha := hv a (by simp)
    rw [List.mapM_cons, bufOf_ok ha, ih fun v h => hv v (by simp [h])]
    simp [ha]

theorem entropy_does (gamma : ℝ) {rho E : Nat} {momenta : List Nat} (hm3 : 1 ≤ momenta.length ∧ momenta.length ≤ 3) (lengths : V3 ℝ) {buffer bufferOut : Nat} (w : ℝ)
    (ho : out.OnCard h) (hu : u.OnCard h) (hone : out.total = ⟨1, 1, 1⟩)
    (hr : rho < u.bufs.length) (hE : E < u.bufs.length) (hm : ∀ v ∈ momenta, v < u.bufs.length) (hEo : E < out.bufs.length)
    (hb1 : buffer ∉ u.bufs ∧ buffer ∉ out.bufs) (hb2 : bufferOut ∉ u.bufs ∧ bufferOut ∉ out.bufs)
    (hbuf : ∀ i : Int, h.inb (buffer, i) = decide (0 ≤ i ∧ i < u.n.x * u.n.y * u.n.z)) (hbo : ∀ i : Int, h.inb (bufferOut, i) = decide (0 ≤ i ∧ i < 1)) :
    ∃ as h', logEntropyCUDA gamma rho E momenta lengths buffer u.n bufferOut out u w = .ok as ∧ does as h h' ∧ h'.inb = h.inb ∧
      (∀ l : Nat × Int, l.1 ∉ out.bufs → ¬ (l.1 = buffer ∨ l.1 = bufferOut) → h'.val l = h.val l) ∧
      Added (fun j _ => if j = E then w * ∑ q ∈ (box 0 u.n).toFinset, logDensity gamma ((u.values h).inner rho q) ((u.values h).inner E q)
        (momenta.map fun v => (u.values h).inner v q) * (lengths.x * lengths.y * lengths.z) else 0) (out.values h) (out.values h') := by
  -- the value of one cell
  obtain ⟨D, hD⟩ : ∃ D : I3 → ℝ, D = fun q => logDensity gamma ((u.values h).inner rho q) ((u.values h).inner E q)
        (momenta.map fun v => (u.values h).inner v q) * (lengths.x * lengths.y * lengths.z) := ⟨_, rfl⟩
  have hone0 : h.inb (bufferOut, 0) = true := by rw [hbo]; decide
  obtain ⟨h0, eh0⟩ : ∃ h0 : Heap ℝ, h0 = ⟨h.inb, Function.update h.val (bufferOut, 0) 0⟩ := ⟨_, rfl⟩
  have v0 : ∀ l : Nat × Int, l.1 ≠ bufferOut → h0.val l = h.val l := by
    intro l hl
    rw [eh0]
    exact Function.update_of_ne (fun e => hl (by rw [e])) _ _
  have hbin : ∀ i < cells u.n, h0.inb (buffer, ((i : Nat) : Int)) = true := by
    intro i hi
    rw [eh0]
    show h.inb _ = true
    rw [hbuf, ← cells_eq hu.n]
    exact decide_eq_true ⟨by omega, by exact_mod_cast hi⟩
  have hcell : ∀ i < cells u.n, ∀ v, v < u.bufs.length → h0.inb (u.bufs.getD v 0, at3 u.total (cellOf u.n i + u.g)) = true ∧
      h0.val (u.bufs.getD v 0, at3 u.total (cellOf u.n i + u.g)) = (u.values h).inner v (cellOf u.n i) := by
    intro i hi v hv
    have e : u.bufs.getD v 0 = u.bufs[v] := by simp [hv]
    rw [e, eh0]
    refine ⟨hu.cell (List.getElem_mem hv) (inner_mem hu (cellOf_mem hu.n hi).1), ?_⟩
    rw [values_inner hv]
    exact Function.update_of_ne (fun e => hb2.1 (by have := congrArg Prod.fst e; simp only at this; rw [← this]; exact List.getElem_mem hv)) _ _
  obtain ⟨h1, e1, e2, e3, e4⟩ := flat_yields (h := h0) (out := buffer) (size := cells u.n) (bs := 1024)
    (kernel := entropyKernel gamma (lengths.x * lengths.y * lengths.z) buffer (u.bufs.getD rho 0) (u.bufs.getD E 0) (momenta.map fun v => u.bufs.getD v 0) u.n u.total u.g)
    (by norm_num) (fun i => D (cellOf u.n i)) (fun _ l => l.1 ∈ u.bufs) (fun i _ l hl e => hb1.1 (e ▸ hl))
    (fun i _ => by
      have hmem : ∀ v, v < u.bufs.length → u.bufs.getD v 0 ∈ u.bufs := fun v hv => by
        have e : u.bufs.getD v 0 = u.bufs[v] := by simp [hv]
        rw [e]; exact List.getElem_mem hv
      refine .read (Or.inl (hmem rho hr)) fun _ => .read (Or.inl (hmem E hE)) fun _ => uses_sumSquares (fun _ => Uses.write (W := fun l => l = (buffer, (i : Int))) rfl .done) _ ?_ _
      intro l hl
      simp only [List.map_map, List.mem_map, Function.comp_def] at hl
      obtain ⟨v, hv, rfl⟩ := hl
      exact hmem v (hm v hv))
    (fun i hi => by
      refine ⟨⟨h0.inb, Function.update h0.val (buffer, (i : Int)) (D (cellOf u.n i))⟩, ?_, by simp⟩
      rw [entropyKernel, exec_read_ok (hcell i hi rho hr).1, exec_read_ok (hcell i hi E hE).1, exec_sumSquares _ (by
        intro l hl
        simp only [List.map_map, List.mem_map, Function.comp_def] at hl
        obtain ⟨v, hv, rfl⟩ := hl
        exact (hcell i hi v (hm v hv)).1), exec_write_ok (hbin i hi)]
      have hs : (((momenta.map fun v => u.bufs.getD v 0).map fun m => (m, at3 u.total (cellOf u.n i + u.g))).map fun l => h0.val l * h0.val l).sum =
          ((momenta.map fun v => (u.values h).inner v (cellOf u.n i)).map fun x => x ^ 2).sum := by
        simp only [List.map_map, Function.comp_def]
        congr 1
        refine List.map_congr_left fun v hv => ?_
        rw [(hcell i hi v (hm v hv)).2, pow_two]
      rw [hs, (hcell i hi rho hr).2, (hcell i hi E hE).2, zero_add, hD]
      rfl)
  have hsum : reduce h1 buffer (cells u.n) = ∑ q ∈ (box 0 u.n).toFinset, D q := reduce_cells hu.n D e3
  obtain ⟨h2, eh2⟩ : ∃ h2 : Heap ℝ, h2 = ⟨h1.inb, Function.update h1.val (bufferOut, 0) (∑ q ∈ (box 0 u.n).toFinset, D q)⟩ := ⟨_, rfl⟩
  have i2 : h2.inb = h.inb := by rw [eh2, e2, eh0]
  have c2 : cubSum buffer (cells u.n) bufferOut h1 = .ok h2 := by
    rw [cubSum, if_pos (by rw [e2]; exact hbin), wr_at (by rw [e2, eh0]; exact hone0), hsum, eh2]
  have o2 : ∀ i < 1, h2.inb (bufferOut, ((i : Nat) : Int)) = true := by
    intro i hi; rw [i2, hbo]; exact decide_eq_true (by omega)
  obtain ⟨h3, f1, f2, f3, f4⟩ := scalarKernel_ok (fun a b : ℝ => a * b) w o2 o2
  have i3 : h3.inb = h.inb := f2.trans i2
  have hos : (⟨false, out.bufs[E], out.total.x.toNat, out.total.y.toNat, out.total.z.toNat⟩ : Area).size = 1 := by rw [hone]; rfl
  have oE : ∀ i < 1, h3.inb (out.bufs[E], ((i : Nat) : Int)) = true := by
    intro i hi
    rw [i3]
    exact ho.elem (List.getElem_mem hEo) (by rw [hone]; simpa [cells] using hi)
  have hEne : out.bufs[E] ≠ bufferOut := fun e => hb2.2 (e ▸ List.getElem_mem hEo)
  obtain ⟨h4, g1, g2, g3, g4⟩ := binaryKernel_ok (fun a b : ℝ => a + b) oE oE (b := bufferOut)
    (by intro i hi; rw [i3, hbo]; exact decide_eq_true (by omega))
  have k3 : ∀ l : Nat × Int, l.1 ≠ bufferOut → h3.val l = h1.val l := by
    intro l hl
    rw [f4 l fun e => hl e.1, eh2]
    exact Function.update_of_ne (fun e => hl (by rw [e])) _ _
  have k1 : ∀ l : Nat × Int, l.1 ≠ bufferOut → l.1 ≠ buffer → h1.val l = h.val l := by
    intro l hl hl'
    rw [e4 l fun i _ e => hl' (by rw [e]), v0 l hl]
  refine ⟨[.host (zeroOne bufferOut), .launch (flatLaunch (cells u.n) 1024 (entropyKernel gamma (lengths.x * lengths.y * lengths.z) buffer (u.bufs.getD rho 0)
      (u.bufs.getD E 0) (momenta.map fun v => u.bufs.getD v 0) u.n u.total u.g)), .host (cubSum buffer (cells u.n) bufferOut),
      .launch (launch 1 (scalarKernel (fun a b : ℝ => a * b) bufferOut bufferOut w 1)),
      .launch (launch 1 (binaryKernel (fun a b : ℝ => a + b) out.bufs[E] out.bufs[E] bufferOut 1))], h4, ?_, ⟨h0, by rw [zeroOne, wr_at hone0, eh0], h1, e1, h2, c2, h3, f1, h4, g1, rfl⟩, g2.trans i3, ?_, ?_⟩
  · rw [logEntropyCUDA, bufOf_ok hr, Res.ok_bind, bufOf_ok hE, Res.ok_bind, mapM_bufOf hm, Res.ok_bind, bufOf_ok hEo, Res.ok_bind, if_neg (by omega)]
    simp only [scalarAssign, Res.ok_bind, binaryAssign, hos]
    have e1 : u.bufs.getD rho 0 = u.bufs[rho] := by simp [hr]
    have e2 : u.bufs.getD E 0 = u.bufs[E] := by simp [hE]
    rw [e1, e2]
    rfl
  · intro l hl hl'
    push Not at hl'
    rw [g4 l fun e => hl (by rw [e.1]; exact List.getElem_mem hEo), k3 l hl'.2, k1 l hl'.2 hl'.1]
  · refine added_of ho hEo (fun _ => _) (fun c hc => ?_) fun l hl hl' => ?_
    · have hc0 : c = 0 := by
        rw [hone] at hc
        simp only [inSize_iff] at hc
        ext <;> simp <;> omega
      have ea : at3 out.total c = ((0 : Nat) : Int) := by subst hc0; simp [at3, index]
      have hEb : out.bufs[E] ≠ buffer := fun e => hb1.2 (e ▸ List.getElem_mem hEo)
      rw [ea, g3 0 (by norm_num), f3 0 (by norm_num), k3 _ hEne, k1 _ hEne hEb, eh2]
      simp [hD, mul_comm]
    · have q1 : l.1 ≠ bufferOut := fun e => hb2.2 (e ▸ hl')
      have q2 : l.1 ≠ buffer := fun e => hb1.2 (e ▸ hl')
      rw [g4 l fun e => hl e.1, k3 l q1, k1 l q1 q2]

/-! ### Structure functions -/

/-- The cell of the interior whose value an extension takes (`Props.extended`). -/
def extPos (bc : BC) (n q : I3) : I3 :=
  match bc with
  | .periodic => ⟨q.x % n.x, q.y % n.y, q.z % n.z⟩
  | .neumann => ⟨max 0 (min q.x (n.x - 1)), max 0 (min q.y (n.y - 1)), max 0 (min q.z (n.z - 1))⟩

theorem extended_eq (bc : BC) (n : I3) (w : I3 → ℝ) (q : I3) : Props.extended bc n w q = w (extPos bc n q) := by
  cases bc <;> rfl

theorem extPos_mem (bc : BC) {n : I3} (hn : 1 ≤ n.x ∧ 1 ≤ n.y ∧ 1 ≤ n.z) (q : I3) : inSize n (extPos bc n q) = true := by
  cases bc
  · simp only [extPos, inSize_iff]; omega
  · simp only [extPos, inSize_iff]
    exact ⟨Int.emod_nonneg _ (by omega), Int.emod_lt_of_pos _ (by omega), Int.emod_nonneg _ (by omega), Int.emod_lt_of_pos _ (by omega),
      Int.emod_nonneg _ (by omega), Int.emod_lt_of_pos _ (by omega)⟩

theorem positionAt_ok (bc : BC) {n : I3} (hn : 1 ≤ n.x ∧ 1 ≤ n.y ∧ 1 ≤ n.z) (q g : I3) : positionAt bc q n g = .ok (extPos bc n q + g) := by
  cases bc
  · simp [positionAt, valueAt, valueNeumann, extPos, Arr.rd]
  · obtain ⟨x, x1, x2, x3⟩ := makePositive_ok q.x n.x (by omega)
    obtain ⟨y, y1, y2, y3⟩ := makePositive_ok q.y n.y (by omega)
    obtain ⟨z, z1, z2, z3⟩ := makePositive_ok q.z n.z (by omega)
    simp only [positionAt, valueAt, valuePeriodic, x1, y1, z1, Res.ok_bind, Props.cmod_ok x2 (by omega : 0 < n.x), Props.cmod_ok y2 (by omega : 0 < n.y),
      Props.cmod_ok z2 (by omega : 0 < n.z), x3, y3, z3, extPos]
    simp [Arr.rd]

theorem cardPower_eq (p x : ℝ) : cardPower p x = x ^ p := by
  have h1 : dispatchPower p x = some (cardPower p x) := by
    simp only [dispatchPower, cardPower, fastPower]
    split_ifs <;> rfl
  rw [Props.C59_dispatch] at h1
  exact (Option.some.inj h1).symm

/-- The launches and sums over all distances for one variable. -/
theorem rows_does {H : Int} (ho : out.OnCard h) (hsize : out.total = ⟨H, 1, 1⟩) {var : Nat} (hv : var < out.bufs.length) (hdis : ∀ b ∈ u.bufs, b ∉ out.bufs) {buf : Nat}
    (hbu : buf ∉ u.bufs) (hbo : buf ∉ out.bufs) (N : I3) (hN : 0 ≤ N.x ∧ 0 ≤ N.y ∧ 0 ≤ N.z) (k : Int → Launch (Nat × Int) ℝ) (T : Int → I3 → ℝ)
    (hk : ∀ s, 1 ≤ s → s < H → ∀ h1 : Heap ℝ, h1.inb = h.inb → u.values h1 = u.values h → ∃ h2, yields (k s) h1 h2 ∧ h2.inb = h1.inb ∧
      (∀ i < cells N, h2.val (buf, ((i : Nat) : Int)) = T s (cellOf N i)) ∧ ∀ l : Nat × Int, l.1 ≠ buf → h2.val l = h1.val l) :
    ∀ (L : List Int), L.Nodup → (∀ s ∈ L, 1 ≤ s ∧ s < H) → ∀ h1 : Heap ℝ, h1.inb = h.inb → u.values h1 = u.values h →
    ∃ h2, does (L.flatMap fun s => [.launch (k s), .host (addAverage buf N out.bufs[var] s)]) h1 h2 ∧ h2.inb = h1.inb ∧
      (∀ l : Nat × Int, l.1 ∉ out.bufs → ¬ l.1 = buf → h2.val l = h1.val l) ∧
      Added (fun j c => if j = var then (if c.x ∈ L then (∑ q ∈ (box 0 N).toFinset, T c.x q) / (N.x * N.y * N.z) else 0) else 0) (out.values h1) (out.values h2) := by
  intro L
  induction L with
  | nil => intro _ _ h1 _ _; exact ⟨h1, rfl, rfl, fun _ _ _ => rfl, (added_zero _).congr (by simp)⟩
  | cons s L ih =>
    intro hnd hL h1 hi hu
    obtain ⟨hsl, hnl⟩ := List.nodup_cons.1 hnd
    obtain ⟨hs1, hs2⟩ := hL s (by simp)
    obtain ⟨h2, e1, e2, e3, e4⟩ := hk s hs1 hs2 h1 hi hu
    have hob : out.bufs[var] ≠ buf := fun e => hbo (e ▸ List.getElem_mem hv)
    have hin : h2.inb (out.bufs[var], s) = true := by
      rw [e2, hi, ho.inb _ (List.getElem_mem hv), hsize]
      exact decide_eq_true (by simp only; omega)
    have hsum : reduce h2 buf (cells N) = ∑ q ∈ (box 0 N).toFinset, T s q := reduce_cells (u := ⟨N, 0, []⟩) hN (T s) e3
    obtain ⟨h3, eh3⟩ : ∃ h3 : Heap ℝ, h3 = ⟨h2.inb, Function.update h2.val (out.bufs[var], s)
      (h2.val (out.bufs[var], s) + (∑ q ∈ (box 0 N).toFinset, T s q) / ((N.x * N.y * N.z : Int) : ℝ))⟩ := ⟨_, rfl⟩
    have hadd : addAverage buf N out.bufs[var] s h2 = .ok h3 := by
      rw [addAverage, Arr.rd_ok hin, Res.ok_bind, wr_at hin, hsum, eh3]
    have k3 : ∀ l : Nat × Int, l.1 ∉ out.bufs → ¬ l.1 = buf → h3.val l = h1.val l := by
      intro l hl hl'
      rw [eh3]
      simp only
      rw [Function.update_of_ne (fun e => hl (by rw [e]; exact List.getElem_mem hv)), e4 l hl']
    have i3 : h3.inb = h1.inb := by rw [eh3]; exact e2
    have hu3 : u.values h3 = u.values h := (values_keep fun b hb i => k3 (b, i) (hdis b hb) (fun e => hbu (e ▸ hb))).trans hu
    obtain ⟨h4, f1, f2, f3, f4⟩ := ih hnl (fun s' hs' => hL s' (by simp [hs'])) h3 (i3.trans hi) hu3
    have a1 : Added (fun j c => if j = var then (if c.x = s then (∑ q ∈ (box 0 N).toFinset, T s q) / (N.x * N.y * N.z) else 0) else 0) (out.values h1) (out.values h3) := by
      refine added_of (ho.congr hi) hv (fun c => if c.x = s then (∑ q ∈ (box 0 N).toFinset, T s q) / (N.x * N.y * N.z) else 0) (fun c hc => ?_) fun l hl hl' => ?_
      · have ec : at3 out.total c = c.x := by
          rw [hsize] at hc ⊢
          simp only [inSize_iff] at hc
          have h1 : c.y = 0 := by omega
          have h2 : c.z = 0 := by omega
          simp [at3, index, h1, h2]
        rw [ec, eh3]
        by_cases hc : c.x = s
        · rw [hc, ← e4 (out.bufs[var], s) hob]
          simp
        · have : ((out.bufs[var], c.x) : Nat × Int) ≠ (out.bufs[var], s) := fun e => hc (congrArg Prod.snd e)
          simp only [Function.update_of_ne this, if_neg hc, add_zero]
          exact e4 _ hob
      · rw [eh3]
        simp only
        rw [Function.update_of_ne (fun e => hl (by rw [e])), e4 l (fun e => hbo (e ▸ hl'))]
    refine ⟨h4, ?_, f2.trans i3, fun l hl hl' => (f3 l hl hl').trans (k3 l hl hl'), (a1.trans f4).congr fun j c => ?_⟩
    · rw [List.flatMap_cons]
      exact ⟨h2, e1, h3, hadd, f1⟩
    · by_cases hj : j = var
      · simp only [if_pos hj, List.mem_cons]
        by_cases hc : c.x = s
        · simp [hc, hsl]
        · simp [hc]
      · simp [hj]

/-- The elements of the buffer for a block of `N` cells. -/
theorem buf_elem {buf : Nat} {N : I3} (hN : 0 ≤ N.x ∧ 0 ≤ N.y ∧ 0 ≤ N.z) (hb : ∀ i : Int, h.inb (buf, i) = decide (0 ≤ i ∧ i < N.x * N.y * N.z)) {i : Nat} (hi : i < cells N) :
    h.inb (buf, (i : Int)) = true := by
  rw [hb, ← cells_eq hN]
  exact decide_eq_true ⟨by omega, by exact_mod_cast hi⟩

theorem uses_cubeLoop (p : ℝ) (bc : BC) (buf inp : Nat) (isize n g : I3) (i : Nat) (x : ℝ) : ∀ qs : List I3,
    Uses (fun l => l.1 = inp) (fun l => l = (buf, (i : Int))) (cubeLoop p bc buf inp isize n g i x qs) := by
  intro qs
  induction qs with
  | nil => exact .done
  | cons q qs ih =>
    simp only [cubeLoop, readAt]
    cases positionAt bc q n g with
    | error e => exact .read (Or.inl rfl) fun _ => .done
    | ok pos => exact .read (Or.inl rfl) fun _ => .read (Or.inr rfl) fun _ => .write rfl ih

theorem exec_cubeLoop (p : ℝ) (bc : BC) {buf inp : Nat} {isize n g : I3} (hn : 1 ≤ n.x ∧ 1 ≤ n.y ∧ 1 ≤ n.z) (i : Nat) (x : ℝ) (hne : inp ≠ buf) : ∀ (qs : List I3) (m : Heap ℝ),
    m.inb (buf, (i : Int)) = true → (∀ c, inSize n c = true → m.inb (inp, at3 isize (c + g)) = true) →
    ∃ m', (cubeLoop p bc buf inp isize n g i x qs).exec m = .ok m' ∧
      m'.val (buf, (i : Int)) = m.val (buf, (i : Int)) + (qs.map fun q => |x - m.val (inp, at3 isize (extPos bc n q + g))| ^ p).sum := by
  intro qs
  induction qs with
  | nil => intro m _ _; exact ⟨m, rfl, by simp⟩
  | cons q qs ih =>
    intro m hb hin
    obtain ⟨m', e1, e2⟩ := ih ⟨m.inb, Function.update m.val (buf, (i : Int)) (m.val (buf, (i : Int)) + cardPower p |x - m.val (inp, at3 isize (extPos bc n q + g))|)⟩ hb hin
    refine ⟨m', ?_, ?_⟩
    · rw [cubeLoop, readAt, positionAt_ok bc hn]
      simp only
      rw [exec_read_ok (hin _ (extPos_mem bc hn q)), exec_read_ok hb, exec_write_ok hb]
      exact e1
    · have hv : ∀ c, Function.update m.val (buf, (i : Int)) (m.val (buf, (i : Int)) + cardPower p |x - m.val (inp, at3 isize (extPos bc n q + g))|) (inp, at3 isize c) = m.val (inp, at3 isize c) :=
        fun c => Function.update_of_ne (fun e => hne (congrArg Prod.fst e)) _ _
      rw [e2]
      simp only [hv]
      simp only [Function.update_self, cardPower_eq, List.map_cons, List.sum_cons]
      ring

theorem cube_yields (p : ℝ) (bc : BC) (dims : Nat) (s : Int) {buf bs : Nat} (hbs : 0 < bs) (hu : u.OnCard h) (hn : 1 ≤ u.n.x ∧ 1 ≤ u.n.y ∧ 1 ≤ u.n.z) (hbu : buf ∉ u.bufs)
    (hb : ∀ i : Int, h.inb (buf, i) = decide (0 ≤ i ∧ i < u.n.x * u.n.y * u.n.z)) {var : Nat} (hv : var < u.bufs.length) :
    ∃ h', yields (flatLaunch (cells u.n) bs (cubeKernel p bc dims s buf u.bufs[var] u.total u.n u.g)) h h' ∧ h'.inb = h.inb ∧
      (∀ i < cells u.n, h'.val (buf, ((i : Nat) : Int)) = ((cubePoints dims (cellOf u.n i) s).map fun q =>
        |(u.values h).inner var (cellOf u.n i) - Props.extended bc u.n ((u.values h).inner var) q| ^ p).sum) ∧ ∀ l : Nat × Int, l.1 ≠ buf → h'.val l = h.val l := by
  have hne : u.bufs[var] ≠ buf := fun e => hbu (e ▸ List.getElem_mem hv)
  obtain ⟨h', e1, e2, e3, e4⟩ := flat_yields (h := h) (out := buf) (size := cells u.n) (bs := bs) (kernel := cubeKernel p bc dims s buf u.bufs[var] u.total u.n u.g) hbs
    (fun i => ((cubePoints dims (cellOf u.n i) s).map fun q => |(u.values h).inner var (cellOf u.n i) - Props.extended bc u.n ((u.values h).inner var) q| ^ p).sum)
    (fun _ l => l.1 = u.bufs[var]) (fun i _ l hl e => hne (hl.symm.trans e))
    (fun i _ => .write rfl (.read (Or.inl rfl) fun x => uses_cubeLoop p bc buf u.bufs[var] u.total u.n u.g i x _))
    (fun i hi => by
      have hbi := buf_elem hu.n hb hi
      have hin : ∀ c, inSize u.n c = true → h.inb (u.bufs[var], at3 u.total (c + u.g)) = true := fun c hc => hu.cell (List.getElem_mem hv) (inner_mem hu hc)
      have hc := (cellOf_mem hu.n hi).1
      obtain ⟨m, f1, f2⟩ := exec_cubeLoop p bc hn i (h.val (u.bufs[var], at3 u.total (cellOf u.n i + u.g))) hne (cubePoints dims (cellOf u.n i) s)
        ⟨h.inb, Function.update h.val (buf, (i : Int)) 0⟩ hbi hin
      have hu' : ∀ c, Function.update h.val (buf, (i : Int)) 0 (u.bufs[var], at3 u.total c) = h.val (u.bufs[var], at3 u.total c) :=
        fun c => Function.update_of_ne (fun e => hne (congrArg Prod.fst e)) _ _
      refine ⟨m, ?_, ?_⟩
      · rw [cubeKernel, exec_write_ok hbi, exec_read_ok (by exact hin _ hc)]
        simp only [hu']
        exact f1
      · rw [f2]
        simp only [hu', Function.update_self, zero_add, extended_eq, values_inner hv])
  exact ⟨h', e1, e2, e3, fun l hl => e4 l fun i _ e => hl (by rw [e])⟩

theorem basic_yields (p : ℝ) (bc : BC) (d : Nat) (s : Int) {buf : Nat} (N : I3) (hN : 1 ≤ N.x ∧ 1 ≤ N.y ∧ 1 ≤ N.z) (hNn : N.x ≤ u.n.x ∧ N.y ≤ u.n.y ∧ N.z ≤ u.n.z)
    (hu : u.OnCard h) (hbu : buf ∉ u.bufs) (hb : ∀ i : Int, h.inb (buf, i) = decide (0 ≤ i ∧ i < N.x * N.y * N.z)) {var : Nat} (hv : var < u.bufs.length) :
    ∃ h', yields (flatLaunch (cells N) 1024 (basicKernel p bc d s buf u.bufs[var] u.total N u.g)) h h' ∧ h'.inb = h.inb ∧
      (∀ i < cells N, h'.val (buf, ((i : Nat) : Int)) = |(u.values h).inner var (cellOf N i) - Props.extended bc N ((u.values h).inner var) (cellOf N i + Props.along d s)| ^ p) ∧
      ∀ l : Nat × Int, l.1 ≠ buf → h'.val l = h.val l := by
  have hne : u.bufs[var] ≠ buf := fun e => hbu (e ▸ List.getElem_mem hv)
  have hN0 : 0 ≤ N.x ∧ 0 ≤ N.y ∧ 0 ≤ N.z := by omega
  have hin : ∀ c, inSize N c = true → h.inb (u.bufs[var], at3 u.total (c + u.g)) = true := fun c hc => hu.cell (List.getElem_mem hv) (inner_mem hu (by
    simp only [inSize_iff] at hc ⊢; omega))
  obtain ⟨h', e1, e2, e3, e4⟩ := flat_yields (h := h) (out := buf) (size := cells N) (bs := 1024) (kernel := basicKernel p bc d s buf u.bufs[var] u.total N u.g) (by norm_num)
    (fun i => |(u.values h).inner var (cellOf N i) - Props.extended bc N ((u.values h).inner var) (cellOf N i + Props.along d s)| ^ p)
    (fun _ l => l.1 = u.bufs[var]) (fun i _ l hl e => hne (hl.symm.trans e))
    (fun i _ => by
      refine .read (Or.inl rfl) fun x => ?_
      rw [readAt, positionAt_ok bc hN]
      exact .read (Or.inl rfl) fun _ => .write rfl .done)
    (fun i hi => by
      have hbi := buf_elem hN0 hb hi
      have hc := (cellOf_mem hN0 hi).1
      refine ⟨⟨h.inb, Function.update h.val (buf, (i : Int)) (|(u.values h).inner var (cellOf N i) - Props.extended bc N ((u.values h).inner var) (cellOf N i + Props.along d s)| ^ p)⟩, ?_, by simp⟩
      rw [basicKernel, exec_read_ok (hin _ hc), readAt, positionAt_ok bc hN]
      simp only
      rw [exec_read_ok (hin _ (extPos_mem bc hN _)), exec_write_ok hbi]
      simp only [extended_eq, values_inner hv]
      rfl)
  exact ⟨h', e1, e2, e3, fun l hl => e4 l fun i _ e => hl (by rw [e])⟩

theorem bind_inv {α β : Type} {x : Res α} {f : α → Res β} {b : β} (e : x >>= f = .ok b) : ∃ a, x = .ok a ∧ f a = .ok b := by
  cases x with
  | error _ => cases e
  | ok a => exact ⟨a, rfl, e⟩

/-- Launches without a buffer for several variables. -/
theorem points_does (F : ℝ → ℝ) (ho : out.OnCard h) (hu : u.OnCard h) (hdis : ∀ b ∈ u.bufs, b ∉ out.bufs) (hsize : out.total = u.n) (vars : List Nat) (hnd : vars.Nodup)
    (hvu : ∀ v ∈ vars, v < u.bufs.length) (hvo : ∀ v ∈ vars, v < out.bufs.length) :
    ∃ as h', vars.mapM (fun var => pointLaunch F out u var) = .ok as ∧ does as h h' ∧ h'.inb = h.inb ∧ (∀ l : Nat × Int, l.1 ∉ out.bufs → h'.val l = h.val l) ∧
      Added (fun j c => if j ∈ vars then F ((u.values h).inner j c) else 0) (out.values h) (out.values h') := by
  have flat : ∀ (vars : List Nat) (as : List (List Action)), vars.mapM (fun var => do let a ← pointLaunch F out u var; pure [a]) = .ok as →
      vars.mapM (fun var => pointLaunch F out u var) = .ok as.flatten := by
    intro vars
    induction vars with
    | nil => intro as e; cases e; rfl
    | cons v vars ih =>
      intro as e
      rw [List.mapM_cons] at e
      obtain ⟨a, e1, e⟩ := bind_inv e
      obtain ⟨b, e2, e⟩ := bind_inv e
      obtain ⟨a', e3, e4⟩ := bind_inv e1
      cases e; cases e4
      rw [List.mapM_cons, e3, Res.ok_bind, ih b e2]
      rfl
  obtain ⟨as, h', e1, e2, e3, e4, e5⟩ := vars_does (h := h) hdis (fun var => do let a ← pointLaunch F out u var; pure [a]) (fun var c => F ((u.values h).inner var c)) (fun _ => False)
    (fun _ _ => id) vars hnd (by
      intro var hvar h1 hi hv
      obtain ⟨a, h2, f1, f2, f3, f4, f5⟩ := point_does F (ho.congr hi) (hu.congr hi) hdis hsize (hvu var hvar) (hvo var hvar)
      refine ⟨[a], h2, by rw [f1]; rfl, f2, f3, fun l hl _ => f4 l hl, ?_⟩
      rwa [hv] at f5) h rfl rfl
  exact ⟨as.flatten, h', flat vars as e1, e2, e3, fun l hl => e4 l hl id, e5⟩

theorem sum_shell {n : I3} (hflat : n.y = 1 → n.z = 1) {c : I3} (hc : c ∈ box 0 n) {s : Int} (hs : 1 ≤ s) (f : I3 → ℝ) :
    ((cubePoints (Props.dimsOf n) c s).map f).sum = ∑ t ∈ Props.shell (Props.dimsOf n) s, f (c + t) := by
  have hd : 1 ≤ Props.dimsOf n ∧ Props.dimsOf n ≤ 3 := by unfold Props.dimsOf; split_ifs <;> omega
  simp only [mem_box, I3.zero_x, I3.zero_y, I3.zero_z] at hc
  obtain ⟨h1, h2⟩ := Props.C56_visits_each_shift_once (Props.dimsOf n) hd c (fun h => by unfold Props.dimsOf at h; split_ifs at h <;> omega)
    (fun h => by unfold Props.dimsOf at h; split_ifs at h <;> omega) s hs
  rw [← List.sum_toFinset _ h1]
  refine Finset.sum_bij' (fun q _ => q - c) (fun t _ => c + t) (fun q hq => ?_) (fun t ht => ?_) (fun q _ => by ext <;> simp) (fun t _ => by ext <;> simp) (fun q _ => ?_)
  · rw [Props.mem_shell]; exact (h2 q).1 (by simpa using hq)
  · rw [Props.mem_shell] at ht
    have e : c + t - c = t := by ext <;> simp
    rw [List.mem_toFinset, h2, e]; exact ht
  · congr 1; ext <;> simp

theorem mem_irange1 {H s : Int} : s ∈ irange 1 H ↔ 1 ≤ s ∧ s < H := by simp

/-- The additions of the structure cube on the card. -/
theorem cube_does (p : ℝ) (bc : BC) (sides : Nat → Option BC) (H : Int) {buf : Nat} (ho : out.OnCard h) (hu : u.OnCard h) (hdis : ∀ b ∈ u.bufs, b ∉ out.bufs)
    (hn : 1 ≤ u.n.x ∧ 1 ≤ u.n.y ∧ 1 ≤ u.n.z) (hflat : u.n.y = 1 → u.n.z = 1) (hsides : ∀ s < 2 * Props.dimsOf u.n, sides s = some bc)
    (hout : out.total = ⟨H, 1, 1⟩) (hlen : u.bufs.length = out.bufs.length) (hbu : buf ∉ u.bufs) (hbo : buf ∉ out.bufs)
    (hb : ∀ i : Int, h.inb (buf, i) = decide (0 ≤ i ∧ i < u.n.x * u.n.y * u.n.z)) :
    ∃ as h', cubeStatisticsCUDA p sides (Props.dimsOf u.n) H buf out u = .ok as ∧ does as h h' ∧ h'.inb = h.inb ∧
      (∀ l : Nat × Int, l.1 ∉ out.bufs → ¬ l.1 = buf → h'.val l = h.val l) ∧
      Added (fun var c => if var < u.bufs.length then (if 1 ≤ c.x ∧ c.x < H then
        (∑ q ∈ (box 0 u.n).toFinset, ∑ s ∈ Props.shell (Props.dimsOf u.n) c.x, |(u.values h).inner var q - Props.extended bc u.n ((u.values h).inner var) (q + s)| ^ p) /
          (u.n.x * u.n.y * u.n.z) else 0) else 0) (out.values h) (out.values h') := by
  have hd : 1 ≤ Props.dimsOf u.n := by unfold Props.dimsOf; split_ifs <;> omega
  have hcheck : ((List.range (2 * Props.dimsOf u.n)).any fun s => sides s != sides 0) = false := by
    rw [List.any_eq_false]
    intro s hs
    rw [hsides s (by simpa using hs), hsides 0 (by omega)]
    simp
  obtain ⟨as, h', e1, e2, e3, e4, e5⟩ := vars_does (h := h) hdis (fun var => cubeVariable p bc (Props.dimsOf u.n) H buf out u var)
    (fun var c => if 1 ≤ c.x ∧ c.x < H then
        (∑ q ∈ (box 0 u.n).toFinset, ∑ s ∈ Props.shell (Props.dimsOf u.n) c.x, |(u.values h).inner var q - Props.extended bc u.n ((u.values h).inner var) (q + s)| ^ p) /
          (u.n.x * u.n.y * u.n.z) else 0) (fun b => b = buf)
    (fun b hb e => hbu (e ▸ hb)) (List.range u.bufs.length) List.nodup_range (by
      intro var hvar h1 hi hv
      have hvu : var < u.bufs.length := List.mem_range.1 hvar
      have hvo : var < out.bufs.length := hlen ▸ hvu
      obtain ⟨h2, f1, f2, f3, f4⟩ := rows_does (h := h1) (ho.congr hi) hout hvo hdis hbu hbo u.n hu.n
        (fun s => flatLaunch (cells u.n) (if p < 6 ∧ p = ⌊p⌋ then 1024 else 512) (cubeKernel p bc (Props.dimsOf u.n) s buf u.bufs[var] u.total u.n u.g))
        (fun s q => ((cubePoints (Props.dimsOf u.n) q s).map fun r => |(u.values h).inner var q - Props.extended bc u.n ((u.values h).inner var) r| ^ p).sum)
        (by
          intro s _ _ h3 hi3 hv3
          obtain ⟨h4, g1, g2, g3, g4⟩ := cube_yields (h := h3) p bc (Props.dimsOf u.n) s (buf := buf) (bs := if p < 6 ∧ p = ⌊p⌋ then 1024 else 512) (by split_ifs <;> norm_num)
            (hu.congr (hi3.trans hi)) hn hbu (by rw [hi3, hi]; exact hb) hvu
          rw [hv3.trans hv] at g3
          exact ⟨h4, g1, g2, g3, g4⟩)
        (irange 1 H) (nodup_irange _ _) (fun s hs => mem_irange1.1 hs) h1 rfl rfl
      refine ⟨_, h2, ?_, f1, f2, f3, f4.congr fun j c => ?_⟩
      · simp only [cubeVariable, bufOf_ok hvu, bufOf_ok hvo, Res.ok_bind]
        rfl
      · by_cases hj : j = var
        · simp only [if_pos hj, mem_irange1]
          by_cases hc : 1 ≤ c.x ∧ c.x < H
          · simp only [if_pos hc]
            congr 1
            exact Finset.sum_congr rfl fun q hq => sum_shell hflat (List.mem_toFinset.1 hq) hc.1 _
          · simp only [if_neg hc]
        · simp only [if_neg hj]) h rfl rfl
  refine ⟨as.flatten, h', ?_, e2, e3, e4, e5.congr fun j c => by simp⟩
  rw [cubeStatisticsCUDA, hcheck, hsides 0 (by omega)]
  simp only [Bool.false_eq_true, if_false, e1, Res.ok_bind]
  rfl

/-- The additions of the basic structure function on the card. -/
theorem basic_does (p : ℝ) (bc : BC) (sides : Nat → Option BC) (d : Nat) (H : Int) {buf : Nat} (ho : out.OnCard h) (hu : u.OnCard h) (hdis : ∀ b ∈ u.bufs, b ∉ out.bufs)
    (hn : 1 ≤ (basicCells u).x ∧ 1 ≤ (basicCells u).y ∧ 1 ≤ (basicCells u).z) (hsides : sides d = some bc)
    (hout : out.total = ⟨H, 1, 1⟩) (hlen : u.bufs.length = out.bufs.length) (hbu : buf ∉ u.bufs) (hbo : buf ∉ out.bufs)
    (hb : ∀ i : Int, h.inb (buf, i) = decide (0 ≤ i ∧ i < (basicCells u).x * (basicCells u).y * (basicCells u).z)) :
    ∃ as h', basicStatisticsCUDA p sides d H buf out u = .ok as ∧ does as h h' ∧ h'.inb = h.inb ∧
      (∀ l : Nat × Int, l.1 ∉ out.bufs → ¬ l.1 = buf → h'.val l = h.val l) ∧
      Added (fun var c => if var < u.bufs.length then (if 1 ≤ c.x ∧ c.x < H then
        (∑ q ∈ (box 0 (basicCells u)).toFinset, |(u.values h).inner var q - Props.extended bc (basicCells u) ((u.values h).inner var) (q + Props.along d c.x)| ^ p) /
          ((basicCells u).x * (basicCells u).y * (basicCells u).z) else 0) else 0) (out.values h) (out.values h') := by
  have hg := hu.g
  have hle : (basicCells u).x ≤ u.n.x ∧ (basicCells u).y ≤ u.n.y ∧ (basicCells u).z ≤ u.n.z := by simp only [basicCells]; omega
  obtain ⟨as, h', e1, e2, e3, e4, e5⟩ := vars_does (h := h) hdis (fun var => basicVariable p bc d H buf out u var)
    (fun var c => if 1 ≤ c.x ∧ c.x < H then
        (∑ q ∈ (box 0 (basicCells u)).toFinset, |(u.values h).inner var q - Props.extended bc (basicCells u) ((u.values h).inner var) (q + Props.along d c.x)| ^ p) /
          ((basicCells u).x * (basicCells u).y * (basicCells u).z) else 0) (fun b => b = buf)
    (fun b hb e => hbu (e ▸ hb)) (List.range u.bufs.length) List.nodup_range (by
      intro var hvar h1 hi hv
      have hvu : var < u.bufs.length := List.mem_range.1 hvar
      have hvo : var < out.bufs.length := hlen ▸ hvu
      obtain ⟨h2, f1, f2, f3, f4⟩ := rows_does (h := h1) (ho.congr hi) hout hvo hdis hbu hbo (basicCells u) (by omega)
        (fun s => flatLaunch (cells (basicCells u)) 1024 (basicKernel p bc d s buf u.bufs[var] u.total (basicCells u) u.g))
        (fun s q => |(u.values h).inner var q - Props.extended bc (basicCells u) ((u.values h).inner var) (q + Props.along d s)| ^ p)
        (by
          intro s _ _ h3 hi3 hv3
          obtain ⟨h4, g1, g2, g3, g4⟩ := basic_yields (h := h3) p bc d s (buf := buf) (basicCells u) hn hle (hu.congr (hi3.trans hi)) hbu (by rw [hi3, hi]; exact hb) hvu
          rw [hv3.trans hv] at g3
          exact ⟨h4, g1, g2, g3, g4⟩)
        (irange 1 H) (nodup_irange _ _) (fun s hs => mem_irange1.1 hs) h1 rfl rfl
      refine ⟨_, h2, ?_, f1, f2, f3, f4.congr fun j c => ?_⟩
      · simp only [basicVariable, bufOf_ok hvu, bufOf_ok hvo, Res.ok_bind]
        rfl
      · simp only [mem_irange1]) h rfl rfl
  refine ⟨as.flatten, h', ?_, e2, e3, e4, e5.congr fun j c => by simp⟩
  simp only [basicStatisticsCUDA, hsides, e1, Res.ok_bind]
  rfl

/-- The additions of the structure cube on the processor. -/
theorem cubeStatistics_adds (p : ℝ) (bc : BC) (sides : Nat → Option BC) (H : Int) (n g : I3) (hn : 1 ≤ n.x ∧ 1 ≤ n.y ∧ 1 ≤ n.z) (hflat : n.y = 1 → n.z = 1)
    (hg : 0 ≤ g.x ∧ 0 ≤ g.y ∧ 0 ≤ g.z) (hsides : ∀ s < 2 * Props.dimsOf n, sides s = some bc) (k : Nat) (out u : Vol) (ho : out.Shape ⟨H, 1, 1⟩ 0 k) (hu : u.Shape n g k) :
    ∃ out', cubeStatistics p sides (Props.dimsOf n) H out u = .ok out' ∧ Added (fun var c => if var < k then cubeTerm p bc H n (u.inner var) c else 0) out out' := by
  have hut := hu.total
  obtain ⟨rfl, rfl, rfl⟩ := hu
  have e0 : (⟨H, 1, 1⟩ : I3) + 0 + 0 = ⟨H, 1, 1⟩ := by ext <;> simp
  have key := vars_added (n := ⟨H, 1, 1⟩) (g := 0) (k := u.areas.length) (fun out var => do
    let viewIn ← u.view var
    out.modify var fun o => cubeChecked p sides (Props.dimsOf u.n) u.n u.g H viewIn o)
    (fun var q => cubeTerm p bc H u.n (u.inner var) q) (List.range u.areas.length) List.nodup_range (by
    intro var hvar v hv
    have hvar' := List.mem_range.1 hvar
    rw [view_ok hvar', Res.ok_bind]
    refine modify_added hv hvar' _ (fun q => cubeTerm p bc H u.n (u.inner var) q) fun f => ?_
    obtain ⟨a, e, hv⟩ := Props.C56_structure_cube p bc sides u.n u.g hn hflat hg hsides (u.areas.getD var fun _ => 0) H f
    rw [hut, e0]
    refine ⟨a, e, fun c _ => ?_⟩
    rw [hv, cubeTerm]
    rfl) out ho
  obtain ⟨v', e, s, a⟩ := key
  exact ⟨v', e, a.congr fun var c => by simp⟩

/-- The additions of the basic structure function on the processor. -/
theorem basicStatistics_adds (p : ℝ) (bc : BC) (sides : Nat → Option BC) (d : Nat) (H : Int) (n g : I3) (hn : 1 ≤ n.x ∧ 1 ≤ n.y ∧ 1 ≤ n.z)
    (hg : 0 ≤ g.x ∧ 0 ≤ g.y ∧ 0 ≤ g.z) (hsides : sides d = some bc) (k : Nat) (out u : Vol) (ho : out.Shape ⟨H, 1, 1⟩ 0 k) (hu : u.Shape n g k) :
    ∃ out', basicStatistics p sides d H out u = .ok out' ∧ Added (fun var c => if var < k then (if c.y = 0 ∧ c.z = 0 ∧ 0 ≤ c.x ∧ c.x < H then
      ∑ q ∈ (box 0 n).toFinset, |u.inner var q - Props.extended bc n (u.inner var) (q + Props.along d c.x)| ^ p / (n.x * n.y * n.z) else 0) else 0) out out' := by
  have hut := hu.total
  obtain ⟨rfl, rfl, rfl⟩ := hu
  have e0 : (⟨H, 1, 1⟩ : I3) + 0 + 0 = ⟨H, 1, 1⟩ := by ext <;> simp
  have key := vars_added (n := ⟨H, 1, 1⟩) (g := 0) (k := u.areas.length) (fun out var => do
    let viewIn ← u.view var
    out.modify var fun o => basic sides p d H u.n u.g viewIn o)
    (fun var c => if c.y = 0 ∧ c.z = 0 ∧ 0 ≤ c.x ∧ c.x < H then
      ∑ q ∈ (box 0 u.n).toFinset, |u.inner var q - Props.extended bc u.n (u.inner var) (q + Props.along d c.x)| ^ p / (u.n.x * u.n.y * u.n.z) else 0)
    (List.range u.areas.length) List.nodup_range (by
    intro var hvar v hv
    have hvar' := List.mem_range.1 hvar
    rw [view_ok hvar', Res.ok_bind]
    refine modify_added hv hvar' _ _ fun f => ?_
    obtain ⟨a, e, hv⟩ := Props.basicWith_ok bc p d H u.n u.g hn hg (u.areas.getD var fun _ => 0) f
    rw [hut, e0]
    refine ⟨a, ?_, fun c _ => hv c⟩
    simp only [basic, hsides]
    exact e) out ho
  obtain ⟨v', e, s, a⟩ := key
  exact ⟨v', e, a.congr fun var c => by simp⟩

end

end Verif.CudaFunctionals
