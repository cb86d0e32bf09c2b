import Verif.UQ
import Verif.Boundary
import Mathlib.Tactic.Linarith
import Mathlib.Tactic.Ring

/-! Helper lemmas for `Verif.UQ`. -/

namespace Verif.UQ

/-- Two increasing lists with the same elements are equal. -/
theorem eq_of_increasing {l l' : List Int} (h : l.Pairwise (· < ·)) (h' : l'.Pairwise (· < ·)) (hm : ∀ x, x ∈ l ↔ x ∈ l') : l = l' := by
  have hp : l.Perm l' := (List.perm_ext_iff_of_nodup (h.imp fun hab => ne_of_lt hab) (h'.imp fun hab => ne_of_lt hab)).2 hm
  refine hp.eq_of_pairwise (le := fun a b => a ≤ b) (fun a b _ _ hab hba => le_antisymm hab hba) (h.imp fun hab => le_of_lt hab) (h'.imp fun hab => le_of_lt hab)

theorem commSplit_ok {size : Int} {color key : Int → Int} {r : Int} {l : List Int} (hc : ∀ q, 0 ≤ q → q < size → 0 ≤ color q) (hl : l.Pairwise (· < ·))
    (hm : ∀ q, q ∈ l ↔ (0 ≤ q ∧ q < size) ∧ color q = color r)
    (hkey : ∀ a ∈ l, ∀ b ∈ l, a < b → key a ≤ key b) : commSplit size color key r = .ok l := by
  have hany : ((irange 0 size).any fun q => color q < 0) = false := by
    rw [Bool.eq_false_iff]
    intro h
    rw [List.any_eq_true] at h
    obtain ⟨q, hq, h⟩ := h
    rw [mem_irange] at hq
    have := hc q hq.1 hq.2
    simp at h
    omega
  have hf : ((irange 0 size).filter fun q => color q == color r) = l := by
    refine eq_of_increasing ((Boundary.pairwise_lt_irange 0 size).filter _) hl fun x => ?_
    rw [List.mem_filter, mem_irange, hm, beq_iff_eq]
  rw [commSplit, hany, hf]
  simp only [Bool.false_eq_true, if_false]
  rw [List.mergeSort_of_pairwise]
  refine List.Pairwise.imp_of_mem ?_ hl
  intro a b ha hb hab
  unfold splitLe
  rw [decide_eq_true_eq]
  have := hkey a ha b hb hab
  omega

theorem takeSamples_ok (samples : List Nat) (first last : Nat) (h : last ≤ samples.length) :
    takeSamples samples first last = .ok ((samples.drop first).take (last - first)) := by
  have key : ∀ n, first + n ≤ samples.length → (List.range n).foldlM (fun (out : List Nat) k => match samples[first + k]? with
    | none => (Except.error Err.thrown : Res (List Nat))
    | some s => .ok (out ++ [s])) [] = .ok ((samples.drop first).take n) := by
    intro n
    induction n with
    | zero => intro _; rfl
    | succ n ih =>
      intro hn
      rw [List.range_succ, List.foldlM_append, ih (by omega), Res.ok_bind]
      have hlt : first + n < samples.length := by omega
      simp only [List.foldlM_cons, List.foldlM_nil, List.getElem?_eq_getElem hlt, Res.ok_bind]
      show Except.ok _ = Except.ok _
      rw [List.take_add_one, List.getElem?_drop, List.getElem?_eq_getElem hlt]
      rfl
  rcases Nat.le_total first last with hle | hle
  · exact key _ (by omega)
  · rw [takeSamples, show last - first = 0 by omega]; rfl

theorem takeSamples_sublist {samples : List Nat} {first last : Nat} {out : List Nat} (h : takeSamples samples first last = .ok out) : out.Sublist samples := by
  have key : ∀ n (out : List Nat), (List.range n).foldlM (fun (out : List Nat) k => match samples[first + k]? with
    | none => (Except.error Err.thrown : Res (List Nat))
    | some s => .ok (out ++ [s])) [] = .ok out → out = (samples.drop first).take n := by
    intro n
    induction n with
    | zero => intro out h; injection h with h; rw [← h]; rfl
    | succ n ih =>
      intro out h
      rw [List.range_succ, List.foldlM_append] at h
      rcases hf : (List.range n).foldlM (fun (out : List Nat) k => match samples[first + k]? with
        | none => (Except.error Err.thrown : Res (List Nat))
        | some s => .ok (out ++ [s])) [] with e | o
      · rw [hf] at h; cases h
      · rw [hf, Res.ok_bind] at h
        rcases hs : samples[first + n]? with _ | x
        · simp only [List.foldlM_cons, List.foldlM_nil, hs] at h; cases h
        · simp only [List.foldlM_cons, List.foldlM_nil, hs] at h
          injection h with h
          rw [← h, ih o hf, List.take_add_one, List.getElem?_drop, hs]
          rfl
  rw [key _ _ h]
  exact (List.take_sublist _ _).trans (List.drop_sublist _ _)

theorem idxOf_increasing {l : List Int} (h : l.Pairwise (· < ·)) {k : Nat} (hk : k < l.length) : l.idxOf l[k] = k :=
  List.Nodup.idxOf_getElem (h.imp fun hab => ne_of_lt hab) k hk

theorem flatten_blocks (l : List Nat) (k n : Nat) (h : l.length = k * n) :
    ((List.range n).map fun g => (l.drop (k * g)).take k).flatten = l := by
  have key : ∀ m, ((List.range m).map fun g => (l.drop (k * g)).take k).flatten = l.take (k * m) := by
    intro m
    induction m with
    | zero => simp
    | succ m ih =>
      rw [List.range_succ, List.map_append, List.flatten_append, ih, Nat.mul_succ, List.take_add]
      simp
  rw [key, ← h, List.take_length]

/-- A fold that computes one value per element and hands on a state. -/
theorem foldlM_collect {S A B : Type} (f : A → S → Res (B × S)) (l : List A) (acc : List B) (s : S) (v : A → B) (next : A → S → S) (ok : A → S → Prop)
    (hf : ∀ a ∈ l, ∀ s, ok a s → f a s = .ok (v a, next a s)) (hok : ∀ pre a post, l = pre ++ a :: post → ok a (pre.foldl (fun s a => next a s) s)) :
    l.foldlM (fun (t : List B × S) a => do
      let (x, s) ← f a t.2
      pure (t.1 ++ [x], s)) (acc, s) = .ok (acc ++ l.map v, l.foldl (fun s a => next a s) s) := by
  induction l generalizing acc s with
  | nil => simp [Res.pure_eq]
  | cons a l ih =>
    have h1 := hf a (by simp) s (hok [] a l rfl)
    rw [List.foldlM_cons]
    simp only [h1]
    refine (ih (acc ++ [v a]) (next a s) (fun b hb => hf b (by simp [hb])) fun pre b post hl => ?_).trans ?_
    · have := hok (a :: pre) b post (by rw [hl]; rfl)
      simpa using this
    · simp

section
variable {K : Type} [Field K]

/-- The value of component `i` for sample `s` when the stream is only used by this parameter. -/
def value (w : Nat → K) (p : Param K) (i s : Nat) : K :=
  match p.dist with
  | .uniform a b => w (s * p.dim + i) * (b - a) + a
  | .uniform1d a deltaX => a + deltaX * (s + 1 / 2)
  | .function f => f i s

omit [Field K] in
theorem mersenne_ok {w : Nat → K} {dim comp sample pos : Nat} (hc : comp < dim) (hp : pos ≤ sample * dim + comp) :
    mersenne w dim comp sample pos = .ok (w (sample * dim + comp), sample * dim + comp + 1) := by
  unfold mersenne
  rw [if_neg (by omega)]
  have hd : 0 < dim := by omega
  have e1 : (if pos / dim < sample then pos + (sample * dim - pos) else pos) = max pos (sample * dim) := by
    split_ifs with h
    · rw [Nat.div_lt_iff_lt_mul hd] at h
      omega
    · rw [Nat.div_lt_iff_lt_mul hd] at h
      omega
  simp only [e1]
  have e2 : max pos (sample * dim) = sample * dim + (max pos (sample * dim) - sample * dim) := by omega
  have e3 : max pos (sample * dim) % dim = max pos (sample * dim) - sample * dim := by
    rw [e2, Nat.mul_comm sample dim, Nat.mul_add_mod, Nat.mod_eq_of_lt (by rw [Nat.mul_comm dim sample]; omega)]
    omega
  rw [e3]
  split_ifs with h
  · rw [show max pos (sample * dim) + (comp - (max pos (sample * dim) - sample * dim)) = sample * dim + comp by omega]
  · rw [show max pos (sample * dim) = sample * dim + comp by omega]

/-- Does the parameter use the random number stream? -/
def Param.random (p : Param K) : Bool :=
  match p.dist with
  | .uniform _ _ => true
  | _ => false

theorem generate_fixed (w : Nat → K) {p : Param K} (hr : p.random = false) (h1 : ∀ a dx, p.dist = .uniform1d a dx → p.dim ≤ 1) (s pos : Nat) :
    p.generate w s pos = .ok ((List.range p.dim).map fun i => value w p i s, pos) := by
  have := foldlM_collect (fun i pos => p.dist.generate w p.dim i s pos) (List.range p.dim) [] pos (fun i => value w p i s) (fun _ pos => pos) (fun i _ => i < p.dim)
    (fun i _ pos hi => by
      rcases hd : p.dist with ⟨a, b⟩ | ⟨a, dx⟩ | f
      · simp [Param.random, hd] at hr
      · have := h1 a dx hd
        simp only [Dist.generate, value, hd]
        rw [if_neg (by omega)]
      · simp only [Dist.generate, value, hd])
    (fun pre i post hl => by
      have : i ∈ List.range p.dim := by rw [hl]; simp
      exact List.mem_range.1 this)
  have e : ∀ l : List Nat, l.foldl (fun (pos : Nat) (_ : Nat) => pos) pos = pos := fun l => by induction l <;> simp_all
  rw [e] at this
  simpa [Param.generate] using this

theorem generate_random (w : Nat → K) {p : Param K} (hr : p.random = true) {s pos : Nat} (hp : pos ≤ s * p.dim) :
    ∃ pos', p.generate w s pos = .ok ((List.range p.dim).map fun i => value w p i s, pos') ∧ pos' ≤ (s + 1) * p.dim ∧ (0 < p.dim → s * p.dim ≤ pos') := by
  rcases hd : p.dist with ⟨a, b⟩ | ⟨a, dx⟩ | f
  rotate_left
  · simp [Param.random, hd] at hr
  · simp [Param.random, hd] at hr
  have hfold : ∀ n, (List.range n).foldl (fun (pos : Nat) i => s * p.dim + i + 1) pos = if n = 0 then pos else s * p.dim + n := by
    intro n
    induction n with
    | zero => simp
    | succ n ih => rw [List.range_succ, List.foldl_append]; simp; omega
  have := foldlM_collect (fun i pos => p.dist.generate w p.dim i s pos) (List.range p.dim) [] pos (fun i => value w p i s) (fun i _ => s * p.dim + i + 1)
    (fun i pos => i < p.dim ∧ pos ≤ s * p.dim + i ∧ (i = 0 ∨ s * p.dim ≤ pos))
    (fun i _ pos hi => by
      simp only [Dist.generate, value, hd, mersenne_ok hi.1 hi.2.1]
      rfl)
    (fun pre i post hl => by
      have hi : i ∈ List.range p.dim := by rw [hl]; simp
      have hpre : pre = List.range i := by
        have h1 : pre.length = i := by
          have h2 : (List.range p.dim)[pre.length]? = some i := by rw [hl]; simp
          rw [List.getElem?_eq_some_iff] at h2
          obtain ⟨_, h2⟩ := h2
          simpa using h2
        have h3 : pre = (List.range p.dim).take pre.length := by rw [hl]; simp
        rw [h3, h1, List.take_range, Nat.min_eq_left (le_of_lt (List.mem_range.1 hi))]
      rw [hpre, hfold]
      refine ⟨List.mem_range.1 hi, ?_, ?_⟩ <;> split_ifs <;> omega)
  rw [hfold] at this
  refine ⟨_, by simpa [Param.generate] using this, ?_, ?_⟩
  · rw [Nat.succ_mul]; split_ifs <;> omega
  · intro h; rw [if_neg (by omega)]; omega

theorem sampleParameters_fixed (w : Nat → K) {params : List (Param K)} (hr : ∀ p ∈ params, p.random = false)
    (h1 : ∀ p ∈ params, ∀ a dx, p.dist = .uniform1d a dx → p.dim ≤ 1) (s : Nat) (acc : List (List K)) (pos : Nat) :
    params.foldlM (fun (t : List (List K) × Nat) p => do
      let (x, pos) ← p.generate w s t.2
      pure (t.1 ++ [x], pos)) (acc, pos) = .ok (acc ++ params.map fun p => (List.range p.dim).map fun i => value w p i s, pos) := by
  have := foldlM_collect (fun (p : Param K) pos => p.generate w s pos) params acc pos (fun p => (List.range p.dim).map fun i => value w p i s) (fun _ pos => pos)
    (fun p _ => p ∈ params) (fun p hp pos _ => generate_fixed w (hr p hp) (h1 p hp) s pos) (fun pre p post hl => by rw [hl]; simp)
  have e : ∀ l : List (Param K), l.foldl (fun (pos : Nat) (_ : Param K) => pos) pos = pos := fun l => by induction l <;> simp_all
  rw [e] at this
  exact this

/-- All parameters of a sample, when one of them uses the stream. -/
theorem sampleParameters_ok (w : Nat → K) {pre post : List (Param K)} {p : Param K} (hp : p.random = true) (hr : ∀ q ∈ pre ++ post, q.random = false)
    (h1 : ∀ q ∈ pre ++ post, ∀ a dx, q.dist = .uniform1d a dx → q.dim ≤ 1) {s pos : Nat} (hpos : pos ≤ s * p.dim) :
    ∃ pos', sampleParameters w (pre ++ p :: post) s pos = .ok ((pre ++ p :: post).map fun p => (List.range p.dim).map fun i => value w p i s, pos') ∧
      pos' ≤ (s + 1) * p.dim := by
  obtain ⟨pos', e1, e2, -⟩ := generate_random w hp hpos
  refine ⟨pos', ?_, e2⟩
  rw [sampleParameters, List.foldlM_append, sampleParameters_fixed w (fun q hq => hr q (by simp [hq])) (fun q hq => h1 q (by simp [hq])), Res.ok_bind, List.foldlM_cons]
  simp only [e1]
  refine (sampleParameters_fixed w (fun q hq => hr q (by simp [hq])) (fun q hq => h1 q (by simp [hq])) s _ pos').trans ?_
  simp

end

end Verif.UQ
