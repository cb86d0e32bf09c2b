import Verif.Gpu

/-!
Kernels on several streams: they run concurrently, so the threads of all of them may be interleaved. The result need not be determined;
`mayYield` says that some interleaving gives it, `safe` that no interleaving fails.
-/

namespace Verif.Gpu
variable {L V : Type}

/-- Kernels started on different streams (for instance alsfvm/src/mpi/CudaCartesianCellExchanger.cu:184-189): seen as one launch with
the threads of all of them. -/
def concurrent : List (Launch L V) → Launch L V
  | [] => ⟨0, fun _ => .done⟩
  | k :: ks => ⟨k.threads + (concurrent ks).threads, fun i => if i < k.threads then k.kernel i else (concurrent ks).kernel (i - k.threads)⟩

/-- No interleaving makes an access outside of the memory. -/
def safe [DecidableEq L] (k : Launch L V) (m : Arr L V) : Prop :=
  ∀ schedule : List Nat, (∀ i ∈ schedule, i < k.threads) → ∃ s, Machine.run schedule ⟨m, k.kernel⟩ = .ok s

/-- Some interleaving that lets all threads finish ends with the memory `m'`. -/
def mayYield [DecidableEq L] (k : Launch L V) (m m' : Arr L V) : Prop :=
  ∃ schedule : List Nat, (∀ i ∈ schedule, i < k.threads) ∧
    ∃ s, Machine.run schedule ⟨m, k.kernel⟩ = .ok s ∧ s.finished k.threads ∧ s.mem = m'

/-- The threads of concurrent kernels are the threads of the kernels. -/
theorem concurrent_kernel {ks : List (Launch L V)} {q : Prog L V} :
    (∃ i < (concurrent ks).threads, (concurrent ks).kernel i = q) ↔ ∃ k ∈ ks, ∃ j < k.threads, k.kernel j = q := by
  induction ks with
  | nil => simp [concurrent]
  | cons k ks ih =>
    simp only [concurrent, List.mem_cons, exists_eq_or_imp, ← ih]
    constructor
    · rintro ⟨i, hi, h⟩
      by_cases hik : i < k.threads
      · rw [if_pos hik] at h; exact Or.inl ⟨i, hik, h⟩
      · rw [if_neg hik] at h; exact Or.inr ⟨i - k.threads, by omega, h⟩
    · rintro (⟨i, hi, h⟩ | ⟨i, hi, h⟩)
      · exact ⟨i, by omega, by rw [if_pos hi]; exact h⟩
      · exact ⟨i + k.threads, by omega, by rw [if_neg (by omega), Nat.add_sub_cancel]; exact h⟩

/-- A thread that copies one place to another, or does nothing. -/
def copyProg : Option (L × L) → Prog L V
  | none => .done
  | some (s, t) => .read s fun v => .write t v .done

/-- State of a copying thread: not yet started, value read, finished. -/
def Copying (m : Arr L V) (f : Option (L × L)) (q : Prog L V) : Prop :=
  q = copyProg f ∨ q = .done ∨ ∃ s t, f = some (s, t) ∧ q = .write t (m.val s) .done

/-- What holds after any number of accesses of copying threads. -/
structure CopyInv (n : Nat) (f : Nat → Option (L × L)) (m : Arr L V) (s : Machine L V) : Prop where
  inb : s.mem.inb = m.inb
  threads : ∀ i < n, Copying m (f i) (s.threads i)
  mem : ∀ l, (s.mem.val l = m.val l ∧ ∀ i < n, ∀ src, f i = some (src, l) → s.threads i ≠ .done) ∨
    ∃ i < n, ∃ src, f i = some (src, l) ∧ s.mem.val l = m.val src

section
variable [DecidableEq L] {n : Nat} {f : Nat → Option (L × L)} {m : Arr L V}

theorem CopyInv.step {s : Machine L V} (h : CopyInv n f m s)
    (hin : ∀ i < n, ∀ a b, f i = some (a, b) → m.inb a = true ∧ m.inb b = true) (hsep : ∀ i < n, ∀ j < n, ∀ a b c d, f i = some (a, b) → f j = some (c, d) → d ≠ a)
    {i : Nat} (hi : i < n) : ∃ s', s.step i = .ok s' ∧ CopyInv n f m s' ∧ (s'.threads i = .done ∨ ∃ a b, f i = some (a, b) ∧ s.threads i = copyProg (f i)) ∧
      (∀ j, j ≠ i → s'.threads j = s.threads j) ∧ ∀ a b, s.threads i = .write b a .done → s'.mem.val b = a ∧ s'.threads i = .done := by
  have hc := h.threads i hi
  rcases hd : s.threads i with _ | ⟨a, k⟩ | ⟨b, v, k⟩
  · refine ⟨s, by simp [Machine.step, hd], h, Or.inl hd, fun _ _ => rfl, fun a b hh => by simp at hh⟩
  · -- the read
    have hcp : ∃ t, f i = some (a, t) ∧ k = fun v => .write t v .done := by
      rcases hc with hc | hc | ⟨x, y, -, hc⟩
      · rw [hd] at hc
        rcases hf : f i with _ | ⟨x, y⟩
        · rw [hf] at hc; simp [copyProg] at hc
        · rw [hf] at hc; simp only [copyProg, Prog.read.injEq] at hc; exact ⟨y, by rw [hc.1], hc.2⟩
      · rw [hd] at hc; simp at hc
      · rw [hd] at hc; simp at hc
    obtain ⟨t, hf, rfl⟩ := hcp
    obtain ⟨h1, h2⟩ := hin i hi a t hf
    have hval : s.mem.val a = m.val a := by
      rcases h.mem a with h3 | ⟨j, hj, src, hfj, -⟩
      · exact h3.1
      · exact absurd rfl (hsep i hi j hj _ _ _ _ hf hfj)
    refine ⟨{ s with threads := Function.update s.threads i (.write t (m.val a) .done) }, ?_, ⟨h.inb, ?_, ?_⟩, Or.inr ⟨a, t, hf, by rw [hf]; rfl⟩,
      fun j hj => Function.update_of_ne hj _ _, fun a b hh => by simp at hh⟩
    · simp only [Machine.step, hd]
      rw [Arr.rd_ok (by rw [h.inb]; exact h1), hval]; rfl
    · intro j hj
      by_cases e : j = i
      · subst e; simp only [Function.update_self]; exact Or.inr (Or.inr ⟨a, t, hf, rfl⟩)
      · simp only [Function.update_of_ne e]; exact h.threads j hj
    · intro l
      rcases h.mem l with ⟨h3, h4⟩ | h3
      · refine Or.inl ⟨h3, fun j hj src hfj => ?_⟩
        by_cases e : j = i
        · subst e; simp [Function.update_self]
        · simp only [Function.update_of_ne e]; exact h4 j hj src hfj
      · exact Or.inr h3
  · -- the write
    have hcp : ∃ a, f i = some (a, b) ∧ v = m.val a ∧ k = .done := by
      rcases hc with hc | hc | ⟨x, y, hf, hc⟩
      · rw [hd] at hc
        rcases hf : f i with _ | ⟨x, y⟩ <;> rw [hf] at hc <;> simp [copyProg] at hc
      · rw [hd] at hc; simp at hc
      · rw [hd] at hc; simp only [Prog.write.injEq] at hc; exact ⟨x, by rw [hf, hc.1], hc.2.1, hc.2.2⟩
    obtain ⟨a, hf, rfl, rfl⟩ := hcp
    obtain ⟨h1, h2⟩ := hin i hi a b hf
    refine ⟨⟨{ s.mem with val := Function.update s.mem.val b (m.val a) }, Function.update s.threads i .done⟩, ?_, ⟨h.inb, ?_, ?_⟩,
      Or.inl (Function.update_self _ _ _), fun j hj => Function.update_of_ne hj _ _, ?_⟩
    · simp only [Machine.step, hd]
      rw [Arr.wr_ok (by rw [h.inb]; exact h2)]; rfl
    · intro j hj
      by_cases e : j = i
      · subst e; simp only [Function.update_self]; exact Or.inr (Or.inl rfl)
      · simp only [Function.update_of_ne e]; exact h.threads j hj
    · intro l
      by_cases e : l = b
      · subst e; exact Or.inr ⟨i, hi, a, hf, by simp only [Function.update_self]⟩
      · simp only [Function.update_of_ne e]
        rcases h.mem l with ⟨h3, h4⟩ | h3
        · refine Or.inl ⟨h3, fun j hj src hfj => ?_⟩
          by_cases e' : j = i
          · subst e'; rw [hf] at hfj; simp only [Option.some.injEq, Prod.mk.injEq] at hfj; exact absurd hfj.2.symm e
          · simp only [Function.update_of_ne e']; exact h4 j hj src hfj
        · exact Or.inr h3
    · intro a' b' hh
      simp only [Prog.write.injEq] at hh
      obtain ⟨rfl, rfl, -⟩ := hh
      exact ⟨Function.update_self _ _ _, Function.update_self _ _ _⟩

theorem CopyInv.run (hin : ∀ i < n, ∀ a b, f i = some (a, b) → m.inb a = true ∧ m.inb b = true)
    (hsep : ∀ i < n, ∀ j < n, ∀ a b c d, f i = some (a, b) → f j = some (c, d) → d ≠ a) (schedule : List Nat) :
    ∀ {s : Machine L V}, CopyInv n f m s → (∀ i ∈ schedule, i < n) → ∃ s', Machine.run schedule s = .ok s' ∧ CopyInv n f m s' := by
  induction schedule with
  | nil => intro s h _; exact ⟨s, rfl, h⟩
  | cons i is ih =>
    intro s h hs
    obtain ⟨s1, e1, h1, -⟩ := h.step hin hsep (hs i (by simp))
    obtain ⟨s2, e2, h2⟩ := ih h1 fun j hj => hs j (by simp [hj])
    refine ⟨s2, ?_, h2⟩
    simp only [Machine.run, List.foldlM_cons, e1]
    exact e2

omit [DecidableEq L] in
theorem CopyInv.init {k : Launch L V} (hk : ∀ i < n, k.kernel i = copyProg (f i)) : CopyInv n f m ⟨m, k.kernel⟩ := by
  refine ⟨rfl, fun i hi => Or.inl (hk i hi), fun l => Or.inl ⟨rfl, fun i hi src hf => ?_⟩⟩
  show k.kernel i ≠ _
  rw [hk i hi, hf]; simp [copyProg]

/-- Letting thread `i` make two accesses finishes it and leaves the others alone. If it copies to `b`, then `b` has its value. -/
theorem CopyInv.finish {s : Machine L V} (h : CopyInv n f m s)
    (hin : ∀ i < n, ∀ a b, f i = some (a, b) → m.inb a = true ∧ m.inb b = true) (hsep : ∀ i < n, ∀ j < n, ∀ a b c d, f i = some (a, b) → f j = some (c, d) → d ≠ a)
    {i : Nat} (hi : i < n) : ∃ s', Machine.run [i, i] s = .ok s' ∧ CopyInv n f m s' ∧ s'.threads i = .done ∧ (∀ j, j ≠ i → s'.threads j = s.threads j) ∧
      ∀ a b, f i = some (a, b) → s.threads i = copyProg (f i) → s'.mem.val b = m.val a := by
  obtain ⟨s1, e1, h1, d1, o1, -⟩ := h.step hin hsep hi
  obtain ⟨s2, e2, h2, d2, o2, w2⟩ := h1.step hin hsep hi
  have hrun : Machine.run [i, i] s = .ok s2 := by
    simp only [Machine.run, List.foldlM_cons, e1, List.foldlM_nil]
    show (s1.step i >>= fun s => pure s) = .ok s2
    rw [e2]; rfl
  have key : ∀ a b, f i = some (a, b) → s.threads i = copyProg (f i) → s2.mem.val b = m.val a ∧ s2.threads i = .done := by
    intro a b hf hs
    have hval : s.mem.val a = m.val a := by
      rcases h.mem a with h3 | ⟨j, hj, src, hfj, -⟩
      · exact h3.1
      · exact absurd rfl (hsep i hi j hj _ _ _ _ hf hfj)
    have e1' := e1
    rw [hf] at hs
    simp only [Machine.step, hs, copyProg] at e1'
    rw [Arr.rd_ok (by rw [h.inb]; exact (hin i hi a b hf).1), hval] at e1'
    have e1'' : s1 = { s with threads := Function.update s.threads i (.write b (m.val a) .done) } := by
      injection e1' with e; exact e.symm
    exact w2 (m.val a) b (by rw [e1'']; exact Function.update_self _ _ _)
  refine ⟨s2, hrun, h2, ?_, fun j hj => by rw [o2 j hj, o1 j hj], fun a b hf hs => (key a b hf hs).1⟩
  rcases d1 with d1 | ⟨a, b, hf, hs⟩
  · have : s2 = s1 := by
      simp only [Machine.step, d1] at e2; injection e2 with e; exact e.symm
    rw [this]; exact d1
  · exact (key a b hf hs).2

/-- Running the threads of a list one after the other. -/
theorem CopyInv.finishList (hin : ∀ i < n, ∀ a b, f i = some (a, b) → m.inb a = true ∧ m.inb b = true)
    (hsep : ∀ i < n, ∀ j < n, ∀ a b c d, f i = some (a, b) → f j = some (c, d) → d ≠ a) (l : List Nat) :
    ∀ {s : Machine L V}, CopyInv n f m s → (∀ i ∈ l, i < n) →
      ∃ schedule : List Nat, (∀ i ∈ schedule, i < n) ∧ ∃ s', Machine.run schedule s = .ok s' ∧ CopyInv n f m s' ∧ (∀ i ∈ l, s'.threads i = .done) ∧
        ∀ j ∉ l, s'.threads j = s.threads j := by
  induction l with
  | nil => intro s h _; exact ⟨[], by simp, s, rfl, h, by simp, by simp⟩
  | cons i is ih =>
    intro s h hs
    obtain ⟨s1, e1, h1, d1, o1, -⟩ := h.finish hin hsep (hs i (by simp))
    obtain ⟨sch, hsch, s2, e2, h2, d2, o2⟩ := ih h1 fun j hj => hs j (by simp [hj])
    refine ⟨[i, i] ++ sch, ?_, s2, ?_, h2, ?_, ?_⟩
    · intro j hj
      rcases List.mem_append.1 hj with hj | hj
      · simp at hj; subst hj; exact hs j (by simp)
      · exact hsch j hj
    · rw [Machine.run, List.foldlM_append]
      show (Machine.run [i, i] s >>= fun s => Machine.run sch s) = _
      rw [e1]; exact e2
    · intro j hj
      rcases List.mem_cons.1 hj with rfl | hj
      · by_cases hm : j ∈ is
        · exact d2 j hm
        · rw [o2 j hm]; exact d1
      · exact d2 j hj
    · intro j hj
      rw [List.mem_cons, not_or] at hj
      rw [o2 j hj.2, o1 j hj.1]

/-- A launch of copying threads, none of which reads what another writes. Nothing fails; every place nobody copies to keeps its value; every other
place ends up with the value of one of the sources; and each of these values is possible. -/
theorem copies {k : Launch L V} (hk : ∀ i < k.threads, k.kernel i = copyProg (f i))
    (hin : ∀ i < k.threads, ∀ a b, f i = some (a, b) → m.inb a = true ∧ m.inb b = true)
    (hsep : ∀ i < k.threads, ∀ j < k.threads, ∀ a b c d, f i = some (a, b) → f j = some (c, d) → d ≠ a) :
    safe k m ∧ (∃ m', mayYield k m m') ∧
    (∀ m', mayYield k m m' → m'.inb = m.inb ∧ (∀ l, (∀ i < k.threads, ∀ a, f i ≠ some (a, l)) → m'.val l = m.val l) ∧
      ∀ l, (∃ i < k.threads, ∃ a, f i = some (a, l)) → ∃ i < k.threads, ∃ a, f i = some (a, l) ∧ m'.val l = m.val a) ∧
    ∀ i < k.threads, ∀ a l, f i = some (a, l) → ∃ m', mayYield k m m' ∧ m'.val l = m.val a := by
  have hini : CopyInv k.threads f m ⟨m, k.kernel⟩ := CopyInv.init hk
  refine ⟨fun sch hs => ?_, ?_, ?_, ?_⟩
  · obtain ⟨s, e, -⟩ := CopyInv.run hin hsep sch hini hs
    exact ⟨s, e⟩
  · obtain ⟨sch, hs, s, e, -, hd, -⟩ := CopyInv.finishList hin hsep (List.range k.threads) hini fun i hi => List.mem_range.1 hi
    exact ⟨s.mem, sch, hs, s, e, fun i hi => hd i (List.mem_range.2 hi), rfl⟩
  · rintro m' ⟨sch, hs, s, e, hfin, rfl⟩
    obtain ⟨s', e', hI⟩ := CopyInv.run hin hsep sch hini hs
    rw [e] at e'; cases e'
    refine ⟨hI.inb, fun l hl => ?_, ?_⟩
    · rcases hI.mem l with h | ⟨i, hi, a, hf, -⟩
      · exact h.1
      · exact absurd hf (hl i hi a)
    · rintro l ⟨i, hi, a, hf⟩
      rcases hI.mem l with ⟨-, h⟩ | h
      · exact absurd (hfin i hi) (h i hi a hf)
      · exact h
  · intro i hi a l hf
    obtain ⟨sch, hs, s, e, hI, hd, ho⟩ := CopyInv.finishList hin hsep ((List.range k.threads).filter (· ≠ i)) hini
      fun j hj => List.mem_range.1 (List.mem_filter.1 hj).1
    obtain ⟨s2, e2, hI2, d2, o2, v2⟩ := hI.finish hin hsep hi
    refine ⟨s2.mem, ⟨sch ++ [i, i], ?_, s2, ?_, ?_, rfl⟩, v2 a l hf ?_⟩
    · intro j hj
      rcases List.mem_append.1 hj with hj | hj
      · exact hs j hj
      · simp at hj; subst hj; exact hi
    · rw [Machine.run, List.foldlM_append]
      show (Machine.run sch _ >>= fun s => Machine.run [i, i] s) = _
      rw [e]; exact e2
    · intro j hj
      by_cases ej : j = i
      · subst ej; exact d2
      · rw [o2 j ej]; exact hd j (List.mem_filter.2 ⟨List.mem_range.2 hj, by simpa using ej⟩)
    · rw [ho i (by simp)]; exact hk i hi
end

end Verif.Gpu
