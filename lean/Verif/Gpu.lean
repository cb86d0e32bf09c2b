import Verif.Basic
import Mathlib.Tactic.Positivity
import Mathlib.Tactic.NormNum

/-!
How a CUDA kernel launch is modelled. A launch starts `gridDim.x * blockDim.x` threads; each thread is a program that reads and
writes the global memory of the device. The threads run concurrently: an execution is an arbitrary interleaving of their single
reads and writes. A result of a launch is only claimed when every interleaving gives it.

Simplifications: accesses to one `real` (or to one cell, for the structs of conserved variables) are atomic and sequentially
consistent; the index arithmetic of the threads is exact (no wrap-around of `int`, which needs more than 2^31 threads); launches on
the default stream run one after the other; launch errors of the device are not modelled.
-/

namespace Verif.Gpu
variable {L V : Type}

/-- The rest of the program of one thread: what it does to the global memory. -/
inductive Prog (L V : Type) where
  | done : Prog L V
  | read : L → (V → Prog L V) → Prog L V
  | write : L → V → Prog L V → Prog L V

/-- State during a launch: the global memory and what each thread still has to do. -/
structure Machine (L V : Type) where
  mem : Arr L V
  threads : Nat → Prog L V

/-- Thread `i` makes one access. Nothing happens if it has finished. -/
def Machine.step [DecidableEq L] (s : Machine L V) (i : Nat) : Res (Machine L V) :=
  match s.threads i with
  | .done => pure s
  | .read l k => do
    let v ← s.mem.rd l
    pure { s with threads := Function.update s.threads i (k v) }
  | .write l v k => do
    let m ← s.mem.wr l v
    pure ⟨m, Function.update s.threads i k⟩

/-- The accesses happen in the order of the schedule: a list of the threads whose turn it is. -/
def Machine.run [DecidableEq L] (schedule : List Nat) (s : Machine L V) : Res (Machine L V) := schedule.foldlM Machine.step s

/-- All of the `n` threads have finished. -/
def Machine.finished (n : Nat) (s : Machine L V) : Prop := ∀ i < n, s.threads i = .done

/-- A kernel launch: the number of threads and the program of each thread (as a function of
`blockIdx.x * blockDim.x + threadIdx.x`). -/
structure Launch (L V : Type) where
  threads : Nat
  kernel : Nat → Prog L V

/-- Number of threads of a launch `<<<(size + blockSize - 1) / blockSize, blockSize>>>` (for instance
alsfvm/src/cuda/vector_operations.cu:236). -/
def threadCount (size blockSize : Nat) : Nat := (size + blockSize - 1) / blockSize * blockSize

/-- The launch turns the memory `m` into `m'` whatever the interleaving of the threads: no schedule fails, some schedule lets all
threads finish, and whenever all threads have finished the memory is `m'`. -/
def yields [DecidableEq L] (k : Launch L V) (m m' : Arr L V) : Prop :=
  (∀ schedule : List Nat, (∀ i ∈ schedule, i < k.threads) → ∃ s, Machine.run schedule ⟨m, k.kernel⟩ = .ok s) ∧
  (∃ schedule : List Nat, (∀ i ∈ schedule, i < k.threads) ∧
    ∃ s, Machine.run schedule ⟨m, k.kernel⟩ = .ok s ∧ s.finished k.threads) ∧
  (∀ schedule : List Nat, (∀ i ∈ schedule, i < k.threads) → ∀ s, Machine.run schedule ⟨m, k.kernel⟩ = .ok s →
    s.finished k.threads → s.mem = m')

/-- A sequence of launches on the same stream. -/
def yieldsAll [DecidableEq L] : List (Launch L V) → Arr L V → Arr L V → Prop
  | [], m, m' => m' = m
  | k :: ks, m, m' => ∃ m1, yields k m m1 ∧ yieldsAll ks m1 m'

/-- The values `thrust::reduce` may return for a list of values and an operation: the list can be cut, reordered and combined in any way. -/
inductive Combines (op : V → V → V) : List V → V → Prop where
  | single (a : V) : Combines op [a] a
  | node {l l1 l2 : List V} {a b : V} : Combines op l1 a → Combines op l2 b → (l1 ++ l2).Perm l → Combines op l (op a b)

/-- The reduction of the list gives `r` in whatever order it is done. -/
def reducesTo (op : V → V → V) (l : List V) (r : V) : Prop := Combines op l r ∧ ∀ v, Combines op l v → v = r

theorem Combines.perm {op : V → V → V} {l l' : List V} {a : V} (h : Combines op l a) (hp : l.Perm l') : Combines op l' a := by
  cases h with
  | single => have := List.perm_singleton.1 hp.symm; subst this; exact .single a
  | node h1 h2 hq => exact .node h1 h2 (hq.trans hp)

theorem Combines.foldl {op : V → V → V} (l : List V) : ∀ {l0 : List V} {a : V}, Combines op l0 a → Combines op (l0 ++ l) (l.foldl op a) := by
  induction l with
  | nil => intro l0 a h; simpa using h
  | cons b l ih =>
    intro l0 a h
    have := ih (Combines.node h (.single b) (List.Perm.refl _))
    simpa using this

/-! ### Deterministic launches -/

/-- The rest `p` of the program of thread `i` is well behaved, given the places `S` it has already written: it writes exactly the
places `touch i`, always the value `F`; it reads only places it has written itself or that no other thread writes; and it never
leaves the allocated memory. -/
inductive Fits (n : Nat) (touch : Nat → L → Prop) (m : Arr L V) (F : L → V) (i : Nat) : (L → Prop) → Prog L V → Prop where
  | done {S} : (∀ l, touch i l → S l) → Fits n touch m F i S .done
  | readOld {S l k} : m.inb l = true → ¬ S l → (∀ j < n, touch j l → j = i) → Fits n touch m F i S (k (m.val l)) →
      Fits n touch m F i S (.read l k)
  | readNew {S l k} : m.inb l = true → S l → Fits n touch m F i S (k (F l)) → Fits n touch m F i S (.read l k)
  | write {S l v k} : m.inb l = true → touch i l → v = F l → Fits n touch m F i (fun q => S q ∨ q = l) k →
      Fits n touch m F i S (.write l v k)

/-- Invariant of all executions. -/
structure Inv (n : Nat) (touch : Nat → L → Prop) (m : Arr L V) (F : L → V) (S : Nat → L → Prop) (s : Machine L V) : Prop where
  sub : ∀ i < n, ∀ l, S i l → touch i l
  fits : ∀ i < n, Fits n touch m F i (S i) (s.threads i)
  inb : s.mem.inb = m.inb
  new : ∀ i < n, ∀ l, S i l → s.mem.val l = F l
  old : ∀ l, (∀ i < n, ¬ S i l) → s.mem.val l = m.val l

theorem Inv.step [DecidableEq L] {n : Nat} {touch : Nat → L → Prop} {m : Arr L V} {F : L → V} {S : Nat → L → Prop}
    {s : Machine L V} (h : Inv n touch m F S s) {i : Nat} (hi : i < n) :
    ∃ s' S', s.step i = .ok s' ∧ Inv n touch m F S' s' := by
  have hf := h.fits i hi
  unfold Machine.step
  generalize hp : s.threads i = p at hf
  cases hf with
  | done hd => exact ⟨s, S, rfl, h⟩
  | @readOld _ l k hin hS hex hk =>
    have hv : s.mem.val l = m.val l := by
      refine h.old l fun j hj hSj => ?_
      have := hex j hj (h.sub j hj l hSj)
      subst this; exact hS hSj
    refine ⟨_, S, by simp only [Arr.rd_ok (show s.mem.inb l = true by rw [h.inb]; exact hin), Res.ok_bind, Res.pure_eq]; rfl, ?_⟩
    refine ⟨h.sub, ?_, h.inb, h.new, h.old⟩
    intro j hj
    by_cases hji : j = i
    · subst hji; simp only [Function.update_self]; rw [hv]; exact hk
    · simp only [Function.update_of_ne hji]; exact h.fits j hj
  | @readNew _ l k hin hS hk =>
    have hv : s.mem.val l = F l := h.new i hi l hS
    refine ⟨_, S, by simp only [Arr.rd_ok (show s.mem.inb l = true by rw [h.inb]; exact hin), Res.ok_bind, Res.pure_eq]; rfl, ?_⟩
    refine ⟨h.sub, ?_, h.inb, h.new, h.old⟩
    intro j hj
    by_cases hji : j = i
    · subst hji; simp only [Function.update_self]; rw [hv]; exact hk
    · simp only [Function.update_of_ne hji]; exact h.fits j hj
  | @write _ l v k hin ht hv hk =>
    refine ⟨_, Function.update S i (fun q => S i q ∨ q = l),
      by simp only [Arr.wr_ok (show s.mem.inb l = true by rw [h.inb]; exact hin), Res.ok_bind, Res.pure_eq]; rfl, ?_⟩
    refine ⟨?_, ?_, h.inb, ?_, ?_⟩
    · intro j hj q hq
      by_cases hji : j = i
      · subst hji; simp only [Function.update_self] at hq
        rcases hq with hq | hq
        · exact h.sub j hj q hq
        · subst hq; exact ht
      · rw [Function.update_of_ne hji] at hq; exact h.sub j hj q hq
    · intro j hj
      by_cases hji : j = i
      · subst hji; simp only [Function.update_self]; exact hk
      · simp only [Function.update_of_ne hji]; exact h.fits j hj
    · intro j hj q hq
      by_cases hql : q = l
      · subst hql; simp only [Function.update_self]; exact hv
      · simp only [Function.update_of_ne hql]
        by_cases hji : j = i
        · subst hji; simp only [Function.update_self] at hq
          exact h.new j hj q (hq.resolve_right hql)
        · rw [Function.update_of_ne hji] at hq; exact h.new j hj q hq
    · intro q hq
      have hql : q ≠ l := by
        intro hc; subst hc
        exact hq i hi (by simp)
      simp only [Function.update_of_ne hql]
      refine h.old q fun j hj hSj => hq j hj ?_
      by_cases hji : j = i
      · subst hji; simp only [Function.update_self]; exact Or.inl hSj
      · rw [Function.update_of_ne hji]; exact hSj

theorem Inv.run [DecidableEq L] {n : Nat} {touch : Nat → L → Prop} {m : Arr L V} {F : L → V} (schedule : List Nat)
    (hs : ∀ i ∈ schedule, i < n) : ∀ {S : Nat → L → Prop} {s : Machine L V}, Inv n touch m F S s →
    ∃ s' S', Machine.run schedule s = .ok s' ∧ Inv n touch m F S' s' := by
  induction schedule with
  | nil => intro S s h; exact ⟨s, S, rfl, h⟩
  | cons i l ih =>
    intro S s h
    obtain ⟨s1, S1, h1, h2⟩ := h.step (hs i (by simp))
    obtain ⟨s2, S2, h3, h4⟩ := ih (fun j hj => hs j (by simp [hj])) h2
    refine ⟨s2, S2, ?_, h4⟩
    unfold Machine.run at h3 ⊢
    simp only [List.foldlM_cons, h1, Res.ok_bind]
    exact h3

/-- A well-behaved thread finishes after finitely many turns, without changing the others. -/
theorem Inv.finish [DecidableEq L] {n : Nat} {touch : Nat → L → Prop} {m : Arr L V} {F : L → V} {i : Nat} (hi : i < n)
    {S0 : L → Prop} {p : Prog L V} (hp : Fits n touch m F i S0 p) :
    ∀ {S : Nat → L → Prop} {s : Machine L V}, Inv n touch m F S s → S i = S0 → s.threads i = p →
    ∃ c s' S', Machine.run (List.replicate c i) s = .ok s' ∧ Inv n touch m F S' s' ∧ s'.threads i = .done ∧
      ∀ j, j ≠ i → s'.threads j = s.threads j := by
  have cont : ∀ {s s1 : Machine L V}, s.step i = .ok s1 → (∀ j, j ≠ i → s1.threads j = s.threads j) →
      (∃ c s' S', Machine.run (List.replicate c i) s1 = .ok s' ∧ Inv n touch m F S' s' ∧ s'.threads i = .done ∧
        ∀ j, j ≠ i → s'.threads j = s1.threads j) →
      ∃ c s' S', Machine.run (List.replicate c i) s = .ok s' ∧ Inv n touch m F S' s' ∧ s'.threads i = .done ∧
        ∀ j, j ≠ i → s'.threads j = s.threads j := by
    rintro s s1 h1 hsame ⟨c, s', S', h2, h3, h4, h5⟩
    refine ⟨c + 1, s', S', ?_, h3, h4, fun j hj => (h5 j hj).trans (hsame j hj)⟩
    unfold Machine.run at h2 ⊢
    simp only [List.replicate_succ, List.foldlM_cons, h1, Res.ok_bind]
    exact h2
  induction hp with
  | done hd => intro S s h _ hs; exact ⟨0, s, S, rfl, h, hs, fun _ _ => rfl⟩
  | @readOld S1 l k hin hS hex hk ih =>
    intro S s h hSS hs
    have hv : s.mem.val l = m.val l := by
      refine h.old l fun j hj hSj => ?_
      have := hex j hj (h.sub j hj l hSj)
      subst this; rw [hSS] at hSj; exact hS hSj
    have hstep : s.step i = .ok ⟨s.mem, Function.update s.threads i (k (m.val l))⟩ := by
      unfold Machine.step
      simp only [hs, Arr.rd_ok (show s.mem.inb l = true by rw [h.inb]; exact hin), Res.ok_bind, Res.pure_eq, hv]
    refine cont hstep (fun j hj => by simp [Function.update_of_ne hj]) ?_
    refine ih (S := S) ⟨h.sub, ?_, h.inb, h.new, h.old⟩ hSS (by simp)
    intro j hj
    by_cases hji : j = i
    · subst hji; simp only [Function.update_self]; rw [hSS]; exact hk
    · simp only [Function.update_of_ne hji]; exact h.fits j hj
  | @readNew S1 l k hin hS hk ih =>
    intro S s h hSS hs
    have hv : s.mem.val l = F l := h.new i hi l (by rw [hSS]; exact hS)
    have hstep : s.step i = .ok ⟨s.mem, Function.update s.threads i (k (F l))⟩ := by
      unfold Machine.step
      simp only [hs, Arr.rd_ok (show s.mem.inb l = true by rw [h.inb]; exact hin), Res.ok_bind, Res.pure_eq, hv]
    refine cont hstep (fun j hj => by simp [Function.update_of_ne hj]) ?_
    refine ih (S := S) ⟨h.sub, ?_, h.inb, h.new, h.old⟩ hSS (by simp)
    intro j hj
    by_cases hji : j = i
    · subst hji; simp only [Function.update_self]; rw [hSS]; exact hk
    · simp only [Function.update_of_ne hji]; exact h.fits j hj
  | @write S1 l v k hin ht hv hk ih =>
    intro S s h hSS hs
    obtain ⟨s1, S1', h1, h2⟩ := h.step hi
    have hstep : s.step i = .ok ⟨{ s.mem with val := Function.update s.mem.val l v }, Function.update s.threads i k⟩ := by
      unfold Machine.step
      simp only [hs, Arr.wr_ok (show s.mem.inb l = true by rw [h.inb]; exact hin), Res.ok_bind, Res.pure_eq]
    refine cont hstep (fun j hj => by simp [Function.update_of_ne hj]) ?_
    refine ih (S := Function.update S i (fun q => S1 q ∨ q = l)) ?_ (by simp) (by simp)
    refine ⟨?_, ?_, h.inb, ?_, ?_⟩
    · intro j hj q hq
      by_cases hji : j = i
      · subst hji; simp only [Function.update_self] at hq
        rcases hq with hq | hq
        · exact h.sub j hj q (by rw [hSS]; exact hq)
        · subst hq; exact ht
      · rw [Function.update_of_ne hji] at hq; exact h.sub j hj q hq
    · intro j hj
      by_cases hji : j = i
      · subst hji; simp only [Function.update_self]; exact hk
      · simp only [Function.update_of_ne hji]; exact h.fits j hj
    · intro j hj q hq
      by_cases hql : q = l
      · subst hql; simp only [Function.update_self]; exact hv
      · simp only [Function.update_of_ne hql]
        by_cases hji : j = i
        · subst hji; simp only [Function.update_self] at hq
          exact h.new j hj q (by rw [hSS]; exact hq.resolve_right hql)
        · rw [Function.update_of_ne hji] at hq; exact h.new j hj q hq
    · intro q hq
      have hql : q ≠ l := by
        intro hc; subst hc
        exact hq i hi (by simp)
      simp only [Function.update_of_ne hql]
      refine h.old q fun j hj hSj => hq j hj ?_
      by_cases hji : j = i
      · subst hji; simp only [Function.update_self]; rw [hSS] at hSj; exact Or.inl hSj
      · rw [Function.update_of_ne hji]; exact hSj

/-- All threads can finish, one after the other. -/
theorem Inv.finishAll [DecidableEq L] {n : Nat} {touch : Nat → L → Prop} {m : Arr L V} {F : L → V} (r : Nat) (hr : r ≤ n) :
    ∀ {S : Nat → L → Prop} {s : Machine L V}, Inv n touch m F S s →
    ∃ schedule s' S', (∀ i ∈ schedule, i < n) ∧ Machine.run schedule s = .ok s' ∧ Inv n touch m F S' s' ∧ s'.finished r := by
  induction r with
  | zero => intro S s h; exact ⟨[], s, S, by simp, rfl, h, by intro i hi; omega⟩
  | succ r ih =>
    intro S s h
    obtain ⟨l1, s1, S1, h1, h2, h3, h4⟩ := ih (by omega) h
    obtain ⟨c, s2, S2, h5, h6, h7, h8⟩ := Inv.finish (show r < n by omega) (h3.fits r (by omega)) h3 rfl rfl
    refine ⟨l1 ++ List.replicate c r, s2, S2, ?_, ?_, h6, ?_⟩
    · intro i hi
      rcases List.mem_append.1 hi with hi | hi
      · exact h1 i hi
      · have := List.eq_of_mem_replicate hi; omega
    · unfold Machine.run at h2 h5 ⊢
      rw [List.foldlM_append, h2, Res.ok_bind, h5]
    · intro i hi
      by_cases hir : i = r
      · subst hir; exact h7
      · rw [h8 i hir]; exact h4 i (by omega)

/-- Launches of well-behaved threads are deterministic: whatever the interleaving, every place a thread writes ends up with the
value `F` and all other places keep their values. -/
theorem yields_of_fits [DecidableEq L] {k : Launch L V} {touch : Nat → L → Prop} {m m' : Arr L V} {F : L → V}
    (h : ∀ i < k.threads, Fits k.threads touch m F i (fun _ => False) (k.kernel i))
    (hinb : m'.inb = m.inb) (hnew : ∀ i < k.threads, ∀ l, touch i l → m'.val l = F l)
    (hold : ∀ l, (∀ i < k.threads, ¬ touch i l) → m'.val l = m.val l) : yields k m m' := by
  have h0 : Inv k.threads touch m F (fun _ _ => False) ⟨m, k.kernel⟩ :=
    ⟨by intro i _ l hc; exact hc.elim, h, rfl, by intro i _ l hc; exact hc.elim, fun _ _ => rfl⟩
  refine ⟨?_, ?_, ?_⟩
  · intro schedule hs
    obtain ⟨s, _, h1, _⟩ := h0.run schedule hs
    exact ⟨s, h1⟩
  · obtain ⟨l, s, _, h1, h2, _, h3⟩ := h0.finishAll k.threads le_rfl
    exact ⟨l, h1, s, h2, h3⟩
  · intro schedule hs s hrun hfin
    obtain ⟨s', S, h1, h2⟩ := h0.run schedule hs
    rw [h1] at hrun
    cases hrun
    have hall : ∀ i < k.threads, ∀ l, touch i l → S i l := by
      intro i hi l hl
      have hf := h2.fits i hi
      rw [hfin i hi] at hf
      cases hf with
      | done hd => exact hd l hl
    obtain ⟨sm, st⟩ := s
    have e1 : sm.inb = m'.inb := by rw [hinb]; exact h2.inb
    have e2 : sm.val = m'.val := by
      funext l
      by_cases hl : ∃ i, i < k.threads ∧ touch i l
      · obtain ⟨i, hi, hl⟩ := hl
        rw [hnew i hi l hl]
        exact h2.new i hi l (hall i hi l hl)
      · have hl' : ∀ i < k.threads, ¬ touch i l := fun i hi hc => hl ⟨i, hi, hc⟩
        rw [hold l hl']
        exact h2.old l fun i hi hc => hl' i hi (h2.sub i hi l hc)
    cases sm; cases m'
    simp only at e1 e2
    subst e1 e2
    rfl

/-- A launch has at most one result. -/
theorem yields_unique [DecidableEq L] {k : Launch L V} {m m1 m2 : Arr L V} (h1 : yields k m m1) (h2 : yields k m m2) : m1 = m2 := by
  obtain ⟨l, hl, s, hs, hf⟩ := h1.2.1
  rw [← h1.2.2 l hl s hs hf, ← h2.2.2 l hl s hs hf]

theorem yieldsAll_unique [DecidableEq L] {ks : List (Launch L V)} : ∀ {m m1 m2 : Arr L V},
    yieldsAll ks m m1 → yieldsAll ks m m2 → m1 = m2 := by
  induction ks with
  | nil => intro m m1 m2 h1 h2; exact h1.trans h2.symm
  | cons k ks ih =>
    rintro m m1 m2 ⟨a, ha, h1⟩ ⟨b, hb, h2⟩
    have := yields_unique ha hb
    subst this
    exact ih h1 h2

theorem yieldsAll_append [DecidableEq L] {ks ks' : List (Launch L V)} : ∀ {m m1 m2 : Arr L V},
    yieldsAll ks m m1 → yieldsAll ks' m1 m2 → yieldsAll (ks ++ ks') m m2 := by
  induction ks with
  | nil => intro m m1 m2 h1 h2; cases h1; exact h2
  | cons k ks ih =>
    rintro m m1 m2 ⟨a, ha, h1⟩ h2
    exact ⟨a, ha, ih h1 h2⟩

/-! ### Launches that leave the memory -/

/-- A thread that runs alone on the memory `m` leaves the allocated memory. -/
inductive Leaves [DecidableEq L] : Arr L V → Prog L V → Prop where
  | readBad {m l k} : m.inb l = false → Leaves m (.read l k)
  | writeBad {m l v k} : m.inb l = false → Leaves m (.write l v k)
  | read {m l k} : m.inb l = true → Leaves m (k (m.val l)) → Leaves m (.read l k)
  | write {m l v k} : m.inb l = true → Leaves { m with val := Function.update m.val l v } k → Leaves m (.write l v k)

theorem Leaves.run [DecidableEq L] {m : Arr L V} {p : Prog L V} (h : Leaves m p) : ∀ {i : Nat} {threads : Nat → Prog L V}, threads i = p →
    ∃ c, Machine.run (List.replicate c i) ⟨m, threads⟩ = .error .ub := by
  induction h with
  | readBad hb =>
    intro i threads hp
    exact ⟨1, by simp [Machine.run, Machine.step, hp, Arr.rd, hb]⟩
  | writeBad hb =>
    intro i threads hp
    exact ⟨1, by simp [Machine.run, Machine.step, hp, Arr.wr, hb]⟩
  | @read m l k hb _ ih =>
    intro i threads hp
    obtain ⟨c, hc⟩ := ih (i := i) (threads := Function.update threads i (k (m.val l))) (by simp)
    refine ⟨c + 1, ?_⟩
    have hstep : Machine.step ⟨m, threads⟩ i = .ok ⟨m, Function.update threads i (k (m.val l))⟩ := by
      simp [Machine.step, hp, Arr.rd, hb]
    unfold Machine.run at hc ⊢
    simp only [List.replicate_succ, List.foldlM_cons, hstep, Res.ok_bind]
    exact hc
  | @write m l v k hb _ ih =>
    intro i threads hp
    obtain ⟨c, hc⟩ := ih (i := i) (threads := Function.update threads i k) (by simp)
    refine ⟨c + 1, ?_⟩
    have hstep : Machine.step ⟨m, threads⟩ i = .ok ⟨{ m with val := Function.update m.val l v }, Function.update threads i k⟩ := by
      simp [Machine.step, hp, Arr.wr, hb]
    unfold Machine.run at hc ⊢
    simp only [List.replicate_succ, List.foldlM_cons, hstep, Res.ok_bind]
    exact hc

/-- If one thread alone leaves the memory, the launch has an execution with undefined behaviour and no result. -/
theorem Leaves.launch [DecidableEq L] {k : Launch L V} {m : Arr L V} {i : Nat} (hi : i < k.threads) (h : Leaves m (k.kernel i)) :
    (∃ schedule : List Nat, (∀ j ∈ schedule, j < k.threads) ∧ Machine.run schedule ⟨m, k.kernel⟩ = .error .ub) ∧ ∀ m', ¬ yields k m m' := by
  obtain ⟨c, hc⟩ := h.run rfl
  have hs : ∀ j ∈ List.replicate c i, j < k.threads := fun j hj => by rw [List.eq_of_mem_replicate hj]; exact hi
  refine ⟨⟨_, hs, hc⟩, fun m' hy => ?_⟩
  obtain ⟨s, hok⟩ := hy.1 _ hs
  rw [hc] at hok
  cases hok

/-! ### Thread numbers and cells -/

theorem threadCount_ge {size blockSize : Nat} (hb : 0 < blockSize) : size ≤ threadCount size blockSize := by
  unfold threadCount
  have h := Nat.div_add_mod (size + blockSize - 1) blockSize
  have h2 := Nat.mod_lt (size + blockSize - 1) hb
  rw [mul_comm] at h
  omega

/-- The cell of thread `i` among `nx × ny × nz` cells (for instance alsfvm/include/alsfvm/cuda/cuda_utils.hpp:63-65). -/
def decode (nx ny i : Nat) : I3 := ⟨(i % nx : Nat), (i / nx % ny : Nat), (i / (nx * ny) : Nat)⟩

/-- The thread of a cell. -/
def encode (nx ny : Nat) (c : I3) : Nat := c.x.toNat + nx * (c.y.toNat + ny * c.z.toNat)

theorem decode_mem {nx ny nz i : Nat} (hi : i < nx * ny * nz) : inSize ⟨nx, ny, nz⟩ (decode nx ny i) = true := by
  have hx : 0 < nx := by rcases Nat.eq_zero_or_pos nx with h | h; · simp [h] at hi
                         · exact h
  have hy : 0 < ny := by rcases Nat.eq_zero_or_pos ny with h | h; · simp [h] at hi
                         · exact h
  have h1 : i % nx < nx := Nat.mod_lt _ hx
  have h2 : i / nx % ny < ny := Nat.mod_lt _ hy
  have h3 : i / (nx * ny) < nz := Nat.div_lt_of_lt_mul hi
  simp only [inSize_iff, decode]
  exact ⟨Int.natCast_nonneg _, by exact_mod_cast h1, Int.natCast_nonneg _, by exact_mod_cast h2, Int.natCast_nonneg _,
    by exact_mod_cast h3⟩

theorem encode_decode {nx ny : Nat} (i : Nat) : encode nx ny (decode nx ny i) = i := by
  simp only [encode, decode, Int.toNat_natCast]
  rw [← Nat.div_div_eq_div_mul, Nat.mod_add_div, Nat.mod_add_div]

theorem encode_lt {nx ny nz : Nat} {c : I3} (h : inSize ⟨nx, ny, nz⟩ c = true) : encode nx ny c < nx * ny * nz := by
  simp only [inSize_iff] at h
  obtain ⟨h1, h2, h3, h4, h5, h6⟩ := h
  obtain ⟨x, hx⟩ := Int.eq_ofNat_of_zero_le h1
  obtain ⟨y, hy⟩ := Int.eq_ofNat_of_zero_le h3
  obtain ⟨z, hz⟩ := Int.eq_ofNat_of_zero_le h5
  have hx' : x < nx := by omega
  have hy' : y < ny := by omega
  have hz' : z < nz := by omega
  simp only [encode, hx, hy, hz, Int.toNat_natCast, Int.toNat_natCast]
  have a1 : y + ny * z + 1 ≤ ny * (z + 1) := by rw [Nat.mul_succ]; omega
  have a2 : ny * (z + 1) ≤ ny * nz := Nat.mul_le_mul_left _ hz'
  have a3 : nx * (y + ny * z + 1) ≤ nx * (ny * nz) := Nat.mul_le_mul_left _ (a1.trans a2)
  rw [Nat.mul_succ] at a3
  rw [Nat.mul_assoc]
  change x + nx * (y + ny * z) < nx * (ny * nz)
  omega

theorem decode_encode {nx ny nz : Nat} {c : I3} (h : inSize ⟨nx, ny, nz⟩ c = true) : decode nx ny (encode nx ny c) = c := by
  simp only [inSize_iff] at h
  obtain ⟨h1, h2, h3, h4, h5, h6⟩ := h
  obtain ⟨x, hx⟩ := Int.eq_ofNat_of_zero_le h1
  obtain ⟨y, hy⟩ := Int.eq_ofNat_of_zero_le h3
  obtain ⟨z, hz⟩ := Int.eq_ofNat_of_zero_le h5
  have hx' : x < nx := by omega
  have hy' : y < ny := by omega
  have hz' : z < nz := by omega
  have e : encode nx ny c = x + nx * (y + ny * z) := by
    simp only [encode, hx, hy, hz]; rfl
  have d1 : (x + nx * (y + ny * z)) % nx = x := by rw [Nat.add_mul_mod_self_left]; exact Nat.mod_eq_of_lt hx'
  have d2 : (x + nx * (y + ny * z)) / nx = y + ny * z := by
    rw [Nat.add_mul_div_left _ _ (by omega), Nat.div_eq_of_lt hx', Nat.zero_add]
  have d3 : (y + ny * z) % ny = y := by rw [Nat.add_mul_mod_self_left]; exact Nat.mod_eq_of_lt hy'
  have d4 : (y + ny * z) / ny = z := by
    rw [Nat.add_mul_div_left _ _ (by omega), Nat.div_eq_of_lt hy', Nat.zero_add]
  simp only [decode, e]
  rw [← Nat.div_div_eq_div_mul, d1, d2, d3, d4]
  cases c; simp only at hx hy hz
  simp only [hx, hy, hz]

theorem decode_inj {nx ny i j : Nat} (h : decode nx ny i = decode nx ny j) : i = j := by
  rw [← encode_decode (nx := nx) (ny := ny) i, h, encode_decode]

/-- Threads beyond the last cell are outside in the last coordinate. -/
theorem decode_ge {nx ny nz i : Nat} (hx : 0 < nx) (hy : 0 < ny) (hi : nx * ny * nz ≤ i) : (nz : Int) ≤ (decode nx ny i).z := by
  have : nz ≤ i / (nx * ny) := (Nat.le_div_iff_mul_le (by positivity)).2 (by rw [mul_comm]; exact hi)
  simp only [decode]
  omega

/-! ### Launches with one thread per cell of a box -/

/-- `getCoordinates` (alsfvm/include/alsfvm/cuda/cuda_utils.hpp:57-79): the cell of a thread among `nx × ny × nz` cells, shifted by
`offset`; threads beyond the last cell get `(-1,-1,-1)`. -/
def getCoordinates (nx ny nz : Nat) (offset : I3) (i : Nat) : I3 :=
  let c := decode nx ny i
  if (nx : Int) ≤ c.x ∨ (ny : Int) ≤ c.y ∨ (nz : Int) ≤ c.z then ⟨-1, -1, -1⟩ else c + offset

/-- Number of cells between `lo` and `hi` in one direction. The code converts a negative difference to a huge `size_t`; theorems about
these launches assume `lo ≤ hi`. -/
def extent (lo hi : Int) : Nat := (hi - lo).toNat

/-- A launch with the parameters of `makeKernelLaunchParameters(lo, hi, blockSize)` (cuda_utils.hpp:83-95) of a kernel that starts with
`getCoordinates` and returns if the first coordinate is negative (for instance vector_operations.cu:148-158). -/
def boxLaunch (lo hi : I3) (blockSize : Nat) (body : I3 → Prog L V) : Launch L V :=
  let nx := extent lo.x hi.x
  let ny := extent lo.y hi.y
  let nz := extent lo.z hi.z
  ⟨threadCount (nx * ny * nz) blockSize, fun i =>
    let c := getCoordinates nx ny nz lo i
    if c.x < 0 then .done else body c⟩

/-- The rest `p` of the program for cell `c` is well behaved (see `Fits`): it writes exactly the places `touch c`, always the value `F`, and
reads only places it has written itself or that no other cell of `cells` writes. -/
inductive CellFits {ι : Type} (cells : ι → Prop) (touch : ι → L → Prop) (m : Arr L V) (F : L → V) (c : ι) : (L → Prop) → Prog L V → Prop where
  | done {S} : (∀ l, touch c l → S l) → CellFits cells touch m F c S .done
  | readOld {S l k} : m.inb l = true → ¬ S l → (∀ c', cells c' → touch c' l → c' = c) → CellFits cells touch m F c S (k (m.val l)) →
      CellFits cells touch m F c S (.read l k)
  | readNew {S l k} : m.inb l = true → S l → CellFits cells touch m F c S (k (F l)) → CellFits cells touch m F c S (.read l k)
  | write {S l v k} : m.inb l = true → touch c l → v = F l → CellFits cells touch m F c (fun q => S q ∨ q = l) k →
      CellFits cells touch m F c S (.write l v k)

theorem CellFits.fits {ι : Type} {cells : ι → Prop} {touch : ι → L → Prop} {m : Arr L V} {F : L → V} {n : Nat} {touch' : Nat → L → Prop}
    {c : ι} {i : Nat} (h1 : ∀ l, touch' i l ↔ touch c l)
    (h2 : ∀ j < n, ∀ l, touch' j l → ∃ c', cells c' ∧ touch c' l ∧ (c' = c → j = i)) {S : L → Prop} {p : Prog L V}
    (hp : CellFits cells touch m F c S p) : Fits n touch' m F i S p := by
  induction hp with
  | done hd => exact .done fun l hl => hd l ((h1 l).1 hl)
  | readOld hin hS hex _ ih =>
    refine .readOld hin hS (fun j hj hl => ?_) ih
    obtain ⟨c', hc, ht, hji⟩ := h2 j hj _ hl
    exact hji (hex c' hc ht)
  | readNew hin hS _ ih => exact .readNew hin hS ih
  | write hin ht hv _ ih => exact .write hin ((h1 _).2 ht) hv ih

theorem extent_eq {lo hi : Int} (h : lo ≤ hi) : (extent lo hi : Int) = hi - lo := by unfold extent; omega

/-- The threads of a launch over a box are the cells of the box. -/
theorem getCoordinates_mem {lo hi : I3} {i : Nat}
    (h : ¬ ((extent lo.x hi.x : Int) ≤ (decode (extent lo.x hi.x) (extent lo.y hi.y) i).x ∨
      (extent lo.y hi.y : Int) ≤ (decode (extent lo.x hi.x) (extent lo.y hi.y) i).y ∨
      (extent lo.z hi.z : Int) ≤ (decode (extent lo.x hi.x) (extent lo.y hi.y) i).z)) :
    decode (extent lo.x hi.x) (extent lo.y hi.y) i + lo ∈ box lo hi := by
  simp only [not_or, not_le] at h
  obtain ⟨h1, h2, h3⟩ := h
  have e1 : ∀ a b : Int, ∀ d : Int, d < (extent a b : Int) → 0 ≤ d → a ≤ d + a ∧ d + a < b := by
    intro a b d hd hd0; unfold extent at hd; omega
  simp only [mem_box, I3.add_x, I3.add_y, I3.add_z]
  exact ⟨e1 _ _ _ h1 (by simp only [decode]; omega), e1 _ _ _ h2 (by simp only [decode]; omega),
    e1 _ _ _ h3 (by simp only [decode]; exact Int.natCast_nonneg _)⟩

theorem exists_thread {lo hi c : I3} {blockSize : Nat} (hb : 0 < blockSize) (hc : c ∈ box lo hi) :
    ∃ i, i < threadCount (extent lo.x hi.x * extent lo.y hi.y * extent lo.z hi.z) blockSize ∧
      getCoordinates (extent lo.x hi.x) (extent lo.y hi.y) (extent lo.z hi.z) lo i = c := by
  simp only [mem_box] at hc
  have hin : inSize ⟨extent lo.x hi.x, extent lo.y hi.y, extent lo.z hi.z⟩ (c - lo) = true := by
    simp only [inSize_iff, I3.sub_x, I3.sub_y, I3.sub_z, extent]; omega
  refine ⟨encode (extent lo.x hi.x) (extent lo.y hi.y) (c - lo), lt_of_lt_of_le (encode_lt hin) (threadCount_ge hb), ?_⟩
  simp only [getCoordinates, decode_encode hin]
  simp only [inSize_iff] at hin
  rw [if_neg (by omega)]
  cases c; cases lo
  simp [I3.ext_iff]

theorem Leaves.box [DecidableEq L] {lo hi c : I3} {blockSize : Nat} {body : I3 → Prog L V} {m : Arr L V} (hlo : 0 ≤ lo.x) (hb : 0 < blockSize)
    (hc : c ∈ Verif.box lo hi) (h : Leaves m (body c)) :
    (∃ schedule : List Nat, (∀ j ∈ schedule, j < (boxLaunch lo hi blockSize body).threads) ∧
      Machine.run schedule ⟨m, (boxLaunch lo hi blockSize body).kernel⟩ = .error .ub) ∧ ∀ m', ¬ yields (boxLaunch lo hi blockSize body) m m' := by
  obtain ⟨i, hi1, hi2⟩ := exists_thread (blockSize := blockSize) hb hc
  refine Leaves.launch (i := i) hi1 ?_
  simp only [boxLaunch, hi2]
  rw [if_neg (by simp only [mem_box] at hc; omega)]
  exact h

/-- A launch over a box whose cells are well behaved is deterministic. -/
theorem yields_box [DecidableEq L] {lo hi : I3} {blockSize : Nat} {body : I3 → Prog L V} {touch : I3 → L → Prop} {m m' : Arr L V}
    {F : L → V} (hlo : 0 ≤ lo.x) (hb : 0 < blockSize)
    (h : ∀ c ∈ box lo hi, CellFits (· ∈ box lo hi) touch m F c (fun _ => False) (body c))
    (hinb : m'.inb = m.inb) (hnew : ∀ c ∈ box lo hi, ∀ l, touch c l → m'.val l = F l)
    (hold : ∀ l, (∀ c ∈ box lo hi, ¬ touch c l) → m'.val l = m.val l) : yields (boxLaunch lo hi blockSize body) m m' := by
  set nx := extent lo.x hi.x with hnx
  set ny := extent lo.y hi.y with hny
  set nz := extent lo.z hi.z with hnz
  let out (i : Nat) : Prop := (nx : Int) ≤ (decode nx ny i).x ∨ (ny : Int) ≤ (decode nx ny i).y ∨ (nz : Int) ≤ (decode nx ny i).z
  have hmem : ∀ i, ¬ out i → decode nx ny i + lo ∈ box lo hi := fun i hi => getCoordinates_mem hi
  refine yields_of_fits (touch := fun i l => ¬ out i ∧ touch (decode nx ny i + lo) l) (F := F) ?_ hinb ?_ ?_
  · intro i _
    simp only [boxLaunch]
    by_cases ho : out i
    · have hg : getCoordinates nx ny nz lo i = ⟨-1, -1, -1⟩ := if_pos ho
      rw [hg, if_pos (by decide)]
      exact .done fun l hl => absurd ho hl.1
    · have hg : getCoordinates nx ny nz lo i = decode nx ny i + lo := if_neg ho
      have hm := hmem i ho
      rw [hg, if_neg (by simp only [mem_box] at hm; omega)]
      refine CellFits.fits (cells := (· ∈ box lo hi)) (touch := touch) (c := decode nx ny i + lo) ?_ ?_ (h _ hm)
      · intro l; exact ⟨fun h => h.2, fun h => ⟨ho, h⟩⟩
      · rintro j _ l ⟨hoj, hl⟩
        refine ⟨_, hmem j hoj, hl, fun he => ?_⟩
        refine decode_inj (nx := nx) (ny := ny) ?_
        have := I3.ext_iff.1 he
        simp only [I3.add_x, I3.add_y, I3.add_z] at this
        exact I3.ext_iff.2 (by omega)
  · rintro i _ l ⟨ho, hl⟩
    exact hnew _ (hmem i ho) l hl
  · intro l hl
    refine hold l fun c hc ht => ?_
    obtain ⟨i, hi1, hi2⟩ := exists_thread (blockSize := blockSize) hb hc
    refine hl i hi1 ?_
    simp only [getCoordinates] at hi2
    split at hi2
    · subst hi2; simp only [mem_box] at hc; omega
    · rename_i ho
      exact ⟨ho, by rw [hi2]; exact ht⟩

end Verif.Gpu
