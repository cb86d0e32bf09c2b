import Verif.GpuGrid
import Verif.GpuStreams

/-!
When the threads of a launch have nothing to do with each other (no thread writes what another one reads or writes), the launch does the
same as a loop over the threads on one processor.
-/

namespace Verif.Gpu
variable {L V : Type}

/-- One thread running alone. -/
def Prog.exec [DecidableEq L] : Prog L V → Arr L V → Res (Arr L V)
  | .done, m => pure m
  | .read l k, m => do
    let v ← m.rd l
    (k v).exec m
  | .write l v k, m => do
    let m ← m.wr l v
    k.exec m

/-- Whatever values it reads, the thread reads only places in `R` or `W` and writes only places in `W`. -/
inductive Uses (R W : L → Prop) : Prog L V → Prop where
  | done : Uses R W .done
  | read {l k} : R l ∨ W l → (∀ v, Uses R W (k v)) → Uses R W (.read l k)
  | write {l v k} : W l → Uses R W k → Uses R W (.write l v k)

theorem Uses.mono {R W R' W' : L → Prop} {p : Prog L V} (h : Uses R W p) (hR : ∀ l, R l → R' l) (hW : ∀ l, W l → W' l) : Uses R' W' p := by
  induction h with
  | done => exact .done
  | read h1 _ ih => exact .read (h1.imp (hR _) (hW _)) ih
  | write h1 _ ih => exact .write (hW _ h1) ih

section
variable [DecidableEq L] {m m' m1 m2 : Arr L V}

theorem exec_read_ok {l : L} {k : V → Prog L V} (h : m.inb l = true) : (Prog.read l k).exec m = (k (m.val l)).exec m := by
  simp only [Prog.exec, Arr.rd_ok h]; rfl

theorem exec_write_ok {l : L} {v : V} {k : Prog L V} (h : m.inb l = true) :
    (Prog.write l v k).exec m = k.exec { m with val := Function.update m.val l v } := by
  simp only [Prog.exec, Arr.wr_ok h]; rfl

theorem exec_read_inb {l : L} {k : V → Prog L V} (h : (Prog.read l k).exec m = .ok m') : m.inb l = true := by
  by_contra hb
  simp only [Prog.exec, Arr.rd, hb] at h
  cases h

theorem exec_write_inb {l : L} {v : V} {k : Prog L V} (h : (Prog.write l v k).exec m = .ok m') : m.inb l = true := by
  by_contra hb
  simp only [Prog.exec, Arr.wr, hb] at h
  cases h

/-- A thread depends only on the places it uses and changes only the places it may write. -/
theorem exec_congr {R W : L → Prop} {p : Prog L V} (hp : Uses R W p) : ∀ {m1 m2 m1' : Arr L V}, m2.inb = m1.inb →
    (∀ l, R l ∨ W l → m2.val l = m1.val l) → p.exec m1 = .ok m1' →
    ∃ m2', p.exec m2 = .ok m2' ∧ m2'.inb = m2.inb ∧ (∀ l, R l ∨ W l → m2'.val l = m1'.val l) ∧ ∀ l, ¬ W l → m2'.val l = m2.val l := by
  induction hp with
  | done =>
    intro m1 m2 m1' hi hv h
    cases h
    exact ⟨m2, rfl, rfl, hv, fun _ _ => rfl⟩
  | @read l k hl _ ih =>
    intro m1 m2 m1' hi hv h
    have hb := exec_read_inb h
    rw [exec_read_ok hb] at h
    rw [exec_read_ok (by rw [hi]; exact hb), hv l hl]
    exact ih _ hi hv h
  | @write l v k hl _ ih =>
    intro m1 m2 m1' hi hv h
    have hb := exec_write_inb h
    rw [exec_write_ok hb] at h
    rw [exec_write_ok (by rw [hi]; exact hb)]
    obtain ⟨m2', h1, h2, h3, h4⟩ := ih (m1 := ⟨m1.inb, Function.update m1.val l v⟩) (m2 := ⟨m2.inb, Function.update m2.val l v⟩) hi (fun l' hl' => by
      by_cases e : l' = l
      · subst e; simp
      · simp only [Function.update_of_ne e]; exact hv l' hl') h
    refine ⟨m2', h1, h2, h3, fun l' hl' => ?_⟩
    rw [h4 l' hl']
    exact Function.update_of_ne (fun e => hl' (by rw [e]; exact hl)) _ _

theorem exec_inb {R W : L → Prop} {p : Prog L V} (hp : Uses R W p) (h : p.exec m = .ok m') : m'.inb = m.inb ∧ ∀ l, ¬ W l → m'.val l = m.val l := by
  obtain ⟨m2, h1, h2, -, h4⟩ := exec_congr hp rfl (fun _ _ => rfl) h
  rw [h] at h1; cases h1
  exact ⟨h2, h4⟩

/-- What a loop over threads that do not disturb each other does. -/
theorem loop_spec {ι : Type} {R W : ι → L → Prop} {body : ι → Prog L V} (cells : List ι) (hnd : cells.Nodup) (huse : ∀ c ∈ cells, Uses (R c) (W c) (body c))
    (hdis : ∀ c ∈ cells, ∀ c' ∈ cells, c ≠ c' → ∀ l, W c l → ¬ (R c' l ∨ W c' l)) : ∀ {m m' : Arr L V}, cells.foldlM (fun m c => (body c).exec m) m = .ok m' →
    m'.inb = m.inb ∧ (∀ l, (∀ c ∈ cells, ¬ W c l) → m'.val l = m.val l) ∧
      ∀ c ∈ cells, ∃ mc, (body c).exec m = .ok mc ∧ ∀ l, W c l → m'.val l = mc.val l := by
  induction cells with
  | nil => intro m m' h; cases h; exact ⟨rfl, fun _ _ => rfl, by simp⟩
  | cons a as ih =>
    intro m m' h
    rw [List.foldlM_cons] at h
    rcases ha : (body a).exec m with e | m1
    · rw [ha] at h; cases h
    · rw [ha] at h
      replace h : as.foldlM (fun m c => (body c).exec m) m1 = .ok m' := h
      have hna : a ∉ as := (List.nodup_cons.1 hnd).1
      obtain ⟨a1, a2⟩ := exec_inb (huse a (by simp)) ha
      obtain ⟨h1, h2, h3⟩ := ih (List.nodup_cons.1 hnd).2 (fun c hc => huse c (by simp [hc]))
        (fun c hc c' hc' => hdis c (by simp [hc]) c' (by simp [hc'])) h
      refine ⟨h1.trans a1, fun l hl => ?_, fun c hc => ?_⟩
      · rw [h2 l fun c hc => hl c (by simp [hc]), a2 l (hl a (by simp))]
      · rcases List.mem_cons.1 hc with rfl | hc
        · refine ⟨m1, ha, fun l hl => h2 l fun c' hc' hw => ?_⟩
          exact hdis c (by simp) c' (by simp [hc']) (fun e => hna (e ▸ hc')) l hl (Or.inr hw)
        · obtain ⟨mc, k1, k2⟩ := h3 c hc
          obtain ⟨mc', k3, -, k5, -⟩ := exec_congr (m2 := m) (huse c (by simp [hc])) a1.symm
            (fun l hl => (a2 l fun hw => hdis a (by simp) c (by simp [hc]) (fun e => hna (e ▸ hc)) l hw hl).symm) k1
          exact ⟨mc', k3, fun l hl => by rw [k2 l hl, k5 l (Or.inr hl)]⟩

/-- What holds after any number of accesses of threads that do not disturb each other: run alone from here, every thread would store the values of `m'`. -/
structure LoopInv (n : Nat) (R W : Nat → L → Prop) (m m' : Arr L V) (s : Machine L V) : Prop where
  inb : s.mem.inb = m.inb
  uses : ∀ i < n, Uses (R i) (W i) (s.threads i)
  goal : ∀ i < n, ∃ mi, (s.threads i).exec s.mem = .ok mi ∧ ∀ l, W i l → mi.val l = m'.val l
  old : ∀ l, (∀ i < n, ¬ W i l) → s.mem.val l = m.val l

variable {n : Nat} {R W : Nat → L → Prop}

theorem LoopInv.step (hdis : ∀ i < n, ∀ j < n, i ≠ j → ∀ l, W i l → ¬ (R j l ∨ W j l)) {s : Machine L V} (h : LoopInv n R W m m' s) {i : Nat} (hi : i < n) :
    ∃ s', s.step i = .ok s' ∧ LoopInv n R W m m' s' := by
  obtain ⟨mi, e1, e2⟩ := h.goal i hi
  have hu := h.uses i hi
  rcases hd : s.threads i with _ | ⟨a, k⟩ | ⟨b, v, k⟩
  · exact ⟨s, by simp [Machine.step, hd], h⟩
  · rw [hd] at e1 hu
    have hb := exec_read_inb e1
    rw [exec_read_ok hb] at e1
    cases hu with
    | read h1 h2 =>
    refine ⟨{ s with threads := Function.update s.threads i (k (s.mem.val a)) }, ?_, ⟨h.inb, fun j hj => ?_, fun j hj => ?_, h.old⟩⟩
    · simp only [Machine.step, hd, Arr.rd_ok hb]; rfl
    · by_cases e : j = i
      · subst e; simp only [Function.update_self]; exact h2 _
      · simp only [Function.update_of_ne e]; exact h.uses j hj
    · by_cases e : j = i
      · subst e; simp only [Function.update_self]; exact ⟨mi, e1, e2⟩
      · simp only [Function.update_of_ne e]; exact h.goal j hj
  · rw [hd] at e1 hu
    have hb := exec_write_inb e1
    rw [exec_write_ok hb] at e1
    cases hu with
    | write h1 h2 =>
    refine ⟨⟨{ s.mem with val := Function.update s.mem.val b v }, Function.update s.threads i k⟩, ?_, ⟨h.inb, fun j hj => ?_, fun j hj => ?_, fun l hl => ?_⟩⟩
    · simp only [Machine.step, hd, Arr.wr_ok hb]; rfl
    · by_cases e : j = i
      · subst e; simp only [Function.update_self]; exact h2
      · simp only [Function.update_of_ne e]; exact h.uses j hj
    · by_cases e : j = i
      · subst e; simp only [Function.update_self]; exact ⟨mi, e1, e2⟩
      · simp only [Function.update_of_ne e]
        obtain ⟨mj, f1, f2⟩ := h.goal j hj
        obtain ⟨mj', g1, -, g3, -⟩ := exec_congr (m1 := s.mem) (m2 := ⟨s.mem.inb, Function.update s.mem.val b v⟩) (h.uses j hj) rfl 
          (fun l hl => Function.update_of_ne (fun e' : l = b => hdis i hi j hj (Ne.symm e) b h1 (e' ▸ hl)) _ _) f1
        exact ⟨mj', g1, fun l hl => by rw [g3 l (Or.inr hl), f2 l hl]⟩
    · rw [← h.old l hl]
      exact Function.update_of_ne (fun e' : l = b => hl i hi (by rw [e']; exact h1)) _ _

theorem LoopInv.run (hdis : ∀ i < n, ∀ j < n, i ≠ j → ∀ l, W i l → ¬ (R j l ∨ W j l)) (schedule : List Nat) :
    ∀ {s : Machine L V}, LoopInv n R W m m' s → (∀ i ∈ schedule, i < n) → ∃ s', Machine.run schedule s = .ok s' ∧ LoopInv n R W m m' s' := by
  induction schedule with
  | nil => intro s h _; exact ⟨s, rfl, h⟩
  | cons i is ih =>
    intro s h hs
    obtain ⟨s1, e1, h1⟩ := h.step hdis (hs i (by simp))
    obtain ⟨s2, e2, h2⟩ := ih h1 fun j hj => hs j (by simp [hj])
    refine ⟨s2, ?_, h2⟩
    simp only [Machine.run, List.foldlM_cons, e1]
    exact e2

/-- Letting a thread run alone to its end. -/
theorem run_alone (p : Prog L V) : ∀ {s : Machine L V} {i : Nat} {m' : Arr L V}, s.threads i = p → p.exec s.mem = .ok m' →
    ∃ c, Machine.run (List.replicate c i) s = .ok ⟨m', Function.update s.threads i .done⟩ := by
  induction p with
  | done =>
    intro s i m' hs h
    cases h
    refine ⟨0, ?_⟩
    have : Function.update s.threads i .done = s.threads := by rw [← hs]; exact Function.update_eq_self _ _
    rw [this]; rfl
  | read l k ih =>
    intro s i m' hs h
    have hb := exec_read_inb h
    rw [exec_read_ok hb] at h
    obtain ⟨c, hc⟩ := ih (s.mem.val l) (s := { s with threads := Function.update s.threads i (k (s.mem.val l)) }) (i := i) (by simp) h
    refine ⟨c + 1, ?_⟩
    rw [List.replicate_succ, Machine.run, List.foldlM_cons]
    have e : s.step i = .ok { s with threads := Function.update s.threads i (k (s.mem.val l)) } := by
      simp only [Machine.step, hs, Arr.rd_ok hb]; rfl
    rw [e]
    simp only [Function.update_idem] at hc
    exact hc
  | write l v k ih =>
    intro s i m' hs h
    have hb := exec_write_inb h
    rw [exec_write_ok hb] at h
    obtain ⟨c, hc⟩ := ih (s := ⟨{ s.mem with val := Function.update s.mem.val l v }, Function.update s.threads i k⟩) (i := i) (by simp) h
    refine ⟨c + 1, ?_⟩
    rw [List.replicate_succ, Machine.run, List.foldlM_cons]
    have e : s.step i = .ok ⟨{ s.mem with val := Function.update s.mem.val l v }, Function.update s.threads i k⟩ := by
      simp only [Machine.step, hs, Arr.wr_ok hb]; rfl
    rw [e]
    simp only [Function.update_idem] at hc
    exact hc

/-- Running threads one after the other, in any order, is an interleaving. -/
theorem run_list (k : Nat → Prog L V) (order : List Nat) (hnd : order.Nodup) : ∀ {s : Machine L V} {m' : Arr L V}, (∀ i ∈ order, s.threads i = k i) →
    order.foldlM (fun m i => (k i).exec m) s.mem = .ok m' → ∃ schedule : List Nat, (∀ i ∈ schedule, i ∈ order) ∧ ∃ s', Machine.run schedule s = .ok s' ∧
      s'.mem = m' ∧ (∀ i ∈ order, s'.threads i = .done) ∧ ∀ i ∉ order, s'.threads i = s.threads i := by
  induction order with
  | nil => intro s m' _ h; cases h; exact ⟨[], by simp, s, rfl, rfl, by simp, fun _ _ => rfl⟩
  | cons a as ih =>
    intro s m' hk h
    rw [List.foldlM_cons] at h
    have hna : a ∉ as := (List.nodup_cons.1 hnd).1
    rcases ha : (k a).exec s.mem with e | m1
    · rw [ha] at h; cases h
    · rw [ha] at h
      obtain ⟨c, hc⟩ := run_alone (k a) (hk a (by simp)) ha
      obtain ⟨sch, h1, s', h2, h3, h4, h5⟩ := ih (List.nodup_cons.1 hnd).2 (s := ⟨m1, Function.update s.threads a .done⟩)
        (fun i hi => by simp only [Function.update_of_ne (fun e => hna (e ▸ hi) : i ≠ a)]; exact hk i (by simp [hi])) h
      refine ⟨List.replicate c a ++ sch, ?_, s', ?_, h3, ?_, ?_⟩
      · intro i hi
        rcases List.mem_append.1 hi with hi | hi
        · rw [List.eq_of_mem_replicate hi]; simp
        · simp [h1 i hi]
      · rw [Machine.run, List.foldlM_append]
        show (Machine.run _ s >>= fun s => Machine.run sch s) = _
        rw [hc]; exact h2
      · intro i hi
        rcases List.mem_cons.1 hi with rfl | hi
        · rw [h5 i hna]; simp
        · exact h4 i hi
      · intro i hi
        rw [List.mem_cons, not_or] at hi
        rw [h5 i hi.2]
        simp only [Function.update_of_ne hi.1]

/-- Every loop over the threads of a launch is a possible outcome of the launch. -/
theorem mayYield_loop {k : Launch L V} (order : List Nat) (hnd : order.Nodup) (hlt : ∀ i ∈ order, i < k.threads)
    (hdone : ∀ i < k.threads, i ∉ order → k.kernel i = .done) (h : order.foldlM (fun m i => (k.kernel i).exec m) m = .ok m') : mayYield k m m' := by
  obtain ⟨sch, h1, s', h2, h3, h4, h5⟩ := run_list k.kernel order hnd (s := ⟨m, k.kernel⟩) (fun _ _ => rfl) h
  refine ⟨sch, fun i hi => hlt i (h1 i hi), s', h2, fun i hi => ?_, h3⟩
  by_cases hm : i ∈ order
  · exact h4 i hm
  · rw [h5 i hm]; exact hdone i hi hm

/-- If the threads do not disturb each other, the launch does what the loop does. -/
theorem yields_loop {k : Launch L V} (huse : ∀ i < k.threads, Uses (R i) (W i) (k.kernel i))
    (hdis : ∀ i < k.threads, ∀ j < k.threads, i ≠ j → ∀ l, W i l → ¬ (R j l ∨ W j l)) (order : List Nat) (hnd : order.Nodup) (hlt : ∀ i ∈ order, i < k.threads)
    (hdone : ∀ i < k.threads, i ∉ order → k.kernel i = .done ∧ ∀ l, ¬ W i l) (h : order.foldlM (fun m i => (k.kernel i).exec m) m = .ok m') : yields k m m' := by
  obtain ⟨l1, l2, l3⟩ := loop_spec order hnd (fun i hi => huse i (hlt i hi)) (fun i hi j hj => hdis i (hlt i hi) j (hlt j hj)) h
  have hini : LoopInv k.threads R W m m' ⟨m, k.kernel⟩ := by
    refine ⟨rfl, huse, fun i hi => ?_, fun _ _ => rfl⟩
    by_cases hm : i ∈ order
    · obtain ⟨mc, h1, h2⟩ := l3 i hm
      exact ⟨mc, h1, fun l hl => (h2 l hl).symm⟩
    · obtain ⟨h1, h2⟩ := hdone i hi hm
      exact ⟨m, by simp only [h1]; rfl, fun l hl => absurd hl (h2 l)⟩
  refine ⟨fun sch hs => ?_, ?_, fun sch hs s e hfin => ?_⟩
  · obtain ⟨s, e, -⟩ := hini.run hdis sch hs
    exact ⟨s, e⟩
  · obtain ⟨sch, h1, s, h2, h3, -⟩ := mayYield_loop order hnd hlt (fun i hi hm => (hdone i hi hm).1) h
    exact ⟨sch, h1, s, h2, h3⟩
  · obtain ⟨s', e', hI⟩ := hini.run hdis sch hs
    rw [e] at e'; cases e'
    have hv : s.mem.val = m'.val := by
      funext l
      by_cases hw : ∃ i < k.threads, W i l
      · obtain ⟨i, hi, hw⟩ := hw
        obtain ⟨mi, f1, f2⟩ := hI.goal i hi
        rw [hfin i hi] at f1
        cases f1
        exact f2 l hw
      · push Not at hw
        rw [hI.old l hw, l2 l fun i hi => hw i (hlt i hi)]
    have hi' : s.mem.inb = m'.inb := hI.inb.trans l1.symm
    cases hs' : s.mem; cases hm' : m'
    rw [hs', hm'] at hv hi'
    simp only at hv hi'
    rw [hv, hi']

/-- A loop transported along the numbering of the cells. -/
theorem foldlM_map_thread {ι : Type} {k : Nat → Prog L V} {body : ι → Prog L V} (cells : List ι) (t : ι → Nat) (hk : ∀ c ∈ cells, k (t c) = body c) :
    ∀ m : Arr L V, (cells.map t).foldlM (fun m i => (k i).exec m) m = cells.foldlM (fun m c => (body c).exec m) m := by
  induction cells with
  | nil => intro m; rfl
  | cons a as ih =>
    intro m
    rw [List.map_cons, List.foldlM_cons, List.foldlM_cons, hk a (by simp)]
    congr 1
    funext m
    exact ih (fun c hc => hk c (by simp [hc])) m

/-- The same for a launch whose threads are numbered cells, other threads doing nothing. -/
theorem yields_cells {ι : Type} {k : Launch L V} {body : ι → Prog L V} {R W : ι → L → Prop} (cells : List ι) (hnd : cells.Nodup) (t : ι → Nat)
    (hinj : ∀ c ∈ cells, ∀ c' ∈ cells, t c = t c' → c = c') (hlt : ∀ c ∈ cells, t c < k.threads) (hk : ∀ c ∈ cells, k.kernel (t c) = body c)
    (hdone : ∀ i < k.threads, (∀ c ∈ cells, t c ≠ i) → k.kernel i = .done) (huse : ∀ c ∈ cells, Uses (R c) (W c) (body c))
    (hdis : ∀ c ∈ cells, ∀ c' ∈ cells, c ≠ c' → ∀ l, W c l → ¬ (R c' l ∨ W c' l))
    (h : cells.foldlM (fun m c => (body c).exec m) m = .ok m') : yields k m m' := by
  refine yields_loop (R := fun i l => ∃ c ∈ cells, t c = i ∧ R c l) (W := fun i l => ∃ c ∈ cells, t c = i ∧ W c l) ?_ ?_ (cells.map t) ?_ ?_ ?_ ?_
  · intro i hi
    by_cases hc : ∃ c ∈ cells, t c = i
    · obtain ⟨c, hc, rfl⟩ := hc
      rw [hk c hc]
      exact (huse c hc).mono (fun l hl => ⟨c, hc, rfl, hl⟩) fun l hl => ⟨c, hc, rfl, hl⟩
    · push Not at hc
      rw [hdone i hi hc]
      exact .done
  · rintro i hi j hj hij l ⟨c, hc, rfl, hw⟩ h'
    have : ∃ c' ∈ cells, t c' = j ∧ (R c' l ∨ W c' l) := by
      rcases h' with ⟨c', a, b, c⟩ | ⟨c', a, b, c⟩
      · exact ⟨c', a, b, Or.inl c⟩
      · exact ⟨c', a, b, Or.inr c⟩
    obtain ⟨c', hc', rfl, hr⟩ := this
    exact hdis c hc c' hc' (fun e => hij (by rw [e])) l hw hr
  · exact List.Nodup.map_on (fun c hc c' hc' => hinj c hc c' hc') hnd
  · intro i hi
    obtain ⟨c, hc, rfl⟩ := List.mem_map.1 hi
    exact hlt c hc
  · intro i hi hm
    have : ∀ c ∈ cells, t c ≠ i := fun c hc e => hm (List.mem_map.2 ⟨c, hc, e⟩)
    exact ⟨hdone i hi this, fun l => by rintro ⟨c, hc, e, -⟩; exact this c hc e⟩
  · rw [foldlM_map_thread cells t hk]; exact h

/-- The thread of a launch over a box that treats cell `c`. -/
def boxThread (lo hi c : I3) : Nat := encode (extent lo.x hi.x) (extent lo.y hi.y) (c - lo)

theorem boxThread_spec {lo hi c : I3} (hlo : 0 ≤ lo.x) (hc : c ∈ box lo hi) :
    boxThread lo hi c < extent lo.x hi.x * extent lo.y hi.y * extent lo.z hi.z ∧
      getCoordinates (extent lo.x hi.x) (extent lo.y hi.y) (extent lo.z hi.z) lo (boxThread lo hi c) = c ∧ ¬ c.x < 0 := by
  have hin : inSize ⟨extent lo.x hi.x, extent lo.y hi.y, extent lo.z hi.z⟩ (c - lo) = true := by
    rw [mem_box] at hc
    simp only [inSize_iff, I3.sub_x, I3.sub_y, I3.sub_z, extent]
    omega
  refine ⟨encode_lt hin, ?_, ?_⟩
  · simp only [getCoordinates, boxThread, decode_encode hin]
    have := hin
    simp only [inSize_iff] at this
    rw [if_neg (by omega), I3_sub_add]
  · rw [mem_box] at hc; omega

theorem boxThread_other {lo hi : I3} {i : Nat} (h : ∀ c ∈ box lo hi, boxThread lo hi c ≠ i) :
    getCoordinates (extent lo.x hi.x) (extent lo.y hi.y) (extent lo.z hi.z) lo i = ⟨-1, -1, -1⟩ := by
  simp only [getCoordinates]
  split_ifs with hc
  · rfl
  · refine absurd ?_ (h _ (getCoordinates_mem hc))
    have e : decode (extent lo.x hi.x) (extent lo.y hi.y) i + lo - lo = decode (extent lo.x hi.x) (extent lo.y hi.y) i := by
      rw [I3.ext_iff]; simp
    rw [boxThread, e, encode_decode]

/-- A launch over a box whose threads do not disturb each other does what the loop over the box does. -/
theorem yields_box_loop {lo hi : I3} {blockSize : Nat} {body : I3 → Prog L V} {R W : I3 → L → Prop} (hlo : 0 ≤ lo.x) (hb : 0 < blockSize)
    (huse : ∀ c ∈ box lo hi, Uses (R c) (W c) (body c)) (hdis : ∀ c ∈ box lo hi, ∀ c' ∈ box lo hi, c ≠ c' → ∀ l, W c l → ¬ (R c' l ∨ W c' l))
    (h : (box lo hi).foldlM (fun m c => (body c).exec m) m = .ok m') : yields (boxLaunch lo hi blockSize body) m m' := by
  refine yields_cells (box lo hi) (nodup_box lo hi) (boxThread lo hi) ?_ ?_ ?_ ?_ huse hdis h
  · intro c hc c' hc' e
    rw [← (boxThread_spec hlo hc).2.1, ← (boxThread_spec hlo hc').2.1, e]
  · intro c hc
    exact lt_of_lt_of_le (boxThread_spec hlo hc).1 (threadCount_ge hb)
  · intro c hc
    obtain ⟨-, h2, h3⟩ := boxThread_spec hlo hc
    simp only [boxLaunch, h2, if_neg h3]
  · intro i _ hi
    simp only [boxLaunch, boxThread_other hi]
    rfl

/-- The same for kernels that compute the coordinates themselves. -/
theorem yields_grid_loop {count offset hi : I3} {blockSize : Nat} {body : Nat → I3 → Prog L V} {R W : I3 → L → Prop} (hhi : hi = offset + count) (hb : 0 < blockSize)
    (huse : ∀ c ∈ box offset hi, Uses (R c) (W c) (body (threadOf count offset c) c))
    (hdis : ∀ c ∈ box offset hi, ∀ c' ∈ box offset hi, c ≠ c' → ∀ l, W c l → ¬ (R c' l ∨ W c' l))
    (h : (box offset hi).foldlM (fun m c => (body (threadOf count offset c) c).exec m) m = .ok m') : yields (gridLaunch count offset blockSize body) m m' := by
  subst hhi
  refine yields_cells (box offset (offset + count)) (nodup_box _ _) (threadOf count offset) ?_ ?_ ?_ ?_ huse hdis h
  · intro c hc c' hc' e; exact threadOf_inj hc hc' e
  · intro c hc
    exact lt_of_lt_of_le (threadOf_lt hc) (threadCount_ge hb)
  · intro c hc
    have h2 := sub_mem hc
    have e := decode_encode h2
    simp only [inSize_iff] at h2
    simp only [gridLaunch]
    rw [show decode count.x.toNat count.y.toNat (threadOf count offset c) = c - offset from e, if_neg (by omega), I3_sub_add]
  · intro i _ hi
    simp only [gridLaunch]
    split_ifs with hc
    · rfl
    · exact absurd (threadOf_decode count offset i) (hi _ (decode_mem_box hc))
end

end Verif.Gpu
