import Verif.CudaReconLemmas
import Verif.CudaNetFluxSplit

/-!
Model of the numerical flux on the graphics card when its own volumes and the volumes of the simulator have different numbers of ghost cells, and lemmas about cells that no
thread writes.
-/

namespace Verif.CudaGhosts
open Verif.Gpu Verif.NetFlux Verif.CudaNetFlux
variable {V R : Type}

/-- `NumericalFluxCUDA::computeFlux` (alsfvm/src/numflux/NumericalFluxCUDA.cu:390-414) for an output of total size `n`, when `left`, `right` and `fluxOutput`, which the constructor
creates with the ghost cells of the flux object (:243-259) and nothing resizes, have total size `nf` and ghost cells `Gf`: the zeroing takes the size of the output (:169-174), the
other kernels those of `left` (:346-351) and `fluxOutput` (:201-206), and all take the number of ghost cells of the flux object (:401, 409). Only for one dimension: in
more the kernels compute indices with the strides of the wrong volume (:64-70). -/
def computesOwn [Add V] [Neg V] [Zero V] [Max R] (rec : CardRecon V R) (fl : FluxFn V R) (n nf Gf start stop : I3)
    (s : Dev V R) (ws : Nat → R) (s' : Dev V R) (ws' : Nat → R) : Prop :=
  ∃ s1 : Dev V R, yields (zeroLaunch n Gf start stop) s.mem s1.mem ∧ directions rec fl nf Gf start stop (List.range 1) s1 ws s' ws'

/-- `ConservedSystem::operator()` without the diffusion term in one dimension (alsfvm/src/simulator/ConservedSystem.cpp:31-100), see `CudaNetFlux.evaluates`: the regions are those of
the output, of total size `n` and with ghost cells `G`. -/
def evaluatesOwn [Add V] [Neg V] [Zero V] [Zero R] [Max R] (rec : CardRecon V R) (fl : FluxFn V R) (n G nf Gf : I3) (u1 : Arr I3 V)
    (s : Dev V R) (ws : Nat → R) (s' : Dev V R) (ws' : Nat → R) : Prop :=
  ∃ (s1 s2 : Dev V R) (w1 w2 w3 : Nat → R), computesOwn rec fl n nf Gf G (-G) s ws s1 w1 ∧
    computesOwn rec fl n nf Gf 0 (I3.set 0 0 (-n.x + 3 * G.x)) (s1.withInput u1) (fun _ => 0) s2 w2 ∧
    computesOwn rec fl n nf Gf (I3.set 0 0 (n.x - 3 * G.x)) 0 s2 (fun _ => 0) s' w3 ∧ ws' = fun k => max (w1 k) (max (max 0 (w2 k)) (w3 k))

/-! ### Places no thread writes -/

section NoWrite
variable {L W : Type} [DecidableEq L]

/-- The program never writes `l`. -/
def NoWrite (l : L) : Prog L W → Prop
  | .done => True
  | .read _ k => ∀ v, NoWrite l (k v)
  | .write l' _ k => l' ≠ l ∧ NoWrite l k

theorem step_keeps {l : L} {s s' : Machine L W} {i : Nat} (h : Machine.step s i = .ok s') :
    s'.mem.inb = s.mem.inb ∧ ((∀ j, NoWrite l (s.threads j)) → s'.mem.val l = s.mem.val l ∧ ∀ j, NoWrite l (s'.threads j)) := by
  unfold Machine.step at h
  cases hp : s.threads i with
  | done =>
    rw [hp] at h
    cases h
    exact ⟨rfl, fun hn => ⟨rfl, hn⟩⟩
  | read l' k =>
    rw [hp] at h
    simp only [Arr.rd] at h
    split_ifs at h
    · cases h
      refine ⟨rfl, fun hn => ⟨rfl, fun j => ?_⟩⟩
      by_cases hj : j = i
      · subst hj; simp only [Function.update_self]; have := hn j; rw [hp] at this; exact this _
      · simp only [Function.update_of_ne hj]; exact hn j
    · cases h
  | write l' v k =>
    rw [hp] at h
    simp only [Arr.wr] at h
    split_ifs at h
    · cases h
      refine ⟨rfl, fun hn => ?_⟩
      have hi := hn i
      rw [hp] at hi
      refine ⟨?_, fun j => ?_⟩
      · simp only [Function.update_of_ne (Ne.symm hi.1)]
      · by_cases hj : j = i
        · subst hj; simp only [Function.update_self]; exact hi.2
        · simp only [Function.update_of_ne hj]; exact hn j
    · cases h

theorem run_keeps {l : L} : ∀ (schedule : List Nat) {s s' : Machine L W}, Machine.run schedule s = .ok s' →
    s'.mem.inb = s.mem.inb ∧ ((∀ j, NoWrite l (s.threads j)) → s'.mem.val l = s.mem.val l)
  | [], s, s', h => by cases h; exact ⟨rfl, fun _ => rfl⟩
  | i :: rest, s, s', h => by
    rw [Machine.run, List.foldlM_cons] at h
    cases hs : Machine.step s i with
    | error e => rw [hs] at h; cases h
    | ok s1 =>
      rw [hs] at h
      obtain ⟨a1, a2⟩ := step_keeps (l := l) hs
      obtain ⟨b1, b2⟩ := run_keeps (l := l) rest (s := s1) h
      exact ⟨b1.trans a1, fun hn => (b2 (a2 hn).2).trans (a2 hn).1⟩

theorem yields_keeps {l : L} {k : Launch L W} {m m' : Arr L W} (h : yields k m m') :
    m'.inb = m.inb ∧ ((∀ j, NoWrite l (k.kernel j)) → m'.val l = m.val l) := by
  obtain ⟨-, ⟨sch, h1, s, h2, h3⟩, h4⟩ := h
  obtain rfl := h4 sch h1 s h2 h3
  exact run_keeps sch h2

theorem yieldsAll_keeps {l : L} : ∀ {ks : List (Launch L W)} {m m' : Arr L W}, yieldsAll ks m m' →
    m'.inb = m.inb ∧ ((∀ k ∈ ks, ∀ j, NoWrite l (k.kernel j)) → m'.val l = m.val l)
  | [], m, m', h => by cases h; exact ⟨rfl, fun _ => rfl⟩
  | k :: ks, m, m', ⟨m1, h1, h2⟩ => by
    obtain ⟨a1, a2⟩ := yields_keeps (l := l) h1
    obtain ⟨b1, b2⟩ := yieldsAll_keeps (l := l) h2
    exact ⟨b1.trans a1, fun hn => (b2 fun k hk => hn k (by simp [hk])).trans (a2 (hn k (by simp)))⟩

omit [DecidableEq L] in
theorem gridLaunch_noWrite {l : L} {count offset : I3} {b : Nat} {body : Nat → I3 → Prog L W}
    (h : ∀ i q, q ∈ box offset (offset + count) → NoWrite l (body i q)) (j : Nat) : NoWrite l ((gridLaunch count offset b body).kernel j) := by
  simp only [gridLaunch]
  split_ifs with hc
  · trivial
  · refine h _ _ ?_
    simp only [not_or, not_le] at hc
    have : 0 ≤ (decode count.x.toNat count.y.toNat j).x ∧ 0 ≤ (decode count.x.toNat count.y.toNat j).y ∧ 0 ≤ (decode count.x.toNat count.y.toNat j).z := by
      simp only [decode]; exact ⟨Int.natCast_nonneg _, Int.natCast_nonneg _, Int.natCast_nonneg _⟩
    simp only [mem_box, I3.add_x, I3.add_y, I3.add_z]
    omega

end NoWrite

theorem readCell_noWrite {l : Loc} {v : Name} {c : I3} {k : V → Prog Loc (Val V R)} (h : ∀ w, NoWrite l (k w)) : NoWrite l (readCell v c k) := by
  intro x
  cases x with
  | state w => exact h w
  | real r => trivial

theorem readCells_noWrite {l : Loc} {v : Name} : ∀ (cs : List I3) {k : List V → Prog Loc (Val V R)}, (∀ w, NoWrite l (k w)) → NoWrite l (readCells v cs k)
  | [], _, h => h []
  | _ :: cs, _, h => readCell_noWrite fun _ => readCells_noWrite cs fun _ => h _

theorem fluxLaunch_noWrite [Neg V] {fl : FluxFn V R} {d : Nat} {n G start stop c : I3} (j : Nat) :
    NoWrite (.cell .output c) ((fluxLaunch fl d n G start stop : Launch Loc (Val V R)).kernel j) :=
  gridLaunch_noWrite (fun _ _ _ => readCells_noWrite _ fun _ => readCells_noWrite _ fun _ => by simp [NoWrite]) j

theorem combineLaunch_noWrite [Add V] [Neg V] {d : Nat} {n G start stop c : I3} (hc : ¬ InRegion n G start stop c) (j : Nat) :
    NoWrite (.cell .output c) ((combineLaunch d n G start stop : Launch Loc (Val V R)).kernel j) := by
  refine gridLaunch_noWrite (fun _ q hq => readCell_noWrite fun _ => readCell_noWrite fun _ => readCell_noWrite fun _ => ?_) j
  simp only [NoWrite, and_true]
  intro heq
  have heq : q + I3.dir d = c := by simpa using heq
  rw [← heq] at hc
  refine hc ?_
  simp only [InRegion, mem_box, I3.add_x, I3.add_y, I3.add_z, I3.sub_x, I3.sub_y, I3.sub_z] at hq ⊢
  omega

/-- The reconstruction does not write the output. -/
def Spares (rec : CardRecon V R) : Prop := ∀ d start stop, ∀ k ∈ rec d start stop, ∀ (c : I3) j, NoWrite (.cell .output c) (k.kernel j)

theorem none_spares (n : I3) : Spares (CudaRecon.none n : CardRecon V R) := by
  intro d start stop k hk c j
  simp only [CudaRecon.none, List.mem_cons, List.not_mem_nil, or_false] at hk
  rcases hk with rfl | rfl <;> exact gridLaunch_noWrite (fun _ _ _ => readCell_noWrite fun _ => by simp [NoWrite]) j

theorem inb_of_mem {s s' : Dev V R} (h : s'.mem.inb = s.mem.inb) (v : Name) : (s'.vol v).inb = (s.vol v).inb := by
  funext c; exact congrFun h (.cell v c)

theorem val_of_mem {s s' : Dev V R} {v : Name} {c : I3} (h : s'.mem.val (.cell v c) = s.mem.val (.cell v c)) : (s'.vol v).val c = (s.vol v).val c := by
  simpa [Dev.mem] using h

theorem directions_keeps [Add V] [Neg V] [Max R] {rec : CardRecon V R} (hrec : Spares rec) {fl : FluxFn V R} {n G start stop : I3} : ∀ (l : List Nat) (s s' : Dev V R)
    (ws ws' : Nat → R), directions rec fl n G start stop l s ws s' ws' →
    (s'.vol .output).inb = (s.vol .output).inb ∧ ∀ c, ¬ InRegion n G start stop c → (s'.vol .output).val c = (s.vol .output).val c
  | [], _, _, _, _, h => by obtain ⟨rfl, -⟩ := h; exact ⟨rfl, fun _ _ => rfl⟩
  | d :: l, s, s', ws, ws', ⟨s1, s2, s3, w, h1, h2, _, h4, h5⟩ => by
    obtain ⟨b1, b2⟩ := directions_keeps hrec l _ _ _ _ h5
    refine ⟨?_, fun c hc => ?_⟩
    · rw [b1, inb_of_mem (yields_keeps (l := .speed 0) h4).1, inb_of_mem (yields_keeps (l := .speed 0) h2).1, inb_of_mem (yieldsAll_keeps (l := .speed 0) h1).1]
    · rw [b2 c hc, val_of_mem ((yields_keeps h4).2 (combineLaunch_noWrite hc)), val_of_mem ((yields_keeps h2).2 fluxLaunch_noWrite),
        val_of_mem ((yieldsAll_keeps h1).2 fun k hk => hrec _ _ _ k hk c)]

/-- What `computesOwn` does to a cell that belongs to the region of the output but not to that of the flux object: it becomes zero. -/
theorem computesOwn_keeps [Add V] [Neg V] [Zero V] [Max R] {rec : CardRecon V R} (hrec : Spares rec) {fl : FluxFn V R} {n nf Gf start stop : I3} {s s' : Dev V R}
    {ws ws' : Nat → R} (h : computesOwn rec fl n nf Gf start stop s ws s' ws') :
    (s'.vol .output).inb = (s.vol .output).inb ∧
    ((∀ q, InRegion n Gf start stop q → (s.vol .output).inb q = true) → ∀ c, InRegion n Gf start stop c → ¬ InRegion nf Gf start stop c → (s'.vol .output).val c = 0) := by
  obtain ⟨s1, h1, h2⟩ := h
  obtain ⟨b1, b2⟩ := directions_keeps hrec _ _ _ _ _ h2
  refine ⟨?_, fun hin c hc hcn => ?_⟩
  · rw [b1, inb_of_mem (yields_keeps (l := .speed 0) h1).1]
  · obtain rfl := Dev.mem_inj (yields_unique h1 (zeroLaunch_ok n Gf start stop s hin))
    rw [b2 c hcn]
    simp [Dev.setVol, hc]

/-- With more ghost cells in the volumes of the simulator than in those of the flux object, the last interior cells never get a flux. -/
theorem evaluatesOwn_last [Add V] [Neg V] [Zero V] [Zero R] [Max R] {rec : CardRecon V R} (hrec : Spares rec) {fl : FluxFn V R} {N a g : Nat} (ha : 1 ≤ a)
    (hN : g ≤ N) {n G nf Gf : I3} (hn : n = ⟨N + 2 * g, 1, 1⟩) (hG : G = ⟨g, 0, 0⟩) (hnf : nf = ⟨N + 2 * a, 1, 1⟩) (hGf : Gf = ⟨a, 0, 0⟩)
    {u1 : Arr I3 V} {s s' : Dev V R} {ws ws' : Nat → R} (hs : (s.vol .output).inb = inSize n) (h : evaluatesOwn rec fl n G nf Gf u1 s ws s' ws') (x : Int)
    (hx : N + a ≤ x) (hx' : x < N + g) : (s'.vol .output).val ⟨x, 0, 0⟩ = 0 := by
  obtain ⟨s1, s2, w1, w2, w3, h1, h2, h3, -⟩ := h
  have i1 := (computesOwn_keeps hrec h1).1
  have i2 := (computesOwn_keeps hrec h2).1
  have e : ((s1.withInput u1).vol .output) = s1.vol .output := by simp [Dev.withInput]
  rw [e] at i2
  subst hn hG hnf hGf
  refine (computesOwn_keeps hrec h3).2 ?_ _ ?_ ?_
  · intro q hq
    rw [i2, i1, hs, inSize_iff]
    simp [InRegion, mem_box, I3.set] at hq ⊢
    omega
  · simp [InRegion, mem_box, I3.set]
    omega
  · simp [InRegion, mem_box, I3.set]
    omega

/-! ### Without reconstruction and with a two-point flux every evaluation comes to an end -/

/-- Sizes of the volumes: those of the simulator have size `n`, those of the flux object size `nf`. -/
structure OwnSized (n nf : I3) (s : Dev V R) : Prop where
  input : (s.vol .input).inb = inSize n
  output : (s.vol .output).inb = inSize n
  left : (s.vol .left).inb = inSize nf
  right : (s.vol .right).inb = inSize nf
  flux : (s.vol .fluxOutput).inb = inSize nf
  speeds : ∀ i, i < nf.x.toNat → s.speeds.inb i = true

theorem copy_own {nf : I3} {s : Dev V R} {target : Name} (ht : target ≠ .input) (h1 : ∀ c, inSize nf c = true → (s.vol .input).inb c = true)
    (h2 : (s.vol target).inb = inSize nf) :
    yields (CudaRecon.copyLaunch nf target) s.mem (s.setVol target ⟨inSize nf, fun p => if inSize nf p then (s.vol .input).val p else (s.vol target).val p⟩).mem := by
  set s' := s.setVol target ⟨inSize nf, fun p => if inSize nf p then (s.vol .input).val p else (s.vol target).val p⟩ with hs'
  have hmem : ∀ c, c ∈ box 0 nf ↔ inSize nf c = true := by
    intro c; rw [mem_box, inSize_iff]; simp [and_assoc]
  refine yields_grid (hi := nf) (touch := fun c l => l = .cell target c) (F := s'.mem.val) (by rw [I3.ext_iff]; simp) (by decide) ?_ ?_ ?_ ?_
  · intro c hc
    have hc' := (hmem c).1 hc
    refine readCell_fits (h1 c hc') (by rintro c' _ h; cases h; exact absurd rfl ht) ?_
    refine .write (by simp only [Dev.mem]; rw [h2]; exact hc') rfl ?_ (.done fun l hl => Or.inr hl)
    simp only [hs', Dev.mem, Dev.setVol, Function.update_self]
    rw [if_pos hc']
  · funext l
    cases l with
    | cell v q =>
      by_cases hv : v = target
      · subst hv; simp [Dev.mem, hs', Dev.setVol, h2]
      · simp [Dev.mem, hs', Dev.setVol, hv]
    | speed i => rfl
    | scratch j q => rfl
  · intro c hc l _; rfl
  · intro l hl
    cases l with
    | cell v q =>
      by_cases hv : v = target
      · subst hv
        simp only [Dev.mem, hs', Dev.setVol, Function.update_self]
        rw [if_neg]
        intro hq; exact hl q ((hmem q).2 hq) rfl
      · simp [Dev.mem, hs', Dev.setVol, Function.update_of_ne hv]
    | speed i => rfl
    | scratch j q => rfl

theorem exists_greatest [LinearOrder R] : ∀ (l : List R), l ≠ [] → ∃ v ∈ l, ∀ x ∈ l, x ≤ v
  | [], h => absurd rfl h
  | [a], _ => ⟨a, by simp, by simp⟩
  | a :: b :: l, _ => by
    obtain ⟨v, hv, hm⟩ := exists_greatest (b :: l) (by simp)
    rcases le_total a v with h | h
    · exact ⟨v, by simp [hv], fun x hx => (List.mem_cons.1 hx).elim (fun e => e ▸ h) (hm x)⟩
    · exact ⟨a, by simp, fun x hx => (List.mem_cons.1 hx).elim (fun e => e ▸ le_refl _) (fun hx => (hm x hx).trans h)⟩

theorem computesOwn_exists [AddCommGroup V] [LinearOrder R] {fl : FluxFn V R} (hl : fl.offsL = [1]) (hr : fl.offsR = [0]) {N a g : Nat} (ha : 1 ≤ a)
    (hag : a ≤ g) {n nf Gf : I3} (hn : n = ⟨N + 2 * g, 1, 1⟩) (hnf : nf = ⟨N + 2 * a, 1, 1⟩) (hGf : Gf = ⟨a, 0, 0⟩) {x y : Int} (hx : 0 ≤ x) (hy : y ≤ 0)
    (hxy : x < N + y) (s : Dev V R) (ws : Nat → R) (hs : OwnSized n nf s) :
    ∃ s' ws', computesOwn (CudaRecon.none nf) fl n nf Gf ⟨x, 0, 0⟩ ⟨y, 0, 0⟩ s ws s' ws' ∧ OwnSized n nf s' := by
  have hsub : ∀ c, inSize nf c = true → inSize n c = true := by
    intro c; rw [inSize_iff, inSize_iff, hn, hnf]; simp only; omega
  have hz : ∀ q, InRegion n Gf ⟨x, 0, 0⟩ ⟨y, 0, 0⟩ q → inSize n q = true := by
    intro q hq
    rw [inSize_iff]
    simp [InRegion, mem_box, hn, hGf] at hq ⊢
    omega
  have hface : ∀ q, IsFace nf Gf ⟨x, 0, 0⟩ ⟨y, 0, 0⟩ 0 q → inSize nf q = true ∧ inSize nf (q + step 0 1) = true ∧ inSize nf (q + step 0 0) = true := by
    intro q hq
    simp only [inSize_iff]
    simp [IsFace, mem_box, hnf, hGf, I3.dir, step] at hq ⊢
    omega
  have hcount : faceCount 0 nf Gf ⟨x, 0, 0⟩ ⟨y, 0, 0⟩ = (N + 1 - x + y).toNat := by
    simp [faceCount, hnf, hGf, I3.dir]
    congr 1
    omega
  have h0 := zeroLaunch_ok n Gf ⟨x, 0, 0⟩ ⟨y, 0, 0⟩ s (by intro q hq; rw [hs.output]; exact hz q hq)
  set t0 := s.setVol .output ⟨(s.vol .output).inb, fun p => if InRegion n Gf ⟨x, 0, 0⟩ ⟨y, 0, 0⟩ p then 0 else (s.vol .output).val p⟩ with ht0
  have h1 := copy_own (nf := nf) (s := t0) (target := .left) (by decide) (by intro c hc; simp only [ht0, Dev.setVol]; simpa [hs.input] using hsub c hc)
    (by simp [ht0, Dev.setVol, hs.left])
  set t1 := t0.setVol .left ⟨inSize nf, fun p => if inSize nf p then (t0.vol .input).val p else (t0.vol .left).val p⟩ with ht1
  have h2 := copy_own (nf := nf) (s := t1) (target := .right) (by decide) (by intro c hc; simp only [ht1, ht0, Dev.setVol]; simpa [hs.input] using hsub c hc)
    (by simp [ht1, ht0, Dev.setVol, hs.right])
  set t2 := t1.setVol .right ⟨inSize nf, fun p => if inSize nf p then (t1.vol .input).val p else (t1.vol .right).val p⟩ with ht2
  have f2 : (t2.vol .fluxOutput).inb = inSize nf := by simp [ht2, ht1, ht0, Dev.setVol, hs.flux]
  have l2 : (t2.vol .left).inb = inSize nf := by simp [ht2, ht1, ht0, Dev.setVol]
  have r2 : (t2.vol .right).inb = inSize nf := by simp [ht2, Dev.setVol]
  have o2 : (t2.vol .output).inb = inSize n := by simp [ht2, ht1, ht0, Dev.setVol, hs.output]
  have i2 : (t2.vol .input).inb = inSize n := by simp [ht2, ht1, ht0, Dev.setVol, hs.input]
  have sp2 : ∀ i, i < nf.x.toNat → t2.speeds.inb i = true := hs.speeds
  have hcl : ∀ i < faceCount 0 nf Gf ⟨x, 0, 0⟩ ⟨y, 0, 0⟩, t2.speeds.inb i = true := by
    intro i hi
    rw [hcount] at hi
    refine sp2 i ?_
    rw [hnf]
    simp only
    omega
  obtain ⟨t3, h3, e1, e2, e3, e4, -⟩ := fluxLaunch_ok fl 0 nf Gf ⟨x, 0, 0⟩ ⟨y, 0, 0⟩ t2 (fun q hq => by rw [f2]; exact (hface q hq).1)
    (fun q hq o ho => by rw [hl] at ho; simp only [List.mem_cons, List.not_mem_nil, or_false] at ho; subst ho; rw [l2]; exact (hface q hq).2.1)
    (fun q hq o ho => by rw [hr] at ho; simp only [List.mem_cons, List.not_mem_nil, or_false] at ho; subst ho; rw [r2]; exact (hface q hq).2.2) hcl
  obtain ⟨w, hw1, hw2⟩ := exists_greatest (t3.speedList (faceCount 0 nf Gf ⟨x, 0, 0⟩ ⟨y, 0, 0⟩)) (by
    rw [hcount]
    intro he
    have := congrArg List.length he
    simp [Dev.speedList] at this
    omega)
  have h4 := combineLaunch_ok (R := R) 0 nf Gf ⟨x, 0, 0⟩ ⟨y, 0, 0⟩ t3 (fun q hq => by
    rw [e3, e3, f2, o2]
    exact ⟨(hface q hq).1, hsub q (hface q hq).1⟩)
  refine ⟨_, Function.update ws 0 w, ⟨t0, h0, t2, t3, _, w, ⟨_, h1, _, h2, rfl⟩, h3, ⟨fun i hi => by rw [e1]; exact hcl i hi, reduces_max hw1 hw2⟩, h4, rfl, rfl⟩, ?_⟩
  refine ⟨?_, ?_, ?_, ?_, ?_, ?_⟩
  · simp [Dev.setVol, e3, i2]
  · simp [Dev.setVol, e3, o2]
  · simp [Dev.setVol, e3, l2]
  · simp [Dev.setVol, e3, r2]
  · simp [Dev.setVol, e3, f2]
  · intro i hi
    simp only [Dev.setVol, e1]
    exact sp2 i hi

theorem evaluatesOwn_exists [AddCommGroup V] [Zero R] [LinearOrder R] {fl : FluxFn V R} (hl : fl.offsL = [1]) (hr : fl.offsR = [0]) {N a g : Nat} (ha : 1 ≤ a)
    (hag : a ≤ g) (hN : 2 * g < N) {n G nf Gf : I3} (hn : n = ⟨N + 2 * g, 1, 1⟩) (hG : G = ⟨g, 0, 0⟩) (hnf : nf = ⟨N + 2 * a, 1, 1⟩) (hGf : Gf = ⟨a, 0, 0⟩)
    (u1 : Arr I3 V) (hu : u1.inb = inSize n) (s : Dev V R) (ws : Nat → R) (hs : OwnSized n nf s) :
    ∃ s' ws', evaluatesOwn (CudaRecon.none nf) fl n G nf Gf u1 s ws s' ws' := by
  have hNg : (2 * g : Int) < N := by omega
  obtain ⟨s1, w1, h1, z1⟩ := computesOwn_exists hl hr ha hag hn hnf hGf (x := g) (y := -g) (by omega) (by omega) (by omega) s ws hs
  have z1' : OwnSized n nf (s1.withInput u1) :=
    ⟨by simp [Dev.withInput, hu], by simp [Dev.withInput, z1.output], by simp [Dev.withInput, z1.left], by simp [Dev.withInput, z1.right],
      by simp [Dev.withInput, z1.flux], z1.speeds⟩
  obtain ⟨s2, w2, h2, z2⟩ := computesOwn_exists hl hr ha hag hn hnf hGf (x := 0) (y := -(N + 2 * g) + 3 * g) (by omega) (by omega) (by omega) (s1.withInput u1) (fun _ => 0) z1'
  obtain ⟨s3, w3, h3, z3⟩ := computesOwn_exists hl hr ha hag hn hnf hGf (x := (N + 2 * g) - 3 * g) (y := 0) (by omega) (by omega) (by omega) s2 (fun _ => 0) z2
  refine ⟨s3, _, s1, s2, w1, w2, w3, ?_, ?_, ?_, rfl⟩
  · have e1 : G = ⟨g, 0, 0⟩ := hG
    have e2 : -G = ⟨-g, 0, 0⟩ := by rw [hG]; rfl
    rw [e2, e1]; exact h1
  · have e1 : (0 : I3) = ⟨0, 0, 0⟩ := rfl
    have e2 : I3.set 0 0 (-n.x + 3 * G.x) = ⟨-(N + 2 * g) + 3 * g, 0, 0⟩ := by rw [hn, hG]; rfl
    rw [e2]; exact h2
  · have e2 : I3.set 0 0 (n.x - 3 * G.x) = ⟨(N + 2 * g) - 3 * g, 0, 0⟩ := by rw [hn, hG]; rfl
    rw [e2]; exact h3

end Verif.CudaGhosts
