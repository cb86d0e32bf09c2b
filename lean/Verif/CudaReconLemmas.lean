import Verif.CudaRecon
import Verif.CudaNetFluxSplit
import Verif.Weno

/-!
Helper lemmas: what the reconstructions on the card compute.
-/

namespace Verif.CudaRecon
open Verif.Gpu Verif.NetFlux Verif.CudaNetFlux
variable {V R : Type}

/-! ### Launches that fill the left and right values of a box -/

/-- Fill the left and right values of the cells of a box. -/
def fillLR (s : Dev V R) (lo hi : I3) (lv rv : I3 → V) : Dev V R :=
  { s with vol := fun v => match v with
    | .left => ⟨(s.vol .left).inb, fun p => if p ∈ box lo hi then lv p else (s.vol .left).val p⟩
    | .right => ⟨(s.vol .right).inb, fun p => if p ∈ box lo hi then rv p else (s.vol .right).val p⟩
    | .input => s.vol .input
    | .fluxOutput => s.vol .fluxOutput
    | .output => s.vol .output }

/-- The places a thread of such a launch writes. -/
def touchLR (c : I3) (l : Loc) : Prop := l = .cell .left c ∨ l = .cell .right c

theorem fillLR_inb (s : Dev V R) (lo hi : I3) (lv rv : I3 → V) : (fillLR s lo hi lv rv).mem.inb = s.mem.inb := by
  funext l
  cases l with
  | cell v q => cases v <;> rfl
  | speed i => rfl
  | scratch j q => rfl

theorem fillLR_old (s : Dev V R) (lo hi : I3) (lv rv : I3 → V) (l : Loc) (hl : ∀ c ∈ box lo hi, ¬ touchLR c l) :
    (fillLR s lo hi lv rv).mem.val l = s.mem.val l := by
  cases l with
  | cell v q =>
    cases v with
    | left => simp only [Dev.mem, fillLR]; rw [if_neg]; intro hq; exact hl q hq (Or.inl rfl)
    | right => simp only [Dev.mem, fillLR]; rw [if_neg]; intro hq; exact hl q hq (Or.inr rfl)
    | input => rfl
    | fluxOutput => rfl
    | output => rfl
  | speed i => rfl
  | scratch j q => rfl

theorem fillLR_fits {s : Dev V R} {lo hi : I3} {lv rv : I3 → V} {cells : I3 → Prop} {c : I3} (hc : c ∈ box lo hi)
    (hl : (s.vol .left).inb c = true) (hr : (s.vol .right).inb c = true) :
    CellFits cells touchLR s.mem (fillLR s lo hi lv rv).mem.val c (fun _ => False)
      (.write (.cell .left c) (.state (lv c)) (.write (.cell .right c) (.state (rv c)) .done)) := by
  refine .write hl (Or.inl rfl) ?_ (.write hr (Or.inr rfl) ?_ (.done ?_))
  · simp only [Dev.mem, fillLR]; rw [if_pos hc]
  · simp only [Dev.mem, fillLR]; rw [if_pos hc]
  · rintro l (h | h)
    · exact Or.inl (Or.inr h)
    · exact Or.inr h

theorem fillLR_sized {n : I3} {s : Dev V R} (hs : DevSized n s) (lo hi : I3) (lv rv : I3 → V) : DevSized n (fillLR s lo hi lv rv) :=
  ⟨fun v => by cases v <;> exact hs.vol _, hs.speeds, hs.scratch⟩

theorem not_touch_input {cells : I3 → Prop} {c q : I3} : ∀ c', cells c' → touchLR c' (.cell .input q) → c' = c := by
  rintro c' _ (h | h) <;> cases h

theorem not_touch_scratch {cells : I3 → Prop} {c q : I3} {j : Nat} : ∀ c', cells c' → touchLR c' (.scratch j q) → c' = c := by
  rintro c' _ (h | h) <;> cases h

/-! ### No reconstruction -/

theorem copyLaunch_ok {n : I3} {s : Dev V R} (hs : DevSized n s) (target : Name) (ht : target ≠ .input) :
    yields (copyLaunch n target) s.mem (s.setVol target ⟨inSize n, fun p => if inSize n p then (s.vol .input).val p else (s.vol target).val p⟩).mem := by
  set s' := s.setVol target ⟨inSize n, fun p => if inSize n p then (s.vol .input).val p else (s.vol target).val p⟩ with hs'
  have hmem : ∀ c, c ∈ box 0 n ↔ inSize n c = true := by
    intro c; rw [mem_box, inSize_iff]; simp [and_assoc]
  refine yields_grid (hi := n) (touch := fun c l => l = .cell target c) (F := s'.mem.val) (by rw [I3.ext_iff]; simp) (by decide) ?_ ?_ ?_ ?_
  · intro c hc
    have hc' := (hmem c).1 hc
    refine readCell_fits (by rw [hs.vol]; exact hc') (by rintro c' _ h; cases h; exact absurd rfl ht) ?_
    refine .write (by simp only [Dev.mem]; rw [hs.vol]; exact hc') rfl ?_ (.done fun l hl => Or.inr hl)
    simp only [hs', Dev.mem, Dev.setVol, Function.update_self]
    rw [if_pos hc']
  · funext l
    cases l with
    | cell v q =>
      by_cases hv : v = target
      · subst hv; simp [Dev.mem, hs', Dev.setVol, hs.vol]
      · simp [Dev.mem, hs', Dev.setVol, hv]
    | speed i => rfl
    | scratch j q => rfl
  · intro c hc l _; rfl
  · intro l hl
    cases l with
    | cell v q =>
      by_cases hv : v = target
      · subst hv
        simp only [Dev.mem, hs', Dev.setVol, Function.update_self]
        rw [if_neg]
        intro hq; exact hl q ((hmem q).2 hq) rfl
      · simp [Dev.mem, hs', Dev.setVol, Function.update_of_ne hv]
    | speed i => rfl
    | scratch j q => rfl

theorem setVol_sized {n : I3} {s : Dev V R} (hs : DevSized n s) (v : Name) (f : I3 → V) : DevSized n (s.setVol v ⟨inSize n, f⟩) := by
  refine ⟨fun w => ?_, hs.speeds, hs.scratch⟩
  by_cases h : w = v
  · subst h; simp [Dev.setVol]
  · simp [Dev.setVol, Function.update_of_ne h, hs.vol]

/-- The launches without reconstruction: both volumes are copies of the input. -/
theorem none_all {n : I3} {s : Dev V R} (hs : DevSized n s) (d : Nat) (start stop : I3) :
    ∃ s' : Dev V R, yieldsAll (none n d start stop) s.mem s'.mem ∧ DevSized n s' ∧ s'.vol .input = s.vol .input ∧
      s'.vol .output = s.vol .output ∧ s'.vol .fluxOutput = s.vol .fluxOutput ∧
      ∀ q, inSize n q = true → (s'.vol .left).val q = (s.vol .input).val q ∧ (s'.vol .right).val q = (s.vol .input).val q := by
  have h1 := copyLaunch_ok hs .left (by decide)
  have hs1 := setVol_sized hs .left (fun p => if inSize n p then (s.vol .input).val p else (s.vol .left).val p)
  have h2 := copyLaunch_ok hs1 .right (by decide)
  refine ⟨_, ⟨_, h1, _, h2, rfl⟩, setVol_sized hs1 _ _, by simp [Dev.setVol], by simp [Dev.setVol], by simp [Dev.setVol], ?_⟩
  intro q hq
  have e1 : ∀ a b : V, (if inSize n q = true then a else b) = a := fun a b => if_pos hq
  simp only [Dev.setVol, Function.update_self, ne_eq, reduceCtorEq, not_false_eq_true, Function.update_of_ne, e1, and_self]

/-! ### Fixed stencils -/

theorem stencil_count (n G start stop : I3) (k : Nat) :
    n - reach n G k + stop = (reach n G k + start) + (n - reach n G k - reach n G k - start + stop) := by
  rw [I3.ext_iff]; simp only [I3.add_x, I3.add_y, I3.add_z, I3.sub_x, I3.sub_y, I3.sub_z]; omega

/-- The launch of a reconstruction with a fixed stencil. -/
theorem stencil_ok (r : Recon V) {n G : I3} {d : Nat} {start stop : I3} {s : Dev V R} (hs : DevSized n s)
    (hin : ∀ q ∈ box (reach n G r.k + start) (n - reach n G r.k + stop), inSize n q = true ∧ ∀ o ∈ r.offs, inSize n (q + step d o) = true) :
    yieldsAll (stencil r n G d start stop) s.mem (fillLR s (reach n G r.k + start) (n - reach n G r.k + stop)
      (r.lval (s.vol .input).val d) (r.rval (s.vol .input).val d)).mem := by
  refine ⟨_, ?_, rfl⟩
  refine yields_grid (touch := touchLR) (F := (fillLR s (reach n G r.k + start) (n - reach n G r.k + stop)
      (r.lval (s.vol .input).val d) (r.rval (s.vol .input).val d)).mem.val) (stencil_count n G start stop r.k) (by decide) ?_
    (fillLR_inb _ _ _ _ _) (fun _ _ _ _ => rfl) (fillLR_old _ _ _ _ _)
  intro c hc
  obtain ⟨h1, h2⟩ := hin c hc
  refine readCells_fits _ ?_ (fun q _ => not_touch_input) ?_
  · intro q hq
    obtain ⟨o, ho, rfl⟩ := List.mem_map.1 hq
    rw [hs.vol]; exact h2 o ho
  simp only [List.map_map]
  exact fillLR_fits hc (by rw [hs.vol]; exact h1) (by rw [hs.vol]; exact h1)

/-! ### ENO -/

section
open Verif.Diffusion hiding Vec
open Verif.Eno

/-- Replace one of the scalar arrays. -/
def setScratch (s : Dev V R) (j : Nat) (a : Arr I3 R) : Dev V R := { s with scratch := Function.update s.scratch j a }

theorem setScratch_sized {n : I3} {s : Dev V R} (hs : DevSized n s) (j : Nat) (f : I3 → R) : DevSized n (setScratch s j ⟨inSize n, f⟩) := by
  refine ⟨hs.vol, hs.speeds, fun i => ?_⟩
  by_cases h : i = j
  · subst h; simp [setScratch]
  · simp [setScratch, Function.update_of_ne h, hs.scratch]

theorem readScratch_fits {cells : I3 → Prop} {touch : I3 → Loc → Prop} {s : Dev V R} {F : Loc → Val V R} {c : I3} {j : Nat} {q : I3}
    {k : R → Prog Loc (Val V R)} (hin : (s.scratch j).inb q = true) (hex : ∀ c', cells c' → touch c' (.scratch j q) → c' = c)
    (hk : CellFits cells touch s.mem F c (fun _ => False) (k ((s.scratch j).val q))) :
    CellFits cells touch s.mem F c (fun _ => False) (readScratch j q k) :=
  .readOld hin (fun h => h) hex hk

theorem ddStart_eq {k d level : Nat} (hd : d < 3) (n start : I3) : ddStart k d level n start = ddLo k d level (spaceFilling n) start := by
  interval_cases d <;> simp [ddStart, ddLo, ddLo1, I3.dir, mul_comm]

theorem ddEnd_eq {k d level : Nat} (hd : d < 3) (n stop : I3) : ddEnd k d level n stop = ddHi k d level (spaceFilling n) n stop := by
  interval_cases d <;> simp [ddEnd, ddHi, ddHi1, I3.dir, mul_comm]

theorem mainStart_eq {k d : Nat} (hd : d < 3) (n start : I3) (h : (spaceFilling n).get d = 1) :
    mainStart k d n start = mainLo k d (spaceFilling n) start := by
  interval_cases d <;> simp [I3.get] at h <;> simp [mainStart, mainLo, I3.dir, h, mul_comm]

theorem mainEnd_eq {k d : Nat} (hd : d < 3) (n stop : I3) (h : (spaceFilling n).get d = 1) :
    mainEnd k d n stop = mainHi k d (spaceFilling n) n stop := by
  interval_cases d <;> simp [I3.get] at h <;> simp [mainEnd, mainHi, I3.dir, h, mul_comm]

theorem box_sub (lo hi : I3) : hi = lo + (hi - lo) := by rw [I3.ext_iff]; simp

/-- One launch that fills a scalar array with differences of the values `f`. -/
theorem dd_ok [Sub R] {n lo hi : I3} {d j : Nat} {s : Dev V R} (hs : DevSized n s) (f : I3 → R) (body : I3 → (R → R → Prog Loc (Val V R)) → Prog Loc (Val V R))
    (hin : ∀ q ∈ box lo hi, inSize n (q - I3.dir d) = true)
    (hbody : ∀ (F : Loc → Val V R) (c : I3), c ∈ box lo hi → ∀ k : R → R → Prog Loc (Val V R),
      CellFits (· ∈ box lo hi) (fun c l => l = .scratch j (c - I3.dir d)) s.mem F c (fun _ => False) (k (f c) (f (c - I3.dir d))) →
      CellFits (· ∈ box lo hi) (fun c l => l = .scratch j (c - I3.dir d)) s.mem F c (fun _ => False) (body c k)) :
    yields (gridLaunch (hi - lo) lo 1024 fun _ q => body q fun r l => .write (.scratch j (q - I3.dir d)) (.real (r - l)) .done) s.mem
      (setScratch s j ⟨inSize n, fun p => if p + I3.dir d ∈ box lo hi then f (p + I3.dir d) - f p else (s.scratch j).val p⟩).mem := by
  have ee : ∀ p : I3, p - I3.dir d + I3.dir d = p := fun p => by ext <;> simp
  have ee' : ∀ p : I3, p + I3.dir d - I3.dir d = p := fun p => by ext <;> simp
  set s' := setScratch s j ⟨inSize n, fun p => if p + I3.dir d ∈ box lo hi then f (p + I3.dir d) - f p else (s.scratch j).val p⟩ with hs'
  refine yields_grid (touch := fun c l => l = .scratch j (c - I3.dir d)) (F := s'.mem.val) (box_sub lo hi) (by decide) ?_ ?_ (fun _ _ _ _ => rfl) ?_
  · intro c hc
    refine hbody _ c hc _ (.write (by simp only [Dev.mem]; rw [hs.scratch]; exact hin c hc) rfl ?_ (.done fun l hl => Or.inr hl))
    simp only [hs', Dev.mem, setScratch, Function.update_self]
    rw [if_pos (by rw [ee]; exact hc), ee]
  · funext l
    cases l with
    | cell v q => rfl
    | speed i => rfl
    | scratch i q => by_cases hv : i = j <;> simp [Dev.mem, hs', setScratch, hv, hs.scratch]
  · intro l hl
    cases l with
    | cell v q => rfl
    | speed i => rfl
    | scratch i q =>
      by_cases hv : i = j
      · subst hv
        simp only [Dev.mem, hs', setScratch, Function.update_self]
        rw [if_neg]
        intro hq; exact hl _ hq (by rw [ee'])
      · simp [Dev.mem, hs', setScratch, Function.update_of_ne hv]

/-- The scalar array `j` contains the divided differences of level `j + 1` of the values `f`. -/
def Level (k d : Nat) (active n start stop : I3) (f : I3 → ℝ) (s : Dev V ℝ) (j : Nat) : Prop :=
  ∀ q ∈ box (ddLo k d (j + 1) active start) (ddHi k d (j + 1) active n stop),
    (s.scratch j).val (q - I3.dir d) = fdiff (j + 1) (line d f q) (-1)

variable {k d : Nat} {n start stop : I3}

theorem dd_region {active : I3} (hg : Geo k d active start stop) {level : Nat} (h1 : 1 ≤ level) (h2 : level ≤ k - 1) {q : I3}
    (hq : q ∈ box (ddLo k d level active start) (ddHi k d level active n stop)) : inSize n q = true ∧ inSize n (q - I3.dir d) = true := by
  obtain ⟨hd, ha, had, hs, ht⟩ := hg
  rw [box_get] at hq
  rw [dir_eq_step, sub_step, inSize_get, inSize_get]
  refine ⟨fun e he => ?_, fun e he => ?_⟩ <;> have h := hq e he <;> rw [ddLo_get _ _ _ _ _ he, ddHi_get _ _ _ _ _ _ he] at h <;>
    have h3 := ha e he <;> have h4 := hs e he <;> have h5 := ht e he <;> by_cases hed : e = d
  · subst hed; simp only [if_true] at h; omega
  · simp only [if_neg hed] at h; rcases h3 with h3 | h3 <;> rw [h3] at h <;> omega
  · subst hed; simp only [if_true] at h; rw [(get_geom hd q _).1]; omega
  · rw [(get_geom hd q _).2 e he hed]; simp only [if_neg hed] at h; rcases h3 with h3 | h3 <;> rw [h3] at h <;> omega

theorem dd_step {active : I3} (hd : d < 3) {j : Nat} {q : I3}
    (hq : q ∈ box (ddLo k d (j + 1 + 1) active start) (ddHi k d (j + 1 + 1) active n stop)) :
    q ∈ box (ddLo k d (j + 1) active start) (ddHi k d (j + 1) active n stop) ∧
    q + I3.dir d ∈ box (ddLo k d (j + 1) active start) (ddHi k d (j + 1) active n stop) := by
  rw [box_get] at hq
  rw [box_get, box_get, dir_eq_step]
  refine ⟨fun e he => ?_, fun e he => ?_⟩ <;> have h := hq e he <;> rw [ddLo_get _ _ _ _ _ he, ddHi_get _ _ _ _ _ _ he] at h ⊢ <;>
    by_cases hed : e = d
  · simp only [hed, if_true] at h ⊢; push_cast at h ⊢; omega
  · simp only [if_neg hed] at h ⊢; omega
  · subst hed; rw [(get_geom hd q _).1]; simp only [if_true] at h ⊢; push_cast at h ⊢; omega
  · rw [(get_geom hd q _).2 e he hed]; simp only [if_neg hed] at h ⊢; omega

theorem line_step (d : Nat) (f : I3 → ℝ) (q : I3) : line d f (q + I3.dir d) = fun o => line d f q (1 + o) := by
  funext o
  simp only [line]
  congr 1
  ext <;> simp [step, I3.dir] <;> split_ifs <;> ring

/-- The first level. -/
theorem ddLaunchInput_ok (ind : V → ℝ) (hg : Geo k d (spaceFilling n) start stop) (hk : 2 ≤ k) {s : Dev V ℝ} (hs : DevSized n s) :
    ∃ s' : Dev V ℝ, yields (ddLaunchInput ind k d n start stop) s.mem s'.mem ∧ DevSized n s' ∧ s'.vol = s.vol ∧
      Level k d (spaceFilling n) n start stop (fun p => ind ((s.vol .input).val p)) s' 0 := by
  have e1 : ∀ q : I3, q + step d (-1) = q - I3.dir d := fun q => by rw [dir_eq_step, sub_step]
  have e0 : ∀ p : I3, p + step d 0 = p := fun p => by ext <;> simp [step]
  have ee : ∀ p : I3, p - I3.dir d + I3.dir d = p := fun p => by ext <;> simp
  refine ⟨_, ?_, setScratch_sized hs 0 (fun p => if p + I3.dir d ∈ box (ddLo k d 1 (spaceFilling n) start) (ddHi k d 1 (spaceFilling n) n stop) then
    ind ((s.vol .input).val (p + I3.dir d)) - ind ((s.vol .input).val p) else (s.scratch 0).val p), rfl, ?_⟩
  · unfold ddLaunchInput
    rw [ddStart_eq hg.dlt, ddEnd_eq hg.dlt]
    refine dd_ok hs (fun p => ind ((s.vol .input).val p)) (fun q k => readCell .input q fun r => readCell .input (q - I3.dir d) fun l => k (ind r) (ind l))
      (fun q hq => (dd_region hg le_rfl (by omega) hq).2) ?_
    intro F c hc k' hk'
    obtain ⟨r1, r2⟩ := dd_region hg le_rfl (by omega) hc
    refine readCell_fits (by rw [hs.vol]; exact r1) (by rintro c' _ h; cases h) ?_
    exact readCell_fits (by rw [hs.vol]; exact r2) (by rintro c' _ h; cases h) hk'
  · intro q hq
    simp only [setScratch, Function.update_self]
    rw [if_pos (by rw [ee]; exact hq), ee]
    simp [fdiff, line, e0, e1]

/-- A further level. -/
theorem ddLaunch_ok (f : I3 → ℝ) (hg : Geo k d (spaceFilling n) start stop) {i : Nat} (hi : 1 ≤ i) (hik : i + 1 ≤ k - 1) {s : Dev V ℝ}
    (hs : DevSized n s) (hl : ∀ j < i, Level k d (spaceFilling n) n start stop f s j) :
    ∃ s' : Dev V ℝ, yields (ddLaunch k d i n start stop) s.mem s'.mem ∧ DevSized n s' ∧ s'.vol = s.vol ∧
      ∀ j < i + 1, Level k d (spaceFilling n) n start stop f s' j := by
  have ee : ∀ p : I3, p - I3.dir d + I3.dir d = p := fun p => by ext <;> simp
  have ee' : ∀ p : I3, p + I3.dir d - I3.dir d = p := fun p => by ext <;> simp
  refine ⟨_, ?_, setScratch_sized hs i (fun p => if p + I3.dir d ∈ box (ddLo k d (i + 1) (spaceFilling n) start) (ddHi k d (i + 1) (spaceFilling n) n stop) then
    (s.scratch (i - 1)).val (p + I3.dir d) - (s.scratch (i - 1)).val p else (s.scratch i).val p), rfl, ?_⟩
  · unfold ddLaunch
    rw [ddStart_eq hg.dlt, ddEnd_eq hg.dlt]
    refine dd_ok hs (s.scratch (i - 1)).val (fun q k => readScratch (i - 1) q fun r => readScratch (i - 1) (q - I3.dir d) fun l => k r l)
      (fun q hq => (dd_region hg (by omega) (by omega) hq).2) ?_
    intro F c hc k' hk'
    obtain ⟨r1, r2⟩ := dd_region hg (by omega) (by omega) hc
    refine readScratch_fits (by rw [hs.scratch]; exact r1) (by rintro c' _ h; have := (Loc.scratch.inj h).1; omega) ?_
    exact readScratch_fits (by rw [hs.scratch]; exact r2) (by rintro c' _ h; have := (Loc.scratch.inj h).1; omega) hk'
  · intro j hj q hq
    by_cases h0 : j = i
    · subst h0
      simp only [setScratch, Function.update_self]
      rw [if_pos (by rw [ee]; exact hq), ee]
      obtain ⟨j, rfl⟩ : ∃ j', j = j' + 1 := ⟨j - 1, by omega⟩
      obtain ⟨q1, q2⟩ := dd_step hg.dlt hq
      have v1 := hl j (by omega) q q1
      have v2 := hl j (by omega) _ q2
      rw [ee'] at v2
      simp only [Nat.add_sub_cancel]
      rw [v1, v2, line_step, fdiff_shift]
      simp [fdiff]
    · simp only [setScratch, Function.update_of_ne h0]
      exact hl j (by omega) q hq

/-- All further levels. -/
theorem levels_ok (f : I3 → ℝ) (hg : Geo k d (spaceFilling n) start stop) (c : Nat) : ∀ {i : Nat} {s : Dev V ℝ}, 1 ≤ i → i + c ≤ k - 1 →
    DevSized n s → (∀ j < i, Level k d (spaceFilling n) n start stop f s j) →
    ∃ s' : Dev V ℝ, yieldsAll ((List.range' i c).map fun i => ddLaunch k d i n start stop) s.mem s'.mem ∧ DevSized n s' ∧ s'.vol = s.vol ∧
      ∀ j < i + c, Level k d (spaceFilling n) n start stop f s' j := by
  induction c with
  | zero => intro i s _ _ hs hl; exact ⟨s, rfl, hs, rfl, hl⟩
  | succ c ih =>
    intro i s hi hik hs hl
    obtain ⟨s1, a1, a2, a3, a4⟩ := ddLaunch_ok f hg hi (by omega) hs hl
    obtain ⟨s2, b1, b2, b3, b4⟩ := ih (i := i + 1) (by omega) (by omega) a2 a4
    exact ⟨s2, ⟨_, a1, b1⟩, b2, b3.trans a3, fun j hj => b4 j (by omega)⟩

theorem select_fits {cells : I3 → Prop} {s : Dev V ℝ} {F : Loc → Val V ℝ} {c : I3} (k' : Nat → Prog Loc (Val V ℝ)) (l : List Nat) :
    ∀ {shift : Nat}, (∀ j ∈ l, (s.scratch j).inb c = true ∧ (s.scratch j).inb (c - I3.dir d) = true) →
    CellFits cells touchLR s.mem F c (fun _ => False)
      (k' (l.foldl (fun sh j => if |(s.scratch j).val (c - I3.dir d)| < |(s.scratch j).val c| then sh + 1 else sh) shift)) →
    CellFits cells touchLR s.mem F c (fun _ => False) (select d c l shift k') := by
  induction l with
  | nil => intro shift _ h; exact h
  | cons j l ih =>
    intro shift hin h
    refine readScratch_fits (hin j (by simp)).1 not_touch_scratch ?_
    refine readScratch_fits (hin j (by simp)).2 not_touch_scratch ?_
    exact ih (fun j hj => hin j (by simp [hj])) h

theorem sum_eq {m : Nat} {k r sh d : Nat} (h1 : 1 ≤ k) (h4 : k ≤ 4) (hr : r ≤ k) (u : I3 → Vec m) (q : I3) :
    (((table k).getD r []).zip (((List.range k).map fun j : Nat => q - step d ((sh : Int) - j)).map u)).foldl (fun s cv => s + cv.1 • cv.2) 0 =
      value k r sh (line d u q) := by
  unfold value combo
  have hlen := row_length h1 h4 hr
  rw [List.zipIdx_eq_zip_range', hlen, ← List.range_eq_range', List.map_map, List.zip_map_right, List.foldl_map]
  simp only [Function.comp, Prod.map, line, sub_step, id]

/-- The launches of ENO: the left and right values of every cell of the region, as on the processor. -/
theorem eno_ok {m : Nat} (ind : Fin m) (hg : Geo k d (spaceFilling n) start stop) (hk : 2 ≤ k) (hk4 : k ≤ 4) {s : Dev (Vec m) ℝ}
    (hs : DevSized n s) :
    ∃ s' : Dev (Vec m) ℝ, yieldsAll (eno k ind n d start stop) s.mem s'.mem ∧ DevSized n s' ∧
      s'.vol = (fillLR s (mainLo k d (spaceFilling n) start) (mainHi k d (spaceFilling n) n stop)
        (fun q => value k (shiftOf k (fun o => line d (s.vol .input).val q o ind)) (shiftOf k (fun o => line d (s.vol .input).val q o ind)) (line d (s.vol .input).val q))
        (fun q => value k (shiftOf k (fun o => line d (s.vol .input).val q o ind) + 1) (shiftOf k (fun o => line d (s.vol .input).val q o ind)) (line d (s.vol .input).val q))).vol := by
  obtain ⟨s1, a1, a2, a3, a4⟩ := ddLaunchInput_ok (fun v : Vec m => v ind) hg hk hs
  obtain ⟨s2, b1, b2, b3, b4⟩ := levels_ok (fun p => (s.vol .input).val p ind) hg (k - 2) (i := 1) le_rfl (by omega) a2
    (by intro j hj; obtain rfl : j = 0 := by omega
        exact a4)
  have hvol : s2.vol = s.vol := b3.trans a3
  have hd := hg.dlt
  set L := fun q => value k (shiftOf k (fun o => line d (s.vol .input).val q o ind)) (shiftOf k (fun o => line d (s.vol .input).val q o ind)) (line d (s.vol .input).val q) with hL
  set Rr := fun q => value k (shiftOf k (fun o => line d (s.vol .input).val q o ind) + 1) (shiftOf k (fun o => line d (s.vol .input).val q o ind)) (line d (s.vol .input).val q) with hR
  set lo := mainLo k d (spaceFilling n) start with hlo
  set hi := mainHi k d (spaceFilling n) n stop with hhi
  have hmain : yields (enoLaunch k d n start stop) s2.mem (fillLR s2 lo hi L Rr).mem := by
    unfold enoLaunch
    rw [mainStart_eq hd _ _ hg.actd, mainEnd_eq hd _ _ hg.actd, ← hlo, ← hhi]
    refine yields_box (touch := touchLR) (F := (fillLR s2 lo hi L Rr).mem.val) ?_ (by decide) ?_ (fillLR_inb _ _ _ _ _) (fun _ _ _ _ => rfl)
      (fillLR_old _ _ _ _ _)
    · have h0 := mainLo_get k d (spaceFilling n) start (e := 0) (by decide)
      have h1 := hg.act 0 (by decide); have h2 := hg.start 0 (by decide)
      have h3 : lo.x = lo.get 0 := rfl
      rw [h3, hlo, h0]
      rcases h1 with h1 | h1 <;> rw [h1] <;> split_ifs <;> omega
    · intro q hq
      have hq' := box_get.1 hq
      have hcell : ∀ o : Int, -((k : Int) - 1) ≤ o → o ≤ (k : Int) - 1 → inSize n (q + step d o) = true := by
        intro o o1 o2
        rw [inSize_get]
        intro e he
        have h := hq' e he; have h4 := hg.start e he; have h5 := hg.stop e he
        rw [hlo, hhi, mainLo_get _ _ _ _ he, mainHi_get _ _ _ _ _ he] at h
        by_cases hed : e = d
        · subst hed; rw [(get_geom hd q _).1]; simp only [if_true, hg.actd] at h; omega
        · rw [(get_geom hd q _).2 e he hed]; simp only [if_neg hed] at h
          rcases hg.act e he with h3 | h3 <;> rw [h3] at h <;> omega
      have e0 : ∀ p : I3, p + step d 0 = p := fun p => by ext <;> simp [step]
      have hqin : inSize n q = true := by
        have := hcell 0 (by omega) (by omega); rwa [e0] at this
      have hm1 : inSize n (q - I3.dir d) = true := by
        have := hcell (-1) (by omega) (by omega); rwa [← sub_step, ← dir_eq_step] at this
      have hsh := shiftOf_le k fun o => line d (s.vol .input).val q o ind
      have hsel : (List.range (k - 1)).foldl (fun sh j => if |(s2.scratch j).val (q - I3.dir d)| < |(s2.scratch j).val q| then sh + 1 else sh) 0 =
          shiftOf k fun o => line d (s.vol .input).val q o ind := by
        unfold shiftOf
        refine List.foldl_ext _ _ _ fun sh level hlev => ?_
        have hlev : level < k - 1 := by simpa using hlev
        have hq1 : q ∈ box (ddLo k d (level + 1) (spaceFilling n) start) (ddHi k d (level + 1) (spaceFilling n) n stop) := by
          rw [box_get]
          intro e he
          have h := hq' e he
          rw [hlo, hhi, mainLo_get _ _ _ _ he, mainHi_get _ _ _ _ _ he] at h
          rw [ddLo_get _ _ _ _ _ he, ddHi_get _ _ _ _ _ _ he]
          by_cases hed : e = d
          · subst hed; simp only [if_true, hg.actd] at h ⊢; push_cast; omega
          · simp only [if_neg hed] at h ⊢; rcases hg.act e he with h3 | h3 <;> rw [h3] at h ⊢ <;> omega
        have hq2 : q + I3.dir d ∈ box (ddLo k d (level + 1) (spaceFilling n) start) (ddHi k d (level + 1) (spaceFilling n) n stop) := by
          rw [box_get]
          intro e he
          have h := hq' e he
          rw [hlo, hhi, mainLo_get _ _ _ _ he, mainHi_get _ _ _ _ _ he] at h
          rw [ddLo_get _ _ _ _ _ he, ddHi_get _ _ _ _ _ _ he, dir_eq_step]
          by_cases hed : e = d
          · subst hed; rw [(get_geom hd q _).1]; simp only [if_true, hg.actd] at h ⊢; push_cast; omega
          · rw [(get_geom hd q _).2 e he hed]; simp only [if_neg hed] at h ⊢; rcases hg.act e he with h3 | h3 <;> rw [h3] at h ⊢ <;> omega
        have v1 := b4 level (by omega) q hq1
        have v2 := b4 level (by omega) _ hq2
        have ee : q + I3.dir d - I3.dir d = q := by ext <;> simp
        rw [ee, line_step, fdiff_shift] at v2
        rw [v1, v2]
        rfl
      refine select_fits _ _ (fun j _ => ⟨by rw [b2.scratch]; exact hqin, by rw [b2.scratch]; exact hm1⟩) ?_
      rw [hsel]
      refine readCells_fits _ ?_ (fun _ _ => not_touch_input) ?_
      · intro p hp
        obtain ⟨j, hj, rfl⟩ := List.mem_map.1 hp
        have hj : j < k := by simpa using hj
        rw [b2.vol, sub_step]
        exact hcell _ (by omega) (by omega)
      simp only [hvol, sum_eq (show 1 ≤ k by omega) hk4 (show shiftOf k (fun o => line d (s.vol .input).val q o ind) ≤ k by omega),
        sum_eq (show 1 ≤ k by omega) hk4 (show shiftOf k (fun o => line d (s.vol .input).val q o ind) + 1 ≤ k by omega)]
      exact fillLR_fits (lv := L) (rv := Rr) hq (by rw [b2.vol]; exact hqin) (by rw [b2.vol]; exact hqin)
  refine ⟨_, ?_, fillLR_sized b2 lo hi L Rr, ?_⟩
  · refine ⟨_, a1, ?_⟩
    exact yieldsAll_append b1 ⟨_, hmain, rfl⟩
  · simp only [fillLR, hvol]

end

/-! ### What the flux computation needs -/

theorem noRecon_val [Zero V] (u : I3 → V) (d : Nat) (q : I3) : noRecon.lval u d q = u q ∧ noRecon.rval u d q = u q := by
  have e0 : q + step d 0 = q := by ext <;> simp [step]
  simp [noRecon, Recon.lval, Recon.rval, e0]

theorem none_computes [Zero V] {fl : FluxFn V R} {n G active start stop : I3} {dims g d : Nat} (hL : Layout n G active dims g)
    (hf : NetFlux.Fits noRecon fl g) (hs : RegionOK start stop) (hd : d < dims) :
    (none n : CardRecon V R).Computes noRecon fl n G d start stop := by
  intro s hsz
  obtain ⟨s', h1, h2, h3, h4, _, h5⟩ := none_all hsz d start stop
  have hgeo := (geometry (start := start) (stop := stop) hL hf hs hd).2.2.2.1
  have hin : ∀ q, IsFace n G start stop d q → ∀ o ∈ fl.offsL ++ fl.offsR, inSize n (q + step d o) = true := fun q hq o ho =>
    (geometry (start := start) (stop := stop) hL hf hs hd).1 _ (hgeo q hq o ho)
  refine ⟨s', h1, h2, h3, h4, fun q hq o ho => ?_, fun q hq o ho => ?_⟩
  · rw [(noRecon_val _ _ _).1, (h5 _ (hin q hq o (by simp [ho]))).1]
  · rw [(noRecon_val _ _ _).2, (h5 _ (hin q hq o (by simp [ho]))).2]

/-- The numbers of interior cells tell the dimension. -/
theorem dimension_eq {n G : I3} {dims : Nat} (hpos : 0 < dims) (hdims : dims ≤ 3) (h : ∀ e < 3, 0 < e → (e < dims ↔ 1 < n.get e - 2 * G.get e)) : dimension n G = dims := by
  have h1 := h 1 (by decide) (by decide); have h2 := h 2 (by decide) (by decide)
  simp only [I3.get, if_true, if_false, one_ne_zero, OfNat.ofNat_ne_zero, OfNat.ofNat_ne_one] at h1 h2
  unfold dimension
  split_ifs <;> omega

theorem reach_get {n G active : I3} {dims g : Nat} (hL : Layout n G active dims g) (hdim : dimension n G = dims) (hpos : 0 < dims) (k : Nat) :
    reach n G k = ⟨active.x * ((k : Int) - 1), active.y * ((k : Int) - 1), active.z * ((k : Int) - 1)⟩ := by
  have a0 := hL.act 0 (by decide); have a1 := hL.act 1 (by decide); have a2 := hL.act 2 (by decide)
  simp only [I3.get, if_true, if_false, one_ne_zero, OfNat.ofNat_ne_zero, OfNat.ofNat_ne_one] at a0 a1 a2
  rw [reach, hdim, a0, a1, a2, if_pos hpos]
  simp only [one_mul, ite_mul, zero_mul]

/-- The range of the launch lies inside the volume, and contains the range of the processor. -/
theorem stencil_range (r : Recon V) {n G active start stop : I3} {dims g d : Nat} (hL : Layout n G active dims g)
    (hdim : dimension n G = dims) (hk : 1 ≤ r.k) (hoffs : ∀ o ∈ r.offs, -((r.k : Int) - 1) ≤ o ∧ o ≤ r.k - 1) (hs : RegionOK start stop)
    (hd : d < dims) :
    (∀ q ∈ box (reach n G r.k + start) (n - reach n G r.k + stop), inSize n q = true ∧ ∀ o ∈ r.offs, inSize n (q + step d o) = true) ∧
    (r.kind = .region → ∀ q ∈ box (r.lo active d start) (r.hi active d n stop), q ∈ box (reach n G r.k + start) (n - reach n G r.k + stop)) := by
  have hreach := reach_get hL hdim (by omega) r.k
  have hdl := hL.dims_le
  have hd3 : d = 0 ∨ d = 1 ∨ d = 2 := by omega
  have a0 := hL.act 0 (by decide); have a1' := hL.act 1 (by decide); have a2' := hL.act 2 (by decide)
  simp only [I3.get, if_true, if_false, one_ne_zero, OfNat.ofNat_ne_zero, OfNat.ofNat_ne_one] at a0 a1' a2'
  refine ⟨fun q hq => ?_, fun hkind q h => ?_⟩
  · rw [hreach] at hq
    obtain ⟨hs1, hs2⟩ := hs
    simp only [mem_box, I3.add_x, I3.add_y, I3.add_z, I3.sub_x, I3.sub_y, I3.sub_z, a0, a1', a2'] at hq
    refine ⟨?_, fun o ho => ?_⟩
    · rw [inSize_iff]
      split_ifs at hq <;> omega
    · have := hoffs o ho
      rw [inSize_iff]
      simp only [I3.add_x, I3.add_y, I3.add_z, step]
      rcases hd3 with rfl | rfl | rfl <;> simp <;> split_ifs at hq <;> omega
  · rw [hreach]
    unfold Recon.lo Recon.hi at h
    rw [hkind] at h
    simp only [mem_box, I3.add_x, I3.add_y, I3.add_z, I3.sub_x, I3.sub_y, I3.sub_z, I3.dir, a0, a1', a2'] at h ⊢
    rcases hd3 with rfl | rfl | rfl <;> simp at h ⊢ <;> split_ifs at h ⊢ <;> omega

theorem stencil_computes {r : Recon V} {fl : FluxFn V R} {n G active start stop : I3} {dims g d : Nat} (hL : Layout n G active dims g)
    (hdim : dimension n G = dims) (hf : NetFlux.Fits r fl g) (hkind : r.kind = .region) (hs : RegionOK start stop) (hd : d < dims) :
    (stencil r n G : CardRecon V R).Computes r fl n G d start stop := by
  intro s hsz
  obtain ⟨hin, hsub⟩ := stencil_range r hL hdim hf.k_pos hf.offs_abs hs hd
  refine ⟨_, stencil_ok r hsz hin, fillLR_sized hsz _ _ _ _, rfl, rfl, ?_⟩
  have hgeo := (geometry (start := start) (stop := stop) hL hf hs hd).2.2.2.1
  exact ⟨fun q hq o ho => if_pos (hsub hkind _ (hgeo q hq o (by simp [ho]))), fun q hq o ho => if_pos (hsub hkind _ (hgeo q hq o (by simp [ho])))⟩

theorem spaceFilling_eq {n G active : I3} {dims g : Nat} (hL : Layout n G active dims g) (hg : 1 ≤ g)
    (hflat : ∀ e < 3, dims ≤ e → n.get e = 1) : spaceFilling n = active := by
  have key : ∀ e < 3, (if 1 < n.get e then (1 : Int) else 0) = active.get e := by
    intro e he
    rw [hL.act e he]
    have h1 := hL.gst e he
    have h2 := hL.size e he
    by_cases hd : e < dims
    · rw [if_pos hd] at h1 ⊢
      rw [if_pos (by omega)]
    · rw [if_neg hd, hflat e he (by omega)]; rfl
  have k0 := key 0 (by omega); have k1 := key 1 (by omega); have k2 := key 2 (by omega)
  simp only [I3.get, if_true, if_false, one_ne_zero, OfNat.ofNat_ne_zero, OfNat.ofNat_ne_one] at k0 k1 k2
  rw [I3.ext_iff]
  exact ⟨k0, k1, k2⟩

theorem geo_of_layout {n G active start stop : I3} {dims g k d : Nat} (hL : Layout n G active dims g) (hs : RegionOK start stop) (hd : d < dims) :
    Eno.Geo k d active start stop := by
  have hdl := hL.dims_le
  obtain ⟨hs1, hs2⟩ := hs
  refine ⟨by omega, fun e he => ?_, ?_, fun e he => ?_, fun e he => ?_⟩
  · rw [hL.act e he]; split_ifs <;> simp
  · rw [hL.act d (by omega), if_pos hd]
  · interval_cases e <;> simp [I3.get] <;> omega
  · interval_cases e <;> simp [I3.get] <;> omega

theorem eno_computes {m k : Nat} (ind : Fin m) (hk : 2 ≤ k) (hk4 : k ≤ 4) {fl : FluxFn (Eno.Vec m) ℝ} {n G active start stop : I3} {dims g d : Nat}
    (hL : Layout n G active dims g) (hflat : ∀ e < 3, dims ≤ e → n.get e = 1) (hf : NetFlux.Fits (Weno.enoRecon k ind) fl g)
    (hs : RegionOK start stop) (hd : d < dims) : (eno k ind n).Computes (Weno.enoRecon k ind) fl n G d start stop := by
  intro s hsz
  have hgk : 1 ≤ g := le_trans hf.k_pos hf.k_le
  have hact := spaceFilling_eq hL hgk hflat
  have hgeo' : Eno.Geo k d (spaceFilling n) start stop := by rw [hact]; exact geo_of_layout hL hs hd
  obtain ⟨s', h1, h2, h3⟩ := eno_ok ind hgeo' hk hk4 hsz
  have hgeo := (geometry (start := start) (stop := stop) hL hf hs hd).2.2.2.1
  have hlo : (Weno.enoRecon k ind).lo active d start = Eno.mainLo k d active start := rfl
  have hhi : (Weno.enoRecon k ind).hi active d n stop = Eno.mainHi k d active n stop := rfl
  rw [hlo, hhi] at hgeo
  rw [hact] at h3
  refine ⟨s', h1, h2, by rw [h3]; rfl, by rw [h3]; rfl, fun q hq o ho => ?_, fun q hq o ho => ?_⟩
  · rw [h3, Weno.enoRecon, Weno.lineRecon_lval (Weno.eno_local hk hk4 ind).1]
    exact if_pos (hgeo q hq o (by simp [ho]))
  · rw [h3, Weno.enoRecon, Weno.lineRecon_rval (Weno.eno_local hk hk4 ind).2]
    exact if_pos (hgeo q hq o (by simp [ho]))

end Verif.CudaRecon
