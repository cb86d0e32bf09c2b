import Verif.CudaTecno

namespace Verif.CudaTecno
open Verif.Gpu Verif.NetFlux Verif.TecnoEno
open Verif.Diffusion hiding State
variable {N : Nat}

/-! ### The memory -/

theorem rd_inv {ι α : Type} {a : Arr ι α} {i : ι} {v : α} (h : a.rd i = .ok v) : a.inb i = true ∧ v = a.val i := by
  by_cases hb : a.inb i = true
  · rw [Arr.rd_ok hb] at h; cases h; exact ⟨hb, rfl⟩
  · rw [Arr.rd_ub (by simpa using hb)] at h; cases h

theorem wr_inv {ι α : Type} [DecidableEq ι] {a b : Arr ι α} {i : ι} {v : α} (h : a.wr i v = .ok b) :
    a.inb i = true ∧ b = ⟨a.inb, Function.update a.val i v⟩ := by
  by_cases hb : a.inb i = true
  · rw [Arr.wr_ok hb] at h; cases h; exact ⟨hb, rfl⟩
  · rw [Arr.wr_ub (by simpa using hb)] at h; cases h

theorem bind_ok {α β : Type} {x : Res α} {f : α → Res β} {b : β} (h : (x >>= f) = .ok b) : ∃ a, x = .ok a ∧ f a = .ok b := by
  cases x with
  | error e => cases h
  | ok a => exact ⟨a, rfl, h⟩

theorem mem_setVol (s : Dev N) (a : Area) (v : Fin N) (c : I3) (x : ℝ) :
    (⟨s.mem.inb, Function.update s.mem.val (.cell a v c) x⟩ : Arr (Loc N) ℝ) =
      (s.setVol a ⟨(s.vol a).inb, Function.update (s.vol a).val c (Function.update ((s.vol a).val c) v x)⟩).mem := by
  unfold Dev.mem Dev.setVol
  congr 1
  · funext l
    rcases l with ⟨b, w, p⟩ | ⟨j, i⟩
    · by_cases e : b = a
      · subst e; simp
      · simp [Function.update_of_ne e]
    · rfl
  · funext l
    rcases l with ⟨b, w, p⟩ | ⟨j, i⟩
    · by_cases e : b = a
      · subst e
        by_cases ep : p = c
        · subst ep
          by_cases ev : w = v
          · subst ev; simp
          · rw [Function.update_of_ne (by simp [ev])]; simp [Function.update_of_ne ev]
        · rw [Function.update_of_ne (by simp [ep])]; simp [Function.update_of_ne ep]
      · rw [Function.update_of_ne (by simp [e])]; simp [Function.update_of_ne e]
    · rw [Function.update_of_ne (by simp)]

theorem mem_setDD (s : Dev N) (j : Nat) (i : Int) (x : ℝ) :
    (⟨s.mem.inb, Function.update s.mem.val (.dd j i) x⟩ : Arr (Loc N) ℝ) =
      (s.setDD j ⟨(s.dd j).inb, Function.update (s.dd j).val i x⟩).mem := by
  unfold Dev.mem Dev.setDD
  congr 1
  · funext l
    rcases l with ⟨b, w, p⟩ | ⟨j', i'⟩
    · rfl
    · by_cases e : j' = j
      · subst e; simp
      · simp [Function.update_of_ne e]
  · funext l
    rcases l with ⟨b, w, p⟩ | ⟨j', i'⟩
    · rw [Function.update_of_ne (by simp)]
    · by_cases e : j' = j
      · subst e
        by_cases ei : i' = i
        · subst ei; simp
        · rw [Function.update_of_ne (by simp [ei])]; simp [Function.update_of_ne ei]
      · rw [Function.update_of_ne (by simp [e])]; simp [Function.update_of_ne e]

theorem setVol_self (s : Dev N) (a : Area) : s.setVol a (s.vol a) = s := by
  unfold Dev.setVol; rw [Function.update_eq_self]

theorem setVol_setVol (s : Dev N) (a : Area) (x y : Arr I3 (Vec N)) : (s.setVol a x).setVol a y = s.setVol a y := by
  unfold Dev.setVol; simp

theorem setVol_vol (s : Dev N) (a : Area) (x : Arr I3 (Vec N)) : (s.setVol a x).vol a = x := by
  unfold Dev.setVol; simp

theorem setVol_vol_ne (s : Dev N) {a b : Area} (h : b ≠ a) (x : Arr I3 (Vec N)) : (s.setVol a x).vol b = s.vol b := by
  unfold Dev.setVol; simp [Function.update_of_ne h]

/-! ### Vector access -/

theorem exec_readVec {a : Area} {c : I3} {m : Arr (Loc N) ℝ} {k : Vec N → Prog (Loc N) ℝ} (hin : ∀ v, m.inb (.cell a v c) = true) (vs : List (Fin N)) :
    ∀ w : Vec N, (readVec a c vs w k).exec m = (k fun v => if v ∈ vs then m.val (.cell a v c) else w v).exec m := by
  induction vs with
  | nil => intro w; simp [readVec]
  | cons v vs ih =>
    intro w
    rw [readVec, exec_read_ok (hin v), ih]
    congr 2
    funext u
    by_cases hu : u ∈ vs
    · simp [hu]
    · by_cases e : u = v
      · subst e; simp [hu]
      · simp [hu, e]

theorem exec_fetch {a : Area} {c : I3} {m : Arr (Loc N) ℝ} {k : Vec N → Prog (Loc N) ℝ} (hin : ∀ v, m.inb (.cell a v c) = true) :
    (fetch a c k).exec m = (k fun v => m.val (.cell a v c)).exec m := by
  rw [fetch, exec_readVec hin]; simp

theorem exec_fetch_mem {s : Dev N} {a : Area} {c : I3} {k : Vec N → Prog (Loc N) ℝ} (hin : (s.vol a).inb c = true) :
    (fetch a c k).exec s.mem = (k ((s.vol a).val c)).exec s.mem := exec_fetch (fun _ => hin)

theorem exec_writeVec {a : Area} {c : I3} {w : Vec N} {k : Prog (Loc N) ℝ} (vs : List (Fin N)) : ∀ {s : Dev N}, (s.vol a).inb c = true →
    (writeVec a c w vs k).exec s.mem =
      k.exec (s.setVol a ⟨(s.vol a).inb, Function.update (s.vol a).val c fun v => if v ∈ vs then w v else (s.vol a).val c v⟩).mem := by
  induction vs with
  | nil =>
    intro s _
    have : (Function.update (s.vol a).val c fun v => if v ∈ ([] : List (Fin N)) then w v else (s.vol a).val c v) = (s.vol a).val := by simp
    rw [this, setVol_self]; rfl
  | cons v vs ih =>
    intro s hs
    rw [writeVec, exec_write_ok (by exact hs), mem_setVol, ih (by rw [setVol_vol]; exact hs), setVol_setVol, setVol_vol]
    congr 4
    funext p u
    by_cases e : p = c
    · subst e
      simp only [Function.update_self, List.mem_cons]
      by_cases hu : u ∈ vs
      · simp [hu]
      · by_cases ev : u = v
        · subst ev; simp [hu]
        · simp [hu, ev]
    · simp [Function.update_of_ne e]

theorem exec_store {a : Area} {c : I3} {w : Vec N} {k : Prog (Loc N) ℝ} {s : Dev N} (hin : (s.vol a).inb c = true) :
    (store a c w k).exec s.mem = k.exec (s.setVol a ⟨(s.vol a).inb, Function.update (s.vol a).val c w⟩).mem := by
  rw [store, exec_writeVec _ hin]; simp

theorem exec_addVec {a : Area} {c : I3} {w : Vec N} {k : Prog (Loc N) ℝ} (vs : List (Fin N)) (hnd : vs.Nodup) : ∀ {s : Dev N}, (s.vol a).inb c = true →
    (addVec a c w vs k).exec s.mem =
      k.exec (s.setVol a ⟨(s.vol a).inb, Function.update (s.vol a).val c fun v => if v ∈ vs then (s.vol a).val c v + w v else (s.vol a).val c v⟩).mem := by
  induction vs with
  | nil =>
    intro s _
    have : (Function.update (s.vol a).val c fun v => if v ∈ ([] : List (Fin N)) then (s.vol a).val c v + w v else (s.vol a).val c v) = (s.vol a).val := by simp
    rw [this, setVol_self]; rfl
  | cons v vs ih =>
    intro s hs
    have hv : v ∉ vs := (List.nodup_cons.1 hnd).1
    rw [addVec, exec_read_ok (by exact hs), exec_write_ok (by exact hs), mem_setVol, ih (List.nodup_cons.1 hnd).2 (by rw [setVol_vol]; exact hs), setVol_setVol, setVol_vol]
    congr 4
    funext p u
    by_cases e : p = c
    · subst e
      simp only [Function.update_self, List.mem_cons]
      by_cases ev : u = v
      · subst ev; simp [hv, Dev.mem]
      · by_cases hu : u ∈ vs
        · simp [hu, Function.update_of_ne ev]
        · simp [hu, ev]
    · simp [Function.update_of_ne e]

theorem exec_addTo {a : Area} {c : I3} {w : Vec N} {k : Prog (Loc N) ℝ} {s : Dev N} (hin : (s.vol a).inb c = true) :
    (addTo a c w k).exec s.mem = k.exec (s.setVol a ⟨(s.vol a).inb, Function.update (s.vol a).val c ((s.vol a).val c + w)⟩).mem := by
  rw [addTo, exec_addVec _ (List.nodup_finRange N) hin]
  congr 4
  simp only [List.mem_finRange, if_true]
  rfl

theorem uses_readVec {R W : Loc N → Prop} {a : Area} {c : I3} {k : Vec N → Prog (Loc N) ℝ} (hR : ∀ v, R (.cell a v c)) (hk : ∀ w, Uses R W (k w)) (vs : List (Fin N)) :
    ∀ w, Uses R W (readVec a c vs w k) := by
  induction vs with
  | nil => intro w; exact hk w
  | cons v vs ih => intro w; exact .read (Or.inl (hR v)) fun x => ih _

theorem uses_fetch {R W : Loc N → Prop} {a : Area} {c : I3} {k : Vec N → Prog (Loc N) ℝ} (hR : ∀ v, R (.cell a v c)) (hk : ∀ w, Uses R W (k w)) :
    Uses R W (fetch a c k) := uses_readVec hR hk _ _

theorem uses_addTo {R W : Loc N → Prop} {a : Area} {c : I3} {w : Vec N} {k : Prog (Loc N) ℝ} (hW : ∀ v, W (.cell a v c)) (hk : Uses R W k) :
    Uses R W (addTo a c w k) := by
  unfold addTo
  generalize List.finRange N = vs
  induction vs with
  | nil => exact hk
  | cons v vs ih => exact .read (Or.inr (hW v)) fun x => .write (hW v) ih

theorem uses_readList {R W : Loc N → Prop} (ls : List (Loc N)) : ∀ {k : List ℝ → Prog (Loc N) ℝ}, (∀ l ∈ ls, R l) → (∀ w, Uses R W (k w)) → Uses R W (readList ls k) := by
  induction ls with
  | nil => intro k _ hk; exact hk _
  | cons l ls ih => intro k hR hk; exact .read (Or.inl (hR l (by simp))) fun x => ih (fun l hl => hR l (by simp [hl])) fun w => hk _

theorem exec_readList {m : Arr (Loc N) ℝ} (ls : List (Loc N)) : ∀ {k : List ℝ → Prog (Loc N) ℝ}, (∀ l ∈ ls, m.inb l = true) →
    (readList ls k).exec m = (k (ls.map m.val)).exec m := by
  induction ls with
  | nil => intro k _; rfl
  | cons l ls ih =>
    intro k h
    rw [readList, exec_read_ok (h l (by simp)), ih fun l hl => h l (by simp [hl])]
    rfl

/-- Two loops in step. -/
theorem foldlM_sim {σ τ ι : Type} (emb : σ → τ) (f : τ → ι → Res τ) (g : σ → ι → Res σ) (l : List ι)
    (h : ∀ s, ∀ c ∈ l, ∀ s', g s c = .ok s' → f (emb s) c = .ok (emb s')) : ∀ s s', l.foldlM g s = .ok s' → l.foldlM f (emb s) = .ok (emb s') := by
  induction l with
  | nil => intro s s' hs; cases hs; rfl
  | cons a as ih =>
    intro s s' hs
    rw [List.foldlM_cons] at hs ⊢
    obtain ⟨s1, h1, h2⟩ := bind_ok hs
    rw [h s a (by simp) s1 h1]
    exact ih (fun s c hc => h s c (by simp [hc])) s1 s' h2

/-! ### The second kernel of the operator -/

/-- What `multiplyDiffusionMatrix` adds at a face, as a function of the arrays. -/
noncomputable def cardFace (eq : Equation N) (k : Kind) (d : Nat) (u left right : I3 → Vec N) (q l r : I3) : Vec N :=
  (-0.5 : ℝ) • (eq.eigMat d ((0.5 : ℝ) • (u (q + I3.dir d) + u (q - I3.dir d)))).mulVec
    (k.mul (eq.eigVal d ((0.5 : ℝ) • (u (q + I3.dir d) + u (q - I3.dir d)))) (right l - left r))

theorem uses_multiply (eq : Equation N) (k : Kind) (d : Nat) (q : I3) :
    Uses (fun l => ∃ v c, l = .cell .conserved v c ∨ l = .cell .left v c ∨ l = .cell .right v c) (fun l => ∃ v, l = .cell .output v q) (multiplyBody eq k d q) := by
  have hd : ∀ oL oR l r (cont : Vec N → Prog (Loc N) ℝ),
      (∀ w, Uses (fun l => ∃ v c, l = .cell .conserved v c ∨ l = .cell .left v c ∨ l = .cell .right v c) (fun l => ∃ v, l = .cell .output v q) (cont w)) →
      Uses (fun l => ∃ v c, l = .cell .conserved v c ∨ l = .cell .left v c ∨ l = .cell .right v c) (fun l => ∃ v, l = .cell .output v q)
        (diffusionAt eq k d oL oR l r cont) := fun oL oR l r cont h =>
    uses_fetch (fun v => ⟨v, l, by simp⟩) fun _ => uses_fetch (fun v => ⟨v, r, by simp⟩) fun _ => uses_fetch (fun v => ⟨v, oR, by simp⟩) fun _ =>
      uses_fetch (fun v => ⟨v, oL, by simp⟩) fun _ => h _
  exact hd _ _ _ _ _ fun _ => hd _ _ _ _ _ fun _ => uses_addTo (fun v => ⟨v, rfl⟩) .done

theorem exec_multiply (eq : Equation N) (k : Kind) (d : Nat) (q : I3) {s : Dev N}
    (hin : ∀ a, (s.vol a).inb q = true ∧ (s.vol a).inb (q - I3.dir d) = true ∧ (s.vol a).inb (q + I3.dir d) = true) :
    (multiplyBody eq k d q).exec s.mem = .ok (s.setVol .output ⟨(s.vol .output).inb, Function.update (s.vol .output).val q ((s.vol .output).val q +
      (cardFace eq k d (s.vol .conserved).val (s.vol .left).val (s.vol .right).val q q (q + I3.dir d) -
        cardFace eq k d (s.vol .conserved).val (s.vol .left).val (s.vol .right).val q (q - I3.dir d) q))⟩).mem := by
  unfold multiplyBody diffusionAt
  rw [exec_fetch_mem (hin _).1, exec_fetch_mem (hin _).2.2, exec_fetch_mem (hin _).2.2, exec_fetch_mem (hin _).2.1]
  rw [exec_fetch_mem (hin _).2.1, exec_fetch_mem (hin _).1, exec_fetch_mem (hin _).2.2, exec_fetch_mem (hin _).2.1]
  rw [exec_addTo (hin _).1]
  rfl

/-- The volumes have the size `n`. -/
def Sized (n : I3) (s : Dev N) : Prop := (∀ a, (s.vol a).inb = inSize n) ∧ ∀ j, (s.dd j).inb = inFlat n

theorem dir_x_nonneg (d : Nat) : 0 ≤ (I3.dir d).x := by simp only [I3.dir]; split_ifs <;> simp

theorem near {d : Nat} {n q : I3} (hq : q ∈ box (I3.dir d) (n - I3.dir d)) :
    inSize n q = true ∧ inSize n (q - I3.dir d) = true ∧ inSize n (q + I3.dir d) = true := by
  simp only [mem_box, inSize_iff, I3.sub_x, I3.sub_y, I3.sub_z, I3.add_x, I3.add_y, I3.add_z, I3.dir] at hq ⊢
  split_ifs at hq ⊢ <;> simp at hq ⊢ <;> omega

/-- The second kernel in any interleaving. -/
theorem multiply_ok (eq : Equation N) (k : Kind) (d : Nat) {n : I3} {s : Dev N} (hs : Sized n s) :
    ∃ s' : Dev N, yields (multiplyLaunch eq k d n) s.mem s'.mem ∧ Sized n s' ∧ s'.dd = s.dd ∧ (∀ a, a ≠ .output → s'.vol a = s.vol a) ∧
      (∀ q, q ∉ box (I3.dir d) (n - I3.dir d) → (s'.vol .output).val q = (s.vol .output).val q) ∧
      ∀ q ∈ box (I3.dir d) (n - I3.dir d), (s'.vol .output).val q = (s.vol .output).val q +
        (cardFace eq k d (s.vol .conserved).val (s.vol .left).val (s.vol .right).val q q (q + I3.dir d) -
          cardFace eq k d (s.vol .conserved).val (s.vol .left).val (s.vol .right).val q (q - I3.dir d) q) := by
  have key : ∀ (cells : List I3), cells.Nodup → (∀ q ∈ cells, q ∈ box (I3.dir d) (n - I3.dir d)) → ∀ t : Dev N, Sized n t → (∀ a, a ≠ .output → t.vol a = s.vol a) → t.dd = s.dd →
      ∃ t' : Dev N, cells.foldlM (fun m c => (multiplyBody eq k d c).exec m) t.mem = .ok t'.mem ∧ Sized n t' ∧ t'.dd = s.dd ∧ (∀ a, a ≠ .output → t'.vol a = s.vol a) ∧
        (∀ q, q ∉ cells → (t'.vol .output).val q = (t.vol .output).val q) ∧
        ∀ q ∈ cells, (t'.vol .output).val q = (t.vol .output).val q +
          (cardFace eq k d (s.vol .conserved).val (s.vol .left).val (s.vol .right).val q q (q + I3.dir d) -
            cardFace eq k d (s.vol .conserved).val (s.vol .left).val (s.vol .right).val q (q - I3.dir d) q) := by
    intro cells
    induction cells with
    | nil => intro _ _ t h1 h2 h3; exact ⟨t, rfl, h1, h3, h2, fun _ _ => rfl, by simp⟩
    | cons q qs ih =>
      intro hnd hmem t h1 h2 h3
      have hin := near (hmem q (by simp))
      have e := exec_multiply eq k d q (s := t) (fun a => by rw [h1.1 a]; exact hin)
      rw [h2 .conserved (by decide), h2 .left (by decide), h2 .right (by decide)] at e
      obtain ⟨t1, ht1⟩ : ∃ t1, t1 = t.setVol .output ⟨(t.vol .output).inb, Function.update (t.vol .output).val q ((t.vol .output).val q +
          (cardFace eq k d (s.vol .conserved).val (s.vol .left).val (s.vol .right).val q q (q + I3.dir d) -
            cardFace eq k d (s.vol .conserved).val (s.vol .left).val (s.vol .right).val q (q - I3.dir d) q))⟩ := ⟨_, rfl⟩
      rw [← ht1] at e
      have f1 : Sized n t1 := by
        subst ht1
        refine ⟨fun a => ?_, h1.2⟩
        by_cases ha : a = .output
        · subst ha; rw [setVol_vol]; exact h1.1 _
        · rw [setVol_vol_ne _ ha]; exact h1.1 _
      have f2 : ∀ a, a ≠ .output → t1.vol a = s.vol a := fun a ha => by subst ht1; rw [setVol_vol_ne _ ha]; exact h2 a ha
      have f3 : t1.dd = s.dd := by subst ht1; exact h3
      obtain ⟨t', k1, k2, k3, k4, k5, k6⟩ := ih (List.nodup_cons.1 hnd).2 (fun p hp => hmem p (by simp [hp])) t1 f1 f2 f3
      subst ht1
      have hq := (List.nodup_cons.1 hnd).1
      simp only [setVol_vol] at k5 k6
      refine ⟨t', ?_, k2, k3, k4, fun p hp => ?_, fun p hp => ?_⟩
      · rw [List.foldlM_cons, e]; exact k1
      · rw [List.mem_cons, not_or] at hp
        rw [k5 p hp.2, Function.update_of_ne hp.1]
      · rcases List.mem_cons.1 hp with rfl | hp
        · rw [k5 p hq, Function.update_self]
        · rw [k6 p hp, Function.update_of_ne (fun e : p = q => hq (e ▸ hp))]
  obtain ⟨s', k1, k2, k3, k4, k5, k6⟩ := key _ (nodup_box _ _) (fun q hq => hq) s hs (fun _ _ => rfl) rfl
  refine ⟨s', yields_box_loop (dir_x_nonneg d) (by decide) (fun c _ => uses_multiply eq k d c) ?_ k1, k2, k3, k4, k5, k6⟩
  rintro c _ c' _ hne l ⟨v, rfl⟩ (⟨v', c'', h⟩ | ⟨v', h⟩)
  · simp at h
  · simp only [Loc.cell.injEq, true_and] at h; exact hne h.2

/-! ### The reconstructions -/

/-- The state of the CPU reconstruction in the memory of the card. -/
def put (s : Dev N) (t : TecnoEno.State N) : Dev N := ⟨Function.update (Function.update s.vol .left t.left) .right t.right, t.dd⟩

theorem put_vol (s : Dev N) (t : TecnoEno.State N) {a : Area} (h1 : a ≠ .left) (h2 : a ≠ .right) : (put s t).vol a = s.vol a := by
  simp [put, Function.update_of_ne h1, Function.update_of_ne h2]

theorem put_left (s : Dev N) (t : TecnoEno.State N) : (put s t).vol .left = t.left := by simp [put]

theorem put_right (s : Dev N) (t : TecnoEno.State N) : (put s t).vol .right = t.right := by simp [put]

theorem put_setDD (s : Dev N) (t : TecnoEno.State N) (j : Nat) (a : Arr Int ℝ) : (put s t).setDD j a = put s { t with dd := Function.update t.dd j a } := rfl

theorem put_self (s : Dev N) : put s ⟨s.dd, s.vol .left, s.vol .right⟩ = s := by
  rcases s with ⟨vol, dd⟩
  simp only [put, Dev.mk.injEq, and_true]
  rw [Function.update_eq_self, Function.update_eq_self]

/-- One kernel of divided differences. -/
theorem dd_ok {d : Nat} (hd : d < 3) {n : I3} {level : Nat} (hl : 1 ≤ level) {srcL srcR : I3 → Loc N} {rdL rdR : I3 → Res ℝ} {j : Nat} {s : Dev N} {o : Arr Int ℝ}
    (hL : ∀ q x, rdL q = .ok x → ∀ a, (s.setDD j a).mem.inb (srcL q) = true ∧ (s.setDD j a).mem.val (srcL q) = x)
    (hR : ∀ q x, rdR q = .ok x → ∀ a, (s.setDD j a).mem.inb (srcR q) = true ∧ (s.setDD j a).mem.val (srcR q) = x)
    (nL : ∀ q i, srcL q ≠ .dd j i) (nR : ∀ q i, srcR q ≠ .dd j i)
    (h : ddLoop d n level rdL rdR (s.dd j) = .ok o) : yields (ddLaunch d n level srcL srcR j) s.mem (s.setDD j o).mem := by
  have hin : ∀ q ∈ box (step d level) (n - step d level), inSize n (q - I3.dir d) = true := by
    intro q hq
    have hq' := (main_get hd).1 hq
    rw [Diffusion.inSize_get]; intro e he; have := hq' e he; rw [get_sub_dir hd q he]; split_ifs at * <;> omega
  refine yields_grid_loop (hi := n - step d level) (R := fun q l => l = srcL q ∨ l = srcR (q - I3.dir d)) (W := fun q l => l = .dd j (idx n (q - I3.dir d))) ?_ (by decide) ?_ ?_ ?_
  · ext <;> simp
  · intro q _
    exact .read (Or.inl (Or.inl rfl)) fun _ => .read (Or.inl (Or.inr rfl)) fun _ => .write rfl .done
  · rintro c hc c' hc' hne l rfl (h | h)
    · rcases h with h | h
      · exact nL _ _ h.symm
      · exact nR _ _ h.symm
    · simp only [Loc.dd.injEq, true_and] at h
      have := idx_inj (hin c hc) (hin c' hc') h
      apply hne
      have e : ∀ q : I3, q - I3.dir d + I3.dir d = q := fun q => by ext <;> simp
      rw [← e c, ← e c', this]
  · have e0 : s.mem = (s.setDD j (s.dd j)).mem := by unfold Dev.setDD; rw [Function.update_eq_self]
    rw [e0]
    refine foldlM_sim (fun a => (s.setDD j a).mem) _ _ _ ?_ _ _ h
    intro a q _ a' ha
    obtain ⟨x, hx, hw⟩ := bind_ok ha
    obtain ⟨y, hy, hx⟩ := bind_ok hx
    obtain ⟨z, hz, hx⟩ := bind_ok hx
    cases hx
    obtain ⟨w1, rfl⟩ := wr_inv hw
    obtain ⟨a1, a2⟩ := hL q y hy a
    obtain ⟨b1, b2⟩ := hR _ z hz a
    have w2 : (s.setDD j a).mem.inb (.dd j (idx n (q - I3.dir d))) = true := by simp [Dev.setDD, Dev.mem]; exact w1
    simp only [ddBody]
    rw [exec_read_ok a1, exec_read_ok b1, exec_write_ok w2, mem_setDD, a2, b2]
    simp [Dev.setDD, Prog.exec]

/-- All divided differences. -/
theorem allDD_yields {k d : Nat} (hd : d < 3) {n : I3} (v : Fin N) {s : Dev N} {t : TecnoEno.State N} {dd : Nat → Arr Int ℝ}
    (h : allDD k d n (Eno.comp v (s.vol .entL)) (Eno.comp v (s.vol .entR)) t.dd = .ok dd) :
    yieldsAll (ddLaunch d n 1 (.cell .entL v) (.cell .entR v) 0 ::
      ((List.range' 1 (k - 2)).map fun i => ddLaunch d n (i + 1) (fun q => .dd (i - 1) (idx n q)) (fun q => .dd (i - 1) (idx n q)) i))
      (put s t).mem (put s { t with dd := dd }).mem := by
  unfold allDD at h
  obtain ⟨a, ha, h⟩ := bind_ok h
  have src : ∀ (b : Area), b ≠ .left → b ≠ .right → ∀ q x, (Eno.comp v (s.vol b)).rd q = .ok x → ∀ a, ((put s t).setDD 0 a).mem.inb (.cell b v q) = true ∧
      ((put s t).setDD 0 a).mem.val (.cell b v q) = x := by
    intro b b1 b2 q x hx a
    obtain ⟨h1, h2⟩ := rd_inv hx
    rw [put_setDD]
    simp only [Dev.mem, put_vol s _ b1 b2]
    exact ⟨h1, h2.symm⟩
  refine ⟨_, dd_ok hd le_rfl (src .entL (by decide) (by decide)) (src .entR (by decide) (by decide)) (by simp) (by simp) ha, ?_⟩
  rw [put_setDD]
  clear ha src
  have key : ∀ (ls : List Nat), (∀ i ∈ ls, 1 ≤ i) → ∀ e : Nat → Arr Int ℝ,
      ls.foldlM (fun dd i => do
        let a ← ddLoop d n (i + 1) (fun q => (dd (i - 1)).rd (idx n q)) (fun q => (dd (i - 1)).rd (idx n q)) (dd i)
        pure (Function.update dd i a)) e = .ok dd →
      yieldsAll (ls.map fun i => ddLaunch d n (i + 1) (fun q => .dd (i - 1) (idx n q)) (fun q => .dd (i - 1) (idx n q)) i)
        (put s { t with dd := e }).mem (put s { t with dd := dd }).mem := by
    intro ls
    induction ls with
    | nil => intro _ e he; cases he; rfl
    | cons i is ih =>
      intro hi e he
      rw [List.foldlM_cons] at he
      obtain ⟨e1, h1, h2⟩ := bind_ok he
      obtain ⟨a, ha, h1⟩ := bind_ok h1
      cases h1
      have i1 := hi i (by simp)
      have hne : i - 1 ≠ i := by omega
      have src : ∀ q x, (e (i - 1)).rd (idx n q) = .ok x → ∀ a, ((put s { t with dd := e }).setDD i a).mem.inb (.dd (i - 1) (idx n q)) = true ∧
          ((put s { t with dd := e }).setDD i a).mem.val (.dd (i - 1) (idx n q)) = x := by
        intro q x hx a
        obtain ⟨h1, h2⟩ := rd_inv hx
        simp only [Dev.mem, Dev.setDD, put, Function.update_of_ne hne]
        exact ⟨h1, h2.symm⟩
      refine ⟨_, dd_ok hd (by omega) src src (by intro q l; simp [hne]) (by intro q l; simp [hne]) ha, ?_⟩
      rw [put_setDD]
      exact ih (fun j hj => hi j (by simp [hj])) _ h2
  exact key _ (fun i hi => by rw [List.mem_range'_1] at hi; omega) _ h

theorem exec_select {d : Nat} {n q : I3} {s : Dev N} {kont : Nat → Prog (Loc N) ℝ} (ls : List Nat) : ∀ a b : Nat,
    ls.foldlM (fun (s' : Nat) level => do
      let r ← (s.dd level).rd (idx n q)
      let l ← (s.dd level).rd (idx n (q - I3.dir d))
      pure (if |l| < |r| then s' + 1 else s')) a = .ok b →
    (select d n q ls a kont).exec s.mem = (kont b).exec s.mem := by
  induction ls with
  | nil => intro a b h; cases h; rfl
  | cons l ls ih =>
    intro a b h
    rw [List.foldlM_cons] at h
    obtain ⟨a1, h1, h2⟩ := bind_ok h
    obtain ⟨r, hr, h1⟩ := bind_ok h1
    obtain ⟨x, hx, h1⟩ := bind_ok h1
    cases h1
    obtain ⟨r1, rfl⟩ := rd_inv hr
    obtain ⟨x1, rfl⟩ := rd_inv hx
    rw [select, exec_read_ok (by exact r1), exec_read_ok (by exact x1)]
    exact ih _ _ h2

theorem mapM_rd_inv {ι : Type} (a : Arr Int ℝ) (f : ι → Int) (l : List ι) : ∀ {xs : List ℝ}, (l.mapM fun o => a.rd (f o)) = .ok xs →
    (∀ o ∈ l, a.inb (f o) = true) ∧ xs = l.map fun o => a.val (f o) := by
  induction l with
  | nil => intro xs h; cases h; simp
  | cons o l ih =>
    intro xs h
    rw [List.mapM_cons] at h
    obtain ⟨x, hx, h⟩ := bind_ok h
    obtain ⟨ys, hy, h⟩ := bind_ok h
    cases h
    obtain ⟨h1, rfl⟩ := rd_inv hx
    obtain ⟨h2, rfl⟩ := ih hy
    exact ⟨by simpa [h1] using h2, rfl⟩

theorem row_inv {k r : Nat} {l : List ℝ} (h : Eno.row k r = .ok l) : (Eno.table k).getD r [] = l := by
  unfold Eno.row at h
  rw [List.getD_eq_getElem?_getD]
  cases e : (Eno.table k)[r]? with
  | none => rw [e] at h; cases h
  | some x => rw [e] at h; cases h; rfl

theorem uses_eno (k d : Nat) (n : I3) (v : Fin N) (q : I3) :
    Uses (fun l => (∃ j i, l = .dd j i) ∨ ∃ c, l = .cell .entL v c ∨ l = .cell .entR v c) (fun l => l = .cell .left v q ∨ l = .cell .right v q) (enoBody k d n v q) := by
  unfold enoBody
  generalize List.range (k - 1) = ls
  have hsel : ∀ (l1 : List Nat) (a : Nat) (kont : Nat → Prog (Loc N) ℝ),
      (∀ b, Uses (fun l => (∃ j i, l = .dd j i) ∨ ∃ c, l = .cell .entL v c ∨ l = .cell .entR v c) (fun l => l = .cell .left v q ∨ l = .cell .right v q) (kont b)) →
      Uses (fun l => (∃ j i, l = .dd j i) ∨ ∃ c, l = .cell .entL v c ∨ l = .cell .entR v c) (fun l => l = .cell .left v q ∨ l = .cell .right v q) (select d n q l1 a kont) := by
    intro l1
    induction l1 with
    | nil => intro a kont h; exact h a
    | cons l l1 ih =>
      intro a kont h
      exact .read (Or.inl (Or.inl ⟨_, _, rfl⟩)) fun _ => .read (Or.inl (Or.inl ⟨_, _, rfl⟩)) fun _ => ih _ _ h
  refine hsel _ _ _ fun b => .read (Or.inl (Or.inr ⟨q, Or.inl rfl⟩)) fun c => uses_readList _ ?_ fun rs => uses_readList _ ?_ fun ls =>
    .write (Or.inl rfl) (.read (Or.inl (Or.inr ⟨q, Or.inr rfl⟩)) fun _ => .write (Or.inr rfl) .done)
  · intro l hl
    obtain ⟨i, -, rfl⟩ := List.mem_map.1 hl
    exact Or.inl ⟨_, _, rfl⟩
  · intro l hl
    obtain ⟨i, -, rfl⟩ := List.mem_map.1 hl
    exact Or.inl ⟨_, _, rfl⟩

theorem step_x_nonneg (d : Nat) {a : Int} (ha : 0 ≤ a) : 0 ≤ (step d a).x := by simp only [step]; split_ifs <;> simp [ha]

/-- The last kernel of a variable. -/
theorem eno_yields {k d : Nat} (hk : 1 ≤ k) {n : I3} (v : Fin N) {s : Dev N} {t : TecnoEno.State N} {lr : Arr I3 (Vec N) × Arr I3 (Vec N)}
    (h : (box (step d (k - 1)) (n - step d (k - 1))).foldlM (fun (lr : Arr I3 (Vec N) × Arr I3 (Vec N)) q => do
      let x ← cell k d n (Eno.comp v (s.vol .entL)) (Eno.comp v (s.vol .entR)) t.dd q
      let l ← wrComp lr.1 v q x.1
      let r ← wrComp lr.2 v q x.2
      pure (l, r)) (t.left, t.right) = .ok lr) :
    yields (enoLaunch k d n v) (put s t).mem (put s ⟨t.dd, lr.1, lr.2⟩).mem := by
  refine yields_box_loop (step_x_nonneg d (by omega)) (by decide) (fun q _ => uses_eno k d n v q) ?_ ?_
  · rintro c _ c' _ hne l (rfl | rfl) ((⟨j, i, h⟩ | ⟨p, h⟩) | h)
    · cases h
    · simp at h
    · simp at h; exact hne h
    · cases h
    · simp at h
    · simp at h; exact hne h
  · refine foldlM_sim (fun lr : Arr I3 (Vec N) × Arr I3 (Vec N) => (put s ⟨t.dd, lr.1, lr.2⟩).mem) _ _ _ ?_ _ _ h
    rintro ⟨l, r⟩ q _ lr' hh
    obtain ⟨x, hx, hh⟩ := bind_ok hh
    obtain ⟨l', hl', hh⟩ := bind_ok hh
    obtain ⟨r', hr', hh⟩ := bind_ok hh
    cases hh
    unfold cell at hx
    obtain ⟨shift, h1, hx⟩ := bind_ok hx
    obtain ⟨cr, h2, hx⟩ := bind_ok hx
    obtain ⟨cl, h3, hx⟩ := bind_ok hx
    obtain ⟨c, h4, hx⟩ := bind_ok hx
    obtain ⟨rs, h5, hx⟩ := bind_ok hx
    obtain ⟨ls, h6, hx⟩ := bind_ok hx
    obtain ⟨y, h7, hx⟩ := bind_ok hx
    cases hx
    obtain ⟨c1, rfl⟩ := rd_inv h4
    obtain ⟨y1, rfl⟩ := rd_inv h7
    obtain ⟨rs1, rfl⟩ := mapM_rd_inv _ _ _ h5
    obtain ⟨ls1, rfl⟩ := mapM_rd_inv _ _ _ h6
    obtain ⟨l1, rfl⟩ := wr_inv hl'
    obtain ⟨r1, rfl⟩ := wr_inv hr'
    have e2 := row_inv h2
    have e3 := row_inv h3
    subst e2 e3
    have ent : ∀ (b : Area), b ≠ .left → b ≠ .right → ∀ t' : TecnoEno.State N, (put s t').vol b = s.vol b := fun b b1 b2 t' => put_vol s t' b1 b2
    unfold enoBody
    rw [exec_select (s := put s ⟨t.dd, l, r⟩) _ _ _ h1]
    rw [exec_read_ok (by simp only [Dev.mem, ent .entL (by decide) (by decide)]; exact c1)]
    rw [exec_readList _ (by
      intro p hp
      obtain ⟨i, hi, rfl⟩ := List.mem_map.1 hp
      exact rs1 i hi)]
    rw [exec_readList _ (by
      intro p hp
      obtain ⟨i, hi, rfl⟩ := List.mem_map.1 hp
      exact ls1 i hi)]
    rw [exec_write_ok (by simp only [Dev.mem, put_left]; exact l1), mem_setVol, put_left]
    have e4 : ∀ a, (put s ⟨t.dd, l, r⟩).setVol .left a = put s ⟨t.dd, a, r⟩ := by
      intro a
      simp only [put, Dev.setVol, Dev.mk.injEq, and_true]
      rw [Function.update_comm (by decide), Function.update_idem]
    rw [e4]
    rw [exec_read_ok (by simp only [Dev.mem, ent .entR (by decide) (by decide)]; exact y1)]
    rw [exec_write_ok (by simp only [Dev.mem, put_right]; exact r1), mem_setVol, put_right]
    have e5 : ∀ l a, (put s ⟨t.dd, l, r⟩).setVol .right a = put s ⟨t.dd, l, a⟩ := by
      intro l a
      simp only [put, Dev.setVol, Dev.mk.injEq, and_true]
      rw [Function.update_idem]
    rw [e5]
    simp only [Prog.exec, List.map_map, Dev.mem, ent .entL (by decide) (by decide), ent .entR (by decide) (by decide)]
    rfl

/-- One variable. -/
theorem variable_yields {k d : Nat} (hd : d < 3) (hk : 1 ≤ k) {n : I3} (v : Fin N) {s : Dev N} {t t' : TecnoEno.State N}
    (h : variable_ k d n (s.vol .entL) (s.vol .entR) t v = .ok t') : yieldsAll (enoVariable k d n v) (put s t).mem (put s t').mem := by
  unfold variable_ at h
  obtain ⟨dd, h1, h⟩ := bind_ok h
  obtain ⟨lr, h2, h⟩ := bind_ok h
  cases h
  refine yieldsAll_append (allDD_yields hd v h1) ⟨_, eno_yields (t := { t with dd := dd }) hk v h2, rfl⟩

/-- All variables. -/
theorem variables_yield {k d : Nat} (hd : d < 3) (hk : 1 ≤ k) {n : I3} {s : Dev N} (vs : List (Fin N)) : ∀ {t t' : TecnoEno.State N},
    vs.foldlM (variable_ k d n (s.vol .entL) (s.vol .entR)) t = .ok t' → yieldsAll (vs.flatMap (enoVariable k d n)) (put s t).mem (put s t').mem := by
  induction vs with
  | nil => intro t t' h; cases h; rfl
  | cons v vs ih =>
    intro t t' h
    rw [List.foldlM_cons] at h
    obtain ⟨t1, h1, h2⟩ := bind_ok h
    exact yieldsAll_append (variable_yields hd hk v h1) (ih h2)

/-! ### The copies of the reconstruction `none` -/

/-- The variables `vs` of `a` copied to `b`. -/
def copied (n : I3) (vs : List (Fin N)) (a b : Arr I3 (Vec N)) : Arr I3 (Vec N) :=
  ⟨b.inb, fun q w => if w ∈ vs ∧ q ∈ box 0 n then a.val q w else b.val q w⟩

theorem copy_yields {n : I3} {src dst : Area} (hne : src ≠ dst) (v : Fin N) {s : Dev N} (hs : Sized n s) :
    yields (copyLaunch n src dst v) s.mem (s.setVol dst (copied n [v] (s.vol src) (s.vol dst))).mem := by
  have hin : ∀ {q : I3}, q ∈ box 0 n → ∀ a, (s.vol a).inb q = true := fun hq a => by
    rw [hs.1 a, inSize_iff]; rw [mem_box] at hq; simpa [and_assoc] using hq
  refine yields_grid (hi := n) (touch := fun q l => l = .cell dst v q) (F := fun l => match l with
    | .cell _ _ q => (s.vol src).val q v
    | .dd _ _ => 0) ?_ (by decide) ?_ ?_ ?_ ?_
  · ext <;> simp
  · intro q hq
    refine .readOld (hin hq src) (by simp) ?_ (.write (hin hq dst) rfl rfl (.done ?_))
    · rintro c' _ h; simp [hne] at h
    · intro l hl; exact Or.inr hl
  · funext l
    rcases l with ⟨b, w, p⟩ | ⟨j, i⟩
    · by_cases e : b = dst
      · subst e; simp [Dev.mem, Dev.setVol, copied]
      · simp [Dev.mem, Dev.setVol, Function.update_of_ne e]
    · rfl
  · rintro c hc l rfl
    simp [Dev.mem, Dev.setVol, copied, hc, -mem_box]
  · intro l hl
    rcases l with ⟨b, w, p⟩ | ⟨j, i⟩
    · by_cases e : b = dst
      · subst e
        simp only [Dev.mem, Dev.setVol, copied, Function.update_self, List.mem_singleton]
        rw [if_neg]
        rintro ⟨rfl, hp⟩
        exact hl p hp rfl
      · simp [Dev.mem, Dev.setVol, Function.update_of_ne e]
    · rfl

theorem copied_cons (n : I3) (v : Fin N) (vs : List (Fin N)) (a b : Arr I3 (Vec N)) : copied n vs a (copied n [v] a b) = copied n (v :: vs) a b := by
  simp only [copied, Arr.mk.injEq, true_and]
  funext q w
  by_cases h1 : w ∈ vs <;> by_cases h2 : w = v <;> by_cases h3 : q ∈ box 0 n <;> simp [h1, h2, h3]

theorem sized_setVol {n : I3} {s : Dev N} (hs : Sized n s) (a : Area) {x : Arr I3 (Vec N)} (hx : x.inb = inSize n) : Sized n (s.setVol a x) := by
  refine ⟨fun b => ?_, hs.2⟩
  by_cases e : b = a
  · subst e; rw [setVol_vol]; exact hx
  · rw [setVol_vol_ne _ e]; exact hs.1 b

theorem none_yields_list {n : I3} (vs : List (Fin N)) : ∀ {s : Dev N}, Sized n s →
    yieldsAll (vs.flatMap fun v => [copyLaunch n .entL .left v, copyLaunch n .entR .right v]) s.mem
      ((s.setVol .left (copied n vs (s.vol .entL) (s.vol .left))).setVol .right (copied n vs (s.vol .entR) (s.vol .right))).mem := by
  induction vs with
  | nil =>
    intro s _
    have : ∀ a b : Arr I3 (Vec N), copied n [] a b = b := fun a b => by simp [copied]
    rw [this, this, setVol_self]
    have e : s.setVol .right (s.vol .right) = s := setVol_self _ _
    exact congrArg Dev.mem e
  | cons v vs ih =>
    intro s hs
    have h1 := copy_yields (n := n) (src := .entL) (dst := .left) (by decide) v hs
    have hs1 := sized_setVol hs .left (x := copied n [v] (s.vol .entL) (s.vol .left)) (hs.1 .left)
    have h2 := copy_yields (n := n) (src := .entR) (dst := .right) (by decide) v hs1
    have hs2 := sized_setVol hs1 .right (x := copied n [v] ((s.setVol .left (copied n [v] (s.vol .entL) (s.vol .left))).vol .entR)
      ((s.setVol .left (copied n [v] (s.vol .entL) (s.vol .left))).vol .right)) (hs1.1 .right)
    have h3 := ih hs2
    refine ⟨_, h1, _, h2, ?_⟩
    convert h3 using 2
    · rfl
    simp only [setVol_vol_ne _ (show Area.entR ≠ .left by decide), setVol_vol_ne _ (show Area.right ≠ .left by decide), setVol_vol, setVol_vol_ne _ (show Area.entL ≠ .right by decide),
      setVol_vol_ne _ (show Area.left ≠ .right by decide), setVol_vol_ne _ (show Area.entL ≠ .left by decide), setVol_vol_ne _ (show Area.entR ≠ .right by decide), copied_cons]
    simp only [Dev.setVol, Dev.mk.injEq, and_true]
    funext a
    cases a <;> simp [Function.update]

theorem none_yields {n : I3} (d : Nat) {s : Dev N} (hs : Sized n s) :
    ∃ s' : Dev N, yieldsAll (none n d) s.mem s'.mem ∧ Sized n s' ∧ s'.dd = s.dd ∧ (∀ a, a ≠ .left → a ≠ .right → s'.vol a = s.vol a) ∧
      ∀ q, inSize n q = true → (s'.vol .left).val q = (s.vol .entL).val q ∧ (s'.vol .right).val q = (s.vol .entR).val q := by
  refine ⟨_, none_yields_list _ hs, sized_setVol (sized_setVol hs _ (x := copied n _ _ _) (hs.1 .left)) _ (x := copied n _ _ _) (hs.1 .right), rfl, fun a a1 a2 => ?_, fun q hq => ?_⟩
  · rw [setVol_vol_ne _ a2, setVol_vol_ne _ a1]
  · have hm : q ∈ box 0 n := by rw [inSize_iff] at hq; rw [mem_box]; simpa [and_assoc] using hq
    rw [setVol_vol, setVol_vol_ne _ (by decide), setVol_vol]
    constructor <;> · funext w; simp [copied, hm, -mem_box]

/-! ### The first kernel -/

theorem cellFits_readVec {cells : I3 → Prop} {touch : I3 → Loc N → Prop} {m : Arr (Loc N) ℝ} {F : Loc N → ℝ} {c : I3} {S : Loc N → Prop} {a : Area} {p : I3}
    {k : Vec N → Prog (Loc N) ℝ} (hin : ∀ v, m.inb (.cell a v p) = true) (hS : ∀ v, ¬ S (.cell a v p)) (hno : ∀ v c', cells c' → ¬ touch c' (.cell a v p))
    (vs : List (Fin N)) : ∀ w : Vec N, CellFits cells touch m F c S (k fun v => if v ∈ vs then m.val (.cell a v p) else w v) → CellFits cells touch m F c S (readVec a p vs w k) := by
  induction vs with
  | nil => intro w h; simpa [readVec] using h
  | cons v vs ih =>
    intro w h
    refine .readOld (hin v) (hS v) (fun c' h1 h2 => absurd h2 (hno v c' h1)) (ih _ ?_)
    convert h using 2
    funext u
    by_cases hu : u ∈ vs
    · simp [hu]
    · by_cases e : u = v
      · subst e; simp [hu]
      · simp [hu, e]

theorem cellFits_fetch {cells : I3 → Prop} {touch : I3 → Loc N → Prop} {m : Arr (Loc N) ℝ} {F : Loc N → ℝ} {c : I3} {S : Loc N → Prop} {a : Area} {p : I3}
    {k : Vec N → Prog (Loc N) ℝ} (hin : ∀ v, m.inb (.cell a v p) = true) (hS : ∀ v, ¬ S (.cell a v p)) (hno : ∀ v c', cells c' → ¬ touch c' (.cell a v p))
    (h : CellFits cells touch m F c S (k fun v => m.val (.cell a v p))) : CellFits cells touch m F c S (fetch a p k) := by
  refine cellFits_readVec hin hS hno _ _ ?_
  simpa using h

theorem cellFits_writeVec {cells : I3 → Prop} {touch : I3 → Loc N → Prop} {m : Arr (Loc N) ℝ} {F : Loc N → ℝ} {c : I3} {a : Area} {p : I3} {w : Vec N}
    {k : Prog (Loc N) ℝ} (hin : ∀ v, m.inb (.cell a v p) = true) (ht : ∀ v, touch c (.cell a v p)) (hF : ∀ v, w v = F (.cell a v p))
    (vs : List (Fin N)) : ∀ S : Loc N → Prop, CellFits cells touch m F c (fun l => S l ∨ ∃ v ∈ vs, l = .cell a v p) k → CellFits cells touch m F c S (writeVec a p w vs k) := by
  induction vs with
  | nil => intro S h; simpa [writeVec] using h
  | cons v vs ih =>
    intro S h
    refine .write (hin v) (ht v) (hF v) (ih _ ?_)
    convert h using 2
    simp only [List.mem_cons, exists_eq_or_imp, or_assoc]

theorem cellFits_store {cells : I3 → Prop} {touch : I3 → Loc N → Prop} {m : Arr (Loc N) ℝ} {F : Loc N → ℝ} {c : I3} {a : Area} {p : I3} {w : Vec N}
    {k : Prog (Loc N) ℝ} {S : Loc N → Prop} (hin : ∀ v, m.inb (.cell a v p) = true) (ht : ∀ v, touch c (.cell a v p)) (hF : ∀ v, w v = F (.cell a v p))
    (h : CellFits cells touch m F c (fun l => S l ∨ ∃ v, l = .cell a v p) k) : CellFits cells touch m F c S (store a p w k) := by
  refine cellFits_writeVec hin ht hF _ _ ?_
  simpa using h

/-- If the scaling does not depend on the state, the writes of different threads to the same cell agree. -/
theorem entropy_yields (eq : Equation N) (d : Nat) {w : Vec N → Vec N} (hw : ∀ ul um u, scaled eq d ul um u = w u) {n : I3} {s : Dev N} (hs : Sized n s) :
    ∃ s' : Dev N, yields (entropyLaunch eq d n) s.mem s'.mem ∧ Sized n s' ∧ s'.dd = s.dd ∧ (∀ a, a ≠ .entL → s'.vol a = s.vol a) ∧
      ∀ q, (q ∈ box (I3.dir d) (n - I3.dir d) ∨ q + I3.dir d ∈ box (I3.dir d) (n - I3.dir d)) → (s'.vol .entL).val q = w ((s.vol .conserved).val q) := by
  classical
  have back : ∀ q : I3, q - I3.dir d + I3.dir d = q := fun q => by ext <;> simp
  refine ⟨s.setVol .entL ⟨(s.vol .entL).inb, fun q => if q ∈ box (I3.dir d) (n - I3.dir d) ∨ q + I3.dir d ∈ box (I3.dir d) (n - I3.dir d) then w ((s.vol .conserved).val q) else
    (s.vol .entL).val q⟩, ?_, sized_setVol hs _ (hs.1 _), rfl, fun a ha => setVol_vol_ne _ ha _, fun q hq => ?_⟩
  · refine yields_box (touch := fun c l => ∃ v, l = .cell .entL v c ∨ l = .cell .entL v (c - I3.dir d)) (F := fun l => match l with
      | .cell _ v q => w ((s.vol .conserved).val q) v
      | .dd _ _ => 0) (dir_x_nonneg d) (by decide) ?_ ?_ ?_ ?_
    · intro c hc
      have hin := near hc
      have inb : ∀ a v p, inSize n p = true → s.mem.inb (.cell a v p) = true := fun a v p hp => by simp only [Dev.mem]; rw [hs.1 a]; exact hp
      refine cellFits_fetch (fun v => inb _ _ _ hin.1) (by simp) (by simp) (cellFits_fetch (fun v => inb _ _ _ hin.2.1) (by simp) (by simp) ?_)
      refine cellFits_store (fun v => inb _ _ _ hin.1) (fun v => ⟨v, Or.inl rfl⟩) (fun v => by rw [hw]; rfl) ?_
      refine cellFits_store (fun v => inb _ _ _ hin.2.1) (fun v => ⟨v, Or.inr rfl⟩) (fun v => by rw [hw]; rfl) (.done ?_)
      rintro l ⟨v, rfl | rfl⟩
      · exact Or.inl (Or.inr ⟨v, rfl⟩)
      · exact Or.inr ⟨v, rfl⟩
    · funext l
      rcases l with ⟨b, v, p⟩ | ⟨j, i⟩
      · by_cases e : b = .entL
        · subst e; simp [Dev.mem, Dev.setVol]
        · simp [Dev.mem, Dev.setVol, Function.update_of_ne e]
      · rfl
    · rintro c hc l ⟨v, rfl | rfl⟩
      · simp [Dev.mem, Dev.setVol, hc, -mem_box]
      · simp [Dev.mem, Dev.setVol, back, hc, -mem_box]
    · intro l hl
      rcases l with ⟨b, v, p⟩ | ⟨j, i⟩
      · by_cases e : b = .entL
        · subst e
          simp only [Dev.mem, Dev.setVol, Function.update_self]
          rw [if_neg]
          rintro (h | h)
          · exact hl p h ⟨v, Or.inl rfl⟩
          · refine hl _ h ⟨v, Or.inr ?_⟩
            congr 1
            ext <;> simp
        · simp [Dev.mem, Dev.setVol, Function.update_of_ne e]
      · rfl
  · rw [setVol_vol]; simp only; rw [if_pos hq]

/-- One thread of the first kernel. -/
theorem exec_entropy (eq : Equation N) (d : Nat) {q : I3} {s : Dev N} (h : ∀ a, (s.vol a).inb q = true ∧ (s.vol a).inb (q - I3.dir d) = true) :
    (entropyBody eq d .entL .entL q).exec s.mem = .ok (s.setVol .entL ⟨(s.vol .entL).inb, Function.update
      (Function.update (s.vol .entL).val q (scaled eq d ((s.vol .conserved).val (q - I3.dir d)) ((s.vol .conserved).val q) ((s.vol .conserved).val q)))
      (q - I3.dir d) (scaled eq d ((s.vol .conserved).val (q - I3.dir d)) ((s.vol .conserved).val q) ((s.vol .conserved).val (q - I3.dir d)))⟩).mem := by
  unfold entropyBody
  rw [exec_fetch_mem (h _).1, exec_fetch_mem (h _).2, exec_store (h _).1, exec_store (by rw [setVol_vol]; exact (h _).2), setVol_setVol, setVol_vol]
  rfl

/-! ### Outcomes in general -/

section
variable {L V : Type} [DecidableEq L]

/-- Any order of the cells is a possible outcome. -/
theorem mayYield_box {lo hi : I3} {blockSize : Nat} {body : I3 → Prog L V} {m m' : Arr L V} (hlo : 0 ≤ lo.x) (hb : 0 < blockSize) (cells : List I3) (hnd : cells.Nodup)
    (hc : ∀ c, c ∈ cells ↔ c ∈ box lo hi) (h : cells.foldlM (fun m c => (body c).exec m) m = .ok m') : mayYield (boxLaunch lo hi blockSize body) m m' := by
  refine mayYield_loop (cells.map (boxThread lo hi)) ?_ ?_ ?_ ?_
  · refine (List.nodup_map_iff_inj_on hnd).2 fun c h1 c' h2 e => ?_
    rw [← (boxThread_spec hlo ((hc c).1 h1)).2.1, ← (boxThread_spec hlo ((hc c').1 h2)).2.1, e]
  · intro i hi'
    obtain ⟨c, h1, rfl⟩ := List.mem_map.1 hi'
    exact lt_of_lt_of_le (boxThread_spec hlo ((hc c).1 h1)).1 (threadCount_ge hb)
  · intro i _ hi'
    have : ∀ c ∈ box lo hi, boxThread lo hi c ≠ i := fun c h1 e => hi' (List.mem_map.2 ⟨c, (hc c).2 h1, e⟩)
    simp only [boxLaunch, boxThread_other this]
    rfl
  · rw [List.foldlM_map]
    have key : ∀ (l : List I3), (∀ c ∈ l, c ∈ box lo hi) → ∀ m1 : Arr L V, l.foldlM (fun m c => ((boxLaunch lo hi blockSize body).kernel (boxThread lo hi c)).exec m) m1 =
        l.foldlM (fun m c => (body c).exec m) m1 := by
      intro l
      induction l with
      | nil => intro _ _; rfl
      | cons c l ih =>
        intro hl m1
        obtain ⟨-, h2, h3⟩ := boxThread_spec hlo (hl c (by simp))
        have e : (boxLaunch lo hi blockSize body).kernel (boxThread lo hi c) = body c := by simp only [boxLaunch, h2, if_neg h3]
        simp only [List.foldlM_cons, e]
        congr 1
        funext m2
        exact ih (fun c hc => hl c (by simp [hc])) m2
    rw [key cells (fun c h1 => (hc c).1 h1)]
    exact h

/-- Places no thread writes keep their values. -/
theorem mayYield_keeps {k : Launch L V} {W : L → Prop} {m m' : Arr L V} (hu : ∀ i < k.threads, Uses (fun _ => True) W (k.kernel i)) (h : mayYield k m m') :
    ∀ l, ¬ W l → m'.val l = m.val l := by
  obtain ⟨sch, h1, s, h2, -, rfl⟩ := h
  have key : ∀ (sch : List Nat), (∀ i ∈ sch, i < k.threads) → ∀ a b : Machine L V, (∀ i < k.threads, Uses (fun _ => True) W (a.threads i)) → Machine.run sch a = .ok b →
      ∀ l, ¬ W l → b.mem.val l = a.mem.val l := by
    intro sch
    induction sch with
    | nil => intro _ a b _ h l _; cases h; rfl
    | cons i is ih =>
      intro hi a b ha h l hl
      unfold Machine.run at h
      rw [List.foldlM_cons] at h
      obtain ⟨c, h3, h4⟩ := bind_ok h
      have hai := ha i (hi i (by simp))
      have hc : (∀ j < k.threads, Uses (fun _ => True) W (c.threads j)) ∧ c.mem.val l = a.mem.val l := by
        unfold Machine.step at h3
        cases e : a.threads i with
        | done => rw [e] at h3; cases h3; exact ⟨ha, rfl⟩
        | read p kk =>
          rw [e] at h3 hai
          obtain ⟨v, -, h5⟩ := bind_ok h3
          cases h5
          refine ⟨fun j hj => ?_, rfl⟩
          by_cases hji : j = i
          · subst hji
            simp only [Function.update_self]
            cases hai with
            | read _ hk => exact hk v
          · simp only [Function.update_of_ne hji]; exact ha j hj
        | write p v kk =>
          rw [e] at h3 hai
          obtain ⟨mm, h5, h6⟩ := bind_ok h3
          cases h6
          obtain ⟨-, rfl⟩ := wr_inv h5
          cases hai with
          | write hp hk =>
            refine ⟨fun j hj => ?_, ?_⟩
            · by_cases hji : j = i
              · subst hji; simp only [Function.update_self]; exact hk
              · simp only [Function.update_of_ne hji]; exact ha j hj
            · simp only
              rw [Function.update_of_ne]
              rintro rfl
              exact hl hp
      rw [ih (fun j hj => hi j (by simp [hj])) c b hc.1 h4 l hl, hc.2]
  exact key sch h1 _ _ hu h2

theorem mayYieldAll_keeps {W : L → Prop} {ks : List (Launch L V)} (hu : ∀ k ∈ ks, ∀ i < k.threads, Uses (fun _ => True) W (k.kernel i)) :
    ∀ {m m' : Arr L V}, mayYieldAll ks m m' → ∀ l, ¬ W l → m'.val l = m.val l := by
  induction ks with
  | nil => intro m m' h l _; cases h; rfl
  | cons k ks ih =>
    rintro m m' ⟨m1, h1, h2⟩ l hl
    rw [ih (fun k hk => hu k (by simp [hk])) h2 l hl, mayYield_keeps (hu k (by simp)) h1 l hl]

/-- What happens in every interleaving happens in some. -/
theorem yieldsAll_may {ks : List (Launch L V)} : ∀ {m m' : Arr L V}, yieldsAll ks m m' → mayYieldAll ks m m' := by
  induction ks with
  | nil => intro m m' h; exact h
  | cons k ks ih =>
    rintro m m' ⟨m1, h1, h2⟩
    obtain ⟨sch, a, s, b, c⟩ := h1.2.1
    exact ⟨m1, ⟨sch, a, s, b, c, h1.2.2 sch a s b c⟩, ih h2⟩

omit [DecidableEq L] in
theorem uses_boxLaunch {R W : L → Prop} {lo hi : I3} {blockSize : Nat} {body : I3 → Prog L V} (h : ∀ c, Uses R W (body c)) (i : Nat) :
    Uses R W ((boxLaunch lo hi blockSize body).kernel i) := by
  simp only [boxLaunch]
  split_ifs
  · exact .done
  · exact h _

omit [DecidableEq L] in
theorem uses_gridLaunch {R W : L → Prop} {count offset : I3} {blockSize : Nat} {body : Nat → I3 → Prog L V} (h : ∀ i c, Uses R W (body i c)) (i : Nat) :
    Uses R W ((gridLaunch count offset blockSize body).kernel i) := by
  simp only [gridLaunch]
  split_ifs
  · exact .done
  · exact h _ _

end

theorem uses_store {R W : Loc N → Prop} {a : Area} {c : I3} {w : Vec N} {k : Prog (Loc N) ℝ} (hW : ∀ v, W (.cell a v c)) (hk : Uses R W k) :
    Uses R W (store a c w k) := by
  unfold store
  generalize List.finRange N = vs
  induction vs with
  | nil => exact hk
  | cons v vs ih => exact .write (hW v) ih

/-- Everything but the right entropy variables. -/
def NotRight (l : Loc N) : Prop := ∀ v c, l ≠ .cell .entR v c

theorem operator_uses (eq : Equation N) (k : Kind) (rec : Nat → List (Launch (Loc N) ℝ)) (dims : Nat) (n : I3)
    (hrec : ∀ d, ∀ l ∈ rec d, ∀ i < l.threads, Uses (fun _ => True) NotRight (l.kernel i)) :
    ∀ l ∈ operator eq k rec dims n, ∀ i < l.threads, Uses (fun _ => True) (NotRight (N := N)) (l.kernel i) := by
  intro l hl i hi
  obtain ⟨d, -, hl⟩ := List.mem_flatMap.1 hl
  simp only [direction, List.mem_cons, List.mem_append, List.cons_append, List.not_mem_nil, or_false] at hl
  rcases hl with rfl | hl | rfl
  · refine uses_boxLaunch (fun c => ?_) i
    exact uses_fetch (fun _ => trivial) fun _ => uses_fetch (fun _ => trivial) fun _ => uses_store (fun v => by simp [NotRight]) (uses_store (fun v => by simp [NotRight]) .done)
  · exact hrec d l hl i hi
  · refine uses_boxLaunch (fun c => ?_) i
    exact (uses_multiply eq k d c).mono (fun _ _ => trivial) (by rintro l ⟨v, rfl⟩; simp [NotRight])

theorem none_uses (n : I3) (d : Nat) : ∀ l ∈ none (N := N) n d, ∀ i < l.threads, Uses (fun _ => True) NotRight (l.kernel i) := by
  intro l hl i _
  obtain ⟨v, -, hl⟩ := List.mem_flatMap.1 hl
  simp only [List.mem_cons, List.not_mem_nil, or_false] at hl
  rcases hl with rfl | rfl
  · exact uses_gridLaunch (fun _ _ => .read (Or.inl trivial) fun _ => .write (by simp [NotRight]) .done) i
  · exact uses_gridLaunch (fun _ _ => .read (Or.inl trivial) fun _ => .write (by simp [NotRight]) .done) i

theorem eno_uses (k : Nat) (n : I3) (d : Nat) : ∀ l ∈ eno (N := N) k n d, ∀ i < l.threads, Uses (fun _ => True) NotRight (l.kernel i) := by
  intro l hl i _
  obtain ⟨v, -, hl⟩ := List.mem_flatMap.1 hl
  have hdd : ∀ level (a b : I3 → Loc N) j, ∀ i, Uses (fun _ => True) NotRight ((ddLaunch d n level a b j).kernel i) := fun level a b j i =>
    uses_gridLaunch (fun _ _ => .read (Or.inl trivial) fun _ => .read (Or.inl trivial) fun _ => .write (by simp [NotRight]) .done) i
  simp only [enoVariable, List.mem_cons, List.mem_append, List.cons_append, List.not_mem_nil, or_false, List.mem_map] at hl
  rcases hl with rfl | ⟨j, -, rfl⟩ | rfl
  · exact hdd _ _ _ _ i
  · exact hdd _ _ _ _ i
  · refine uses_boxLaunch (fun c => ?_) i
    exact (uses_eno k d n v c).mono (fun _ _ => trivial) (by rintro l (rfl | rfl) <;> simp [NotRight])

/-! ### Burgers' equation -/

theorem burgers_mul (k : Kind) (lam v : Vec 1) : k.mul lam v = fun _ => |lam 0| * v 0 := by
  cases k <;> funext i <;> obtain rfl : i = 0 := Subsingleton.elim _ _ <;> simp [Kind.mul, List.finRange_succ]

theorem burgers_mulVec (d : Nat) (U v : Vec 1) : (burgers.eigMat d U).mulVec v = v := by
  funext i
  obtain rfl : i = 0 := Subsingleton.elim _ _
  simp [burgers, Matrix.mulVec, dotProduct]

theorem burgers_scaled (d : Nat) (ul um u : Vec 1) : scaled burgers d ul um u = fun _ => Flux.entropyVariable (u 0) := by
  funext i
  obtain rfl : i = 0 := Subsingleton.elim _ _
  simp [scaled, burgers, Matrix.mulVec, dotProduct, Matrix.transpose]

/-- What the card adds in one direction with the reconstruction `none`, for Burgers' equation: `u` are the conserved variables and `r` is what the volume of the right values contains. -/
noncomputable def burgersTerm (u r : I3 → Vec 1) (d : Nat) (q : I3) : ℝ :=
  0.5 * |0.5 * (u (q + I3.dir d) 0 + u (q - I3.dir d) 0)| *
    ((Flux.entropyVariable (u (q + I3.dir d) 0) - Flux.entropyVariable (u q 0)) + (r (q - I3.dir d) 0 - r q 0))

/-- One direction. -/
theorem burgers_direction (k : Kind) (d : Nat) {n : I3} {s : Dev 1} (hs : Sized n s) :
    ∃ s' : Dev 1, yieldsAll (direction burgers k (none n) n d) s.mem s'.mem ∧ Sized n s' ∧ s'.vol .conserved = s.vol .conserved ∧ s'.vol .entR = s.vol .entR ∧
      ∀ q, q ∈ box (I3.dir d) (n - I3.dir d) → q + I3.dir d ∈ box (I3.dir d) (n - I3.dir d) →
        (s'.vol .output).val q 0 = (s.vol .output).val q 0 + burgersTerm (s.vol .conserved).val (s.vol .entR).val d q := by
  obtain ⟨s1, a1, a2, -, a3, a4⟩ := entropy_yields burgers d (fun ul um u => burgers_scaled d ul um u) hs
  obtain ⟨s2, b1, b2, -, b3, b4⟩ := none_yields d a2
  obtain ⟨s3, c1, c2, -, c3, -, c4⟩ := multiply_ok burgers k d b2
  refine ⟨s3, ⟨_, a1, yieldsAll_append b1 ⟨_, c1, rfl⟩⟩, c2, ?_, ?_, fun q hq hq' => ?_⟩
  · rw [c3 _ (by decide), b3 _ (by decide) (by decide), a3 _ (by decide)]
  · rw [c3 _ (by decide), b3 _ (by decide) (by decide), a3 _ (by decide)]
  · obtain ⟨i1, i2, i3⟩ := near hq
    have h := congrFun (c4 q hq) 0
    rw [h]
    simp only [cardFace, burgers_mul, burgers_mulVec, Pi.add_apply, Pi.sub_apply, Pi.smul_apply, smul_eq_mul]
    rw [(b4 q i1).1, (b4 q i1).2, (b4 (q - I3.dir d) i2).2,
      (b4 (q + I3.dir d) (near hq').1).1, b3 .output (by decide) (by decide), b3 .conserved (by decide) (by decide), a3 .output (by decide),
      a3 .conserved (by decide), a3 .entR (by decide), a4 (q + I3.dir d) (Or.inl hq'), a4 q (Or.inl hq)]
    simp only [burgers, burgersTerm, Pi.add_apply, Pi.smul_apply, smul_eq_mul]
    ring

/-- All directions. -/
theorem burgers_operator (k : Kind) {n : I3} (dims : Nat) {s : Dev 1} (hs : Sized n s) :
    ∃ s' : Dev 1, yieldsAll (operator burgers k (none n) dims n) s.mem s'.mem ∧ Sized n s' ∧ s'.vol .conserved = s.vol .conserved ∧ s'.vol .entR = s.vol .entR ∧
      ∀ q, (∀ d < dims, q ∈ box (I3.dir d) (n - I3.dir d) ∧ q + I3.dir d ∈ box (I3.dir d) (n - I3.dir d)) →
        (s'.vol .output).val q 0 = (s.vol .output).val q 0 + ∑ d ∈ Finset.range dims, burgersTerm (s.vol .conserved).val (s.vol .entR).val d q := by
  induction dims with
  | zero => exact ⟨s, rfl, hs, rfl, rfl, fun q _ => by simp⟩
  | succ dims ih =>
    obtain ⟨s1, a1, a2, a3, a4, a5⟩ := ih
    obtain ⟨s2, b1, b2, b3, b4, b5⟩ := burgers_direction k dims a2
    refine ⟨s2, ?_, b2, b3.trans a3, b4.trans a4, fun q hq => ?_⟩
    · rw [operator, List.range_succ, List.flatMap_append]
      exact yieldsAll_append a1 (by simpa using b1)
    · rw [b5 q (hq _ (by omega)).1 (hq _ (by omega)).2, a5 q fun d hd => hq d (by omega), a3, a4, Finset.sum_range_succ, add_assoc]

/-- What the card adds with the reconstruction `none`. -/
theorem burgers_card (k : Kind) {m : Int} {s : Dev 1} (hs : Sized ⟨m, 1, 1⟩ s) :
    ∃ s' : Dev 1, yieldsAll (operator burgers k (none ⟨m, 1, 1⟩) 1 ⟨m, 1, 1⟩) s.mem s'.mem ∧ ∀ x : Int, 1 ≤ x → x + 2 < m →
      (s'.vol .output).val ⟨x, 0, 0⟩ 0 = (s.vol .output).val ⟨x, 0, 0⟩ 0 +
        0.5 * |0.5 * ((s.vol .conserved).val ⟨x + 1, 0, 0⟩ 0 + (s.vol .conserved).val ⟨x - 1, 0, 0⟩ 0)| *
          ((Flux.entropyVariable ((s.vol .conserved).val ⟨x + 1, 0, 0⟩ 0) - Flux.entropyVariable ((s.vol .conserved).val ⟨x, 0, 0⟩ 0)) +
            ((s.vol .entR).val ⟨x - 1, 0, 0⟩ 0 - (s.vol .entR).val ⟨x, 0, 0⟩ 0)) := by
  obtain ⟨s1, a1, a2, -, a3, a4⟩ := entropy_yields burgers 0 (fun ul um u => burgers_scaled 0 ul um u) hs
  obtain ⟨s2, b1, b2, -, b3, b4⟩ := none_yields 0 a2
  obtain ⟨s3, c1, -, -, -, -, c4⟩ := multiply_ok burgers k 0 b2
  refine ⟨s3, ?_, fun x hx1 hx2 => ?_⟩
  · simp only [operator, List.range_one, List.flatMap_cons, List.flatMap_nil, List.append_nil, direction]
    exact ⟨_, a1, yieldsAll_append b1 ⟨_, c1, rfl⟩⟩
  · have d0 : I3.dir 0 = ⟨1, 0, 0⟩ := rfl
    have pl : (⟨x, 0, 0⟩ : I3) + I3.dir 0 = ⟨x + 1, 0, 0⟩ := rfl
    have mi : (⟨x, 0, 0⟩ : I3) - I3.dir 0 = ⟨x - 1, 0, 0⟩ := rfl
    have mem : ∀ y : Int, 1 ≤ y → y + 1 < m → (⟨y, 0, 0⟩ : I3) ∈ box (I3.dir 0) (⟨m, 1, 1⟩ - I3.dir 0) := by
      intro y h1 h2; rw [mem_box, d0]; simp only [I3.sub_x, I3.sub_y, I3.sub_z]; omega
    have ins : ∀ y : Int, 0 ≤ y → y < m → inSize ⟨m, 1, 1⟩ (⟨y, 0, 0⟩ : I3) = true := by
      intro y h1 h2; rw [inSize_iff]; simp; omega
    have h := congrFun (c4 ⟨x, 0, 0⟩ (mem x hx1 (by omega))) 0
    rw [h, pl, mi]
    simp only [cardFace, burgers_mul, burgers_mulVec, pl, mi, Pi.add_apply, Pi.sub_apply, Pi.smul_apply, smul_eq_mul]
    rw [(b4 ⟨x, 0, 0⟩ (ins x (by omega) (by omega))).1, (b4 ⟨x, 0, 0⟩ (ins x (by omega) (by omega))).2, (b4 ⟨x - 1, 0, 0⟩ (ins _ (by omega) (by omega))).2,
      (b4 ⟨x + 1, 0, 0⟩ (ins _ (by omega) (by omega))).1, b3 .output (by decide) (by decide), b3 .conserved (by decide) (by decide), a3 .output (by decide),
      a3 .conserved (by decide), a3 .entR (by decide), a4 ⟨x + 1, 0, 0⟩ (Or.inl (mem _ (by omega) (by omega))), a4 ⟨x, 0, 0⟩ (Or.inl (mem _ (by omega) (by omega)))]
    simp only [burgers, Pi.add_apply, Pi.smul_apply, smul_eq_mul]
    ring

/-- What the processor adds. -/
theorem burgers_cpu (k : Kind) {m : Int} {u : I3 → Vec 1} {w : Diffusion.State 1} (hw : w.left.inb = inSize ⟨m, 1, 1⟩ ∧ w.right.inb = inSize ⟨m, 1, 1⟩ ∧
      w.entL.inb = inSize ⟨m, 1, 1⟩ ∧ w.entR.inb = inSize ⟨m, 1, 1⟩ ∧ w.out.inb = inSize ⟨m, 1, 1⟩) :
    ∃ t : Diffusion.State 1, applyDiffusion burgers k noRec 1 ⟨m, 1, 1⟩ (field ⟨m, 1, 1⟩ u) w = .ok t ∧ ∀ x : Int, 1 ≤ x → x + 2 < m →
      t.out.val ⟨x, 0, 0⟩ 0 = w.out.val ⟨x, 0, 0⟩ 0 +
        (0.5 * |0.5 * (u ⟨x + 1, 0, 0⟩ 0 + u ⟨x, 0, 0⟩ 0)| * (Flux.entropyVariable (u ⟨x + 1, 0, 0⟩ 0) - Flux.entropyVariable (u ⟨x, 0, 0⟩ 0)) -
          0.5 * |0.5 * (u ⟨x, 0, 0⟩ 0 + u ⟨x - 1, 0, 0⟩ 0)| * (Flux.entropyVariable (u ⟨x, 0, 0⟩ 0) - Flux.entropyVariable (u ⟨x - 1, 0, 0⟩ 0))) := by
  obtain ⟨w1, w2, w3, w4, w5⟩ := hw
  obtain ⟨e, a1, a2, a3, a4, -⟩ := scaleLoop_ok burgers (d := 0) (by decide) (n := ⟨m, 1, 1⟩) (u := field ⟨m, 1, 1⟩ u) rfl w3 w4
  obtain ⟨lr, b1, b2, b3, b4⟩ := noRec_ok (d := 0) a2 a3 w1 w2
  obtain ⟨o, c1, c2, c3⟩ := addLoop_ok burgers k (d := 0) (u := field ⟨m, 1, 1⟩ u) rfl b2 b3 w5
  refine ⟨⟨lr.1, lr.2, e.1, e.2, o⟩, ?_, fun x hx1 hx2 => ?_⟩
  · simp only [applyDiffusion, List.range_one, List.foldlM_cons, List.foldlM_nil, applyDirection, a1, b1, c1, Res.ok_bind, Res.pure_eq]
  · have d0 : I3.dir 0 = ⟨1, 0, 0⟩ := rfl
    have pl : ∀ y : Int, (⟨y, 0, 0⟩ : I3) + I3.dir 0 = ⟨y + 1, 0, 0⟩ := fun _ => rfl
    have mi : (⟨x, 0, 0⟩ : I3) - I3.dir 0 = ⟨x - 1, 0, 0⟩ := rfl
    have wri : ∀ y : Int, 0 ≤ y → y + 2 < m → Written 0 ⟨m, 1, 1⟩ ⟨y, 0, 0⟩ := by
      intro y h1 h2; unfold Written; rw [mem_box, d0]; simp only [I3.sub_x, I3.sub_y, I3.sub_z, I3.add_x, I3.add_y, I3.add_z]; omega
    have ins : ∀ y : Int, 0 ≤ y → y < m → inSize ⟨m, 1, 1⟩ (⟨y, 0, 0⟩ : I3) = true := by
      intro y h1 h2; rw [inSize_iff]; simp; omega
    have face : ∀ y : Int, 0 ≤ y → y + 2 < m → faceValue burgers k 0 (field ⟨m, 1, 1⟩ u).val lr.1.val lr.2.val ⟨y, 0, 0⟩ 0 =
        0.5 * |0.5 * (u ⟨y + 1, 0, 0⟩ 0 + u ⟨y, 0, 0⟩ 0)| * (Flux.entropyVariable (u ⟨y + 1, 0, 0⟩ 0) - Flux.entropyVariable (u ⟨y, 0, 0⟩ 0)) := by
      intro y h1 h2
      have x := a4 ⟨y, 0, 0⟩ (wri y h1 h2)
      rw [pl, burgers_scaled, burgers_scaled] at x
      rw [faceValue, burgers_mul, burgers_mulVec, pl, (b4 ⟨y + 1, 0, 0⟩ (ins _ (by omega) (by omega))).1, (b4 ⟨y, 0, 0⟩ (ins _ (by omega) (by omega))).2, x.1, x.2]
      simp only [burgers, field, Pi.add_apply, Pi.sub_apply, Pi.smul_apply, smul_eq_mul]
      ring
    have mem : (⟨x, 0, 0⟩ : I3) ∈ box (I3.dir 0) (⟨m, 1, 1⟩ - I3.dir 0) := by
      rw [mem_box, d0]; simp only [I3.sub_x, I3.sub_y, I3.sub_z]; omega
    have h := congrFun (c3 ⟨x, 0, 0⟩ mem) 0
    simp only [h, Pi.add_apply, Pi.sub_apply, mi, face x (by omega) hx2, face (x - 1) (by omega) (by omega)]
    rw [show x - 1 + 1 = x by ring]

end Verif.CudaTecno
