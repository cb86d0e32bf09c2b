import Verif.ViewsSpec

/-! Helper lemmas for C94. -/

namespace Verif.Views
open Verif.Factories
variable {K : Type}

theorem make_toVolume (e : Eqn) (u : Arr Nat (Fin (vars e) → K)) : make (toVolume e u) e = .ok fun j => j.val := by
  cases e <;> refine congrArg Except.ok ?_ <;> funext j <;> first | (fin_cases j <;> rfl)

theorem get_id (e : Eqn) (j : Fin (vars e)) : get e (fun j => j.val) j.val = j.val := by
  cases e <;> fin_cases j <;> rfl

theorem rd_toVolume (e : Eqn) (u : Arr Nat (Fin (vars e) → K)) (j : Fin (vars e)) (i : Nat) : (toVolume e u).rd j i = (u.rd i).map (· j) := by
  have : (toVolume e u).areas[j.val]? = some ⟨u.inb, fun i => u.val i j⟩ := by simp [toVolume]
  simp only [Volume.rd, this, Arr.rd]
  split_ifs <;> rfl

/-- A field with one component of one cell changed. -/
def setComp {k : Nat} (u : Arr Nat (Fin k → K)) (i : Nat) (j : Fin k) (y : K) : Arr Nat (Fin k → K) := ⟨u.inb, Function.update u.val i (Function.update (u.val i) j y)⟩

theorem wr_toVolume (e : Eqn) (u : Arr Nat (Fin (vars e) → K)) (j : Fin (vars e)) (i : Nat) (y : K) :
    (toVolume e u).wr j i y = if u.inb i then .ok (toVolume e (setComp u i j y)) else .error .ub := by
  have : (toVolume e u).areas[j.val]? = some ⟨u.inb, fun i => u.val i j⟩ := by simp [toVolume]
  simp only [Volume.wr, this, Arr.wr]
  split_ifs with h
  · refine congrArg Except.ok ?_
    simp only [toVolume]
    congr 1
    apply List.ext_getElem?
    intro a
    by_cases ha : a < vars e
    · simp only [List.getElem?_set, List.length_ofFn, List.getElem?_ofFn, ha, dite_true, setComp]
      by_cases hj : j.val = a
      · subst hj
        simp only [if_true]
        rw [if_pos j.2]
        congr 2
        funext i'
        by_cases hi : i' = i
        · subst hi; simp
        · simp [Function.update_of_ne hi]
      · rw [if_neg hj]
        congr 2
        funext i'
        by_cases hi : i' = i
        · subst hi
          simp only [Function.update_self]
          rw [Function.update_of_ne]
          intro hh; exact hj (by rw [← hh])
        · simp [Function.update_of_ne hi]
    · simp only [List.getElem?_set, List.length_ofFn, List.getElem?_ofFn, ha, dite_false]
      rw [if_neg (by omega)]
  · rfl

theorem collect_ok {α : Type} : ∀ {k : Nat} {f : Fin k → Res α} {g : Fin k → α}, (∀ j, f j = .ok (g j)) → collect k f = .ok g
  | 0, _, _, _ => congrArg Except.ok (funext fun j => j.elim0)
  | k + 1, f, g, h => by
    simp only [collect, h 0, collect_ok (k := k) (f := fun j => f j.succ) (g := fun j => g j.succ) fun j => h j.succ]
    refine congrArg Except.ok ?_
    funext j
    refine Fin.cases ?_ (fun j => ?_) j <;> simp

theorem vars_pos (e : Eqn) : 0 < vars e := by cases e <;> decide

theorem collect_ub {α : Type} {k : Nat} (hk : 0 < k) {f : Fin k → Res α} (h : ∀ j, f j = .error .ub) : collect k f = .error .ub := by
  obtain ⟨k, rfl⟩ : ∃ k', k = k' + 1 := ⟨k - 1, by omega⟩
  simp [collect, h 0]

theorem fetch_toVolume (e : Eqn) (u : Arr Nat (Fin (vars e) → K)) (i : Nat) : fetch (toVolume e u) (fun j : Fin (vars e) => j.val) i = u.rd i := by
  unfold fetch
  by_cases h : u.inb i = true
  · rw [Arr.rd_ok h]
    exact collect_ok fun j => by rw [rd_toVolume, Arr.rd_ok h]; rfl
  · rw [Arr.rd_ub (by simpa using h)]
    exact collect_ub (vars_pos e) fun j => by rw [rd_toVolume, Arr.rd_ub (by simpa using h)]; rfl

/-- Writing a list of components. -/
def setComps {k : Nat} (u : Arr Nat (Fin k → K)) (i : Nat) (x : Fin k → K) (l : List (Fin k)) : Arr Nat (Fin k → K) := l.foldl (fun u j => setComp u i j (x j)) u

theorem setComps_inb {k : Nat} (i : Nat) (x : Fin k → K) (l : List (Fin k)) (u : Arr Nat (Fin k → K)) : (setComps u i x l).inb = u.inb := by
  induction l generalizing u with
  | nil => rfl
  | cons j l ih => exact ih _

theorem setComps_val {k : Nat} (i : Nat) (x : Fin k → K) (l : List (Fin k)) (u : Arr Nat (Fin k → K)) :
    (setComps u i x l).val = Function.update u.val i fun j => if j ∈ l then x j else u.val i j := by
  induction l generalizing u with
  | nil => simp [setComps]
  | cons j l ih =>
    have := ih (setComp u i j (x j))
    change (setComps (setComp u i j (x j)) i x l).val = _
    rw [this]
    simp only [setComp, Function.update_idem, Function.update_self]
    congr 1
    funext j'
    by_cases h : j' ∈ l
    · simp [h]
    · by_cases hj : j' = j
      · subst hj; simp [h]
      · simp [h, hj]

theorem setComps_all {k : Nat} (i : Nat) (x : Fin k → K) (u : Arr Nat (Fin k → K)) : setComps u i x (List.finRange k) = ⟨u.inb, Function.update u.val i x⟩ := by
  have h1 := setComps_inb i x (List.finRange k) u
  have h2 := setComps_val i x (List.finRange k) u
  cases h : setComps u i x (List.finRange k)
  rw [h] at h1 h2
  simp only at h1 h2
  rw [h1, h2]
  simp

theorem set_toVolume (e : Eqn) (u : Arr Nat (Fin (vars e) → K)) (i : Nat) (x : Fin (vars e) → K) :
    setViewAt (toVolume e u) (fun j : Fin (vars e) => j.val) i x = (u.wr i x).map (toVolume e) := by
  unfold setViewAt
  by_cases h : u.inb i = true
  · rw [Arr.wr_ok h]
    have : ∀ (l : List (Fin (vars e))) (u : Arr Nat (Fin (vars e) → K)), u.inb i = true →
        l.foldlM (fun v (j : Fin (vars e)) => v.wr j.val i (x j)) (toVolume e u) = .ok (toVolume e (setComps u i x l)) := by
      intro l
      induction l with
      | nil => intro u _; rfl
      | cons j l ih =>
        intro u hu
        rw [List.foldlM_cons, wr_toVolume, if_pos hu]
        exact ih _ hu
    rw [this _ u h, setComps_all]
    rfl
  · rw [Arr.wr_ub (by simpa using h)]
    obtain ⟨k, hk⟩ : ∃ k', vars e = k' + 1 := ⟨vars e - 1, by have := vars_pos e; omega⟩
    have : ∃ j l, List.finRange (vars e) = j :: l := by
      cases hl : List.finRange (vars e) with
      | nil => have := congrArg List.length hl; simp at this; omega
      | cons j l => exact ⟨j, l, rfl⟩
    obtain ⟨j, l, hl⟩ := this
    rw [hl, List.foldlM_cons, wr_toVolume, if_neg h]
    rfl

theorem add_toVolume [Add K] (e : Eqn) (u : Arr Nat (Fin (vars e) → K)) (i : Nat) (x : Fin (vars e) → K) :
    addToViewAt (toVolume e u) (fun j : Fin (vars e) => j.val) i x = (u.rd i >>= fun old => u.wr i (old + x)).map (toVolume e) := by
  unfold addToViewAt
  by_cases h : u.inb i = true
  · rw [Arr.rd_ok h]
    simp only [Res.ok_bind, Arr.wr_ok h]
    have : ∀ (l : List (Fin (vars e))) (w : Arr Nat (Fin (vars e) → K)), l.Nodup → w.inb i = true → (∀ j ∈ l, w.val i j = u.val i j) →
        l.foldlM (fun v (j : Fin (vars e)) => do
          let old ← v.rd j.val i
          v.wr j.val i (old + x j)) (toVolume e w) = .ok (toVolume e (setComps w i (u.val i + x) l)) := by
      intro l
      induction l with
      | nil => intro w _ _ _; rfl
      | cons j l ih =>
        intro w hn hw hv
        rw [List.foldlM_cons, rd_toVolume, Arr.rd_ok hw]
        simp only [Except.map, Res.ok_bind]
        rw [wr_toVolume, if_pos hw, hv j (by simp)]
        obtain ⟨hj, hn⟩ := List.nodup_cons.1 hn
        refine ih _ hn hw fun j' hj' => ?_
        rw [← hv j' (by simp [hj'])]
        simp only [setComp, Function.update_self]
        exact Function.update_of_ne (fun hh : j' = j => hj (hh ▸ hj')) _ _
    rw [this _ u (List.nodup_finRange _) h (fun _ _ => rfl), setComps_all]
    rfl
  · rw [Arr.rd_ub (by simpa using h)]
    have : ∃ j l, List.finRange (vars e) = j :: l := by
      cases hl : List.finRange (vars e) with
      | nil => have := congrArg List.length hl; have h0 := vars_pos e; simp at this; omega
      | cons j l => exact ⟨j, l, rfl⟩
    obtain ⟨j, l, hl⟩ := this
    rw [hl, List.foldlM_cons, rd_toVolume, Arr.rd_ub (by simpa using h)]
    rfl

/-! ### Several volumes -/

variable {k : Nat}

/-- Writing one component of a cell. -/
def wrComp (us : List (Arr Nat (Fin k → K))) (r : Nat × Nat) (j : Fin k) (y : K) : Res (List (Arr Nat (Fin k → K))) :=
  match us[r.1]? with
  | some u => if u.inb r.2 then .ok (us.set r.1 (setComp u r.2 j y)) else .error .ub
  | none => .error .ub

theorem volume_map (e : Eqn) (us : List (Arr Nat (Fin (vars e) → K))) (q : Nat) :
    volume (us.map (toVolume e)) q = match us[q]? with
      | some u => .ok (toVolume e u)
      | none => .error .ub := by
  unfold volume
  rw [List.getElem?_map]
  cases us[q]? <;> rfl

theorem read_map (e : Eqn) (us : List (Arr Nat (Fin (vars e) → K))) (r : Nat × Nat) :
    (do let v ← volume (us.map (toVolume e)) r.1; let w ← make v e; fetch v w r.2) = rdCell us r := by
  rw [volume_map]
  unfold rdCell
  cases us[r.1]? with
  | none => rfl
  | some u => simp only [Res.ok_bind, make_toVolume, fetch_toVolume]

theorem readVar_map (e : Eqn) (us : List (Arr Nat (Fin (vars e) → K))) (r : Nat × Nat) (j : Fin (vars e)) :
    (do let v ← volume (us.map (toVolume e)) r.1; let w ← make v e; v.rd (get e w j.val) r.2) = (rdCell us r).map (· j) := by
  rw [volume_map]
  unfold rdCell
  cases us[r.1]? with
  | none => rfl
  | some u => simp only [Res.ok_bind, make_toVolume, get_id, rd_toVolume]

theorem writeVar_map (e : Eqn) (us : List (Arr Nat (Fin (vars e) → K))) (r : Nat × Nat) (j : Fin (vars e)) (y : K) :
    (do let v ← volume (us.map (toVolume e)) r.1; let w ← make v e; let v ← v.wr (get e w j.val) r.2 y; pure ((us.map (toVolume e)).set r.1 v)) =
      (wrComp us r j y).map (List.map (toVolume e)) := by
  rw [volume_map]
  unfold wrComp
  cases us[r.1]? with
  | none => rfl
  | some u =>
    simp only [Res.ok_bind, make_toVolume, get_id, wr_toVolume]
    split_ifs
    · simp only [Res.ok_bind, Except.map, List.map_set]; rfl
    · rfl

theorem set_map (e : Eqn) (us : List (Arr Nat (Fin (vars e) → K))) (r : Nat × Nat) (x : Fin (vars e) → K) :
    (do let v ← volume (us.map (toVolume e)) r.1; let w ← make v e; let v ← setViewAt v w r.2 x; pure ((us.map (toVolume e)).set r.1 v)) =
      (wrCell us r x).map (List.map (toVolume e)) := by
  rw [volume_map]
  unfold wrCell
  cases us[r.1]? with
  | none => rfl
  | some u =>
    simp only [Res.ok_bind, make_toVolume, set_toVolume]
    cases u.wr r.2 x with
    | error _ => rfl
    | ok u' => exact congrArg Except.ok (List.map_set).symm

theorem add_map [Add K] (e : Eqn) (us : List (Arr Nat (Fin (vars e) → K))) (r : Nat × Nat) (x : Fin (vars e) → K) :
    (do let v ← volume (us.map (toVolume e)) r.1; let w ← make v e; let v ← addToViewAt v w r.2 x; pure ((us.map (toVolume e)).set r.1 v)) =
      (rdCell us r >>= fun old => wrCell us r (old + x)).map (List.map (toVolume e)) := by
  rw [volume_map]
  unfold wrCell rdCell
  cases us[r.1]? with
  | none => rfl
  | some u =>
    simp only [Res.ok_bind, make_toVolume, add_toVolume]
    cases u.rd r.2 with
    | error _ => rfl
    | ok old =>
      simp only [Res.ok_bind]
      cases u.wr r.2 (old + x) with
      | error _ => rfl
      | ok u' => exact congrArg Except.ok (List.map_set).symm

/-! ### One variable after the other -/

/-- Fields given by a function. -/
def asList {α : Type} (n : Nat) (inb : Nat → Nat → Bool) (Φ : Nat → Nat → α) : List (Arr Nat α) := (List.range n).map fun q => ⟨inb q, Φ q⟩

/-- Change of one cell. -/
def upd {α : Type} (Φ : Nat → Nat → α) (r : Nat × Nat) (x : α) : Nat → Nat → α := Function.update Φ r.1 (Function.update (Φ r.1) r.2 x)

/-- Is it a cell? -/
def Valid (n : Nat) (inb : Nat → Nat → Bool) (r : Nat × Nat) : Prop := r.1 < n ∧ inb r.1 r.2 = true

variable {n : Nat} {inb : Nat → Nat → Bool}

theorem asList_get {α : Type} (Φ : Nat → Nat → α) (q : Nat) : (asList n inb Φ)[q]? = if q < n then some ⟨inb q, Φ q⟩ else none := by
  unfold asList
  by_cases h : q < n <;> simp [h]

theorem asList_set {α : Type} (Φ : Nat → Nat → α) (q : Nat) (g : Nat → α) : (asList n inb Φ).set q ⟨inb q, g⟩ = asList n inb (Function.update Φ q g) := by
  apply List.ext_getElem?
  intro a
  rw [asList_get, List.getElem?_set, asList_get]
  have hl : (asList n inb Φ).length = n := by simp [asList]
  rw [hl]
  by_cases h : q = a
  · subst h; simp
  · simp [h, Function.update_of_ne (Ne.symm h)]

theorem rd_valid {α : Type} {Φ : Nat → Nat → α} {r : Nat × Nat} (h : Valid n inb r) : rdCell (asList n inb Φ) r = .ok (Φ r.1 r.2) := by
  unfold rdCell
  rw [asList_get, if_pos h.1]
  exact Arr.rd_ok h.2

theorem rd_invalid {α : Type} {Φ : Nat → Nat → α} {r : Nat × Nat} (h : ¬ Valid n inb r) : rdCell (asList n inb Φ) r = .error .ub := by
  unfold rdCell
  rw [asList_get]
  by_cases h1 : r.1 < n
  · rw [if_pos h1]
    exact Arr.rd_ub (by simpa [Valid, h1] using h)
  · rw [if_neg h1]

theorem wr_valid {α : Type} {Φ : Nat → Nat → α} {r : Nat × Nat} (h : Valid n inb r) (x : α) : wrCell (asList n inb Φ) r x = .ok (asList n inb (upd Φ r x)) := by
  unfold wrCell
  rw [asList_get, if_pos h.1]
  simp only [Arr.wr_ok (a := ⟨inb r.1, Φ r.1⟩) h.2, Res.ok_bind]
  exact congrArg Except.ok (asList_set _ _ _)

theorem wr_invalid {α : Type} {Φ : Nat → Nat → α} {r : Nat × Nat} (h : ¬ Valid n inb r) (x : α) : wrCell (asList n inb Φ) r x = .error .ub := by
  unfold wrCell
  rw [asList_get]
  by_cases h1 : r.1 < n
  · rw [if_pos h1]
    simp only [Arr.wr_ub (a := ⟨inb r.1, Φ r.1⟩) (i := r.2) (by simpa [Valid, h1] using h)]
    rfl
  · rw [if_neg h1]

theorem wrComp_valid {Φ : Nat → Nat → Fin k → K} {r : Nat × Nat} (h : Valid n inb r) (j : Fin k) (y : K) :
    wrComp (asList n inb Φ) r j y = .ok (asList n inb (upd Φ r (Function.update (Φ r.1 r.2) j y))) := by
  unfold wrComp
  rw [asList_get, if_pos h.1]
  simp only [h.2, if_true]
  exact congrArg Except.ok (asList_set _ _ _)

theorem wrComp_invalid {Φ : Nat → Nat → Fin k → K} {r : Nat × Nat} (h : ¬ Valid n inb r) (j : Fin k) (y : K) : wrComp (asList n inb Φ) r j y = .error .ub := by
  unfold wrComp
  rw [asList_get]
  by_cases h1 : r.1 < n
  · rw [if_pos h1]
    have : inb r.1 r.2 = false := by simpa [Valid, h1] using h
    simp [this]
  · rw [if_neg h1]

theorem mapM_valid {α β : Type} {f : α → Res β} {g : α → β} : ∀ {l : List α}, (∀ a ∈ l, f a = .ok (g a)) → l.mapM f = .ok (l.map g)
  | [], _ => rfl
  | a :: l, h => by
    rw [List.mapM_cons, h a (by simp), Res.ok_bind, mapM_valid (l := l) (g := g) fun b hb => h b (by simp [hb])]
    rfl

theorem mapM_ub {α β : Type} {f : α → Res β} : ∀ {l : List α}, (∀ a ∈ l, f a = .error .ub ∨ ∃ b, f a = .ok b) → (∃ a ∈ l, f a = .error .ub) → l.mapM f = .error .ub
  | [], _, h => by simp at h
  | a :: l, h, hex => by
    rw [List.mapM_cons]
    rcases h a (by simp) with h1 | ⟨b, h1⟩
    · rw [h1]; rfl
    · rw [h1, Res.ok_bind, mapM_ub (l := l) (fun b hb => h b (by simp [hb]))]
      · rfl
      · obtain ⟨c, hc, h2⟩ := hex
        rcases List.mem_cons.1 hc with rfl | hc
        · rw [h1] at h2; cases h2
        · exact ⟨c, hc, h2⟩

theorem foldlM_valid {ι α : Type} {step : List (Arr Nat α) → ι → Res (List (Arr Nat α))} {F : (Nat → Nat → α) → ι → Nat → Nat → α} :
    ∀ {l : List ι} {Φ : Nat → Nat → α}, (∀ Ψ, ∀ o ∈ l, step (asList n inb Ψ) o = .ok (asList n inb (F Ψ o))) →
      l.foldlM step (asList n inb Φ) = .ok (asList n inb (l.foldl F Φ))
  | [], _, _ => rfl
  | o :: l, Φ, h => by
    rw [List.foldlM_cons, h Φ o (by simp), Res.ok_bind, foldlM_valid (l := l) fun Ψ p hp => h Ψ p (by simp [hp])]
    rfl

theorem foldlM_ub {ι α : Type} {step : List (Arr Nat α) → ι → Res (List (Arr Nat α))} {F : (Nat → Nat → α) → ι → Nat → Nat → α} {P : ι → Prop}
    (hv : ∀ Ψ o, P o → step (asList n inb Ψ) o = .ok (asList n inb (F Ψ o))) (hi : ∀ Ψ o, ¬ P o → step (asList n inb Ψ) o = .error .ub) :
    ∀ {l : List ι} {Φ : Nat → Nat → α}, (∃ o ∈ l, ¬ P o) → l.foldlM step (asList n inb Φ) = .error .ub
  | [], _, h => by simp at h
  | o :: l, Φ, h => by
    rw [List.foldlM_cons]
    by_cases ho : P o
    · rw [hv Φ o ho, Res.ok_bind]
      refine foldlM_ub hv hi ?_
      obtain ⟨p, hp, hp'⟩ := h
      rcases List.mem_cons.1 hp with rfl | hp
      · exact absurd ho hp'
      · exact ⟨p, hp, hp'⟩
    · rw [hi Φ o ho]; rfl

/-- What the writes of one variable do. -/
theorem inner_fold (outs : List ((Nat × Nat) × (List K → K))) (xs : List K) (j : Fin k) (Ψ : Nat → Nat → Fin k → K) (q i : Nat) (c : Fin k) :
    outs.foldl (fun Ψ o => upd Ψ o.1 (Function.update (Ψ o.1.1 o.1.2) j (o.2 xs))) Ψ q i c =
      if c = j then outs.foldl (fun φ o => upd φ o.1 (o.2 xs)) (fun q i => Ψ q i j) q i else Ψ q i c := by
  induction outs generalizing Ψ with
  | nil => by_cases h : c = j <;> simp [h]
  | cons o outs ih =>
    simp only [List.foldl_cons]
    rw [ih]
    have e : (fun q i => upd Ψ o.1 (Function.update (Ψ o.1.1 o.1.2) j (o.2 xs)) q i j) = upd (fun q i => Ψ q i j) o.1 (o.2 xs) := by
      funext q i
      unfold upd
      by_cases hq : q = o.1.1
      · subst hq
        simp only [Function.update_self]
        by_cases hi : i = o.1.2
        · subst hi; simp
        · simp [Function.update_of_ne hi]
      · simp [Function.update_of_ne hq]
    rw [e]
    split_ifs with h
    · rfl
    · unfold upd
      by_cases hq : q = o.1.1
      · subst hq
        simp only [Function.update_self]
        by_cases hi : i = o.1.2
        · subst hi; simp [h]
        · simp [Function.update_of_ne hi]
      · simp [Function.update_of_ne hq]

theorem vector_fold (outs : List ((Nat × Nat) × (List K → K))) (X : List (Fin k → K)) (Φ : Nat → Nat → Fin k → K) (q i : Nat) (c : Fin k) :
    outs.foldl (fun Ψ o => upd Ψ o.1 (fun c => o.2 (X.map (· c)))) Φ q i c = outs.foldl (fun φ o => upd φ o.1 (o.2 (X.map (· c)))) (fun q i => Φ q i c) q i := by
  induction outs generalizing Φ with
  | nil => rfl
  | cons o outs ih =>
    simp only [List.foldl_cons]
    rw [ih]
    have e : (fun q i => upd Φ o.1 (fun c => o.2 (X.map (· c))) q i c) = upd (fun q i => Φ q i c) o.1 (o.2 (X.map (· c))) := by
      funext q i
      unfold upd
      by_cases hq : q = o.1.1
      · subst hq
        simp only [Function.update_self]
        by_cases hi : i = o.1.2
        · subst hi; simp
        · simp [Function.update_of_ne hi]
      · simp [Function.update_of_ne hq]
    rw [e]

theorem outer_fold (reads : List (Nat × Nat)) (outs : List ((Nat × Nat) × (List K → K))) (Φ : Nat → Nat → Fin k → K) :
    ∀ (l : List (Fin k)) (Ψ : Nat → Nat → Fin k → K), l.Nodup → (∀ c ∈ l, ∀ q i, Ψ q i c = Φ q i c) → ∀ q i c,
      l.foldl (fun Ψ j => outs.foldl (fun Ψ' (o : (Nat × Nat) × (List K → K)) => upd Ψ' o.1 (Function.update (Ψ' o.1.1 o.1.2) j (o.2 (reads.map fun r => Ψ r.1 r.2 j)))) Ψ) Ψ q i c =
        if c ∈ l then outs.foldl (fun φ o => upd φ o.1 (o.2 (reads.map fun r => Φ r.1 r.2 c))) (fun q i => Φ q i c) q i else Ψ q i c
  | [], Ψ, _, _, q, i, c => by simp
  | j :: l, Ψ, hn, hΨ, q, i, c => by
    obtain ⟨hj, hn⟩ := List.nodup_cons.1 hn
    rw [List.foldl_cons, outer_fold reads outs Φ l _ hn]
    · by_cases hc : c ∈ l
      · simp [hc]
      · rw [if_neg hc, inner_fold]
        by_cases hcj : c = j
        · subst hcj
          have h1 := hΨ c (by simp)
          simp only [if_true, List.mem_cons, true_or, h1]
        · simp [hc, hcj]
    · intro c hc q i
      rw [inner_fold, if_neg (fun hh : c = j => hj (hh ▸ hc))]
      exact hΨ c (by simp [hc]) q i

theorem exists_asList {α : Type} [Inhabited α] (us : List (Arr Nat α)) : ∃ n inb Φ, us = asList n inb Φ := by
  refine ⟨us.length, fun q => ((us[q]?).getD ⟨fun _ => false, fun _ => default⟩).inb, fun q => ((us[q]?).getD ⟨fun _ => false, fun _ => default⟩).val, ?_⟩
  apply List.ext_getElem?
  intro q
  rw [asList_get]
  by_cases h : q < us.length
  · rw [if_pos h, List.getElem?_eq_getElem h]; rfl
  · rw [if_neg h, List.getElem?_eq_none (by omega)]

/-- One variable after the other does the same as all variables together. -/
theorem each_meaning (hk : 0 < k) (reads : List (Nat × Nat)) (outs : List ((Nat × Nat) × (List K → K))) (us : List (Arr Nat (Fin k → K))) (hK : Nonempty K) :
    ((List.finRange k).foldlM (fun (us : List (Arr Nat (Fin k → K))) (j : Fin k) => (do
      let xs ← reads.mapM fun r => (rdCell us r).map fun x => x j
      outs.foldlM (fun us (o : (Nat × Nat) × (List K → K)) => wrComp us o.1 j (o.2 xs)) us : Res _)) us) = (do
        let xs ← reads.mapM (rdCell us)
        outs.foldlM (fun us (o : (Nat × Nat) × (List K → K)) => wrCell us o.1 fun c => o.2 (xs.map fun x => x c)) us : Res _) := by
  have : Inhabited (Fin k → K) := ⟨fun _ => hK.some⟩
  obtain ⟨n, inb, Φ, rfl⟩ := exists_asList us
  by_cases hr : ∀ r ∈ reads, Valid n inb r
  · have h1 : reads.mapM (rdCell (asList n inb Φ)) = .ok (reads.map fun r => Φ r.1 r.2) := mapM_valid fun r h => rd_valid (hr r h)
    have h2 : ∀ Ψ : Nat → Nat → Fin k → K, ∀ j, (reads.mapM fun r => (rdCell (asList n inb Ψ) r).map (· j)) = .ok (reads.map fun r => Ψ r.1 r.2 j) :=
      fun Ψ j => mapM_valid fun r h => by rw [rd_valid (hr r h)]; rfl
    rw [h1, Res.ok_bind]
    by_cases ho : ∀ o ∈ outs, Valid n inb o.1
    · rw [foldlM_valid (F := fun Ψ (o : (Nat × Nat) × (List K → K)) => upd Ψ o.1 fun c => o.2 ((reads.map fun r => Φ r.1 r.2).map fun x => x c)) fun Ψ o h => wr_valid (ho o h) _]
      rw [foldlM_valid (F := fun Ψ (j : Fin k) => outs.foldl (fun Ψ' (o : (Nat × Nat) × (List K → K)) => upd Ψ' o.1 (Function.update (Ψ' o.1.1 o.1.2) j (o.2 (reads.map fun r => Ψ r.1 r.2 j)))) Ψ)]
      · congr 2
        funext q i c
        rw [outer_fold reads outs Φ _ Φ (List.nodup_finRange k) (fun _ _ _ _ => rfl), if_pos (List.mem_finRange c), vector_fold]
        simp only [List.map_map, Function.comp_def]
      · intro Ψ j _
        rw [h2, Res.ok_bind]
        exact foldlM_valid fun Ψ' o h => wrComp_valid (ho o h) j _
    · push Not at ho
      rw [foldlM_ub (P := fun o => Valid n inb o.1) (F := fun Ψ (o : (Nat × Nat) × (List K → K)) => upd Ψ o.1 fun c => o.2 ((reads.map fun r => Φ r.1 r.2).map fun x => x c))
        (fun Ψ o h => wr_valid h _) (fun Ψ o h => wr_invalid h _) ho]
      obtain ⟨j, l, hl⟩ : ∃ j l, List.finRange k = j :: l := by
        cases hl : List.finRange k with
        | nil => have := congrArg List.length hl; simp at this; omega
        | cons j l => exact ⟨j, l, rfl⟩
      rw [hl, List.foldlM_cons, h2, Res.ok_bind, foldlM_ub (P := fun o => Valid n inb o.1) (fun Ψ o h => wrComp_valid h j _) (fun Ψ o h => wrComp_invalid h j _) ho]
      rfl
  · push Not at hr
    obtain ⟨j, l, hl⟩ : ∃ j l, List.finRange k = j :: l := by
      cases hl : List.finRange k with
      | nil => have := congrArg List.length hl; simp at this; omega
      | cons j l => exact ⟨j, l, rfl⟩
    have hcase : ∀ r, rdCell (asList n inb Φ) r = .error .ub ∨ ∃ b, rdCell (asList n inb Φ) r = .ok b := fun r => by
      by_cases h : Valid n inb r
      · exact .inr ⟨_, rd_valid h⟩
      · exact .inl (rd_invalid h)
    obtain ⟨r, hr, hr'⟩ := hr
    rw [hl, List.foldlM_cons, mapM_ub (f := rdCell (asList n inb Φ)) (fun r _ => hcase r) ⟨r, hr, rd_invalid hr'⟩, mapM_ub]
    · rfl
    · intro r _
      rcases hcase r with h | ⟨b, h⟩
      · exact .inl (by rw [h]; rfl)
      · exact .inr ⟨b j, by rw [h]; rfl⟩
    · exact ⟨r, hr, by rw [rd_invalid hr']; rfl⟩

theorem foldlM_map_res {ι α β : Type} (g : α → β) {step : β → ι → Res β} {step' : α → ι → Res α} (h : ∀ a o, step (g a) o = (step' a o).map g) :
    ∀ (l : List ι) (a : α), l.foldlM step (g a) = (l.foldlM step' a).map g
  | [], _ => rfl
  | o :: l, a => by
    rw [List.foldlM_cons, List.foldlM_cons, h]
    cases step' a o with
    | error _ => rfl
    | ok b => exact foldlM_map_res g h l b

theorem run_meaning [Add K] [Nonempty K] (e : Eqn) (us : List (Arr Nat (Fin (vars e) → K))) (c : Cmd (vars e) K) :
    c.run e (us.map (toVolume e)) = (c.meaning us).map (List.map (toVolume e)) := by
  cases c with
  | set reads dst f =>
    simp only [Cmd.run, Cmd.meaning, read_map]
    cases reads.mapM (rdCell us) with
    | error _ => rfl
    | ok xs => exact set_map e us dst (f xs)
  | add reads dst f =>
    simp only [Cmd.run, Cmd.meaning, read_map]
    cases reads.mapM (rdCell us) with
    | error _ => rfl
    | ok xs => exact add_map e us dst (f xs)
  | each reads outs =>
    simp only [Cmd.run, Cmd.meaning]
    rw [← each_meaning (vars_pos e) reads outs us inferInstance, ← List.map_coe_finRange_eq_range, List.foldlM_map]
    refine foldlM_map_res (List.map (toVolume e)) (fun us j => ?_) _ us
    simp only [readVar_map]
    cases reads.mapM fun r => (rdCell us r).map (· j) with
    | error _ => rfl
    | ok xs => exact foldlM_map_res (List.map (toVolume e)) (fun us o => writeVar_map e us o.1 j _) outs us

theorem indexFromName_ok {v : Volume K} {name : String} (h : name ∈ v.names) : ∃ a, v.indexFromName name = .ok a ∧ v.names[a]? = some name := by
  unfold Volume.indexFromName
  have : (v.names.findIdx? (· == name)).isSome := by
    rw [List.findIdx?_isSome]
    exact List.any_eq_true.2 ⟨name, h, by simp⟩
  obtain ⟨a, ha⟩ := Option.isSome_iff_exists.1 this
  refine ⟨a, by rw [ha], ?_⟩
  obtain ⟨h1, h2, -⟩ := List.findIdx?_eq_some_iff_getElem.1 ha
  rw [List.getElem?_eq_getElem h1]
  simpa using h2

theorem indexFromName_thrown {v : Volume K} {name : String} (h : name ∉ v.names) : v.indexFromName name = .error .thrown := by
  unfold Volume.indexFromName
  have : v.names.findIdx? (· == name) = none := by
    rw [List.findIdx?_eq_none_iff]
    intro x hx
    simp only [beq_eq_false_iff_ne]
    rintro rfl
    exact h hx
  rw [this]

end Verif.Views
