import Verif.Punctual
import Verif.RunSetupLemmas
import Verif.RunSetupSpec
import Mathlib.Tactic.Linarith
import Mathlib.Tactic.Positivity

/-!
The writers of a configuration are never late (`WholeRun.Punctual`), so what steps of nonnegative length preserve holds for whole programs.
-/

namespace Verif.Setup
open Params Integrator Verif.Simulator Writers Schedule WholeRun
variable {K V W F : Type} [Field K] [LinearOrder K] [IsStrictOrderedRing K] [AddCommGroup V] [Module K V] [AddCommGroup W] [Module K W]

/-- A writer that never asks for a negative time step: saves at intervals of positive length, which do not start with a delayed initial save (C37), or clusters of saves around the multiples
of an interval which do not overlap (C38). `dx` is the length of a cell. -/
def Timely (dx : K) : WriterObj K F → Prop
  | .fixed _ (some i) start initial => 0 < i ∧ 0 ≤ start ∧ (start = 0 ∨ initial = false)
  | .coarse _ (some i) saves skips => 0 < dx ∧ 0 ≤ saves ∧ 0 ≤ skips ∧ 2 * saves * (skips + 1) * dx < i
  | _ => True

/-- What a configuration asks for is timely. -/
theorem timely_of_asked {T dx : K} (hT : 0 < T) {w : WriterObj K F} (h : Asked T w) : Timely dx w := by
  cases h with
  | everyStep => trivial
  | saves type name ps N initial hN => exact ⟨div_pos hT (by exact_mod_cast hN), le_rfl, .inl rfl⟩
  | nothing => trivial
  | functional type name ps f N hN => exact ⟨div_pos hT (by exact_mod_cast hN), le_rfl, .inl rfl⟩
  | window => trivial
  | snapshots type name ps f time radius n hn hr hl => exact ⟨div_pos hr (by exact_mod_cast hn), le_max_right _ _, .inr rfl⟩
  | average type name ps time radius n hn hr ht => exact ⟨div_pos hr (by exact_mod_cast hn), le_max_right _ _, .inr rfl⟩

/-- The next save is not in the past. -/
def InTime (dx : K) : (w : WriterObj K F) → w.St V → TimeInfo K → Prop
  | .fixed _ (some i) start initial, s, info => 0 < s.1 ∧ info.time ≤ Fixed.next (⟨i, start, initial⟩ : Fixed K) s.1
  | .coarse _ (some i) saves skips, s, info => 0 < s.1.saved ∧ s.1.dx = some dx ∧ s.1.first = false ∧ -saves ≤ s.1.small ∧ s.1.small ≤ saves ∧
      info.time ≤ Coarse.next (⟨i, saves, skips⟩ : Coarse K) dx s.1.saved s.1.small
  | _, _, _ => True

theorem coarse_next_lt {i dx : K} {saves skips : Int} (hdx : 0 < dx) (hs : 0 ≤ skips) (a b : Int) :
    Coarse.next (⟨i, saves, skips⟩ : Coarse K) dx a b < Coarse.next ⟨i, saves, skips⟩ dx a (b + 1) := by
  unfold Coarse.next
  have : (0 : K) < ((skips : K) + 1) * dx := mul_pos (by have : (0 : K) ≤ skips := by exact_mod_cast hs
                                                         linarith) hdx
  push_cast
  nlinarith

theorem coarse_cluster_lt {i dx : K} {saves skips : Int} (ho : 2 * (saves : K) * (skips + 1) * dx < i) (a : Int) :
    Coarse.next (⟨i, saves, skips⟩ : Coarse K) dx a saves < Coarse.next ⟨i, saves, skips⟩ dx (a + 1) (-saves) := by
  unfold Coarse.next
  push_cast
  nlinarith

omit [IsStrictOrderedRing K] [AddCommGroup V] [Module K V] in
/-- The counters of a coarse graining writer after a call. -/
theorem coarse_write {τ : Type} {p : Coarse K} {inner : V → TimeInfo K → τ → Res τ} {dx : K} {u : V} {info : TimeInfo K} {s s' : CoarseState K × τ}
    (h : Coarse.write p inner dx u info s = .ok s') :
    s'.1 = (if (if s.1.first then -p.coarseSaves else if p.next dx s.1.saved s.1.small ≤ info.time then s.1.small + 1 else s.1.small) = p.coarseSaves + 1 then
        ⟨(if s.1.saved = 0 then s.1.saved + 1 else s.1.saved) + 1, -p.coarseSaves, false, some dx⟩
      else ⟨if s.1.saved = 0 then s.1.saved + 1 else s.1.saved, if s.1.first then -p.coarseSaves else if p.next dx s.1.saved s.1.small ≤ info.time then s.1.small + 1 else s.1.small, false, some dx⟩) := by
  unfold Coarse.write at h
  by_cases hd : p.next dx s.1.saved s.1.small ≤ info.time
  · simp only [if_pos hd] at h ⊢
    obtain ⟨t, -, h⟩ := bind_ok h
    split_ifs at h ⊢ <;> cases h <;> rfl
  · simp only [if_neg hd] at h ⊢
    obtain ⟨t, -, h⟩ := bind_ok h
    split_ifs at h ⊢ <;> cases h <;> rfl

/-- After the first call. -/
theorem inTime_first {eval : F → V → V → K → Res V} {dx : K} {w : WriterObj K F} (hw : Timely dx w) (u : V) (st : w.St V)
    (h : w.write eval dx u ⟨0, 0⟩ w.fresh = .ok st) : InTime dx w st ⟨0, 0⟩ := by
  match w, hw, st, h with
  | .base _ _ _, _, _, _ => trivial
  | .fixed _ none _ _, _, _, _ => trivial
  | .coarse _ none _ _, _, _, _ => trivial
  | .integrated _ _ _, _, _, _ => trivial
  | .timeFunctional _ _ _ _, _, _, _ => trivial
  | .functional _ _, _, _, _ => trivial
  | .fixed w (some i) start initial, hw, st, h =>
    obtain ⟨h1, h2, h3⟩ := hw
    simp only [WriterObj.write, WriterObj.fresh, Fixed.write] at h
    cases hi : initial with
    | true =>
      obtain rfl := h3.resolve_right (by simp [hi])
      subst hi
      simp only [if_true, Fixed.next, Nat.cast_zero, zero_mul, add_zero, le_refl] at h
      obtain ⟨t, -, h⟩ := bind_ok h
      cases h
      exact ⟨Nat.one_pos, by simp [Fixed.next]; exact h1.le⟩
    | false =>
      subst hi
      have hn : ¬ Fixed.next (⟨i, start, false⟩ : Fixed K) 1 ≤ 0 := by
        simp only [Fixed.next, Nat.cast_one, one_mul, not_le]; linarith
      have h : (.ok (1, w.fresh) : Res (Nat × w.St V)) = .ok st := (if_neg hn).symm.trans h
      cases h
      exact ⟨Nat.one_pos, (not_le.1 hn).le⟩
  | .coarse w (some i) saves skips, hw, st, h =>
    obtain ⟨h1, h2, h3, h4⟩ := hw
    have e := coarse_write (K := K) (show Coarse.write (⟨i, saves, skips⟩ : Coarse K) (w.write eval dx) dx u ⟨0, 0⟩ (CoarseState.init, w.fresh) = .ok st from h)
    simp only [CoarseState.init, if_true] at e
    rw [if_neg (by omega)] at e
    simp only [InTime]
    rw [e]
    refine ⟨Int.one_pos, rfl, rfl, le_rfl, by simp only; omega, ?_⟩
    have a1 : (0 : K) ≤ saves := by exact_mod_cast h2
    have a2 : (0 : K) ≤ skips := by exact_mod_cast h3
    have a3 : 0 ≤ (saves : K) * ((skips : K) + 1) * dx := by positivity
    simp only [Coarse.next]
    push_cast
    nlinarith

/-- The adjuster of a writer that is in time. -/
theorem inTime_adjuster {dx : K} {w : WriterObj K F} {st : w.St V} {info : TimeInfo K} (h : InTime dx w st info) {f : Adjuster K} (hf : w.adjuster st = some f) :
    Props.Limits f info ∧ ∀ x, 0 ≤ x → 0 ≤ f x info := by
  match w, st, h, hf with
  | .fixed w (some i) start initial, st, h, hf =>
    cases hf
    obtain ⟨h1, h2⟩ := h
    refine ⟨fun x => ?_, fun x hx => ?_⟩
    · simp only [Fixed.adjust, if_pos h1]
      exact ⟨min_le_left _ _, min_le_min le_top le_rfl⟩
    · simp only [Fixed.adjust, if_pos h1]
      exact le_min hx (by exact_mod_cast sub_nonneg.2 h2)
  | .coarse w (some i) saves skips, st, h, hf =>
    have hf' := Option.some.inj hf
    obtain ⟨h1, h2, -, -, -, h6⟩ := h
    have e : ∀ x, f x info = min x ((Coarse.next (⟨i, saves, skips⟩ : Coarse K) dx st.1.saved st.1.small - info.time : K) : WithTop K) := by
      intro x
      rw [← hf']
      simp only [Coarse.adjust, if_pos h1, h2]
    refine ⟨fun x => ?_, fun x hx => ?_⟩
    · simp only [e]
      exact ⟨min_le_left _ _, min_le_min le_top le_rfl⟩
    · simp only [e]
      exact le_min hx (by exact_mod_cast sub_nonneg.2 h6)

/-- After a later call. -/
theorem inTime_next {eval : F → V → V → K → Res V} {dx : K} {w : WriterObj K F} (hw : Timely dx w) {st : w.St V} {info : TimeInfo K} (h : InTime dx w st info) {dt : K}
    (hdt : ∀ f, w.adjuster st = some f → (dt : WithTop K) ≤ f ⊤ info) (u : V) {st' : w.St V} (hwr : w.write eval dx u (info.increment dt) st = .ok st') :
    InTime dx w st' (info.increment dt) := by
  match w, hw, st, h, hdt, st', hwr with
  | .base _ _ _, _, _, _, _, _, _ => trivial
  | .fixed _ none _ _, _, _, _, _, _, _ => trivial
  | .coarse _ none _ _, _, _, _, _, _, _ => trivial
  | .integrated _ _ _, _, _, _, _, _, _ => trivial
  | .timeFunctional _ _ _ _, _, _, _, _, _, _ => trivial
  | .functional _ _, _, _, _, _, _, _ => trivial
  | .fixed w (some i) start initial, hw, st, h, hdt, st', hwr =>
    obtain ⟨h1, h2⟩ := h
    have hle := hdt _ rfl
    simp only [Fixed.adjust, if_pos h1, le_min_iff] at hle
    have hle : dt ≤ Fixed.next (⟨i, start, initial⟩ : Fixed K) st.1 - info.time := by exact_mod_cast hle.2
    have hmono : Fixed.next (⟨i, start, initial⟩ : Fixed K) st.1 < Fixed.next ⟨i, start, initial⟩ (st.1 + 1) := by
      have := hw.1
      simp only [Fixed.next]; push_cast; nlinarith
    have ht : (info.increment dt).time = info.time + dt := rfl
    simp only [WriterObj.write, Fixed.write] at hwr
    split_ifs at hwr
    · obtain ⟨t, -, hwr⟩ := bind_ok hwr
      cases hwr
      exact ⟨Nat.succ_pos _, by rw [ht]; simp only; linarith⟩
    · cases hwr
      exact ⟨h1, by rw [ht]; linarith⟩
  | .coarse w (some i) saves skips, hw, st, h, hdt, st', hwr =>
    obtain ⟨w1, w2, w3, w4⟩ := hw
    obtain ⟨h1, h2, h3, h4, h5, h6⟩ := h
    have hle := hdt _ rfl
    simp only [Coarse.adjust, if_pos h1, h2, le_min_iff] at hle
    have hle : dt ≤ Coarse.next (⟨i, saves, skips⟩ : Coarse K) dx st.1.saved st.1.small - info.time := by exact_mod_cast hle.2
    have ht : (info.increment dt).time = info.time + dt := rfl
    have hl1 := coarse_next_lt (i := i) (saves := saves) w1 w3 st.1.saved st.1.small
    have hl2 := coarse_cluster_lt w4 st.1.saved
    have e := coarse_write (K := K) (show Coarse.write (⟨i, saves, skips⟩ : Coarse K) (w.write eval dx) dx u (info.increment dt) st = .ok st' from hwr)
    rw [h3, if_neg h1.ne'] at e
    simp only [Bool.false_eq_true, if_false] at e
    simp only [InTime]
    by_cases hdue : Coarse.next (⟨i, saves, skips⟩ : Coarse K) dx st.1.saved st.1.small ≤ (info.increment dt).time
    · rw [if_pos hdue] at e
      split_ifs at e with hc
      · have hs : st.1.small = saves := by omega
        rw [hs] at hle
        rw [e]
        refine ⟨by simp only; omega, rfl, rfl, le_rfl, by simp only; omega, ?_⟩
        rw [ht]; simp only; linarith
      · rw [e]
        refine ⟨h1, rfl, rfl, by simp only; omega, by simp only; omega, ?_⟩
        rw [ht]; simp only; linarith
    · rw [if_neg hdue, if_neg (by omega)] at e
      rw [e]
      refine ⟨h1, rfl, rfl, h4, h5, ?_⟩
      rw [ht]; simp only; linarith

/-- What each writer did when all were called. -/
theorem each_of_fold {n : Nat} {S : Fin n → Type} (f : ∀ i, S i → Res (S i)) (l : List (Fin n)) (hl : l.Nodup) (st st' : ∀ i, S i)
    (h : l.foldlM (fun (st : ∀ i, S i) i => do
      let x ← f i (st i)
      (.ok (Function.update st i x) : Res (∀ i, S i))) st = .ok st') : ∀ i, if i ∈ l then f i (st i) = .ok (st' i) else st' i = st i := by
  induction l generalizing st with
  | nil => cases h; intro i; simp
  | cons j l ih =>
    rw [List.nodup_cons] at hl
    rw [List.foldlM_cons] at h
    obtain ⟨st1, h1, h2⟩ := bind_ok h
    obtain ⟨x, hx, h1⟩ := bind_ok h1
    cases h1
    intro i
    have := ih hl.2 _ h2 i
    by_cases hij : i = j
    · subst hij
      rw [if_neg hl.1, Function.update_self] at this
      rw [if_pos (by simp), this, hx]
    · rw [Function.update_of_ne hij] at this
      simpa [hij] using this

/-- The writers of a configuration are never late. -/
theorem punctual_writers (eval : F → V → V → K → Res V) (dx : K) (s : Settings K F) (kind : Kind) (env : Env V K) (bc : V → Res V) (obeys : V → Bool)
    (hw : ∀ w ∈ s.writers, Timely dx w) :
    Punctual (simulator eval dx s kind env bc obeys).writers (simulator eval dx s kind env bc obeys).adjusters (freshAll V s.writers)
      fun st info => ∀ i, InTime dx (s.writers.get i) (st i) info := by
  have hget : ∀ i : Fin s.writers.length, Timely dx (s.writers.get i) := fun i => hw _ (List.get_mem _ _)
  have hfold : ∀ (u : V) (info : TimeInfo K) (st st' : States V s.writers), (simulator eval dx s kind env bc obeys).writers.foldlM (fun ws w => w u info ws) st = .ok st' →
      ∀ i, (s.writers.get i).write eval dx u info (st i) = .ok (st' i) := by
    intro u info st st' h i
    simp only [simulator, List.foldlM_map] at h
    have := each_of_fold (fun i => (s.writers.get i).write eval dx u info) (List.finRange _) (List.nodup_finRange _) st st' h i
    rw [if_pos (List.mem_finRange i)] at this
    exact this
  refine ⟨fun u st' h i => inTime_first (hget i) u (st' i) (hfold _ _ _ _ h i), fun st info hf f hm => ?_, fun st info dt hf h0 hdt u st' h i => ?_⟩
  · obtain ⟨i, -, hi⟩ := List.mem_filterMap.1 hm
    exact inTime_adjuster (hf i) hi
  · exact inTime_next (hget i) (hf i) (fun f hi => hdt f (List.mem_filterMap.2 ⟨i, List.mem_finRange i, hi⟩)) u (hfold _ _ _ _ h i)

/-- The program is the run, then the end of the output. -/
theorem program_run {eval : F → V → V → K → Res V} {dx : K} {s : Settings K F} {kind : Kind} {env : Env V K} {bc : V → Res V} {obeys : V → Bool} {u : V} {others : List V} {fuel : Nat}
    {sim : Sim V K (States V s.writers)} (h : program eval dx s kind env bc obeys u others fuel = .ok (some sim)) :
    ∃ sim', (start (simulator eval dx s kind env bc obeys) u others (freshAll V s.writers) >>= run (simulator eval dx s kind env bc obeys) fuel) = .ok (some sim') ∧
      sim.vols = sim'.vols ∧ sim.log = sim'.log := by
  unfold program at h
  obtain ⟨s0, h0, h⟩ := bind_ok h
  obtain ⟨r, h1, h⟩ := bind_ok h
  cases r with
  | none => cases h
  | some sim' =>
    simp only at h
    obtain ⟨ws, -, h⟩ := bind_ok h
    cases h
    exact ⟨sim', by rw [h0]; exact h1, rfl, rfl⟩

end Verif.Setup
