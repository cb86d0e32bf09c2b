import Verif.RunSetupSpec
import Verif.RunSetupLemmas
import Verif.SetupLemmas

/-!
Lemmas for C86 and C87: what each kind of writer does when it is called alone, and the end of the program.
-/

namespace Verif.Setup
open Params Integrator Verif.Simulator Writers Schedule
variable {K V W F : Type} [Field K] [LinearOrder K] [IsStrictOrderedRing K] [AddCommGroup V] [Module K V] [AddCommGroup W] [Module K W]
variable {eval : F → V → V → K → Res V} {dx : K}

omit [IsStrictOrderedRing K] in
theorem calls_step {w : WriterObj K F} {u : V} {info : TimeInfo K} {l : List (V × TimeInfo K)} {t t1 : w.St V} {r : Res (w.St V)} (h1 : w.write eval dx u info t = .ok t1)
    (h2 : calls eval dx w l t1 = r) : calls eval dx w ((u, info) :: l) t = r := by
  unfold calls at h2 ⊢
  rw [List.foldlM_cons, h1]
  exact h2

omit [IsStrictOrderedRing K] in
theorem calls_fail {w : WriterObj K F} {u : V} {info : TimeInfo K} {l : List (V × TimeInfo K)} {t : w.St V} {e : Err} (h : w.write eval dx u info t = .error e) :
    calls eval dx w ((u, info) :: l) t = .error e := by
  unfold calls
  rw [List.foldlM_cons, h]
  rfl

omit [IsStrictOrderedRing K] in
theorem calls_base (type name : Str) (ps : Tree) (l : List (V × TimeInfo K)) (a : List (V × TimeInfo K)) (n : Nat) :
    calls eval dx (.base type name ps) l (⟨a, n⟩ : FileState V K) = .ok (⟨a ++ l, n⟩ : FileState V K) := by
  induction l generalizing a with
  | nil => rw [List.append_nil]; rfl
  | cons e l ih =>
    have h := ih (a ++ [e])
    rw [List.append_assoc, List.singleton_append] at h
    exact calls_step rfl h

omit [IsStrictOrderedRing K] in
theorem calls_functional (hev : ∀ f o u k, ∃ r, eval f o u k = .ok r) (type name : Str) (ps : Tree) (f : F) (l : List (V × TimeInfo K)) (a : List (V × TimeInfo K)) (n : Nat) :
    ∃ b, calls eval dx (.functional (.base type name ps) f) l (⟨a, n⟩ : FileState V K) = .ok (⟨a ++ b, n⟩ : FileState V K) ∧
      List.Forall₂ (fun e e' => e'.2 = e.2 ∧ eval f 0 e.1 1 = .ok e'.1) l b := by
  induction l generalizing a with
  | nil => exact ⟨[], by rw [List.append_nil]; rfl, .nil⟩
  | cons e l ih =>
    obtain ⟨r, hr⟩ := hev f 0 e.1 1
    obtain ⟨b, hb, hb2⟩ := ih (a ++ [(r, e.2)])
    refine ⟨(r, e.2) :: b, ?_, .cons ⟨rfl, hr⟩ hb2⟩
    rw [List.append_assoc, List.singleton_append] at hb
    refine calls_step (w := .functional (.base type name ps) f) (t1 := (⟨a ++ [(r, e.2)], n⟩ : FileState V K)) ?_ hb
    simp only [WriterObj.write, hr]
    rfl

omit [IsStrictOrderedRing K] in
theorem calls_window (hev : ∀ f o u k, ∃ r, eval f o u k = .ok r) (type name : Str) (ps : Tree) (f : F) (time radius : K) (l : List (V × TimeInfo K)) (v : Option V) (last : K)
    (t : FileState V K) :
    ∃ v' last', calls eval dx (.timeFunctional (.base type name ps) f time radius) l ((v, last), t) = .ok ((v', last'), t) ∧
      Integral eval f time radius (v.getD 0) last l (v'.getD 0) ∧ (l ≠ [] ∨ v.isSome → v'.isSome) := by
  induction l generalizing v last with
  | nil => exact ⟨v, last, rfl, .nil _ _, by simp⟩
  | cons e l ih =>
    obtain ⟨u, info⟩ := e
    by_cases h : |info.time - time| ≤ radius
    · obtain ⟨r, hr⟩ := hev f (v.getD 0) u (info.time - last)
      obtain ⟨v', last', h1, h2, h3⟩ := ih (some r) info.time
      refine ⟨v', last', ?_, .inside h hr h2, fun _ => h3 (.inr rfl)⟩
      refine calls_step (w := .timeFunctional (.base type name ps) f time radius) (t1 := ((some r, info.time), t)) ?_ h1
      simp only [WriterObj.write, functionalWrite, if_pos h, hr, Res.ok_bind, Res.pure_eq]
    · obtain ⟨v', last', h1, h2, h3⟩ := ih (some (v.getD 0)) info.time
      refine ⟨v', last', ?_, .outside (not_le.1 h) h2, fun _ => h3 (.inr rfl)⟩
      refine calls_step (w := .timeFunctional (.base type name ps) f time radius) (t1 := ((some (v.getD 0), info.time), t)) ?_ h1
      simp only [WriterObj.write, functionalWrite, if_neg h, Res.ok_bind, Res.pure_eq]

omit [IsStrictOrderedRing K] in
theorem calls_average (type name : Str) (ps : Tree) (time radius : K) (l : List (V × TimeInfo K)) (s : IntegratedState V K) (t : FileState V K)
    (h : s.acc.isSome ∨ ∀ e, l.head? = some e → |e.2.time - time| < radius) :
    ∃ (s' : IntegratedState V K) (t' : FileState V K), calls eval dx (.integrated (.base type name ps) time radius) l (s, t) = .ok (s', t') ∧ t'.finalized = t.finalized := by
  induction l generalizing s t with
  | nil => exact ⟨s, t, rfl, rfl⟩
  | cons e l ih =>
    obtain ⟨u, info⟩ := e
    have hacc : ∃ a, (if |info.time - time| < radius then some (s.acc.getD 0 + (info.time - s.last) • u) else s.acc) = some a := by
      split_ifs with hw
      · exact ⟨_, rfl⟩
      · rcases h with h | h
        · exact Option.isSome_iff_exists.1 h
        · exact absurd (h _ rfl) hw
    obtain ⟨a, ha⟩ := hacc
    have hstep : ∃ (s1 : IntegratedState V K) (t1 : FileState V K), (WriterObj.integrated (.base type name ps) time radius : WriterObj K F).write eval dx u info (s, t) = .ok (s1, t1) ∧ s1.acc.isSome ∧ t1.finalized = t.finalized := by
      by_cases hc : s.written = false ∧ time + radius ≤ info.time
      · refine ⟨⟨some (((1 / 2) / radius : K) • a), info.time, true⟩, ⟨t.entries ++ [(((1 / 2) / radius : K) • a, ⟨time, 0⟩)], t.finalized⟩, ?_, rfl, rfl⟩
        simp only [WriterObj.write, integratedWrite, ha, if_pos hc, Res.pure_eq]
        rfl
      · refine ⟨⟨some a, info.time, s.written⟩, t, ?_, rfl, rfl⟩
        simp only [WriterObj.write, integratedWrite, ha, if_neg hc, Res.pure_eq]
        rfl
    obtain ⟨s1, t1, h1, h2, h3⟩ := hstep
    obtain ⟨s', t', ht', hf⟩ := ih s1 t1 (.inl h2)
    exact ⟨s', t', calls_step h1 ht', hf.trans h3⟩

omit [AddCommGroup V] [Module K V] in
/-- The first snapshot of an average lies in its window. -/
theorem first_inside {time radius : K} {n : Nat} (hn : 0 < n) (hr : 0 < radius) (ht : 0 < time) {l : List (V × TimeInfo K)}
    (hl : OnTime (⟨radius / n, max (time - radius) 0, false⟩ : Fixed K) l) : ∀ e, l.head? = some e → |e.2.time - time| < radius := by
  intro e he
  have hnK : (0 : K) < n := by exact_mod_cast hn
  obtain ⟨l', rfl⟩ : ∃ l', l = e :: l' := by cases l with
    | nil => cases he
    | cons a l => cases he; exact ⟨l, rfl⟩
  have h0 : e.2.time = Fixed.next (⟨radius / n, max (time - radius) 0, false⟩ : Fixed K) 1 := by
    have := congrArg List.head? hl
    simpa [List.range_succ_eq_map] using this
  have h1 : radius / n ≤ radius := by
    rw [div_le_iff₀ hnK]
    have : (1 : K) ≤ n := by exact_mod_cast hn
    nlinarith
  have h2 : 0 < radius / n := by positivity
  rw [h0, next_eq, abs_lt]
  simp only [Nat.cast_one, one_mul]
  rcases max_cases (time - radius) 0 with ⟨h3, h4⟩ | ⟨h3, h4⟩ <;> rw [h3] <;> constructor <;> linarith

theorem asked_able (hev : ∀ f o u k, ∃ r, eval f o u k = .ok r) {T : K} (hT : 0 < T) {w : WriterObj K F} (h : Asked T w) : Able (V := V) eval dx w := by
  cases h with
  | everyStep => exact fun u info st => ⟨_, rfl⟩
  | saves type name ps N initial hN =>
    have : (0 : K) < N := by exact_mod_cast hN
    exact ⟨⟨by positivity, le_rfl, .inl rfl⟩, fun l _ => ⟨_, calls_base type name ps l [] 0⟩⟩
  | nothing => exact fun u info st => ⟨_, rfl⟩
  | functional type name ps f N hN =>
    have : (0 : K) < N := by exact_mod_cast hN
    refine ⟨⟨by positivity, le_rfl, .inl rfl⟩, fun l _ => ?_⟩
    obtain ⟨b, hb, -⟩ := calls_functional (dx := dx) hev type name ps f l [] 0
    exact ⟨_, hb⟩
  | window type name ps f time radius =>
    rintro u info ⟨⟨v, last⟩, t⟩
    obtain ⟨v', last', h1, -⟩ := calls_window (dx := dx) hev type name ps f time radius [(u, info)] v last t
    cases hc : (WriterObj.timeFunctional (.base type name ps) f time radius : WriterObj K F).write eval dx u info ((v, last), t) with
    | error e =>
      have : calls eval dx (.timeFunctional (.base type name ps) f time radius) [(u, info)] ((v, last), t) = .error e := calls_fail hc
      rw [this] at h1; cases h1
    | ok x => exact ⟨x, rfl⟩
  | snapshots type name ps f time radius n hn hr hl =>
    have : (0 : K) < n := by exact_mod_cast hn
    refine ⟨⟨by positivity, le_max_right _ _, .inr rfl⟩, fun l _ => ?_⟩
    obtain ⟨v', last', h1, -⟩ := calls_window (dx := dx) hev type name ps f time radius l none 0 ⟨[], 0⟩
    exact ⟨_, h1⟩
  | average type name ps time radius n hn hr ht =>
    have hnK : (0 : K) < n := by exact_mod_cast hn
    refine ⟨⟨by positivity, le_max_right _ _, .inr rfl⟩, fun l hl => ?_⟩
    obtain ⟨s', t', h, -⟩ := calls_average (eval := eval) (dx := dx) (F := F) type name ps time radius l IntegratedState.init ⟨[], 0⟩ (.inr (first_inside hn hr ht hl))
    exact ⟨_, h⟩

omit [AddCommGroup V] [Module K V] in
/-- The save times of a file with `N` saves are all of them. -/
theorem all_times {T : K} (hT : 0 < T) {N : Nat} (hN : 0 < N) {start : K} (hstart : start = 0) {initial : Bool} {l : List (V × TimeInfo K)} (hon : OnTime (⟨T / N, start, initial⟩ : Fixed K) l)
    (hle : ∀ e ∈ l, e.2.time ≤ T) (hall : ∃ e ∈ l, e.2.time = Fixed.next (⟨T / N, start, initial⟩ : Fixed K) N) :
    (l.map fun e => e.2.time) = ((List.range (N + 1)).drop (if initial then 0 else 1)).map (fun k : Nat => (k : K) * (T / N)) := by
  subst hstart
  have hNK : (0 : K) < N := by exact_mod_cast hN
  have hv : Valid (⟨T / N, 0, initial⟩ : Fixed K) := ⟨by positivity, le_rfl, .inl rfl⟩
  have hnext : ∀ k : Nat, Fixed.next (⟨T / N, 0, initial⟩ : Fixed K) k = k * (T / N) := fun k => by simp [Fixed.next]
  have hlast : Fixed.next (⟨T / N, 0, initial⟩ : Fixed K) N = T := by rw [hnext]; field_simp
  generalize hk0 : (if initial then 0 else 1 : Nat) = k0 at *
  have hk1 : k0 ≤ 1 := by rw [← hk0]; split_ifs <;> omega
  have hget : ∀ j (hj : j < l.length), (l[j]).2.time = Fixed.next (⟨T / N, 0, initial⟩ : Fixed K) (k0 + j) := by
    intro j hj
    have h1 := congrArg (fun x => x[j]?) hon
    simp only [hk0] at h1
    simpa [hj] using h1
  have hlen : l.length = N + 1 - k0 := by
    apply le_antisymm
    · by_contra hc
      have h1 := hget (N + 1 - k0) (by omega)
      have h2 := hle _ (List.getElem_mem (show N + 1 - k0 < l.length by omega))
      rw [h1, show k0 + (N + 1 - k0) = N + 1 by omega] at h2
      have h3 := hv.smono (Nat.lt_succ_self N)
      rw [hlast] at h3
      exact absurd h2 (not_le.2 h3)
    · obtain ⟨e, he, het⟩ := hall
      obtain ⟨j, hj, rfl⟩ := List.getElem_of_mem he
      rw [hget j hj] at het
      have := hv.smono.injective het
      omega
  apply List.ext_getElem
  · simp; omega
  · intro j h1 h2
    simp only [List.getElem_map, List.getElem_drop, List.getElem_range]
    rw [hget j (by simpa using h1), hnext]

omit [IsStrictOrderedRing K] in
theorem calls_nothing (w : WriterObj K F) (start : K) (initial : Bool) (l : List (V × TimeInfo K)) (t : (WriterObj.fixed w none start initial : WriterObj K F).St V) :
    calls eval dx (.fixed w none start initial) l t = .ok t := by
  induction l with
  | nil => rfl
  | cons e l ih => exact calls_step rfl ih

theorem forall₂_right {A B : Type} {R : A → B → Prop} {l : List A} {b : List B} (h : List.Forall₂ R l b) : ∀ y ∈ b, ∃ x ∈ l, R x y := by
  induction h with
  | nil => simp
  | cons h _ ih =>
    intro y hy
    rcases List.mem_cons.1 hy with rfl | hy
    · exact ⟨_, by simp, h⟩
    · obtain ⟨x, hx, hxy⟩ := ih y hy
      exact ⟨x, by simp [hx], hxy⟩

omit [Field K] [LinearOrder K] [IsStrictOrderedRing K] [AddCommGroup V] [Module K V] in
theorem forall₂_times {l b : List (V × TimeInfo K)} (h : List.Forall₂ (fun e e' => e'.2 = e.2) l b) : (b.map fun e => e.2.time) = l.map fun e => e.2.time := by
  induction h with
  | nil => rfl
  | cons h _ ih => simp only [List.map_cons, ih, h]

/-- How often a file is finalised. -/
def finals : WriterObj K F → Nat
  | .base _ _ _ => 1
  | .fixed (.base _ _ _) _ _ _ => 1
  | .fixed (.integrated _ _ _) _ _ _ => 1
  | _ => 0

open Classical in
/-- The end of the program for one writer. -/
theorem finish (hev : ∀ f o u k, ∃ r, eval f o u k = .ok r) {T : K} (hT : 0 < T) {w : WriterObj K F} (h : Asked T w) (past : List (V × TimeInfo K)) (hpast : past ≠ [])
    (hle : ∀ e ∈ past, e.2.time ≤ T) (info : TimeInfo K) (hinfo : info.time = T) (st : w.St V) (h1 : params w = none → calls eval dx w past w.fresh = .ok st)
    (h2 : ∀ p, params w = some p → Received eval dx w (past.filter fun e => SaveTime p e.2.time) st ∧
      ∀ k, (if p.initial then 0 else 1) ≤ k → p.next k ≤ T → ∃ e ∈ past, e.2.time = p.next k) :
    ∃ st', w.finalize eval dx info st = .ok st' ∧ Delivered eval T past w (w.file st').entries ∧ (w.file st').finalized = finals w := by
  have hmem : ∀ (p : Fixed K) k, (if p.initial then 0 else 1) ≤ k → (∃ e ∈ past, e.2.time = p.next k) → ∃ e ∈ past.filter fun e => SaveTime p e.2.time, e.2.time = p.next k := by
    rintro p k hk ⟨e, he, het⟩
    exact ⟨e, List.mem_filter.2 ⟨he, by simpa using ⟨k, hk, by rw [het, next_eq]⟩⟩, het⟩
  cases h with
  | everyStep type name ps =>
    have h := h1 rfl
    have h' := calls_base (eval := eval) (dx := dx) (F := F) type name ps past [] 0
    have e : st = (⟨[] ++ past, 0⟩ : FileState V K) := Except.ok.inj (h.symm.trans h')
    subst e
    exact ⟨_, rfl, by simp [Delivered, WriterObj.file], rfl⟩
  | saves type name ps N initial hN =>
    have hNK : (0 : K) < N := by exact_mod_cast hN
    obtain ⟨⟨-, hon, hc⟩, hall⟩ := h2 _ rfl
    have e : st.2 = (⟨[] ++ _, 0⟩ : FileState V K) := Except.ok.inj (hc.symm.trans (calls_base (eval := eval) (dx := dx) (F := F) type name ps _ [] 0))
    obtain ⟨k, t⟩ := st
    simp only at e
    subst e
    refine ⟨_, rfl, ⟨N, rfl, ?_, ?_⟩, rfl⟩
    · refine all_times hT hN rfl hon (fun e he => hle e (List.mem_filter.1 he).1) (hmem _ N (by split_ifs <;> omega) (hall N (by split_ifs <;> omega) ?_))
      simp only [Fixed.next]; field_simp; simp
    · intro e he
      exact (List.mem_filter.1 he).1
  | nothing w start initial hw =>
    have h := h1 rfl
    have e : st = (WriterObj.fixed w none start initial : WriterObj K F).fresh := Except.ok.inj (h.symm.trans (calls_nothing w start initial past _))
    subst e
    rcases hw with ⟨type, name, ps, rfl⟩ | ⟨type, name, ps, f, rfl⟩
    · exact ⟨_, rfl, rfl, rfl⟩
    · exact ⟨_, rfl, rfl, rfl⟩
  | functional type name ps f N hN =>
    have hNK : (0 : K) < N := by exact_mod_cast hN
    obtain ⟨⟨-, hon, hc⟩, hall⟩ := h2 _ rfl
    obtain ⟨b, hb, hb2⟩ := calls_functional (dx := dx) hev type name ps f (past.filter fun e => SaveTime (⟨T / N, 0, true⟩ : Fixed K) e.2.time) [] 0
    have e : st.2 = (⟨[] ++ b, 0⟩ : FileState V K) := Except.ok.inj (hc.symm.trans hb)
    obtain ⟨k, t⟩ := st
    simp only at e
    subst e
    have htimes : (b.map fun e => e.2.time) = (past.filter fun e => SaveTime (⟨T / N, 0, true⟩ : Fixed K) e.2.time).map fun e => e.2.time :=
      forall₂_times (hb2.imp fun _ _ h => h.1)
    refine ⟨_, rfl, ⟨N, rfl, ?_, ?_⟩, rfl⟩
    · refine htimes.trans (all_times hT hN rfl hon (fun e he => hle e (List.mem_filter.1 he).1) (hmem _ N (by simp) (hall N (by simp) ?_)))
      simp only [Fixed.next]; field_simp; simp
    · intro e he
      obtain ⟨a, ha, ha2⟩ := forall₂_right hb2 e he
      exact ⟨a.1, by rw [ha2.1]; exact (List.mem_filter.1 ha).1, ha2.2⟩
  | window type name ps f time radius =>
    have h := h1 rfl
    obtain ⟨v', last', h', hi, hs⟩ := calls_window (dx := dx) hev type name ps f time radius past none 0 ⟨[], 0⟩
    have e : st = ((v', last'), (⟨[], 0⟩ : FileState V K)) := Except.ok.inj (h.symm.trans h')
    obtain ⟨v, rfl⟩ := Option.isSome_iff_exists.1 (hs (.inl hpast))
    subst e
    exact ⟨_, rfl, ⟨v, info, rfl, hinfo, hi⟩, rfl⟩
  | snapshots type name ps f time radius n hn hr hl =>
    have hnK : (0 : K) < n := by exact_mod_cast hn
    obtain ⟨⟨-, hon, hc⟩, hall⟩ := h2 _ rfl
    obtain ⟨v', last', h', hi, hs⟩ := calls_window (dx := dx) hev type name ps f time radius
      (past.filter fun e => SaveTime (⟨radius / n, max (time - radius) 0, false⟩ : Fixed K) e.2.time) none 0 ⟨[], 0⟩
    have e : st.2 = ((v', last'), (⟨[], 0⟩ : FileState V K)) := Except.ok.inj (hc.symm.trans h')
    obtain ⟨e1, he1, -⟩ := hmem _ 1 (by simp) (hall 1 (by simp) (by simp only [Fixed.next]; push_cast; linarith))
    obtain ⟨v, rfl⟩ := Option.isSome_iff_exists.1 (hs (.inl (List.ne_nil_of_mem he1)))
    obtain ⟨k, t⟩ := st
    simp only at e
    subst e
    exact ⟨_, rfl, trivial, rfl⟩
  | average type name ps time radius n hn hr ht =>
    obtain ⟨⟨-, hon, hc⟩, hall⟩ := h2 _ rfl
    obtain ⟨s', t', h', hf⟩ := calls_average (eval := eval) (dx := dx) (F := F) type name ps time radius _ IntegratedState.init ⟨[], 0⟩ (.inr (first_inside hn hr ht hon))
    have e : st.2 = (s', t') := Except.ok.inj (hc.symm.trans h')
    obtain ⟨k, t⟩ := st
    simp only at e
    subst e
    exact ⟨_, rfl, trivial, congrArg (· + 1) hf⟩

/-- The whole program. -/
theorem program_ok [Archimedean K] (eval : F → V → V → K → Res V) (dx : K) (s : Settings K F) (kind : Kind) (env : Env V K) (bc : V → Res V) (obeys : V → Bool)
    (int : V →ₗ[K] W) (G : W → W) (ws : W → Nat → K) (Ready : V → Prop) (hs : Sound env.sys bc int G ws Ready) (hx : env.len 0 ≠ 0) (Q : W → Prop)
    (δ : K) (hst : Stable kind env G ws Q δ) (hobeys : ∀ u, Ready u → Q (int u) → obeys u = true) (hev : ∀ f o u k, ∃ r, eval f o u k = .ok r) (hend : 0 < s.endTime) (hasked : ∀ w ∈ s.writers, Asked s.endTime w)
    (hlast : ∃ w ∈ s.writers, SavesEnd w) (u u0 : V) (others : List V) (hlen : others.length = kind.substeps) (hbc : bc u = .ok u0) (hr : Ready u0) (hq : Q (int u0)) :
    ∃ fuel past sim, program eval dx s kind env bc obeys u others fuel = .ok (some sim) ∧ sim.info.time = s.endTime ∧
      past.head? = some (u0, ⟨0, 0⟩) ∧ (∃ u', past.getLast? = some (u', sim.info)) ∧ past.Pairwise (fun a b => a.2.time < b.2.time) ∧
      past.IsChain (fun a b => int b.1 = textbook kind (fun w => (1 / env.len 0) • G w) (b.2.time - a.2.time) (int a.1)) ∧ (∀ e ∈ past, Q (int e.1)) ∧
      sim.log = past.flatMap (fun e => (List.range s.writers.length).map fun w => ⟨w, e.1, e.2⟩) ∧
      ∀ i : Fin s.writers.length, Delivered eval s.endTime past (s.writers.get i) ((s.writers.get i).file (sim.ws i)).entries ∧
        ((s.writers.get i).file (sim.ws i)).finalized = finals (s.writers.get i) := by
  classical
  have hl2 : ∃ w ∈ s.writers, ∃ p, params w = some p ∧ SaveTime p s.endTime := by
    obtain ⟨w, hw, hw2⟩ := hlast
    refine ⟨w, hw, ?_⟩
    have ha := hasked w hw
    cases ha with
    | saves type name ps N initial hN =>
      refine ⟨_, rfl, N, by split_ifs <;> omega, ?_⟩
      have : (0 : K) < N := by exact_mod_cast hN
      simp only; field_simp; simp
    | functional type name ps f N hN =>
      refine ⟨_, rfl, N, by simp, ?_⟩
      have : (0 : K) < N := by exact_mod_cast hN
      simp only; field_simp; simp
    | everyStep => exact hw2.elim
    | nothing w start initial h => rcases h with ⟨type, name, ps, rfl⟩ | ⟨type, name, ps, f, rfl⟩ <;> exact hw2.elim
    | window => exact hw2.elim
    | snapshots => exact hw2.elim
    | average => exact hw2.elim
  obtain ⟨fuel, past, sim, r1, r2, r3, r4, r5, r5b, r5c, r6, r7⟩ := run_all eval dx s kind env bc obeys int G ws Ready hs hx Q δ hst hobeys hend (fun w hw => asked_able hev hend (hasked w hw))
    hl2 ⟨u0 :: others, ⟨0, 0⟩, freshAll V s.writers, []⟩ (by simp [hlen]) u0 rfl hr hq rfl rfl rfl
  obtain ⟨u', hu'⟩ := r4
  have hle : ∀ e ∈ past, e.2.time ≤ s.endTime := by
    intro e he
    obtain ⟨init, rfl⟩ := List.getLast?_eq_some_iff.1 hu'
    rw [List.pairwise_append] at r5
    rcases List.mem_append.1 he with he | he
    · have := r5.2.2 e he _ (List.mem_singleton_self _)
      rw [← r2]; exact this.le
    · rw [List.mem_singleton.1 he, ← r2]
  have each := fun i => finish hev hend (hasked _ (List.get_mem s.writers i)) past (by rintro rfl; cases r3) hle sim.info r2 (sim.ws i) (r7 i).1 (r7 i).2
  choose x hx1 hx2 hx3 using each
  refine ⟨fuel, past, { sim with ws := x }, ?_, r2, r3, ⟨u', hu'⟩, r5, r5b, r5c, r6, fun i => ⟨hx2 i, hx3 i⟩⟩
  have hf : finalizeAll eval dx s.writers sim.info sim.ws = .ok x := by
    have := fold_each (fun i => (s.writers.get i).finalize eval dx sim.info) x (List.finRange _) (List.nodup_finRange _) sim.ws (fun i _ => hx1 i)
    simp only [List.mem_finRange, if_true] at this
    exact this
  have hstart : start (simulator eval dx s kind env bc obeys) u others (freshAll V s.writers) = .ok ⟨u0 :: others, ⟨0, 0⟩, freshAll V s.writers, []⟩ := by
    unfold start
    simp only [simulator, hbc, Res.ok_bind, Res.pure_eq]
  unfold program
  simp only [hstart, Res.ok_bind, r1, hf]

/-- The interval. -/
theorem interval_eq {K : Type} [Field K] [CharZero K] {x y : K} {n : Nat} (hn : n ≠ 0) (h : y * n = x) : y = x / n := by
  have : (n : K) ≠ 0 := by exact_mod_cast hn
  rw [← h]; field_simp

/-- An absent key has no value. -/
theorem no_value {α : Type} {f : Str → Option α} {t : Tree} {k : String} {x : α} (h : Absent t k) : ¬ Value f t [k] x := by
  rintro ⟨s, ⟨c, hc, -⟩, -⟩
  exact absent_iff.1 h ⟨c, at_one.1 hc⟩

end Verif.Setup
