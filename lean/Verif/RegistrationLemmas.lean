import Verif.Registration
import Mathlib.Data.List.Nodup

/-! Lemmas for C113. -/

namespace Verif.Registration
open Verif

variable {C : Type}

/-- What the table has under a platform and a name. -/
def entry (t : Table C) (platform name : String) : Option C := (t platform).bind (· name)

theorem access_entry (t : Table C) (p : String) : (∀ n, (access t p).1 n = entry t p n) ∧ ∀ p' n, entry (access t p).2 p' n = entry t p' n := by
  unfold access entry
  rcases h : t p with _ | row
  · refine ⟨fun n => rfl, fun p' n => ?_⟩
    by_cases e : p' = p
    · subst e; simp [h]
    · simp [Function.update_of_ne e]
  · exact ⟨fun n => rfl, fun _ _ => rfl⟩

theorem register_eq (t : Table C) (p n : String) (c : C) :
    (entry t p n ≠ none → register t p n c = .error .thrown) ∧
    (entry t p n = none → ∃ t', register t p n c = .ok t' ∧ ∀ p' n', entry t' p' n' = if p' = p ∧ n' = n then some c else entry t p' n') := by
  have hk : register t p n c = match (access t p).1 n with
    | some _ => .error .thrown
    | none => .ok (Function.update (access t p).2 p (some (Function.update (access t p).1 n (some c)))) := rfl
  obtain ⟨h1, h2⟩ := access_entry t p
  constructor
  · intro h
    rw [hk, h1]
    cases he : entry t p n
    · exact (h he).elim
    · rfl
  · intro h
    rw [h1, h] at hk
    refine ⟨_, hk, fun p' n' => ?_⟩
    by_cases e : p' = p
    · subst e
      by_cases e' : n' = n
      · subst e'; simp [entry]
      · rw [if_neg (by tauto)]
        simp [entry, Function.update_of_ne e']
        rw [h1]; rfl
    · rw [if_neg (by tauto)]
      show ((Function.update (access t p).2 p _) p').bind _ = _
      rw [Function.update_of_ne e]
      exact h2 p' n'

/-- The platform and the name of a line. -/
def Line.key (l : Line) : String × String := (l.platform, l.name)

theorem startup_from (creator : String → C) (order : List Line) (t : Table C) :
    ((∃ t', order.foldlM (fun t l => register t l.platform l.name (creator l.cls)) t = .ok t') ↔ (order.map Line.key).Nodup ∧ ∀ l ∈ order, entry t l.platform l.name = none) ∧
    (∀ e, order.foldlM (fun t l => register t l.platform l.name (creator l.cls)) t = .error e → e = .thrown) ∧
    ∀ t', order.foldlM (fun t l => register t l.platform l.name (creator l.cls)) t = .ok t' →
      ∀ p n, entry t' p n = match order.find? fun l => l.platform == p && l.name == n with
        | some l => some (creator l.cls)
        | none => entry t p n := by
  induction order generalizing t with
  | nil =>
    refine ⟨by simp [List.foldlM, pure, Except.pure], fun e h => by simp [List.foldlM, pure, Except.pure] at h, ?_⟩
    rintro t' h p n
    simp only [List.foldlM, pure, Except.pure, Except.ok.injEq] at h
    subst h
    rfl
  | cons l order ih =>
    obtain ⟨h1, h2⟩ := register_eq t l.platform l.name (creator l.cls)
    rw [List.foldlM_cons]
    by_cases he : entry t l.platform l.name = none
    · obtain ⟨t1, g1, g2⟩ := h2 he
      rw [g1]
      change ((∃ t', order.foldlM _ t1 = _) ↔ _) ∧ (∀ e, order.foldlM _ t1 = _ → _) ∧ ∀ t', order.foldlM _ t1 = _ → _
      obtain ⟨i1, i2, i3⟩ := ih t1
      refine ⟨?_, i2, fun t' ht p n => ?_⟩
      · rw [i1]
        simp only [List.map_cons, List.nodup_cons, List.mem_map, not_exists, not_and, List.mem_cons, forall_eq_or_imp]
        constructor
        · rintro ⟨a, b⟩
          refine ⟨⟨fun x hx hk => ?_, a⟩, he, fun x hx => ?_⟩
          · have := b x hx
            rw [g2] at this
            simp only [Line.key, Prod.mk.injEq] at hk
            rw [if_pos hk] at this
            simp at this
          · have := b x hx
            rw [g2] at this
            split_ifs at this with hc
            exact this
        · rintro ⟨⟨a, b⟩, -, c⟩
          refine ⟨b, fun x hx => ?_⟩
          rw [g2, if_neg fun hc => a x hx (by simp [Line.key, hc]), c x hx]
      · rw [i3 t' ht, g2, List.find?_cons]
        by_cases hc : p = l.platform ∧ n = l.name
        · obtain ⟨rfl, rfl⟩ := hc
          have hno : order.find? (fun x => x.platform == l.platform && x.name == l.name) = none := by
            rw [List.find?_eq_none]
            intro x hx hb
            simp only [Bool.and_eq_true, beq_iff_eq] at hb
            have := (i1.1 ⟨t', ht⟩).2 x hx
            rw [g2, if_pos hb] at this
            simp at this
          rw [hno]
          simp
        · have : (l.platform == p && l.name == n) = false := by
            rw [Bool.eq_false_iff]
            intro hb
            simp only [Bool.and_eq_true, beq_iff_eq] at hb
            exact hc ⟨hb.1.symm, hb.2.symm⟩
          rw [if_neg hc, this]
    · rw [h1 he]
      refine ⟨⟨fun ⟨t', h⟩ => by simp [bind, Except.bind] at h, fun h => (he (h.2 l (by simp))).elim⟩, fun e h => ?_, fun t' h => by simp [bind, Except.bind] at h⟩
      simp only [bind, Except.bind, Except.error.injEq] at h
      exact h.symm

theorem make_eq {A B : Type} (t : Table (A → Res B)) (p n : String) (args : A) :
    ((make t p n args).1 = match entry t p n with
      | none => .error .thrown
      | some c => c args) ∧ ∀ p' n', entry (make t p n args).2 p' n' = entry t p' n' := by
  obtain ⟨h1, h2⟩ := access_entry t p
  have hk : make t p n args = match (access t p).1 n with
    | none => (.error .thrown, (access t p).2)
    | some maker => (maker args, (access t p).2) := rfl
  rw [hk, h1]
  cases entry t p n <;> exact ⟨rfl, h2⟩

theorem makeAll_entry {A B : Type} (calls : List (String × String × A)) (t : Table (A → Res B)) (p n : String) : entry (makeAll t calls) p n = entry t p n := by
  induction calls generalizing t with
  | nil => rfl
  | cons c calls ih => exact (ih _).trans ((make_eq t c.1 c.2.1 c.2.2).2 p n)

theorem touch_thrown (key : Stats.Key) (zero : Functionals.Vol) (l : Stats.Snaps) : Stats.touch key zero (fun _ => .error .thrown) l = .error .thrown := by
  induction l with
  | nil => rfl
  | cons x l ih =>
    obtain ⟨k, v⟩ := x
    rw [Stats.touch]
    split_ifs
    · rfl
    · rfl
    · rw [ih]; rfl

theorem surface_thrown (name : String) (numberOfH : Int) (t : ℝ) (u : Functionals.Vol) (snaps : Stats.Snaps) :
    Stats.compute (structureSurface name numberOfH) t u snaps = .error .thrown := by
  simp only [Stats.compute, structureSurface, List.foldlM_cons, touch_thrown]
  rfl

end Verif.Registration
