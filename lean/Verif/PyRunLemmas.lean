import Verif.PyRun

/-! Helper lemmas for C96. -/

namespace Verif.PyConfig

theorem get_set : ∀ (d : Dict) (k k' : Text) (v : Val), (d.set k v).get k' = if k' = k then .ok v else d.get k'
  | [], k, k', v => by simp only [Dict.set, Dict.get]; by_cases h : k = k' <;> simp [h, eq_comm]
  | (a, w) :: d, k, k', v => by
    rw [Dict.set]
    by_cases ha : a = k
    · subst ha
      simp only [if_true, Dict.get]
      by_cases h : k' = a
      · simp [h]
      · rw [if_neg h, if_neg (fun hh : a = k' => h hh.symm), if_neg (fun hh : a = k' => h hh.symm)]
    · rw [if_neg ha, Dict.get, Dict.get, get_set d k k' v]
      by_cases h : a = k'
      · subst h; simp [ha]
      · simp [h]

theorem get_setOpt (d : Dict) (k k' : Text) (v : Option Val) : (setOpt d k v).get k' = if k' = k then (match v with | some v => .ok v | none => d.get k) else d.get k' := by
  cases v with
  | some v => exact get_set d k k' v
  | none => simp only [setOpt]; split_ifs with h <;> simp [h]

/-- Setting a part of the grid changes the grid only. -/
theorem get_setGrid {d d' : Dict} {l u n : Option Val} (h : setGrid d l u n = .ok d') (k : Text) (hk : k ≠ gridTag) : d'.get k = d.get k := by
  have key : ∀ (t : Text) (v : Val) (e : Dict), setGridKey d t v = .ok e → e.get k = d.get k := by
    intro t v e he
    unfold setGridKey at he
    cases hg : d.getDict gridTag with
    | error x => rw [hg] at he; cases he
    | ok g =>
      rw [hg] at he
      obtain rfl := Except.ok.inj he
      rw [get_set, if_neg hk]
  unfold setGrid at h
  split at h
  · obtain rfl := Except.ok.inj h; rw [get_set, if_neg hk]
  · exact key _ _ _ h
  · exact key _ _ _ h
  · exact key _ _ _ h
  · obtain rfl := Except.ok.inj h; rfl

theorem get_setInitialData {d d' : Dict} {f : Text} {p : Option (List (Text × List Val))} (h : setInitialData d f p = .ok d') (k : Text) (hk : k ≠ initialDataTag) : d'.get k = d.get k := by
  unfold setInitialData at h
  split at h
  · obtain rfl := Except.ok.inj h; rw [get_set, if_neg hk]
  · obtain rfl := Except.ok.inj h; rw [get_set, if_neg hk]
  · cases h

theorem get_initialSettings {a : Args} {name : Text} {d : Dict} {fs : Files} {r : Dict × Files × Option Text} (h : initialSettings a name d fs = .ok r) (k : Text) (hk : k ≠ initialDataTag) :
    r.1.get k = d.get k := by
  unfold initialSettings at h
  split at h
  · cases hi : setInitialData d (pyName name) a.initialParameters with
    | error x => rw [hi] at h; cases h
    | ok e => rw [hi] at h; obtain rfl := Except.ok.inj h; exact get_setInitialData hi k hk
  · cases hc : copyFile fs ‹Text› (pyName name) with
    | error x => rw [hc] at h; cases h
    | ok fs' =>
      rw [hc, Res.ok_bind] at h
      cases hi : setInitialData d (pyName name) a.initialParameters with
      | error x => rw [hi] at h; cases h
      | ok e => rw [hi] at h; obtain rfl := Except.ok.inj h; exact get_setInitialData hi k hk
  · obtain rfl := Except.ok.inj h; rfl

theorem settings_parts {a : Args} {o : Obj} {fs : Files} {r : Text × Obj × Files × Option Text} (h : settings a o fs = .ok r) :
    ∃ d q, nameOf a o.fvm = .ok r.1 ∧ setGrid (simpleSettings a r.1 o.fvm) a.lowerCorner a.upperCorner a.dimension = .ok d ∧ initialSettings a r.1 d fs = .ok q ∧
      r.2.1 = ⟨lastSettings a q.1, uqSettings a r.1 o.uq, lastSettings a q.1⟩ ∧ r.2.2 = (q.2.1, q.2.2) := by
  unfold settings at h
  cases h1 : nameOf a o.fvm with
  | error x => rw [h1] at h; cases h
  | ok name =>
    rw [h1, Res.ok_bind] at h
    cases h2 : setGrid (simpleSettings a name o.fvm) a.lowerCorner a.upperCorner a.dimension with
    | error x => rw [h2] at h; cases h
    | ok d =>
      rw [h2, Res.ok_bind] at h
      cases h3 : initialSettings a name d fs with
      | error x => rw [h3] at h; cases h
      | ok q =>
        rw [h3, Res.ok_bind] at h
        obtain rfl := Except.ok.inj h
        exact ⟨d, q, rfl, h2, h3, rfl, rfl⟩

end Verif.PyConfig
