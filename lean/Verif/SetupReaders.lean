import Verif.SetupLemmas

/-!
Lemmas for C85: writers, functionals and the whole file.
-/

namespace Verif.Setup
open Params Factories
variable {K F : Type}

theorem createBase_iff {mpi : Bool} {type basename : Str} {node : Tree} {w : WriterObj K F} :
    createBase mpi type basename node = .ok w ↔ FileType mpi type ∧ w = .base type basename node := by
  have hT : ∀ c : Prop, [Decidable c] → ∀ y : Res (WriterObj K F), ((if c then .ok (.base type basename node) else y) = .ok w) ↔ (c ∧ w = .base type basename node ∨ ¬ c ∧ y = .ok w) := by
    intro c _ y
    by_cases h : c <;> simp [h, eq_comm]
  unfold createBase FileType
  cases mpi
  · simp only [Bool.false_eq_true, if_false, hT, reduceCtorEq, and_false, or_false, List.map_cons, List.map_nil, List.mem_cons, List.not_mem_nil, true_and]
    generalize (type = "netcdf".toList) = A
    generalize (type = "python".toList) = B
    generalize (type = "dll".toList) = C
    generalize (type = "hdf5".toList) = D
    generalize (w = WriterObj.base type basename node) = W
    tauto
  · simp only [if_true, hT, reduceCtorEq, and_false, or_false, List.map_cons, List.map_nil, List.mem_cons, List.not_mem_nil, false_and, Bool.true_eq_false]
    generalize (type = "netcdf".toList) = A
    generalize (type = "python".toList) = B
    generalize (type = "dll".toList) = C
    generalize (type = "hdf5".toList) = D
    generalize (w = WriterObj.base type basename node) = W
    tauto

theorem safe_createBase (mpi : Bool) (type basename : Str) (node : Tree) : Safe (createBase mpi type basename node : Res (WriterObj K F)) := by
  unfold createBase
  split <;> (repeat' refine safe_ite (fun _ => safe_ok _) fun _ => ?_) <;> exact safe_thrown

theorem file_iff {mpi : Bool} {node : Tree} {w : WriterObj K F} :
    FileMeant mpi node w ↔ ∃ type, text ["type"] node = .ok type ∧ ∃ basename, text ["basename"] node = .ok basename ∧ createBase mpi type basename node = .ok w := by
  unfold FileMeant
  simp only [text_iff, createBase_iff]
  constructor
  · rintro ⟨t, b, h1, h2, h3, h4⟩; exact ⟨t, h1, b, h2, h3, h4⟩
  · rintro ⟨t, h1, b, h2, h3, h4⟩; exact ⟨t, b, h1, h2, h3, h4⟩

theorem toInt32_iff {n : Nat} {i : Int} : toInt32 n = i ↔ Int32 n i := by
  unfold toInt32 Int32
  constructor
  · rintro rfl
    refine ⟨?_, ?_, ?_⟩
    · simp only [Int.bmod]; split <;> omega
    · simp only [Int.bmod]; split <;> omega
    · simp only [Int.bmod]
      split
      · exact ⟨n / 2 ^ 32, by omega⟩
      · exact ⟨n / 2 ^ 32 + 1, by omega⟩
  · rintro ⟨h1, h2, k, hk⟩
    simp only [Int.bmod]
    split <;> omega

variable [Field K] [LinearOrder K] [IsStrictOrderedRing K]

theorem quotient_iff {x : K} {n : Nat} {i : Option K} : quotient x n = i ↔ IntervalMeant x n i := by
  unfold quotient IntervalMeant
  by_cases h : n = 0
  · simp [h, eq_comm]
  · have hn : (n : K) ≠ 0 := Nat.cast_ne_zero.2 h
    simp only [h, if_false, false_and, ne_eq, not_false_eq_true, true_and, false_or]
    constructor
    · rintro rfl; exact ⟨_, div_mul_cancel₀ _ hn, rfl⟩
    · rintro ⟨y, rfl, rfl⟩; rw [mul_div_cancel_right₀ _ hn]

theorem createWriter_iff {mpi : Bool} {conv : Conv K} {fvm : Tree} {endTime : K} (he : Value conv.real fvm ["endTime"] endTime) {o : Option (WriterObj K F)} :
    createWriter mpi conv fvm = .ok o ↔ (∃ node w, First fvm "writer" node ∧ WriterMeant mpi conv endTime node w ∧ o = some w) ∨ (Absent fvm "writer" ∧ o = none) := by
  unfold createWriter
  by_cases h : has "writer" fvm = true
  swap
  · rw [if_neg h]
    have ha := has_not.1 h
    constructor
    · intro hx; cases hx; exact .inr ⟨ha, rfl⟩
    · rintro (⟨d, w, hd, -⟩ | ⟨-, rfl⟩)
      · exact absurd ⟨d, hd⟩ (absent_iff.1 ha)
      · rfl
  obtain ⟨node, hn⟩ := has_iff.1 h
  have hR : ((∃ node w, First fvm "writer" node ∧ WriterMeant mpi conv endTime node w ∧ o = some w) ∨ (Absent fvm "writer" ∧ o = none)) ↔
      ∃ w, WriterMeant mpi conv endTime node w ∧ o = some w := by
    constructor
    · rintro (⟨d, w, hd, hw, rfl⟩ | ⟨ha, -⟩)
      · obtain rfl := hn.unique hd; exact ⟨w, hw, rfl⟩
      · exact absurd ⟨_, hn⟩ (absent_iff.1 ha)
    · rintro ⟨w, hw, rfl⟩; exact .inl ⟨node, w, hn, hw, rfl⟩
  rw [hR, if_pos h, text_cons hn, text_cons hn, child_one hn]
  simp only [Res.ok_bind, get_iff.2 he]
  have hinit : ∀ b : Bool, ((if has "writeInitialTimestep" node = true then get conv.bool ["writeInitialTimestep"] node else .ok false : Res Bool) = .ok b) ↔
      (Value conv.bool node ["writeInitialTimestep"] b ∨ Absent node "writeInitialTimestep" ∧ b = false) := by
    intro b
    by_cases h : has "writeInitialTimestep" node = true
    · rw [if_pos h, get_iff]
      obtain ⟨c, hc⟩ := has_iff.1 h
      constructor
      · exact .inl
      · rintro (h | ⟨ha, -⟩)
        · exact h
        · exact absurd ⟨c, hc⟩ (absent_iff.1 ha)
    · rw [if_neg h]
      have ha := has_not.1 h
      constructor
      · intro hx; cases hx; exact .inr ⟨ha, rfl⟩
      · rintro (h | ⟨-, rfl⟩)
        · obtain ⟨c, hc, -⟩ := value_cons.1 h
          exact absurd ⟨c, hc⟩ (absent_iff.1 ha)
        · rfl
  have hpos : ∀ {α : Type} {f : Str → Option α} {k : String} {x : α}, Value f node [k] x → has k node = true := by
    intro α f k x hv
    obtain ⟨c, hc, -⟩ := value_cons.1 hv
    exact has_iff.2 ⟨c, hc⟩
  constructor
  · intro hx
    obtain ⟨type, ht, hx⟩ := bind_iff.1 hx
    obtain ⟨bn, hb, hx⟩ := bind_iff.1 hx
    obtain ⟨base, hbase, hx⟩ := bind_iff.1 hx
    have hF : FileMeant mpi node base := file_iff.2 ⟨type, ht, bn, hb, hbase⟩
    split at hx
    · obtain ⟨n, hn', hx⟩ := bind_iff.1 hx
      obtain ⟨ini, hi, hx⟩ := bind_iff.1 hx
      split at hx
      · obtain ⟨a, ha, hx⟩ := bind_iff.1 hx
        obtain ⟨b, hb, hx⟩ := bind_iff.1 hx
        cases hx
        refine ⟨_, .coarse hF (get_iff.1 hn') (quotient_iff.1 rfl) ?_ (get_iff.1 ha) (get_iff.1 hb) (toInt32_iff.1 rfl) (toInt32_iff.1 rfl), rfl⟩
        rcases (hinit _).1 hi with h | ⟨h, -⟩
        · exact .inl ⟨_, h⟩
        · exact .inr h
      · rename_i hc
        cases hx
        exact ⟨_, .saves hF (get_iff.1 hn') (quotient_iff.1 rfl) ((hinit _).1 hi) (has_not.1 hc), rfl⟩
    · rename_i hs
      split at hx
      · obtain ⟨t, ht, hx⟩ := bind_iff.1 hx
        obtain ⟨r, hr, hx⟩ := bind_iff.1 hx
        split at hx
        · obtain ⟨n, hn', hx⟩ := bind_iff.1 hx
          cases hx
          exact ⟨_, .snapshots hF (has_not.1 hs) (get_iff.1 ht) (get_iff.1 hr) (get_iff.1 hn') (quotient_iff.1 rfl), rfl⟩
        · rename_i hc
          cases hx
          exact ⟨_, .radius hF (has_not.1 hs) (get_iff.1 ht) (get_iff.1 hr) (has_not.1 hc), rfl⟩
      · rename_i hc
        cases hx
        exact ⟨_, .every hF (has_not.1 hs) (has_not.1 hc), rfl⟩
  · rintro ⟨w, hw, rfl⟩
    cases hw with
    | saves hF h1 h2 h3 h4 =>
      obtain ⟨type, ht, bn, hb, hbase⟩ := file_iff.1 hF
      rw [ht, Res.ok_bind, hb, Res.ok_bind, hbase, Res.ok_bind, if_pos (hpos h1), get_iff.2 h1, Res.ok_bind, (hinit _).2 h3, Res.ok_bind, if_neg (has_not.2 h4), quotient_iff.2 h2]
    | coarse hF h1 h2 h3 h4 h5 h6 h7 =>
      obtain ⟨type, ht, bn, hb, hbase⟩ := file_iff.1 hF
      obtain ⟨b, hi⟩ : ∃ b, (if has "writeInitialTimestep" node = true then get conv.bool ["writeInitialTimestep"] node else .ok false : Res Bool) = .ok b := by
        rcases h3 with ⟨b, h3⟩ | h3
        · exact ⟨b, (hinit b).2 (.inl h3)⟩
        · exact ⟨false, (hinit _).2 (.inr ⟨h3, rfl⟩)⟩
      rw [ht, Res.ok_bind, hb, Res.ok_bind, hbase, Res.ok_bind, if_pos (hpos h1), get_iff.2 h1, Res.ok_bind, hi, Res.ok_bind, if_pos (hpos h4), get_iff.2 h4, Res.ok_bind, get_iff.2 h5,
        Res.ok_bind, quotient_iff.2 h2, toInt32_iff.2 h6, toInt32_iff.2 h7]
    | snapshots hF h1 h2 h3 h4 h5 =>
      obtain ⟨type, ht, bn, hb, hbase⟩ := file_iff.1 hF
      rw [ht, Res.ok_bind, hb, Res.ok_bind, hbase, Res.ok_bind, if_neg (has_not.2 h1), if_pos (hpos h3), get_iff.2 h2, Res.ok_bind, get_iff.2 h3, Res.ok_bind, if_pos (hpos h4),
        get_iff.2 h4, Res.ok_bind, quotient_iff.2 h5]
    | radius hF h1 h2 h3 h4 =>
      obtain ⟨type, ht, bn, hb, hbase⟩ := file_iff.1 hF
      rw [ht, Res.ok_bind, hb, Res.ok_bind, hbase, Res.ok_bind, if_neg (has_not.2 h1), if_pos (hpos h3), get_iff.2 h2, Res.ok_bind, get_iff.2 h3, Res.ok_bind, if_neg (has_not.2 h4)]
    | every hF h1 h2 =>
      obtain ⟨type, ht, bn, hb, hbase⟩ := file_iff.1 hF
      rw [ht, Res.ok_bind, hb, Res.ok_bind, hbase, Res.ok_bind, if_neg (has_not.2 h1), if_neg (has_not.2 h2)]

omit [IsStrictOrderedRing K] in
theorem safe_createWriter (mpi : Bool) (conv : Conv K) (fvm : Tree) : Safe (createWriter mpi conv fvm : Res (Option (WriterObj K F))) := by
  unfold createWriter
  refine safe_ite (fun _ => (safe_text _ _).bind fun _ _ => (safe_text _ _).bind fun _ _ => (safe_child _ _).bind fun _ _ => (safe_createBase _ _ _ _).bind fun _ _ =>
    safe_ite (fun _ => (safe_get _ _ _).bind fun _ _ => (safe_get _ _ _).bind fun _ _ => Safe.bind (safe_ite (fun _ => safe_get _ _ _) fun _ => safe_ok _) fun _ _ =>
      safe_ite (fun _ => (safe_get _ _ _).bind fun _ _ => (safe_get _ _ _).bind fun _ _ => safe_ok _) fun _ => safe_ok _) fun _ =>
    safe_ite (fun _ => (safe_get _ _ _).bind fun _ _ => (safe_get _ _ _).bind fun _ _ => safe_ite (fun _ => (safe_get _ _ _).bind fun _ _ => safe_ok _) fun _ => safe_ok _) fun _ => safe_ok _)
    fun _ => safe_ok _

theorem functionalParameters_iff {fvm node t : Tree} : functionalParameters fvm node = .ok t ↔ ∃ eqs, Entries fvm "equationParameters" eqs ∧ t = WithEquation eqs node := by
  unfold functionalParameters
  rw [entries_iff (f := fun l => .ok (l.foldl (fun t p => addString p.1 p.2.data t) node)) (by rfl)]
  refine exists_congr fun eqs => and_congr_right fun _ => ?_
  simp only [Except.ok.injEq, WithEquation]
  exact eq_comm

theorem createFunctional_iff {mpi : Bool} {conv : Conv K} {make : Str → Str → Tree → Res F} {fvm node : Tree} {endTime : K} (he : Value conv.real fvm ["endTime"] endTime)
    {w : WriterObj K F} : createFunctional mpi conv make fvm node = .ok w ↔ FunctionalMeant mpi conv make fvm endTime node w := by
  have hpos : ∀ {α : Type} {f : Str → Option α} {k : String} {x : α}, Value f node [k] x → has k node = true := by
    intro α f k x hv
    obtain ⟨c, hc, -⟩ := value_cons.1 hv
    exact has_iff.2 ⟨c, hc⟩
  unfold createFunctional
  constructor
  · intro hx
    obtain ⟨name, hname, hx⟩ := bind_iff.1 hx
    obtain ⟨type, ht, hx⟩ := bind_iff.1 hx
    obtain ⟨bn, hb, hx⟩ := bind_iff.1 hx
    obtain ⟨out, ho, hx⟩ := bind_iff.1 hx
    obtain ⟨base, hbase, hx⟩ := bind_iff.1 hx
    obtain ⟨ps, hps, hx⟩ := bind_iff.1 hx
    obtain ⟨platform, hplat, hx⟩ := bind_iff.1 hx
    obtain ⟨f, hf, hx⟩ := bind_iff.1 hx
    have ho' := at_one.1 (child_iff.1 ho)
    rw [text_cons ho'] at ht hb
    have hF : FileMeant mpi out base := file_iff.2 ⟨type, ht, bn, hb, hbase⟩
    obtain ⟨eqs, hE, hpe⟩ := functionalParameters_iff.1 hps
    rw [hpe] at hf
    split at hx
    · obtain ⟨t, ht, hx⟩ := bind_iff.1 hx
      obtain ⟨r, hr, hx⟩ := bind_iff.1 hx
      split at hx
      · obtain ⟨n, hn', hx⟩ := bind_iff.1 hx
        cases hx
        exact .snapshots ho' hF (text_iff.1 hname) (text_iff.1 hplat) hE hf (get_iff.1 ht) (get_iff.1 hr) (get_iff.1 hn') (quotient_iff.1 rfl)
      · rename_i hc
        cases hx
        exact .window ho' hF (text_iff.1 hname) (text_iff.1 hplat) hE hf (get_iff.1 ht) (get_iff.1 hr) (has_not.1 hc)
    · rename_i hc
      split at hx
      · obtain ⟨n, hn', hx⟩ := bind_iff.1 hx
        rw [get_iff.2 he, Res.ok_bind] at hx
        cases hx
        exact .saves ho' hF (text_iff.1 hname) (text_iff.1 hplat) hE hf (has_not.1 hc) (get_iff.1 hn') (quotient_iff.1 rfl)
      · cases hx
  · intro hw
    cases hw with
    | window ho hF h1 h2 h3 h4 h5 h6 h7 =>
      obtain ⟨type, ht, bn, hb, hbase⟩ := file_iff.1 hF
      rw [text_iff.2 h1, Res.ok_bind, text_cons ho, ht, Res.ok_bind, text_cons ho, hb, Res.ok_bind, child_one ho, Res.ok_bind, hbase, Res.ok_bind,
        functionalParameters_iff.2 ⟨_, h3, rfl⟩, Res.ok_bind, text_iff.2 h2, Res.ok_bind, h4, Res.ok_bind, if_pos (hpos h5), get_iff.2 h5, Res.ok_bind, get_iff.2 h6, Res.ok_bind,
        if_neg (has_not.2 h7)]
    | snapshots ho hF h1 h2 h3 h4 h5 h6 h7 h8 =>
      obtain ⟨type, ht, bn, hb, hbase⟩ := file_iff.1 hF
      rw [text_iff.2 h1, Res.ok_bind, text_cons ho, ht, Res.ok_bind, text_cons ho, hb, Res.ok_bind, child_one ho, Res.ok_bind, hbase, Res.ok_bind,
        functionalParameters_iff.2 ⟨_, h3, rfl⟩, Res.ok_bind, text_iff.2 h2, Res.ok_bind, h4, Res.ok_bind, if_pos (hpos h5), get_iff.2 h5, Res.ok_bind, get_iff.2 h6, Res.ok_bind,
        if_pos (hpos h7), get_iff.2 h7, Res.ok_bind, quotient_iff.2 h8]
    | saves ho hF h1 h2 h3 h4 h5 h6 h7 =>
      obtain ⟨type, ht, bn, hb, hbase⟩ := file_iff.1 hF
      rw [text_iff.2 h1, Res.ok_bind, text_cons ho, ht, Res.ok_bind, text_cons ho, hb, Res.ok_bind, child_one ho, Res.ok_bind, hbase, Res.ok_bind,
        functionalParameters_iff.2 ⟨_, h3, rfl⟩, Res.ok_bind, text_iff.2 h2, Res.ok_bind, h4, Res.ok_bind, if_neg (has_not.2 h5), if_pos (hpos h6), get_iff.2 h6, Res.ok_bind,
        get_iff.2 he, Res.ok_bind, quotient_iff.2 h7]

omit [IsStrictOrderedRing K] in
theorem safe_createFunctional (mpi : Bool) (conv : Conv K) {make : Str → Str → Tree → Res F} (hm : ∀ p n t, Safe (make p n t)) (fvm node : Tree) :
    Safe (createFunctional mpi conv make fvm node) := by
  unfold createFunctional functionalParameters
  refine (safe_text _ _).bind fun _ _ => (safe_text _ _).bind fun _ _ => (safe_text _ _).bind fun _ _ => (safe_child _ _).bind fun _ _ => (safe_createBase _ _ _ _).bind fun _ _ =>
    Safe.bind (safe_ite (fun _ => (safe_child _ _).bind fun _ _ => safe_ok _) fun _ => safe_ok _) fun _ _ => (safe_text _ _).bind fun _ _ => (hm _ _ _).bind fun _ _ =>
    safe_ite (fun _ => (safe_get _ _ _).bind fun _ _ => (safe_get _ _ _).bind fun _ _ => safe_ite (fun _ => (safe_get _ _ _).bind fun _ _ => safe_ok _) fun _ => safe_ok _) fun _ =>
    safe_ite (fun _ => (safe_get _ _ _).bind fun _ _ => (safe_get _ _ _).bind fun _ _ => safe_ok _) fun _ => safe_thrown

theorem createFunctionals_iff {mpi : Bool} {conv : Conv K} {make : Str → Str → Tree → Res F} {fvm : Tree} {endTime : K} (he : Value conv.real fvm ["endTime"] endTime)
    {ws : List (WriterObj K F)} : createFunctionals mpi conv make fvm = .ok ws ↔
      ∃ l, Entries fvm "functionals" l ∧ List.Forall₂ (fun (c : Str × Tree) w => FunctionalMeant mpi conv make fvm endTime c.2 w) l ws := by
  unfold createFunctionals
  rw [entries_iff (f := fun l => l.mapM fun p => createFunctional mpi conv make fvm p.2) (by rfl)]
  refine exists_congr fun l => and_congr_right fun _ => ?_
  rw [mapM_iff]
  simp only [createFunctional_iff he]

omit [Field K] [LinearOrder K] [IsStrictOrderedRing K] in
theorem adjuster_eq : (WriterObj.isAdjuster : WriterObj K F → Bool) = Adjusts := by
  funext w; cases w <;> rfl

theorem readSetup_iff (cuda mpi : Bool) (conv : Conv K) (load : Str → Option Str) (make : Str → Str → Tree → Res F) (root : Tree) (s : Settings K F)
    (hA : ∀ c, (∃ o, assemble cuda c = .ok o) ↔ Offered cuda c) :
    readSetup cuda mpi conv load make root = .ok s ↔ Described cuda mpi conv load make root s := by
  have hall : ∀ fvm : Tree, (fvm.children.all fun p => supportedNodes.any fun k => p.1 == k.toList) = true ↔
      ∀ p ∈ fvm.children, p.1 ∈ ["name", "platform", "boundary", "flux", "endTime", "equation", "equationParameters", "reconstruction", "cfl", "integrator", "initialData", "writer",
        "grid", "diffusion", "functionals"].map String.toList := by
    intro fvm
    rw [List.all_eq_true]
    refine forall_congr' fun p => imp_congr_right fun _ => ?_
    rw [List.any_eq_true, List.mem_map]
    refine exists_congr fun k => and_congr_right fun _ => ?_
    rw [beq_iff_eq]; exact eq_comm
  unfold readSetup Described loadFiles
  constructor
  · intro h
    obtain ⟨raw, hraw, h⟩ := bind_iff.1 h
    obtain ⟨cfg, hcfg, h⟩ := bind_iff.1 h
    obtain ⟨ch, hch, hcfg⟩ := bind_iff.1 hcfg
    cases hcfg
    obtain ⟨fvm, hfvm, h⟩ := bind_iff.1 h
    obtain ⟨u, hknown, h⟩ := bind_iff.1 h
    obtain ⟨grid, hgrid, h⟩ := bind_iff.1 h
    obtain ⟨boundary, hboundary, h⟩ := bind_iff.1 h
    obtain ⟨endTime, hendTime, h⟩ := bind_iff.1 h
    obtain ⟨equation, hequation, h⟩ := bind_iff.1 h
    obtain ⟨flux, hflux, h⟩ := bind_iff.1 h
    obtain ⟨recon, hrecon, h⟩ := bind_iff.1 h
    obtain ⟨cfl, hcfl, h⟩ := bind_iff.1 h
    obtain ⟨integ, hinteg, h⟩ := bind_iff.1 h
    obtain ⟨initial, hinitial, h⟩ := bind_iff.1 h
    obtain ⟨writer, hwriter, h⟩ := bind_iff.1 h
    obtain ⟨platform, hplatform, h⟩ := bind_iff.1 h
    obtain ⟨gamma, hgamma, h⟩ := bind_iff.1 h
    obtain ⟨diff, hdiff, h⟩ := bind_iff.1 h
    obtain ⟨name, hname, h⟩ := bind_iff.1 h
    obtain ⟨o, ho, h⟩ := bind_iff.1 h
    obtain ⟨fs, hfs, h⟩ := bind_iff.1 h
    cases h
    have hk : ∀ p ∈ fvm.children, _ := (hall fvm).1 (by by_contra hn; rw [if_neg hn] at hknown; cases hknown)
    rw [text_iff] at hboundary hequation hflux hplatform hname
    rw [get_iff] at hendTime
    rw [readReconstruction_iff] at hrecon
    rw [readCFLNumber_iff hrecon] at hcfl
    rw [readIntegrator_iff hrecon] at hinteg
    rw [createInitialData_iff] at hinitial
    rw [createWriter_iff hendTime] at hwriter
    rw [readGamma_iff hequation] at hgamma
    rw [readDiffusion_iff] at hdiff
    rw [createFunctionals_iff hendTime] at hfs
    obtain ⟨entries, hentries, hfs⟩ := hfs
    obtain ⟨hfile, hparams⟩ := hinitial
    refine ⟨raw, ch, fvm, at_one.1 (child_iff.1 hraw), (loadChildren_iff load _ _).1 hch, at_one.1 (child_iff.1 hfvm), ?_⟩
    refine { known := hk, grid := createGrid_iff.1 hgrid, dims := rfl, names := ?_, offered := (hA _).1 ⟨o, ho⟩, endTime := hendTime, cfl := ?_, gamma := hgamma, program := hfile,
             parameters := hparams, name := ⟨name, hname, trim_iff.1 rfl⟩, output := ?_ }
    · refine ⟨by simpa using hplatform, by simpa using hequation, by simpa using hflux, by simpa using hrecon, ?_, by simpa using hboundary, ?_⟩
      · obtain ⟨t, ht, rfl⟩ := hinteg
        refine ⟨t, ht, ?_⟩
        simp only [ofList_iff]
        split_ifs <;> simp
      · rcases hdiff with ⟨d, hd, h1, h2⟩ | ⟨ha, rfl⟩
        · exact .inl ⟨d, hd, by simpa using h1, by simpa using h2⟩
        · exact .inr ⟨ha, by simp, by simp⟩
    · simpa only [ofList_iff] using hcfl
    · refine ⟨writer.toList, fs, entries, ?_, hentries, hfs, rfl, by rw [adjuster_eq]⟩
      rcases hwriter with ⟨node, w, h1, h2, rfl⟩ | ⟨ha, rfl⟩
      · exact .inl ⟨node, w, h1, h2, rfl⟩
      · exact .inr ⟨ha, rfl⟩
  · rintro ⟨raw, ch, fvm, hraw, hch, hfvm, hs⟩
    obtain ⟨conf, grid, endTime, cfl, gamma, program, parameters, name, writers, adjusters⟩ := s
    obtain ⟨platform, equation, flux, recon, integ, boundary, diff, diffRec, dims⟩ := conf
    obtain ⟨hk, hgrid, hdims, hnames, hoff, hendTime, hcfl, hgamma, hprog, hparams, hname, hout⟩ := hs
    obtain ⟨hplatform, hequation, hflux, hrecon, ⟨it, hit, hinteg⟩, hboundary, hdiff⟩ := hnames
    dsimp only at *
    subst hdims
    obtain ⟨main, fs, entries, hmain, hentries, hfs, hw, ha⟩ := hout
    obtain ⟨nm, hnm, hnm'⟩ := hname
    obtain ⟨o, ho⟩ := (hA _).2 hoff
    rw [child_one hraw, Res.ok_bind, (loadChildren_iff load _ _).2 hch, Res.ok_bind, Res.ok_bind, child_one hfvm, Res.ok_bind, if_pos ((hall fvm).2 hk), Res.ok_bind,
      createGrid_iff.2 hgrid, Res.ok_bind, text_iff.2 hboundary, Res.ok_bind, get_iff.2 hendTime, Res.ok_bind, text_iff.2 hequation, Res.ok_bind, text_iff.2 hflux, Res.ok_bind,
      readReconstruction_iff.2 hrecon, Res.ok_bind, (readCFLNumber_iff hrecon (x := cfl)).2 (by simpa only [← ofList_iff, String.ofList_toList] using hcfl), Res.ok_bind,
      (readIntegrator_iff hrecon (x := integ.toList)).2 ⟨it, hit, by
        rw [hinteg]
        simp only [← ofList_iff, String.ofList_toList]
        split_ifs <;> simp⟩, Res.ok_bind,
      (createInitialData_iff (x := (program, parameters))).2 ⟨hprog, hparams⟩, Res.ok_bind]
    obtain ⟨wr, hwr, rfl⟩ : ∃ wr : Option (WriterObj K F), createWriter mpi conv fvm = .ok wr ∧ main = wr.toList := by
      rcases hmain with ⟨node, w, h1, h2, rfl⟩ | ⟨h1, rfl⟩
      · exact ⟨some w, (createWriter_iff hendTime).2 (.inl ⟨node, w, h1, h2, rfl⟩), rfl⟩
      · exact ⟨none, (createWriter_iff hendTime).2 (.inr ⟨h1, rfl⟩), rfl⟩
    have hd : readDiffusion fvm = .ok (diff.toList, diffRec.toList) := readDiffusion_iff.2 (by
      rcases hdiff with ⟨d, h1, h2, h3⟩ | ⟨h1, rfl, rfl⟩
      · exact .inl ⟨d, h1, h2, h3⟩
      · exact .inr ⟨h1, rfl⟩)
    rw [hwr, Res.ok_bind, text_iff.2 hplatform, Res.ok_bind, (readGamma_iff hequation).2 (by simpa using hgamma), Res.ok_bind, hd, Res.ok_bind, text_iff.2 hnm, Res.ok_bind]
    simp only [String.ofList_toList]
    rw [ho, Res.ok_bind, (createFunctionals_iff hendTime).2 ⟨entries, hentries, hfs⟩, Res.ok_bind, trim_iff.2 hnm', hw, ha, adjuster_eq]

omit [IsStrictOrderedRing K] in
theorem readSetup_safe (cuda mpi : Bool) (conv : Conv K) (load : Str → Option Str) (make : Str → Str → Tree → Res F) (root : Tree) (hA : ∀ c, Safe (assemble cuda c))
    (hv : CompleteVectors load root) (hm : ∀ p n t, Safe (make p n t)) : Safe (readSetup cuda mpi conv load make root) := by
  have hb : (fun c => decide (c = ' ' ∨ c = '\t')) = blank := by
    funext c
    simp only [blank, Bool.decide_or, beq_eq_decide]
  unfold readSetup
  refine (safe_child _ _).bind fun raw hraw => Safe.bind ((safe_loadChildren _ _).bind fun _ _ => safe_ok _) fun cfg hcfg => (safe_child _ _).bind fun fvm hfvm =>
    Safe.bind (safe_ite (fun _ => safe_ok _) fun _ => safe_thrown) fun _ _ => Safe.bind ?_ fun _ _ => (safe_text _ _).bind fun _ _ => (safe_get _ _ _).bind fun _ _ =>
    (safe_text _ _).bind fun _ _ => (safe_text _ _).bind fun _ _ => Safe.bind ((safe_text _ _).bind fun _ _ => safe_ok _) fun _ _ => Safe.bind ?_ fun _ _ => Safe.bind ?_ fun _ _ =>
    (safe_createInitialData _ _ _).bind fun _ _ => (safe_createWriter _ _ _).bind fun _ _ => (safe_text _ _).bind fun _ _ => Safe.bind ?_ fun _ _ => Safe.bind ?_ fun _ _ =>
    (safe_text _ _).bind fun _ _ => (hA _).bind fun _ _ => Safe.bind ?_ fun _ _ => safe_ok _
  · obtain ⟨ch, hch, hcfg⟩ := bind_iff.1 hcfg
    cases hcfg
    have hv := hv raw ch fvm (at_one.1 (child_iff.1 hraw)) ((loadChildren_iff load _ _).1 hch) (at_one.1 (child_iff.1 hfvm))
    have hlen : ∀ k ∈ ["lowerCorner", "upperCorner", "dimension"], ∀ node, child ["grid"] fvm = .ok node → ∀ s, text [k] node = .ok s → 3 ≤ (split s).length := by
      intro k hk node hn s hs
      have := hv k hk s (says_cons.2 ⟨node, at_one.1 (child_iff.1 hn), text_iff.1 hs⟩)
      rw [hb] at this
      rw [split_length]; omega
    unfold createGrid
    refine (safe_child _ _).bind fun node hn => (safe_text _ _).bind fun _ h1 => (safe_text _ _).bind fun _ h2 => (safe_text _ _).bind fun _ h3 =>
      (safe_parseVector (hlen _ (by simp) node hn _ h1)).bind fun _ _ => (safe_parseVector (hlen _ (by simp) node hn _ h2)).bind fun _ _ =>
      (safe_parseVector (hlen _ (by simp) node hn _ h3)).bind fun _ _ => (safe_text _ _).bind fun _ _ => Safe.bind (safe_ite (fun _ => safe_ok _) fun _ => safe_ite (fun _ => safe_ok _)
        fun _ => safe_thrown) fun _ _ => safe_ok _
  · unfold readCFLNumber readReconstruction
    exact (safe_text _ _).bind fun _ _ => safe_ite (fun _ => Safe.bind ((safe_text _ _).bind fun _ _ => safe_ok _) fun _ _ => safe_ite (fun _ => safe_ok _) fun _ => safe_ok _)
      fun _ => safe_convert _ _
  · unfold readIntegrator readReconstruction
    exact (safe_text _ _).bind fun _ _ => safe_ite (fun _ => Safe.bind ((safe_text _ _).bind fun _ _ => safe_ok _) fun _ _ => safe_ite (fun _ => safe_ok _) fun _ => safe_ok _)
      fun _ => safe_ok _
  · unfold readGamma
    exact safe_ite (fun _ => (safe_text _ _).bind fun _ _ => safe_ite (fun _ => (safe_get _ _ _).bind fun _ _ => safe_ok _) fun _ => safe_ok _) fun _ => safe_ok _
  · unfold readDiffusion
    exact safe_ite (fun _ => (safe_text _ _).bind fun _ _ => (safe_text _ _).bind fun _ _ => safe_ok _) fun _ => safe_ok _
  · unfold createFunctionals
    exact safe_ite (fun _ => (safe_child _ _).bind fun _ _ => safe_mapM (fun _ => safe_createFunctional _ _ hm _ _) _) fun _ => safe_ok _

end Verif.Setup
