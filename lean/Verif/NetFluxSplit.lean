import Verif.NetFlux
import Mathlib.Tactic.IntervalCases

/-!
Helper lemmas about the split evaluation of the right hand side (ConservedSystem.cpp:31-100) and telescoping sums.
-/

namespace Verif
namespace NetFlux
variable {V R : Type}

/-- Interior cells of a volume of total size `n` with ghost widths `G`. -/
def IsInterior (n G p : I3) : Prop := ∀ d < 3, G.get d ≤ p.get d ∧ p.get d < n.get d - G.get d

theorem isInterior_iff {n G p : I3} : IsInterior n G p ↔ InRegion n G 0 0 p := by
  simp only [IsInterior, InRegion, mem_box, I3.add_x, I3.add_y, I3.add_z, I3.sub_x, I3.sub_y, I3.sub_z, I3.zero_x, I3.zero_y, I3.zero_z]
  constructor
  · intro h
    have h0 := h 0 (by omega); have h1 := h 1 (by omega); have h2 := h 2 (by omega)
    simp [I3.get] at h0 h1 h2
    omega
  · intro h d hd
    interval_cases d <;> simp [I3.get] <;> omega

theorem face_congr {r : Recon V} {fl : FluxFn V R} {u v : I3 → V} {d : Nat} {q q' : I3}
    (h : ∀ o ∈ fl.offsL ++ fl.offsR, ∀ o' ∈ r.offs, u (q + step d o + step d o') = v (q' + step d o + step d o')) :
    face r fl u d q = face r fl v d q' := by
  unfold face Recon.lval Recon.rval
  congr 1
  · refine List.map_congr_left fun o ho => ?_
    congr 1
    exact List.map_congr_left fun o' ho' => h o (by simp [ho]) o' ho'
  · refine List.map_congr_left fun o ho => ?_
    congr 1
    exact List.map_congr_left fun o' ho' => h o (by simp [ho]) o' ho'

theorem net_congr [AddCommGroup V] {dims : Nat} {r : Recon V} {fl : FluxFn V R} {u v : I3 → V} {p : I3}
    (h : ∀ d < dims, face r fl u d p = face r fl v d p ∧ face r fl u d (p - I3.dir d) = face r fl v d (p - I3.dir d)) :
    net dims r fl u p = net dims r fl v p := by
  unfold net
  congr 1
  refine List.map_congr_left fun d hd => ?_
  obtain ⟨h1, h2⟩ := h d (by simpa using hd)
  rw [h1, h2]

/-- Combined offset of a flux read. -/
theorem offset_bound {r : Recon V} {fl : FluxFn V R} {g : Nat} (hf : Fits r fl g) {o o' : Int} (ho : o ∈ fl.offsL ++ fl.offsR) (ho' : o' ∈ r.offs) :
    1 - (g : Int) ≤ o + o' ∧ o + o' ≤ g := by
  obtain ⟨hk1, hk2, hoffs, hwz, hfo, hfn⟩ := hf
  have h1 := hfo o ho
  have h2 := hoffs o' ho'
  by_cases hk : r.kind = .whole
  · have := hwz hk o' ho'; omega
  · have := hfn hk o ho; omega

theorem layout_cases {n G active : I3} {dims g : Nat} (hL : Layout n G active dims g) :
    (G.x = if 0 < dims then (g : Int) else 0) ∧ (G.y = if 1 < dims then (g : Int) else 0) ∧ (G.z = if 2 < dims then (g : Int) else 0) ∧
    1 + 2 * G.x ≤ n.x ∧ 1 + 2 * G.y ≤ n.y ∧ 1 + 2 * G.z ≤ n.z := by
  have hg0 := hL.gst 0 (by omega); have hg1 := hL.gst 1 (by omega); have hg2 := hL.gst 2 (by omega)
  have hn0 := hL.size 0 (by omega); have hn1 := hL.size 1 (by omega); have hn2 := hL.size 2 (by omega)
  simp only [I3.get, if_true, if_false, one_ne_zero, OfNat.ofNat_ne_zero, OfNat.ofNat_ne_one] at hg0 hg1 hg2 hn0 hn1 hn2
  exact ⟨hg0, hg1, hg2, hn0, hn1, hn2⟩

/-- A face of the inner region only depends on interior cells. -/
theorem inner_face_congr {r : Recon V} {fl : FluxFn V R} {n G active : I3} {dims g d : Nat} (hL : Layout n G active dims g)
    (hf : Fits r fl g) (hd : d < dims) {u v : I3 → V} (huv : ∀ p, IsInterior n G p → u p = v p) {q : I3} (hq : IsFace n G G (-G) d q) :
    face r fl u d q = face r fl v d q := by
  refine face_congr fun o ho o' ho' => huv _ ?_
  have hb := offset_bound hf ho ho'
  obtain ⟨a1, a2, a3, b1, b2, b3⟩ := layout_cases hL
  have hdl := hL.dims_le
  have hd3 : d = 0 ∨ d = 1 ∨ d = 2 := by omega
  rw [isInterior_iff]
  simp only [IsFace, InRegion, mem_box, I3.add_x, I3.add_y, I3.add_z, I3.sub_x, I3.sub_y, I3.sub_z, I3.neg_x, I3.neg_y, I3.neg_z,
    I3.zero_x, I3.zero_y, I3.zero_z, I3.dir, step] at hq ⊢
  rcases hd3 with rfl | rfl | rfl <;> simp at hq ⊢ <;> split_ifs at a1 a2 a3 <;> omega

theorem inner_net_congr [AddCommGroup V] {r : Recon V} {fl : FluxFn V R} {n G active : I3} {dims g : Nat} (hL : Layout n G active dims g)
    (hf : Fits r fl g) {u v : I3 → V} (huv : ∀ p, IsInterior n G p → u p = v p) {p : I3} (hp : InRegion n G G (-G) p) :
    net dims r fl u p = net dims r fl v p := by
  refine net_congr fun d hd => ?_
  have hdl := hL.dims_le
  have h1 : IsFace n G G (-G) d p ∧ IsFace n G G (-G) d (p - I3.dir d) := by
    simp only [InRegion, IsFace, mem_box, I3.add_x, I3.add_y, I3.add_z, I3.sub_x, I3.sub_y, I3.sub_z, I3.neg_x, I3.neg_y, I3.neg_z, I3.dir] at hp ⊢
    split_ifs <;> omega
  exact ⟨inner_face_congr hL hf hd huv h1.1, inner_face_congr hL hf hd huv h1.2⟩

/-- End offset of the bottom slab of direction `d` (ConservedSystem.cpp:72). -/
def endBottom (n G : I3) (d : Nat) : I3 := I3.set 0 d (-n.get d + 3 * G.get d)
/-- Start offset of the top slab of direction `d` (ConservedSystem.cpp:84). -/
def startTop (n G : I3) (d : Nat) : I3 := I3.set 0 d (n.get d - 3 * G.get d)

theorem slab_regionOK {n G : I3} {d : Nat} (h : 3 * G.get d ≤ n.get d) :
    RegionOK 0 (endBottom n G d) ∧ RegionOK (startTop n G d) 0 := by
  unfold RegionOK endBottom startTop I3.set
  unfold I3.get at h ⊢
  split_ifs at h ⊢ <;> simp <;> omega

/-- Cells updated by the inner phase or by the slabs of the first `m` directions. -/
def Done (n G : I3) (m : Nat) (p : I3) : Prop :=
  InRegion n G G (-G) p ∨ ∃ d < m, InRegion n G 0 (endBottom n G d) p ∨ InRegion n G (startTop n G d) 0 p

theorem isGreatest_union {R : Type} [LinearOrder R] {A B : Set R} {a b : R} (ha : IsGreatest A a) (hb : IsGreatest B b) :
    IsGreatest (A ∪ B) (max a b) := by
  constructor
  · rcases max_choice a b with h | h <;> rw [h]
    · exact Or.inl ha.1
    · exact Or.inr hb.1
  · rintro x (hx | hx)
    · exact le_max_of_le_left (ha.2 hx)
    · exact le_max_of_le_right (hb.2 hx)

/-- Wave speeds of the faces of a region, with zero. -/
def speeds [Zero R] (r : Recon V) (fl : FluxFn V R) (u : I3 → V) (n G start stop : I3) (k : Nat) : Set R :=
  {0} ∪ {w | ∃ q, IsFace n G start stop k q ∧ w = (face r fl u k q).2}

theorem slabs_ok [AddCommGroup V] [Zero R] [LinearOrder R] {r : Recon V} {fl : FluxFn V R} {n G active : I3} {dims g : Nat}
    (hL : Layout n G active dims g) (hf : Fits r fl g) (hN : ∀ d < dims, 3 * G.get d ≤ n.get d) (u : Arr I3 V) (hu : u.inb = inSize n)
    (hpos : 0 < dims) (s : State V R) (hsz : Sized n s) (v : I3 → V)
    (hs : ∀ p, s.out.val p = if InRegion n G G (-G) p then net dims r fl u.val p else v p) :
    ∀ m ≤ dims, ∃ s', (List.range m).foldlM (sideSlabs dims r fl n G active u) (s, fun _ => 0) = .ok s' ∧ Sized n s'.1 ∧
      (∀ p, Done n G m p → s'.1.out.val p = net dims r fl u.val p) ∧ (∀ p, ¬ Done n G m p → s'.1.out.val p = v p) ∧
      (∀ k < dims, IsGreatest ({0} ∪ {w | ∃ d < m, w ∈ speeds r fl u.val n G 0 (endBottom n G d) k ∪ speeds r fl u.val n G (startTop n G d) 0 k})
        (s'.2 k)) ∧ ∀ k, dims ≤ k → s'.2 k = 0 := by
  intro m
  induction m with
  | zero =>
    intro _
    refine ⟨(s, fun _ => 0), rfl, hsz, ?_, ?_, ?_, ?_⟩
    · rintro p (hp | ⟨d, hd, _⟩)
      · rw [hs, if_pos hp]
      · omega
    · intro p hp
      rw [hs, if_neg fun h => hp (Or.inl h)]
    · intro k _; simp [IsGreatest, upperBounds]
    · intro k _; rfl
  | succ m ih =>
    intro hm
    obtain ⟨⟨s1, sides⟩, a1, a2, a3, a4, a5, a6⟩ := ih (by omega)
    obtain ⟨hr1, hr2⟩ := slab_regionOK (hN m (by omega))
    obtain ⟨s2, b1, b2, b3, b4, b5⟩ := computeFlux_ok hL hf hr1 u (readsOK_of_full hL hf hr1 u hu) hpos { s1 with ws := fun _ => 0 } a2
    obtain ⟨s3, c1, c2, c3, c4, c5⟩ := computeFlux_ok hL hf hr2 u (readsOK_of_full hL hf hr2 u hu) hpos { s2 with ws := fun _ => 0 } b2
    simp only at a2 a3 a4 a5 a6 b3 b5 c3 c5
    refine ⟨(s3, fun k => max (max (sides k) (s2.ws k)) (s3.ws k)), ?_, c2, ?_, ?_, ?_, ?_⟩
    · rw [List.range_succ, List.foldlM_append, a1]
      simp only [Res.ok_bind, List.foldlM_cons, List.foldlM_nil, sideSlabs]
      unfold endBottom at b1
      unfold startTop at c1
      simp only [b1, c1, Res.ok_bind, Res.pure_eq]
    · intro p hp
      simp only
      rw [c3]
      split_ifs with h1
      · rfl
      · rw [b3]
        split_ifs with h2
        · rfl
        · refine a3 p ?_
          rcases hp with hp | ⟨d, hd, hp⟩
          · exact Or.inl hp
          · by_cases hdm : d = m
            · subst hdm; rcases hp with hp | hp
              · exact absurd hp h2
              · exact absurd hp h1
            · exact Or.inr ⟨d, by omega, hp⟩
    · intro p hp
      simp only
      rw [c3, if_neg fun h => hp (Or.inr ⟨m, by omega, Or.inr h⟩), b3, if_neg fun h => hp (Or.inr ⟨m, by omega, Or.inl h⟩)]
      refine a4 p fun h => hp ?_
      rcases h with h | ⟨d, hd, h⟩
      · exact Or.inl h
      · exact Or.inr ⟨d, by omega, h⟩
    · intro k hk
      have := isGreatest_union (isGreatest_union (a5 k hk) (b4 k hk)) (c4 k hk)
      convert this using 1
      ext w
      unfold speeds
      constructor
      · rintro (h | ⟨d, hd, h⟩)
        · exact Or.inl (Or.inl (Or.inl h))
        · by_cases hdm : d = m
          · subst hdm; rcases h with h | h
            · exact Or.inl (Or.inr h)
            · exact Or.inr h
          · exact Or.inl (Or.inl (Or.inr ⟨d, by omega, h⟩))
      · rintro (((h | ⟨d, hd, h⟩) | h) | h)
        · exact Or.inl h
        · exact Or.inr ⟨d, by omega, h⟩
        · exact Or.inr ⟨m, by omega, Or.inl h⟩
        · exact Or.inr ⟨m, by omega, Or.inr h⟩
    · intro k hk
      simp only [a6 k hk, b5 k hk, c5 k hk, max_self]

theorem interior_done {n G active : I3} {dims g : Nat} (hL : Layout n G active dims g) (hN : ∀ d < dims, 3 * G.get d ≤ n.get d) {p : I3} :
    InRegion n G 0 0 p ↔ Done n G dims p := by
  obtain ⟨a1, a2, a3, b1, b2, b3⟩ := layout_cases hL
  have hdl := hL.dims_le
  have hx : 0 < dims → 3 * G.x ≤ n.x := fun h => by simpa [I3.get] using hN 0 h
  have hy : 1 < dims → 3 * G.y ≤ n.y := fun h => by simpa [I3.get] using hN 1 h
  have hz : 2 < dims → 3 * G.z ≤ n.z := fun h => by simpa [I3.get] using hN 2 h
  constructor
  · intro hp
    by_cases hin : InRegion n G G (-G) p
    · exact Or.inl hin
    right
    simp only [InRegion, mem_box, I3.add_x, I3.add_y, I3.add_z, I3.sub_x, I3.sub_y, I3.sub_z, I3.neg_x, I3.neg_y, I3.neg_z,
      I3.zero_x, I3.zero_y, I3.zero_z] at hp hin
    by_cases h0 : 0 < dims ∧ (p.x < 2 * G.x ∨ n.x - 2 * G.x ≤ p.x)
    · refine ⟨0, h0.1, ?_⟩
      simp only [InRegion, endBottom, startTop, mem_box, I3.add_x, I3.add_y, I3.add_z, I3.sub_x, I3.sub_y, I3.sub_z,
        I3.zero_x, I3.zero_y, I3.zero_z, I3.set, I3.get, if_true]
      omega
    by_cases h1 : 1 < dims ∧ (p.y < 2 * G.y ∨ n.y - 2 * G.y ≤ p.y)
    · refine ⟨1, h1.1, ?_⟩
      simp only [InRegion, endBottom, startTop, mem_box, I3.add_x, I3.add_y, I3.add_z, I3.sub_x, I3.sub_y, I3.sub_z,
        I3.zero_x, I3.zero_y, I3.zero_z, I3.set, I3.get, if_true, if_false, one_ne_zero]
      omega
    by_cases h2 : 2 < dims ∧ (p.z < 2 * G.z ∨ n.z - 2 * G.z ≤ p.z)
    · refine ⟨2, h2.1, ?_⟩
      simp only [InRegion, endBottom, startTop, mem_box, I3.add_x, I3.add_y, I3.add_z, I3.sub_x, I3.sub_y, I3.sub_z,
        I3.zero_x, I3.zero_y, I3.zero_z, I3.set, I3.get, if_false, OfNat.ofNat_ne_zero, OfNat.ofNat_ne_one]
      omega
    exfalso; apply hin
    split_ifs at a1 a2 a3 <;> omega
  · rintro (hp | ⟨d, hd, hp⟩)
    · simp only [InRegion, mem_box, I3.add_x, I3.add_y, I3.add_z, I3.sub_x, I3.sub_y, I3.sub_z, I3.neg_x, I3.neg_y, I3.neg_z,
        I3.zero_x, I3.zero_y, I3.zero_z] at hp ⊢
      split_ifs at a1 a2 a3 <;> omega
    · have hNd := hN d hd
      have hd3 : d = 0 ∨ d = 1 ∨ d = 2 := by omega
      simp only [InRegion, endBottom, startTop, mem_box, I3.add_x, I3.add_y, I3.add_z, I3.sub_x, I3.sub_y, I3.sub_z,
        I3.zero_x, I3.zero_y, I3.zero_z] at hp ⊢
      rcases hd3 with rfl | rfl | rfl <;> simp [I3.set, I3.get] at hp hNd <;> omega

theorem faces_done {n G active : I3} {dims g k : Nat} (hL : Layout n G active dims g) (hg : 1 ≤ g) (hN : ∀ d < dims, 3 * G.get d ≤ n.get d) (hk : k < dims)
    {q : I3} : IsFace n G 0 0 k q ↔
      IsFace n G G (-G) k q ∨ ∃ d < dims, IsFace n G 0 (endBottom n G d) k q ∨ IsFace n G (startTop n G d) 0 k q := by
  obtain ⟨a1, a2, a3, b1, b2, b3⟩ := layout_cases hL
  have hdl := hL.dims_le
  have hk3 : k = 0 ∨ k = 1 ∨ k = 2 := by omega
  have hx : 0 < dims → 3 * G.x ≤ n.x := fun h => by simpa [I3.get] using hN 0 h
  have hy : 1 < dims → 3 * G.y ≤ n.y := fun h => by simpa [I3.get] using hN 1 h
  have hz : 2 < dims → 3 * G.z ≤ n.z := fun h => by simpa [I3.get] using hN 2 h
  constructor
  · intro hp
    by_cases hin : IsFace n G G (-G) k q
    · exact Or.inl hin
    right
    simp only [IsFace, mem_box, I3.add_x, I3.add_y, I3.add_z, I3.sub_x, I3.sub_y, I3.sub_z, I3.neg_x, I3.neg_y, I3.neg_z,
      I3.zero_x, I3.zero_y, I3.zero_z, I3.dir] at hp hin
    by_cases h0 : 0 < dims ∧ (q.x < 2 * G.x ∨ n.x - 2 * G.x ≤ q.x)
    · refine ⟨0, h0.1, ?_⟩
      simp only [IsFace, endBottom, startTop, mem_box, I3.add_x, I3.add_y, I3.add_z, I3.sub_x, I3.sub_y, I3.sub_z,
        I3.zero_x, I3.zero_y, I3.zero_z, I3.set, I3.get, if_true, I3.dir]
      rcases hk3 with rfl | rfl | rfl <;> simp at hp ⊢ <;> omega
    by_cases h1 : 1 < dims ∧ (q.y < 2 * G.y ∨ n.y - 2 * G.y ≤ q.y)
    · refine ⟨1, h1.1, ?_⟩
      simp only [IsFace, endBottom, startTop, mem_box, I3.add_x, I3.add_y, I3.add_z, I3.sub_x, I3.sub_y, I3.sub_z,
        I3.zero_x, I3.zero_y, I3.zero_z, I3.set, I3.get, if_true, if_false, one_ne_zero, I3.dir]
      rcases hk3 with rfl | rfl | rfl <;> simp at hp ⊢ <;> omega
    by_cases h2 : 2 < dims ∧ (q.z < 2 * G.z ∨ n.z - 2 * G.z ≤ q.z)
    · refine ⟨2, h2.1, ?_⟩
      simp only [IsFace, endBottom, startTop, mem_box, I3.add_x, I3.add_y, I3.add_z, I3.sub_x, I3.sub_y, I3.sub_z,
        I3.zero_x, I3.zero_y, I3.zero_z, I3.set, I3.get, if_false, OfNat.ofNat_ne_zero, OfNat.ofNat_ne_one, I3.dir]
      rcases hk3 with rfl | rfl | rfl <;> simp at hp ⊢ <;> omega
    exfalso; apply hin
    rcases hk3 with rfl | rfl | rfl <;> simp at hp ⊢ <;> split_ifs at a1 a2 a3 <;> omega
  · rintro (hp | ⟨d, hd, hp⟩)
    · simp only [IsFace, mem_box, I3.add_x, I3.add_y, I3.add_z, I3.sub_x, I3.sub_y, I3.sub_z, I3.neg_x, I3.neg_y, I3.neg_z,
        I3.zero_x, I3.zero_y, I3.zero_z] at hp ⊢
      split_ifs at a1 a2 a3 <;> omega
    · have hNd := hN d hd
      have hd3 : d = 0 ∨ d = 1 ∨ d = 2 := by omega
      simp only [IsFace, endBottom, startTop, mem_box, I3.add_x, I3.add_y, I3.add_z, I3.sub_x, I3.sub_y, I3.sub_z,
        I3.zero_x, I3.zero_y, I3.zero_z] at hp ⊢
      rcases hd3 with rfl | rfl | rfl <;> simp [I3.set, I3.get] at hp hNd <;> omega

theorem inner_regionOK {n G active : I3} {dims g : Nat} (hL : Layout n G active dims g) : RegionOK G (-G) := by
  obtain ⟨a1, a2, a3, _⟩ := layout_cases hL
  unfold RegionOK
  simp only [I3.neg_x, I3.neg_y, I3.neg_z]
  split_ifs at a1 a2 a3 <;> omega

/-- The split evaluation computes the net flux of every interior cell, touches nothing else, and reports the largest wave speed of all
faces. -/
theorem conservedSystem_ok [AddCommGroup V] [Zero R] [LinearOrder R] {r : Recon V} {fl : FluxFn V R} {n G active : I3} {dims g : Nat}
    (hL : Layout n G active dims g) (hf : Fits r fl g) (hN : ∀ d < dims, 3 * G.get d ≤ n.get d) (hpos : 0 < dims)
    (u0 u1 : Arr I3 V) (hr0 : ReadsOK dims r n active G (-G) u0) (hu1 : u1.inb = inSize n) (huv : ∀ p, IsInterior n G p → u0.val p = u1.val p)
    (s : State V R) (hsz : Sized n s) :
    ∃ s', conservedSystem dims r fl n G active u0 u1 s = .ok s' ∧ Sized n s' ∧
      (∀ p, s'.out.val p = if InRegion n G 0 0 p then net dims r fl u1.val p else s.out.val p) ∧
      (∀ k < dims, IsGreatest (speeds r fl u1.val n G 0 0 k) (s'.ws k)) ∧
      ∀ k, dims ≤ k → s'.ws k = max (s.ws k) 0 := by
  obtain ⟨s1, a1, a2, a3, a4, a5⟩ := computeFlux_ok hL hf (inner_regionOK hL) u0 hr0 hpos s hsz
  have hs1 : ∀ p, s1.out.val p = if InRegion n G G (-G) p then net dims r fl u1.val p else s.out.val p := by
    intro p
    rw [a3]
    split_ifs with h
    · exact inner_net_congr hL hf huv h
    · rfl
  obtain ⟨s2, b1, b2, b3, b4, b5, b6⟩ := slabs_ok hL hf hN u1 hu1 hpos s1 a2 s.out.val hs1 dims le_rfl
  refine ⟨{ s2.1 with ws := fun k => max (s1.ws k) (s2.2 k) }, ?_, b2, ?_, ?_, ?_⟩
  · simp only [conservedSystem, a1, Res.ok_bind, b1, Res.pure_eq]
  · intro p
    simp only
    split_ifs with h
    · exact b3 p ((interior_done hL hN).1 h)
    · exact b4 p fun hd => h ((interior_done hL hN).2 hd)
  · intro k hk
    have := isGreatest_union (a4 k hk) (b5 k hk)
    simp only
    convert this using 1
    have hg1 : 1 ≤ g := le_trans hf.k_pos hf.k_le
    ext w
    unfold speeds
    constructor
    · rintro (h | ⟨q, hq, h⟩)
      · exact Or.inl (Or.inl h)
      · rcases (faces_done hL hg1 hN hk).1 hq with hq | ⟨d, hd, hq⟩
        · exact Or.inl (Or.inr ⟨q, hq, by rw [inner_face_congr hL hf hk huv hq]; exact h⟩)
        · refine Or.inr (Or.inr ⟨d, hd, ?_⟩)
          rcases hq with hq | hq
          · exact Or.inl (Or.inr ⟨q, hq, h⟩)
          · exact Or.inr (Or.inr ⟨q, hq, h⟩)
    · rintro ((h | ⟨q, hq, h⟩) | (h | ⟨d, hd, ((h | ⟨q, hq, h⟩) | (h | ⟨q, hq, h⟩))⟩))
      · exact Or.inl h
      · exact Or.inr ⟨q, (faces_done hL hg1 hN hk).2 (Or.inl hq), by rw [← inner_face_congr hL hf hk huv hq]; exact h⟩
      · exact Or.inl h
      · exact Or.inl h
      · exact Or.inr ⟨q, (faces_done hL hg1 hN hk).2 (Or.inr ⟨d, hd, Or.inl hq⟩), h⟩
      · exact Or.inl h
      · exact Or.inr ⟨q, (faces_done hL hg1 hN hk).2 (Or.inr ⟨d, hd, Or.inr hq⟩), h⟩
  · intro k hk
    simp only [a5 k hk, b6 k hk]

/-- Inner phase reads when the reconstruction only fills the requested region: interior cells only. -/
theorem inner_reads_interior {r : Recon V} {fl : FluxFn V R} {n G active : I3} {dims g : Nat} (hL : Layout n G active dims g)
    (hf : Fits r fl g) (hk : r.kind = .region) (u : Arr I3 V) (hu : ∀ p, IsInterior n G p → u.inb p = true) :
    ReadsOK dims r n active G (-G) u := by
  intro d hd q hq o ho
  apply hu
  rw [isInterior_iff]
  have ho' := hf.offs_abs o ho
  have hk1 := hf.k_pos
  have hk2 : (r.k : Int) ≤ g := by have := hf.k_le; omega
  have hdl := hL.dims_le
  have hd3 : d = 0 ∨ d = 1 ∨ d = 2 := by omega
  have ha0 := hL.act 0 (by omega); have ha1 := hL.act 1 (by omega); have ha2 := hL.act 2 (by omega)
  simp only [I3.get, if_true, if_false, one_ne_zero, OfNat.ofNat_ne_zero, OfNat.ofNat_ne_one] at ha0 ha1 ha2
  obtain ⟨a1, a2, a3, b1, b2, b3⟩ := layout_cases hL
  simp only [InRegion, mem_box, Recon.lo, Recon.hi, hk, I3.add_x, I3.add_y, I3.add_z, I3.sub_x, I3.sub_y, I3.sub_z, I3.neg_x, I3.neg_y, I3.neg_z,
    I3.zero_x, I3.zero_y, I3.zero_z, I3.dir, step, ha0, ha1, ha2] at hq ⊢
  have hdims : dims = 1 ∨ dims = 2 ∨ dims = 3 := by omega
  rcases hdims with rfl | rfl | rfl <;> simp at a1 a2 a3 <;> simp [a1, a2, a3] at hq ⊢ <;>
    rcases hd3 with rfl | rfl | rfl <;> simp at hd hq ⊢ <;> omega

/-! ### Telescoping -/

open Finset in
theorem telescope [AddCommGroup V] (f : Int → V) (a b : Int) (hab : a ≤ b) :
    ∑ x ∈ Ico a b, (f (x - 1) - f x) = f (a - 1) - f (b - 1) := by
  rw [← sum_irange]
  obtain ⟨m, rfl⟩ : ∃ m : Nat, b = a + m := ⟨(b - a).toNat, by omega⟩
  clear hab
  induction m with
  | zero => simp [irange]
  | succ m ih =>
    have : irange a (a + ((m + 1 : Nat) : Int)) = irange a (a + m) ++ [a + m] := by
      simp only [irange, add_sub_cancel_left, Int.toNat_natCast, List.range_succ, List.map_append, List.map_cons, List.map_nil]
    rw [this, List.map_append, List.sum_append, ih]
    simp only [List.map_cons, List.map_nil, List.sum_cons, List.sum_nil, add_zero]
    have : a + ((m + 1 : Nat) : Int) - 1 = a + m := by push_cast; ring
    rw [this]
    abel

end NetFlux
end Verif
