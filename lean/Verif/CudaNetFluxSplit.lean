import Verif.CudaNetFlux
import Verif.NetFluxSplit

/-!
Helper lemmas: the evaluation on the card step by step against the evaluation on the processor.
-/

namespace Verif.CudaNetFlux
open Verif.Gpu Verif.NetFlux
variable {V R : Type}

theorem Arr.ext' {ι W : Type} {a b : Arr ι W} (h1 : a.inb = b.inb) (h2 : a.val = b.val) : a = b := by
  cases a; cases b; simp only at h1 h2; subst h1 h2; rfl

theorem Dev.mem_inj {s s' : Dev V R} (h : s.mem = s'.mem) : s = s' := by
  have hi := congrArg Arr.inb h
  have hv := congrArg Arr.val h
  obtain ⟨vol, sp, sc⟩ := s
  obtain ⟨vol', sp', sc'⟩ := s'
  have h1 : vol = vol' := by
    funext v
    refine Arr.ext' (funext fun c => ?_) (funext fun c => ?_)
    · exact congrFun hi (.cell v c)
    · exact Val.state.inj (congrFun hv (.cell v c))
  have h2 : sp = sp' := by
    refine Arr.ext' (funext fun i => ?_) (funext fun i => ?_)
    · exact congrFun hi (.speed i)
    · exact Val.real.inj (congrFun hv (.speed i))
  have h3 : sc = sc' := by
    funext j
    refine Arr.ext' (funext fun c => ?_) (funext fun c => ?_)
    · exact congrFun hi (.scratch j c)
    · exact Val.real.inj (congrFun hv (.scratch j c))
  rw [h1, h2, h3]

theorem directions_unique [Add V] [Neg V] [Max R] {rec : CardRecon V R} {fl : FluxFn V R} {n G start stop : I3} (l : List Nat) :
    ∀ {s : Dev V R} {ws : Nat → R} {s1 s2 : Dev V R} {w1 w2 : Nat → R}, directions rec fl n G start stop l s ws s1 w1 →
    directions rec fl n G start stop l s ws s2 w2 → s1 = s2 ∧ w1 = w2 := by
  induction l with
  | nil => rintro s ws s1 s2 w1 w2 ⟨h1, h2⟩ ⟨h3, h4⟩; exact ⟨h1.trans h3.symm, h2.trans h4.symm⟩
  | cons d l ih =>
    rintro s ws s1 s2 w1 w2 ⟨a1, a2, a3, w, ha1, ha2, ha3, ha4, ha5⟩ ⟨b1, b2, b3, w', hb1, hb2, hb3, hb4, hb5⟩
    have e1 := Dev.mem_inj (yieldsAll_unique ha1 hb1)
    subst e1
    have e2 := Dev.mem_inj (yields_unique ha2 hb2)
    subst e2
    have e3 := Dev.mem_inj (yields_unique ha4 hb4)
    subst e3
    have e4 : w = w' := hb3.2.2 w ha3.2.1
    subst e4
    exact ih ha5 hb5

/-- The result of `computeFlux` on the card is determined. -/
theorem computes_unique [Add V] [Neg V] [Zero V] [Max R] {dims : Nat} {rec : CardRecon V R} {fl : FluxFn V R} {n G start stop : I3}
    {s : Dev V R} {ws : Nat → R} {s1 s2 : Dev V R} {w1 w2 : Nat → R} (h1 : computes dims rec fl n G start stop s ws s1 w1)
    (h2 : computes dims rec fl n G start stop s ws s2 w2) : s1 = s2 ∧ w1 = w2 := by
  obtain ⟨a, ha, h1⟩ := h1
  obtain ⟨b, hb, h2⟩ := h2
  have := Dev.mem_inj (yields_unique ha hb)
  subst this
  exact directions_unique _ h1 h2

theorem sides_unique [Add V] [Neg V] [Zero V] [Zero R] [Max R] {dims : Nat} {rec : CardRecon V R} {fl : FluxFn V R} {n G : I3} (l : List Nat) :
    ∀ {s : Dev V R} {ws : Nat → R} {s1 s2 : Dev V R} {w1 w2 : Nat → R}, sides dims rec fl n G l s ws s1 w1 →
    sides dims rec fl n G l s ws s2 w2 → s1 = s2 ∧ w1 = w2 := by
  induction l with
  | nil => rintro s ws s1 s2 w1 w2 ⟨h1, h2⟩ ⟨h3, h4⟩; exact ⟨h1.trans h3.symm, h2.trans h4.symm⟩
  | cons d l ih =>
    rintro s ws s1 s2 w1 w2 ⟨a1, a2, v1, v2, ha1, ha2, ha3⟩ ⟨b1, b2, v3, v4, hb1, hb2, hb3⟩
    obtain ⟨rfl, rfl⟩ := computes_unique ha1 hb1
    obtain ⟨rfl, rfl⟩ := computes_unique ha2 hb2
    exact ih ha3 hb3

theorem evaluates_unique [Add V] [Neg V] [Zero V] [Zero R] [Max R] {dims : Nat} {rec : CardRecon V R} {fl : FluxFn V R} {n G : I3}
    {u1 : Arr I3 V} {s : Dev V R} {ws : Nat → R} {s1 s2 : Dev V R} {w1 w2 : Nat → R} (h1 : evaluates dims rec fl n G u1 s ws s1 w1)
    (h2 : evaluates dims rec fl n G u1 s ws s2 w2) : s1 = s2 ∧ w1 = w2 := by
  obtain ⟨a, v1, v2, ha1, ha2, rfl⟩ := h1
  obtain ⟨b, v3, v4, hb1, hb2, rfl⟩ := h2
  obtain ⟨rfl, rfl⟩ := computes_unique ha1 hb1
  obtain ⟨rfl, rfl⟩ := sides_unique _ ha2 hb2
  exact ⟨rfl, rfl⟩

/-- One call of `computeFlux` on the card and on the processor. -/
theorem computes_eq [AddCommGroup V] [Zero R] [LinearOrder R] {rec : CardRecon V R} {r : Recon V} {fl : FluxFn V R}
    {n G active start stop : I3} {dims g : Nat} (hL : Layout n G active dims g) (hf : NetFlux.Fits r fl g) (hs : RegionOK start stop)
    (hne : NonEmpty n G start stop) (hpos : 0 < dims) (hrec : ∀ d < dims, rec.Computes r fl n G d start stop)
    (hnn : ∀ d ls rs, 0 ≤ (fl.fn d ls rs).2) (dev : Dev V R) (hdev : DevSized n dev) (c : State V R) (hc : Sized n c)
    (hout : dev.vol .output = c.out) :
    ∃ dev' c' , computes dims rec fl n G start stop dev c.ws dev' c'.ws ∧
      computeFlux dims r fl n G active start stop (dev.vol .input) c = .ok c' ∧ DevSized n dev' ∧ Sized n c' ∧
      dev'.vol .output = c'.out ∧ dev'.vol .input = dev.vol .input := by
  obtain ⟨dev', ws', a1, a2, a3, a4, a5, a6⟩ := computes_ok hL hf hs hne hpos hrec dev c.ws hdev
  obtain ⟨c', b1, b2, b3, b4, b5⟩ := computeFlux_ok hL hf hs (dev.vol .input) (readsOK_of_full hL hf hs _ (hdev.vol _)) hpos c hc
  have hws : ws' = c'.ws := by
    funext d
    by_cases hd : d < dims
    · refine IsGreatest.unique ?_ (b4 d hd)
      refine ⟨Or.inr (a5 d hd).1, ?_⟩
      rintro x (hx | hx)
      · obtain ⟨q, _, hq⟩ := (a5 d hd).1
        rw [hx, hq]
        exact hnn _ _ _
      · exact (a5 d hd).2 hx
    · rw [a6 d (by omega), b5 d (by omega)]
  subst hws
  refine ⟨dev', c', a1, b1, a2, b2, ?_, a3⟩
  refine Arr.ext' ?_ (funext fun p => ?_)
  · rw [a2.vol, b2.2.2.2]
  · rw [a4, b3, hout]

theorem slab_nonEmpty {n G active : I3} {dims g d : Nat} (hL : Layout n G active dims g) (hg : 1 ≤ g) (hd : d < dims) :
    NonEmpty n G 0 (endBottom n G d) ∧ NonEmpty n G (startTop n G d) 0 := by
  obtain ⟨hdl, hact, hgst, hsize⟩ := hL
  have hgd := hgst d (by omega)
  rw [if_pos hd] at hgd
  have hn0 := hsize 0 (by omega); have hn1 := hsize 1 (by omega); have hn2 := hsize 2 (by omega)
  simp only [I3.get, if_true, if_false, one_ne_zero, OfNat.ofNat_ne_zero, OfNat.ofNat_ne_one] at hn0 hn1 hn2
  have hd3 : d = 0 ∨ d = 1 ∨ d = 2 := by omega
  unfold NonEmpty endBottom startTop I3.set
  rcases hd3 with rfl | rfl | rfl <;> simp [I3.get] at hgd ⊢ <;> omega

theorem inner_nonEmpty {n G active : I3} {dims g : Nat} (hL : Layout n G active dims g) (hN : ∀ d < dims, 4 * G.get d < n.get d) :
    NonEmpty n G G (-G) := by
  obtain ⟨hdl, hact, hgst, hsize⟩ := hL
  have key : ∀ d < 3, 0 < n.get d - 2 * G.get d - G.get d + -G.get d := by
    intro d hd
    by_cases h : d < dims
    · have := hN d h; omega
    · have h1 := hgst d hd
      rw [if_neg h] at h1
      have := hsize d hd
      omega
  have k0 := key 0 (by omega); have k1 := key 1 (by omega); have k2 := key 2 (by omega)
  simp only [I3.get, if_true, if_false, one_ne_zero, OfNat.ofNat_ne_zero, OfNat.ofNat_ne_one] at k0 k1 k2
  exact ⟨k0, k1, k2⟩

/-- The side slabs on the card and on the processor. -/
theorem sides_eq [AddCommGroup V] [Zero R] [LinearOrder R] {rec : CardRecon V R} {r : Recon V} {fl : FluxFn V R}
    {n G active : I3} {dims g : Nat} (hL : Layout n G active dims g) (hf : NetFlux.Fits r fl g) (hN : ∀ d < dims, 3 * G.get d ≤ n.get d)
    (hpos : 0 < dims) (hrec : ∀ d < dims, ∀ start stop, RegionOK start stop → NonEmpty n G start stop → rec.Computes r fl n G d start stop)
    (hnn : ∀ d ls rs, 0 ≤ (fl.fn d ls rs).2) (l : List Nat) (hl : ∀ d ∈ l, d < dims) :
    ∀ (dev : Dev V R) (c : State V R) (w : Nat → R), DevSized n dev → Sized n c → dev.vol .output = c.out →
    ∃ dev' c' w', sides dims rec fl n G l dev w dev' w' ∧
      l.foldlM (sideSlabs dims r fl n G active (dev.vol .input)) (c, w) = .ok (c', w') ∧ DevSized n dev' ∧ Sized n c' ∧
      dev'.vol .output = c'.out ∧ dev'.vol .input = dev.vol .input := by
  induction l with
  | nil => intro dev c w h1 h2 h3; exact ⟨dev, c, w, ⟨rfl, rfl⟩, rfl, h1, h2, h3, rfl⟩
  | cons d l ih =>
    intro dev c w h1 h2 h3
    have hd := hl d (by simp)
    have hg : 1 ≤ g := le_trans hf.k_pos hf.k_le
    obtain ⟨ne1, ne2⟩ := slab_nonEmpty hL hg hd
    obtain ⟨ok1, ok2⟩ := slab_regionOK (hN d hd)
    obtain ⟨d1, c1, a1, a2, a3, a4, a5, a6⟩ := computes_eq hL hf ok1 ne1 hpos (fun e he => hrec e he _ _ ok1 ne1) hnn dev h1
      { c with ws := fun _ => 0 } h2 h3
    obtain ⟨d2, c2, b1, b2, b3, b4, b5, b6⟩ := computes_eq hL hf ok2 ne2 hpos (fun e he => hrec e he _ _ ok2 ne2) hnn d1 a3
      { c1 with ws := fun _ => 0 } a4 a5
    obtain ⟨d3, c3, w3, e1, e2, e3, e4, e5, e6⟩ := ih (fun e he => hl e (by simp [he])) d2 c2
      (fun k => max (max (w k) (c1.ws k)) (c2.ws k)) b3 b4 b5
    refine ⟨d3, c3, w3, ⟨d1, d2, c1.ws, c2.ws, a1, b1, e1⟩, ?_, e3, e4, e5, by rw [e6, b6, a6]⟩
    have hslab : sideSlabs dims r fl n G active (dev.vol .input) (c, w) d = .ok (c2, fun k => max (max (w k) (c1.ws k)) (c2.ws k)) := by
      rw [a6] at b2
      unfold sideSlabs
      unfold endBottom at a2
      unfold startTop at b2
      simp only [a2, b2, Res.ok_bind, Res.pure_eq]
    rw [List.foldlM_cons, hslab, Res.ok_bind]
    rw [b6, a6] at e2
    exact e2

/-- The whole evaluation on the card and on the processor. -/
theorem evaluates_eq [AddCommGroup V] [Zero R] [LinearOrder R] {rec : CardRecon V R} {r : Recon V} {fl : FluxFn V R}
    {n G active : I3} {dims g : Nat} (hL : Layout n G active dims g) (hf : NetFlux.Fits r fl g) (hN : ∀ d < dims, 4 * G.get d < n.get d)
    (hpos : 0 < dims) (hrec : ∀ d < dims, ∀ start stop, RegionOK start stop → NonEmpty n G start stop → rec.Computes r fl n G d start stop)
    (hnn : ∀ d ls rs, 0 ≤ (fl.fn d ls rs).2) (u1 : Arr I3 V) (hu1 : u1.inb = inSize n) (dev : Dev V R) (hdev : DevSized n dev)
    (c : State V R) (hc : Sized n c) (hout : dev.vol .output = c.out) :
    ∃ dev' c', evaluates dims rec fl n G u1 dev c.ws dev' c'.ws ∧
      conservedSystem dims r fl n G active (dev.vol .input) u1 c = .ok c' ∧ dev'.vol .output = c'.out := by
  have hG : ∀ d < dims, 0 ≤ G.get d := fun d hd => by
    have := hL.dims_le
    rw [hL.gst d (by omega), if_pos hd]; omega
  obtain ⟨d1, c1, a1, a2, a3, a4, a5, a6⟩ := computes_eq hL hf (inner_regionOK hL) (inner_nonEmpty hL hN) hpos
    (fun e he => hrec e he _ _ (inner_regionOK hL) (inner_nonEmpty hL hN)) hnn dev hdev c hc hout
  have hsz : DevSized n (d1.withInput u1) := by
    refine ⟨fun v => ?_, a3.speeds, a3.scratch⟩
    by_cases hv : v = .input
    · subst hv; simp [Dev.withInput, hu1]
    · simp [Dev.withInput, Function.update_of_ne hv, a3.vol]
  obtain ⟨d2, c2, w2, b1, b2, b3, b4, b5, b6⟩ := sides_eq hL hf (fun d hd => by have := hN d hd; have := hG d hd; omega) hpos hrec hnn
    (List.range dims) (by simp) (d1.withInput u1) c1 (fun _ => 0) hsz a4 (by simpa [Dev.withInput] using a5)
  have hin : (d1.withInput u1).vol .input = u1 := by simp [Dev.withInput]
  rw [hin] at b2
  refine ⟨d2, { c2 with ws := fun k => max (c1.ws k) (w2 k) }, ⟨d1, c1.ws, w2, a1, b1, rfl⟩, ?_, b5⟩
  simp only [conservedSystem, a2, Res.ok_bind, b2, Res.pure_eq]

end Verif.CudaNetFlux
