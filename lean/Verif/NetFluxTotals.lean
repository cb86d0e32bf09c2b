import Verif.NetFluxSplit

/-!
Specification vocabulary for C10 (sum over the interior, inflow minus outflow through the ends of the grid lines) and the
telescoping lemmas about it. Nothing here models code.
-/

namespace Verif.NetFlux
open Verif Finset

/-- Sum of a quantity over all interior cells. -/
def total {V : Type} [AddCommMonoid V] (n G : I3) (f : I3 → V) : V :=
  ∑ z ∈ Ico G.z (n.z - G.z), ∑ y ∈ Ico G.y (n.y - G.y), ∑ x ∈ Ico G.x (n.x - G.x), f ⟨x, y, z⟩

/-- Inflow at the left ends minus outflow at the right ends of all grid lines in one direction. -/
def netInflow {V : Type} [AddCommGroup V] (n G : I3) (d : Nat) (F : I3 → V) : V :=
  if d = 0 then ∑ z ∈ Ico G.z (n.z - G.z), ∑ y ∈ Ico G.y (n.y - G.y), (F ⟨G.x - 1, y, z⟩ - F ⟨n.x - G.x - 1, y, z⟩)
  else if d = 1 then ∑ z ∈ Ico G.z (n.z - G.z), ∑ x ∈ Ico G.x (n.x - G.x), (F ⟨x, G.y - 1, z⟩ - F ⟨x, n.y - G.y - 1, z⟩)
  else ∑ y ∈ Ico G.y (n.y - G.y), ∑ x ∈ Ico G.x (n.x - G.x), (F ⟨x, y, G.z - 1⟩ - F ⟨x, y, n.z - G.z - 1⟩)

theorem total_difference {V : Type} [AddCommGroup V] {n G : I3} (h : G.x ≤ n.x - G.x ∧ G.y ≤ n.y - G.y ∧ G.z ≤ n.z - G.z) {d : Nat} (hd : d < 3)
    (F : I3 → V) : total n G (fun p => F (p - I3.dir d) - F p) = netInflow n G d F := by
  unfold total netInflow
  have hd3 : d = 0 ∨ d = 1 ∨ d = 2 := by omega
  rcases hd3 with rfl | rfl | rfl
  · simp only [if_true]
    refine Finset.sum_congr rfl fun z _ => Finset.sum_congr rfl fun y _ => ?_
    rw [← telescope (fun x => F ⟨x, y, z⟩) G.x (n.x - G.x) h.1]
    refine Finset.sum_congr rfl fun x _ => ?_
    congr 2
    ext <;> simp [I3.dir]
  · simp only [if_true, if_false, one_ne_zero]
    refine Finset.sum_congr rfl fun z _ => ?_
    rw [Finset.sum_comm]
    refine Finset.sum_congr rfl fun x _ => ?_
    rw [← telescope (fun y => F ⟨x, y, z⟩) G.y (n.y - G.y) h.2.1]
    refine Finset.sum_congr rfl fun y _ => ?_
    congr 2
    ext <;> simp [I3.dir]
  · simp only [if_false, OfNat.ofNat_ne_zero, OfNat.ofNat_ne_one]
    rw [Finset.sum_comm]
    refine Finset.sum_congr rfl fun y _ => ?_
    rw [Finset.sum_comm]
    refine Finset.sum_congr rfl fun x _ => ?_
    rw [← telescope (fun z => F ⟨x, y, z⟩) G.z (n.z - G.z) h.2.2]
    refine Finset.sum_congr rfl fun z _ => ?_
    congr 2
    ext <;> simp [I3.dir]

theorem total_congr {V : Type} [AddCommMonoid V] {n G : I3} {f g : I3 → V} (h : ∀ p, IsInterior n G p → f p = g p) : total n G f = total n G g := by
  unfold total
  refine Finset.sum_congr rfl fun z hz => Finset.sum_congr rfl fun y hy => Finset.sum_congr rfl fun x hx => h _ ?_
  simp only [Finset.mem_Ico] at hx hy hz
  intro d hd
  interval_cases d <;> simp [I3.get] <;> omega

theorem total_add {V : Type} [AddCommMonoid V] {n G : I3} (f g : I3 → V) : total n G (fun p => f p + g p) = total n G f + total n G g := by
  simp only [total, Finset.sum_add_distrib]

theorem total_list_sum {V : Type} [AddCommMonoid V] {n G : I3} (l : List Nat) (f : Nat → I3 → V) :
    total n G (fun p => (l.map fun d => f d p).sum) = (l.map fun d => total n G (f d)).sum := by
  induction l with
  | nil => simp [total]
  | cons a l ih => simp only [List.map_cons, List.sum_cons, total_add, ih]

theorem total_net {V R : Type} [AddCommGroup V] {n G active : I3} {dims g : Nat} (hL : Layout n G active dims g) (r : Recon V) (fl : FluxFn V R)
    (w : I3 → V) : total n G (net dims r fl w) = ((List.range dims).map fun d => netInflow n G d fun q => (face r fl w d q).1).sum := by
  have h : net dims r fl w = fun p => ((List.range dims).map fun d => (face r fl w d (p - I3.dir d)).1 - (face r fl w d p).1).sum := rfl
  rw [h, total_list_sum (f := fun d p => (face r fl w d (p - I3.dir d)).1 - (face r fl w d p).1)]
  congr 1
  refine List.map_congr_left fun d hd => ?_
  have hd' : d < dims := by simpa using hd
  have hdl := hL.dims_le
  have hb : G.x ≤ n.x - G.x ∧ G.y ≤ n.y - G.y ∧ G.z ≤ n.z - G.z := by
    obtain ⟨_, _, _, b1, b2, b3⟩ := layout_cases hL
    omega
  exact total_difference hb (by omega) (fun q => (face r fl w d q).1)

/-- If the flux at both ends of every grid line is the same, nothing flows in. -/
theorem netInflow_eq_zero {V : Type} [AddCommGroup V] {n G : I3} {d : Nat} (hd : d < 3) (F : I3 → V)
    (hF : ∀ q, q.get d = G.get d - 1 → (∀ e < 3, e ≠ d → G.get e ≤ q.get e ∧ q.get e < n.get e - G.get e) →
      F q = F (q + step d (n.get d - 2 * G.get d))) : netInflow n G d F = 0 := by
  unfold netInflow
  have hd3 : d = 0 ∨ d = 1 ∨ d = 2 := by omega
  rcases hd3 with rfl | rfl | rfl
  · simp only [if_true]
    refine Finset.sum_eq_zero fun z hz => Finset.sum_eq_zero fun y hy => ?_
    simp only [Finset.mem_Ico] at hz hy
    have h := hF ⟨G.x - 1, y, z⟩ (by simp [I3.get]) (by intro e he hne; interval_cases e <;> simp [I3.get] at * <;> omega)
    rw [h, sub_eq_zero]
    congr 1
    ext <;> simp [step, I3.get]; ring
  · simp only [if_true, if_false, one_ne_zero]
    refine Finset.sum_eq_zero fun z hz => Finset.sum_eq_zero fun y hy => ?_
    simp only [Finset.mem_Ico] at hz hy
    have h := hF ⟨y, G.y - 1, z⟩ (by simp [I3.get]) (by intro e he hne; interval_cases e <;> simp [I3.get] at * <;> omega)
    rw [h, sub_eq_zero]
    congr 1
    ext <;> simp [step, I3.get]; ring
  · simp only [if_false, OfNat.ofNat_ne_zero, OfNat.ofNat_ne_one]
    refine Finset.sum_eq_zero fun z hz => Finset.sum_eq_zero fun y hy => ?_
    simp only [Finset.mem_Ico] at hz hy
    have h := hF ⟨y, z, G.z - 1⟩ (by simp [I3.get]) (by intro e he hne; interval_cases e <;> simp [I3.get] at * <;> omega)
    rw [h, sub_eq_zero]
    congr 1
    ext <;> simp [step, I3.get]; ring

end Verif.NetFlux
