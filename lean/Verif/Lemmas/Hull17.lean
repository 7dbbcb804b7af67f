import Verif.Lemmas.Hull5
import Verif.Lemmas.HullSort
/-! # Sorting with one result; the centre without the trigonometry -/

namespace Verif
namespace Hull
open F32

/-- Sorting has only one result if the comparison decides about every two elements. -/
theorem sort_unique {sort : (Nat → Nat → Bool) → List Nat → List Nat} (hs : Sorts sort) {lt : Nat → Nat → Bool} {l l' : List Nat} (hw : strictWeak lt l = true)
    (hp : l'.Perm l) (ho : l'.Pairwise fun a b => lt b a = false) (ht : ∀ a ∈ l, ∀ b ∈ l, (lt a b = false ∧ lt b a = false → a = b)) : sort lt l = l' := by
  have S := Sorts.strictWeak hs hw
  refine List.Perm.eq_of_pairwise ?_ S.2 ho (S.1.trans hp.symm)
  intro a b ha hb h1 h2
  exact ht a (S.1.mem_iff.1 ha) b (hp.mem_iff.1 hb) ⟨h2, h1⟩
/-- The hull if sorting has only one result. -/
theorem hull_unique {sort : (Nat → Nat → Bool) → List Nat → List Nat} (hs : Sorts sort) {ps : List V3f} (hw : strictWeak (before ps (findRoot ps)) (others ps (findRoot ps)) = true)
    (ht : ∀ a ∈ others ps (findRoot ps), ∀ b ∈ others ps (findRoot ps), (before ps (findRoot ps) a b = false ∧ before ps (findRoot ps) b a = false → a = b)) :
    hull sort ps = hull insertionSort ps := by
  unfold hull
  dsimp only
  rw [hw, sort_unique hs hw (Sorts.strictWeak insertionSort_sorts hw).1 (Sorts.strictWeak insertionSort_sorts hw).2 ht]

theorem flatStep_yaw (t t' : Trig) (ps : List V3f) (h : List Nat) (r r' : Flat) (i : Nat) (h1 : r.xMin = r'.xMin) (h2 : r.xMax = r'.xMax) (h3 : r.minArea = r'.minArea) :
    (flatStep t ps h r i).xMin = (flatStep t' ps h r' i).xMin ∧ (flatStep t ps h r i).xMax = (flatStep t' ps h r' i).xMax ∧
      (flatStep t ps h r i).minArea = (flatStep t' ps h r' i).minArea := by
  unfold flatStep
  dsimp only
  rw [h3]
  cases e : r'.minArea with
  | none => exact ⟨rfl, rfl, rfl⟩
  | some a =>
    dsimp only
    split
    · exact ⟨h1, h2, h3⟩
    · exact ⟨rfl, rfl, rfl⟩
theorem foldl_yaw (t t' : Trig) (ps : List V3f) (h : List Nat) (l : List Nat) (r r' : Flat) (h1 : r.xMin = r'.xMin) (h2 : r.xMax = r'.xMax) (h3 : r.minArea = r'.minArea) :
    (l.foldl (flatStep t ps h) r).xMin = (l.foldl (flatStep t' ps h) r').xMin ∧ (l.foldl (flatStep t ps h) r).xMax = (l.foldl (flatStep t' ps h) r').xMax ∧
      (l.foldl (flatStep t ps h) r).minArea = (l.foldl (flatStep t' ps h) r').minArea := by
  induction l generalizing r r' with
  | nil => exact ⟨h1, h2, h3⟩
  | cons i l ih =>
    obtain ⟨a, b, c⟩ := flatStep_yaw t t' ps h r r' i h1 h2 h3
    exact ih _ _ a b c
/-- The centre does not depend on the trigonometric functions. -/
theorem center_yaw (t t' : Trig) {sort : (Nat → Nat → Bool) → List Nat → List Nat} {ps : List V3f} {b : BBox} (e : extractRAABB sort t ps = .ok b) :
    ∃ b', extractRAABB sort t' ps = .ok b' ∧ b'.center = b.center := by
  unfold extractRAABB at e ⊢
  cases hh : hull sort ps with
  | ub => rw [hh] at e; cases e
  | throw => rw [hh] at e; cases e
  | ok h =>
    rw [hh] at e
    obtain ⟨a1, a2, a3⟩ := foldl_yaw t t' ps h (List.range h.length) {} {} rfl rfl rfl
    change (minBox t ps h).xMin = (minBox t' ps h).xMin at a1
    change (minBox t ps h).xMax = (minBox t' ps h).xMax at a2
    change (minBox t ps h).minArea = (minBox t' ps h).minArea at a3
    change (match (minBox t ps h).minArea with | none => _ | some _ => _) = Res.ok b at e
    change ∃ b', (match (minBox t' ps h).minArea with | none => _ | some _ => _) = Res.ok b' ∧ _
    rw [a3] at e
    cases hm : (minBox t' ps h).minArea with
    | none =>
      rw [hm] at e
      exact ⟨_, rfl, by rw [← Res.ok.inj e]⟩
    | some a =>
      rw [hm] at e
      refine ⟨_, rfl, ?_⟩
      rw [← Res.ok.inj e, a1, a2]
      rfl

theorem add_nan (x y : F32) (h : x.isNan = true) : x.add y = nan := by unfold F32.add; rw [h]; rfl
theorem mul_nan (x y : F32) (h : x.isNan = true) : x.mul y = nan := by unfold F32.mul; rw [h]; rfl
theorem sub_self {x : F32} (h : F32.finite x = true) : x.sub x = 0 := by
  have h' := neg_finite h
  unfold F32.sub F32.add
  rw [finite_notNan h, finite_notNan h', finite_notInf h, finite_notInf h', neg_val, neg_neg?, if_neg (by simp), if_neg (by simp), if_neg (by simp), if_pos (by omega)]
  cases x.neg? <;> decide +kernel
/-- The hull of one point. -/
theorem hull_single {sort : (Nat → Nat → Bool) → List Nat → List Nat} (hs : Sorts sort) (p : V3f) : hull sort [p] = .ok [0] := by
  have r : findRoot [p] = 0 := by
    have := findRoot_lt (ps := [p]) (by simp)
    simp only [List.length_cons, List.length_nil] at this
    omega
  have o : others [p] 0 = [] := rfl
  unfold hull
  dsimp only
  rw [r, o, List.Perm.eq_nil (hs (before [p] 0) [] (by simp) (by simp) (by simp)).1]
  rfl
theorem solve_zero (b : V2f) : solve (across ⟨0, 0⟩) ⟨0, 0⟩ b = ⟨nan, nan⟩ := by
  unfold solve
  dsimp only
  rw [mul_nan (F32.neg _) b.x (by decide +kernel), mul_nan (F32.neg _) b.x (by decide +kernel), add_nan _ _ (by decide +kernel), add_nan _ _ (by decide +kernel)]
theorem center_single {sort : (Nat → Nat → Bool) → List Nat → List Nat} (hs : Sorts sort) (t : Trig) (p : V3f) (hx : F32.finite p.x = true) (hy : F32.finite p.y = true) :
    ∃ b, extractRAABB sort t [p] = .ok b ∧ b.center.x.isNan = true ∧ b.center.y.isNan = true := by
  have d : edgeDir [p] [0] 0 = ⟨0, 0⟩ := by
    show (V2f.mk (p.x.sub p.x) (p.y.sub p.y)).normalized = _
    rw [sub_self hx, sub_self hy]
    decide +kernel
  have m : ∃ a y, minBox t [p] [0] = ⟨⟨nan, nan⟩, ⟨nan, nan⟩, some a, y⟩ := by
    show ∃ a y, flatStep t [p] [0] {} 0 = _
    unfold flatStep
    dsimp only
    rw [d, solve_zero, solve_zero]
    exact ⟨_, _, rfl⟩
  obtain ⟨a, y, m⟩ := m
  unfold extractRAABB
  rw [hull_single hs]
  simp only [bind, Res.bind]
  rw [m]
  refine ⟨_, rfl, ?_⟩
  constructor
  · show (F32.half (F32.add nan nan)).isNan = true; decide +kernel
  · show (F32.half (F32.add nan nan)).isNan = true; decide +kernel

end Hull
end Verif
