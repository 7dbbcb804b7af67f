import Mathlib.Tactic.Linarith
import Mathlib.Tactic.Ring
import Mathlib.Tactic.LinearCombination
import Mathlib.Algebra.Order.Ring.Abs
/-! # The scan along the hull, in exact arithmetic

Points are numbers with coordinates relative to the root, which is at the origin. -/

namespace Verif
namespace Graham

variable (X Y : Nat → Int)

/-- the cross product -/
def cr (i j : Nat) : Int := X i * Y j - Y i * X j
/-- positive if `i`, `j`, `k` turn left -/
def orient (i j k : Nat) : Int := cr X Y i j + cr X Y j k - cr X Y i k
/-- the distance from the root, |x| + |y| -/
def dist (i : Nat) : Int := |X i| + |Y i|
/-- above the root, or right of it -/
def Upper (i : Nat) : Prop := 0 < Y i ∨ (Y i = 0 ∧ 0 < X i)

/-- bounding_box_extraction.cpp:101-116, with exact turns -/
def push : List Nat → Nat → List Nat
  | b :: a :: rest, c => if 0 < orient X Y a b c then c :: b :: a :: rest else push (a :: rest) c
  | h, c => c :: h

variable {X Y}

theorem cr_self (i : Nat) : cr X Y i i = 0 := by unfold cr; ring
theorem cr_anti (i j : Nat) : cr X Y j i = - cr X Y i j := by unfold cr; ring

theorem exchange (a' a b c q : Nat) : orient X Y a c b * orient X Y a' a q + orient X Y a b q * orient X Y a' a c = orient X Y a c q * orient X Y a' a b := by
  unfold orient cr; ring
theorem fan (h0 h1 h2 c : Nat) : orient X Y h0 h1 h2 * cr X Y h1 c + orient X Y h1 h2 c * cr X Y h0 h1 = orient X Y h0 h1 c * cr X Y h1 h2 := by
  unfold orient cr; ring
theorem plueckerX (p q s : Nat) : cr X Y p q * X s + cr X Y q s * X p = cr X Y p s * X q := by unfold cr; ring
theorem plueckerY (p q s : Nat) : cr X Y p q * Y s + cr X Y q s * Y p = cr X Y p s * Y q := by unfold cr; ring

theorem dist_pos {i : Nat} (h : Upper X Y i) : 0 < dist X Y i := by
  unfold dist
  rcases h with h | ⟨_, h⟩
  · have := abs_pos.2 (ne_of_gt h); have := abs_nonneg (X i); linarith
  · have := abs_pos.2 (ne_of_gt h); have := abs_nonneg (Y i); linarith

/-- Points in the same direction: cross products with a third are in the ratio of the distances. -/
theorem ratio {a q c : Nat} (h : cr X Y a q = 0) (hq : 0 ≤ cr X Y q c) (ha : 0 ≤ cr X Y a c) : cr X Y q c * dist X Y a = cr X Y a c * dist X Y q := by
  have hx : cr X Y q c * X a = cr X Y a c * X q := by have := plueckerX (X := X) (Y := Y) a q c; rw [h] at this; linarith
  have hy : cr X Y q c * Y a = cr X Y a c * Y q := by have := plueckerY (X := X) (Y := Y) a q c; rw [h] at this; linarith
  have ex : cr X Y q c * |X a| = cr X Y a c * |X q| := by
    rw [← abs_of_nonneg hq, ← abs_of_nonneg ha, ← abs_mul, ← abs_mul, hx]
  have ey : cr X Y q c * |Y a| = cr X Y a c * |Y q| := by
    rw [← abs_of_nonneg hq, ← abs_of_nonneg ha, ← abs_mul, ← abs_mul, hy]
  unfold dist
  rw [mul_add, mul_add, ex, ey]

theorem le_of_ratio {a q c : Nat} (h : cr X Y a q = 0) (hq : 0 ≤ cr X Y q c) (ha : 0 ≤ cr X Y a c) (pa : 0 < dist X Y a) (hd : dist X Y q ≤ dist X Y a) :
    cr X Y q c ≤ cr X Y a c := by
  have := ratio h hq ha
  by_contra hlt
  have hlt := not_le.1 hlt
  nlinarith

/-- Points in the upper half plane: if `q` is between `b` and `c`, and these are in one direction, so is `q`. -/
theorem between {b q c : Nat} (ub : Upper X Y b) (uc : Upper X Y c) (h1 : 0 ≤ cr X Y b q) (h2 : 0 ≤ cr X Y q c) (h3 : cr X Y b c = 0) : cr X Y q c = 0 := by
  have hx := plueckerX (X := X) (Y := Y) b q c
  have hy := plueckerY (X := X) (Y := Y) b q c
  rw [h3] at hx hy
  rcases ub with ub | ⟨yb, xb⟩
  · have yc : 0 ≤ Y c := by rcases uc with h | ⟨h, _⟩ <;> linarith
    have : cr X Y q c * Y b ≤ 0 := by nlinarith
    nlinarith
  · have : X b * Y c = 0 := by have := h3; unfold cr at this; rw [yb] at this; linarith
    have yc : Y c = 0 := by rcases mul_eq_zero.1 this with h | h <;> [linarith; exact h]
    have xc : 0 < X c := by rcases uc with h | ⟨_, h⟩ <;> linarith
    have : cr X Y q c * X b ≤ 0 := by nlinarith
    nlinarith

/-- The hull so far, last first: it starts at the root, and turns left everywhere. -/
def Good : List Nat → Prop
  | [] => False
  | [r] => X r = 0 ∧ Y r = 0
  | [a, r] => X r = 0 ∧ Y r = 0 ∧ Upper X Y a
  | b :: a :: a' :: rest => Good (a :: a' :: rest) ∧ Upper X Y b ∧ 0 < cr X Y a b ∧ 0 < orient X Y a' a b

/-- All points are left of every edge. -/
def Covers (done : List Nat) : List Nat → Prop
  | b :: a :: rest => (∀ q ∈ done, 0 ≤ orient X Y a b q) ∧ Covers done (a :: rest)
  | _ => True

structure Inv (s done : List Nat) : Prop where
  good : Good (X := X) (Y := Y) s
  covers : Covers (X := X) (Y := Y) done s
  /-- no point is beyond the last -/
  last : ∀ t ∈ s.head?, ∀ q ∈ done, 0 ≤ cr X Y q t ∧ (cr X Y q t = 0 → dist X Y q ≤ dist X Y t)
  upper : ∀ q ∈ done, (X q = 0 ∧ Y q = 0) ∨ Upper X Y q
  sub : ∀ h ∈ s, h ∈ done

/-- The next point in the order. -/
structure Next (done : List Nat) (c : Nat) : Prop where
  upper : Upper X Y c
  angle : ∀ q ∈ done, 0 ≤ cr X Y q c
  tie : ∀ q ∈ done, cr X Y q c = 0 → dist X Y q ≤ dist X Y c

/-- If the loop stops here, the new edge has all points on its left. -/
def Cap (done : List Nat) (c : Nat) : List Nat → Prop
  | a :: a' :: _ => 0 < orient X Y a' a c → ∀ q ∈ done, 0 ≤ orient X Y a c q
  | [_] => ∀ q ∈ done, cr X Y q c = 0
  | [] => False

theorem Good.pop {b a : Nat} {rest : List Nat} (h : Good (X := X) (Y := Y) (b :: a :: rest)) : Good (X := X) (Y := Y) (a :: rest) := by
  cases rest with
  | nil => exact ⟨h.1, h.2.1⟩
  | cons a' rest => exact h.1
theorem Good.head_upper {b a : Nat} {rest : List Nat} (h : Good (X := X) (Y := Y) (b :: a :: rest)) : Upper X Y b := by
  cases rest with
  | nil => exact h.2.2
  | cons a' rest => exact h.2.1

theorem cr_root_left {r i : Nat} (h : X r = 0 ∧ Y r = 0) : cr X Y r i = 0 := by unfold cr; rw [h.1, h.2]; ring
theorem cr_root_right {r i : Nat} (h : X r = 0 ∧ Y r = 0) : cr X Y i r = 0 := by unfold cr; rw [h.1, h.2]; ring

/-- a factor is nonnegative -/
theorem factor {p q r : Int} (h : p = q * r) (hp : 0 ≤ p) (hr : 0 < r) : 0 ≤ q := by
  by_contra hq
  have hq := not_le.1 hq
  nlinarith

theorem cap_start {s done : List Nat} {c : Nat} (I : Inv (X := X) (Y := Y) s done) (hc : Next (X := X) (Y := Y) done c) : Cap (X := X) (Y := Y) done c s := by
  match s, I with
  | [], I => exact I.good.elim
  | [r], I =>
    intro q hq
    have hl := I.last r (by simp) q hq
    have hr : X r = 0 ∧ Y r = 0 := I.good
    have hz : cr X Y q r = 0 := cr_root_right hr
    have hd := hl.2 hz
    have d0 : dist X Y r = 0 := by unfold dist; rw [hr.1, hr.2]; simp
    rcases I.upper q hq with h | h
    · exact cr_root_left h
    · have := dist_pos h; linarith
  | [a, r], I =>
    intro _ q hq
    have hr : X r = 0 ∧ Y r = 0 := ⟨I.good.1, I.good.2.1⟩
    have h1 := I.covers.1 q hq
    have h2 := I.last a (by simp) q hq
    have e1 : orient X Y r a q = cr X Y a q := by unfold orient; rw [cr_root_left hr, cr_root_left hr]; ring
    rw [e1] at h1
    have h3 : cr X Y a q = 0 := by have := cr_anti (X := X) (Y := Y) a q; linarith [h2.1]
    have h4 := h2.2 (by rw [cr_anti, h3]; rfl)
    have h5 := le_of_ratio h3 (hc.angle q hq) (hc.angle a (I.sub a (by simp))) (dist_pos I.good.2.2) h4
    unfold orient
    have := cr_anti (X := X) (Y := Y) c q
    linarith
  | a :: a' :: a'' :: rest, I =>
    intro hU q hq
    have g := I.good
    have ha := hc.angle a (I.sub a (by simp))
    have h2 := (I.last a (by simp) q hq).1
    have hc1 := I.covers.1 q hq
    have gp : 0 < cr X Y a' a := g.2.2.1
    -- `b` is the root: `orient a c b = cr a c`, `orient a b q = cr q a`, `orient a' a b = cr a' a`
    have e : cr X Y a c * orient X Y a' a q + cr X Y q a * orient X Y a' a c = orient X Y a c q * cr X Y a' a := by unfold orient cr; ring
    exact factor e (by have := mul_nonneg ha hc1; have := mul_nonneg h2 (le_of_lt hU); linarith) gp

theorem cap_pop {b a c : Nat} {rest done : List Nat} (hg : Good (X := X) (Y := Y) (b :: a :: rest)) (hcov : Covers (X := X) (Y := Y) done (b :: a :: rest))
    (hsub : ∀ h ∈ b :: a :: rest, h ∈ done) (hc : Next (X := X) (Y := Y) done c) (hs : ¬ 0 < orient X Y a b c) : Cap (X := X) (Y := Y) done c (a :: rest) := by
  have hs := not_lt.1 hs
  match rest, hg, hcov, hsub with
  | [], hg, hcov, hsub =>
    intro q hq
    have hr : X a = 0 ∧ Y a = 0 := ⟨hg.1, hg.2.1⟩
    have e : ∀ i, orient X Y a b i = cr X Y b i := by intro i; unfold orient; rw [cr_root_left hr, cr_root_left hr]; ring
    have h1 := hcov.1 q hq
    rw [e] at h1 hs
    have h2 := hc.angle b (hsub b (by simp))
    exact between hg.2.2 hc.upper h1 (hc.angle q hq) (by linarith)
  | a' :: rest, hg, hcov, hsub =>
    intro hU q hq
    have e := exchange (X := X) (Y := Y) a' a b c q
    have h1 := hcov.1 q hq
    have h2 := hcov.2.1 q hq
    have h3 : orient X Y a c b = - orient X Y a b c := by unfold orient cr; ring
    refine factor e ?_ hg.2.2.2
    have := mul_nonneg (show 0 ≤ orient X Y a c b by rw [h3]; linarith) h2
    have := mul_nonneg h1 (le_of_lt hU)
    linarith

/-- The new point is left of all edges that stay. -/
theorem left_of_all {c : Nat} {done : List Nat} (hc : Next (X := X) (Y := Y) done c) : ∀ (rest : List Nat) (a a' : Nat), Good (X := X) (Y := Y) (a :: a' :: rest) →
    (∀ h ∈ a :: a' :: rest, h ∈ done) → Covers (X := X) (Y := Y) done (a :: a' :: rest) → 0 < orient X Y a' a c → Covers (X := X) (Y := Y) (c :: done) (a :: a' :: rest) := by
  intro rest
  induction rest with
  | nil =>
    intro a a' hg hsub hcov h
    refine ⟨fun q hq => ?_, trivial⟩
    rcases List.mem_cons.1 hq with rfl | hq
    · exact le_of_lt h
    · exact hcov.1 q hq
  | cons a'' rest ih =>
    intro a a' hg hsub hcov h
    refine ⟨fun q hq => ?_, ?_⟩
    · rcases List.mem_cons.1 hq with rfl | hq
      · exact le_of_lt h
      · exact hcov.1 q hq
    · -- the edge before
      have h1 : 0 < orient X Y a'' a' c := by
        have e := fan (X := X) (Y := Y) a'' a' a c
        have g := hg.2.2
        have gp : 0 ≤ cr X Y a'' a' := by
          cases rest with
          | nil => have := hg.1; rw [cr_root_left ⟨this.1, this.2.1⟩]
          | cons _ _ => exact le_of_lt hg.1.2.2.1
        have k := hc.angle a' (hsub a' (by simp))
        by_cases hk : 0 < cr X Y a' c
        · have := mul_pos g.2 hk
          have := mul_nonneg (le_of_lt h) gp
          by_contra hn
          have hn := not_lt.1 hn
          nlinarith [g.1]
        · -- `c` in the direction of `a'`, but `a` lies between
          exfalso
          have k0 : cr X Y a' c = 0 := by linarith [not_lt.1 hk]
          have ua := hc.angle a (hsub a (by simp))
          have k1 := between (hg.1).head_upper hc.upper (le_of_lt g.1) ua k0
          have hx := plueckerX (X := X) (Y := Y) a' a c
          have hy := plueckerY (X := X) (Y := Y) a' a c
          rw [k0, k1] at hx hy
          rcases hc.upper with u | ⟨_, u⟩
          · have := mul_pos g.1 u; linarith
          · have := mul_pos g.1 u; linarith
      exact ih a' a'' hg.1 (fun h hh => hsub h (by simp only [List.mem_cons] at hh ⊢; tauto)) hcov.2 h1

theorem push_inv_aux {c : Nat} {done : List Nat} (hc : Next (X := X) (Y := Y) done c) (hup : ∀ q ∈ done, (X q = 0 ∧ Y q = 0) ∨ Upper X Y q) :
    ∀ s : List Nat, Good (X := X) (Y := Y) s → Covers (X := X) (Y := Y) done s → (∀ h ∈ s, h ∈ done) → Cap (X := X) (Y := Y) done c s →
      Inv (X := X) (Y := Y) (push X Y s c) (c :: done) := by
  intro s
  have lastc : ∀ t, t = c → ∀ q ∈ c :: done, 0 ≤ cr X Y q t ∧ (cr X Y q t = 0 → dist X Y q ≤ dist X Y t) := by
    rintro t rfl q hq
    rcases List.mem_cons.1 hq with rfl | hq
    · exact ⟨by rw [cr_self], fun _ => le_refl _⟩
    · exact ⟨hc.angle q hq, hc.tie q hq⟩
  have upc : ∀ q ∈ c :: done, (X q = 0 ∧ Y q = 0) ∨ Upper X Y q := by
    intro q hq
    rcases List.mem_cons.1 hq with rfl | hq
    · exact Or.inr hc.upper
    · exact hup q hq
  induction s with
  | nil => intro h; exact h.elim
  | cons b s ih =>
    intro hg hcov hsub hcap
    cases s with
    | nil =>
      have e : push X Y [b] c = [c, b] := rfl
      rw [e]
      have hr : X b = 0 ∧ Y b = 0 := hg
      refine ⟨⟨hg.1, hg.2, hc.upper⟩, ⟨fun q hq => ?_, trivial⟩, fun t ht => lastc t (by simpa using ht.symm), upc, ?_⟩
      · have e : orient X Y b c q = - cr X Y q c := by unfold orient; rw [cr_root_left hr, cr_root_left hr, cr_anti]; ring
        rw [e]
        rcases List.mem_cons.1 hq with rfl | hq
        · rw [cr_self]; simp
        · rw [hcap q hq]; simp
      · intro h hh
        simp only [List.mem_cons] at hh ⊢
        rcases hh with rfl | rfl | hh
        · exact Or.inl rfl
        · exact Or.inr (hsub _ (by simp))
        · cases hh
    | cons a rest =>
      unfold push
      by_cases hs : 0 < orient X Y a b c
      · rw [if_pos hs]
        have cov := left_of_all hc rest b a hg hsub hcov hs
        have bc : 0 < cr X Y b c := by
          have k := hc.angle b (hsub b (by simp))
          by_contra hn
          have k0 : cr X Y b c = 0 := by linarith [not_lt.1 hn]
          cases rest with
          | nil =>
            have hr : X a = 0 ∧ Y a = 0 := ⟨hg.1, hg.2.1⟩
            have : orient X Y a b c = cr X Y b c := by unfold orient; rw [cr_root_left hr, cr_root_left hr]; ring
            linarith
          | cons a' rest =>
            have t := hc.tie b (hsub b (by simp)) k0
            -- `c` is further away in the direction of `b`
            have r1 : cr X Y c b = 0 := by rw [cr_anti, k0]; rfl
            have pa : 0 ≤ cr X Y a c := hc.angle a (hsub a (by simp))
            have pb := hg.2.2.1
            have e1 : cr X Y a b * dist X Y c = cr X Y a c * dist X Y b := by
              have hx := plueckerX (X := X) (Y := Y) a b c
              have hy := plueckerY (X := X) (Y := Y) a b c
              rw [k0] at hx hy
              have ex : cr X Y a b * |X c| = cr X Y a c * |X b| := by
                rw [← abs_of_nonneg (le_of_lt pb), ← abs_of_nonneg pa, ← abs_mul, ← abs_mul]
                congr 1; linarith
              have ey : cr X Y a b * |Y c| = cr X Y a c * |Y b| := by
                rw [← abs_of_nonneg (le_of_lt pb), ← abs_of_nonneg pa, ← abs_mul, ← abs_mul]
                congr 1; linarith
              unfold dist
              rw [mul_add, mul_add, ex, ey]
            have db := dist_pos hg.2.1
            unfold orient at hs
            have : cr X Y a c < cr X Y a b := by linarith
            nlinarith
        refine ⟨⟨hg, hc.upper, bc, hs⟩, ⟨fun q hq => ?_, cov⟩, fun t ht => lastc t (by simpa using ht.symm), upc, ?_⟩
        · rcases List.mem_cons.1 hq with rfl | hq
          · unfold orient; rw [cr_self]; linarith
          · exact hcap hs q hq
        · intro h hh
          rcases List.mem_cons.1 hh with rfl | hh
          · simp
          · exact List.mem_cons_of_mem _ (hsub h hh)
      · rw [if_neg hs]
        exact ih hg.pop hcov.2 (fun h hh => hsub h (List.mem_cons_of_mem _ hh)) (cap_pop hg hcov hsub hc hs)

theorem push_inv {c : Nat} {s done : List Nat} (I : Inv (X := X) (Y := Y) s done) (hc : Next (X := X) (Y := Y) done c) :
    Inv (X := X) (Y := Y) (push X Y s c) (c :: done) :=
  push_inv_aux hc I.upper s I.good I.covers I.sub (cap_start I hc)

/-- Points in one direction: linear functions are in the ratio of the distances. -/
theorem ratio' {a q : Nat} (u v : Int) (h : cr X Y a q = 0) (ua : Upper X Y a) (uq : Upper X Y q) :
    dist X Y a * (u * X q + v * Y q) = dist X Y q * (u * X a + v * Y a) := by
  have hcr : X a * Y q = Y a * X q := by unfold cr at h; linarith
  have ya : 0 ≤ Y a := by rcases ua with h | ⟨h, _⟩ <;> linarith
  have yq : 0 ≤ Y q := by rcases uq with h | ⟨h, _⟩ <;> linarith
  have e : |X a| * X q = |X q| * X a ∧ |X a| * Y q = |X q| * Y a := by
    rcases lt_trichotomy (X a) 0 with h1 | h1 | h1
    · have : 0 < Y a := by rcases ua with h | ⟨_, h⟩ <;> linarith
      have h2 : X q ≤ 0 := by by_contra hn; nlinarith [not_le.1 hn]
      rw [abs_of_neg h1, abs_of_nonpos h2]; exact ⟨by ring, by linarith⟩
    · have : 0 < Y a := by rcases ua with h | ⟨_, h⟩ <;> linarith
      have h2 : X q = 0 := by
        rw [h1] at hcr
        rcases mul_eq_zero.1 (show Y a * X q = 0 by linarith) with h | h
        · linarith
        · exact h
      rw [h1, h2]; simp
    · have h2 : 0 ≤ X q := by
        by_contra hn
        have hn := not_le.1 hn
        rcases uq with h | ⟨_, h⟩
        · nlinarith [mul_pos h1 h]
        · linarith
      rw [abs_of_pos h1, abs_of_nonneg h2]; exact ⟨by ring, by linarith⟩
  unfold dist
  rw [abs_of_nonneg ya, abs_of_nonneg yq]
  linear_combination u * e.1 + v * e.2 - u * hcr

/-- Half planes around the hull contain the points. -/
theorem half_plane_aux {done : List Nat} (u v w : Int) (q : Nat) (hq : q ∈ done) (uq : Upper X Y q) : ∀ (s : List Nat) (a : Nat), Good (X := X) (Y := Y) (a :: s) → s ≠ [] →
    Covers (X := X) (Y := Y) done (a :: s) →
    (∀ h ∈ a :: s, u * X h + v * Y h ≤ w) → 0 ≤ w → 0 ≤ cr X Y q a → (cr X Y q a = 0 → dist X Y q ≤ dist X Y a) → u * X q + v * Y q ≤ w := by
  intro s
  induction s with
  | nil => intro a _ h; exact absurd rfl h
  | cons a' rest ih =>
    intro a hg _ hcov hw w0 hl ht
    have fa := hw a (by simp)
    have fa' := hw a' (by simp)
    have dq := dist_pos uq
    have pa := dist_pos hg.head_upper
    have along : cr X Y q a = 0 → u * X q + v * Y q ≤ w := by
      intro h0
      have h3 : cr X Y a q = 0 := by rw [cr_anti, h0]; rfl
      have r := ratio' u v h3 hg.head_upper uq
      have h4 := ht h0
      have : dist X Y q * (u * X a + v * Y a) ≤ dist X Y q * w := mul_le_mul_of_nonneg_left fa (le_of_lt dq)
      have : dist X Y q * w ≤ dist X Y a * w := mul_le_mul_of_nonneg_right h4 w0
      exact le_of_mul_le_mul_left (by linarith) pa
    cases rest with
    | nil =>
      have hr : X a' = 0 ∧ Y a' = 0 := ⟨hg.1, hg.2.1⟩
      have h1 := hcov.1 q hq
      have e1 : orient X Y a' a q = cr X Y a q := by unfold orient; rw [cr_root_left hr, cr_root_left hr]; ring
      rw [e1] at h1
      exact along (by have := cr_anti (X := X) (Y := Y) a q; linarith)
    | cons a'' rest =>
      by_cases hs : 0 ≤ cr X Y a' q
      · have D := hg.2.2.1
        have o := hcov.1 q hq
        have e : cr X Y a' a * (u * X q + v * Y q) = cr X Y q a * (u * X a' + v * Y a') + cr X Y a' q * (u * X a + v * Y a) := by unfold cr; ring
        have h1 := mul_le_mul_of_nonneg_left fa' hl
        have h2 := mul_le_mul_of_nonneg_left fa hs
        have h3 : cr X Y q a + cr X Y a' q ≤ cr X Y a' a := by
          have : orient X Y a' a q = cr X Y a' a - cr X Y q a - cr X Y a' q := by unfold orient cr; ring
          linarith
        have h4 := mul_le_mul_of_nonneg_right h3 w0
        exact le_of_mul_le_mul_left (by linarith) D
      · have hs := not_le.1 hs
        have hp : 0 < cr X Y q a' := by rw [cr_anti]; linarith
        exact ih a' hg.pop (by simp) hcov.2 (fun h hh => hw h (List.mem_cons_of_mem _ hh)) w0 (le_of_lt hp) (fun h => by linarith)

end Graham
end Verif
