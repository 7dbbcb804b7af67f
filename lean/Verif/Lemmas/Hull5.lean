import Verif.Lemmas.Hull4
/-! # The hull of separated points on a raster -/

namespace Verif
namespace Hull
open F32

/-- coordinates relative to the root -/
def relX (ps : List V3f) (r i : Nat) : Int := (pt ps i).coord .x - (pt ps r).coord .x
def relY (ps : List V3f) (r i : Nat) : Int := (pt ps i).coord .y - (pt ps r).coord .y

theorem turn_eq (ps : List V3f) (r a b c : Nat) : (pt ps a).turn (pt ps b) (pt ps c) = Graham.orient (relX ps r) (relY ps r) a b c := by
  unfold V3f.turn Graham.orient Graham.cr relX relY; ring

theorem push_eq {g D : Nat} {ps : List V3f} (ht : Tidy ps) (h : Raster g D ps) (h1 : 75 ≤ g) (h2 : g ≤ 200) (hD : D ≤ 2047) (r c : Nat) (hc : c < ps.length) :
    ∀ s : List Nat, (∀ i ∈ s, i < ps.length) → push ps s c = Graham.push (relX ps r) (relY ps r) s c := by
  intro s
  induction s with
  | nil => intro _; rfl
  | cons b s ih =>
    intro hs
    cases s with
    | nil => rfl
    | cons a rest =>
      have j := joint_iff ht h h1 h2 hD (pt_mem (hs a (by simp))) (pt_mem (hs b (by simp))) (pt_mem hc)
      rw [turn_eq ps r] at j
      unfold push Graham.push
      by_cases hj : (getJointDirection (pt ps b) (pt ps a) (pt ps c)).lt 0 = true
      · rw [if_pos hj, if_pos (j.1 hj)]
      · rw [if_neg hj, if_neg (fun h => hj (j.2 h))]
        exact ih (fun i hi => hs i (List.mem_cons_of_mem _ hi))

theorem upper_of {ps : List V3f} {r : Nat} (hl : Lowest ps r) {i : Nat} (hi : i < ps.length)
    (hne : (pt ps i).coord .x ≠ (pt ps r).coord .x ∨ (pt ps i).coord .y ≠ (pt ps r).coord .y) : Graham.Upper (relX ps r) (relY ps r) i := by
  have := hl.2 _ (pt_mem hi)
  unfold Graham.Upper relX relY
  omega

/-- Smaller angles have larger cosines. -/
theorem cr_of_cosine {x1 y1 x2 y2 : ℝ} (u1 : 0 < y1 ∨ (y1 = 0 ∧ 0 < x1)) (u2 : 0 < y2 ∨ (y2 = 0 ∧ 0 < x2))
    (h : x2 / Real.sqrt (x2 * x2 + y2 * y2) < x1 / Real.sqrt (x1 * x1 + y1 * y1)) : 0 < x1 * y2 - y1 * x2 := by
  have py1 : 0 ≤ y1 := by rcases u1 with h | ⟨h, _⟩ <;> linarith
  have py2 : 0 ≤ y2 := by rcases u2 with h | ⟨h, _⟩ <;> linarith
  have pos : ∀ {x y : ℝ}, (0 < y ∨ (y = 0 ∧ 0 < x)) → 0 < Real.sqrt (x * x + y * y) := by
    intro x y hu
    apply Real.sqrt_pos.2
    rcases hu with hu | ⟨_, hu⟩
    · nlinarith [mul_self_nonneg x, mul_pos hu hu]
    · nlinarith [mul_self_nonneg y, mul_pos hu hu]
  have p1 := pos u1
  have p2 := pos u2
  have s1 := Real.mul_self_sqrt (show 0 ≤ x1 * x1 + y1 * y1 by nlinarith [mul_self_nonneg x1, mul_self_nonneg y1])
  have s2 := Real.mul_self_sqrt (show 0 ≤ x2 * x2 + y2 * y2 by nlinarith [mul_self_nonneg x2, mul_self_nonneg y2])
  rw [div_lt_div_iff₀ p2 p1] at h
  generalize Real.sqrt (x1 * x1 + y1 * y1) = n1 at *
  generalize Real.sqrt (x2 * x2 + y2 * y2) = n2 at *
  by_contra hn
  have hn : x1 * y2 ≤ y1 * x2 := by linarith
  rcases lt_or_ge 0 x1 with hx1 | hx1
  · rcases lt_or_ge 0 x2 with hx2 | hx2
    · -- both to the right
      have h1 : x1 * n2 ≤ x2 * n1 := by
        apply nonneg_le_nonneg_of_sq_le_sq (by positivity)
        have : (x1 * y2) * (x1 * y2) ≤ (y1 * x2) * (y1 * x2) := mul_self_le_mul_self (by positivity) hn
        have e1 : x1 * n2 * (x1 * n2) = x1 * x1 * (n2 * n2) := by ring
        have e2 : x2 * n1 * (x2 * n1) = x2 * x2 * (n1 * n1) := by ring
        rw [e1, e2, s1, s2]
        linarith
      linarith
    · have : y1 * x2 ≤ 0 := mul_nonpos_of_nonneg_of_nonpos py1 hx2
      rcases u2 with u | ⟨_, u⟩
      · have := mul_pos hx1 u; linarith
      · linarith
  · rcases lt_or_ge x2 0 with hx2 | hx2
    · have hy2 : 0 < y2 := by rcases u2 with u | ⟨_, u⟩ <;> linarith
      have hy1 : 0 < y1 := by rcases u1 with u | ⟨_, u⟩ <;> linarith
      have h1 : -x2 * n1 ≤ -x1 * n2 := by
        apply nonneg_le_nonneg_of_sq_le_sq (mul_nonneg (by linarith) (le_of_lt p2))
        have : (y1 * -x2) * (y1 * -x2) ≤ (-x1 * y2) * (-x1 * y2) := mul_self_le_mul_self (mul_nonneg py1 (by linarith)) (by linarith)
        have e3 : -x1 * n2 * (-x1 * n2) = x1 * x1 * (n2 * n2) := by ring
        have e4 : -x2 * n1 * (-x2 * n1) = x2 * x2 * (n1 * n1) := by ring
        rw [e4, e3, s1, s2]
        linarith
      linarith
    · have := mul_nonneg hx2 (le_of_lt p1)
      have := mul_nonpos_of_nonpos_of_nonneg hx1 (le_of_lt p2)
      linarith

theorem sorted_turns {g D : Nat} {ps : List V3f} (ht : Tidy ps) (h : Raster g D ps) (h1 : 75 ≤ g) (h2 : g ≤ 200) (hD : D ≤ 2047) (hs : Separated ps) {r : Nat} (hl : Lowest ps r)
    {i j : Nat} (hi : i < ps.length) (hj : j < ps.length) (ir : i ≠ r) (jr : j ≠ r) (ij : i ≠ j) (hb : before ps r j i = false) : 0 < Graham.cr (relX ps r) (relY ps r) i j := by
  have ai := hs.apart r hl i hi ir
  have aj := hs.apart r hl j hj jr
  obtain ⟨_, c1⟩ := angle_close ht h h1 h2 hD (pt_mem hi) (pt_mem hl.1) ai
  obtain ⟨_, c2⟩ := angle_close ht h h1 h2 hD (pt_mem hj) (pt_mem hl.1) aj
  have d := hs.directions r hl i hi j hj ir jr ij
  rw [before_false ht hl.1 hj hi] at hb
  have hle : (getAngle (pt ps i) (pt ps r)).re ≤ (getAngle (pt ps j) (pt ps r)).re := re_le.1 (by omega)
  have hlt : (pt ps r).cosine (pt ps j) < (pt ps r).cosine (pt ps i) := by
    rw [abs_le] at c1 c2
    rcases abs_cases ((pt ps r).cosine (pt ps i) - (pt ps r).cosine (pt ps j)) with ⟨e, _⟩ | ⟨e, _⟩
    · rw [e] at d; norm_num at *; linarith
    · rw [e] at d; norm_num at *; linarith [c1.1, c1.2, c2.1, c2.2]
  have ui := upper_of hl hi ai
  have uj := upper_of hl hj aj
  have up : ∀ k, Graham.Upper (relX ps r) (relY ps r) k → 0 < ((pt ps k).coord .y : ℝ) - (pt ps r).coord .y ∨
      (((pt ps k).coord .y : ℝ) - (pt ps r).coord .y = 0 ∧ 0 < ((pt ps k).coord .x : ℝ) - (pt ps r).coord .x) := by
    intro k hk
    unfold Graham.Upper relX relY at hk
    rcases hk with hk | ⟨hk, hk'⟩
    · left; exact_mod_cast hk
    · right; exact ⟨by exact_mod_cast hk, by exact_mod_cast hk'⟩
  have := cr_of_cosine (up i ui) (up j uj) hlt
  unfold Graham.cr relX relY
  exact_mod_cast this

theorem foldl_inv {g D : Nat} {ps : List V3f} (ht : Tidy ps) (h : Raster g D ps) (h1 : 75 ≤ g) (h2 : g ≤ 200) (hD : D ≤ 2047) {r : Nat} :
    ∀ (l s done : List Nat), Graham.Inv (X := relX ps r) (Y := relY ps r) s done → (∀ i ∈ done, i < ps.length) →
      l.Pairwise (fun a b => 0 < Graham.cr (relX ps r) (relY ps r) a b) → (∀ i ∈ l, i < ps.length ∧ Graham.Upper (relX ps r) (relY ps r) i) →
      (∀ q ∈ done, q = r ∨ ∀ c ∈ l, 0 < Graham.cr (relX ps r) (relY ps r) q c) →
      ∃ done', (∀ i, i ∈ done' ↔ i ∈ done ∨ i ∈ l) ∧ Graham.Inv (X := relX ps r) (Y := relY ps r) (l.foldl (push ps) s) done' := by
  intro l
  induction l with
  | nil => intro s done hI _ _ _ _; exact ⟨done, by simp, hI⟩
  | cons c l ih =>
    intro s done hI hdone hp hup hq
    rw [List.pairwise_cons] at hp
    have hc := hup c (by simp)
    have hr0 : relX ps r r = 0 ∧ relY ps r r = 0 := by unfold relX relY; omega
    have nx : Graham.Next (X := relX ps r) (Y := relY ps r) done c := by
      refine ⟨hc.2, fun q hqd => ?_, fun q hqd h0 => ?_⟩
      · rcases hq q hqd with rfl | h
        · rw [Graham.cr_root_left hr0]
        · exact le_of_lt (h c (by simp))
      · rcases hq q hqd with rfl | h
        · have : Graham.dist (relX ps q) (relY ps q) q = 0 := by unfold Graham.dist; rw [hr0.1, hr0.2]; simp
          rw [this]; exact le_of_lt (Graham.dist_pos hc.2)
        · have := h c (by simp); omega
    have hI' := Graham.push_inv hI nx
    rw [← push_eq ht h h1 h2 hD r c hc.1 s (fun i hi => hdone i (hI.sub i hi))] at hI'
    obtain ⟨done', hd, hI''⟩ := ih (push ps s c) (c :: done) hI' (by
        intro i hi
        rcases List.mem_cons.1 hi with rfl | hi
        · exact hc.1
        · exact hdone i hi) hp.2 (fun i hi => hup i (List.mem_cons_of_mem _ hi)) (by
        intro q hqd
        rcases List.mem_cons.1 hqd with rfl | hqd
        · right; exact hp.1
        · rcases hq q hqd with h | h
          · exact Or.inl h
          · exact Or.inr (fun c' hc' => h c' (List.mem_cons_of_mem _ hc')))
    refine ⟨done', fun i => ?_, hI''⟩
    rw [hd]
    simp only [List.mem_cons]
    tauto

/-! ## From the last point first to the first point first -/

theorem getD_rev_last {b : Nat} {s : List Nat} : (b :: s).reverse.getD s.length 0 = b := by
  rw [List.reverse_cons, List.getD_eq_getElem?_getD, List.getElem?_append_right (by simp)]; simp
theorem getD_rev_lt {b k : Nat} {s : List Nat} (h : k < s.length) : (b :: s).reverse.getD k 0 = s.reverse.getD k 0 := by
  rw [List.reverse_cons, List.getD_eq_getElem?_getD, List.getElem?_append_left (by simpa using h), List.getD_eq_getElem?_getD]

theorem covers_rev {X Y : Nat → Int} {done : List Nat} : ∀ s : List Nat, Graham.Covers (X := X) (Y := Y) done s → ∀ k, k + 1 < s.length → ∀ q ∈ done,
    0 ≤ Graham.orient X Y (s.reverse.getD k 0) (s.reverse.getD (k + 1) 0) q := by
  intro s
  induction s with
  | nil => intro _ k hk; simp at hk
  | cons b s ih =>
    intro hc k hk q hq
    cases s with
    | nil => simp at hk
    | cons a rest =>
      by_cases hl : k + 1 < (a :: rest).length
      · rw [getD_rev_lt (by omega), getD_rev_lt hl]
        exact ih hc.2 k hl q hq
      · have hk' : k = rest.length := by simp only [List.length_cons] at hk hl; omega
        subst hk'
        have e1 : (b :: a :: rest).reverse.getD (rest.length + 1) 0 = b := getD_rev_last (s := a :: rest)
        rw [e1, getD_rev_lt (by simp), getD_rev_last]
        exact hc.1 q hq

theorem good_rev {X Y : Nat → Int} : ∀ s : List Nat, Graham.Good (X := X) (Y := Y) s → ∀ k, k + 2 < s.length →
    0 < Graham.orient X Y (s.reverse.getD k 0) (s.reverse.getD (k + 1) 0) (s.reverse.getD (k + 2) 0) := by
  intro s
  induction s with
  | nil => intro _ k hk; simp at hk
  | cons b s ih =>
    intro hg k hk
    match s, hg, ih, hk with
    | [], _, _, hk => simp at hk
    | [_], _, _, hk => simp at hk
    | a :: a' :: rest, hg, ih, hk =>
      by_cases hl : k + 2 < (a :: a' :: rest).length
      · rw [getD_rev_lt (b := b) (k := k) (by omega), getD_rev_lt (b := b) (k := k + 1) (by omega), getD_rev_lt (b := b) hl]
        exact ih hg.1 k hl
      · have hk' : k = rest.length := by simp only [List.length_cons] at hk hl; omega
        subst hk'
        have e1 : (b :: a :: a' :: rest).reverse.getD (rest.length + 2) 0 = b := getD_rev_last (s := a :: a' :: rest)
        have e2 : (a :: a' :: rest).reverse.getD (rest.length + 1) 0 = a := getD_rev_last (s := a' :: rest)
        rw [e1, getD_rev_lt (b := b) (k := rest.length + 1) (by simp), e2, getD_rev_lt (b := b) (by simp only [List.length_cons]; omega), getD_rev_lt (b := a) (by simp), getD_rev_last]
        exact hg.2.2.2

theorem good_root {X Y : Nat → Int} : ∀ s : List Nat, Graham.Good (X := X) (Y := Y) s → X (s.reverse.getD 0 0) = 0 ∧ Y (s.reverse.getD 0 0) = 0 := by
  intro s
  induction s with
  | nil => intro h; exact h.elim
  | cons b s ih =>
    intro h
    cases s with
    | nil => exact h
    | cons a rest => rw [getD_rev_lt (by simp)]; exact ih h.pop

theorem isHull_of {ps : List V3f} {r : Nat} {s done : List Nat} (hI : Graham.Inv (X := relX ps r) (Y := relY ps r) s done) (hd : ∀ i, i < ps.length → i ∈ done)
    (hs : ∀ i ∈ s, i < ps.length) (hn : s.Nodup) (hr : r ∈ s) : IsHull ps s.reverse := by
  have sne : s ≠ [] := by intro h; rw [h] at hr; cases hr
  have at_pt : ∀ p ∈ ps, ∃ i, i < ps.length ∧ p = pt ps i := by
    intro p hp
    obtain ⟨i, hi, rfl⟩ := List.getElem_of_mem hp
    exact ⟨i, hi, by unfold pt; rw [List.getD_eq_getElem?_getD, List.getElem?_eq_getElem hi]; rfl⟩
  refine ⟨by simpa using sne, List.nodup_reverse.2 hn, fun i hi => hs i (List.mem_reverse.1 hi), ?_, ?_, ?_⟩
  · intro k hk p hp
    obtain ⟨i, hi, rfl⟩ := at_pt p hp
    rw [turn_eq ps r]
    rw [List.length_reverse] at hk ⊢
    by_cases hl : k + 1 < s.length
    · rw [Nat.mod_eq_of_lt hl]
      exact covers_rev s hI.covers k hl i (hd i hi)
    · have e : k + 1 = s.length := by omega
      rw [e, Nat.mod_self]
      have g0 := good_root s hI.good
      unfold Graham.orient
      rw [Graham.cr_root_left g0, Graham.cr_root_right g0]
      cases s with
      | nil => exact absurd rfl sne
      | cons b s =>
        have ek : k = s.length := by simpa using e
        rw [ek, getD_rev_last]
        have := (hI.last b (by simp) i (hd i hi)).1
        rw [Graham.cr_anti] at this
        omega
  · intro k hk
    rw [turn_eq ps r]
    exact good_rev s hI.good k (by simpa using hk)
  · intro u v w hw p hp
    obtain ⟨i, hi, rfl⟩ := at_pt p hp
    have hw' : ∀ j ∈ s, u * relX ps r j + v * relY ps r j ≤ w - (u * (pt ps r).coord .x + v * (pt ps r).coord .y) := by
      intro j hj
      have := hw j (List.mem_reverse.2 hj)
      unfold relX relY
      linarith
    have w0 : 0 ≤ w - (u * (pt ps r).coord .x + v * (pt ps r).coord .y) := by
      have := hw r (List.mem_reverse.2 hr)
      linarith
    have goal : u * relX ps r i + v * relY ps r i ≤ w - (u * (pt ps r).coord .x + v * (pt ps r).coord .y) := by
      rcases hI.upper i (hd i hi) with h0 | hu
      · rw [h0.1, h0.2]; simpa using w0
      · cases s with
        | nil => exact absurd rfl sne
        | cons a s =>
          have hl := hI.last a (by simp) i (hd i hi)
          by_cases hs0 : s = []
          · subst hs0
            have g0 : relX ps r a = 0 ∧ relY ps r a = 0 := hI.good
            have h1 := hl.2 (Graham.cr_root_right g0)
            have h2 := Graham.dist_pos hu
            have h3 : Graham.dist (relX ps r) (relY ps r) a = 0 := by unfold Graham.dist; rw [g0.1, g0.2]; simp
            omega
          · exact Graham.half_plane_aux u v _ i (hd i hi) hu s a hI.good hs0 hI.covers hw' w0 hl.1 hl.2
    unfold relX relY at goal
    linarith

theorem hull_defined (sort : (Nat → Nat → Bool) → List Nat → List Nat) {ps : List V3f} (ht : Tidy ps) (hne : ps ≠ []) : ∃ h, hull sort ps = .ok h := by
  unfold hull
  dsimp only
  rw [tidy_strictWeak ht (findRoot_lt hne)]
  exact ⟨_, rfl⟩

theorem hull_separated {sort : (Nat → Nat → Bool) → List Nat → List Nat} (hs : Sorts sort) {g D : Nat} {ps : List V3f} (ht : Tidy ps) (hne : ps ≠ []) (h : Raster g D ps)
    (h1 : 75 ≤ g) (h2 : g ≤ 200) (hD : D ≤ 2047) (hsep : Separated ps) : ∃ hl, hull sort ps = .ok hl ∧ IsHull ps hl := by
  obtain ⟨hl, e⟩ := hull_defined sort ht hne
  refine ⟨hl, e, ?_⟩
  have sh := hull_shape hs e
  obtain ⟨l, rfl, lp, lw⟩ := hull_ok hs e
  have low := findRoot_lowest hne ht.finite
  generalize findRoot ps = r at *
  rw [List.reverse_reverse] at sh
  have ln : l.Nodup := lp.symm.nodup (others_nodup ps r)
  have lm : ∀ i, i ∈ l ↔ i < ps.length ∧ i ≠ r := fun i => by rw [lp.mem_iff, others_mem]
  have pw : l.Pairwise (fun a b => 0 < Graham.cr (relX ps r) (relY ps r) a b) := by
    refine List.Pairwise.imp_of_mem ?_ (lw.and ln)
    intro a b ha hb hab
    exact sorted_turns ht h h1 h2 hD hsep low ((lm a).1 ha).1 ((lm b).1 hb).1 ((lm a).1 ha).2 ((lm b).1 hb).2 hab.2 hab.1
  have hr0 : relX ps r r = 0 ∧ relY ps r r = 0 := by unfold relX relY; omega
  have I0 : Graham.Inv (X := relX ps r) (Y := relY ps r) [r] [r] := by
    refine ⟨hr0, trivial, ?_, ?_, fun i hi => hi⟩
    · intro t ht' q hq
      have : t = r := by simpa using ht'.symm
      have hq : q = r := by simpa using hq
      subst this; subst hq
      exact ⟨by rw [Graham.cr_self], fun _ => le_refl _⟩
    · intro q hq
      have hq : q = r := by simpa using hq
      subst hq; exact Or.inl hr0
  obtain ⟨done, hd, hI⟩ := foldl_inv ht h h1 h2 hD l [r] [r] I0 (by intro i hi; have : i = r := by simpa using hi
                                                                    subst this; exact low.1) pw
    (fun i hi => ⟨((lm i).1 hi).1, upper_of low ((lm i).1 hi).1 (hsep.apart r low i ((lm i).1 hi).1 ((lm i).1 hi).2)⟩)
    (fun q hq => Or.inl (by simpa using hq))
  refine isHull_of hI ?_ ?_ sh.nodup (List.mem_of_getLast? sh.root)
  · intro i hi
    rw [hd, lm]
    by_cases e : i = r
    · left; rw [e]; simp
    · exact Or.inr ⟨hi, e⟩
  · intro i hi
    have := sh.sub i hi
    rw [List.mem_append, others_mem] at this
    rcases this with h | h
    · exact h.1
    · have : i = r := by simpa using h
      rw [this]; exact low.1

end Hull
end Verif
