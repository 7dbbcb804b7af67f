import Verif.Lemmas.Hull14
set_option exponentiation.threshold 300
/-! # The fitted box is the smallest along an edge of the hull -/

namespace Verif
namespace Hull
open F32

def edgeArea (ps : List V3f) (h : List Nat) (i : Nat) : F32 := (spread ps h i).maxW.mul ((spread ps h i).maxH.sub (spread ps h i).minH)

theorem edgeBox_area (t : Trig) (ps : List V3f) (h : List Nat) (i : Nat) : (edgeBox t ps h i).minArea = some (edgeArea ps h i) := rfl

theorem fold_least (t : Trig) (ps : List V3f) (h : List Nat) : ∀ (l : List Nat) (r : Flat) (a : F32), (∀ i ∈ l, F32.finite (edgeArea ps h i) = true) → r.minArea = some a →
    F32.finite a = true → ∃ a', (l.foldl (flatStep t ps h) r).minArea = some a' ∧ a'.val ≤ a.val ∧ ∀ k ∈ l, a'.val ≤ (edgeArea ps h k).val := by
  intro l
  induction l with
  | nil => intro r a _ hr _; exact ⟨a, hr, Int.le_refl _, by simp⟩
  | cons j l ih =>
    intro r a hl hr fa
    have fj := hl j (by simp)
    have e : flatStep t ps h r j = if a.le (edgeArea ps h j) then r else edgeBox t ps h j := by
      unfold flatStep; rw [hr]; rfl
    rw [List.foldl_cons, e]
    have li := le_iff (finite_notNan fa) (finite_notNan fj)
    by_cases hle : a.le (edgeArea ps h j) = true
    · rw [if_pos hle]
      obtain ⟨a', h1, h2, h3⟩ := ih r a (fun i hi => hl i (by simp [hi])) hr fa
      refine ⟨a', h1, h2, ?_⟩
      intro k hk
      rcases List.mem_cons.1 hk with rfl | hk
      · have := li.1 hle; omega
      · exact h3 k hk
    · rw [if_neg hle]
      obtain ⟨a', h1, h2, h3⟩ := ih (edgeBox t ps h j) _ (fun i hi => hl i (by simp [hi])) (edgeBox_area t ps h j) fj
      have : ¬ a.val ≤ (edgeArea ps h j).val := fun h => hle (li.2 h)
      refine ⟨a', h1, by omega, ?_⟩
      intro k hk
      rcases List.mem_cons.1 hk with rfl | hk
      · exact h2
      · exact h3 k hk

theorem minBox_least (t : Trig) (ps : List V3f) {h : List Nat} (hf : ∀ i, i < h.length → F32.finite (edgeArea ps h i) = true) {i : Nat}
    (hm : minBox t ps h = edgeBox t ps h i) {k : Nat} (hk : k < h.length) : (edgeArea ps h i).val ≤ (edgeArea ps h k).val := by
  have ea : (minBox t ps h).minArea = some (edgeArea ps h i) := by rw [hm]; rfl
  unfold minBox at ea
  obtain ⟨n, hn⟩ : ∃ n, h.length = n + 1 := ⟨h.length - 1, by omega⟩
  have er : List.range h.length = 0 :: (List.range n).map (· + 1) := by rw [hn, List.range_succ_eq_map]
  rw [er, List.foldl_cons] at ea
  have e0 : flatStep t ps h {} 0 = edgeBox t ps h 0 := rfl
  rw [e0] at ea
  obtain ⟨a', h1, h2, h3⟩ := fold_least t ps h ((List.range n).map (· + 1)) (edgeBox t ps h 0) _ (by
    intro j hj
    simp only [List.mem_map, List.mem_range] at hj
    exact hf j (by omega)) (edgeBox_area t ps h 0) (hf 0 (by omega))
  rw [ea] at h1
  injection h1 with h1
  rw [h1]
  by_cases k0 : k = 0
  · rw [k0]; exact h2
  · apply h3
    simp only [List.mem_map, List.mem_range]
    exact ⟨k - 1, by omega, by omega⟩

variable {M : ℝ}

/-- The computed area. -/
theorem area_ap {ps : List V3f} {h : List Nat} {i : Nat} {cx cy : ℝ} (hM : Scale M) (lo : 1 / 2 ^ 40 ≤ M) (hi : M ≤ 2 ^ 40) {c : V2f} {l : List V2f}
    (S : SpreadOk M cx cy c l (spread ps h i)) : F32.finite (edgeArea ps h i) = true ∧
    |(edgeArea ps h i).re - (spread ps h i).maxW.re * ((spread ps h i).maxH.re - (spread ps h i).minH.re)| ≤ 111 * (M * M / 2 ^ 24) := by
  unfold edgeArea
  generalize spread ps h i = s at *
  have m0 := hM.pos
  have b1 := abs_le.1 S.bmax
  have b2 := abs_le.1 S.bmin
  have hH : |s.maxH.re - s.minH.re| ≤ 10 * M := by rw [abs_le]; constructor <;> linarith
  have a := Ap.sub 10 hM (Ap.exact S.fmax) (Ap.exact S.fmin) hH (by norm_num) (by norm_num)
  have sz := a.size hM hH (by norm_num)
  have ac := a.close
  have p : |s.maxW.re * (s.maxH.sub s.minH).re| ≤ 55 * (M * M) := by
    rw [abs_mul]
    have := mul_le_mul S.bw sz (abs_nonneg _) (by linarith)
    refine le_trans this (le_of_eq ?_); ring
  have mm : M * M ≤ 2 ^ 80 := by
    have := mul_le_mul hi hi (le_of_lt m0) (by norm_num)
    refine le_trans this (le_of_eq (by norm_num))
  have ml : 1 / 2 ^ 80 ≤ M * M := by
    have := mul_le_mul lo lo (by norm_num) (le_of_lt m0)
    refine le_trans (le_of_eq (by norm_num)) this
  have big : |s.maxW.re * (s.maxH.sub s.minH).re| ≤ 2 ^ 100 := by
    refine le_trans p ?_
    have : (55 : ℝ) * 2 ^ 80 ≤ 2 ^ 100 := by norm_num
    linarith
  obtain ⟨f, r⟩ := re_mul S.fw a.fin big
  refine ⟨f, ?_⟩
  have u : (1 : ℝ) / unit ≤ M * M / 2 ^ 24 := by
    have h1 : (1 : ℝ) / unit ≤ 1 / 2 ^ 104 := by
      apply one_div_le_one_div_of_le (by norm_num)
      have : 2 ^ 104 ≤ F32.unit := by rw [unit_pow]; exact Nat.pow_le_pow_right (by decide) (by decide)
      exact_mod_cast this
    have h2 : (1 : ℝ) / 2 ^ 80 / 2 ^ 24 ≤ M * M / 2 ^ 24 := div_le_div_of_nonneg_right ml (by norm_num)
    have h3 : (1 : ℝ) / 2 ^ 80 / 2 ^ 24 = 1 / 2 ^ 104 := by norm_num
    linarith
  have t := abs_sub_le (s.maxW.mul (s.maxH.sub s.minH)).re (s.maxW.re * (s.maxH.sub s.minH).re) (s.maxW.re * (s.maxH.re - s.minH.re))
  have d : |s.maxW.re * (s.maxH.sub s.minH).re - s.maxW.re * (s.maxH.re - s.minH.re)| ≤ 55 * (M * M / 2 ^ 24) := by
    rw [← mul_sub, abs_mul]
    have := mul_le_mul S.bw ac (abs_nonneg _) (by linarith)
    refine le_trans this (le_of_eq ?_); ring
  have e : 1 / 2 ^ 24 * |s.maxW.re * (s.maxH.sub s.minH).re| ≤ 55 * (M * M / 2 ^ 24) := by
    have := mul_le_mul_of_nonneg_left p (show (0 : ℝ) ≤ 1 / 2 ^ 24 by norm_num)
    refine le_trans this (le_of_eq ?_); ring
  linarith

theorem unique_dir {a b c d L K : ℝ} (h1 : a * a + b * b = 1) (h2 : c * c + d * d = 1) (pL : 0 < L) (pK : 0 < K) (e1 : L * a = K * c) (e2 : L * b = K * d) : a = c ∧ b = d := by
  have : L * L = K * K := by
    calc L * L = L * L * (a * a + b * b) := by rw [h1, mul_one]
      _ = (L * a) * (L * a) + (L * b) * (L * b) := by ring
      _ = (K * c) * (K * c) + (K * d) * (K * d) := by rw [e1, e2]
      _ = K * K * (c * c + d * d) := by ring
      _ = K * K := by rw [h2, mul_one]
  have e : L = K := by
    rcases mul_self_eq_mul_self_iff.1 this with e | e
    · exact e
    · linarith
  subst e
  exact ⟨mul_left_cancel₀ (ne_of_gt pL) e1, mul_left_cancel₀ (ne_of_gt pL) e2⟩

/-- exact and computed extents -/
theorem Edge.extents {ps : List V3f} {h : List Nat} {i : Nat} {cx cy : ℝ} (E : Edge M ps h i cx cy) (hc : pt ps (h.getD i 0) ∈ ps) {H W : ℝ} (eH : Extent ps cx cy H)
    (eW : Extent ps (-cy) cx W) : |H - ((spread ps h i).maxH.re - (spread ps h i).minH.re)| ≤ 110 * (M / 2 ^ 24) ∧ |W - (spread ps h i).maxW.re| ≤ 55 * (M / 2 ^ 24) := by
  have at' : ∀ {P : V2f → Prop}, (∃ p, (p = (pt ps (h.getD i 0)).head2 ∨ p ∈ ps.map V3f.head2) ∧ P p) → ∃ p ∈ ps, P p.head2 := by
    rintro P ⟨p, hp, hP⟩
    rcases hp with hp | hp
    · exact ⟨_, hc, by rw [← hp]; exact hP⟩
    · rw [List.mem_map] at hp
      obtain ⟨q, hq, rfl⟩ := hp
      exact ⟨q, hq, hP⟩
  have S := E.ok
  have dh : ∀ p q : V3f, cx * (p.x.re - q.x.re) + cy * (p.y.re - q.y.re) = Fh cx cy (pt ps (h.getD i 0)).head2 p.head2 - Fh cx cy (pt ps (h.getD i 0)).head2 q.head2 := by
    intro p q
    show _ = (cx * (p.x.re - _) + cy * (p.y.re - _)) - (cx * (q.x.re - _) + cy * (q.y.re - _))
    ring
  have dw : ∀ p q : V3f, -cy * (p.x.re - q.x.re) + cx * (p.y.re - q.y.re) = Fw cx cy (pt ps (h.getD i 0)).head2 p.head2 - Fw cx cy (pt ps (h.getD i 0)).head2 q.head2 := by
    intro p q
    show _ = (-cy * (p.x.re - _) + cx * (p.y.re - _)) - (-cy * (q.x.re - _) + cx * (q.y.re - _))
    ring
  have w00 : Fw cx cy (pt ps (h.getD i 0)).head2 (pt ps (h.getD i 0)).head2 = 0 := by unfold Fw; simp
  constructor
  · obtain ⟨p, hp, q, hq, e⟩ := eH.2
    obtain ⟨a, ha, la⟩ := at' S.atHi
    obtain ⟨b, hb, lb⟩ := at' S.atLo
    have := eH.1 a ha b hb
    rw [dh] at e this
    have := E.h1 p hp
    have := E.h0 q hq
    rw [abs_le]; constructor <;> linarith
  · obtain ⟨p, hp, q, hq, e⟩ := eW.2
    obtain ⟨a, ha, la⟩ := at' S.atW
    have := eW.1 a ha _ hc
    rw [dw] at e this
    rw [w00] at this
    have := E.w1 p hp
    have := E.w0 q hq
    rw [abs_le]; constructor <;> linarith

theorem prod_close {e : ℝ} (m0 : 0 < M) (he : e = M / 2 ^ 24) {H W H' W' : ℝ} (b1 : |H'| ≤ 10 * M) (b2 : |W'| ≤ 5 * M) (h1 : |H - H'| ≤ 110 * e) (h2 : |W - W'| ≤ 55 * e) :
    |W * H - W' * H'| ≤ 1102 * (M * M / 2 ^ 24) := by
  have e1 : W * H - W' * H' = (W - W') * H' + W' * (H - H') + (W - W') * (H - H') := by ring
  rw [e1]
  have t1 : |(W - W') * H'| ≤ 55 * e * (10 * M) := by rw [abs_mul]; exact mul_le_mul h2 b1 (abs_nonneg _) (le_trans (abs_nonneg _) h2)
  have t2 : |W' * (H - H')| ≤ 5 * M * (110 * e) := by rw [abs_mul]; exact mul_le_mul b2 h1 (abs_nonneg _) (by linarith)
  have t3 : |(W - W') * (H - H')| ≤ 55 * e * (110 * e) := by rw [abs_mul]; exact mul_le_mul h2 h1 (abs_nonneg _) (le_trans (abs_nonneg _) h2)
  have u1 := abs_add_le ((W - W') * H' + W' * (H - H')) ((W - W') * (H - H'))
  have u2 := abs_add_le ((W - W') * H') (W' * (H - H'))
  have k1 : 55 * e * (10 * M) = 550 * (M * M / 2 ^ 24) := by rw [he]; ring
  have k2 : 5 * M * (110 * e) = 550 * (M * M / 2 ^ 24) := by rw [he]; ring
  have k3 : 55 * e * (110 * e) ≤ 2 * (M * M / 2 ^ 24) := by
    have : 55 * e * (110 * e) = 6050 / 2 ^ 24 * (M * M / 2 ^ 24) := by rw [he]; ring
    rw [this]
    exact mul_le_mul_of_nonneg_right (by norm_num) (by positivity)
  linarith

theorem extent_exists {ps : List V3f} (hne : ps ≠ []) (cx cy : ℝ) : ∃ e, Extent ps cx cy e := by
  have key : ∀ (f : V3f → ℝ) (l : List V3f), l ≠ [] → ∃ p ∈ l, ∀ q ∈ l, f q ≤ f p := by
    intro f l
    induction l with
    | nil => intro h; exact absurd rfl h
    | cons a l ih =>
      intro _
      by_cases hl : l = []
      · subst hl; exact ⟨a, by simp, by simp⟩
      · obtain ⟨p, hp, hmax⟩ := ih hl
        by_cases h : f p ≤ f a
        · refine ⟨a, by simp, ?_⟩
          intro q hq
          rcases List.mem_cons.1 hq with rfl | hq
          · exact le_refl _
          · exact le_trans (hmax q hq) h
        · refine ⟨p, by simp [hp], ?_⟩
          intro q hq
          rcases List.mem_cons.1 hq with rfl | hq
          · exact le_of_lt (not_le.1 h)
          · exact hmax q hq
  obtain ⟨p, hp, mp⟩ := key (fun p => cx * p.x.re + cy * p.y.re) ps hne
  obtain ⟨q, hq, mq⟩ := key (fun p => -(cx * p.x.re + cy * p.y.re)) ps hne
  refine ⟨cx * (p.x.re - q.x.re) + cy * (p.y.re - q.y.re), ?_, p, hp, q, hq, rfl⟩
  intro a ha b hb
  have := mp a ha
  have := mq b hb
  linarith

/-- The result of fitting: along an edge, with the extents of the points as dimensions, and no larger than along any other edge. -/
theorem fitted_least {sort : (Nat → Nat → Bool) → List Nat → List Nat} {t : Trig} (hs : Sorts sort) (ta : t.Accurate) {g D : Nat} {ps : List V3f} (ht : Tidy ps) (hr : Raster g D ps)
    (h1 : 75 ≤ g) (h2 : g ≤ 200) (hD : D ≤ 2047) (hsep : Separated ps) (hlen : 2 ≤ ps.length) {M : ℝ} (lo : 1 / 2 ^ 40 ≤ M) (hi : M ≤ 2 ^ 40) (hb : ∀ p ∈ ps, ∀ a, |(p.at a).re| ≤ M) :
    ∃ b h, extractRAABB sort t ps = .ok b ∧ hull sort ps = .ok h ∧ IsHull ps h ∧ ∃ i < h.length, ∃ cx cy W H : ℝ, EdgeAlong ps h i cx cy ∧ Extent ps cx cy H ∧ Extent ps (-cy) cx W ∧
      |b.dims.x.re - H| ≤ M / 2 ^ 10 ∧ |b.dims.y.re - W| ≤ M / 2 ^ 10 ∧ |(b.column .x).x.re - cx| ≤ 1 / 2 ^ 19 ∧ |(b.column .x).y.re - cy| ≤ 1 / 2 ^ 19 ∧
      (∃ p ∈ ps, ∃ q ∈ ps, (∀ r ∈ ps, p.z.re ≤ r.z.re ∧ r.z.re ≤ q.z.re) ∧ |b.dims.z.re - (q.z.re - p.z.re)| ≤ M / 2 ^ 15) ∧
      ∀ k < h.length, ∀ cx' cy' W' H' : ℝ, EdgeAlong ps h k cx' cy' → Extent ps cx' cy' H' → Extent ps (-cy') cx' W' → W * H ≤ W' * H' + M * M / 2 ^ 12 := by
  have hM : Scale M := ⟨le_trans (by norm_num) lo, le_trans hi (by norm_num)⟩
  have m0 := hM.pos
  have hne : ps ≠ [] := by intro e; rw [e] at hlen; simp at hlen
  obtain ⟨b, h, i, cx, cy, e1, e2, IH, hil, em, E, F⟩ := fitted hs ta ht hr h1 h2 hD hsep hlen hM hb
  obtain ⟨H, eH⟩ := extent_exists hne cx cy
  obtain ⟨W, eW⟩ := extent_exists hne (-cy) cx
  have low := findRoot_lowest hne ht.finite
  have mem : ∀ k, k < h.length → pt ps (h.getD k 0) ∈ ps := fun k hk => pt_mem (IH.points _ (getD_mem hk))
  have edges : ∀ k, k < h.length → ∃ a c, Edge M ps h k a c := fun k hk => edge_ok ht hr h1 h2 hD IH hsep low hlen hM hb hk
  have fin : ∀ k, k < h.length → F32.finite (edgeArea ps h k) = true := by
    intro k hk
    obtain ⟨a, c, Ek⟩ := edges k hk
    exact (area_ap hM lo hi Ek.ok).1
  have bounds : ∀ {k : Nat} {a c : ℝ}, Edge M ps h k a c → |(spread ps h k).maxH.re - (spread ps h k).minH.re| ≤ 10 * M := by
    intro k a c Ek
    have b1 := abs_le.1 Ek.ok.bmax
    have b2 := abs_le.1 Ek.ok.bmin
    rw [abs_le]; constructor <;> linarith
  obtain ⟨x1, x2⟩ := E.extents (mem i hil) eH eW
  have slack : M / 2 ^ 10 = 16384 * (M / 2 ^ 24) := by ring
  have e0 := hM.eps
  refine ⟨b, h, e1, e2, IH, i, hil, cx, cy, W, H, ⟨E.dir.one, E.along⟩, eH, eW, ?_, ?_, le_trans F.xx (by norm_num), le_trans F.xy (by norm_num), ?_, ?_⟩
  · have := abs_le.1 F.dx
    have := abs_le.1 x1
    rw [slack, abs_le]; constructor <;> linarith
  · have := abs_le.1 F.dy
    have := abs_le.1 x2
    rw [slack, abs_le]; constructor <;> linarith
  · obtain ⟨p, hp, q, hq, hz, hd⟩ := F.dz
    refine ⟨p, hp, q, hq, hz, le_trans hd ?_⟩
    have : M / 2 ^ 15 = 512 * (M / 2 ^ 24) := by ring
    rw [this]; linarith
  · intro k hk cx' cy' W' H' ed eH' eW'
    obtain ⟨a, c, Ek⟩ := edges k hk
    obtain ⟨L, pL, l1, l2⟩ := Ek.along
    obtain ⟨K, pK, k1, k2⟩ := ed.along
    obtain ⟨ea, ec⟩ := unique_dir Ek.dir.one ed.unit pL pK (l1.symm.trans k1) (l2.symm.trans k2)
    subst ea ec
    obtain ⟨y1, y2⟩ := Ek.extents (mem k hk) eH' eW'
    have pi := abs_le.1 (prod_close m0 rfl (bounds E) E.ok.bw x1 x2)
    have pk := abs_le.1 (prod_close m0 rfl (bounds Ek) Ek.ok.bw y1 y2)
    have ai := abs_le.1 (area_ap hM lo hi E.ok).2
    have ak := abs_le.1 (area_ap hM lo hi Ek.ok).2
    have least := re_le.1 (minBox_least t ps fin em hk)
    have s2 : M * M / 2 ^ 12 = 4096 * (M * M / 2 ^ 24) := by ring
    have p2 : 0 < M * M / 2 ^ 24 := by positivity
    rw [s2]
    linarith [pi.1, pi.2, pk.1, pk.2, ai.1, ai.2, ak.1, ak.2]

end Hull
end Verif
