import Verif.Lemmas.Hull13
set_option exponentiation.threshold 300
/-! # The fitted box holds the points: the result -/

namespace Verif
namespace Hull
open F32

/-- A box whose numbers are those of the rectangle of an edge. -/
structure Fitted (M : ℝ) (ps : List V3f) (b : BBox) (cx cy W H : ℝ) : Prop where
  type : b.type = BBox.RAABB
  finite : b.dims.FiniteAt
  center : b.center.FiniteAt
  wide : 0 ≤ W
  high : 0 ≤ H
  dx : |b.dims.x.re - H| ≤ 9419 * (M / 2 ^ 24)
  dy : |b.dims.y.re - W| ≤ 9419 * (M / 2 ^ 24)
  dz : ∃ p ∈ ps, ∃ q ∈ ps, (∀ r ∈ ps, p.z.re ≤ r.z.re ∧ r.z.re ≤ q.z.re) ∧ |b.dims.z.re - (q.z.re - p.z.re)| ≤ 433 * (M / 2 ^ 24)
  xx : |(b.column .x).x.re - cx| ≤ 19 * (1 / 2 ^ 24)
  xy : |(b.column .x).y.re - cy| ≤ 19 * (1 / 2 ^ 24)
  inside : ∀ p ∈ ps, ∀ i, 2 * |((b.along p i : Int) : ℝ) / (unit * unit)| ≤ (b.dims.at i).re + M / 2 ^ 10

theorem fitted {sort : (Nat → Nat → Bool) → List Nat → List Nat} {t : Trig} (hs : Sorts sort) (ta : t.Accurate) {g D : Nat} {ps : List V3f} (ht : Tidy ps) (hr : Raster g D ps)
    (h1 : 75 ≤ g) (h2 : g ≤ 200) (hD : D ≤ 2047) (hsep : Separated ps) (hlen : 2 ≤ ps.length) {M : ℝ} (hM : Scale M) (hb : ∀ p ∈ ps, ∀ a, |(p.at a).re| ≤ M) :
    ∃ b h i cx cy, extractRAABB sort t ps = .ok b ∧ hull sort ps = .ok h ∧ IsHull ps h ∧ i < h.length ∧ minBox t ps h = edgeBox t ps h i ∧ Edge M ps h i cx cy ∧
      Fitted M ps b cx cy (spread ps h i).maxW.re ((spread ps h i).maxH.re - (spread ps h i).minH.re) := by
  have hne : ps ≠ [] := by intro e; rw [e] at hlen; simp at hlen
  obtain ⟨h, eh, H⟩ := hull_separated hs ht hne hr h1 h2 hD hsep
  have hl := findRoot_lowest hne ht.finite
  obtain ⟨i, hi, em⟩ := minBox_edge t ps H.nonempty
  obtain ⟨cx, cy, E⟩ := edge_ok ht hr h1 h2 hD H hsep hl hlen hM hb hi
  obtain ⟨p0, rest, rfl⟩ : ∃ p0 rest, ps = p0 :: rest := by
    cases ps with
    | nil => exact absurd rfl hne
    | cons a l => exact ⟨a, l, rfl⟩
  have m0 := hM.pos
  have e0 := hM.eps
  have hu := unitR_pos
  obtain ⟨mn, emn, fmn, bmn, lmn, pn, hpn, wmn⟩ := foldMin (ps := rest) (p := p0) (K := M) (ht.finite p0 (by simp) .z) (hb p0 (by simp) .z) (fun q hq => ht.finite q (by simp [hq]) .z)
    (fun q hq => hb q (by simp [hq]) .z)
  obtain ⟨mx, emx, fmx, bmx, lmx, px, hpx, wmx⟩ := foldMax (ps := rest) (p := p0) (K := M) (ht.finite p0 (by simp) .z) (hb p0 (by simp) .z) (fun q hq => ht.finite q (by simp [hq]) .z)
    (fun q hq => hb q (by simp [hq]) .z)
  have S := E.ok
  generalize hps : p0 :: rest = ps at *
  generalize hsp : spread ps h i = s at *
  -- the corners
  have f0 : F32.finite (0 : F32) = true := by decide +kernel
  have z0 : |re (0 : F32)| ≤ 5 * M := by rw [zero_re', abs_zero]; linarith
  have c0 := E.dir.corner_ap hM E.at_ (w := 0) (t := s.minH) f0 S.fmin z0 S.bmin (b := ⟨((across (edgeDir ps h i)).dot (pt ps (h.getD i 0)).head2).neg, ((edgeDir ps h i).dot (pt ps (h.getD i 0)).head2).neg.sub s.minH⟩)
    (.inr ⟨rfl, zero_re'⟩) rfl
  have c1 := E.dir.corner_ap hM E.at_ (w := s.maxW) (t := s.maxH) S.fw S.fmax S.bw S.bmax (b := ⟨((across (edgeDir ps h i)).dot (pt ps (h.getD i 0)).head2).neg.sub s.maxW, ((edgeDir ps h i).dot (pt ps (h.getD i 0)).head2).neg.sub s.maxH⟩)
    (.inl rfl) rfl
  rw [zero_re'] at c0
  obtain ⟨yc, ys⟩ := Trig.Accurate.yaw ta E.dir
  have e1 : (minBox t ps h).xMin = solve (across (edgeDir ps h i)) (edgeDir ps h i) ⟨((across (edgeDir ps h i)).dot (pt ps (h.getD i 0)).head2).neg, ((edgeDir ps h i).dot (pt ps (h.getD i 0)).head2).neg.sub s.minH⟩ := by
    rw [em, ← hsp]; rfl
  have e2 : (minBox t ps h).xMax = solve (across (edgeDir ps h i)) (edgeDir ps h i) ⟨((across (edgeDir ps h i)).dot (pt ps (h.getD i 0)).head2).neg.sub s.maxW, ((edgeDir ps h i).dot (pt ps (h.getD i 0)).head2).neg.sub s.maxH⟩ := by
    rw [em, ← hsp]; rfl
  have e3 : (minBox t ps h).yaw = t.atan2 (edgeDir ps h i).y (edgeDir ps h i).x := by rw [em]; rfl
  rw [← e1] at c0
  rw [← e2] at c1
  rw [← e3] at yc ys
  have one := E.dir.one
  -- the result
  let pMin : V3f := ⟨(minBox t ps h).xMin.x, (minBox t ps h).xMin.y, mn⟩
  let pMax : V3f := ⟨(minBox t ps h).xMax.x, (minBox t ps h).xMax.y, mx⟩
  let b : BBox := yawed t ⟨0, 0, 0⟩ ((pMin.add pMax).map F32.half) (minBox t ps h).yaw
  have er : extractRAABB sort t ps = .ok { b with dims := (b.pointToBoxFrame pMax).sub (b.pointToBoxFrame pMin) } := by
    unfold extractRAABB
    rw [eh]
    have ea : ∃ a, (minBox t ps h).minArea = some a := by rw [em]; exact ⟨_, rfl⟩
    obtain ⟨a, ea⟩ := ea
    show (match (minBox t ps h).minArea with | none => _ | some _ => _) = _
    rw [ea]
    have q1 : (ps.drop 1).foldl (fun m p => F32.min' p.z m) (pt ps 0).z = mn := by rw [← emn, ← hps]; rfl
    have q2 : (ps.drop 1).foldl (fun m p => F32.max' p.z m) (pt ps 0).z = mx := by rw [← emx, ← hps]; rfl
    dsimp only
    rw [q1, q2]
    rfl
  obtain ⟨⟨a1, a2⟩, a3, a4⟩ := c0
  obtain ⟨⟨d1, d2⟩, d3, d4⟩ := c1
  generalize hu0 : (corner cx cy (pt ps (h.getD i 0)).head2 0 s.minH.re).1 = u0 at *
  generalize hv0 : (corner cx cy (pt ps (h.getD i 0)).head2 0 s.minH.re).2 = v0 at *
  generalize hu1 : (corner cx cy (pt ps (h.getD i 0)).head2 s.maxW.re s.maxH.re).1 = u1 at *
  generalize hv1 : (corner cx cy (pt ps (h.getD i 0)).head2 s.maxW.re s.maxH.re).2 = v1 at *
  unfold corner at hu0 hv0 hu1 hv1
  have sX : |u0 + u1| ≤ 28 * M := by refine le_trans (abs_add_le _ _) ?_; linarith
  have sY : |v0 + v1| ≤ 28 * M := by refine le_trans (abs_add_le _ _) ?_; linarith
  have sZ : |mn.re + mx.re| ≤ 2 * M := by refine le_trans (abs_add_le _ _) ?_; linarith
  have halve : ∀ {x K : ℝ}, |x| ≤ 2 * K → |x / 2| ≤ K := by
    intro x K hx
    rw [abs_div, abs_of_pos (by norm_num : (0 : ℝ) < 2), div_le_iff₀ (by norm_num)]; linarith
  have P : Placed M b (t.cos (minBox t ps h).yaw) (t.sin (minBox t ps h).yaw) cx cy ((u0 + u1) / 2) ((v0 + v1) / 2) ((mn.re + mx.re) / 2) := by
    refine ⟨rfl, ?_, one, yc, ys, ?_, ?_, ?_, halve (by linarith), halve (by linarith), halve sZ⟩
    · have := yc.size (b := 1) Scale.one (by rw [mul_one]; exact E.dir.bx) (by norm_num)
      exact rotation_cols yc.fin ys.fin (by linarith) rfl
    · have := Ap.add 28 hM a1 d1 sX (by norm_num) (by norm_num)
      exact (this.half hM sX (by norm_num) (by norm_num)).weaken hM (by norm_num)
    · have := Ap.add 28 hM a3 d3 sY (by norm_num) (by norm_num)
      exact (this.half hM sY (by norm_num) (by norm_num)).weaken hM (by norm_num)
    · have := Ap.add 2 hM (Ap.exact fmn) (Ap.exact fmx) sZ (by norm_num) (by norm_num)
      exact (this.half hM sZ (by norm_num) (by norm_num)).weaken hM (by norm_num)
  obtain ⟨g1, g2, g3⟩ := P.frame hM (q := pMin) a1 a3 fmn a2 a4 bmn
  obtain ⟨k1, k2, k3⟩ := P.frame hM (q := pMax) d1 d3 fmx d2 d4 bmx
  have du : u1 - u0 = cx * (s.maxH.re - s.minH.re) - cy * s.maxW.re := by rw [← hu1, ← hu0]; ring
  have dv : v1 - v0 = cy * (s.maxH.re - s.minH.re) + cx * s.maxW.re := by rw [← hv1, ← hv0]; ring
  have iH : cx * (u1 - (u0 + u1) / 2) + cy * (v1 - (v0 + v1) / 2) - (cx * (u0 - (u0 + u1) / 2) + cy * (v0 - (v0 + v1) / 2)) = s.maxH.re - s.minH.re := by
    calc _ = cx * (u1 - u0) + cy * (v1 - v0) := by ring
      _ = (cx * cx + cy * cy) * (s.maxH.re - s.minH.re) := by rw [du, dv]; ring
      _ = _ := by rw [one, one_mul]
  have iW : -cy * (u1 - (u0 + u1) / 2) + cx * (v1 - (v0 + v1) / 2) - (-cy * (u0 - (u0 + u1) / 2) + cx * (v0 - (v0 + v1) / 2)) = s.maxW.re := by
    calc _ = -cy * (u1 - u0) + cx * (v1 - v0) := by ring
      _ = (cx * cx + cy * cy) * s.maxW.re := by rw [du, dv]; ring
      _ = _ := by rw [one, one_mul]
  have bH := abs_le.1 S.bmax
  have bL := abs_le.1 S.bmin
  have bW := S.bw
  have xd := Ap.sub 10 hM k1 g1 (by rw [iH, abs_le]; constructor <;> linarith) (by norm_num) (by norm_num)
  have yd := Ap.sub 10 hM k2 g2 (by rw [iW]; linarith) (by norm_num) (by norm_num)
  have zi : mx.re - (mn.re + mx.re) / 2 - (mn.re - (mn.re + mx.re) / 2) = mx.re - mn.re := by ring
  have zd := Ap.sub 2 hM k3 g3 (by show |mx.re - (mn.re + mx.re) / 2 - (mn.re - (mn.re + mx.re) / 2)| ≤ _; rw [zi]; refine le_trans (abs_sub _ _) ?_; linarith) (by norm_num) (by norm_num)
  have zd' : Ap M ((b.pointToBoxFrame pMax).z.sub (b.pointToBoxFrame pMin).z) (mx.re - mn.re) (215 + 215 + 2 + 1) := zd.cong zi
  have xd' := xd.cong iH
  have yd' := yd.cong iW
  refine ⟨_, h, i, cx, cy, er, eh, H, hi, em, E, ?_⟩
  have cX : |((b.pointToBoxFrame pMax).x.sub (b.pointToBoxFrame pMin).x).re - (s.maxH.re - s.minH.re)| ≤ 9419 * (M / 2 ^ 24) := le_trans xd'.close (mul_le_mul_of_nonneg_right (by norm_num) (le_of_lt e0))
  have cY : |((b.pointToBoxFrame pMax).y.sub (b.pointToBoxFrame pMin).y).re - s.maxW.re| ≤ 9419 * (M / 2 ^ 24) := le_trans yd'.close (mul_le_mul_of_nonneg_right (by norm_num) (le_of_lt e0))
  have cZ : |((b.pointToBoxFrame pMax).z.sub (b.pointToBoxFrame pMin).z).re - (mx.re - mn.re)| ≤ 433 * (M / 2 ^ 24) := le_trans zd'.close (mul_le_mul_of_nonneg_right (by norm_num) (le_of_lt e0))
  have slack : M / 2 ^ 10 = 16384 * (M / 2 ^ 24) := by ring
  rw [hsp]
  refine ⟨rfl, ?_, ?_, S.w0, by linarith [S.min0, S.max0], cX, cY, ⟨pn, hpn, px, hpx, fun r hr => ⟨wmn ▸ lmn r hr, wmx ▸ lmx r hr⟩, by rw [← wmn, ← wmx]; exact cZ⟩, P.xx.close, P.xy.close, ?_⟩
  · intro a
    cases a
    · exact xd'.fin
    · exact yd'.fin
    · exact zd'.fin
  · intro a
    cases a
    · exact P.ax.fin
    · exact P.ay.fin
    · exact P.az.fin
  · intro p hp a
    obtain ⟨l1, l2, l3⟩ := P.along hM (hb p hp)
    have q1 := abs_le.1 cX
    have q2 := abs_le.1 cY
    have q3 := abs_le.1 cZ
    have two : ∀ {x K : ℝ}, -K ≤ 2 * x → 2 * x ≤ K → 2 * |x| ≤ K := by
      intro x K hx1 hx2
      rcases abs_cases x with ⟨e, _⟩ | ⟨e, _⟩ <;> rw [e] <;> linarith
    have fh : cx * (p.x.re - (u0 + u1) / 2) + cy * (p.y.re - (v0 + v1) / 2) = Fh cx cy (pt ps (h.getD i 0)).head2 p.head2 - (s.minH.re + s.maxH.re) / 2 := by
      rw [← hu0, ← hu1, ← hv0, ← hv1]
      unfold Fh
      have : cx * (p.x.re - ((pt ps (h.getD i 0)).head2.x.re + cx * s.minH.re - cy * 0 + ((pt ps (h.getD i 0)).head2.x.re + cx * s.maxH.re - cy * s.maxW.re)) / 2) +
          cy * (p.y.re - ((pt ps (h.getD i 0)).head2.y.re + cy * s.minH.re + cx * 0 + ((pt ps (h.getD i 0)).head2.y.re + cy * s.maxH.re + cx * s.maxW.re)) / 2) =
          cx * (p.x.re - (pt ps (h.getD i 0)).head2.x.re) + cy * (p.y.re - (pt ps (h.getD i 0)).head2.y.re) - (cx * cx + cy * cy) * ((s.minH.re + s.maxH.re) / 2) := by ring
      refine this.trans ?_
      rw [one, one_mul]; rfl
    have fw : -cy * (p.x.re - (u0 + u1) / 2) + cx * (p.y.re - (v0 + v1) / 2) = Fw cx cy (pt ps (h.getD i 0)).head2 p.head2 - s.maxW.re / 2 := by
      rw [← hu0, ← hu1, ← hv0, ← hv1]
      unfold Fw
      have : -cy * (p.x.re - ((pt ps (h.getD i 0)).head2.x.re + cx * s.minH.re - cy * 0 + ((pt ps (h.getD i 0)).head2.x.re + cx * s.maxH.re - cy * s.maxW.re)) / 2) +
          cx * (p.y.re - ((pt ps (h.getD i 0)).head2.y.re + cy * s.minH.re + cx * 0 + ((pt ps (h.getD i 0)).head2.y.re + cy * s.maxH.re + cx * s.maxW.re)) / 2) =
          -cy * (p.x.re - (pt ps (h.getD i 0)).head2.x.re) + cx * (p.y.re - (pt ps (h.getD i 0)).head2.y.re) - (cx * cx + cy * cy) * (s.maxW.re / 2) := by ring
      refine this.trans ?_
      rw [one, one_mul]; rfl
    have b1 := E.h0 p hp
    have b2 := E.h1 p hp
    have b3 := E.w0 p hp
    have b4 := E.w1 p hp
    rw [hsp] at b1 b2 b4
    rw [slack]
    cases a
    · show 2 * |((b.along p .x : Int) : ℝ) / (unit * unit)| ≤ ((b.pointToBoxFrame pMax).x.sub (b.pointToBoxFrame pMin).x).re + _
      rw [fh] at l1
      have l := abs_le.1 l1
      apply two <;> linarith
    · show 2 * |((b.along p .y : Int) : ℝ) / (unit * unit)| ≤ ((b.pointToBoxFrame pMax).y.sub (b.pointToBoxFrame pMin).y).re + _
      rw [fw] at l2
      have l := abs_le.1 l2
      apply two <;> linarith
    · show 2 * |((b.along p .z : Int) : ℝ) / (unit * unit)| ≤ ((b.pointToBoxFrame pMax).z.sub (b.pointToBoxFrame pMin).z).re + _
      have l := abs_le.1 l3
      have z1 := lmn p hp
      have z2 := lmx p hp
      apply two <;> linarith

end Hull
end Verif
