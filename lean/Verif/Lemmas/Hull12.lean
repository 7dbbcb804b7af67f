import Verif.Lemmas.Hull11
/-! # The fitted box holds the points -/

namespace Verif
namespace Hull
open F32

/-! ## The box of an edge -/

/-- What `flatStep` puts in place if the edge is better. -/
def edgeBox (t : Trig) (ps : List V3f) (h : List Nat) (i : Nat) : Flat :=
  let xc := (pt ps (h.getD i 0)).head2
  let nh := edgeDir ps h i
  let nw := across nh
  let bw := (nw.dot xc).neg
  let bh := (nh.dot xc).neg
  let s := spread ps h i
  let area := s.maxW.mul (s.maxH.sub s.minH)
  ⟨solve nw nh ⟨bw, bh.sub s.minH⟩, solve nw nh ⟨bw.sub s.maxW, bh.sub s.maxH⟩, some area, t.atan2 nh.y nh.x⟩

theorem flatStep_cases (t : Trig) (ps : List V3f) (h : List Nat) (r : Flat) (i : Nat) :
    flatStep t ps h r i = edgeBox t ps h i ∨ (flatStep t ps h r i = r ∧ r.minArea ≠ none) := by
  unfold flatStep
  cases hm : r.minArea with
  | none => left; rfl
  | some a =>
    dsimp only
    split
    · right; exact ⟨rfl, by simp⟩
    · left; rfl

theorem minBox_edge (t : Trig) (ps : List V3f) {h : List Nat} (hne : h ≠ []) : ∃ i, i < h.length ∧ minBox t ps h = edgeBox t ps h i := by
  have key : ∀ (l : List Nat) (r : Flat), (∀ i ∈ l, i < h.length) → (∃ i, i < h.length ∧ r = edgeBox t ps h i) → ∃ i, i < h.length ∧ l.foldl (flatStep t ps h) r = edgeBox t ps h i := by
    intro l
    induction l with
    | nil => intro r _ hr; exact hr
    | cons j l ih =>
      intro r hl hr
      refine ih _ (fun i hi => hl i (by simp [hi])) ?_
      rcases flatStep_cases t ps h r j with e | ⟨e, _⟩
      · exact ⟨j, hl j (by simp), e⟩
      · rw [e]; exact hr
  unfold minBox
  have hp : 0 < h.length := List.length_pos_iff.2 hne
  obtain ⟨n, hn⟩ : ∃ n, h.length = n + 1 := ⟨h.length - 1, by omega⟩
  have er : List.range h.length = 0 :: (List.range n).map (· + 1) := by rw [hn, List.range_succ_eq_map]
  rw [er, List.foldl_cons]
  refine key _ _ ?_ ?_
  · intro i hi
    simp only [List.mem_map, List.mem_range] at hi
    omega
  · refine ⟨0, hp, ?_⟩
    rcases flatStep_cases t ps h {} 0 with e | ⟨_, e⟩
    · exact e
    · exact absurd rfl e

/-! ## The hull has two corners at different places -/

theorem half_plane_real {ps : List V3f} {h : List Nat} (H : IsHull ps h) (u v : Int) (B : ℝ)
    (hb : ∀ i ∈ h, (u : ℝ) * (pt ps i).coord .x + v * (pt ps i).coord .y ≤ B) : ∀ p ∈ ps, (u : ℝ) * p.coord .x + v * p.coord .y ≤ B := by
  intro p hp
  have := H.contains u v ⌊B⌋ (fun i hi => Int.le_floor.2 (by push_cast; exact hb i hi)) p hp
  have := Int.le_floor.1 this
  push_cast at this
  exact this

theorem apart_all {ps : List V3f} (hs : Separated ps) {r : Nat} (hl : Lowest ps r) {i j : Nat} (hi : i < ps.length) (hj : j < ps.length) (ij : i ≠ j) :
    (pt ps j).coord .x ≠ (pt ps i).coord .x ∨ (pt ps j).coord .y ≠ (pt ps i).coord .y := by
  by_cases hir : i = r
  · subst hir; exact hs.apart i hl j hj (fun e => ij e.symm)
  · by_cases hjr : j = r
    · subst hjr
      have := hs.apart j hl i hi hir
      omega
    · by_contra hc
      have d := hs.directions r hl i hi j hj hir hjr ij
      have e1 : (pt ps j).coord .x = (pt ps i).coord .x := by by_contra hh; exact hc (.inl hh)
      have e2 : (pt ps j).coord .y = (pt ps i).coord .y := by by_contra hh; exact hc (.inr hh)
      have : (pt ps r).cosine (pt ps i) = (pt ps r).cosine (pt ps j) := by unfold V3f.cosine; rw [e1, e2]
      rw [this, sub_self, abs_zero] at d
      norm_num at d

theorem two_corners {ps : List V3f} {h : List Nat} (H : IsHull ps h) (hs : Separated ps) {r : Nat} (hl : Lowest ps r) (h2 : 2 ≤ ps.length) : 2 ≤ h.length := by
  by_contra hc
  have hp : 0 < h.length := List.length_pos_iff.2 H.nonempty
  obtain ⟨a, ha⟩ : ∃ a, h = [a] := by
    match h, hp, hc with
    | [a], _, _ => exact ⟨a, rfl⟩
    | _ :: _ :: _, _, hc => simp at hc
  have al : a < ps.length := H.points a (by rw [ha]; simp)
  have all : ∀ p ∈ ps, p.coord .x = (pt ps a).coord .x ∧ p.coord .y = (pt ps a).coord .y := by
    intro p hp
    have c := fun u v => H.contains u v (u * (pt ps a).coord .x + v * (pt ps a).coord .y) (by intro i hi; rw [ha] at hi; simp at hi; rw [hi]) p hp
    have c1 := c 1 0
    have c2 := c (-1) 0
    have c3 := c 0 1
    have c4 := c 0 (-1)
    constructor <;> omega
  obtain ⟨j, hj, hne⟩ : ∃ j, j < ps.length ∧ a ≠ j := by
    by_cases h0 : a = 0
    · exact ⟨1, by omega, by omega⟩
    · exact ⟨0, by omega, h0⟩
  have := all _ (pt_mem hj)
  rcases apart_all hs hl al hj hne with h | h
  · exact h this.1
  · exact h this.2

/-! ## All points are between the lines -/

theorem getD_mem {h : List Nat} {i : Nat} (hi : i < h.length) : h.getD i 0 ∈ h := by
  rw [List.getD_eq_getElem?_getD, List.getElem?_eq_getElem hi]; exact List.getElem_mem hi

theorem around {n i k : Nat} (hi : i < n) (hk : k < n) (hne : k ≠ i) : ∃ j, j < n - 1 ∧ (i + (j + 1)) % n = k := by
  by_cases h : i < k
  · exact ⟨k - i - 1, by omega, by rw [Nat.mod_eq_of_lt (by omega)]; omega⟩
  · refine ⟨k + n - i - 1, by omega, ?_⟩
    rw [show i + (k + n - i - 1 + 1) = k + n by omega, Nat.add_mod_right, Nat.mod_eq_of_lt hk]

/-- What is known of an edge of the hull. -/
structure Edge (M : ℝ) (ps : List V3f) (h : List Nat) (i : Nat) (cx cy : ℝ) : Prop where
  dir : Dir (edgeDir ps h i) cx cy
  at_ : In M (pt ps (h.getD i 0)).head2
  w0 : ∀ p ∈ ps, 0 ≤ Fw cx cy (pt ps (h.getD i 0)).head2 p.head2
  w1 : ∀ p ∈ ps, Fw cx cy (pt ps (h.getD i 0)).head2 p.head2 ≤ (spread ps h i).maxW.re + 55 * (M / 2 ^ 24)
  h0 : ∀ p ∈ ps, (spread ps h i).minH.re - 55 * (M / 2 ^ 24) ≤ Fh cx cy (pt ps (h.getD i 0)).head2 p.head2
  h1 : ∀ p ∈ ps, Fh cx cy (pt ps (h.getD i 0)).head2 p.head2 ≤ (spread ps h i).maxH.re + 55 * (M / 2 ^ 24)
  ok : SpreadOk M cx cy (pt ps (h.getD i 0)).head2 (ps.map V3f.head2) (spread ps h i)
  along : ∃ L : ℝ, 0 < L ∧ (pt ps (h.getD ((i + 1) % h.length) 0)).x.re - (pt ps (h.getD i 0)).x.re = L * cx ∧
    (pt ps (h.getD ((i + 1) % h.length) 0)).y.re - (pt ps (h.getD i 0)).y.re = L * cy

theorem edge_ok {g D : Nat} {ps : List V3f} (ht : Tidy ps) (hr : Raster g D ps) (h1 : 75 ≤ g) (h2 : g ≤ 200) (hD : D ≤ 2047) {h : List Nat} (H : IsHull ps h)
    (hs : Separated ps) {r : Nat} (hl : Lowest ps r) (hlen : 2 ≤ ps.length) {M : ℝ} (hM : Scale M) (hb : ∀ p ∈ ps, ∀ a, |(p.at a).re| ≤ M) {i : Nat} (hi : i < h.length) :
    ∃ cx cy, Edge M ps h i cx cy := by
  have len2 := two_corners H hs hl hlen
  have kn : (i + 1) % h.length < h.length := Nat.mod_lt _ (by omega)
  have kne : (i + 1) % h.length ≠ i := by
    by_cases e : i + 1 = h.length
    · rw [e, Nat.mod_self]; omega
    · rw [Nat.mod_eq_of_lt (by omega)]; omega
  have ine : h.getD i 0 ≠ h.getD ((i + 1) % h.length) 0 := by
    rw [List.getD_eq_getElem?_getD, List.getD_eq_getElem?_getD, List.getElem?_eq_getElem hi, List.getElem?_eq_getElem kn]
    intro e
    exact kne ((List.Nodup.getElem_inj_iff H.distinct).1 e).symm
  have pin : ∀ p ∈ ps, In M p.head2 := fun p hp => ⟨ht.finite p hp .x, ht.finite p hp .y, hb p hp .x, hb p hp .y⟩
  have li := H.points _ (getD_mem hi)
  have ln := H.points _ (getD_mem kn)
  obtain ⟨cx, cy, L, pL, ex, ey, dir⟩ := dir_of ht hr h1 h2 hD (pt_mem ln) (pt_mem li) (apart_all hs hl li ln ine)
  have dir' : Dir (edgeDir ps h i) cx cy := dir
  have hc : In M (pt ps (h.getD i 0)).head2 := pin _ (pt_mem li)
  have sp := dir'.spread_ok hM hc (l := (List.range (h.length - 1)).map fun j => (pt ps (h.getD ((i + (j + 1)) % h.length) 0)).head2) (by
    intro p hp
    rw [List.mem_map] at hp
    obtain ⟨j, _, rfl⟩ := hp
    exact pin _ (pt_mem (H.points _ (getD_mem (Nat.mod_lt _ (by omega))))))
  have sp' : SpreadOk M cx cy (pt ps (h.getD i 0)).head2 ((List.range (h.length - 1)).map fun j => (pt ps (h.getD ((i + (j + 1)) % h.length) 0)).head2) (spread ps h i) := sp
  have e0 := hM.eps
  have hu := unitR_pos
  have onHull : ∀ a ∈ h, Fw cx cy (pt ps (h.getD i 0)).head2 (pt ps a).head2 ≤ (spread ps h i).maxW.re + 55 * (M / 2 ^ 24) ∧
      (spread ps h i).minH.re - 55 * (M / 2 ^ 24) ≤ Fh cx cy (pt ps (h.getD i 0)).head2 (pt ps a).head2 ∧
      Fh cx cy (pt ps (h.getD i 0)).head2 (pt ps a).head2 ≤ (spread ps h i).maxH.re + 55 * (M / 2 ^ 24) := by
    intro a ha
    obtain ⟨k, hk, rfl⟩ := List.mem_iff_getElem.1 ha
    have ek : h[k] = h.getD k 0 := by rw [List.getD_eq_getElem?_getD, List.getElem?_eq_getElem hk]; rfl
    by_cases hki : k = i
    · subst hki
      rw [ek]
      unfold Fw Fh
      simp only [sub_self]
      have := sp'.w0
      have := sp'.min0
      have := sp'.max0
      refine ⟨?_, ?_, ?_⟩ <;> linarith
    · obtain ⟨j, hj, e⟩ := around hi hk hki
      have m : (pt ps h[k]).head2 ∈ (List.range (h.length - 1)).map fun j => (pt ps (h.getD ((i + (j + 1)) % h.length) 0)).head2 := by
        rw [List.mem_map]; exact ⟨j, List.mem_range.2 hj, by rw [e, ek]⟩
      exact ⟨sp'.w _ m, sp'.lo _ m, sp'.hi _ m⟩
  -- the directions as integers
  generalize hci : pt ps (h.getD i 0) = c at *
  have dxI : (((pt ps (h.getD ((i + 1) % h.length) 0)).coord .x - c.coord .x : Int) : ℝ) = L * cx * unit := by
    push_cast
    show ((pt ps (h.getD ((i + 1) % h.length) 0)).x.val : ℝ) - c.x.val = _
    rw [val_re, val_re, ← sub_mul, ex]
  have dyI : (((pt ps (h.getD ((i + 1) % h.length) 0)).coord .y - c.coord .y : Int) : ℝ) = L * cy * unit := by
    push_cast
    show ((pt ps (h.getD ((i + 1) % h.length) 0)).y.val : ℝ) - c.y.val = _
    rw [val_re, val_re, ← sub_mul, ey]
  generalize hdx : (pt ps (h.getD ((i + 1) % h.length) 0)).coord .x - c.coord .x = dx at *
  generalize hdy : (pt ps (h.getD ((i + 1) % h.length) 0)).coord .y - c.coord .y = dy at *
  have pos : 0 < L * (unit * unit) := mul_pos pL (mul_pos hu hu)
  have fh : ∀ p : V3f, (dx : ℝ) * p.coord .x + dy * p.coord .y = L * (unit * unit) * Fh cx cy c.head2 p.head2 + ((dx : ℝ) * c.coord .x + dy * c.coord .y) := by
    intro p
    show (dx : ℝ) * p.x.val + dy * p.y.val = L * (unit * unit) * (cx * (p.x.re - c.x.re) + cy * (p.y.re - c.y.re)) + ((dx : ℝ) * c.x.val + dy * c.y.val)
    rw [dxI, dyI, val_re, val_re, val_re, val_re]; ring
  have fw : ∀ p : V3f, ((-dy : Int) : ℝ) * p.coord .x + dx * p.coord .y = L * (unit * unit) * Fw cx cy c.head2 p.head2 + (((-dy : Int) : ℝ) * c.coord .x + dx * c.coord .y) := by
    intro p
    show ((-dy : Int) : ℝ) * p.x.val + dx * p.y.val = L * (unit * unit) * (-cy * (p.x.re - c.x.re) + cx * (p.y.re - c.y.re)) + (((-dy : Int) : ℝ) * c.x.val + dx * c.y.val)
    rw [Int.cast_neg, dxI, dyI, val_re, val_re, val_re, val_re]; ring
  have W0 : ∀ p ∈ ps, 0 ≤ Fw cx cy c.head2 p.head2 := by
    intro p hp
    have l := H.left i hi p hp
    rw [hci] at l
    unfold V3f.turn at l
    rw [hdx, hdy] at l
    have l' : (0 : ℝ) ≤ dx * (p.coord .y - c.coord .y) - dy * (p.coord .x - c.coord .x) := by exact_mod_cast l
    have := fw p
    rw [Int.cast_neg] at this
    have : 0 ≤ L * (unit * unit) * Fw cx cy c.head2 p.head2 := by linarith
    exact nonneg_of_mul_nonneg_right this pos
  have W1 : ∀ p ∈ ps, Fw cx cy c.head2 p.head2 ≤ (spread ps h i).maxW.re + 55 * (M / 2 ^ 24) := by
    intro p hp
    have := half_plane_real H (-dy) dx (L * (unit * unit) * ((spread ps h i).maxW.re + 55 * (M / 2 ^ 24)) + (((-dy : Int) : ℝ) * c.coord .x + dx * c.coord .y)) (by
      intro a ha
      rw [fw]
      have := mul_le_mul_of_nonneg_left (onHull a ha).1 (le_of_lt pos)
      linarith) p hp
    rw [fw] at this
    exact le_of_mul_le_mul_left (by linarith) pos
  have H0 : ∀ p ∈ ps, (spread ps h i).minH.re - 55 * (M / 2 ^ 24) ≤ Fh cx cy c.head2 p.head2 := by
    intro p hp
    have := half_plane_real H (-dx) (-dy) (-(L * (unit * unit) * ((spread ps h i).minH.re - 55 * (M / 2 ^ 24)) + ((dx : ℝ) * c.coord .x + dy * c.coord .y))) (by
      intro a ha
      have f := fh (pt ps a)
      have := mul_le_mul_of_nonneg_left (onHull a ha).2.1 (le_of_lt pos)
      push_cast
      linarith) p hp
    have f := fh p
    push_cast at this
    exact le_of_mul_le_mul_left (by linarith) pos
  have H1 : ∀ p ∈ ps, Fh cx cy c.head2 p.head2 ≤ (spread ps h i).maxH.re + 55 * (M / 2 ^ 24) := by
    intro p hp
    have := half_plane_real H dx dy (L * (unit * unit) * ((spread ps h i).maxH.re + 55 * (M / 2 ^ 24)) + ((dx : ℝ) * c.coord .x + dy * c.coord .y)) (by
      intro a ha
      rw [fh]
      have := mul_le_mul_of_nonneg_left (onHull a ha).2.2 (le_of_lt pos)
      linarith) p hp
    rw [fh] at this
    exact le_of_mul_le_mul_left (by linarith) pos
  have back : ∀ {P : V2f → Prop}, (∃ p, (p = c.head2 ∨ p ∈ (List.range (h.length - 1)).map fun j => (pt ps (h.getD ((i + (j + 1)) % h.length) 0)).head2) ∧ P p) →
      ∃ p, (p = c.head2 ∨ p ∈ ps.map V3f.head2) ∧ P p := by
    rintro P ⟨p, hp, hP⟩
    refine ⟨p, ?_, hP⟩
    rcases hp with hp | hp
    · exact .inl hp
    · rw [List.mem_map] at hp
      obtain ⟨j, _, rfl⟩ := hp
      exact .inr (List.mem_map_of_mem (pt_mem (H.points _ (getD_mem (Nat.mod_lt _ (by omega))))))
  have map : ∀ {P : V2f → Prop}, (∀ p ∈ ps, P p.head2) → ∀ p ∈ ps.map V3f.head2, P p := by
    intro P hP p hp
    rw [List.mem_map] at hp
    obtain ⟨q, hq, rfl⟩ := hp
    exact hP q hq
  refine ⟨cx, cy, dir', by rw [hci]; exact hc, by rw [hci]; exact W0, by rw [hci]; exact W1, by rw [hci]; exact H0, by rw [hci]; exact H1, ?_, ?_⟩
  · rw [hci]
    exact ⟨sp'.fw, sp'.fmin, sp'.fmax, sp'.w0, sp'.min0, sp'.max0, sp'.bw, sp'.bmin, sp'.bmax, map W1, map H0, map H1, back sp'.atW, back sp'.atLo, back sp'.atHi⟩
  · rw [hci]; exact ⟨L, pL, ex, ey⟩

end Hull
end Verif
