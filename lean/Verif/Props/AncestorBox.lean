import Verif.Spec.AncestorBox
import Verif.Lemmas.Narrow2
import Verif.Props.BoxFit
import Verif.Props.Hull
import Verif.Props.Structure
set_option exponentiation.threshold 2000
/-! # C64: boxes around the nodes below a node -/

namespace Verif
variable {ids : List LayerId} {ops : List Op} {g : Graph}

theorem Reached.position (h : Reached ids ops g) {n : NodeId} {k : LayerKey} (hn : g.getLayerForNode n = some k) :
    ∃ v, g.getPosition n = .ok v := by
  obtain ⟨hids, hok, outs, e⟩ := h
  obtain ⟨g', outs', e', _, _, _, hp⟩ := C05_no_fault hids hok
  rw [e] at e'
  cases e'
  obtain ⟨i, _, hi⟩ := hp n (OMap.contains_eq_true.2 ⟨k, hn⟩)
  exact ⟨_, hi⟩

theorem Graph.adaptorPoints_ok : ∀ {ns : List NodeId}, (∀ n ∈ ns, ∃ v, g.getPosition n = .ok v) →
    ∃ vs : List V3d, g.adaptorPoints ns = .ok (vs.map V3d.rounded) ∧ vs.length = ns.length ∧
      (∀ v, v ∈ vs ↔ ∃ n ∈ ns, g.getPosition n = .ok v) ∧ ∀ (i : Nat) n, ns[i]? = some n → ∃ v, vs[i]? = some v ∧ g.getPosition n = .ok v
  | [], _ => ⟨[], rfl, rfl, by simp, by simp⟩
  | n :: ns, h => by
    obtain ⟨v, hv⟩ := h n (List.mem_cons_self ..)
    obtain ⟨vs, e, hlen, hm, hi⟩ := Graph.adaptorPoints_ok (fun n hn => h n (List.mem_cons_of_mem _ hn))
    refine ⟨v :: vs, ?_, by simp [hlen], ?_, ?_⟩
    · simp only [Graph.adaptorPoints, Graph.adaptorPoint, hv, e, bind, Res.bind]
      rfl
    · intro w
      simp only [List.mem_cons, hm, exists_eq_or_imp, hv, Res.ok.injEq]
      rw [eq_comm]
    · intro i m hm
      cases i with
      | zero => simp only [List.getElem?_cons_zero, Option.some.injEq] at hm; subst hm; exact ⟨v, rfl, hv⟩
      | succ i => exact hi i m hm

/-- **C64.** For a graph built with the API and a layer other than the one with id 0, `computeAncestorBoundingBox` ends without fault of its own: it fits a box of the
given type to the positions, rounded to floats, of exactly the nodes of the layer below the node; each position is used once, if no node has two parents. There is no
box, if there are no such nodes, and none of the types "invalid" and OBB. -/
theorem C64_points (h : Reached ids ops g) (p : NodeId) (l : LayerId) (hl : l ≠ 0)
    (fuel : Nat) (hf : 0 < fuel ∧ ∀ kp, g.getLayerForNode p = some kp → kp.layer.toNat < fuel) :
    ∃ (ns : List NodeId) (vs : List V3d), (∀ n, n ∈ ns ↔ g.Under p l n) ∧ (g.SingleParents → ns.Nodup) ∧
      vs.length = ns.length ∧ (∀ (i : Nat) n, ns[i]? = some n → ∃ v, vs[i]? = some v ∧ g.getPosition n = .ok v) ∧ (∀ v, v ∈ vs ↔ g.PlaceUnder p l v) ∧
      ∀ sort t, (vs = [] → ∀ type, g.ancestorBox sort t fuel p l type = some (.ok {})) ∧
        (∀ v vs', vs = v :: vs' → g.ancestorBox sort t fuel p l BBox.AABB = some (.ok (BBox.extractAABB v.rounded (vs'.map V3d.rounded)))) ∧
        (vs ≠ [] → g.ancestorBox sort t fuel p l BBox.RAABB = some (Hull.extractRAABB sort t (vs.map V3d.rounded))) ∧
        ∀ type, type ≠ BBox.AABB → type ≠ BBox.RAABB → g.ancestorBox sort t fuel p l type = some (.ok {}) := by
  obtain ⟨ns, e, hm, hu⟩ := C46_descendants h p (.static l) hl fuel hf
  obtain ⟨vs, e2, hlen, hv, hi⟩ := Graph.adaptorPoints_ok (g := g) (ns := ns) (fun n hn => h.position ((hm n).1 hn).1)
  refine ⟨ns, vs, hm, hu, hlen, hi, ?_, ?_⟩
  · intro v
    rw [hv]
    constructor
    · rintro ⟨n, hn, hp⟩; exact ⟨n, (hm n).1 hn, hp⟩
    · rintro ⟨n, hn, hp⟩; exact ⟨n, (hm n).2 hn, hp⟩
  · intro sort t
    have hb : ∀ type, g.ancestorBox sort t fuel p l type = some (g.extractNodes sort t ns type) := by
      intro type
      unfold Graph.ancestorBox
      rw [e]
      rfl
    have hnil : ns.isEmpty = true ↔ vs = [] := by
      rw [List.isEmpty_iff]
      constructor
      · intro h; subst h; exact List.length_eq_zero_iff.1 hlen
      · intro h; subst h; exact List.length_eq_zero_iff.1 hlen.symm
    refine ⟨?_, ?_, ?_, ?_⟩
    · intro h0 type
      rw [hb]
      unfold Graph.extractNodes
      rw [hnil.2 h0]
      rfl
    · intro v vs' h0
      rw [hb]
      unfold Graph.extractNodes
      have : ns.isEmpty = false := by
        rw [← Bool.not_eq_true, hnil, h0]; simp
      rw [this, e2, h0]
      rfl
    · intro h0
      rw [hb]
      unfold Graph.extractNodes
      have : ns.isEmpty = false := by
        rw [← Bool.not_eq_true, hnil]; exact h0
      rw [this, e2]
      rfl
    · intro type h1 h2
      rw [hb]
      unfold Graph.extractNodes
      rw [beq_false_of_ne h1, beq_false_of_ne h2]
      split
      · rfl
      · simp only [Bool.false_eq_true, if_false, ite_self]

/-! ## Accuracy -/

theorem V3d.rounded_near {v : V3d} (hf : v.Finite) {M : ℚ} (hM : M < 2 ^ 127) (i : Axis) (hb : |v.along i| ≤ M) :
    F32.finite (v.rounded.at i) = true ∧ |(v.rounded.at i).real - v.along i| ≤ M / 2 ^ 24 + 1 / 2 ^ 150 := by
  cases i
  · exact F64.toFloat_near hf.1 hM hb
  · exact F64.toFloat_near hf.2.1 hM hb
  · exact F64.toFloat_near hf.2.2 hM hb

theorem coord_real (x : V3f) (i : Axis) : ((x.coord i : Int) : ℚ) = (x.at i).real * 2 ^ 149 := by
  unfold F32.real V3f.coord
  rw [Nat.cast_pow, Nat.cast_ofNat, div_mul_cancel₀ _ (by positivity)]

theorem natAbs_coord_le {x : V3f} {i : Axis} {q : ℚ} (h : |(x.at i).real| ≤ q) : ((x.coord i).natAbs : ℚ) ≤ q * 2 ^ 149 := by
  have : ((x.coord i).natAbs : ℚ) = |((x.coord i : Int) : ℚ)| := by
    rw [← Int.cast_abs, Nat.cast_natAbs]
  rw [this, coord_real, abs_mul, abs_of_pos (show (0 : ℚ) < 2 ^ 149 by positivity)]
  exact mul_le_mul_of_nonneg_right h (by positivity)

/-- The axis-aligned fit, for positions in doubles. -/
theorem fit_doubles {v : V3d} {vs : List V3d} (hf : ∀ w ∈ v :: vs, w.Finite) {M : ℚ} (hM : M ≤ 2 ^ 126) (hb : ∀ w ∈ v :: vs, ∀ i, |w.along i| ≤ M) :
    let b := BBox.extractAABB v.rounded (vs.map V3d.rounded)
    b.type = BBox.AABB ∧ b.dims.FiniteAt ∧ b.center.FiniteAt ∧
    (∀ w ∈ v :: vs, ∀ i, |w.along i - (b.center.at i).real| ≤ (b.dims.at i).real / 2 + M / 2 ^ 22 + 1 / 2 ^ 148) ∧
    (∀ i lo hi, (∀ w ∈ v :: vs, lo ≤ w.along i ∧ w.along i ≤ hi) → (b.dims.at i).real ≤ hi - lo + M / 2 ^ 21 + 1 / 2 ^ 147) ∧
    (b.isValid = true ↔ ∀ i, ∃ w ∈ v :: vs, ∃ u ∈ v :: vs, (w.rounded.at i).real ≠ (u.rounded.at i).real) := by
  intro b
  have M0 : 0 ≤ M := le_trans (abs_nonneg _) (hb v (by simp) .x)
  have hM' : M < 2 ^ 127 := lt_of_le_of_lt hM (by norm_num)
  have near := fun w hw i => V3d.rounded_near (hf w hw) hM' i (hb w hw i)
  have hmap : ∀ q, q ∈ v.rounded :: vs.map V3d.rounded → ∃ w ∈ v :: vs, w.rounded = q := by
    intro q hq
    rw [← List.map_cons, List.mem_map] at hq
    exact hq
  have hfin : ∀ q ∈ v.rounded :: vs.map V3d.rounded, q.FiniteAt := by
    intro q hq i
    obtain ⟨w, hw, rfl⟩ := hmap q hq
    exact (near w hw i).1
  have habs : ∀ w ∈ v :: vs, ∀ i, |(w.rounded.at i).real| ≤ M + M / 2 ^ 24 + 1 / 2 ^ 150 := by
    intro w hw i
    have h1 := (near w hw i).2
    have h2 := hb w hw i
    have h3 := abs_sub_abs_le_abs_sub (w.rounded.at i).real (w.along i)
    linarith
  obtain ⟨K, hK⟩ : ∃ K : Nat, K = ⌊(M + M / 2 ^ 24 + 1 / 2 ^ 150) * 2 ^ 149⌋₊ := ⟨_, rfl⟩
  have K0 : (0 : ℚ) ≤ (M + M / 2 ^ 24 + 1 / 2 ^ 150) * 2 ^ 149 := by positivity
  have hKle : (K : ℚ) ≤ (M + M / 2 ^ 24 + 1 / 2 ^ 150) * 2 ^ 149 := by rw [hK]; exact Nat.floor_le K0
  have hcoord : ∀ q ∈ v.rounded :: vs.map V3d.rounded, ∀ i, (q.coord i).natAbs ≤ K := by
    intro q hq i
    obtain ⟨w, hw, rfl⟩ := hmap q hq
    rw [hK]
    exact Nat.le_floor (natAbs_coord_le (habs w hw i))
  have hK276 : K < 2 ^ 276 := by
    have : (K : ℚ) < ((2 ^ 276 : Nat) : ℚ) := by
      refine lt_of_le_of_lt hKle ?_
      rw [Nat.cast_pow, Nat.cast_ofNat]
      have : M + M / 2 ^ 24 + 1 / 2 ^ 150 < 2 ^ 127 := by
        have : (1 : ℚ) / 2 ^ 150 ≤ 1 := by norm_num
        have : (2 : ℚ) ^ 126 + 2 ^ 126 / 2 ^ 24 + 1 < 2 ^ 127 := by norm_num
        have : M / 2 ^ 24 ≤ 2 ^ 126 / 2 ^ 24 := by
          exact div_le_div_of_nonneg_right hM (by positivity)
        linarith
      calc _ < (2 : ℚ) ^ 127 * 2 ^ 149 := mul_lt_mul_of_pos_right this (by positivity)
        _ = 2 ^ 276 := by rw [← pow_add]
    exact_mod_cast this
  have hlt : ∀ q ∈ v.rounded :: vs.map V3d.rounded, ∀ i, (q.coord i).natAbs < 2 ^ 276 := fun q hq i => lt_of_le_of_lt (hcoord q hq i) hK276
  obtain ⟨t1, t2, t3, t4, t5⟩ := BBox.C57_fit (fun _ => {}) v.rounded (vs.map V3d.rounded) hfin hlt
  refine ⟨t1, t2, t3, ?_, ?_, ?_⟩
  · intro w hw i
    have := BBox.C57_fit_close (fun _ => {}) v.rounded (vs.map V3d.rounded) hfin i K hK276 (fun q hq => hcoord q hq i) w.rounded
      (by rw [← List.map_cons]; exact List.mem_map_of_mem hw)
    change 2 ^ 24 * (2 * (w.rounded.coord i - b.center.coord i).natAbs) ≤ 2 ^ 24 * (b.dims.coord i + 1) + 2 * (K : Int) at this
    have h2 : (2 : ℚ) ^ 24 * (2 * |(w.rounded.at i).real - (b.center.at i).real|) ≤ 2 ^ 24 * ((b.dims.at i).real + 1 / 2 ^ 149) + 2 * (M + M / 2 ^ 24 + 1 / 2 ^ 150) := by
      have h3 : ((2 ^ 24 * (2 * (w.rounded.coord i - b.center.coord i).natAbs) : Int) : ℚ) ≤ ((2 ^ 24 * (b.dims.coord i + 1) + 2 * (K : Int) : Int) : ℚ) := by exact_mod_cast this
      have h4 : (((w.rounded.coord i - b.center.coord i).natAbs : Int) : ℚ) = |(w.rounded.at i).real - (b.center.at i).real| * 2 ^ 149 := by
        rw [Int.natCast_natAbs, Int.cast_abs, Int.cast_sub, coord_real, coord_real, ← sub_mul, abs_mul, abs_of_pos (show (0 : ℚ) < 2 ^ 149 by positivity)]
      simp only [Int.cast_mul, Int.cast_add, Int.cast_pow, Int.cast_ofNat, Int.cast_one, h4, coord_real, Int.cast_natCast] at h3
      have P : (0 : ℚ) < 2 ^ 149 := by positivity
      rw [← mul_le_mul_iff_left₀ P]
      have h5 : ((2 : ℚ) ^ 24 * ((b.dims.at i).real + 1 / 2 ^ 149) + 2 * (M + M / 2 ^ 24 + 1 / 2 ^ 150)) * 2 ^ 149 =
          2 ^ 24 * ((b.dims.at i).real * 2 ^ 149 + 1) + 2 * ((M + M / 2 ^ 24 + 1 / 2 ^ 150) * 2 ^ 149) := by ring
      rw [h5]
      generalize (M + M / 2 ^ 24 + 1 / 2 ^ 150) * 2 ^ 149 = z at *
      generalize (b.dims.at i).real = y at *
      generalize |(w.rounded.at i).real - (b.center.at i).real| = x at *
      generalize (K : ℚ) = k at *
      linarith
    have h3 := (near w hw i).2
    have h4 : |w.along i - (b.center.at i).real| ≤ |(w.rounded.at i).real - w.along i| + |(w.rounded.at i).real - (b.center.at i).real| := by
      have := abs_sub_le (w.along i) (w.rounded.at i).real (b.center.at i).real
      rwa [abs_sub_comm (w.along i) (w.rounded.at i).real] at this
    have h5 : (1 : ℚ) / 2 ^ 149 = 2 * (1 / 2 ^ 150) := by norm_num
    have h6 : (1 : ℚ) / 2 ^ 148 = 4 * (1 / 2 ^ 150) := by norm_num
    have h7 : (0 : ℚ) < 1 / 2 ^ 150 := by positivity
    rw [h5] at h2
    rw [h6]
    generalize (1 : ℚ) / 2 ^ 150 = ε at *
    generalize |(w.rounded.at i).real - (b.center.at i).real| = x at *
    generalize |(w.rounded.at i).real - w.along i| = x2 at *
    generalize |w.along i - (b.center.at i).real| = x3 at *
    linarith
  · intro i lo hi hr
    obtain ⟨mn, mx, s, r, ⟨q3, m3, e3⟩, ⟨q4, m4, e4⟩⟩ := BBox.fit_axis (raabb := fun _ => {}) hfin i (fun q hq => hlt q hq i)
    have d := s.dErr
    have hle : mn.val ≤ mx.val := by have := r q3 m3; omega
    have d2 : 2 ^ 24 * (b.dims.coord i) ≤ (2 ^ 24 + 1) * (mx.val - mn.val) := by
      change 2 ^ 24 * (b.dims.coord i - (mx.val - mn.val)).natAbs ≤ _ at d
      omega
    obtain ⟨w3, hw3, rfl⟩ := hmap q3 m3
    obtain ⟨w4, hw4, rfl⟩ := hmap q4 m4
    rw [e3, e4] at d2
    have d3 : (2 : ℚ) ^ 24 * (b.dims.at i).real ≤ (2 ^ 24 + 1) * ((w4.rounded.at i).real - (w3.rounded.at i).real) := by
      have d4 : ((2 ^ 24 * (b.dims.coord i) : Int) : ℚ) ≤ (((2 ^ 24 + 1) * (w4.rounded.coord i - w3.rounded.coord i) : Int) : ℚ) := by exact_mod_cast d2
      simp only [Int.cast_mul, Int.cast_add, Int.cast_sub, Int.cast_pow, Int.cast_ofNat, Int.cast_one, coord_real] at d4
      have P : (0 : ℚ) < 2 ^ 149 := by positivity
      rw [← mul_le_mul_iff_left₀ P]
      generalize (2 : ℚ) ^ 149 = u at *
      linarith
    have n3 := abs_le.1 (near w3 hw3 i).2
    have n4 := abs_le.1 (near w4 hw4 i).2
    have r3 := hr w3 hw3
    have r4 := hr w4 hw4
    have b3 := abs_le.1 (hb w3 hw3 i)
    have b4 := abs_le.1 (hb w4 hw4 i)
    have h6 : (1 : ℚ) / 2 ^ 147 = 8 * (1 / 2 ^ 150) := by norm_num
    have h7 : (0 : ℚ) < 1 / 2 ^ 150 := by positivity
    rw [h6]
    generalize (1 : ℚ) / 2 ^ 150 = ε at *
    linarith
  · refine Iff.trans t5 ?_
    have inj : ∀ (x y : V3f) i, x.coord i ≠ y.coord i ↔ (x.at i).real ≠ (y.at i).real := by
      intro x y i
      rw [not_iff_not, ← Int.cast_inj (α := ℚ), coord_real, coord_real, mul_left_inj' (by positivity)]
    constructor
    · intro h i
      obtain ⟨q, hq, r, hr, hne⟩ := h i
      obtain ⟨w, hw, rfl⟩ := hmap q hq
      obtain ⟨u, hu, rfl⟩ := hmap r hr
      exact ⟨w, hw, u, hu, (inj _ _ i).1 hne⟩
    · intro h i
      obtain ⟨w, hw, u, hu, hne⟩ := h i
      exact ⟨_, by rw [← List.map_cons]; exact List.mem_map_of_mem hw, _, by rw [← List.map_cons]; exact List.mem_map_of_mem hu, (inj _ _ i).2 hne⟩

/-- **C64.** The axis-aligned box around the nodes of a layer below a node: an invalid box, if there are none. Else, if their positions are finite and at most `M` from
the origin, it is finite; every position is within the box up to `M/2^22` (and `2^-148`); the box extends at most `M/2^21` (and `2^-147`) beyond any bounds of the positions;
and it is valid exactly if, on every axis, two of the positions differ after rounding to floats. -/
theorem C64_box (h : Reached ids ops g) (p : NodeId) (l : LayerId) (hl : l ≠ 0)
    (fuel : Nat) (hf : 0 < fuel ∧ ∀ kp, g.getLayerForNode p = some kp → kp.layer.toNat < fuel)
    (M : ℚ) (hM : M ≤ 2 ^ 126) (hfin : ∀ v, g.PlaceUnder p l v → v.Finite) (hb : ∀ v, g.PlaceUnder p l v → ∀ i, |v.along i| ≤ M)
    (sort : (Nat → Nat → Bool) → List Nat → List Nat) (t : Hull.Trig) :
    ∃ b, g.ancestorBox sort t fuel p l BBox.AABB = some (.ok b) ∧
      ((¬ ∃ n, g.Under p l n) → b.isValid = false) ∧
      ((∃ n, g.Under p l n) → b.type = BBox.AABB ∧ b.dims.FiniteAt ∧ b.center.FiniteAt ∧
        (∀ v, g.PlaceUnder p l v → ∀ i, |v.along i - (b.center.at i).real| ≤ (b.dims.at i).real / 2 + M / 2 ^ 22 + 1 / 2 ^ 148) ∧
        (∀ i lo hi, (∀ v, g.PlaceUnder p l v → lo ≤ v.along i ∧ v.along i ≤ hi) → (b.dims.at i).real ≤ hi - lo + M / 2 ^ 21 + 1 / 2 ^ 147) ∧
        (b.isValid = true ↔ ∀ i, ∃ v, g.PlaceUnder p l v ∧ ∃ w, g.PlaceUnder p l w ∧ (v.rounded.at i).real ≠ (w.rounded.at i).real)) := by
  obtain ⟨ns, vs, h1, _, h3, _, h5, h6⟩ := C64_points h p l hl fuel hf
  obtain ⟨e0, e1, _, _⟩ := h6 sort t
  cases vs with
  | nil =>
    refine ⟨_, e0 rfl _, fun _ => rfl, ?_⟩
    rintro ⟨n, hn⟩
    have := (h1 n).2 hn
    rw [List.length_eq_zero_iff.1 h3.symm] at this
    cases this
  | cons v vs' =>
    refine ⟨_, e1 v vs' rfl, ?_, ?_⟩
    · intro hno
      obtain ⟨n, hn, _⟩ := (h5 v).1 (List.mem_cons_self ..)
      exact absurd ⟨n, hn⟩ hno
    · intro _
      obtain ⟨t1, t2, t3, t4, t5, t6⟩ := fit_doubles (v := v) (vs := vs') (fun w hw => hfin w ((h5 w).1 hw)) hM (fun w hw => hb w ((h5 w).1 hw))
      refine ⟨t1, t2, t3, fun w hw => t4 w ((h5 w).2 hw), fun i lo hi hr => t5 i lo hi (fun w hw => hr w ((h5 w).1 hw)), t6.trans ?_⟩
      constructor
      · intro k i
        obtain ⟨w, hw, u, hu, hne⟩ := k i
        exact ⟨w, (h5 w).1 hw, u, (h5 u).1 hu, hne⟩
      · intro k i
        obtain ⟨w, hw, u, hu, hne⟩ := k i
        exact ⟨w, (h5 w).2 hw, u, (h5 u).2 hu, hne⟩

/-- C64: a yaw-aligned box is defined if the positions are finite and at most `2^124` from the origin. -/
theorem C64_yaw_defined (h : Reached ids ops g) (p : NodeId) (l : LayerId) (hl : l ≠ 0)
    (fuel : Nat) (hf : 0 < fuel ∧ ∀ kp, g.getLayerForNode p = some kp → kp.layer.toNat < fuel)
    (hfin : ∀ v, g.PlaceUnder p l v → v.Finite) (hb : ∀ v, g.PlaceUnder p l v → ∀ i, |v.along i| ≤ 2 ^ 124)
    (sort : (Nat → Nat → Bool) → List Nat → List Nat) (t : Hull.Trig) :
    ∃ b, g.ancestorBox sort t fuel p l BBox.RAABB = some (.ok b) := by
  obtain ⟨ns, vs, _, _, _, _, h5, h6⟩ := C64_points h p l hl fuel hf
  obtain ⟨e0, _, e2, _⟩ := h6 sort t
  by_cases hv : vs = []
  · exact ⟨_, e0 hv _⟩
  · rw [e2 hv]
    have near := fun w hw i => V3d.rounded_near (hfin w ((h5 w).1 hw)) (M := 2 ^ 124) (by norm_num) i (hb w ((h5 w).1 hw) i)
    have ht : Hull.Tidy (vs.map V3d.rounded) := by
      constructor
      · intro q hq i
        obtain ⟨w, hw, rfl⟩ := List.mem_map.1 hq
        exact (near w hw i).1
      · intro q hq i
        obtain ⟨w, hw, rfl⟩ := List.mem_map.1 hq
        have h1 := (near w hw i).2
        have h2 := hb w ((h5 w).1 hw) i
        have h3 := abs_sub_abs_le_abs_sub (w.rounded.at i).real (w.along i)
        have h4 : |(w.rounded.at i).real| ≤ 2 ^ 125 := by
          have : (2 : ℚ) ^ 124 + (2 ^ 124 / 2 ^ 24 + 1 / 2 ^ 150) ≤ 2 ^ 125 := by norm_num
          linarith
        have h5 := natAbs_coord_le h4
        rw [← pow_add] at h5
        have h6 : (((w.rounded.coord i).natAbs : Nat) : ℚ) ≤ ((2 ^ 274 : Nat) : ℚ) := by
          rw [Nat.cast_pow, Nat.cast_ofNat]; exact h5
        exact_mod_cast h6
    obtain ⟨b, e⟩ := (Hull.C63_defined sort t _ ht (by simpa using hv)).2
    exact ⟨b, by rw [e]⟩

theorem Graph.ancestorBox_yaw {sort : (Nat → Nat → Bool) → List Nat → List Nat} {t : Hull.Trig} {fuel : Nat} {p : NodeId} {l : LayerId} {n : NodeId} {ns : List NodeId} {ps : List V3f}
    (e1 : g.ancestorsOfLayer (.static l) fuel p = some (.ok (n :: ns))) (e2 : g.adaptorPoints (n :: ns) = .ok ps) :
    g.ancestorBox sort t fuel p l BBox.RAABB = some (Hull.extractRAABB sort t ps) := by
  unfold Graph.ancestorBox
  rw [e1]
  show some (g.extractNodes sort t (n :: ns) BBox.RAABB) = _
  unfold Graph.extractNodes
  rw [e2]
  rfl

namespace AncestorBox
open Sample

/-- A node at the given position (in doubles). -/
def place (x y z : F64) : NodeAttrs := .base { position := ⟨x, y, z⟩ }
/-- Layers of the sample. -/
def layers : List LayerId := [3, 4, 5]
/-- A room (layer 4) over three places (layer 3); one of these is also under another room. -/
def history : List Op :=
  [.emplaceNode 4 40 (place 0 0 0), .emplaceNode 4 41 (place 0 0 0), .emplaceNode 3 30 (place 0 0 0), .emplaceNode 3 31 (place 0x3FF0000000000000 0 0x4000000000000000),
   .emplaceNode 3 32 (place 0x3FF0000000000000 0x4000000000000000 0), .emplaceNode 5 50 (place 0 0 0), .insertEdge 40 30 none, .insertEdge 40 31 none, .insertEdge 40 32 none,
   .insertEdge 41 30 none, .insertEdge 50 40 none, .insertEdge 50 41 none]

/-- The graph built by the sample. -/
def graph : Graph := after layers history
theorem graph_reached : Reached layers history graph := after_reached (by decide) (by decide +kernel)

theorem graph_below {n : NodeId} (h : graph.Under 40 3 n) : n = 30 ∨ n = 31 ∨ n = 32 := by
  obtain ⟨out, e, hm, _⟩ := C46_descendants graph_reached 40 (.static 3) (by decide) 6 ⟨by decide, by
    intro kp hk
    have : (graph.getLayerForNode 40) = some (.static 4) := by decide +kernel
    rw [this] at hk; cases hk; decide⟩
  have e2 : graph.ancestorsOfLayer (.static 3) 6 40 = some (.ok [30, 31, 32]) := by decide +kernel
  rw [e2] at e
  cases e
  simpa using (hm n).2 h
theorem graph_places {v : V3d} (h : graph.PlaceUnder 40 3 v) :
    v = ⟨0, 0, 0⟩ ∨ v = ⟨0x3FF0000000000000, 0, 0x4000000000000000⟩ ∨ v = ⟨0x3FF0000000000000, 0x4000000000000000, 0⟩ := by
  obtain ⟨n, hn, hp⟩ := h
  have a : graph.getPosition 30 = .ok ⟨0, 0, 0⟩ := by decide +kernel
  have b : graph.getPosition 31 = .ok ⟨0x3FF0000000000000, 0, 0x4000000000000000⟩ := by decide +kernel
  have c : graph.getPosition 32 = .ok ⟨0x3FF0000000000000, 0x4000000000000000, 0⟩ := by decide +kernel
  rcases graph_below hn with rfl | rfl | rfl
  · rw [a] at hp; cases hp; exact .inl rfl
  · rw [b] at hp; cases hp; exact .inr (.inl rfl)
  · rw [c] at hp; cases hp; exact .inr (.inr rfl)

/-- The hypotheses of `C64_box` hold for the room 40 and the places below it, and the box is one by two by two, around (1/2, 1, 1). -/
example : Reached layers history graph ∧ (∀ v, graph.PlaceUnder 40 3 v → v.Finite) ∧ (∀ v, graph.PlaceUnder 40 3 v → ∀ i, |v.along i| ≤ 2) ∧
    graph.getLayerForNode 40 = some (.static 4) ∧
    graph.ancestorBox Hull.insertionSort ⟨fun _ _ => 0, fun _ => 0, fun _ => 0⟩ 6 40 3 BBox.AABB =
      some (.ok { type := BBox.AABB, dims := ⟨F32.one, F32.two, F32.two⟩, center := ⟨0x3F000000, F32.one, F32.one⟩ }) := by
  have z : F64.real 0 = 0 := by simp [F64.real, F64.magVal, F64.negative]
  have r1 : F64.real 0x3FF0000000000000 = 1 := by
    have h1 : F64.magVal 0x3FF0000000000000 = 2 ^ 1074 := by decide +kernel
    have h2 : F64.negative 0x3FF0000000000000 = false := by decide +kernel
    unfold F64.real
    rw [h1, h2, div_self (ne_of_gt F64.unitD_pos)]
    simp
  have r2 : F64.real 0x4000000000000000 = 2 := by
    have h1 : F64.magVal 0x4000000000000000 = 2 * 2 ^ 1074 := by decide +kernel
    have h2 : F64.negative 0x4000000000000000 = false := by decide +kernel
    unfold F64.real
    rw [h1, h2, Nat.cast_mul, mul_div_assoc, div_self (ne_of_gt F64.unitD_pos)]
    simp
  refine ⟨graph_reached, ?_, ?_, by decide +kernel, by decide +kernel⟩
  · intro v hv
    rcases graph_places hv with rfl | rfl | rfl <;> exact ⟨by decide +kernel, by decide +kernel, by decide +kernel⟩
  · intro v hv i
    rcases graph_places hv with rfl | rfl | rfl <;> cases i <;> simp only [V3d.along, z, r1, r2] <;> norm_num

/-- The positions of the places below the building, as floats. -/
def twice : List V3f := [⟨0, 0, 0⟩, ⟨F32.one, 0, F32.two⟩, ⟨F32.one, F32.two, 0⟩, ⟨0, 0, 0⟩]

/-- C64 (finding): a place in two rooms of a building is used twice; if it is the lowest, the yaw-aligned box of the building's places has a NaN centre, however `sort` and the trigonometric
functions work. -/
theorem C64_two_parents {sort : (Nat → Nat → Bool) → List Nat → List Nat} (hs : Sorts sort) (t : Hull.Trig) :
    ∃ b, graph.ancestorBox sort t 6 50 3 BBox.RAABB = some (.ok b) ∧ b.center.x.isNan = true ∧ b.center.y.isNan = true := by
  have e0 : graph.ancestorBox sort t 6 50 3 BBox.RAABB = some (Hull.extractRAABB sort t twice) := by
    have e1 : graph.ancestorsOfLayer (.static 3) 6 50 = some (.ok [30, 31, 32, 30]) := by decide +kernel
    have e2 : graph.adaptorPoints [30, 31, 32, 30] = .ok twice := by decide +kernel
    exact Graph.ancestorBox_yaw e1 e2
  rw [e0]
  have e : ∃ b, Hull.extractRAABB Hull.insertionSort ⟨fun _ _ => 0, fun _ => 0, fun _ => 0⟩ twice = .ok b :=
    (Hull.C63_defined _ _ _ (Hull.tidy_of (by decide +kernel) (by decide +kernel)) (by decide)).2
  obtain ⟨b, e⟩ := e
  have n : (match Hull.extractRAABB Hull.insertionSort ⟨fun _ _ => 0, fun _ => 0, fun _ => 0⟩ twice with
      | .ok b => b.center.x.isNan && b.center.y.isNan | _ => false) = true := by decide +kernel
  rw [e] at n
  obtain ⟨b', e', c⟩ := Hull.center_yaw _ t e
  refine ⟨b', ?_, by rw [c]; simpa using n⟩
  refine congrArg some (Eq.trans ?_ e')
  unfold Hull.extractRAABB
  rw [Hull.hull_unique hs (by decide +kernel) (by decide +kernel)]

/-- C64 (finding): nodes of the layer with id 0 are missed: the box below a node of the layer with id 1 is empty, although there is a child. -/
theorem C64_layer_zero_missed : ∃ ops g, Reached [0, 1] ops g ∧ g.Under 5 0 6 ∧ ∀ sort t fuel, 0 < fuel → ∀ type, g.ancestorBox sort t fuel 5 0 type = some (.ok {}) := by
  obtain ⟨ops, g, h1, h2, h3, h4⟩ := Descend.C46_layer_zero_missed
  refine ⟨ops, g, h1, ⟨h3, h2⟩, ?_⟩
  intro sort t fuel hf type
  unfold Graph.ancestorBox
  rw [h4 fuel hf]
  rfl

end AncestorBox
end Verif
