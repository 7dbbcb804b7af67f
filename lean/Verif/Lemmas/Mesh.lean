import Verif.Model.MeshOps
/-! # Lemmas about editing meshes -/

namespace Verif

theorem length_resizeList {α : Type} (l : List α) (n : Nat) (v : α) : (resizeList l n v).length = n := by
  simp [resizeList]; omega

theorem idx_toNat {n : Nat} (h : n < 2 ^ 64) : (UInt64.ofNat n).toNat = n := UInt64.toNat_ofNat_of_lt' h

namespace Mesh

/-- Every enabled attribute has one entry per vertex; the others have none. -/
structure Aligned (m : Mesh) : Prop where
  size : m.points.length < 2 ^ 64
  colors : m.colors.length = if m.hasColors then m.points.length else 0
  stamps : m.stamps.length = if m.hasTimestamps then m.points.length else 0
  labels : m.labels.length = if m.hasLabels then m.points.length else 0
  firstSeen : m.firstSeen.length = if m.hasFirstSeen then m.points.length else 0

/-- the selected entries of an attribute -/
def sel {α : Type} (flag : Bool) (l : List α) (K : List Nat) : List α := if flag then K.filterMap (fun i => l[i]?) else []

theorem sel_get {α : Type} (l : List α) (K : List Nat) (h : ∀ i ∈ K, i < l.length) : (sel true l K).length = K.length ∧
    ∀ j : Nat, (sel true l K)[j]? = K[j]?.bind (fun i => l[i]?) := by
  unfold sel
  simp only [if_true]
  induction K with
  | nil => simp
  | cons i K ih =>
    obtain ⟨h1, h2⟩ := ih (fun i hi => h i (List.mem_cons_of_mem _ hi))
    have hi := h i (List.mem_cons_self ..)
    have e : l[i]? = some l[i] := List.getElem?_eq_getElem hi
    rw [List.filterMap_cons, e]
    refine ⟨by simp [h1], fun j => ?_⟩
    cases j with
    | zero => simp [e]
    | succ j => simpa using h2 j

theorem pushIf_sel {α : Type} (flag : Bool) (l : List α) (K : List Nat) (n i : Nat) (hl : l.length = if flag then n else 0) (hi : i < n) :
    pushIf flag (sel flag l K) l i = .ok (sel flag l (K ++ [i])) := by
  unfold pushIf sel
  cases flag with
  | false => rfl
  | true =>
    simp only [if_true] at *
    have e : l[i]? = some l[i] := List.getElem?_eq_getElem (by omega)
    rw [e]
    simp [Res.deref, e]

/-- what has been copied when the vertices in `K` have been kept -/
structure Copied (m : Mesh) (K : List Nat) (k : Kept) : Prop where
  points : k.points = sel true m.points K
  colors : k.colors = sel m.hasColors m.colors K
  stamps : k.stamps = sel m.hasTimestamps m.stamps K
  labels : k.labels = sel m.hasLabels m.labels K
  firstSeen : k.firstSeen = sel m.hasFirstSeen m.firstSeen K
  next : k.next = UInt64.ofNat K.length
  map : ∀ a v, k.oldToNew.find? a = some v ↔ ∃ j, K[j]? = some a.toNat ∧ v = UInt64.ofNat j

/-- the vertices below `k` that are not to be erased -/
def keptBelow (s : OSet UInt64) (k : Nat) : List Nat := (List.range k).filter (fun i => !s.contains (UInt64.ofNat i))

theorem mem_keptBelow {s : OSet UInt64} {k i : Nat} : i ∈ keptBelow s k ↔ i < k ∧ s.contains (UInt64.ofNat i) = false := by
  simp [keptBelow]

theorem keptBelow_succ (s : OSet UInt64) (k : Nat) : keptBelow s (k + 1) =
    if s.contains (UInt64.ofNat k) = true then keptBelow s k else keptBelow s k ++ [k] := by
  unfold keptBelow
  rw [List.range_succ, List.filter_append]
  cases h : s.contains (UInt64.ofNat k) <;> simp [h]

theorem keptBelow_length (s : OSet UInt64) (k : Nat) : (keptBelow s k).length ≤ k := by
  have := List.length_filter_le (fun i => !s.contains (UInt64.ofNat i)) (List.range k)
  rw [List.length_range] at this
  exact this

theorem keep_step {m : Mesh} (ha : m.Aligned) (s : OSet UInt64) {n : Nat} (hn : n < m.points.length) {k : Kept} (h : Copied m (keptBelow s n) k) :
    ∃ k', m.keepVertex s k n = .ok k' ∧ Copied m (keptBelow s (n + 1)) k' := by
  rw [keptBelow_succ]
  unfold keepVertex
  by_cases hs : s.contains (UInt64.ofNat n) = true
  · simp only [hs, if_true]
    exact ⟨k, rfl, h⟩
  · rw [if_neg hs, if_neg hs]
    rw [h.points, h.colors, h.stamps, h.labels, h.firstSeen]
    rw [pushIf_sel true m.points _ m.points.length n rfl hn, pushIf_sel _ _ _ _ n ha.colors hn, pushIf_sel _ _ _ _ n ha.stamps hn,
      pushIf_sel _ _ _ _ n ha.labels hn, pushIf_sel _ _ _ _ n ha.firstSeen hn]
    refine ⟨_, rfl, rfl, rfl, rfl, rfl, rfl, ?_, ?_⟩
    · rw [h.next, List.length_append]
      rw [← UInt64.toNat_inj]
      simp [UInt64.toNat_add]
    · intro a v
      simp only
      rw [OMap.find?_insert]
      have hsz := ha.size
      have hnn : (UInt64.ofNat n).toNat = n := idx_toNat (by omega)
      have hnk : n ∉ keptBelow s n := fun hm => by have := (mem_keptBelow.1 hm).1; omega
      by_cases hae : a = UInt64.ofNat n
      · subst hae
        simp only [if_true, Option.some.injEq]
        rw [h.next, hnn]
        constructor
        · intro e
          exact ⟨(keptBelow s n).length, by simp, e.symm⟩
        · rintro ⟨j, hj, rfl⟩
          by_cases hjl : j < (keptBelow s n).length
          · rw [List.getElem?_append_left hjl] at hj
            exact absurd (List.mem_of_getElem? hj) hnk
          · rw [List.getElem?_append_right (by omega)] at hj
            have : j = (keptBelow s n).length := by
              cases e : j - (keptBelow s n).length with
              | zero => exact Nat.le_antisymm (Nat.sub_eq_zero_iff_le.1 e) (by omega)
              | succ q => rw [e] at hj; simp at hj
            rw [this]
      · have hne : ¬ (UInt64.ofNat n = a) := fun e => hae e.symm
        simp only [hne, if_false]
        rw [h.map]
        have han : a.toNat ≠ n := fun e => hae (by rw [← UInt64.toNat_inj, hnn, e])
        constructor
        · rintro ⟨j, hj, rfl⟩
          exact ⟨j, by rw [List.getElem?_append_left (List.getElem?_eq_some_iff.1 hj).1]; exact hj, rfl⟩
        · rintro ⟨j, hj, rfl⟩
          refine ⟨j, ?_, rfl⟩
          by_cases hjl : j < (keptBelow s n).length
          · rwa [List.getElem?_append_left hjl] at hj
          · rw [List.getElem?_append_right (by omega)] at hj
            cases e : j - (keptBelow s n).length with
            | zero => rw [e] at hj; simp at hj; exact absurd hj.symm han
            | succ q => rw [e] at hj; simp at hj

theorem keep_all {m : Mesh} (ha : m.Aligned) (s : OSet UInt64) (n : Nat) (hn : n ≤ m.points.length) :
    ∃ k, foldRes (m.keepVertex s) {} (List.range n) = .ok k ∧ Copied m (keptBelow s n) k := by
  induction n with
  | zero =>
    refine ⟨{}, rfl, ?_⟩
    constructor <;> simp [keptBelow, sel]
  | succ n ih =>
    obtain ⟨k, h1, h2⟩ := ih (by omega)
    obtain ⟨k', h3, h4⟩ := keep_step ha s (by omega) h2
    refine ⟨k', ?_, h4⟩
    rw [List.range_succ, foldRes_append, h1, Res.bind_ok, foldRes_cons, h3]
    rfl

theorem reindexFaces_spec {K : List Nat} {t : OMap UInt64 UInt64} (hK : K.length < 2 ^ 64)
    (h : ∀ a v, t.find? a = some v ↔ ∃ j, K[j]? = some a.toNat ∧ v = UInt64.ofNat j) (fs : List Face) :
    (reindexFaces t fs).map (fun f => (K[f.1.toNat]?, K[f.2.1.toNat]?, K[f.2.2.toNat]?)) =
      (fs.filter (fun f => decide (f.1.toNat ∈ K ∧ f.2.1.toNat ∈ K ∧ f.2.2.toNat ∈ K))).map
        (fun f => (some f.1.toNat, some f.2.1.toNat, some f.2.2.toNat)) := by
  have hsome : ∀ {a v}, t.find? a = some v → K[v.toNat]? = some a.toNat ∧ a.toNat ∈ K := by
    intro a v hv
    obtain ⟨j, hj, rfl⟩ := (h a v).1 hv
    have := (List.getElem?_eq_some_iff.1 hj).1
    rw [idx_toNat (by omega)]
    exact ⟨hj, List.mem_of_getElem? hj⟩
  have hnone : ∀ {a}, t.find? a = none → a.toNat ∉ K := by
    intro a hv hm
    obtain ⟨j, hj⟩ := List.getElem?_of_mem hm
    have := (h a (UInt64.ofNat j)).2 ⟨j, hj, rfl⟩
    rw [hv] at this; cases this
  induction fs with
  | nil => rfl
  | cons f fs ih =>
    unfold reindexFaces reindex
    rw [List.filter_cons]
    cases h1 : t.find? f.1 with
    | none => simpa [hnone h1] using ih
    | some a =>
      cases h2 : t.find? f.2.1 with
      | none => simpa [hnone h2] using ih
      | some b =>
        cases h3 : t.find? f.2.2 with
        | none => simpa [hnone h3] using ih
        | some c =>
          simp only [(hsome h1).2, (hsome h2).2, (hsome h3).2, and_self, decide_true, if_true, List.map_cons, (hsome h1).1, (hsome h2).1, (hsome h3).1]
          rw [ih]

theorem length_sel {α : Type} (flag : Bool) (l : List α) (K : List Nat) (n : Nat) (hl : l.length = if flag then n else 0) (hK : ∀ i ∈ K, i < n) :
    (sel flag l K).length = if flag then K.length else 0 := by
  cases flag with
  | false => rfl
  | true => exact (sel_get l K (fun i hi => by rw [hl]; exact hK i hi)).1

end Mesh
end Verif
