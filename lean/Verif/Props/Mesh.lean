import Verif.Lemmas.Mesh
/-! # C39, C40: editing meshes -/

namespace Verif
namespace Mesh

/-- Everything the mesh says about a vertex. -/
structure Vertex where
  pos : V3f
  color : Option Color
  stamp : Option UInt64
  firstSeen : Option UInt64
  label : Option UInt32
  deriving DecidableEq

/-- The `i`-th vertex. -/
def vertex (m : Mesh) (i : Nat) : Option Vertex :=
  m.points[i]?.map (fun p => ⟨p, m.colors[i]?, m.stamps[i]?, m.firstSeen[i]?, m.labels[i]?⟩)

/-- The corners of a face all are vertices in `K`. -/
def Face.within (K : List Nat) (f : Face) : Bool := decide (f.1.toNat ∈ K ∧ f.2.1.toNat ∈ K ∧ f.2.2.toNat ∈ K)

/-- The faces only have corners that exist. -/
def FacesValid (m : Mesh) : Prop :=
  ∀ f ∈ m.faces, f.1.toNat < m.points.length ∧ f.2.1.toNat < m.points.length ∧ f.2.2.toNat < m.points.length

/-- `m'` is `m` without the vertices outside `K`: the vertices in `K` are there, in order, with all their attributes; the faces with all
corners in `K` are there, in order, and their corners are the same vertices as before. -/
structure Restricted (m : Mesh) (K : List Nat) (m' : Mesh) : Prop where
  flags : m'.hasColors = m.hasColors ∧ m'.hasTimestamps = m.hasTimestamps ∧ m'.hasLabels = m.hasLabels ∧ m'.hasFirstSeen = m.hasFirstSeen
  count : m'.points.length = K.length
  vertex : ∀ j i : Nat, K[j]? = some i → m'.vertex j = m.vertex i
  faces : m'.faces.map (fun f => (K[f.1.toNat]?, K[f.2.1.toNat]?, K[f.2.2.toNat]?)) =
    (m.faces.filter (Face.within K)).map (fun f => (some f.1.toNat, some f.2.1.toNat, some f.2.2.toNat))

theorem sel_get' {α : Type} (flag : Bool) (l : List α) (K : List Nat) (n : Nat) (hl : l.length = if flag then n else 0) (hK : ∀ i ∈ K, i < n)
    {i j : Nat} (h : K[j]? = some i) : (sel flag l K)[j]? = l[i]? := by
  cases flag with
  | false =>
    have : l = [] := List.length_eq_zero_iff.1 hl
    simp [sel, this]
  | true => rw [(sel_get l K (fun i hi => by rw [hl]; exact hK i hi)).2 j, h]; rfl

theorem erase_spec {m : Mesh} (ha : m.Aligned) (s : OSet UInt64) (hs : s.size ≤ m.points.length) :
    ∃ m', m.eraseVertices s = .ok m' ∧ m'.Aligned ∧ Restricted m (keptBelow s m.points.length) m' := by
  obtain ⟨k, h1, h2⟩ := keep_all ha s m.points.length (Nat.le_refl _)
  have hK : ∀ i ∈ keptBelow s m.points.length, i < m.points.length := fun i hi => (mem_keptBelow.1 hi).1
  have hlen := keptBelow_length s m.points.length
  unfold eraseVertices
  rw [if_neg (by omega), h1, Res.bind_ok]
  have hp := length_sel true m.points _ m.points.length rfl hK
  simp only [if_true] at hp
  have hsz := ha.size
  refine ⟨_, rfl, ⟨?_, ?_, ?_, ?_, ?_⟩, ⟨rfl, rfl, rfl, rfl⟩, ?_, ?_, ?_⟩
  · show k.points.length < 2 ^ 64
    rw [h2.points, hp]; omega
  · show k.colors.length = if m.hasColors then k.points.length else 0
    rw [h2.points, h2.colors, hp, length_sel _ _ _ _ ha.colors hK]
  · show k.stamps.length = if m.hasTimestamps then k.points.length else 0
    rw [h2.points, h2.stamps, hp, length_sel _ _ _ _ ha.stamps hK]
  · show k.labels.length = if m.hasLabels then k.points.length else 0
    rw [h2.points, h2.labels, hp, length_sel _ _ _ _ ha.labels hK]
  · show k.firstSeen.length = if m.hasFirstSeen then k.points.length else 0
    rw [h2.points, h2.firstSeen, hp, length_sel _ _ _ _ ha.firstSeen hK]
  · show k.points.length = _
    rw [h2.points, hp]
  · intro j i hj
    unfold Mesh.vertex
    simp only
    rw [h2.points, h2.colors, h2.stamps, h2.labels, h2.firstSeen]
    rw [sel_get' true m.points _ _ rfl hK hj, sel_get' _ _ _ _ ha.colors hK hj, sel_get' _ _ _ _ ha.stamps hK hj,
      sel_get' _ _ _ _ ha.labels hK hj, sel_get' _ _ _ _ ha.firstSeen hK hj]
  · exact reindexFaces_spec (by omega) h2.map m.faces

/-- after a restriction all faces are valid -/
theorem Restricted.valid {m m' : Mesh} {K : List Nat} (h : Restricted m K m') : m'.FacesValid := by
  intro f hf
  have : (K[f.1.toNat]?, K[f.2.1.toNat]?, K[f.2.2.toNat]?) ∈ (m.faces.filter (Face.within K)).map
      (fun f => (some f.1.toNat, some f.2.1.toNat, some f.2.2.toNat)) := by
    rw [← h.faces]; exact List.mem_map_of_mem (f := fun f : Face => (K[f.1.toNat]?, K[f.2.1.toNat]?, K[f.2.2.toNat]?)) hf
  obtain ⟨g, _, e⟩ := List.mem_map.1 this
  simp only [Prod.mk.injEq] at e
  rw [h.count]
  exact ⟨(List.getElem?_eq_some_iff.1 e.1.symm).1, (List.getElem?_eq_some_iff.1 e.2.1.symm).1, (List.getElem?_eq_some_iff.1 e.2.2.symm).1⟩

/-! ### eraseFaces -/

theorem keepFaces_spec (s : OSet UInt64) (fs : List Face) : ∀ o, keepFaces s o fs = (List.range fs.length).filterMap
    (fun i => if s.contains (UInt64.ofNat (o + i)) = true then none else fs[i]?) := by
  induction fs with
  | nil => intro o; rfl
  | cons f fs ih =>
    intro o
    rw [List.length_cons, List.range_succ_eq_map, List.filterMap_cons, List.filterMap_map]
    unfold keepFaces
    have e : ((fun i => if s.contains (UInt64.ofNat (o + i)) = true then none else (f :: fs)[i]?) ∘ Nat.succ) =
        (fun i => if s.contains (UInt64.ofNat (o + 1 + i)) = true then none else fs[i]?) := by
      funext i
      simp only [Function.comp, Nat.succ_eq_add_one, List.getElem?_cons_succ]
      rw [show o + (i + 1) = o + 1 + i by omega]
    rw [e, ih (o + 1)]
    by_cases h : s.contains (UInt64.ofNat o) = true
    · simp only [Nat.add_zero, h, if_true]
    · simp only [Nat.add_zero, h, if_false, Bool.false_eq_true, List.getElem?_cons_zero]

theorem contains_erase' (s : OSet UInt64) (a b : UInt64) : (s.erase a).contains b = true ↔ s.contains b = true ∧ b ≠ a := by
  rw [OMap.contains_erase]
  by_cases h : a = b
  · subst h; simp
  · simp [h, Ne.symm h]

theorem contains_range (n : Nat) (a : UInt64) : ((List.range n).foldl (fun (s : OSet UInt64) i => s.add (UInt64.ofNat i)) ∅).contains a = true ↔
    ∃ i, i < n ∧ a = UInt64.ofNat i := by
  induction n with
  | zero => simp; rfl
  | succ n ih =>
    rw [List.range_succ, List.foldl_append]
    simp only [List.foldl_cons, List.foldl_nil]
    rw [OMap.contains_add]
    by_cases h : UInt64.ofNat n = a
    · subst h
      simp only [decide_true, Bool.true_or, true_iff]
      exact ⟨n, by omega, rfl⟩
    · rw [decide_eq_false h, Bool.false_or, ih]
      constructor
      · rintro ⟨i, hi, e⟩; exact ⟨i, by omega, e⟩
      · rintro ⟨i, hi, e⟩
        refine ⟨i, ?_, e⟩
        rcases Nat.lt_succ_iff_lt_or_eq.1 hi with h1 | h1
        · exact h1
        · subst h1; exact absurd e.symm h

theorem contains_unused (n : Nat) (fs : List Face) (a : UInt64) : (unusedVertices n fs).contains a = true ↔
    (∃ i, i < n ∧ a = UInt64.ofNat i) ∧ ∀ f ∈ fs, a ≠ f.1 ∧ a ≠ f.2.1 ∧ a ≠ f.2.2 := by
  unfold unusedVertices
  rw [← contains_range]
  generalize (List.range n).foldl (fun (s : OSet UInt64) i => s.add (UInt64.ofNat i)) ∅ = s
  induction fs generalizing s with
  | nil => simp
  | cons f fs ih =>
    rw [List.foldl_cons, ih]
    simp only [contains_erase', List.mem_cons, forall_eq_or_imp]
    constructor
    · rintro ⟨⟨⟨⟨h, h1⟩, h2⟩, h3⟩, h4⟩; exact ⟨h, ⟨h1, h2, h3⟩, h4⟩
    · rintro ⟨h, ⟨h1, h2, h3⟩, h4⟩; exact ⟨⟨⟨⟨h, h1⟩, h2⟩, h3⟩, h4⟩

theorem unused_size (n : Nat) (fs : List Face) : (unusedVertices n fs).size ≤ n := by
  rw [← OMap.length_keys]
  have h : (unusedVertices n fs).keys ⊆ (List.range n).map UInt64.ofNat := by
    intro a ha
    obtain ⟨⟨i, hi, e⟩, _⟩ := (contains_unused n fs a).1 (OMap.mem_keys.1 ha)
    exact List.mem_map.2 ⟨i, List.mem_range.2 hi, e.symm⟩
  have := (OMap.keys_nodup (unusedVertices n fs)).length_le_of_subset h
  simpa using this

end Mesh

open Mesh

/-- **C39**, vertices. Erasing vertices keeps the others, in order, with their attributes, keeps exactly the faces whose corners all
remain, and lets their corners denote the same vertices as before. A set with more indices than the mesh has vertices is refused with an
exception; the indices need not be valid otherwise. -/
theorem C39_erase_vertices {m : Mesh} (ha : m.Aligned) (s : OSet UInt64) :
    (s.size > m.points.length → m.eraseVertices s = .throw .lengthError) ∧
    (s.size ≤ m.points.length → ∃ m' K, m.eraseVertices s = .ok m' ∧ m'.Aligned ∧ m'.FacesValid ∧ Restricted m K m' ∧ K.Pairwise (· < ·) ∧
      ∀ i, i ∈ K ↔ i < m.points.length ∧ s.contains (UInt64.ofNat i) = false) := by
  constructor
  · intro h; unfold eraseVertices; rw [if_pos h]
  · intro h
    obtain ⟨m', h1, h2, h3⟩ := erase_spec ha s h
    exact ⟨m', _, h1, h2, h3.valid, h3, List.Pairwise.filter _ List.pairwise_lt_range, fun i => mem_keptBelow⟩

/-- **C39**, faces. Erasing faces keeps exactly the faces not listed, in order. If asked to, it also erases exactly the vertices that no
remaining face uses; then the remaining faces (all of them, if their corners exist) have the same corners as before. A set with more
indices than the mesh has faces is refused with an exception. -/
theorem C39_erase_faces {m : Mesh} (ha : m.Aligned) (s : OSet UInt64) (upd : Bool) :
    (s.size > m.faces.length → m.eraseFaces s upd = .throw .lengthError) ∧
    (s.size ≤ m.faces.length → ∃ m' fs, m.eraseFaces s upd = .ok m' ∧ m'.Aligned ∧
      fs = (List.range m.faces.length).filterMap (fun i => if s.contains (UInt64.ofNat i) = true then none else m.faces[i]?) ∧
      (upd = false → m' = { m with faces := fs }) ∧
      (upd = true → ∃ K, Restricted { m with faces := fs } K m' ∧ K.Pairwise (· < ·) ∧
        (∀ i, i ∈ K ↔ i < m.points.length ∧ ∃ f ∈ fs, i = f.1.toNat ∨ i = f.2.1.toNat ∨ i = f.2.2.toNat) ∧
        (m.FacesValid → m'.faces.map (fun f => (K[f.1.toNat]?, K[f.2.1.toNat]?, K[f.2.2.toNat]?)) =
          fs.map (fun f => (some f.1.toNat, some f.2.1.toNat, some f.2.2.toNat))))) := by
  have hk := keepFaces_spec s m.faces 0
  simp only [Nat.zero_add] at hk
  constructor
  · intro h; unfold eraseFaces; rw [if_pos h]
  · intro h
    unfold eraseFaces
    rw [if_neg (by omega), hk]
    generalize hfs : (List.range m.faces.length).filterMap (fun i => if s.contains (UInt64.ofNat i) = true then none else m.faces[i]?) = fs
    have ha' : Aligned { m with faces := fs } := ⟨ha.size, ha.colors, ha.stamps, ha.labels, ha.firstSeen⟩
    cases upd with
    | false => exact ⟨_, fs, rfl, ha', rfl, fun _ => rfl, fun h => by cases h⟩
    | true =>
      obtain ⟨m', h1, h2, h3⟩ := erase_spec ha' (unusedVertices m.points.length fs) (unused_size _ _)
      have hmem : ∀ i, i ∈ keptBelow (unusedVertices m.points.length fs) m.points.length ↔
          i < m.points.length ∧ ∃ f ∈ fs, i = f.1.toNat ∨ i = f.2.1.toNat ∨ i = f.2.2.toNat := by
        intro i
        rw [mem_keptBelow]
        refine and_congr_right (fun hi => ?_)
        rw [← Bool.not_eq_true, contains_unused]
        have hsz := ha.size
        have hi' : (UInt64.ofNat i).toNat = i := idx_toNat (by omega)
        have hne : ∀ a : UInt64, UInt64.ofNat i = a ↔ i = a.toNat := fun a => by rw [← UInt64.toNat_inj, hi']
        constructor
        · intro hn
          refine Classical.byContradiction (fun hc => hn ⟨⟨i, hi, rfl⟩, fun f hf => ⟨fun e => ?_, fun e => ?_, fun e => ?_⟩⟩)
          · exact hc ⟨f, hf, .inl ((hne _).1 e)⟩
          · exact hc ⟨f, hf, .inr (.inl ((hne _).1 e))⟩
          · exact hc ⟨f, hf, .inr (.inr ((hne _).1 e))⟩
        · rintro ⟨f, hf, h⟩ ⟨_, hn⟩
          obtain ⟨n1, n2, n3⟩ := hn f hf
          rcases h with h | h | h
          · exact n1 ((hne _).2 h)
          · exact n2 ((hne _).2 h)
          · exact n3 ((hne _).2 h)
      refine ⟨m', fs, h1, h2, rfl, (fun h => by cases h), fun _ => ⟨_, h3, List.Pairwise.filter _ List.pairwise_lt_range, hmem, fun hv => ?_⟩⟩
      rw [h3.faces]
      congr 1
      refine List.filter_eq_self.2 (fun f hf => ?_)
      have hfm : f ∈ m.faces := by
        rw [← hfs] at hf
        obtain ⟨i, _, hi⟩ := List.mem_filterMap.1 hf
        split at hi
        · cases hi
        · exact List.mem_of_getElem? hi
      obtain ⟨v1, v2, v3⟩ := hv f hfm
      unfold Face.within
      rw [decide_eq_true_eq]
      exact ⟨(hmem _).2 ⟨v1, f, hf, .inl rfl⟩, (hmem _).2 ⟨v2, f, hf, .inr (.inl rfl)⟩, (hmem _).2 ⟨v3, f, hf, .inr (.inr rfl)⟩⟩

namespace Mesh

theorem ite_zero {b : Bool} : 0 = if b = true then 0 else 0 := by cases b <;> rfl

theorem putAt_cases {α : Type} (l : List α) (i : UInt64) (x : α) : (i.toNat < l.length ∧ putAt l i x = .ok (l.set i.toNat x)) ∨
    putAt l i x = .throw .outOfRange := by
  unfold putAt
  split
  · exact .inl ⟨by assumption, rfl⟩
  · exact .inr rfl

/-- Does a call keep all faces valid? Shrinking the vertices, adding faces to a mesh without vertices and writing a face with a corner that does
not exist do not. -/
def Call.keepsFaces (m : Mesh) : Call → Prop
  | .resizeVertices n _ => m.points.length ≤ n.toNat
  | .resizeFaces n => n.toNat ≤ m.faces.length ∨ 0 < m.points.length
  | .setFace _ f => f.1.toNat < m.points.length ∧ f.2.1.toNat < m.points.length ∧ f.2.2.toNat < m.points.length
  | _ => True

instance (m : Mesh) (c : Call) : Decidable (c.keepsFaces m) := by cases c <;> unfold Call.keepsFaces <;> infer_instance

theorem step_aligned {m : Mesh} (ha : m.Aligned) (c : Call) : (∃ m', m.step c = .ok m' ∧ m'.Aligned ∧ m'.hasColors = m.hasColors ∧
    m'.hasTimestamps = m.hasTimestamps ∧ m'.hasLabels = m.hasLabels ∧ m'.hasFirstSeen = m.hasFirstSeen ∧
    (m.FacesValid → c.keepsFaces m → m'.FacesValid)) ∨ ∃ e, m.step c = .throw e := by
  have hput : ∀ {α : Type} (l : List α) (i : UInt64) (x : α) (f : List α → Mesh), (∀ l', l'.length = l.length → (f l').Aligned ∧
      (f l').hasColors = m.hasColors ∧ (f l').hasTimestamps = m.hasTimestamps ∧ (f l').hasLabels = m.hasLabels ∧
      (f l').hasFirstSeen = m.hasFirstSeen) → (m.FacesValid → c.keepsFaces m → i.toNat < l.length → (f (l.set i.toNat x)).FacesValid) →
      (∃ m', (putAt l i x >>= fun l => .ok (f l)) = .ok m' ∧ m'.Aligned ∧ m'.hasColors = m.hasColors ∧
        m'.hasTimestamps = m.hasTimestamps ∧ m'.hasLabels = m.hasLabels ∧ m'.hasFirstSeen = m.hasFirstSeen ∧
        (m.FacesValid → c.keepsFaces m → m'.FacesValid)) ∨ ∃ e, (putAt l i x >>= fun l => .ok (f l)) = .throw e := by
    intro α l i x f hf hv
    rcases putAt_cases l i x with ⟨hi, e⟩ | e
    · rw [e]
      obtain ⟨h1, h2, h3, h4, h5⟩ := hf (l.set i.toNat x) (by simp)
      exact .inl ⟨_, rfl, h1, h2, h3, h4, h5, fun a b => hv a b hi⟩
    · rw [e]; exact .inr ⟨_, rfl⟩
  cases c with
  | clear => exact .inl ⟨_, rfl, ⟨by simp [Mesh.clear], ite_zero, ite_zero, ite_zero, ite_zero⟩, rfl, rfl, rfl, rfl, fun _ _ f hf => by cases hf⟩
  | clone => exact .inl ⟨_, rfl, ha, rfl, rfl, rfl, rfl, fun h _ => h⟩
  | transform f =>
    refine .inl ⟨_, rfl, ?_, rfl, rfl, rfl, rfl, ?_⟩
    · constructor <;> simp only [transform, List.length_map]
      · exact ha.size
      · exact ha.colors
      · exact ha.stamps
      · exact ha.labels
      · exact ha.firstSeen
    · intro h _; simpa [transform, FacesValid] using h
  | resizeVertices n j =>
    refine .inl ⟨_, rfl, ?_, rfl, rfl, rfl, rfl, ?_⟩
    · have key : ∀ {α : Type} (b : Bool) (l : List α) (v : α), l.length = (if b then m.points.length else 0) →
          (if b then resizeList l n.toNat v else l).length = if b then n.toNat else 0 := by
        intro α b l v h
        cases b
        · exact h
        · simp [length_resizeList]
      constructor <;> simp only [resizeVertices, length_resizeList]
      · exact UInt64.toNat_lt n
      · exact key _ _ _ ha.colors
      · exact key _ _ _ ha.stamps
      · exact key _ _ _ ha.labels
      · exact key _ _ _ ha.firstSeen
    · intro h hk f hf
      obtain ⟨h1, h2, h3⟩ := h f hf
      have hk : m.points.length ≤ n.toNat := hk
      simp only [resizeVertices, length_resizeList]
      omega
  | resizeFaces n =>
    refine .inl ⟨_, rfl, ⟨ha.size, ha.colors, ha.stamps, ha.labels, ha.firstSeen⟩, rfl, rfl, rfl, rfl, ?_⟩
    intro h hk f hf
    simp only [resizeFaces, resizeList, List.mem_append, List.mem_replicate] at hf ⊢
    rcases hf with hf | ⟨hz, rfl⟩
    · exact h f (List.mem_of_mem_take hf)
    · rcases hk with hk | hk
      · omega
      · exact ⟨hk, hk, hk⟩
  | setPos i x => exact hput m.points i x (fun l => { m with points := l }) (fun l' hl => ⟨⟨by simp only [hl]; exact ha.size, by simp only [hl]; exact ha.colors,
      by simp only [hl]; exact ha.stamps, by simp only [hl]; exact ha.labels, by simp only [hl]; exact ha.firstSeen⟩, rfl, rfl, rfl, rfl⟩) (fun h _ _ f hf => by simpa using h f hf)
  | setColor i x => exact hput m.colors i x (fun l => { m with colors := l }) (fun l' hl => ⟨⟨ha.size, hl.trans ha.colors, ha.stamps, ha.labels, ha.firstSeen⟩, rfl, rfl, rfl, rfl⟩) (fun h _ _ => h)
  | setTimestamp i x => exact hput m.stamps i x (fun l => { m with stamps := l }) (fun l' hl => ⟨⟨ha.size, ha.colors, hl.trans ha.stamps, ha.labels, ha.firstSeen⟩, rfl, rfl, rfl, rfl⟩) (fun h _ _ => h)
  | setFirstSeenTimestamp i x => exact hput m.firstSeen i x (fun l => { m with firstSeen := l }) (fun l' hl => ⟨⟨ha.size, ha.colors, ha.stamps, ha.labels, hl.trans ha.firstSeen⟩, rfl, rfl, rfl, rfl⟩) (fun h _ _ => h)
  | setLabel i x => exact hput m.labels i x (fun l => { m with labels := l }) (fun l' hl => ⟨⟨ha.size, ha.colors, ha.stamps, hl.trans ha.labels, ha.firstSeen⟩, rfl, rfl, rfl, rfl⟩) (fun h _ _ => h)
  | setFace i x => exact hput m.faces i x (fun l => { m with faces := l }) (fun l' hl => ⟨⟨ha.size, ha.colors, ha.stamps, ha.labels, ha.firstSeen⟩, rfl, rfl, rfl, rfl⟩) (fun h hk _ f hf => by
        rcases List.mem_or_eq_of_mem_set hf with hf | rfl
        · exact h f hf
        · exact hk)
  | eraseVertices s =>
    obtain ⟨h1, h2⟩ := C39_erase_vertices ha s
    by_cases h : s.size ≤ m.points.length
    · obtain ⟨m', K, e, a1, a2, a3, _⟩ := h2 h
      exact .inl ⟨m', e, a1, a3.flags.1, a3.flags.2.1, a3.flags.2.2.1, a3.flags.2.2.2, fun _ _ => a2⟩
    · exact .inr ⟨_, h1 (by omega)⟩
  | eraseFaces s u =>
    obtain ⟨h1, h2⟩ := C39_erase_faces ha s u
    by_cases h : s.size ≤ m.faces.length
    · obtain ⟨m', fs, e, a1, a2, a3, a4⟩ := h2 h
      cases u with
      | false =>
        have := a3 rfl
        refine .inl ⟨m', e, a1, ?_⟩
        rw [this]
        refine ⟨rfl, rfl, rfl, rfl, fun hv _ f hf => hv f ?_⟩
        simp only [a2] at hf
        obtain ⟨i, _, hi⟩ := List.mem_filterMap.1 hf
        split at hi
        · cases hi
        · exact List.mem_of_getElem? hi
      | true =>
        obtain ⟨K, a5, _⟩ := a4 rfl
        exact .inl ⟨m', e, a1, a5.flags.1, a5.flags.2.1, a5.flags.2.2.1, a5.flags.2.2.2, fun _ _ => a5.valid⟩
    · exact .inr ⟨_, h1 (by omega)⟩

/-- All calls of a sequence keep faces valid. -/
def AllKeepFaces (m : Mesh) : List Call → Bool
  | [] => true
  | c :: cs => decide (c.keepsFaces m) && match m.step c with
    | .ok m' => AllKeepFaces m' cs
    | _ => AllKeepFaces m cs

theorem run_aligned (cs : List Call) : ∀ {m : Mesh}, m.Aligned → ∃ m', m.run cs = .ok m' ∧ m'.Aligned ∧ m'.hasColors = m.hasColors ∧
    m'.hasTimestamps = m.hasTimestamps ∧ m'.hasLabels = m.hasLabels ∧ m'.hasFirstSeen = m.hasFirstSeen ∧
    (m.FacesValid → m.AllKeepFaces cs = true → m'.FacesValid) := by
  induction cs with
  | nil => intro m ha; exact ⟨m, rfl, ha, rfl, rfl, rfl, rfl, fun h _ => h⟩
  | cons c cs ih =>
    intro m ha
    unfold run AllKeepFaces
    rcases step_aligned ha c with ⟨m', e, a1, a2, a3, a4, a5, a6⟩ | ⟨x, e⟩
    · rw [e]
      obtain ⟨m'', b0, b1, b2, b3, b4, b5, b6⟩ := ih a1
      exact ⟨m'', b0, b1, b2.trans a2, b3.trans a3, b4.trans a4, b5.trans a5, fun h hk => by
        rw [Bool.and_eq_true, decide_eq_true_eq] at hk
        exact b6 (a6 h hk.1) hk.2⟩
    · rw [e]
      obtain ⟨m'', b0, b1, b2, b3, b4, b5, b6⟩ := ih ha
      exact ⟨m'', b0, b1, b2, b3, b4, b5, fun h hk => by
        rw [Bool.and_eq_true] at hk
        exact b6 h hk.2⟩

end Mesh

/-- **C40.** Starting from a newly made mesh, every sequence of calls (refused ones included) ends without undefined behaviour, keeps one
entry per vertex in each enabled attribute and none in the others, and never changes which attributes are enabled. If no call shrinks the
vertices or introduces a corner that does not exist, the faces always refer to existing vertices. -/
theorem C40_attributes_aligned (c t l f : Bool) (cs : List Mesh.Call) :
    ∃ m, (Mesh.create c t l f).run cs = .ok m ∧ m.hasColors = c ∧ m.hasTimestamps = t ∧ m.hasLabels = l ∧ m.hasFirstSeen = f ∧
      m.colors.length = (if c then m.points.length else 0) ∧ m.stamps.length = (if t then m.points.length else 0) ∧
      m.labels.length = (if l then m.points.length else 0) ∧ m.firstSeen.length = (if f then m.points.length else 0) ∧
      ((Mesh.create c t l f).AllKeepFaces cs = true → m.FacesValid) := by
  obtain ⟨m, h0, h1, h2, h3, h4, h5, h6⟩ := run_aligned cs (m := Mesh.create c t l f) ⟨by simp [create], ite_zero, ite_zero, ite_zero, ite_zero⟩
  refine ⟨m, h0, h2, h3, h4, h5, ?_, ?_, ?_, ?_, fun h => h6 (fun f hf => by cases hf) h⟩
  · rw [h1.colors, h2]; rfl
  · rw [h1.stamps, h3]; rfl
  · rw [h1.labels, h4]; rfl
  · rw [h1.firstSeen, h5]; rfl

/-- **C40, emptiness.** A mesh is empty exactly if it has neither vertices nor faces; a new mesh is, and so is one after `clear`. -/
theorem C40_empty (m : Mesh) (c t l f : Bool) : (m.empty = true ↔ m.points.length = 0 ∧ m.faces.length = 0) ∧ m.clear.empty = true ∧
    (Mesh.create c t l f).empty = true := by
  refine ⟨?_, rfl, rfl⟩
  simp [Mesh.empty]

namespace Mesh
theorem put_get {α : Type} (l : List α) (i : UInt64) (x : α) :
    (l.length ≤ i.toNat ∧ putAt l i x = .throw .outOfRange) ∨
    ∃ l', putAt l i x = .ok l' ∧ ∀ j : UInt64, Res.at? l'[j.toNat]? = if j = i then .ok x else Res.at? l[j.toNat]? := by
  unfold putAt
  split
  · refine .inr ⟨_, rfl, fun j => ?_⟩
    by_cases hj : j = i
    · subst hj; rw [if_pos rfl, List.getElem?_set_self (by assumption)]; rfl
    · rw [if_neg hj, List.getElem?_set_ne (fun e => hj (UInt64.toNat_inj.1 e.symm))]
  · exact .inl ⟨by omega, rfl⟩

/-- A setter and its getter: refused with `out_of_range` exactly when the getter is; otherwise the getter returns what was written, for other
indices what it returned before. -/
def GetSet {α : Type} (get : Mesh → UInt64 → Res α) (set : Mesh → UInt64 → α → Res Mesh) : Prop :=
  ∀ m i x, (get m i = .throw .outOfRange ∧ set m i x = .throw .outOfRange) ∨
    ∃ m', set m i x = .ok m' ∧ (∃ y, get m i = .ok y) ∧ ∀ j, get m' j = if j = i then .ok x else get m j
end Mesh

/-- **C40**, accessors: what is written is what is read, for the vertex (face) named only; an index that does not exist, or an attribute that is
not enabled, is refused with `out_of_range`. -/
theorem C40_get_set : GetSet Mesh.pos Mesh.setPos ∧ GetSet Mesh.color Mesh.setColor ∧ GetSet Mesh.timestamp Mesh.setTimestamp ∧
    GetSet Mesh.firstSeenTimestamp Mesh.setFirstSeenTimestamp ∧ GetSet Mesh.label Mesh.setLabel ∧ GetSet Mesh.face Mesh.setFace := by
  have key : ∀ {α : Type} (l : List α) (i : UInt64) (x : α) (f : List α → Mesh) (get : Mesh → UInt64 → Res α) (m : Mesh),
      (∀ l' j, get (f l') j = Res.at? l'[j.toNat]?) → (∀ j, get m j = Res.at? l[j.toNat]?) →
      (get m i = .throw .outOfRange ∧ (putAt l i x >>= fun l => .ok (f l)) = .throw .outOfRange) ∨
      ∃ m', (putAt l i x >>= fun l => .ok (f l)) = .ok m' ∧ (∃ y, get m i = .ok y) ∧ ∀ j, get m' j = if j = i then .ok x else get m j := by
    intro α l i x f get m h1 h2
    rcases put_get l i x with ⟨h, e⟩ | ⟨l', e, h⟩
    · refine .inl ⟨?_, by rw [e]; rfl⟩
      rw [h2, List.getElem?_eq_none h]; rfl
    · refine .inr ⟨f l', by rw [e]; rfl, ?_, fun j => by rw [h1, h2, h]⟩
      rw [h2]
      have hi : i.toNat < l.length := by
        unfold putAt at e
        split at e
        · assumption
        · cases e
      rw [List.getElem?_eq_getElem hi]
      exact ⟨_, rfl⟩
  refine ⟨?_, ?_, ?_, ?_, ?_, ?_⟩ <;> intro m i x
  · exact key m.points i x (fun l => { m with points := l }) Mesh.pos m (fun _ _ => rfl) (fun _ => rfl)
  · exact key m.colors i x (fun l => { m with colors := l }) Mesh.color m (fun _ _ => rfl) (fun _ => rfl)
  · exact key m.stamps i x (fun l => { m with stamps := l }) Mesh.timestamp m (fun _ _ => rfl) (fun _ => rfl)
  · exact key m.firstSeen i x (fun l => { m with firstSeen := l }) Mesh.firstSeenTimestamp m (fun _ _ => rfl) (fun _ => rfl)
  · exact key m.labels i x (fun l => { m with labels := l }) Mesh.label m (fun _ _ => rfl) (fun _ => rfl)
  · exact key m.faces i x (fun l => { m with faces := l }) Mesh.face m (fun _ _ => rfl) (fun _ => rfl)

/-! ### Samples -/

namespace MeshSample
def pt (n : UInt32) : V3f := ⟨n, n, n⟩
/-- five vertices with colours and labels, three faces -/
def mesh : Mesh := { Mesh.create true false true false with
  points := [pt 10, pt 11, pt 12, pt 13, pt 14], colors := [⟨0, 0, 0, 0⟩, ⟨1, 0, 0, 0⟩, ⟨2, 0, 0, 0⟩, ⟨3, 0, 0, 0⟩, ⟨4, 0, 0, 0⟩],
  labels := [20, 21, 22, 23, 24], faces := [(0, 2, 4), (1, 2, 3), (4, 3, 2)] }
def set (l : List UInt64) : OSet UInt64 := l.foldl (fun s n => s.add n) ∅

example : mesh.Aligned ∧ mesh.FacesValid ∧ (set [1, 7]).size ≤ mesh.points.length :=
  ⟨⟨by decide +kernel, by decide +kernel, by decide +kernel, by decide +kernel, by decide +kernel⟩, by unfold Mesh.FacesValid; decide +kernel, by decide +kernel⟩

/-- vertex 1 goes, and the face at it; the index 7 is ignored -/
example : mesh.eraseVertices (set [1, 7]) = .ok { mesh with
    points := [pt 10, pt 12, pt 13, pt 14], colors := [⟨0, 0, 0, 0⟩, ⟨2, 0, 0, 0⟩, ⟨3, 0, 0, 0⟩, ⟨4, 0, 0, 0⟩], labels := [20, 22, 23, 24],
    faces := [(0, 1, 3), (3, 2, 1)] } := by decide +kernel

/-- face 0 goes, and vertex 0 with it -/
example : mesh.eraseFaces (set [0]) true = .ok { mesh with
    points := [pt 11, pt 12, pt 13, pt 14], colors := [⟨1, 0, 0, 0⟩, ⟨2, 0, 0, 0⟩, ⟨3, 0, 0, 0⟩, ⟨4, 0, 0, 0⟩], labels := [21, 22, 23, 24],
    faces := [(0, 1, 2), (3, 2, 1)] } := by decide +kernel

/-- a sequence with a refused call that keeps the faces valid -/
example : (Mesh.create true false true false).AllKeepFaces [.resizeVertices 3 (pt 7), .resizeFaces 1, .setColor 5 {}, .setFace 0 (2, 1, 0), .eraseVertices (set [7])] = true ∧
    (Mesh.create true false true false).run [.resizeVertices 3 (pt 7), .resizeFaces 1, .setColor 5 {}, .setFace 0 (2, 1, 0), .eraseVertices (set [7])] =
      .ok { Mesh.create true false true false with points := [pt 7, pt 7, pt 7], colors := [{}, {}, {}], labels := [0, 0, 0], faces := [(2, 1, 0)] } := by
  exact ⟨by decide +kernel, by decide +kernel⟩

/-- Shrinking leaves faces behind whose corners no longer exist. -/
theorem C40_shrinking_dangles : ∃ m : Mesh, m.Aligned ∧ m.FacesValid ∧ ¬ (m.resizeVertices 2 (pt 0)).FacesValid := by
  refine ⟨mesh, ⟨by decide +kernel, by decide +kernel, by decide +kernel, by decide +kernel, by decide +kernel⟩, by unfold Mesh.FacesValid; decide +kernel, ?_⟩
  unfold Mesh.FacesValid; decide +kernel

/-- Without alignment (the vectors are public members) the copying loop reads behind the end of an attribute vector. -/
theorem C39_short_attribute_is_ub : ∃ (m : Mesh) (s : OSet UInt64), m.colors.length < m.points.length ∧ m.eraseVertices s = .ub :=
  ⟨{ mesh with colors := [] }, set [1], by decide +kernel, by decide +kernel⟩

end MeshSample

end Verif
