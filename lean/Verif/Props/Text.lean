import Verif.Lemmas.Text
/-! # C30–C32, C43, C44, C48: ids, keys, colours, names, file types -/

namespace Verif

/-! ## C31: node ids -/

/-- **C31, symbols.** `NodeSymbol(key, index)` is the number `key·2⁵⁶ + index` (index taken modulo 2⁵⁶); `category` and
`categoryId` are the two parts of any id and determine it; for an index below 2⁵⁶ they return what was packed; incrementing adds
one to the index part, wrapping at 2⁵⁶, and never touches the category. -/
theorem C31_node_symbol :
    (∀ key idx, (NodeSymbol.make key idx).toNat = key.toNat * 2 ^ 56 + idx.toNat % 2 ^ 56) ∧
    (∀ n, NodeSymbol.make (NodeSymbol.category n) (NodeSymbol.categoryId n) = n) ∧
    (∀ key idx, idx.toNat < 2 ^ 56 → NodeSymbol.category (NodeSymbol.make key idx) = key ∧
      NodeSymbol.categoryId (NodeSymbol.make key idx) = idx) ∧
    (∀ n, NodeSymbol.category (NodeSymbol.incr n) = NodeSymbol.category n ∧
      (NodeSymbol.categoryId (NodeSymbol.incr n)).toNat = ((NodeSymbol.categoryId n).toNat + 1) % 2 ^ 56) := by
  refine ⟨NodeSymbol.make_toNat, fun n => ?_, fun key idx h => ?_, fun n => ?_⟩
  · rw [← UInt64.toNat_inj, NodeSymbol.make_toNat, NodeSymbol.category_toNat, Prefix.categoryId_toNat]
    omega
  · have hk := key.toNat_lt
    refine ⟨?_, ?_⟩
    · rw [← UInt8.toNat_inj, NodeSymbol.category_toNat, NodeSymbol.make_toNat]; omega
    · rw [← UInt64.toNat_inj, Prefix.categoryId_toNat, NodeSymbol.make_toNat]; omega
  · have hk := (NodeSymbol.category n).toNat_lt
    unfold NodeSymbol.incr
    refine ⟨?_, ?_⟩
    · rw [← UInt8.toNat_inj, NodeSymbol.category_toNat, NodeSymbol.make_toNat]; omega
    · rw [Prefix.categoryId_toNat, NodeSymbol.make_toNat, UInt64.toNat_add]
      simp only [UInt64.reduceToNat]
      omega

/-- **C31, layer prefixes.** For indices below 2³², `makeId`, `matches`, `index` and `fromId` are mutually inverse: a prefix
matches exactly the ids it makes; every id is made by exactly one prefix and index; the prefix of a plain key makes the same ids as
`NodeSymbol(key, index)`; `LayerPrefix(key, sub)` returns its two parts. -/
theorem C31_layer_prefix :
    (∀ (p : Prefix) i, i < 2 ^ 32 → (p.makeId i).toNat = p.toNat * 2 ^ 32 + i ∧ p.isMatch (p.makeId i) = true ∧
      p.index (p.makeId i) = i ∧ Prefix.fromId (p.makeId i) = p) ∧
    (∀ (n : NodeId), (Prefix.fromId n).makeId ((Prefix.fromId n).index n) = n) ∧
    (∀ (p : Prefix) n, p.isMatch n = true ↔ ∃ i, i < 2 ^ 32 ∧ n = p.makeId i) ∧
    (∀ key (i : NodeId), i.toNat < 2 ^ 32 → (Prefix.ofKey key 0).makeId i.toNat = NodeSymbol.make key i) ∧
    (∀ key (s : UInt32), s.toNat < 2 ^ 24 → (Prefix.ofKey key s).key = key ∧ (Prefix.ofKey key s).subIndex = s) := by
  refine ⟨fun p i h => ⟨Prefix.makeId_toNat p h, Prefix.isMatch_makeId p h, Prefix.index_makeId p p h, ?_⟩, fun n => ?_, fun p n => ?_,
    fun key i h => ?_, fun key s h => ?_⟩
  · exact ((Prefix.isMatch_iff _ _).1 (Prefix.isMatch_makeId p h)).symm
  · exact Prefix.makeId_index ((Prefix.isMatch_iff _ _).2 rfl)
  · constructor
    · intro h; exact ⟨p.index n, Prefix.index_lt p n, (Prefix.makeId_index h).symm⟩
    · rintro ⟨i, h, rfl⟩; exact Prefix.isMatch_makeId p h
  · rw [← UInt64.toNat_inj, Prefix.makeId_toNat _ h, Prefix.ofKey_toNat, NodeSymbol.make_toNat]
    simp only [UInt32.reduceToNat]
    omega
  · have hk := key.toNat_lt
    refine ⟨?_, ?_⟩
    · rw [← UInt8.toNat_inj, Prefix.key_toNat, Prefix.ofKey_toNat]; omega
    · rw [← UInt32.toNat_inj, Prefix.subIndex_toNat, Prefix.ofKey_toNat]; omega

/-- `a(3)` -/
example : NodeSymbol.make 97 3 = 0x6100000000000003 ∧ NodeSymbol.incr 0x61FFFFFFFFFFFFFF = 0x6100000000000000 ∧
    (Prefix.ofKey 97 0).makeId 3 = 0x6100000000000003 := by decide +kernel

/-- Past 2³² nodes, ids run into those of the next prefix. -/
theorem C31_index_overflow_collides : (Prefix.ofKey 97 0).makeId (2 ^ 32) = (Prefix.ofKey 97 1).makeId 0 := by decide +kernel

/-! ## C32: edge keys -/

/-- **C32.** An edge key does not depend on the order of its endpoints; two keys are equal iff they name the same unordered pair;
`operator<` is a strict total order. -/
theorem C32_edge_key :
    (∀ a b, EdgeKey.of a b = EdgeKey.of b a) ∧
    (∀ a b c d, EdgeKey.of a b = EdgeKey.of c d ↔ (a = c ∧ b = d) ∨ (a = d ∧ b = c)) ∧
    (∀ a : EdgeKey, EdgeKey.lt a a = false) ∧
    (∀ a b c : EdgeKey, EdgeKey.lt a b = true → EdgeKey.lt b c = true → EdgeKey.lt a c = true) ∧
    (∀ a b : EdgeKey, EdgeKey.lt a b = true ∨ a = b ∨ EdgeKey.lt b a = true) := by
  refine ⟨EdgeKey.of_comm, fun a b c d => EdgeKey.of_inj, OKey.irrefl (K := EdgeKey),
    fun a b c h1 h2 => OKey.trans (K := EdgeKey) (a := a) (b := b) (c := c) h1 h2, fun a b => ?_⟩
  cases h1 : EdgeKey.lt a b with
  | true => exact .inl rfl
  | false =>
    cases h2 : EdgeKey.lt b a with
    | true => exact .inr (.inr rfl)
    | false => exact .inr (.inl (OKey.tri (K := EdgeKey) h1 h2))

example : EdgeKey.of 5 3 = ⟨3, 5⟩ ∧ EdgeKey.lt (EdgeKey.of 5 3) (EdgeKey.of 4 9) = true := by decide +kernel

/-! ## C43: colours -/

/-- **C43.** `operator<` on colours is a strict total order whose ties are exactly `==`; `==` is equality of the four channels;
colours with the same hash are the same colour (so `Hash` never collides). -/
theorem C43_color :
    (∀ x y : Color, x.eq y = true ↔ x = y) ∧
    (∀ x : Color, x.lt x = false) ∧
    (∀ x y z : Color, x.lt y = true → y.lt z = true → x.lt z = true) ∧
    (∀ x y : Color, x.lt y = true ∨ x = y ∨ y.lt x = true) ∧
    (∀ x y : Color, x.hash = y.hash ↔ x = y) := by
  have hb : ∀ c : UInt8, c.toNat < 256 := fun c => c.toNat_lt
  let val (x : Color) : Nat := ((x.r.toNat * 256 + x.g.toNat) * 256 + x.b.toNat) * 256 + x.a.toNat
  have lt_iff : ∀ x y : Color, x.lt y = true ↔ val x < val y := by
    rintro ⟨r, g, b, a⟩ ⟨r', g', b', a'⟩
    have h2 := hb g; have h3 := hb b; have h4 := hb a
    have h2' := hb g'; have h3' := hb b'; have h4' := hb a'
    simp only [Color.lt, val, UInt8.lt_iff_toNat_lt, ne_eq, ← UInt8.toNat_inj]
    split
    · rw [decide_eq_true_eq]; omega
    · split
      · rw [decide_eq_true_eq]; omega
      · split
        · rw [decide_eq_true_eq]; omega
        · rw [decide_eq_true_eq]; omega
  have inj : ∀ x y : Color, val x = val y → x = y := by
    rintro ⟨r, g, b, a⟩ ⟨r', g', b', a'⟩ h
    have h2 := hb g; have h3 := hb b; have h4 := hb a
    have h2' := hb g'; have h3' := hb b'; have h4' := hb a'
    simp only [val] at h
    simp only [Color.mk.injEq, ← UInt8.toNat_inj]
    omega
  refine ⟨?_, ?_, ?_, ?_, ?_⟩
  · rintro ⟨r, g, b, a⟩ ⟨r', g', b', a'⟩; simp [Color.eq, and_assoc]
  · rintro ⟨r, g, b, a⟩; simp [Color.lt]
  · intro x y z h1 h2; rw [lt_iff] at h1 h2 ⊢; exact Nat.lt_trans h1 h2
  · intro x y
    rw [lt_iff, lt_iff]
    rcases Nat.lt_trichotomy (val x) (val y) with h | h | h
    · exact .inl h
    · exact .inr (.inl (inj x y h))
    · exact .inr (.inr h)
  · rintro ⟨r, g, b, a⟩ ⟨r', g', b', a'⟩
    constructor
    · intro h
      have key : ∀ r g b a : UInt8, (Color.hash ⟨r, g, b, a⟩).toNat = r.toNat + g.toNat * 2 ^ 8 + b.toNat * 2 ^ 16 + a.toNat * 2 ^ 24 := by
        intro r g b a
        have h1 := hb r; have h2 := hb g; have h3 := hb b; have h4 := hb a
        simp only [Color.hash, UInt32.toNat_add, UInt32.toNat_shiftLeft, UInt8.toNat_toUInt32]
        simp only [show (8 : UInt32).toNat % 32 = 8 by rfl, show (16 : UInt32).toNat % 32 = 16 by rfl,
          show (24 : UInt32).toNat % 32 = 24 by rfl, Nat.shiftLeft_eq]
        omega
      have h' := congrArg UInt32.toNat h
      rw [key, key] at h'
      have h1 := hb r; have h2 := hb g; have h3 := hb b; have h4 := hb a
      have h1' := hb r'; have h2' := hb g'; have h3' := hb b'; have h4' := hb a'
      simp only [Color.mk.injEq, ← UInt8.toNat_inj]
      omega
    · rintro h; rw [h]

example : Color.lt ⟨1, 2, 3, 4⟩ ⟨1, 3, 0, 0⟩ = true ∧ Color.hash ⟨1, 2, 3, 255⟩ = 0xFF030201 := by decide +kernel

/-! ## C44: layer names -/

/-- Ids that have a name: segments, objects, places, rooms, buildings, 2D places. -/
def namedLayers : List LayerId := [1, 2, 3, 4, 5, 20]
/-- The spellings `StringToLayerId` knows, in upper case. -/
def layerNames : List (Str × LayerId) :=
  [(str "SEGMENTS", 1), (str "OBJECTS", 2), (str "AGENTS", 2), (str "PLACES", 3), (str "STRUCTURE", 3), (str "ROOMS", 4),
   (str "BUILDINGS", 5), (str "MESH_PLACES", 20)]

/-- **C44.** `StringToLayerId` depends only on the string up to letter case; it maps each known spelling to its id and every other
string to UNKNOWN; it inverts `LayerIdToString` on named ids; `LayerIdToString` maps all other ids to a string that is read back as
UNKNOWN. -/
theorem C44_layer_names :
    (∀ s t : Str, s.map toUpper = t.map toUpper → stringToLayerId s = stringToLayerId t) ∧
    (∀ s id, (s.map toUpper, id) ∈ layerNames → stringToLayerId s = id) ∧
    (∀ s, (∀ id, (s.map toUpper, id) ∉ layerNames) → stringToLayerId s = UNKNOWN_LAYER) ∧
    (∀ id ∈ namedLayers, stringToLayerId (layerIdToString id) = id) ∧
    (∀ id, id ∉ namedLayers → layerIdToString id = str "UNKNOWN" ∧ stringToLayerId (layerIdToString id) = UNKNOWN_LAYER) := by
  refine ⟨?_, ?_, ?_, by decide +kernel, ?_⟩
  · intro s t h; unfold stringToLayerId; rw [h]
  · intro s id h
    unfold stringToLayerId
    generalize s.map toUpper = u at h
    simp only [layerNames, List.mem_cons, Prod.mk.injEq, List.not_mem_nil, or_false] at h
    rcases h with h | h | h | h | h | h | h | h <;> obtain ⟨rfl, rfl⟩ := h <;> decide +kernel
  · intro s h
    unfold stringToLayerId
    generalize s.map toUpper = u at h
    have h1 := h 1; have h2 := h 2; have h3 := h 3; have h4 := h 4; have h5 := h 5; have h6 := h 20
    simp [layerNames] at h1 h2 h3 h4 h5 h6
    simp [h1, h2, h3, h4, h5, h6]
  · intro id h
    simp only [namedLayers, List.mem_cons, List.not_mem_nil, or_false, not_or] at h
    have : layerIdToString id = str "UNKNOWN" := by unfold layerIdToString; simp [h]
    exact ⟨this, by rw [this]; decide +kernel⟩

example : stringToLayerId (str "mesh_Places") = 20 ∧ stringToLayerId (str "kitchen") = UNKNOWN_LAYER := by decide +kernel

/-! ## C48: labels and literals -/

/-- **C48.** For ids with an ASCII category, `getLabel` is defined and two ids with the same label are the same id; the literal
`"<key><decimal index>"_id` denotes the symbol with that key and index. -/
theorem C48_labels :
    (∀ n, NodeSymbol.category n < 128 → ∃ s, NodeSymbol.label n = .ok s) ∧
    (∀ n m s, NodeSymbol.label n = .ok s → NodeSymbol.label m = .ok s → n = m) ∧
    (∀ key (i : NodeId), NodeSymbol.ofLiteral (key :: dec i.toNat) = .ok (NodeSymbol.make key i)) := by
  refine ⟨?_, ?_, ?_⟩
  · intro n h
    have h' : ¬ (128 : UInt8) ≤ NodeSymbol.category n := by rw [UInt8.not_le]; exact h
    unfold NodeSymbol.label
    rw [if_neg h']
    split
    · exact ⟨_, rfl⟩
    · exact ⟨_, rfl⟩
  · intro n m s hn hm
    have lab : ∀ n s, NodeSymbol.label n = .ok s →
        (isAlpha (NodeSymbol.category n) = true ∧ s = NodeSymbol.category n :: 40 :: (dec (NodeSymbol.categoryId n).toNat ++ [41])) ∨
        (isAlpha (NodeSymbol.category n) = false ∧ s = dec n.toNat) := by
      intro n s h
      unfold NodeSymbol.label at h
      split at h
      · cases h
      · split at h
        · rename_i hc; cases h; exact .inl ⟨hc, rfl⟩
        · rename_i hc; cases h; exact .inr ⟨by simpa using hc, rfl⟩
    have starts : ∀ a b : NodeId, isAlpha (NodeSymbol.category a) = true →
        NodeSymbol.category a :: 40 :: (dec (NodeSymbol.categoryId a).toNat ++ [41]) ≠ dec b.toNat := by
      intro a b ha hb
      have h1 := dec_digits b.toNat (NodeSymbol.category a) (by rw [← hb]; simp)
      rw [(isDigit_not h1).2.2.2] at ha; cases ha
    have d0 : ∀ c : UInt8, ([] : Str).head? = some c → isDigit c = false := by simp
    rcases lab n s hn with ⟨a1, e1⟩ | ⟨a1, e1⟩ <;> rcases lab m s hm with ⟨a2, e2⟩ | ⟨a2, e2⟩
    · rw [e1] at e2
      simp only [List.cons.injEq, true_and] at e2
      have h2 := congrArg digitsVal e2.2
      have h41 : ∀ c : UInt8, ([41] : Str).head? = some c → isDigit c = false := by
        intro c hc; simp only [List.head?_cons, Option.some.injEq] at hc; subst hc; decide
      rw [digitsVal_dec _ _ h41, digitsVal_dec _ _ h41] at h2
      rw [← C31_node_symbol.2.1 n, ← C31_node_symbol.2.1 m, e2.1, UInt64.toNat_inj.1 h2]
    · rw [e1] at e2; exact absurd e2 (starts n m a1)
    · rw [e1] at e2; exact absurd e2.symm (starts m n a2)
    · rw [e1] at e2
      have h2 := congrArg digitsVal e2
      have l1 := digitsVal_dec n.toNat [] d0
      have l2 := digitsVal_dec m.toNat [] d0
      rw [List.append_nil] at l1 l2
      rw [l1, l2] at h2
      exact UInt64.toNat_inj.1 h2
  · intro key i
    have : i.toNat < 2 ^ 64 := i.toNat_lt
    simp [NodeSymbol.ofLiteral, stoull_dec _ this]

/-- **C48, bad literals.** A literal without a number is refused, not undefined; no literal is undefined. -/
theorem C48_bad_literals : NodeSymbol.ofLiteral [] = .throw .domainError ∧ (∀ key, NodeSymbol.ofLiteral [key] = .throw .domainError) ∧
    ∀ s, NodeSymbol.ofLiteral s ≠ .ub := by
  refine ⟨rfl, fun _ => by simp only [NodeSymbol.ofLiteral]; rw [show stoull [] = .throw .domainError by decide +kernel]; rfl, ?_⟩
  intro s
  unfold NodeSymbol.ofLiteral
  split
  · intro h; cases h
  · rename_i c rest
    unfold stoull
    dsimp only
    repeat' split
    all_goals (intro h; cases h)

example : NodeSymbol.label 0x6100000000000012 = .ok (str "a(18)") ∧ NodeSymbol.label 17 = .ok (str "17") ∧
    NodeSymbol.ofLiteral (str "x42") = .ok (NodeSymbol.make 120 42) := by decide +kernel

/-! ## C30: file types -/

/-- `e` (with its dot) is the extension of the path: the last component is `stem ++ e`, where `e` has a single dot, the stem is not
empty, and the component is not `..`. -/
def HasExt (p e : Str) : Prop :=
  ∃ dir stem s, p = dir ++ (stem ++ 46 :: s) ∧ e = 46 :: s ∧ (dir = [] ∨ ∃ d, dir = d ++ [47]) ∧ 47 ∉ stem ++ 46 :: s ∧
    46 ∉ s ∧ stem ≠ [] ∧ stem ++ 46 :: s ≠ str ".."

/-- The path ends in `/` or is empty: there is no file name. -/
def NoFilename (p : Str) : Prop := p = [] ∨ ∃ d, p = d ++ [47]

theorem pathExtension_iff (p e : Str) : (pathExtension p = e ∧ e ≠ []) ↔ HasExt p e := by
  have fn : pathFilename p = afterLast 47 p := rfl
  constructor
  · rintro ⟨h, hne⟩
    unfold pathExtension at h
    simp only [fn] at h
    obtain ⟨dir, h1, h2, h3⟩ := split_afterLast 47 p
    generalize afterLast 47 p = f at h h1 h2
    split at h
    · exact absurd h.symm hne
    · rename_i hdot
      split at h
      · rename_i hc
        split at h
        · exact absurd h.symm hne
        · rename_i hlen
          have he : (f.reverse.takeWhile (· != 46)).reverse = afterLast 46 f := rfl
          rw [he] at h hlen
          obtain ⟨a, g1, g2, g3⟩ := split_afterLast 46 f
          generalize afterLast 46 f = s at h hlen g1 g2
          rcases g3 with rfl | ⟨stem, rfl⟩
          · simp only [List.nil_append] at g1
            subst g1
            simp only [List.contains_eq_mem, decide_eq_true_eq] at hc
            exact absurd hc g2
          · have g1' : f = stem ++ 46 :: s := by simpa using g1
            refine ⟨dir, stem, s, by rw [h1, g1'], h.symm, h3, by rw [← g1']; exact h2, g2, ?_, ?_⟩
            · rintro rfl; apply hlen; rw [g1']; rfl
            · rw [← g1']; intro hh; exact hdot (.inr hh)
      · exact absurd h.symm hne
  · rintro ⟨dir, stem, s, rfl, rfl, h1, h2, h3, h4, h5⟩
    refine ⟨?_, by simp⟩
    have e1 : pathFilename (dir ++ (stem ++ 46 :: s)) = stem ++ 46 :: s := afterLast_of_split h2 h1
    have e2 : ((stem ++ 46 :: s).reverse.takeWhile (· != 46)).reverse = s := by
      have := afterLast_of_split (x := 46) (a := stem ++ [46]) (b := s) h3 (.inr ⟨stem, rfl⟩)
      rw [List.append_assoc, List.singleton_append] at this
      exact this
    have e3 : ¬ (stem ++ 46 :: s = str "." ∨ stem ++ 46 :: s = str "..") := by
      rintro (h | h)
      · have := congrArg List.length h
        simp [str] at this
        cases stem with
        | nil => exact h4 rfl
        | cons x t => simp at this; omega
      · exact h5 h
    have e4 : (stem ++ 46 :: s).contains 46 = true := by simp
    unfold pathExtension
    simp only [e1, e2]
    rw [if_neg e3, if_pos e4, if_neg]
    intro h
    simp only [List.length_cons, List.length_append] at h
    have : stem.length = 0 := by omega
    exact h4 (List.length_eq_zero_iff.1 this)

theorem pathExtension_nil (p : Str) : pathExtension p = [] ↔ ∀ e, ¬ HasExt p e := by
  constructor
  · intro h e he
    have := (pathExtension_iff p e).2 he
    exact this.2 (this.1 ▸ h)
  · intro h
    apply Classical.byContradiction
    intro hn
    exact h _ ((pathExtension_iff p _).1 ⟨rfl, hn⟩)

theorem hasExt_unique {p e e' : Str} (h : HasExt p e) (h' : HasExt p e') : e = e' := by
  rw [← ((pathExtension_iff p e).2 h).1, ((pathExtension_iff p e').2 h').1]

/-- **C30, decision.** A path with extension `.json` or `.bson` is a JSON file, one with `.sparkdsg` a binary file, both unchanged; a
path without extension becomes a binary file with `.sparkdsg` appended; any other extension is refused. -/
theorem C30_file_type (p : Str) :
    (HasExt p (str ".json") ∨ HasExt p (str ".bson") → verifyFileExtension p = .ok (p, .json)) ∧
    (HasExt p (str ".sparkdsg") → verifyFileExtension p = .ok (p, .binary)) ∧
    ((∀ e, ¬ HasExt p e) → verifyFileExtension p = .ok (p ++ str ".sparkdsg", .binary)) ∧
    (∀ e, HasExt p e → e ∉ [str ".json", str ".bson", str ".sparkdsg"] → verifyFileExtension p = .throw .runtimeError) := by
  have key : ∀ e, HasExt p e → pathExtension p = e := fun e h => ((pathExtension_iff p e).2 h).1
  refine ⟨?_, ?_, ?_, ?_⟩
  · intro h
    have : identifyFileType p = .json := by
      unfold identifyFileType
      rcases h with h | h <;> rw [key _ h] <;> decide
    simp [verifyFileExtension, this]
  · intro h
    have : identifyFileType p = .binary := by unfold identifyFileType; rw [key _ h]; decide
    simp [verifyFileExtension, this]
  · intro h
    have : identifyFileType p = .none := by
      unfold identifyFileType; rw [(pathExtension_nil p).2 h]; rfl
    simp [verifyFileExtension, this]
  · intro e h hne
    simp only [List.mem_cons, List.not_mem_nil, or_false, not_or] at hne
    have h0 : e ≠ [] := ((pathExtension_iff p e).2 h).2
    have : identifyFileType p = .unknown := by
      unfold identifyFileType; rw [key _ h]
      simp [h0, hne]
    simp [verifyFileExtension, this]

/-- **C30, saving and loading.** If the path has an extension that is accepted, then after `save` it is loaded with the reader for the
format it was written in. If it has none, `save` writes `path.sparkdsg`, and loading that path works the same way (provided the path
has a file name). -/
theorem C30_save_load (p : Str) (fs fs' : Files) (h : saveFile fs p = .ok fs') :
    ((∃ e, HasExt p e) → ∃ t, fs' p = some t ∧ loadFile fs' p = .ok (p, t)) ∧
    ((∀ e, ¬ HasExt p e) → ¬ NoFilename p →
      fs' (p ++ str ".sparkdsg") = some .binary ∧ loadFile fs' (p ++ str ".sparkdsg") = .ok (p ++ str ".sparkdsg", .binary)) := by
  obtain ⟨h1, h2, h3, h4⟩ := C30_file_type p
  constructor
  · rintro ⟨e, he⟩
    have : ∃ t, verifyFileExtension p = .ok (p, t) := by
      by_cases hm : e ∈ [str ".json", str ".bson", str ".sparkdsg"]
      · simp only [List.mem_cons, List.not_mem_nil, or_false] at hm
        rcases hm with rfl | rfl | rfl
        · exact ⟨_, h1 (.inl he)⟩
        · exact ⟨_, h1 (.inr he)⟩
        · exact ⟨_, h2 he⟩
      · rw [saveFile, h4 e he hm] at h; cases h
    obtain ⟨t, ht⟩ := this
    rw [saveFile, ht] at h
    simp only [Res.bind_ok, Res.ok.injEq] at h
    subst h
    exact ⟨t, by simp, by simp [loadFile, ht]⟩
  · intro hn hf
    rw [saveFile, h3 hn] at h
    simp only [Res.bind_ok, Res.ok.injEq] at h
    subst h
    have hext : HasExt (p ++ str ".sparkdsg") (str ".sparkdsg") := by
      obtain ⟨dir, g1, g2, g3⟩ := split_afterLast 47 p
      refine ⟨dir, afterLast 47 p, str "sparkdsg", ?_, rfl, g3, ?_, by decide, ?_, ?_⟩
      · conv => lhs; rw [g1]
        rw [List.append_assoc]; rfl
      · simp only [List.mem_append, not_or]; exact ⟨g2, by decide⟩
      · intro he
        rw [he, List.append_nil] at g1
        apply hf
        rcases g3 with rfl | g3
        · exact .inl g1
        · obtain ⟨d, rfl⟩ := g3; exact .inr ⟨d, g1⟩
      · intro he
        have := congrArg List.length he
        simp [str] at this
    have := (C30_file_type (p ++ str ".sparkdsg")).2.1 hext
    exact ⟨by simp, by simp [loadFile, this]⟩

/-- **C30, nothing else is written.** Saving touches one file: the path itself when it has an extension, else the path with `.sparkdsg`. -/
theorem C30_other_paths (p : Str) (fs fs' : Files) (h : saveFile fs p = .ok fs') :
    ((∃ e, HasExt p e) → ∀ q, q ≠ p → fs' q = fs q) ∧
    ((∀ e, ¬ HasExt p e) → ∀ q, q ≠ p ++ str ".sparkdsg" → fs' q = fs q) := by
  obtain ⟨h1, h2, h3, h4⟩ := C30_file_type p
  have key : ∀ p' t, verifyFileExtension p = .ok (p', t) → ∀ q, q ≠ p' → fs' q = fs q := by
    intro p' t hv q hq
    rw [saveFile, hv] at h
    simp only [Res.bind_ok, Res.ok.injEq] at h
    subst h
    simp [hq]
  constructor
  · rintro ⟨e, he⟩
    by_cases hm : e ∈ [str ".json", str ".bson", str ".sparkdsg"]
    · simp only [List.mem_cons, List.not_mem_nil, or_false] at hm
      rcases hm with rfl | rfl | rfl
      · exact key _ _ (h1 (.inl he))
      · exact key _ _ (h1 (.inr he))
      · exact key _ _ (h2 he)
    · rw [saveFile, h4 e he hm] at h; cases h
  · intro hn
    exact key _ _ (h3 hn)

example : ∃ fs', saveFile (fun _ => none) (str "a.json") = .ok fs' ∧ fs' (str "b.json") = none := ⟨_, rfl, by decide +kernel⟩

/-- Without an extension, loading the very path that was saved fails: existence is checked before the extension is appended. -/
theorem C30_save_without_extension_cannot_be_loaded :
    ∃ fs', saveFile (fun _ => none) (str "dir/graph") = .ok fs' ∧ loadFile fs' (str "dir/graph") = .throw .runtimeError ∧
      loadFile fs' (str "dir/graph.sparkdsg") = .ok (str "dir/graph.sparkdsg", .binary) := by
  refine ⟨_, rfl, ?_, ?_⟩ <;> decide +kernel

example : HasExt (str "a.b/c.json") (str ".json") ∧ (∀ e, ¬ HasExt (str "a.b/.json") e) ∧ HasExt (str "x.") (str ".") := by
  refine ⟨(pathExtension_iff _ _).1 (by decide +kernel), (pathExtension_nil _).1 (by decide +kernel), (pathExtension_iff _ _).1 (by decide +kernel)⟩

end Verif
