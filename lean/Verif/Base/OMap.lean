/-!
# Ordered maps

Model of `std::map` (and, with `Unit` values, of `std::set`): a strictly sorted association list
bundled with its sortedness proof. Consequences used throughout: two maps with the same lookups are
equal, iteration is in key order, keys are distinct. Nothing here comes from /repo; it stands for the
C++ standard library's contract.
-/

namespace Verif

/-- A decidable strict total order on keys (`operator<` of the key type). -/
class OKey (K : Type) where
  lt : K → K → Bool
  irrefl : ∀ a, lt a a = false
  trans : ∀ {a b c}, lt a b = true → lt b c = true → lt a c = true
  tri : ∀ {a b}, lt a b = false → lt b a = false → a = b

instance : OKey Nat where
  lt a b := decide (a < b)
  irrefl a := by simp
  trans := by intro a b c h1 h2; simp at *; omega
  tri := by intro a b h1 h2; simp at *; omega

instance : OKey UInt64 where
  lt a b := decide (a < b)
  irrefl a := by simp
  trans := by intro a b c h1 h2; simp [UInt64.lt_iff_toNat_lt] at *; omega
  tri := by
    intro a b h1 h2
    simp [UInt64.le_iff_toNat_le] at *
    exact UInt64.toNat.inj (by omega)

instance : OKey UInt8 where
  lt a b := decide (a < b)
  irrefl a := by simp
  trans := by intro a b c h1 h2; simp [UInt8.lt_iff_toNat_lt] at *; omega
  tri := by
    intro a b h1 h2
    simp [UInt8.le_iff_toNat_le] at *
    exact UInt8.toNat.inj (by omega)

instance : OKey UInt32 where
  lt a b := decide (a < b)
  irrefl a := by simp
  trans := by intro a b c h1 h2; simp [UInt32.lt_iff_toNat_lt] at *; omega
  tri := by
    intro a b h1 h2
    simp [UInt32.le_iff_toNat_le] at *
    exact UInt32.toNat.inj (by omega)

/-- Strictly sorted by key. -/
abbrev SortedKeys {K V : Type} [OKey K] (l : List (K × V)) : Prop :=
  l.Pairwise (fun a b => OKey.lt a.1 b.1 = true)

namespace AList
variable {K V : Type} [DecidableEq K] [OKey K]

/-- First value stored under a key. -/
def find? (k : K) : List (K × V) → Option V
  | [] => none
  | (k', v) :: l => if k = k' then some v else find? k l

/-- Insert or overwrite at the sorted position. -/
def insert (k : K) (v : V) : List (K × V) → List (K × V)
  | [] => [(k, v)]
  | (k', v') :: l =>
    if k = k' then (k, v) :: l
    else if OKey.lt k k' then (k, v) :: (k', v') :: l
    else (k', v') :: insert k v l

/-- Remove a key. -/
def erase (k : K) : List (K × V) → List (K × V)
  | [] => []
  | (k', v') :: l => if k = k' then l else (k', v') :: erase k l

theorem mem_insert_key {k : K} {v : V} {l : List (K × V)} {p : K × V}
    (h : p ∈ insert k v l) : p = (k, v) ∨ p ∈ l := by
  induction l with
  | nil => simpa [insert] using h
  | cons a l ih =>
    obtain ⟨k', v'⟩ := a
    simp only [insert] at h
    split at h
    · simp at h ⊢; rcases h with h | h <;> simp [h]
    · split at h
      · simpa using h
      · simp at h ⊢; rcases h with h | h
        · simp [h]
        · rcases ih h with h | h <;> simp [h]

theorem sorted_insert (k : K) (v : V) {l : List (K × V)} (h : SortedKeys l) :
    SortedKeys (insert k v l) := by
  induction l with
  | nil => simp [insert, SortedKeys]
  | cons a l ih =>
    obtain ⟨k', v'⟩ := a
    have h' := List.pairwise_cons.1 h
    simp only [insert]
    split
    · rename_i e; subst e
      exact List.pairwise_cons.2 ⟨h'.1, h'.2⟩
    · split
      · rename_i hne hlt
        refine List.pairwise_cons.2 ⟨?_, h⟩
        intro p hp
        rcases List.mem_cons.1 hp with e | hp
        · subst e; exact hlt
        · exact OKey.trans hlt (h'.1 p hp)
      · rename_i hne hnlt
        refine List.pairwise_cons.2 ⟨?_, ih h'.2⟩
        intro p hp
        rcases mem_insert_key hp with e | hp
        · subst e
          cases hc : OKey.lt k' k with
          | true => rfl
          | false =>
            have : OKey.lt k k' = false := by simpa using hnlt
            exact absurd (OKey.tri this hc) hne
        · exact h'.1 p hp

omit [OKey K] in
theorem mem_erase {k : K} {l : List (K × V)} {p : K × V} (h : p ∈ erase k l) : p ∈ l := by
  induction l with
  | nil => simp [erase] at h
  | cons a l ih =>
    obtain ⟨k', v'⟩ := a
    simp only [erase] at h
    split at h
    · exact List.mem_cons_of_mem _ h
    · rcases List.mem_cons.1 h with e | h
      · simp [e]
      · exact List.mem_cons_of_mem _ (ih h)

theorem sorted_erase (k : K) {l : List (K × V)} (h : SortedKeys l) : SortedKeys (erase k l) := by
  induction l with
  | nil => simp [erase, SortedKeys]
  | cons a l ih =>
    obtain ⟨k', v'⟩ := a
    have h' := List.pairwise_cons.1 h
    simp only [erase]
    split
    · exact h'.2
    · exact List.pairwise_cons.2 ⟨fun p hp => h'.1 p (mem_erase hp), ih h'.2⟩

theorem find?_insert (k k' : K) (v : V) (l : List (K × V)) :
    find? k' (insert k v l) = if k = k' then some v else find? k' l := by
  induction l with
  | nil => simp [insert, find?, eq_comm]
  | cons a l ih =>
    obtain ⟨a, w⟩ := a
    simp only [insert]
    split
    · rename_i e; subst e
      simp only [find?]
      by_cases h : k' = k
      · subst h; simp
      · have : ¬ k = k' := fun e => h e.symm
        simp [h, this]
    · split
      · simp only [find?]
        by_cases h : k' = k
        · subst h; simp
        · have : ¬ k = k' := fun e => h e.symm
          simp [h, this]
      · simp only [find?, ih]
        by_cases h : k' = a
        · subst h; simp [*]
        · simp [h]

theorem find?_eq_none_of_lt {k : K} {l : List (K × V)}
    (h : ∀ p ∈ l, OKey.lt k p.1 = true) : find? k l = none := by
  induction l with
  | nil => rfl
  | cons a l ih =>
    obtain ⟨a, w⟩ := a
    simp only [find?]
    split
    · rename_i e; subst e
      have := h (k, w) (by simp)
      simp [OKey.irrefl] at this
    · exact ih (fun p hp => h p (List.mem_cons_of_mem _ hp))

theorem find?_erase (k k' : K) {l : List (K × V)} (hs : SortedKeys l) :
    find? k' (erase k l) = if k = k' then none else find? k' l := by
  induction l with
  | nil => simp [erase, find?]
  | cons a l ih =>
    obtain ⟨a, w⟩ := a
    have h' := List.pairwise_cons.1 hs
    simp only [erase]
    split
    · rename_i e; subst e
      simp only [find?]
      by_cases h : k' = k
      · subst h; simp [find?_eq_none_of_lt (fun p hp => h'.1 p hp)]
      · have : ¬ k = k' := fun e => h e.symm
        simp [h, this]
    · simp only [find?, ih h'.2]
      by_cases h : k' = a
      · subst h; simp [*]
      · simp [h]

omit [OKey K] in
theorem mem_of_find? {k : K} {v : V} {l : List (K × V)} (h : find? k l = some v) : (k, v) ∈ l := by
  induction l with
  | nil => simp [find?] at h
  | cons a l ih =>
    obtain ⟨a, w⟩ := a
    simp only [find?] at h
    split at h
    · simp_all
    · exact List.mem_cons_of_mem _ (ih h)

theorem find?_of_mem {k : K} {v : V} {l : List (K × V)} (hs : SortedKeys l) (h : (k, v) ∈ l) :
    find? k l = some v := by
  induction l with
  | nil => simp at h
  | cons a l ih =>
    obtain ⟨a, w⟩ := a
    have h' := List.pairwise_cons.1 hs
    simp only [find?]
    rcases List.mem_cons.1 h with e | h
    · cases e; simp
    · have := h'.1 _ h
      split
      · rename_i e; subst e; simp [OKey.irrefl] at this
      · exact ih h'.2 h

theorem ext_of_find? {l l' : List (K × V)} (hs : SortedKeys l) (hs' : SortedKeys l')
    (h : ∀ k, find? k l = find? k l') : l = l' := by
  induction l generalizing l' with
  | nil =>
    cases l' with
    | nil => rfl
    | cons a l' => have := h a.1; simp [find?] at this
  | cons a l ih =>
    obtain ⟨a, v⟩ := a
    have hp := List.pairwise_cons.1 hs
    cases l' with
    | nil => have := h a; simp [find?] at this
    | cons b l' =>
      obtain ⟨b, w⟩ := b
      have hp' := List.pairwise_cons.1 hs'
      have hab : a = b := by
        have h1 := h a
        have h2 := h b
        simp only [find?, if_true] at h1 h2
        by_cases e : a = b
        · exact e
        · have e' : ¬ b = a := fun x => e x.symm
          rw [if_neg e] at h1
          rw [if_neg e'] at h2
          have m1 := mem_of_find? h1.symm
          have m2 := mem_of_find? h2
          have l1 := hp'.1 _ m1
          have l2 := hp.1 _ m2
          have := OKey.trans l1 l2
          simp [OKey.irrefl] at this
      subst hab
      have hv : v = w := by have := h a; simpa [find?] using this
      subst hv
      have : l = l' := by
        refine ih hp.2 hp'.2 (fun k => ?_)
        have hk := h k
        simp only [find?] at hk
        by_cases e : k = a
        · subst e
          rw [find?_eq_none_of_lt (fun p hp1 => hp.1 p hp1),
            find?_eq_none_of_lt (fun p hp1 => hp'.1 p hp1)]
        · simpa [e] using hk
      rw [this]

end AList

/-- Ordered map: strictly sorted association list. Models `std::map<K, V>`. -/
structure OMap (K V : Type) [DecidableEq K] [OKey K] where
  /-- entries in key order -/
  toList : List (K × V)
  sorted : SortedKeys toList

/-- Ordered set: models `std::set<K>`. -/
abbrev OSet (K : Type) [DecidableEq K] [OKey K] := OMap K Unit

namespace OMap
variable {K V : Type} [DecidableEq K] [OKey K]

instance [DecidableEq V] : DecidableEq (OMap K V) := fun a b =>
  if h : a.toList = b.toList then
    isTrue (by cases a; cases b; simp at h; subst h; rfl)
  else isFalse (fun e => h (by rw [e]))

/-- The empty map. -/
def empty : OMap K V := ⟨[], List.Pairwise.nil⟩
instance : Inhabited (OMap K V) := ⟨empty⟩
instance : EmptyCollection (OMap K V) := ⟨empty⟩

/-- `map::find`. -/
def find? (m : OMap K V) (k : K) : Option V := AList.find? k m.toList
/-- `map::count != 0`. -/
def contains (m : OMap K V) (k : K) : Bool := (m.find? k).isSome
/-- `m[k] = v`. -/
def insert (m : OMap K V) (k : K) (v : V) : OMap K V :=
  ⟨AList.insert k v m.toList, AList.sorted_insert k v m.sorted⟩
/-- `map::erase(k)`. -/
def erase (m : OMap K V) (k : K) : OMap K V :=
  ⟨AList.erase k m.toList, AList.sorted_erase k m.sorted⟩
/-- `map::emplace` / `map::insert`: keeps an existing entry. -/
def emplace (m : OMap K V) (k : K) (v : V) : OMap K V :=
  if m.contains k then m else m.insert k v
/-- `map::size`. -/
def size (m : OMap K V) : Nat := m.toList.length
/-- Keys in order. -/
def keys (m : OMap K V) : List K := m.toList.map Prod.fst
/-- Keep the entries satisfying a predicate. -/
def filter (m : OMap K V) (p : K → V → Bool) : OMap K V :=
  ⟨m.toList.filter (fun e => p e.1 e.2), List.Pairwise.sublist List.filter_sublist m.sorted⟩
/-- Map the values (in place assignment while iterating). -/
def map {W : Type} (m : OMap K V) (f : K → V → W) : OMap K W :=
  ⟨m.toList.map (fun e => (e.1, f e.1 e.2)), by
    have := m.sorted
    simp only [SortedKeys, List.pairwise_map] at *
    exact this⟩
/-- Build from a list by successive `m[k] = v`. -/
def ofList (l : List (K × V)) : OMap K V := l.foldl (fun m e => m.insert e.1 e.2) empty

theorem ext {m m' : OMap K V} (h : ∀ k, m.find? k = m'.find? k) : m = m' := by
  have := AList.ext_of_find? m.sorted m'.sorted h
  cases m; cases m'; simp at this; subst this; rfl

@[simp] theorem find?_empty (k : K) : (empty : OMap K V).find? k = none := rfl
@[simp] theorem find?_emptyc (k : K) : (∅ : OMap K V).find? k = none := rfl
theorem find?_insert (m : OMap K V) (k : K) (v : V) (k' : K) :
    (m.insert k v).find? k' = if k = k' then some v else m.find? k' :=
  AList.find?_insert k k' v m.toList
@[simp] theorem find?_insert_self (m : OMap K V) (k : K) (v : V) :
    (m.insert k v).find? k = some v := by simp [find?_insert]
theorem find?_insert_ne (m : OMap K V) {k k' : K} (v : V) (h : k ≠ k') :
    (m.insert k v).find? k' = m.find? k' := by simp [find?_insert, h]
theorem find?_erase (m : OMap K V) (k k' : K) :
    (m.erase k).find? k' = if k = k' then none else m.find? k' :=
  AList.find?_erase k k' m.sorted
@[simp] theorem find?_erase_self (m : OMap K V) (k : K) : (m.erase k).find? k = none := by
  simp [find?_erase]
theorem find?_emplace (m : OMap K V) (k : K) (v : V) (k' : K) :
    (m.emplace k v).find? k' = if k = k' then some ((m.find? k).getD v) else m.find? k' := by
  unfold emplace contains
  split
  · split
    · rename_i h e; subst e
      obtain ⟨w, hw⟩ := Option.isSome_iff_exists.1 h
      simp [hw]
    · rfl
  · rename_i h
    have : m.find? k = none := by simpa using h
    rw [find?_insert, this]; rfl

theorem mem_toList {m : OMap K V} {k : K} {v : V} : (k, v) ∈ m.toList ↔ m.find? k = some v :=
  ⟨fun h => AList.find?_of_mem m.sorted h, fun h => AList.mem_of_find? h⟩
theorem mem_keys {m : OMap K V} {k : K} : k ∈ m.keys ↔ m.contains k = true := by
  simp only [keys, List.mem_map, contains, Option.isSome_iff_exists]
  constructor
  · rintro ⟨⟨k', v⟩, h, rfl⟩; exact ⟨v, mem_toList.1 h⟩
  · rintro ⟨v, h⟩; exact ⟨(k, v), mem_toList.2 h, rfl⟩
theorem keys_sorted (m : OMap K V) : m.keys.Pairwise (fun a b => OKey.lt a b = true) := by
  simp only [keys, List.pairwise_map]; exact m.sorted
theorem keys_nodup (m : OMap K V) : m.keys.Nodup := by
  refine List.Pairwise.imp ?_ m.keys_sorted
  intro a b h e; subst e; simp [OKey.irrefl] at h
theorem toList_nodup (m : OMap K V) : m.toList.Nodup := by
  refine List.Pairwise.imp ?_ m.sorted
  intro a b h e; subst e; simp [OKey.irrefl] at h
@[simp] theorem length_keys (m : OMap K V) : m.keys.length = m.size := by simp [keys, size]

theorem contains_eq_true {m : OMap K V} {k : K} : m.contains k = true ↔ ∃ v, m.find? k = some v := by
  simp [contains, Option.isSome_iff_exists]
theorem contains_eq_false {m : OMap K V} {k : K} : m.contains k = false ↔ m.find? k = none := by
  simp [contains]
@[simp] theorem contains_empty (k : K) : (empty : OMap K V).contains k = false := rfl
theorem contains_insert (m : OMap K V) (k : K) (v : V) (k' : K) :
    (m.insert k v).contains k' = (decide (k = k') || m.contains k') := by
  unfold contains; rw [find?_insert]; by_cases h : k = k' <;> simp [h]
theorem contains_erase (m : OMap K V) (k k' : K) :
    (m.erase k).contains k' = (!decide (k = k') && m.contains k') := by
  unfold contains; rw [find?_erase]; by_cases h : k = k' <;> simp [h]

theorem find?_filter (m : OMap K V) (p : K → V → Bool) (k : K) :
    (m.filter p).find? k = (m.find? k).filter (p k) := by
  cases h : m.find? k with
  | none =>
    cases h' : (m.filter p).find? k with
    | none => rfl
    | some v =>
      have := mem_toList.2 h'
      simp only [filter, List.mem_filter] at this
      rw [mem_toList.1 this.1] at h; cases h
  | some v =>
    have hm := mem_toList.2 h
    by_cases hp : p k v = true
    · simp only [Option.filter, hp, if_true]
      exact mem_toList.1 (by simp only [filter, List.mem_filter]; exact ⟨hm, hp⟩)
    · simp only [Option.filter, hp]
      cases h' : (m.filter p).find? k with
      | none => simp
      | some w =>
        have := mem_toList.2 h'
        simp only [filter, List.mem_filter] at this
        have e := mem_toList.1 this.1
        rw [h] at e; cases e
        exact absurd this.2 hp
theorem find?_map {W : Type} (m : OMap K V) (f : K → V → W) (k : K) :
    (m.map f).find? k = (m.find? k).map (f k) := by
  cases h : m.find? k with
  | none =>
    cases h' : (m.map f).find? k with
    | none => rfl
    | some v =>
      have := mem_toList.2 h'
      simp only [map, List.mem_map] at this
      obtain ⟨⟨a, b⟩, hab, e⟩ := this
      simp only [Prod.mk.injEq] at e
      obtain ⟨rfl, rfl⟩ := e
      rw [mem_toList.1 hab] at h; cases h
  | some v =>
    have hm := mem_toList.2 h
    exact mem_toList.1 (by simp only [map, List.mem_map]; exact ⟨(k, v), hm, rfl⟩)
@[simp] theorem keys_map {W : Type} (m : OMap K V) (f : K → V → W) : (m.map f).keys = m.keys := by
  simp [keys, map]
@[simp] theorem size_map {W : Type} (m : OMap K V) (f : K → V → W) : (m.map f).size = m.size := by
  simp [size, map]

theorem insert_of_find? {m : OMap K V} {k : K} {v : V} (h : m.find? k = some v) :
    m.insert k v = m := by
  apply ext; intro k'; rw [find?_insert]; split
  · rename_i e; subst e; rw [h]
  · rfl
theorem erase_of_find?_none {m : OMap K V} {k : K} (h : m.find? k = none) : m.erase k = m := by
  apply ext; intro k'; rw [find?_erase]; split
  · rename_i e; subst e; rw [h]
  · rfl
theorem insert_insert (m : OMap K V) (k : K) (v w : V) : (m.insert k v).insert k w = m.insert k w := by
  apply ext; intro k'; simp only [find?_insert]; split <;> rfl

/-- Set membership / insertion for `OSet`. -/
def add (s : OSet K) (k : K) : OSet K := s.insert k ()
@[simp] theorem contains_add (s : OSet K) (k k' : K) :
    (s.add k).contains k' = (decide (k = k') || s.contains k') := contains_insert s k () k'
theorem set_ext {s t : OSet K} (h : ∀ k, s.contains k = t.contains k) : s = t := by
  apply ext; intro k
  have := h k
  unfold contains at this
  cases h1 : s.find? k <;> cases h2 : t.find? k <;> simp_all

end OMap
end Verif
