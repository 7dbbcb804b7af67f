import Verif.Spec.Graph
/-! # Arithmetic of identifiers (helper lemmas) -/

namespace Verif

namespace EdgeKey

theorem of_comm (a b : NodeId) : of a b = of b a := by
  simp only [of, EdgeKey.mk.injEq]
  constructor <;> split <;> split <;> simp_all [UInt64.lt_iff_toNat_lt, ← UInt64.toNat_inj] <;> omega

theorem of_eq (a b : NodeId) : (of a b = ⟨a, b⟩ ∧ ¬ b < a) ∨ (of a b = ⟨b, a⟩ ∧ ¬ a < b) := by
  by_cases h : b < a
  · right
    have h2 : ¬ a < b := by simp [UInt64.lt_iff_toNat_lt] at *; omega
    simp [of, h, h2]
  · left
    by_cases h2 : a < b
    · simp [of, h, h2]
    · have : a = b := by
        simp [UInt64.lt_iff_toNat_lt, ← UInt64.toNat_inj] at *; omega
      subst this; simp [of]

theorem of_inj {a b c d : NodeId} : of a b = of c d ↔ (a = c ∧ b = d) ∨ (a = d ∧ b = c) := by
  constructor
  · intro h
    rcases of_eq a b with ⟨h1, _⟩ | ⟨h1, _⟩ <;> rcases of_eq c d with ⟨h2, _⟩ | ⟨h2, _⟩ <;>
      rw [h1, h2] at h <;> simp at h <;> simp [h]
  · rintro (⟨rfl, rfl⟩ | ⟨rfl, rfl⟩)
    · rfl
    · exact of_comm _ _

theorem has_of (a b n : NodeId) : (of a b).has n = (a == n || b == n) := by
  rcases of_eq a b with ⟨h1, _⟩ | ⟨h1, _⟩ <;> simp [h1, has, Bool.or_comm]

theorem has_of_left (a b : NodeId) : (of a b).has a = true := by simp [has_of]
theorem has_of_right (a b : NodeId) : (of a b).has b = true := by simp [has_of]

/-- Keys built by the constructor are ordered. -/
theorem of_k1_k2 (a b : NodeId) : of (of a b).k1 (of a b).k2 = of a b := by
  rcases of_eq a b with ⟨h1, _⟩ | ⟨h1, _⟩
  · rw [h1]; exact h1
  · rw [h1]; simp only; rw [of_comm]; exact h1

end EdgeKey

namespace Prefix

theorem makeId_toNat (p : Prefix) {i : Nat} (h : i < 2 ^ 32) :
    (makeId p i).toNat = p.toNat * 2 ^ 32 + i := by
  have hp := p.toNat_lt
  unfold makeId
  simp only [UInt64.toNat_add, UInt64.toNat_shiftLeft, UInt32.toNat_toUInt64, UInt64.toNat_ofNat',
    Nat.shiftLeft_eq]
  have : (32 : UInt64).toNat % 64 = 32 := by decide
  rw [this]
  omega

theorem index_eq (p : Prefix) (n : NodeId) : index p n = n.toNat % 2 ^ 32 := by
  unfold index
  rw [UInt64.toNat_and]
  have : (0xFFFFFFFF : UInt64).toNat = 2 ^ 32 - 1 := by decide
  rw [this, Nat.and_two_pow_sub_one_eq_mod]

theorem index_lt (p : Prefix) (n : NodeId) : index p n < 2 ^ 32 := by
  rw [index_eq]; omega

theorem fromId_toNat (n : NodeId) : (fromId n).toNat = n.toNat / 2 ^ 32 := by
  unfold fromId
  have hn := n.toNat_lt
  simp only [UInt64.toNat_toUInt32, UInt64.toNat_shiftRight, Nat.shiftRight_eq_div_pow]
  have : (32 : UInt64).toNat % 64 = 32 := by decide
  rw [this]
  omega

theorem isMatch_iff (p : Prefix) (n : NodeId) : isMatch p n = true ↔ p = fromId n := by
  simp [isMatch, fromId]

theorem isMatch_makeId (p : Prefix) {i : Nat} (h : i < 2 ^ 32) : isMatch p (makeId p i) = true := by
  rw [isMatch_iff]
  apply UInt32.toNat.inj
  rw [fromId_toNat, makeId_toNat p h]
  omega

theorem index_makeId (p q : Prefix) {i : Nat} (h : i < 2 ^ 32) : index q (makeId p i) = i := by
  rw [index_eq, makeId_toNat p h]; omega

theorem makeId_index {p : Prefix} {n : NodeId} (h : isMatch p n = true) : makeId p (index p n) = n := by
  rw [isMatch_iff] at h
  subst h
  apply UInt64.toNat.inj
  rw [makeId_toNat _ (index_lt _ _), index_eq, fromId_toNat]
  omega

theorem eq_of_index {p : Prefix} {n m : NodeId} (hn : isMatch p n = true) (hm : isMatch p m = true)
    (h : index p n = index p m) : n = m := by
  rw [← makeId_index hn, ← makeId_index hm, h]

theorem categoryId_toNat (n : NodeId) : (NodeSymbol.categoryId n).toNat = n.toNat % 2 ^ 56 := by
  unfold NodeSymbol.categoryId
  rw [UInt64.toNat_and]
  have : (0xFFFFFFFFFFFFFF : UInt64).toNat = 2 ^ 56 - 1 := by decide
  rw [this, Nat.and_two_pow_sub_one_eq_mod]

theorem categoryId_of_plain {p : Prefix} {n : NodeId} (hp : plain p = true) (hn : isMatch p n = true) :
    (NodeSymbol.categoryId n).toNat = index p n := by
  rw [isMatch_iff] at hn
  subst hn
  simp only [plain, beq_iff_eq, fromId_toNat] at hp
  rw [categoryId_toNat, index_eq]
  omega

end Prefix
end Verif
