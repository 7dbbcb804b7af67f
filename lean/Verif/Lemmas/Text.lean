import Verif.Model.Text
import Verif.Refine.Ids
/-! # Lemmas on strings, paths and decimal numbers -/

namespace Verif

/-! ## Splitting at the last occurrence of a byte -/

/-- what follows the last `x` in `l` (all of `l` if there is none) -/
def afterLast (x : UInt8) (l : Str) : Str := (l.reverse.takeWhile (· != x)).reverse

theorem afterLast_of_split {x : UInt8} {a b : Str} (hb : x ∉ b) (ha : a = [] ∨ ∃ a', a = a' ++ [x]) :
    afterLast x (a ++ b) = b := by
  unfold afterLast
  have h1 : ∀ y ∈ b.reverse, (y != x) = true := by
    intro y hy
    simp only [List.mem_reverse] at hy
    simp only [bne_iff_ne, ne_eq]
    rintro rfl; exact hb hy
  have h2 : a.reverse.takeWhile (· != x) = [] := by
    rcases ha with rfl | ⟨a', rfl⟩ <;> simp
  rw [List.reverse_append, List.takeWhile_append_of_pos h1, h2]
  simp

theorem split_afterLast (x : UInt8) (l : Str) :
    ∃ a, l = a ++ afterLast x l ∧ x ∉ afterLast x l ∧ (a = [] ∨ ∃ a', a = a' ++ [x]) := by
  refine ⟨(l.reverse.dropWhile (· != x)).reverse, ?_, ?_, ?_⟩
  · unfold afterLast
    rw [← List.reverse_append, List.takeWhile_append_dropWhile, List.reverse_reverse]
  · unfold afterLast
    rw [List.mem_reverse]
    intro h
    have := List.all_takeWhile (l := l.reverse) (p := fun y => y != x)
    rw [List.all_eq_true] at this
    simpa using this x h
  · cases h : l.reverse.dropWhile (· != x) with
    | nil => exact .inl rfl
    | cons y t =>
      have := List.head_dropWhile_not (fun y => y != x) (l := l.reverse) (by rw [h]; simp)
      simp only [h, List.head_cons, bne_eq_false_iff_eq] at this
      subst this
      exact .inr ⟨t.reverse, by simp⟩

/-! ## Decimal numbers -/

theorem decRev_digits (fuel n : Nat) : ∀ c ∈ decRev fuel n, isDigit c = true := by
  induction fuel generalizing n with
  | zero => simp [decRev]
  | succ f ih =>
    have hd : ∀ k, k < 10 → isDigit (UInt8.ofNat (48 + k)) = true := by
      intro k hk
      have e : (UInt8.ofNat (48 + k)).toNat = 48 + k := by simp; omega
      simp only [isDigit, UInt8.le_iff_toNat_le, e, Bool.and_eq_true, decide_eq_true_eq]
      exact ⟨by simp, by simp; omega⟩
    unfold decRev
    intro c hc
    split at hc
    · rename_i h; simp only [List.mem_singleton] at hc; subst hc; exact hd n h
    · simp only [List.mem_cons] at hc
      rcases hc with rfl | hc
      · exact hd _ (Nat.mod_lt _ (by omega))
      · exact ih _ _ hc

theorem decRev_val (fuel n : Nat) (h : n < fuel) :
    (decRev fuel n).reverse.foldl (fun v c => 10 * v + (c.toNat - 48)) 0 = n := by
  induction fuel generalizing n with
  | zero => omega
  | succ f ih =>
    have hd : ∀ k, k < 10 → (UInt8.ofNat (48 + k)).toNat - 48 = k := by
      intro k hk
      have e : (UInt8.ofNat (48 + k)).toNat = 48 + k := by simp; omega
      omega
    unfold decRev
    split
    · rename_i h0; simp only [List.reverse_singleton, List.foldl_cons, List.foldl_nil, hd n h0]; omega
    · rename_i h0
      rw [List.reverse_cons, List.foldl_append, ih (n / 10) (by omega)]
      simp only [List.foldl_cons, List.foldl_nil, hd (n % 10) (Nat.mod_lt _ (by omega))]
      omega

theorem dec_digits (n : Nat) : ∀ c ∈ dec n, isDigit c = true := by
  intro c hc; exact decRev_digits (n + 1) n c (by simpa [dec] using hc)
theorem dec_ne_nil (n : Nat) : dec n ≠ [] := by
  simp only [dec, decRev]; split <;> simp
theorem takeWhile_dec (n : Nat) (t : Str) (ht : ∀ c, t.head? = some c → isDigit c = false) :
    (dec n ++ t).takeWhile isDigit = dec n := by
  rw [List.takeWhile_append_of_pos (dec_digits n)]
  cases t with
  | nil => simp
  | cons c t => simp [ht c rfl]
theorem digitsVal_dec (n : Nat) (t : Str) (ht : ∀ c, t.head? = some c → isDigit c = false) :
    digitsVal (dec n ++ t) = n := by
  unfold digitsVal; rw [takeWhile_dec n t ht]; exact decRev_val (n + 1) n (by omega)

theorem isDigit_not {c : UInt8} (h : isDigit c = true) : isSpace c = false ∧ c ≠ 45 ∧ c ≠ 43 ∧ isAlpha c = false := by
  simp only [isDigit, Bool.and_eq_true, decide_eq_true_eq, UInt8.le_iff_toNat_le] at h
  obtain ⟨h1, h2⟩ := h
  have h1 : 48 ≤ c.toNat := h1
  have h2 : c.toNat ≤ 57 := h2
  refine ⟨?_, ?_, ?_, ?_⟩
  · simp only [isSpace, Bool.or_eq_false_iff, beq_eq_false_iff_ne, ne_eq, ← UInt8.toNat_inj, Bool.and_eq_false_iff, decide_eq_false_iff_not,
      UInt8.le_iff_toNat_le]
    exact ⟨by simp; omega, .inr (by simp; omega)⟩
  · rintro rfl; simp at h1
  · rintro rfl; simp at h1
  · simp only [isAlpha, Bool.or_eq_false_iff, Bool.and_eq_false_iff, decide_eq_false_iff_not, UInt8.le_iff_toNat_le]
    exact ⟨.inl (by simp; omega), .inl (by simp; omega)⟩

theorem stoull_dec (n : Nat) (h : n < 2 ^ 64) : stoull (dec n) = .ok (UInt64.ofNat n) := by
  have e : ∃ c t, dec n = c :: t := by
    cases hd : dec n with
    | nil => exact absurd hd (dec_ne_nil n)
    | cons c t => exact ⟨c, t, rfl⟩
  obtain ⟨c, t, e⟩ := e
  have hc : isDigit c = true := dec_digits n c (by rw [e]; simp)
  obtain ⟨h1, h2, h3, _⟩ := isDigit_not hc
  have e1 : (dec n).dropWhile isSpace = dec n := by rw [e]; simp [h1]
  have e2 : ((dec n).head? == some 45) = false := by rw [e]; simp [h2]
  have e3 : ((dec n).head? == some 43) = false := by rw [e]; simp [h3]
  have e4 : (dec n).takeWhile isDigit = dec n := by
    have := takeWhile_dec n [] (by simp); simpa using this
  have e5 : digitsVal (dec n) = n := by
    have := digitsVal_dec n [] (by simp); simpa using this
  have e6 : (dec n).isEmpty = false := by rw [e]; rfl
  unfold stoull
  simp only [e1, e2, e3, Bool.or_self, Bool.false_eq_true, if_false, e4, e5, e6, Nat.not_le.2 h]

/-! ## Bit fields -/

theorem NodeSymbol.make_toNat (key : UInt8) (idx : NodeId) :
    (make key idx).toNat = key.toNat * 2 ^ 56 + idx.toNat % 2 ^ 56 := by
  have h1 : (idx &&& 0xFFFFFFFFFFFFFF).toNat = idx.toNat % 2 ^ 56 := Prefix.categoryId_toNat idx
  have hk : key.toNat < 2 ^ 8 := key.toNat_lt
  have h2 : (key.toUInt64 <<< 56).toNat = key.toNat <<< 56 := by
    simp only [UInt64.toNat_shiftLeft, UInt8.toNat_toUInt64]
    simp only [show (56 : UInt64).toNat % 64 = 56 by rfl]
    rw [Nat.mod_eq_of_lt]
    rw [Nat.shiftLeft_eq]; omega
  unfold make
  rw [UInt64.toNat_or, h1, h2, ← Nat.shiftLeft_add_eq_or_of_lt (Nat.mod_lt _ (by omega)), Nat.shiftLeft_eq]

theorem NodeSymbol.category_toNat (n : NodeId) : (category n).toNat = n.toNat / 2 ^ 56 := by
  unfold category
  have := n.toNat_lt
  simp only [UInt64.toNat_toUInt8, UInt64.toNat_shiftRight]
  simp only [show (56 : UInt64).toNat % 64 = 56 by rfl, Nat.shiftRight_eq_div_pow]
  omega

theorem Prefix.ofKey_toNat (key : UInt8) (i : UInt32) : (ofKey key i).toNat = key.toNat * 2 ^ 24 + i.toNat % 2 ^ 24 := by
  have h1 : (i &&& 0xFFFFFF).toNat = i.toNat % 2 ^ 24 := by
    rw [UInt32.toNat_and]
    exact Nat.and_two_pow_sub_one_eq_mod i.toNat 24
  have hk : key.toNat < 2 ^ 8 := key.toNat_lt
  have h2 : (key.toUInt32 <<< 24).toNat = key.toNat <<< 24 := by
    simp only [UInt32.toNat_shiftLeft, UInt8.toNat_toUInt32]
    simp only [show (24 : UInt32).toNat % 32 = 24 by rfl]
    rw [Nat.mod_eq_of_lt]
    rw [Nat.shiftLeft_eq]; omega
  unfold ofKey
  rw [UInt32.toNat_or, h1, h2, ← Nat.shiftLeft_add_eq_or_of_lt (Nat.mod_lt _ (by omega)), Nat.shiftLeft_eq]

theorem Prefix.key_toNat (p : Prefix) : p.key.toNat = p.toNat / 2 ^ 24 := by
  unfold key
  have := p.toNat_lt
  simp only [UInt32.toNat_toUInt8, UInt32.toNat_shiftRight]
  simp only [show (24 : UInt32).toNat % 32 = 24 by rfl, Nat.shiftRight_eq_div_pow]
  omega

theorem Prefix.subIndex_toNat (p : Prefix) : p.subIndex.toNat = p.toNat % 2 ^ 24 := by
  unfold subIndex
  rw [UInt32.toNat_and]
  exact Nat.and_two_pow_sub_one_eq_mod p.toNat 24

end Verif
