import Verif.Model.Json
import Verif.Spec.Utf8
/-! # The table of well-formed UTF-8 accepts exactly the encodings of texts -/

namespace Verif

theorem utf8_enc {v : Nat} {a : UInt8} (h : v < 256) (e : a = UInt8.ofNat v) : a.toNat = v := by subst e; simp [UInt8.toNat_ofNat', Nat.mod_eq_of_lt h]

theorem contByte_iff {b lo hi : UInt8} : contByte b lo hi = true ↔ lo.toNat ≤ b.toNat ∧ b.toNat ≤ hi.toNat := by
  simp only [contByte, Bool.and_eq_true, decide_eq_true_eq, UInt8.le_iff_toNat_le]

/-- What one step of the table accepts. -/
theorem utf8_cons {a : UInt8} {l : Str} : utf8 (a :: l) = true ↔
    (a.toNat < 128 ∧ utf8 l = true) ∨
    (∃ b r, l = b :: r ∧ 194 ≤ a.toNat ∧ a.toNat ≤ 223 ∧ 128 ≤ b.toNat ∧ b.toNat ≤ 191 ∧ utf8 r = true) ∨
    (∃ b c r, l = b :: c :: r ∧ 224 ≤ a.toNat ∧ a.toNat ≤ 239 ∧ (if a.toNat = 224 then 160 else 128) ≤ b.toNat ∧
      b.toNat ≤ (if a.toNat = 237 then 159 else 191) ∧ 128 ≤ c.toNat ∧ c.toNat ≤ 191 ∧ utf8 r = true) ∨
    (∃ b c d r, l = b :: c :: d :: r ∧ 240 ≤ a.toNat ∧ a.toNat ≤ 244 ∧ (if a.toNat = 240 then 144 else 128) ≤ b.toNat ∧
      b.toNat ≤ (if a.toNat = 244 then 143 else 191) ∧ 128 ≤ c.toNat ∧ c.toNat ≤ 191 ∧ 128 ≤ d.toNat ∧ d.toNat ≤ 191 ∧ utf8 r = true) := by
  have L : ∀ x : UInt8, a < x ↔ a.toNat < x.toNat := fun x => UInt8.lt_iff_toNat_lt
  have G : ∀ x : UInt8, x ≤ a ↔ x.toNat ≤ a.toNat := fun x => UInt8.le_iff_toNat_le
  have G' : ∀ x : UInt8, a ≤ x ↔ a.toNat ≤ x.toNat := fun x => UInt8.le_iff_toNat_le
  have Q : ∀ x : UInt8, a = x ↔ a.toNat = x.toNat := fun x => UInt8.toNat_inj.symm
  have T : ∀ (c : Prop) [Decidable c] (x y : UInt8), (if c then x else y).toNat = if c then x.toNat else y.toNat := by
    intro c _ x y; split <;> rfl
  have k1 : (0x80 : UInt8).toNat = 128 := rfl
  have k2 : (0xC2 : UInt8).toNat = 194 := rfl
  have k3 : (0xDF : UInt8).toNat = 223 := rfl
  have k4 : (0xE0 : UInt8).toNat = 224 := rfl
  have k5 : (0xEF : UInt8).toNat = 239 := rfl
  have k6 : (0xF0 : UInt8).toNat = 240 := rfl
  have k7 : (0xF4 : UInt8).toNat = 244 := rfl
  have k8 : (0xBF : UInt8).toNat = 191 := rfl
  have k9 : (0xA0 : UInt8).toNat = 160 := rfl
  have k10 : (0x9F : UInt8).toNat = 159 := rfl
  have k11 : (0xED : UInt8).toNat = 237 := rfl
  have k12 : (0x90 : UInt8).toNat = 144 := rfl
  have k13 : (0x8F : UInt8).toNat = 143 := rfl
  rw [utf8.eq_def]
  simp only [L, k1]
  by_cases h0 : a.toNat < 128
  · simp only [if_pos h0]
    constructor
    · intro h; exact .inl ⟨h0, h⟩
    · rintro (h | ⟨b, r, -, h, _⟩ | ⟨b, c, r, -, h, _⟩ | ⟨b, c, d, r, -, h, _⟩)
      · exact h.2
      all_goals omega
  · simp only [if_neg h0]
    match l with
    | [] => simp [h0]
    | b :: l =>
      simp only [Bool.and_eq_true, decide_eq_true_eq, G, G', k2, k3]
      by_cases h1 : 194 ≤ a.toNat ∧ a.toNat ≤ 223
      · simp only [if_pos h1, Bool.and_eq_true, contByte_iff, k1, k8]
        constructor
        · rintro ⟨⟨x, y⟩, z⟩; exact .inr (.inl ⟨b, l, rfl, h1.1, h1.2, x, y, z⟩)
        · rintro (h | ⟨b', r, e, h⟩ | ⟨b', c, r, -, h, _⟩ | ⟨b', c, d, r, -, h, _⟩)
          · omega
          · cases e; exact ⟨⟨h.2.2.1, h.2.2.2.1⟩, h.2.2.2.2⟩
          all_goals omega
      · simp only [if_neg h1]
        match l with
        | [] =>
          simp only [Bool.false_eq_true, false_iff]
          rintro (h | ⟨b', r, e, h⟩ | ⟨b', c, r, e, _⟩ | ⟨b', c, d, r, e, _⟩)
          · omega
          · omega
          · cases e
          · cases e
        | c :: l =>
          simp only [Bool.and_eq_true, decide_eq_true_eq, G, G', k4, k5]
          by_cases h2 : 224 ≤ a.toNat ∧ a.toNat ≤ 239
          · simp only [if_pos h2, Bool.and_eq_true, contByte_iff, k1, k8, T, Q, k4, k9, k10, k11]
            constructor
            · rintro ⟨⟨⟨x, y⟩, z, w⟩, u⟩; exact .inr (.inr (.inl ⟨b, c, l, rfl, h2.1, h2.2, x, y, z, w, u⟩))
            · rintro (h | ⟨b', r, e, h⟩ | ⟨b', c', r, e, h⟩ | ⟨b', c', d, r, -, h, _⟩)
              · omega
              · omega
              · cases e; exact ⟨⟨⟨h.2.2.1, h.2.2.2.1⟩, h.2.2.2.2.1, h.2.2.2.2.2.1⟩, h.2.2.2.2.2.2⟩
              · omega
          · simp only [if_neg h2]
            match l with
            | [] =>
              simp only [Bool.false_eq_true, false_iff]
              rintro (h | ⟨b', r, e, h⟩ | ⟨b', c', r, e, h⟩ | ⟨b', c', d, r, e, _⟩)
              · omega
              · omega
              · omega
              · cases e
            | d :: l =>
              simp only [Bool.and_eq_true, decide_eq_true_eq, contByte_iff, G, G', k1, k8, T, Q, k6, k7, k12, k13]
              constructor
              · rintro ⟨⟨⟨⟨⟨x, y⟩, z, w⟩, u, v⟩, s, t⟩, r⟩
                exact .inr (.inr (.inr ⟨b, c, d, l, rfl, x, y, z, w, u, v, s, t, r⟩))
              · rintro (h | ⟨b', r, e, h⟩ | ⟨b', c', r, e, h⟩ | ⟨b', c', d', r, e, h1, h2, h3, h4, h5, h6, h7, h8, h9⟩)
                · omega
                · omega
                · omega
                · cases e; exact ⟨⟨⟨⟨⟨h1, h2⟩, h3, h4⟩, h5, h6⟩, h7, h8⟩, h9⟩

/-- the encoding of one character is accepted -/
theorem utf8_encode (c : Char) (l : Str) (h : utf8 l = true) : utf8 (String.utf8EncodeChar c ++ l) = true := by
  have hv : c.val.toNat.isValidChar := c.valid
  unfold String.utf8EncodeChar
  generalize c.val.toNat = v at hv
  simp only [Nat.isValidChar] at hv
  have E : ∀ n, n < 256 → (UInt8.ofNat n).toNat = n := fun n hn => utf8_enc hn rfl
  simp only
  split
  · rw [List.singleton_append, utf8_cons, E _ (by omega)]
    exact .inl ⟨by omega, h⟩
  split
  · rw [List.cons_append, List.singleton_append, utf8_cons, E _ (by omega)]
    refine .inr (.inl ⟨_, _, rfl, by omega, by omega, ?_, ?_, h⟩) <;> rw [E _ (by omega)] <;> omega
  split
  · rw [List.cons_append, List.cons_append, List.singleton_append, utf8_cons, E _ (by omega)]
    refine .inr (.inr (.inl ⟨_, _, _, rfl, by omega, by omega, ?_, ?_, ?_, ?_, h⟩)) <;> rw [E _ (by omega)] <;> (try split) <;> omega
  · rw [List.cons_append, List.cons_append, List.cons_append, List.singleton_append, utf8_cons, E _ (by omega)]
    refine .inr (.inr (.inr ⟨_, _, _, _, rfl, by omega, by omega, ?_, ?_, ?_, ?_, ?_, ?_, h⟩)) <;> rw [E _ (by omega)] <;> (try split) <;> omega

theorem utf8_char {v : Nat} (hv : v.isValidChar) : String.utf8EncodeChar (Char.ofNat v) =
    (if v ≤ 127 then [UInt8.ofNat v]
    else if v ≤ 2047 then [UInt8.ofNat (v / 64 % 32 + 192), UInt8.ofNat (v % 64 + 128)]
    else if v ≤ 65535 then [UInt8.ofNat (v / 4096 % 16 + 224), UInt8.ofNat (v / 64 % 64 + 128), UInt8.ofNat (v % 64 + 128)]
    else [UInt8.ofNat (v / 262144 % 8 + 240), UInt8.ofNat (v / 4096 % 64 + 128), UInt8.ofNat (v / 64 % 64 + 128),
          UInt8.ofNat (v % 64 + 128)]) := by
  have : (Char.ofNat v).val.toNat = v := by
    unfold Char.ofNat; rw [dif_pos hv]; rfl
  unfold String.utf8EncodeChar
  rw [this]

theorem utf8_ofNat {a : UInt8} {n : Nat} (h : n = a.toNat) : UInt8.ofNat n = a := by subst h; simp

/-- `dump` accepts exactly the strings that are text. -/
theorem utf8_iff (s : Str) : utf8 s = true ↔ s.IsText := by
  constructor
  · have key : ∀ n (s : Str), s.length ≤ n → utf8 s = true → s.IsText := by
      intro n
      induction n with
      | zero => intro s hs _; exact ⟨[], by cases s <;> simp_all⟩
      | succ n ih =>
        intro s hs h
        match s with
        | [] => exact ⟨[], rfl⟩
        | a :: l =>
          simp only [List.length_cons] at hs
          have cons : ∀ (v : Nat) (p r : Str), v.isValidChar → String.utf8EncodeChar (Char.ofNat v) = p → r.IsText → Str.IsText (p ++ r) := by
            rintro v p r hv e ⟨cs, ec⟩
            exact ⟨Char.ofNat v :: cs, by rw [List.flatMap_cons, e, ec]⟩
          rcases utf8_cons.1 h with ⟨h1, h2⟩ | ⟨b, r, e, h1, h2, h3, h4, h5⟩ | ⟨b, c, r, e, h1, h2, h3, h4, h5, h6, h7⟩ |
            ⟨b, c, d, r, e, h1, h2, h3, h4, h5, h6, h7, h8, h9⟩
          · refine cons a.toNat [a] l (.inl (by omega)) ?_ (ih l (by omega) h2)
            rw [utf8_char (.inl (by omega)), if_pos (by omega)]; simp
          · subst e
            have hv : ((a.toNat - 192) * 64 + (b.toNat - 128)).isValidChar := .inl (by omega)
            refine cons _ [a, b] r hv ?_ (ih r (by simp at hs; omega) h5)
            rw [utf8_char hv, if_neg (by omega), if_pos (by omega), utf8_ofNat (by omega : _ = a.toNat), utf8_ofNat (by omega : _ = b.toNat)]
          · subst e
            have hv : ((a.toNat - 224) * 4096 + (b.toNat - 128) * 64 + (c.toNat - 128)).isValidChar := by
              unfold Nat.isValidChar; split at h3 <;> split at h4 <;> omega
            have hb : 128 ≤ b.toNat ∧ b.toNat ≤ 191 := by split at h3 <;> split at h4 <;> omega
            have ha : 224 = a.toNat → 160 ≤ b.toNat := by intro x; rw [if_pos x.symm] at h3; exact h3
            refine cons _ [a, b, c] r hv ?_ (ih r (by simp at hs; omega) h7)
            rw [utf8_char hv, if_neg (by omega), if_neg (by omega), if_pos (by omega), utf8_ofNat (by omega : _ = a.toNat),
              utf8_ofNat (by omega : _ = b.toNat), utf8_ofNat (by omega : _ = c.toNat)]
          · subst e
            have hv : ((a.toNat - 240) * 262144 + (b.toNat - 128) * 4096 + (c.toNat - 128) * 64 + (d.toNat - 128)).isValidChar := by
              unfold Nat.isValidChar; split at h3 <;> split at h4 <;> omega
            have hb : 128 ≤ b.toNat ∧ b.toNat ≤ 191 := by split at h3 <;> split at h4 <;> omega
            have ha : 240 = a.toNat → 144 ≤ b.toNat := by intro x; rw [if_pos x.symm] at h3; exact h3
            refine cons _ [a, b, c, d] r hv ?_ (ih r (by simp at hs; omega) h9)
            rw [utf8_char hv, if_neg (by omega), if_neg (by omega), if_neg (by omega), utf8_ofNat (by omega : _ = a.toNat),
              utf8_ofNat (by omega : _ = b.toNat), utf8_ofNat (by omega : _ = c.toNat), utf8_ofNat (by omega : _ = d.toNat)]
    exact key s.length s (Nat.le_refl _)
  · rintro ⟨cs, rfl⟩
    induction cs with
    | nil => rfl
    | cons c cs ih => rw [List.flatMap_cons]; exact utf8_encode c _ ih

instance (s : Str) : Decidable s.IsText := decidable_of_iff _ (utf8_iff s)
end Verif
