import Verif.Spec.Disk
/-! # A JSON library that meets the specification: used only to show that the specification can be met -/

namespace Verif
namespace ToyJson

/-- a number in unary -/
def nat (n : Nat) : List UInt8 := List.replicate n 1 ++ [0]
/-- a string, with a mark before every byte -/
def bytes : Str → List UInt8
  | [] => [0]
  | b :: s => 1 :: b :: bytes s

mutual
/-- Some printed form in which no text is the beginning of another. -/
def enc : Json → List UInt8
  | .null => [0]
  | .bool b => [1, if b then 1 else 0]
  | .uint n => 2 :: nat n.toNat
  | .int n => 3 :: nat n.toNat
  | .num d => 4 :: nat d.toNat
  | .str s => 5 :: bytes s
  | .arr l => 6 :: encAll l
  | .obj fs => 7 :: encFields fs
def encAll : List Json → List UInt8
  | [] => [0]
  | j :: l => 1 :: (enc j ++ encAll l)
def encFields : List (Str × Json) → List UInt8
  | [] => [0]
  | (k, j) :: l => 1 :: (bytes k ++ (enc j ++ encFields l))
end

theorem nat_inj {a b : Nat} {r r' : List UInt8} (h : nat a ++ r = nat b ++ r') : a = b ∧ r = r' := by
  induction a generalizing b with
  | zero =>
    cases b with
    | zero => simp [nat] at h; exact ⟨rfl, h⟩
    | succ b => simp [nat, List.replicate_succ] at h
  | succ a ih =>
    cases b with
    | zero => simp [nat, List.replicate_succ] at h
    | succ b =>
      have : nat a ++ r = nat b ++ r' := by simpa [nat, List.replicate_succ] using h
      obtain ⟨h1, h2⟩ := ih this
      exact ⟨by rw [h1], h2⟩

theorem bytes_inj {s t : Str} {r r' : List UInt8} (h : bytes s ++ r = bytes t ++ r') : s = t ∧ r = r' := by
  induction s generalizing t with
  | nil =>
    cases t with
    | nil => simp [bytes] at h; exact ⟨rfl, h⟩
    | cons b t => simp [bytes] at h
  | cons a s ih =>
    cases t with
    | nil => simp [bytes] at h
    | cons b t =>
      simp only [bytes, List.cons_append, List.cons.injEq, true_and] at h
      obtain ⟨h1, h2⟩ := ih h.2
      exact ⟨by rw [h.1, h1], h2⟩

mutual
theorem enc_inj : ∀ (j j' : Json) (r r' : List UInt8), enc j ++ r = enc j' ++ r' → j = j' ∧ r = r'
  | .null, j', r, r', h => by
    cases j' <;> simp [enc] at h
    exact ⟨rfl, h⟩
  | .bool b, j', r, r', h => by
    cases j' <;> simp [enc] at h
    rename_i b'
    refine ⟨?_, h.2⟩
    have := h.1
    cases b <;> cases b' <;> simp_all
  | .uint n, j', r, r', h => by
    cases j' <;> simp [enc] at h
    obtain ⟨h1, h2⟩ := nat_inj h
    exact ⟨by rw [UInt64.toNat_inj.1 h1], h2⟩
  | .int n, j', r, r', h => by
    cases j' <;> simp [enc] at h
    obtain ⟨h1, h2⟩ := nat_inj h
    exact ⟨by rw [UInt64.toNat_inj.1 h1], h2⟩
  | .num n, j', r, r', h => by
    cases j' <;> simp [enc] at h
    obtain ⟨h1, h2⟩ := nat_inj h
    exact ⟨by rw [UInt64.toNat_inj.1 h1], h2⟩
  | .str s, j', r, r', h => by
    cases j' <;> simp [enc] at h
    obtain ⟨h1, h2⟩ := bytes_inj h
    exact ⟨by rw [h1], h2⟩
  | .arr l, j', r, r', h => by
    cases j' <;> simp [enc] at h
    obtain ⟨h1, h2⟩ := encAll_inj l _ r r' h
    exact ⟨by rw [h1], h2⟩
  | .obj l, j', r, r', h => by
    cases j' <;> simp [enc] at h
    obtain ⟨h1, h2⟩ := encFields_inj l _ r r' h
    exact ⟨by rw [h1], h2⟩
theorem encAll_inj : ∀ (l l' : List Json) (r r' : List UInt8), encAll l ++ r = encAll l' ++ r' → l = l' ∧ r = r'
  | [], l', r, r', h => by
    cases l' <;> simp [encAll] at h
    exact ⟨rfl, h⟩
  | j :: l, l', r, r', h => by
    cases l' <;> simp [encAll] at h
    obtain ⟨h1, h2⟩ := enc_inj j _ _ _ h
    obtain ⟨h3, h4⟩ := encAll_inj l _ _ _ h2
    exact ⟨by rw [h1, h3], h4⟩
theorem encFields_inj : ∀ (l l' : List (Str × Json)) (r r' : List UInt8), encFields l ++ r = encFields l' ++ r' → l = l' ∧ r = r'
  | [], l', r, r', h => by
    cases l' <;> simp [encFields] at h
    exact ⟨rfl, h⟩
  | (k, j) :: l, [], r, r', h => by simp [encFields] at h
  | (k, j) :: l, (k', j') :: l', r, r', h => by
    simp [encFields] at h
    obtain ⟨h0, h⟩ := bytes_inj h
    obtain ⟨h1, h2⟩ := enc_inj j _ _ _ h
    obtain ⟨h3, h4⟩ := encFields_inj l _ _ _ h2
    exact ⟨by rw [h0, h1, h3], h4⟩
end

open Classical in
/-- the library: parsing finds what was printed -/
noncomputable def lib : JsonLib where
  print := enc
  parse bs := if h : ∃ j, enc j = bs then some (choose h) else none

open Classical in
theorem parse_print (j : Json) : lib.parse (lib.print j) = some j := by
  have h : ∃ j', enc j' = enc j := ⟨j, rfl⟩
  have hc := Classical.choose_spec h
  show (if h : ∃ j', enc j' = enc j then some (Classical.choose h) else none) = some j
  rw [dif_pos h]
  exact congrArg some (enc_inj _ _ [] [] (by rw [hc])).1

theorem readBy : lib.ReadBy lib := fun _ j' _ => parse_print j'

open Classical in
theorem complete : lib.Complete lib := by
  intro j fs _ k hk
  show (if h : ∃ j', enc j' = (enc (.obj fs)).take k then some (Classical.choose h) else none) = none
  rw [dif_neg]
  rintro ⟨j', hj⟩
  have := (enc_inj j' (.obj fs) ((enc (.obj fs)).drop k) [] (by rw [hj, List.take_append_drop, List.append_nil])).2
  have hl := congrArg List.length this
  rw [List.length_drop] at hl
  have : (enc (.obj fs)).length > k := hk
  simp at hl
  omega

open Classical in
theorem parse_nil : lib.parse [] = none := by
  show (if h : ∃ j', enc j' = [] then some (Classical.choose h) else none) = none
  rw [dif_neg]
  rintro ⟨j', hj⟩
  cases j' <;> simp [enc] at hj

end ToyJson
end Verif
