import Verif.Model.Endian
import Verif.Lemmas.Binary
/-! # C47: byte order -/

namespace Verif
namespace Endian

/-- Byte `i` of a number, counted from the least significant. -/
def byteOf (n i : Nat) : Nat := n / 256 ^ i % 256

theorem lt8 {j : Nat} (hj : j < 8) : j = 0 ∨ j = 1 ∨ j = 2 ∨ j = 3 ∨ j = 4 ∨ j = 5 ∨ j = 6 ∨ j = 7 := by omega
theorem lt4 {j : Nat} (hj : j < 4) : j = 0 ∨ j = 1 ∨ j = 2 ∨ j = 3 := by omega
theorem lt2 {j : Nat} (hj : j < 2) : j = 0 ∨ j = 1 := by omega

theorem byteOf_eq {w : Nat} (v : BitVec w) (i : Nat) : byteOf v.toNat i = (v.extractLsb' (8 * i) 8).toNat := by
  unfold byteOf
  rw [BitVec.extractLsb'_toNat, Nat.shiftRight_eq_div_pow, Nat.pow_mul]

theorem swap16_bits (u : UInt16) (i : Nat) (hi : i < 2) :
    (SwapEndian.swap16 u).toBitVec.extractLsb' (8 * i) 8 = u.toBitVec.extractLsb' (8 * (1 - i)) 8 := by
  obtain ⟨v⟩ := u
  apply BitVec.eq_of_getLsbD_eq
  intro j hj
  rcases lt2 hi with rfl | rfl <;> rcases lt8 hj with rfl | rfl | rfl | rfl | rfl | rfl | rfl | rfl <;> simp [SwapEndian.swap16]

theorem swap32_bits (u : UInt32) (i : Nat) (hi : i < 4) :
    (SwapEndian.swap32 u).toBitVec.extractLsb' (8 * i) 8 = u.toBitVec.extractLsb' (8 * (3 - i)) 8 := by
  obtain ⟨v⟩ := u
  apply BitVec.eq_of_getLsbD_eq
  intro j hj
  rcases lt4 hi with rfl | rfl | rfl | rfl <;> rcases lt8 hj with rfl | rfl | rfl | rfl | rfl | rfl | rfl | rfl <;>
    simp [SwapEndian.swap32]

theorem swap64_bits (u : UInt64) (i : Nat) (hi : i < 8) :
    (SwapEndian.swap64 u).toBitVec.extractLsb' (8 * i) 8 = u.toBitVec.extractLsb' (8 * (7 - i)) 8 := by
  obtain ⟨v⟩ := u
  apply BitVec.eq_of_getLsbD_eq
  intro j hj
  rcases lt8 hi with rfl | rfl | rfl | rfl | rfl | rfl | rfl | rfl <;>
    rcases lt8 hj with rfl | rfl | rfl | rfl | rfl | rfl | rfl | rfl <;> simp [SwapEndian.swap64]

/-- Numbers with the same bytes are equal. -/
theorem eq_of_bytes {k : Nat} : ∀ {m n : Nat}, m < 256 ^ k → n < 256 ^ k → (∀ i < k, byteOf m i = byteOf n i) → m = n := by
  induction k with
  | zero => intro m n hm hn _; omega
  | succ k ih =>
    intro m n hm hn h
    have h0 := h 0 (by omega)
    simp only [byteOf, Nat.pow_zero, Nat.div_one] at h0
    have := @ih (m / 256) (n / 256) (by rw [Nat.pow_succ] at hm; omega) (by rw [Nat.pow_succ] at hn; omega) (by
      intro i hi
      have := h (i + 1) (by omega)
      simp only [byteOf] at *
      rw [Nat.div_div_eq_div_mul, Nat.div_div_eq_div_mul, Nat.mul_comm, ← Nat.pow_succ]
      exact this)
    omega

theorem swap_swap16 (u : UInt16) : SwapEndian.swap16 (SwapEndian.swap16 u) = u := by
  apply UInt16.toNat.inj
  refine eq_of_bytes (k := 2) (UInt16.toNat_lt _) (UInt16.toNat_lt _) (fun i hi => ?_)
  show byteOf (SwapEndian.swap16 (SwapEndian.swap16 u)).toBitVec.toNat i = byteOf u.toBitVec.toNat i
  rw [byteOf_eq, byteOf_eq, swap16_bits _ i hi, swap16_bits _ _ (by omega)]
  congr 2; omega
theorem swap_swap32 (u : UInt32) : SwapEndian.swap32 (SwapEndian.swap32 u) = u := by
  apply UInt32.toNat.inj
  refine eq_of_bytes (k := 4) (UInt32.toNat_lt _) (UInt32.toNat_lt _) (fun i hi => ?_)
  show byteOf (SwapEndian.swap32 (SwapEndian.swap32 u)).toBitVec.toNat i = byteOf u.toBitVec.toNat i
  rw [byteOf_eq, byteOf_eq, swap32_bits _ i hi, swap32_bits _ _ (by omega)]
  congr 2; omega
theorem swap_swap64 (u : UInt64) : SwapEndian.swap64 (SwapEndian.swap64 u) = u := by
  apply UInt64.toNat.inj
  refine eq_of_bytes (k := 8) (UInt64.toNat_lt _) (UInt64.toNat_lt _) (fun i hi => ?_)
  show byteOf (SwapEndian.swap64 (SwapEndian.swap64 u)).toBitVec.toNat i = byteOf u.toBitVec.toNat i
  rw [byteOf_eq, byteOf_eq, swap64_bits _ i hi, swap64_bits _ _ (by omega)]
  congr 2; omega

theorem host_load (h : Host) (k n : Nat) (hn : n < 256 ^ k) : h.load (h.bytes k n) = n := by
  cases h <;> simp [Host.load, Host.bytes, leNat_leBytes, Nat.mod_eq_of_lt hn]

end Endian

open Endian in
/-- C47, the swap functions: byte `i` of the result is byte `k - 1 - i` of the argument, so swapping twice gives the argument back. -/
theorem C47_swap_reverses_bytes :
    (∀ (u : UInt16) i, i < 2 → byteOf (SwapEndian.swap16 u).toNat i = byteOf u.toNat (1 - i)) ∧
    (∀ (u : UInt32) i, i < 4 → byteOf (SwapEndian.swap32 u).toNat i = byteOf u.toNat (3 - i)) ∧
    (∀ (u : UInt64) i, i < 8 → byteOf (SwapEndian.swap64 u).toNat i = byteOf u.toNat (7 - i)) ∧
    (∀ u, SwapEndian.swap16 (SwapEndian.swap16 u) = u) ∧ (∀ u, SwapEndian.swap32 (SwapEndian.swap32 u) = u) ∧
    (∀ u, SwapEndian.swap64 (SwapEndian.swap64 u) = u) := by
  refine ⟨fun u i hi => ?_, fun u i hi => ?_, fun u i hi => ?_, swap_swap16, swap_swap32, swap_swap64⟩
  · exact (byteOf_eq _ _).trans ((congrArg BitVec.toNat (swap16_bits u i hi)).trans (byteOf_eq _ _).symm)
  · exact (byteOf_eq _ _).trans ((congrArg BitVec.toNat (swap32_bits u i hi)).trans (byteOf_eq _ _).symm)
  · exact (byteOf_eq _ _).trans ((congrArg BitVec.toNat (swap64_bits u i hi)).trans (byteOf_eq _ _).symm)

example : SwapEndian.swap32 0x01020304 = 0x04030201 ∧ SwapEndian.swap64 0x0102030405060708 = 0x0807060504030201 := by decide +kernel

/-- C47, the round trip: on a host of either byte order, a word is read back as it was written. -/
theorem C47_words_round_trip (h : Host) :
    (∀ v, readWord16 h (writeWord16 h v) = v) ∧ (∀ v, readWord32 h (writeWord32 h v) = v) ∧ (∀ v, readWord64 h (writeWord64 h v) = v) := by
  refine ⟨fun v => ?_, fun v => ?_, fun v => ?_⟩
  · unfold readWord16 writeWord16
    rw [Endian.host_load _ _ _ (UInt16.toNat_lt _)]
    simp only [Nat.toUInt16, UInt16.ofNat_toNat]
    split
    · exact Endian.swap_swap16 v
    · rfl
  · unfold readWord32 writeWord32
    rw [Endian.host_load _ _ _ (UInt32.toNat_lt _)]
    simp only [Nat.toUInt32, UInt32.ofNat_toNat]
    split
    · exact Endian.swap_swap32 v
    · rfl
  · unfold readWord64 writeWord64
    rw [Endian.host_load _ _ _ (UInt64.toNat_lt _)]
    simp only [Nat.toUInt64, UInt64.ofNat_toNat]
    split
    · exact Endian.swap_swap64 v
    · rfl

/-- On a little-endian host the words of a file are little-endian, which is the byte order that the rest of the model uses. -/
theorem C47_little_host (v : UInt64) (w : UInt32) (x : UInt16) :
    writeWord64 .little v = leBytes 8 v.toNat ∧ writeWord32 .little w = leBytes 4 w.toNat ∧ writeWord16 .little x = leBytes 2 x.toNat :=
  ⟨rfl, rfl, rfl⟩

/-- Files are not portable between hosts of different byte order: the compile-time test never asks for a swap, so that a big-endian host
writes big-endian words, and reads the words of a little-endian host with their bytes reversed. -/
theorem C47_files_are_host_specific :
    needEndianSwap = false ∧ writeWord32 .big 1 ≠ writeWord32 .little 1 ∧ readWord32 .big (writeWord32 .little 1) = 0x01000000 := by
  decide +kernel

end Verif
