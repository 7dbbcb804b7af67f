import Verif.Model.Binary
/-!
# Byte order (include/spark_dsg/serialization/binary_serialization.h:166-221)
-/

namespace Verif

/-- The byte order of the machine. -/
inductive Host
  | little | big
  deriving DecidableEq, Repr

namespace Host
/-- The object representation of a `k`-byte word. -/
def bytes (h : Host) (k n : Nat) : List UInt8 :=
  match h with
  | little => leBytes k n
  | big => (leBytes k n).reverse
/-- The word with this object representation. -/
def load (h : Host) (bs : List UInt8) : Nat :=
  match h with
  | little => leNat bs
  | big => leNat bs.reverse
end Host

namespace SwapEndian
/-- binary_serialization.h:167 -/
def swap8 (u : UInt8) : UInt8 := u
/-- binary_serialization.h:179-181 -/
def swap16 (u : UInt16) : UInt16 := (u &&& 0x00ff) <<< 8 ||| (u &&& 0xff00) >>> 8
/-- binary_serialization.h:175-177 -/
def swap32 (u : UInt32) : UInt32 :=
  (u &&& 0x000000ff) <<< 24 ||| (u &&& 0x0000ff00) <<< 8 ||| (u &&& 0x00ff0000) >>> 8 ||| (u &&& 0xff000000) >>> 24
/-- binary_serialization.h:169-173 -/
def swap64 (u : UInt64) : UInt64 :=
  let v := (u &&& 0x00000000ffffffff) <<< 32 ||| (u &&& 0xffffffff00000000) >>> 32
  let v := (v &&& 0x0000ffff0000ffff) <<< 16 ||| (v &&& 0xffff0000ffff0000) >>> 16
  (v &&& 0x00ff00ff00ff00ff) <<< 8 ||| (v &&& 0xff00ff00ff00ff00) >>> 8
end SwapEndian

/-- binary_serialization.h:184-187 `EndianTest::SampleByte`: `static_cast<const uint8_t&>` of a `uint32_t` binds the reference to a
temporary that holds the value converted to eight bits; the object representation is not looked at. -/
def sampleByte : UInt8 := (0x01020304 : UInt32).toUInt8
/-- binary_serialization.h:189 `NeedEndianSwap` -/
def needEndianSwap : Bool := sampleByte != 0x04

/-- binary_serialization.h:191-207 `writeWord` on a host, for 64-bit words (the others alike) -/
def writeWord64 (h : Host) (v : UInt64) : List UInt8 := h.bytes 8 (if needEndianSwap then SwapEndian.swap64 v else v).toNat
def writeWord32 (h : Host) (v : UInt32) : List UInt8 := h.bytes 4 (if needEndianSwap then SwapEndian.swap32 v else v).toNat
def writeWord16 (h : Host) (v : UInt16) : List UInt8 := h.bytes 2 (if needEndianSwap then SwapEndian.swap16 v else v).toNat
/-- binary_serialization.h:209-221 `readWord` -/
def readWord64 (h : Host) (bs : List UInt8) : UInt64 :=
  let v := (h.load bs).toUInt64
  if needEndianSwap then SwapEndian.swap64 v else v
def readWord32 (h : Host) (bs : List UInt8) : UInt32 :=
  let v := (h.load bs).toUInt32
  if needEndianSwap then SwapEndian.swap32 v else v
def readWord16 (h : Host) (bs : List UInt8) : UInt16 :=
  let v := (h.load bs).toUInt16
  if needEndianSwap then SwapEndian.swap16 v else v

end Verif
