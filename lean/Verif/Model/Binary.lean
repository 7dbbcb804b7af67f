import Verif.Model.Types
/-!
# Binary primitives (include/spark_dsg/serialization/binary_serialization.h, src/serialization/binary_serialization.cpp,
include/spark_dsg/serialization/binary_conversions.h)

A writer appends bytes; a reader works on an explicit buffer with an explicit position, and every access outside the buffer is
undefined behaviour, so that memory safety is something to prove. Simplifications: a little-endian host (see `Model/Endian.lean`), no
memory exhaustion (`std::vector::resize` to the announced length succeeds), exceptions carry no text.
-/

namespace Verif

/-! The type bytes (binary_serialization.h:226-244 `PackType`). -/
namespace Pack
def nil : UInt8 := 0xc0
def false_ : UInt8 := 0xc2
def true_ : UInt8 := 0xc3
def f32 : UInt8 := 0xca
def f64 : UInt8 := 0xcb
def u8 : UInt8 := 0xcc
def u16 : UInt8 := 0xcd
def u32 : UInt8 := 0xce
def u64 : UInt8 := 0xcf
def i8 : UInt8 := 0xd0
def i16 : UInt8 := 0xd1
def i32 : UInt8 := 0xd2
def i64 : UInt8 := 0xd3
def str32 : UInt8 := 0xdb
def arr32 : UInt8 := 0xdd
def arrStart : UInt8 := 0x00
def arrEnd : UInt8 := 0x01
end Pack

/-- Little-endian bytes of the low `8 k` bits of a number. -/
def leBytes : Nat → Nat → List UInt8
  | 0, _ => []
  | k + 1, n => UInt8.ofNat n :: leBytes k (n / 256)
/-- The number with these little-endian bytes. -/
def leNat : List UInt8 → Nat
  | [] => 0
  | b :: bs => b.toNat + 256 * leNat bs

/-- versioning.h:56-76 `Version`. -/
structure Version where
  major : UInt8
  minor : UInt8
  patch : UInt8
  deriving DecidableEq, Repr

namespace Version
/-- versioning.cpp:100-102 `operator==` -/
def eq (a b : Version) : Bool := a.major == b.major && a.minor == b.minor && a.patch == b.patch
/-- versioning.cpp:104-115 `operator<` -/
def lt (a b : Version) : Bool :=
  if a.major < b.major then true
  else if a.major == b.major then
    (if a.minor < b.minor then true
     else if a.minor == b.minor then decide (a.patch < b.patch)
     else false)
  else false
/-- versioning.h:70-72 `operator>`, `<=`, `>=` -/
def gt (a b : Version) : Bool := lt b a
def le (a b : Version) : Bool := !gt a b
def ge (a b : Version) : Bool := !lt a b
end Version

/-! ## Writers -/

/-- What a sequence of writer calls appends, or the exception it throws. -/
abbrev Wr := Res (List UInt8)

namespace Wr
/-- Nothing written. -/
def nil : Wr := .ok []
/-- One writer call after another. -/
def seq (a b : Wr) : Wr := a >>= fun x => b >>= fun y => .ok (x ++ y)
instance : AndThen Wr := ⟨fun a b => seq a (b ())⟩
/-- A loop of writer calls. -/
def all {α : Type} (f : α → Wr) : List α → Wr
  | [] => nil
  | a :: l => seq (f a) (all f l)

/-- binary_serialization.cpp:111-113 `write_type`. -/
def type (t : UInt8) : Wr := .ok [t]
/-- binary_serialization.h:314-318, 204-207: type byte and word. -/
def u8 (v : UInt8) : Wr := .ok (Pack.u8 :: leBytes 1 v.toNat)
def u16 (v : UInt16) : Wr := .ok (Pack.u16 :: leBytes 2 v.toNat)
def u32 (v : UInt32) : Wr := .ok (Pack.u32 :: leBytes 4 v.toNat)
def u64 (v : UInt64) : Wr := .ok (Pack.u64 :: leBytes 8 v.toNat)
/-- Signed words are given by their bit patterns. -/
def i8 (v : UInt8) : Wr := .ok (Pack.i8 :: leBytes 1 v.toNat)
def i16 (v : UInt16) : Wr := .ok (Pack.i16 :: leBytes 2 v.toNat)
def i32 (v : UInt32) : Wr := .ok (Pack.i32 :: leBytes 4 v.toNat)
def i64 (v : UInt64) : Wr := .ok (Pack.i64 :: leBytes 8 v.toNat)
/-- binary_serialization.cpp:96-99 `write(const float&)` (bit pattern). -/
def f32 (v : F32) : Wr := .ok (Pack.f32 :: leBytes 4 v.toNat)
/-- binary_serialization.cpp:101-104 `write(const double&)`. -/
def f64 (v : F64) : Wr := .ok (Pack.f64 :: leBytes 8 v.toNat)
/-- binary_serialization.cpp:92-94 `write(bool)`. -/
def bool (b : Bool) : Wr := type (if b then Pack.true_ else Pack.false_)
/-- binary_serialization.cpp:81-90 `startFixedArray`. -/
def arrLen (n : Nat) : Wr := if n > 0xFFFFFFFF then .throw .domainError else .ok (Pack.arr32 :: leBytes 4 n)
/-- binary_serialization.cpp:106-109 `write(const std::string&)`. -/
def str (s : Str) : Wr := seq (arrLen s.length) (.ok s)
/-- binary_serialization.h:320-327 `write(optional)`. -/
def opt {α : Type} (f : α → Wr) : Option α → Wr
  | some a => f a
  | none => type Pack.nil
/-- binary_serialization.h:329-333 `write(duration)`: an int64 count. -/
def stamp (t : Stamp) : Wr := i64 t
/-- binary_serialization.h:445-451, 462-468 vectors and lists (also sets, 496-502: in sorted order). -/
def vec {α : Type} (f : α → Wr) (l : List α) : Wr := seq (arrLen l.length) (all f l)
/-- binary_serialization.h:534-541 maps. -/
def map {K V : Type} [DecidableEq K] [OKey K] (f : K → Wr) (g : V → Wr) (m : OMap K V) : Wr :=
  seq (arrLen m.size) (all (fun e => seq (f e.1) (g e.2)) m.toList)
/-- binary_conversions.h:115-121: a three-vector, without header. -/
def v3d (v : V3d) : Wr := seq (f64 v.x) (seq (f64 v.y) (f64 v.z))
def v3f (v : V3f) : Wr := seq (f32 v.x) (seq (f32 v.y) (f32 v.z))
/-- binary_conversions.h:131-139 quaternions. -/
def quat (q : Quat) : Wr := seq (arrLen 4) (seq (f64 q.w) (seq (f64 q.x) (seq (f64 q.y) (f64 q.z))))
/-- An `Eigen::Index`. -/
def index (i : Int) : Wr := i64 (UInt64.ofBitVec (BitVec.ofInt 64 i))
/-- binary_conversions.h:76-87 matrices: length, dimensions, coefficients row by row. -/
def matrix {α : Type} (f : α → Wr) (m : Matrix α) : Wr :=
  seq (arrLen (m.rows * m.cols + 2).toNat) (seq (index m.rows) (seq (index m.cols) (all f m.data)))
end Wr

/-! ## Readers -/

/-- What a reader depends on. -/
structure Env where
  /-- the buffer -/
  buf : List UInt8
  /-- objects are smaller than half the address space -/
  small : buf.length < 2 ^ 63
  /-- io::GlobalInfo::loadedHeader().version -/
  version : Version
  /-- is signed overflow undefined (ISO C++), or does it wrap around (what common compilers generate here)? -/
  isoOverflow : Bool := false
  /-- are Eigen's assertions compiled in? -/
  eigenChecks : Bool := false
  /-- float subtraction, left uninterpreted (only used for bounding boxes written before version 1.0.3) -/
  fsub : F32 → F32 → F32 := fun a _ => a

/-- A reader: from a position, a value and the next position. -/
def Rd (α : Type) := Env → Nat → Res (α × Nat)

namespace Rd
def pure {α : Type} (a : α) : Rd α := fun _ p => .ok (a, p)
def bind {α β : Type} (r : Rd α) (k : α → Rd β) : Rd β := fun E p => r E p >>= fun x => k x.1 E x.2
instance : Monad Rd where
  pure := Rd.pure
  bind := Rd.bind
/-- Throw. -/
def fail {α : Type} (e : Exc) : Rd α := fun _ _ => .throw e
/-- Call something that does not touch the reader. -/
def lift {α : Type} (r : Res α) : Rd α := fun _ p => r >>= fun a => .ok (a, p)
/-- Read access to the environment. -/
def env : Rd Env := fun E p => .ok (E, p)

/-- Unchecked access to `k` bytes at the current position (`*(ref_ + pos_)`), undefined outside the buffer; advances. -/
def raw (k : Nat) : Rd (List UInt8) := fun E p => if p + k ≤ E.buf.length then .ok ((E.buf.drop p).take k, p + k) else .ub

/-- binary_serialization.cpp:236-242 `check_valid`, in `size_t` arithmetic. -/
def checkValid (bytes : Nat) (elements : Nat := 1) : Rd Unit := fun E p =>
  if (p + elements * bytes) % 2 ^ 64 > E.buf.length then .throw .domainError else .ok ((), p)

/-- `ref_[pos_]` -/
def peek : Rd UInt8 := fun E p => raw 1 E p >>= fun r => .ok ((leNat r.1).toUInt8, p)

/-- binary_serialization.cpp:194-197 `getCurrType`: does not advance. -/
def currType : Rd UInt8 := do
  checkValid 1
  peek

/-- `++pos_` -/
def advance : Rd Unit := fun _ p => .ok ((), p + 1)

/-- binary_serialization.cpp:121-129 `checkType`. -/
def checkType (t : UInt8) : Rd Unit := do
  let r ← currType
  if r ≠ t then fail .domainError else advance

/-- binary_serialization.h:386-392 (and binary_serialization.cpp:214-228): a type byte and a word of `k` bytes. -/
def word (t : UInt8) (k : Nat) : Rd Nat := do
  checkType t
  checkValid k
  let bs ← raw k
  return leNat bs

def u8 : Rd UInt8 := do return (← word Pack.u8 1).toUInt8
def u16 : Rd UInt16 := do return (← word Pack.u16 2).toUInt16
def u32 : Rd UInt32 := do return (← word Pack.u32 4).toUInt32
def u64 : Rd UInt64 := do return (← word Pack.u64 8).toUInt64
def i8 : Rd UInt8 := do return (← word Pack.i8 1).toUInt8
def i16 : Rd UInt16 := do return (← word Pack.i16 2).toUInt16
def i32 : Rd UInt32 := do return (← word Pack.i32 4).toUInt32
def i64 : Rd UInt64 := do return (← word Pack.i64 8).toUInt64
def f32 : Rd F32 := do return (← word Pack.f32 4).toUInt32
def f64 : Rd F64 := do return (← word Pack.f64 8).toUInt64

/-- binary_serialization.cpp:199-212 `read(bool&)`. -/
def bool : Rd Bool := do
  let t ← currType
  checkType t
  if t = Pack.false_ then return false
  else if t = Pack.true_ then return true
  else fail .domainError

/-- binary_serialization.cpp:168-180 `readFixedArrayLength`. -/
def arrLen : Rd Nat := do
  let t ← currType
  if t ≠ Pack.arr32 ∧ t ≠ Pack.str32 then fail .domainError
  else
    advance
    checkValid 4 1
    let bs ← raw 4
    return leNat bs

/-- binary_serialization.cpp:151-166 `checkFixedArrayLength`: the announced length is read and not compared with the expected one
(the code compares `length` with itself). -/
def checkArrLen (_length : Nat) : Rd Unit := do
  let _ ← arrLen
  return ()

/-- binary_serialization.cpp:131-139 `checkDynamicArray`. -/
def dynStart : Rd Unit := checkType Pack.arrStart
/-- binary_serialization.cpp:141-149 `isDynamicArrayEnd`. -/
def dynEnd : Rd Bool := do
  let t ← currType
  if t ≠ Pack.arrEnd then return false
  else
    advance
    return true

/-- binary_serialization.cpp:182-192 `checkIfTrue`: any exception means no. -/
def checkIfTrue : Rd Bool := fun E p =>
  match (do let t ← currType; checkType t; return t : Rd UInt8) E p with
  | .ok (t, p') => .ok (t == Pack.true_, p')
  | .throw _ => .ok (false, p)
  | .ub => .ub

/-- binary_serialization.cpp:230-234 `read(std::string&)`. -/
def str : Rd Str := do
  let n ← arrLen
  checkValid 1 n
  raw n

/-- binary_serialization.h:394-404 `read(std::optional&)` into an empty optional. -/
def opt {α : Type} (r : Rd α) : Rd (Option α) := do
  let t ← currType
  if t = Pack.nil then
    checkType Pack.nil
    return none
  else return some (← r)

/-- binary_serialization.h:406-411 -/
def stamp : Rd Stamp := i64

/-- A counted loop of reads. -/
def times {α : Type} (r : Rd α) : Nat → Rd (List α)
  | 0 => return []
  | n + 1 => do
    let a ← r
    let l ← times r n
    return a :: l

/-- binary_serialization.h:453-460, 470-478: vectors and lists. -/
def vec {α : Type} (r : Rd α) : Rd (List α) := do
  let n ← arrLen
  times r n

/-- binary_serialization.h:488-494: `std::array<T, N>`. -/
def array {α : Type} (r : Rd α) (n : Nat) : Rd (List α) := do
  checkArrLen n
  times r n

/-- binary_serialization.h:504-513: sets. -/
def set {K : Type} [DecidableEq K] [OKey K] (r : Rd K) : Rd (OSet K) := do
  let l ← vec r
  return l.foldl (fun s k => s.add k) ∅

/-- binary_serialization.h:543-553: maps; a repeated key keeps the last value. -/
def map {K V : Type} [DecidableEq K] [OKey K] (r : Rd K) (q : Rd V) : Rd (OMap K V) := do
  let l ← vec (do let k ← r; let v ← q; return (k, v))
  return l.foldl (fun m e => m.insert e.1 e.2) ∅

/-- binary_conversions.h:123-129 -/
def v3d : Rd V3d := do
  let x ← f64
  let y ← f64
  let z ← f64
  return ⟨x, y, z⟩
def v3f : Rd V3f := do
  let x ← f32
  let y ← f32
  let z ← f32
  return ⟨x, y, z⟩
/-- binary_conversions.h:141-149 -/
def quat : Rd Quat := do
  checkArrLen 4
  let w ← f64
  let x ← f64
  let y ← f64
  let z ← f64
  return ⟨w, x, y, z⟩

/-- An `Eigen::Index`. -/
def index : Rd Int := do return (← i64).toBitVec.toInt

/-- `rows * cols + 2` in 64-bit signed arithmetic: undefined on overflow, or wrapping, depending on the environment. -/
def mulAdd (r c : Int) : Rd Int := fun E p =>
  if E.isoOverflow = true ∧ (r * c < -2 ^ 63 ∨ r * c + 2 ≥ 2 ^ 63) then .ub else .ok ((r * c + 2).bmod (2 ^ 64), p)

/-- binary_conversions.h:89-104: the dimensions of a matrix, checked against the announced length. -/
def dims : Rd (Int × Int) := do
  let n ← arrLen
  if n < 2 then fail .outOfRange
  else
    let r ← index
    let c ← index
    let m ← mulAdd r c
    if m ≠ (n : Int) then fail .outOfRange else return (r, c)

/-- Eigen `PlainObjectBase::resize` of a matrix with a dynamic dimension: `std::bad_alloc` if `rows * cols` would overflow. -/
def resizeCheck (r c : Int) : Rd Unit :=
  if r ≠ 0 ∧ c ≠ 0 ∧ r > Int.tdiv (2 ^ 63 - 1) c then fail .badAlloc else return ()

/-- binary_conversions.h:89-112 for `Eigen::MatrixX`: the loops run over `rows() x cols()`. -/
def matrixDyn {α : Type} (q : Rd α) : Rd (Matrix α) := do
  let (r, c) ← dims
  let E ← env
  if E.eigenChecks = true ∧ (r < 0 ∨ c < 0) then fail .abort
  else
    resizeCheck r c
    let l ← times q (r.toNat * c.toNat)
    return ⟨r, c, l⟩

/-- binary_conversions.h:89-112 for column vectors (`Matrix<T, Dynamic, 1>`): storage is allocated for `rows * cols` coefficients and the
loops run over `rows() x 1`, so that a declared column count of 0 writes outside the allocation unless assertions stop it. -/
def columnVec {α : Type} (q : Rd α) : Rd (Matrix α) := do
  let (r, c) ← dims
  let E ← env
  if E.eigenChecks = true ∧ (r < 0 ∨ c ≠ 1) then fail .abort
  else
    resizeCheck r c
    if r > 0 ∧ c ≤ 0 then lift .ub
    else
      let l ← times q r.toNat
      return ⟨r, 1, l⟩

/-- binary_conversions.h:89-112 for fixed-size matrices: `resize` only asserts, the loops run over the fixed size. -/
def matrixFixed {α : Type} (q : Rd α) (R C : Nat) : Rd (Matrix α) := do
  let (r, c) ← dims
  let E ← env
  if E.eigenChecks = true ∧ (r ≠ R ∨ c ≠ C) then fail .abort
  else
    let l ← times q (R * C)
    return ⟨R, C, l⟩

end Rd
end Verif
