import Verif.Model.Types
/-!
# Names, labels, colours, file extensions

`std::string` is a list of bytes; decimal printing is that of `std::ostream << uint64_t` in the "C" locale.
-/

namespace Verif

/-- Bytes of an ASCII literal. -/
def str (s : String) : Str := s.toList.map (fun c => UInt8.ofNat c.toNat)

/-- Digits of `n`, least significant first, at most `fuel` of them. -/
def decRev : Nat → Nat → Str
  | 0, _ => []
  | fuel + 1, n => if n < 10 then [UInt8.ofNat (48 + n)] else UInt8.ofNat (48 + n % 10) :: decRev fuel (n / 10)
/-- `out << n` for an unsigned integer. -/
def dec (n : Nat) : Str := (decRev (n + 1) n).reverse

/-- `std::isalpha` in the "C" locale, for characters 0..127 (negative `char` arguments are undefined behaviour). -/
def isAlpha (c : UInt8) : Bool := (65 ≤ c && c ≤ 90) || (97 ≤ c && c ≤ 122)
/-- `std::toupper` in the "C" locale (the argument is an `unsigned char`). -/
def toUpper (c : UInt8) : UInt8 := if 97 ≤ c && c ≤ 122 then c - 32 else c

/-! ## Node symbols -/

/-- node_symbol.cpp:46-53 `operator<<`, node_symbol.h:90-94 `getLabel`. `isalpha` of a negative `char` is undefined. -/
def NodeSymbol.label (n : NodeId) : Res Str :=
  if 128 ≤ category n then .ub
  else if isAlpha (category n) then .ok ([category n] ++ str "(" ++ dec (categoryId n).toNat ++ str ")")
  else .ok (dec n.toNat)

/-- `isspace` in the "C" locale. -/
def isSpace (c : UInt8) : Bool := c == 32 || (9 ≤ c && c ≤ 13)
/-- `isdigit` -/
def isDigit (c : UInt8) : Bool := 48 ≤ c && c ≤ 57
/-- value of the leading digits -/
def digitsVal (l : Str) : Nat := (l.takeWhile isDigit).foldl (fun v c => 10 * v + (c.toNat - 48)) 0

/-- `std::stoull(s)`: white space, an optional sign, decimal digits, rest ignored. Throws `invalid_argument` without digits
(modelled as `domainError`, its sibling under `logic_error`) and `out_of_range` past 64 bits; a minus sign negates modulo 2^64. -/
def stoull (s : Str) : Res UInt64 :=
  let s := s.dropWhile isSpace
  let neg := s.head? == some 45
  let s := if s.head? == some 45 || s.head? == some 43 then s.tail else s
  if (s.takeWhile isDigit).isEmpty then .throw .domainError
  else if 2 ^ 64 ≤ digitsVal s then .throw .outOfRange
  else .ok (if neg then 0 - UInt64.ofNat (digitsVal s) else UInt64.ofNat (digitsVal s))

/-- node_symbol.h:114-123 the literal `"..."_id`. -/
def NodeSymbol.ofLiteral (s : Str) : Res NodeId :=
  match s with
  | [] => .throw .domainError
  | c :: rest => stoull rest >>= fun i => .ok (make c i)

/-- scene_graph_types.cpp:42-45, 47-50: the constructors `LayerPrefix(key)` and `LayerPrefix(key, index)` (24-bit index). -/
def Prefix.ofKey (key : UInt8) (index : UInt32) : Prefix := (key.toUInt32 <<< 24) ||| (index &&& 0xFFFFFF)
/-- scene_graph_types.h:102 `key()` -/
def Prefix.key (p : Prefix) : UInt8 := (p >>> 24).toUInt8
/-- scene_graph_types.h:104 `index()` -/
def Prefix.subIndex (p : Prefix) : UInt32 := p &&& 0xFFFFFF

/-! ## Layer names -/

/-- scene_graph_types.cpp:108-125 `LayerIdToString` (ids from scene_graph_types.h:118-133). -/
def layerIdToString (id : LayerId) : Str :=
  if id = 1 then str "SEGMENTS"
  else if id = 2 then str "OBJECTS"
  else if id = 3 then str "PLACES"
  else if id = 4 then str "ROOMS"
  else if id = 5 then str "BUILDINGS"
  else if id = 20 then str "MESH_PLACES"
  else str "UNKNOWN"

/-- scene_graph_types.cpp:127-148 `StringToLayerId`. -/
def stringToLayerId (s : Str) : LayerId :=
  let t := s.map toUpper
  if t = str "SEGMENTS" then 1
  else if t = str "OBJECTS" ∨ t = str "AGENTS" then 2
  else if t = str "PLACES" ∨ t = str "STRUCTURE" then 3
  else if t = str "ROOMS" then 4
  else if t = str "BUILDINGS" then 5
  else if t = str "MESH_PLACES" then 20
  else UNKNOWN_LAYER

/-! ## Colours -/

namespace Color
/-- color.cpp:16-27 `operator<` -/
def lt (x y : Color) : Bool :=
  if x.r ≠ y.r then decide (x.r < y.r)
  else if x.g ≠ y.g then decide (x.g < y.g)
  else if x.b ≠ y.b then decide (x.b < y.b)
  else decide (x.a < y.a)
/-- color.cpp:12-14 `operator==` -/
def eq (x y : Color) : Bool := x.r == y.r && x.g == y.g && x.b == y.b && x.a == y.a
/-- color.h:81-85 `Hash`: integer arithmetic, converted to 32 bits. -/
def hash (x : Color) : UInt32 := x.r.toUInt32 + (x.g.toUInt32 <<< 8) + (x.b.toUInt32 <<< 16) + (x.a.toUInt32 <<< 24)
end Color

/-! ## File names -/

/-- file_io.h:48 `FileType` -/
inductive FileType
  | json | binary | none | unknown
  deriving DecidableEq, Repr

/-- `std::filesystem::path::filename` (POSIX): what follows the last `/`. -/
def pathFilename (p : Str) : Str := (p.reverse.takeWhile (· != 47)).reverse
/-- `std::filesystem::path::extension`: from the last `.` of the file name, unless that is its first character or the file name is
`.` or `..`. -/
def pathExtension (p : Str) : Str :=
  let f := pathFilename p
  if f = str "." ∨ f = str ".." then []
  else if f.contains 46 then
    let e := 46 :: (f.reverse.takeWhile (· != 46)).reverse
    if e.length = f.length then [] else e
  else []

/-- file_io.cpp:49-59 `identifyFileType` -/
def identifyFileType (p : Str) : FileType :=
  let ext := pathExtension p
  if ext = [] then .none
  else if ext = str ".json" ∨ ext = str ".bson" then .json
  else if ext = str ".sparkdsg" then .binary
  else .unknown

/-- file_io.cpp:61-80 `verifyFileExtension`: the path it leaves in its argument, and the type. -/
def verifyFileExtension (p : Str) : Res (Str × FileType) :=
  match identifyFileType p with
  | .none => .ok (p ++ str ".sparkdsg", .binary)
  | .unknown => .throw .runtimeError
  | t => .ok (p, t)

/-- A directory: for each path, what `saveDsgJson`/`saveDsgBinary` put there (the format only). -/
abbrev Files := Str → Option FileType

/-- dynamic_scene_graph.cpp:835-844 `save`: which file is written, in which format. -/
def saveFile (fs : Files) (p : Str) : Res Files :=
  verifyFileExtension p >>= fun r => .ok (fun q => if q = r.1 then some r.2 else fs q)

/-- dynamic_scene_graph.cpp:846-858 `load`: which file is read with which reader; throws if `filepath`, as given, does not exist. -/
def loadFile (fs : Files) (p : Str) : Res (Str × FileType) :=
  if (fs p).isNone then .throw .runtimeError
  else verifyFileExtension p

end Verif
