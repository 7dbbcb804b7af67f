import Verif.Model.Types
/-! # Specification: strings that are text -/

namespace Verif

/-- The string is the UTF-8 encoding of some text (`String.utf8EncodeChar` is the encoding of one Unicode character in Lean's library). -/
def Str.IsText (s : Str) : Prop := ∃ cs : List Char, s = cs.flatMap String.utf8EncodeChar
end Verif
