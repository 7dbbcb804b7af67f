import Verif.Lemmas.JsonSafe
import Verif.Props.Json
import Verif.Props.Safety
/-!
# C50: reading a JSON document of any origin

The readers of the model report undefined behaviour as `Res.ub`: see the comments at `JEnv.badCast`, `JEnv.mulInt`, `JEnv.matrix`,
`JEnv.semanticColor` in Model/Json.lean and those of the graph operations.
-/

namespace Verif

/-- A build in which arithmetic wraps, conversions give some value and Eigen's assertions are on. -/
structure JEnv.Guarded (E : JEnv) : Prop where
  wraps : E.isoOverflow = false
  checks : E.eigenChecks = true

/-- **C50.** Reading any document whose header claims a version after 1.0.2 returns a graph or throws: no document makes the program
misbehave, whatever its fields are, and whichever classes are registered. -/
theorem C50_any_document {E : JEnv} (hE : E.Guarded) (R : Registry NodeClass) (Q : Registry EdgeClass) (j : Json)
    (hv : ∀ h, E.headerIn j JEnv.headerKey = .ok h → h.version.le ⟨1, 0, 2⟩ = false) : E.readGraph R Q j ≠ .ub := by
  intro e
  have := Defined.readGraph hE.wraps hE.checks R Q j hv
  rw [e] at this
  exact this

/-- **C50.** So does reading any document as a mesh, of whatever version. -/
theorem C50_any_mesh {E : JEnv} (hE : E.Guarded) (j : Json) : E.meshDoc j ≠ .ub := (Defined.meshDoc hE.wraps j).ne

/-- **C50.** After any document was read, any number of arbitrary binary messages can be applied to the graph. -/
theorem C50_then_messages {E : JEnv} (hE : E.Guarded) (R : Registry NodeClass) (Q : Registry EdgeClass) (j : Json)
    (hv : ∀ h, E.headerIn j JEnv.headerKey = .ok h → h.version.le ⟨1, 0, 2⟩ = false) {g : Graph} (hj : E.readGraph R Q j = .ok g)
    {P : Prog} (hP : P.Guarded) (v : Version) (ms : List { b : List UInt8 // b.length < 2 ^ 63 }) : receive P v g ms ≠ .ub := by
  have := Defined.readGraph hE.wraps hE.checks R Q j hv
  rw [hj] at this
  intro e
  have := receive_sat hP v ms this
  rw [e] at this
  exact this

/-- the document is a number -/
def Json.IsNumber (j : Json) : Prop := (∃ n, j = .uint n) ∨ (∃ n, j = .int n) ∨ ∃ d, j = .num d
/-- the document is `true` or `false` -/
def Json.IsBool (j : Json) : Prop := ∃ b, j = .bool b

/-- Reading succeeds on these documents and throws on all others. -/
def AcceptsExactly {α : Type} (r : Json → Res α) (ok : Json → Prop) : Prop := ∀ j, (ok j → ∃ v, r j = .ok v) ∧ (¬ ok j → r j = .throw .json)

/-- **C50, scalars.** Which documents the readers of scalars accept: a 64-bit integer and a double take any number; a narrower integer and a
float take booleans as well; a boolean and a string take only their own kind. Nothing else, in particular `null`, is accepted. -/
theorem C50_scalars {E : JEnv} (hE : E.isoOverflow = false) :
    AcceptsExactly E.u64 Json.IsNumber ∧ AcceptsExactly E.f64 Json.IsNumber ∧
    AcceptsExactly E.u32 (fun j => j.IsNumber ∨ j.IsBool) ∧ AcceptsExactly E.i32 (fun j => j.IsNumber ∨ j.IsBool) ∧
    AcceptsExactly E.u8 (fun j => j.IsNumber ∨ j.IsBool) ∧ AcceptsExactly E.f32 (fun j => j.IsNumber ∨ j.IsBool) ∧
    AcceptsExactly JEnv.bool Json.IsBool ∧ AcceptsExactly JEnv.str (fun j => ∃ s, j = .str s) := by
  have hi : ∀ lo hi d, ∃ v, E.integral lo hi true (.num d) = .ok v := by
    intro lo hi d
    unfold JEnv.integral JEnv.badCast
    simp only [hE]
    repeat' split
    all_goals first | exact ⟨_, rfl⟩ | contradiction
  have hi' : ∀ lo hi d, ∃ v, E.integral lo hi false (.num d) = .ok v := by
    intro lo hi' d
    obtain ⟨v, e⟩ := hi lo hi' d
    exact ⟨v, by rw [← e]; rfl⟩
  have key : ∀ {α : Type} (r : Json → Res α) (lo hi : Int) (f : UInt64 → α), (∀ j, r j = (E.integral lo hi true j >>= fun n => .ok (f n))) →
      AcceptsExactly r (fun j => j.IsNumber ∨ j.IsBool) := by
    intro α r lo hi2 f hr j
    rw [hr]
    cases j with
    | num d => obtain ⟨v, e⟩ := hi lo hi2 d; rw [e]; exact ⟨fun _ => ⟨_, rfl⟩, fun h => (h (.inl (.inr (.inr ⟨_, rfl⟩)))).elim⟩
    | uint n => exact ⟨fun _ => ⟨_, rfl⟩, fun h => (h (.inl (.inl ⟨_, rfl⟩))).elim⟩
    | int n => exact ⟨fun _ => ⟨_, rfl⟩, fun h => (h (.inl (.inr (.inl ⟨_, rfl⟩)))).elim⟩
    | bool b => exact ⟨fun _ => ⟨_, rfl⟩, fun h => (h (.inr ⟨_, rfl⟩)).elim⟩
    | _ => exact ⟨fun h => (by rcases h with (⟨_, h⟩ | ⟨_, h⟩ | ⟨_, h⟩) | ⟨_, h⟩ <;> cases h), fun _ => rfl⟩
  have num : ∀ {α : Type} (r : Json → Res α), (∀ n, ∃ v, r (.uint n) = .ok v) → (∀ n, ∃ v, r (.int n) = .ok v) → (∀ d, ∃ v, r (.num d) = .ok v) →
      r .null = .throw .json → (∀ b, r (.bool b) = .throw .json) → (∀ s, r (.str s) = .throw .json) → (∀ l, r (.arr l) = .throw .json) →
      (∀ l, r (.obj l) = .throw .json) → AcceptsExactly r Json.IsNumber := by
    intro α r h1 h2 h3 h4 h5 h6 h7 h8 j
    cases j with
    | num d => exact ⟨fun _ => h3 d, fun h => (h (.inr (.inr ⟨_, rfl⟩))).elim⟩
    | uint n => exact ⟨fun _ => h1 n, fun h => (h (.inl ⟨_, rfl⟩)).elim⟩
    | int n => exact ⟨fun _ => h2 n, fun h => (h (.inr (.inl ⟨_, rfl⟩))).elim⟩
    | null => exact ⟨fun h => (by rcases h with ⟨_, h⟩ | ⟨_, h⟩ | ⟨_, h⟩ <;> cases h), fun _ => h4⟩
    | bool b => exact ⟨fun h => (by rcases h with ⟨_, h⟩ | ⟨_, h⟩ | ⟨_, h⟩ <;> cases h), fun _ => h5 b⟩
    | str b => exact ⟨fun h => (by rcases h with ⟨_, h⟩ | ⟨_, h⟩ | ⟨_, h⟩ <;> cases h), fun _ => h6 b⟩
    | arr b => exact ⟨fun h => (by rcases h with ⟨_, h⟩ | ⟨_, h⟩ | ⟨_, h⟩ <;> cases h), fun _ => h7 b⟩
    | obj b => exact ⟨fun h => (by rcases h with ⟨_, h⟩ | ⟨_, h⟩ | ⟨_, h⟩ <;> cases h), fun _ => h8 b⟩
  refine ⟨?_, ?_, ?_, ?_, ?_, ?_, ?_, ?_⟩
  · exact num E.u64 (fun n => ⟨_, rfl⟩) (fun n => ⟨_, rfl⟩) (hi' _ _) rfl (fun _ => rfl) (fun _ => rfl) (fun _ => rfl) (fun _ => rfl)
  · exact num E.f64 (fun n => ⟨_, rfl⟩) (fun n => ⟨_, rfl⟩) (fun n => ⟨_, rfl⟩) rfl (fun _ => rfl) (fun _ => rfl) (fun _ => rfl) (fun _ => rfl)
  · exact key E.u32 _ _ _ (fun _ => rfl)
  · exact key E.i32 _ _ _ (fun _ => rfl)
  · exact key E.u8 _ _ _ (fun _ => rfl)
  · intro j
    cases j with
    | num d => exact ⟨fun _ => ⟨_, rfl⟩, fun h => (h (.inl (.inr (.inr ⟨_, rfl⟩)))).elim⟩
    | uint n => exact ⟨fun _ => ⟨_, rfl⟩, fun h => (h (.inl (.inl ⟨_, rfl⟩))).elim⟩
    | int n => exact ⟨fun _ => ⟨_, rfl⟩, fun h => (h (.inl (.inr (.inl ⟨_, rfl⟩)))).elim⟩
    | bool b => exact ⟨fun _ => ⟨_, rfl⟩, fun h => (h (.inr ⟨_, rfl⟩)).elim⟩
    | _ => exact ⟨fun h => (by rcases h with (⟨_, h⟩ | ⟨_, h⟩ | ⟨_, h⟩) | ⟨_, h⟩ <;> cases h), fun _ => rfl⟩
  · intro j
    cases j with
    | bool b => exact ⟨fun _ => ⟨_, rfl⟩, fun h => (h ⟨_, rfl⟩).elim⟩
    | _ => exact ⟨fun h => (by obtain ⟨_, h⟩ := h; cases h), fun _ => rfl⟩
  · intro j
    cases j with
    | str b => exact ⟨fun _ => ⟨_, rfl⟩, fun h => (h ⟨_, rfl⟩).elim⟩
    | _ => exact ⟨fun h => (by obtain ⟨_, h⟩ := h; cases h), fun _ => rfl⟩

/-- **C50, narrow integers** are not checked: an integer too large for a byte or a 32-bit word is reduced, and a boolean is 0 or 1. -/
theorem C50_reduced (E : JEnv) (n : UInt64) (b : Bool) :
    E.u8 (.uint n) = .ok (UInt8.ofNat n.toNat) ∧ E.u32 (.uint n) = .ok (UInt32.ofNat n.toNat) ∧ E.i32 (.uint n) = .ok (UInt32.ofNat n.toNat) ∧
    E.u8 (.bool b) = .ok b.toNat.toUInt8 ∧ E.u32 (.bool b) = .ok b.toNat.toUInt32 ∧ E.i32 (.bool b) = .ok b.toNat.toUInt32 := by
  refine ⟨?_, ?_, ?_, ?_, ?_, ?_⟩
  · rfl
  · rfl
  · rfl
  all_goals cases b <;> rfl

/-- **C50, floating-point numbers given for integers.** By the rules of the language, reading one is undefined exactly if its integral part is
not a value of the type that is read (or if it is not finite); otherwise the integral part is what is read. -/
theorem C50_float_for_integer {E : JEnv} (hE : E.isoOverflow = true) (d : F64) :
    (E.u8 (.num d) = .ub ↔ ¬ ∃ i, E.trunc d = some i ∧ 0 ≤ i ∧ i < 2 ^ 8) ∧
    (E.u32 (.num d) = .ub ↔ ¬ ∃ i, E.trunc d = some i ∧ 0 ≤ i ∧ i < 2 ^ 32) ∧
    (E.i32 (.num d) = .ub ↔ ¬ ∃ i, E.trunc d = some i ∧ -2 ^ 31 ≤ i ∧ i < 2 ^ 31) ∧
    (E.u64 (.num d) = .ub ↔ ¬ ∃ i, E.trunc d = some i ∧ 0 ≤ i ∧ i < 2 ^ 64) ∧
    (∀ i, E.trunc d = some i → 0 ≤ i → i < 2 ^ 64 → E.u64 (.num d) = .ok (UInt64.ofNat i.toNat)) := by
  have key : ∀ lo hi b, E.integral lo hi b (.num d) = .ub ↔ ¬ ∃ i, E.trunc d = some i ∧ lo ≤ i ∧ i ≤ hi := by
    intro lo hi b
    unfold JEnv.integral JEnv.badCast
    cases ht : E.trunc d with
    | none => simp [ht, hE]
    | some i =>
      simp only [hE, if_true, ht]
      by_cases h : lo ≤ i ∧ i ≤ hi
      · rw [if_pos h]
        exact ⟨(fun x => nomatch x), fun x => (x ⟨i, rfl, h⟩).elim⟩
      · rw [if_neg h]
        exact ⟨fun _ => (by rintro ⟨j, hj, hh⟩; cases hj; exact h hh), fun _ => rfl⟩
  have bind : ∀ {α : Type} (r : Res UInt64) (f : UInt64 → α), (r >>= fun n => .ok (f n)) = .ub ↔ r = .ub := by
    intro α r f
    cases r with
    | ok x => exact ⟨(fun h => nomatch h), (fun h => nomatch h)⟩
    | throw e => exact ⟨(fun h => nomatch h), (fun h => nomatch h)⟩
    | ub => exact ⟨fun _ => rfl, fun _ => rfl⟩
  have lt : ∀ lo hi : Int, (∃ i, E.trunc d = some i ∧ lo ≤ i ∧ i ≤ hi - 1) ↔ ∃ i, E.trunc d = some i ∧ lo ≤ i ∧ i < hi :=
    fun lo hi => ⟨fun ⟨i, h1, h2, h3⟩ => ⟨i, h1, h2, by omega⟩, fun ⟨i, h1, h2, h3⟩ => ⟨i, h1, h2, by omega⟩⟩
  refine ⟨?_, ?_, ?_, ?_, ?_⟩
  · exact (bind _ _).trans ((key 0 255 true).trans (not_congr (lt 0 256)))
  · exact (bind _ _).trans ((key 0 (2 ^ 32 - 1) true).trans (not_congr (lt 0 (2 ^ 32))))
  · exact (bind _ _).trans ((key (-2 ^ 31) (2 ^ 31 - 1) true).trans (not_congr (lt _ (2 ^ 31))))
  · exact (key 0 (2 ^ 64 - 1) false).trans (not_congr (lt 0 (2 ^ 64)))
  · intro i ht h0 h1
    unfold JEnv.u64 JEnv.integral
    simp only [ht]
    rw [if_pos ⟨h0, by omega⟩]
    congr 1
    apply UInt64.toNat_inj.1
    simp only [UInt64.toNat_ofBitVec, BitVec.toNat_ofInt, UInt64.toNat_ofNat']
    omega

namespace JsonSafety
open Sample

/-- a build as above -/
def checked : JEnv := { reader with isoOverflow := false, eigenChecks := true }
example : checked.Guarded := ⟨rfl, rfl⟩
/-- Under the rules of the language an infinity is not an integer of any type. -/
example : ({ checked with isoOverflow := true } : JEnv).i32 (.num 0x7ff0000000000000) = .ub := by decide +kernel
example : checked.u8 (.uint 300) = .ok 44 ∧ checked.u64 (.bool true) = .throw .json ∧ checked.u8 (.bool true) = .ok 1 ∧ checked.isoOverflow = false := by decide +kernel

/-- a document with a header and one node with the given attributes -/
def doc (v : Version) (layers : Json) (attrs : List (Str × Json)) : Json :=
  .obj [(JEnv.headerKey, JArith.header ⟨Str.lit "elsewhere", v⟩), (Str.lit "layer_ids", layers),
    (Str.lit "nodes", .arr [.obj [(Str.lit "id", .uint 10), (Str.lit "layer", .uint 2), (Str.lit "attributes", .obj attrs)]]),
    (Str.lit "edges", .arr [])]
/-- attributes with a feature of the given dimensions -/
def feature (r c : UInt64) : List (Str × Json) :=
  [(Str.lit "type", .str (Str.lit "SemanticNodeAttributes")),
    (Str.lit "semantic_feature", .obj [(Str.lit "rows", .int r), (Str.lit "cols", .int c), (Str.lit "data", .arr [.num 1, .num 1])])]

/-- Documents that are read, refused because of a dimension, refused because of a missing field. -/
example : GraphIO.returns (checked.readGraph stdNodes stdEdges (doc ⟨1, 0, 4⟩ (.arr [.uint 2]) (feature 2 1))) = true ∧
    checked.readGraph stdNodes stdEdges (doc ⟨1, 0, 4⟩ (.arr [.uint 2]) (feature (-2) (-1))) = .throw .abort ∧
    checked.readGraph stdNodes stdEdges (doc ⟨1, 0, 4⟩ .null (feature 2 1)) = .throw .json := by decide +kernel

/-- What the version is good for: in a document of version 1.0.2 or older that leaves out a colour, the colour is never initialised. -/
theorem C50_old_colour_uninitialised : ∃ j, checked.readGraph stdNodes stdEdges j = .ub ∧
    checked.headerIn j JEnv.headerKey = .ok ⟨Str.lit "elsewhere", ⟨1, 0, 2⟩⟩ :=
  ⟨doc ⟨1, 0, 2⟩ (.arr [.uint 2]) (feature 2 1), by decide +kernel, by decide +kernel⟩
/-- What the assertions are good for: without them, negative dimensions are used. -/
theorem C50_negative_dimensions : ∃ j, ({ checked with eigenChecks := false } : JEnv).readGraph stdNodes stdEdges j = .ub :=
  ⟨doc ⟨1, 0, 4⟩ (.arr [.uint 2]) (feature (-2) (-1)), by decide +kernel⟩
/-- What wrapping is good for: under the rules of the language a layer id given as a huge floating-point number is undefined, and so is the
product of two announced dimensions. -/
theorem C50_language_rules : (∃ j, ({ checked with isoOverflow := true } : JEnv).readGraph stdNodes stdEdges j = .ub) ∧
    ∃ j, ({ checked with isoOverflow := true } : JEnv).readGraph stdNodes stdEdges j = .ub :=
  ⟨⟨doc ⟨1, 0, 4⟩ (.arr [.num 0x7ff0000000000000]) (feature 2 1), by decide +kernel⟩,
    ⟨doc ⟨1, 0, 4⟩ (.arr [.uint 2]) (feature 0x10000 0x10000), by decide +kernel⟩⟩

/-- Documents are not checked for compatibility, as binary files are: one of a project and version unknown here is read. -/
theorem C50_no_compatibility_check : ∃ j h, checked.headerIn j JEnv.headerKey = .ok h ∧ h.checkCompatibility = .throw .runtimeError ∧
    GraphIO.returns (checked.readGraph stdNodes stdEdges j) = true :=
  ⟨doc ⟨9, 9, 9⟩ (.arr [.uint 2]) (feature 2 1), ⟨Str.lit "elsewhere", ⟨9, 9, 9⟩⟩, by decide +kernel, by decide +kernel, by decide +kernel⟩

end JsonSafety
end Verif
