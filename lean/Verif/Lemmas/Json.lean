import Verif.Lemmas.Utf8
import Verif.Spec.Json
import Verif.Lemmas.Ieee
import Verif.Lemmas.Binary
import Verif.Refine.Refused
/-! # Round trips through the JSON tree -/

namespace Verif

namespace Json
theorem int32_back (n : UInt32) : (UInt64.ofBitVec (n.toBitVec.signExtend 64)).toUInt32 = n := by
  apply UInt32.toBitVec_inj.1
  show ((n.toBitVec.signExtend 64).setWidth 32) = _
  apply BitVec.eq_of_getLsbD_eq
  intro i hi
  have : i < 64 := by omega
  simp only [BitVec.getLsbD_setWidth, BitVec.getLsbD_signExtend, hi, this, decide_true, Bool.true_and, if_true]

theorem dim_back (r : Int) (h : 0 ≤ r) (h' : r < 2^31) : ((UInt64.ofBitVec (BitVec.ofInt 64 r)).toUInt32.toBitVec.toInt) = r := by
  show ((BitVec.ofInt 64 r).setWidth 32).toInt = r
  obtain ⟨k, rfl⟩ := Int.eq_ofNat_of_zero_le h
  have : BitVec.ofInt 64 (k : Int) = BitVec.ofNat 64 k := by simp
  rw [this]
  have h2 : k < 2^31 := by omega
  rw [BitVec.toInt_eq_toNat_of_lt]
  · simp; omega
  · simp; omega

mutual
/-- what was printed and parsed once does not change any more -/
theorem text_text : ∀ {j j' : Json}, j.text = .ok j' → j'.text = .ok j'
  | .null, _, h => by cases h; rfl
  | .bool _, _, h => by cases h; rfl
  | .uint _, _, h => by cases h; rfl
  | .int n, _, h => by
    simp only [text, Res.ok.injEq] at h
    subst h
    by_cases hn : n < 0x8000000000000000 <;> simp [hn, text]
  | .num d, _, h => by
    simp only [text, Res.ok.injEq] at h
    subst h
    by_cases hd : F64.finite d = true <;> simp [hd, text]
  | .str s, j', h => by
    simp only [text] at h
    split at h
    · rename_i hs; cases h; simp [text, hs]
    · cases h
  | .arr l, j', h => by
    simp only [text] at h
    obtain ⟨l', h1, h2⟩ := bind_eq_ok h
    cases h2
    simp [text, textAll_textAll h1]
  | .obj fs, j', h => by
    simp only [text] at h
    obtain ⟨l', h1, h2⟩ := bind_eq_ok h
    cases h2
    simp [text, textFields_textFields h1]
theorem textAll_textAll : ∀ {l l' : List Json}, textAll l = .ok l' → textAll l' = .ok l'
  | [], _, h => by cases h; rfl
  | j :: l, _, h => by
    simp only [textAll] at h
    obtain ⟨j', h1, h2⟩ := bind_eq_ok h
    obtain ⟨l', h3, h4⟩ := bind_eq_ok h2
    cases h4
    simp [textAll, text_text h1, textAll_textAll h3]
theorem textFields_textFields : ∀ {l l' : List (Str × Json)}, textFields l = .ok l' → textFields l' = .ok l'
  | [], _, h => by cases h; rfl
  | (k, j) :: l, _, h => by
    simp only [textFields] at h
    split at h
    · rename_i hk
      obtain ⟨j', h1, h2⟩ := bind_eq_ok h
      obtain ⟨l', h3, h4⟩ := bind_eq_ok h2
      cases h4
      simp [textFields, hk, text_text h1, textFields_textFields h3]
    · cases h
end

theorem textFields_cons {k : Str} {j j' : Json} {fs fs' : List (Str × Json)} (hk : utf8 k = true) (hj : j.text = .ok j')
    (hf : textFields fs = .ok fs') : textFields ((k, j) :: fs) = .ok ((k, j') :: fs') := by
  simp [textFields, hk, hj, hf]

/-- the text of a list of fields has the same names, with the values printed and parsed -/
theorem textFields_find {fs fs' : List (Str × Json)} (h : textFields fs = .ok fs') (k : Str) :
    match fs.find? (fun e => e.1 = k) with
    | none => fs'.find? (fun e => e.1 = k) = none
    | some e => ∃ v', e.2.text = .ok v' ∧ fs'.find? (fun e => e.1 = k) = some (k, v') := by
  induction fs generalizing fs' with
  | nil => cases h; rfl
  | cons e fs ih =>
    obtain ⟨a, j⟩ := e
    simp only [textFields] at h
    split at h
    · obtain ⟨j', h1, h2⟩ := bind_eq_ok h
      obtain ⟨fs1, h3, h4⟩ := bind_eq_ok h2
      cases h4
      simp only [List.find?_cons]
      by_cases ha : a = k
      · subst ha
        simp [h1]
      · simp only [ha, decide_false]
        exact ih h3
    · cases h

theorem textFields_ok {fs : List (Str × Json)} (h : ∀ e ∈ fs, utf8 e.1 = true ∧ ∃ v', e.2.text = .ok v') : ∃ fs', textFields fs = .ok fs' := by
  induction fs with
  | nil => exact ⟨[], rfl⟩
  | cons e fs ih =>
    obtain ⟨h1, v', h2⟩ := h e List.mem_cons_self
    obtain ⟨fs', h3⟩ := ih (fun x hx => h x (List.mem_cons_of_mem _ hx))
    exact ⟨(e.1, v') :: fs', textFields_cons h1 h2 h3⟩

theorem find?_of_nodup {fs : List (Str × Json)} (hn : (fs.map Prod.fst).Nodup) {k : Str} {v : Json} (h : (k, v) ∈ fs) :
    fs.find? (fun e => e.1 = k) = some (k, v) := by
  induction fs with
  | nil => cases h
  | cons e fs ih =>
    simp only [List.map_cons, List.nodup_cons] at hn
    rw [List.find?_cons]
    rcases List.mem_cons.1 h with rfl | h'
    · simp
    · have : e.1 ≠ k := by
        rintro rfl
        exact hn.1 (List.mem_map.2 ⟨_, h', rfl⟩)
      simp [this, ih hn.2 h']

theorem find?_none {fs : List (Str × Json)} {k : Str} (h : k ∉ fs.map Prod.fst) : fs.find? (fun e => e.1 = k) = none := by
  rw [List.find?_eq_none]
  intro e he hk
  exact h (List.mem_map.2 ⟨e, he, by simpa using hk⟩)
end Json

/-- Printed and parsed, the tree `j` is read as `a`. -/
def JRT {α : Type} (j : Json) (r : Json → Res α) (a : α) : Prop := ∃ j', j.text = .ok j' ∧ r j' = .ok a
/-- The same, and the tree does not become `null`. -/
def JRT' {α : Type} (j : Json) (r : Json → Res α) (a : α) : Prop := ∃ j', j.text = .ok j' ∧ j'.isNull = false ∧ r j' = .ok a

namespace JRT
open Json
variable {α : Type} {j : Json} {r : Json → Res α} {a : α}

theorem textual (h : JRT j r a) : ∃ j', j.text = .ok j' := let ⟨j', h1, _⟩ := h; ⟨j', h1⟩
theorem _root_.Verif.JRT'.jrt (h : JRT' j r a) : JRT j r a := let ⟨j', h1, _, h2⟩ := h; ⟨j', h1, h2⟩
theorem use (h : JRT j r a) {j' : Json} (hj : j.text = .ok j') : r j' = .ok a := by
  obtain ⟨j1, h1, h2⟩ := h
  rw [hj] at h1
  cases h1
  exact h2

/-- a field of an object -/
theorem at' {fs fs' : List (Str × Json)} (ht : textFields fs = .ok fs') (hn : (fs.map Prod.fst).Nodup) {k : Str} (hm : (k, j) ∈ fs)
    (h : JRT j r a) : ((Json.obj fs').at' k >>= r) = .ok a := by
  have := textFields_find ht k
  rw [find?_of_nodup hn hm] at this
  obtain ⟨v', h1, h2⟩ := this
  simp only [Json.at', Json.find, h2, Option.map_some, Res.bind_ok]
  exact h.use h1
theorem field {fs fs' : List (Str × Json)} (ht : textFields fs = .ok fs') (hn : (fs.map Prod.fst).Nodup) {k : Str} (hm : (k, j) ∈ fs)
    (h : JRT j r a) (d : α) : JEnv.field (Json.obj fs') k d r = .ok a := by
  have := textFields_find ht k
  rw [find?_of_nodup hn hm] at this
  obtain ⟨v', h1, h2⟩ := this
  simp only [JEnv.field, Json.find, h2, Option.map_some]
  exact h.use h1
theorem field_none {fs fs' : List (Str × Json)} (ht : textFields fs = .ok fs') {k : Str} (hm : k ∉ fs.map Prod.fst) (d : α) :
    JEnv.field (Json.obj fs') k d r = .ok d := by
  have := textFields_find ht k
  rw [find?_none hm] at this
  simp only [JEnv.field, Json.find, this, Option.map_none]
theorem get {fs fs' : List (Str × Json)} (ht : textFields fs = .ok fs') (hn : (fs.map Prod.fst).Nodup) {k : Str} (hm : (k, j) ∈ fs) :
    ∃ j', j.text = .ok j' ∧ (Json.obj fs').find k = some j' := by
  have := textFields_find ht k
  rw [find?_of_nodup hn hm] at this
  obtain ⟨v', h1, h2⟩ := this
  exact ⟨v', h1, by simp only [Json.find, h2, Option.map_some]⟩
theorem get_none {fs fs' : List (Str × Json)} (ht : textFields fs = .ok fs') {k : Str} (hm : k ∉ fs.map Prod.fst) :
    (Json.obj fs').find k = none := by
  have := textFields_find ht k
  rw [find?_none hm] at this
  simp only [Json.find, this, Option.map_none]

variable (E : JEnv)

theorem bool (b : Bool) : JRT (.bool b) JEnv.bool b := ⟨.bool b, rfl, rfl⟩
theorem u64 (n : UInt64) : JRT (.uint n) E.u64 n := ⟨.uint n, rfl, rfl⟩
theorem i64 (n : UInt64) : JRT (.int n) E.u64 n := by
  refine ⟨_, rfl, ?_⟩
  split <;> rfl
theorem u32 (n : UInt32) : JRT' (JArith.uint32 n) E.u32 n := ⟨.uint n.toUInt64, rfl, rfl, by simp [JEnv.u32, JEnv.integral]⟩
theorem u8 (n : UInt8) : JRT (JArith.uint8 n) E.u8 n := ⟨.uint n.toUInt64, rfl, by simp [JEnv.u8, JEnv.integral]⟩
theorem i32 (n : UInt32) : JRT (JArith.int32 n) E.i32 n := by
  refine ⟨_, rfl, ?_⟩
  have := int32_back n
  split <;> simp [JEnv.i32, JEnv.integral, this]
theorem f64 {d : F64} (h : F64.finite d = true) : JRT' (.num d) E.f64 d := ⟨.num d, by simp [text, h], rfl, rfl⟩
theorem f32 {x : F32} (hF : E.toJArith.Exact) (h : F32.finite x = true) : JRT' (E.float x) E.f32 x := by
  obtain ⟨h1, h2⟩ := hF x h
  exact ⟨.num (E.widen x), by simp [JArith.float, text, h1], rfl, by simp [JEnv.f32, h2]⟩
/-- coefficients of vectors and matrices -/
theorem f64c (d : F64) : JRT (.num d) (JEnv.coeff E.f64 F64.nan) d.printed := by
  unfold F64.printed
  by_cases h : F64.finite d = true
  · exact ⟨.num d, by simp [text, h], by simp [JEnv.coeff, Json.isNull, JEnv.f64, h]⟩
  · exact ⟨.null, by simp [text, h], by simp [JEnv.coeff, Json.isNull, h]⟩
theorem f32c (x : F32) : JRT (E.float x) (JEnv.coeff E.f32 F32.nan) x.printed := by
  unfold F32.printed
  by_cases h : F32.finite x = true
  · obtain ⟨h1, h2⟩ := E.toJArith.exact x h
    exact ⟨.num (E.widen x), by simp [JArith.float, text, h1], by simp [JEnv.coeff, Json.isNull, JEnv.f32, h2, h]⟩
  · have h1 : ¬ F64.finite (E.widen x) = true := ieee_special x h
    exact ⟨.null, by simp [JArith.float, text, h1], by simp [JEnv.coeff, Json.isNull, h]⟩
theorem u32c (n : UInt32) : JRT (JArith.uint32 n) (JEnv.coeff E.u32 0) n := ⟨.uint n.toUInt64, rfl, by simp [JEnv.coeff, Json.isNull, JEnv.u32, JEnv.integral]⟩
theorem str {s : Str} (h : s.IsText) : JRT (.str s) JEnv.str s := ⟨.str s, by simp [text, (utf8_iff s).2 h], rfl⟩

theorem all' {β : Type} {w : β → Json} {r : Json → Res β} {φ : β → β} {l : List β} (h : ∀ b ∈ l, JRT (w b) r (φ b)) :
    ∃ l', textAll (l.map w) = .ok l' ∧ l'.length = l.length ∧ allRes r l' = .ok (l.map φ) := by
  induction l with
  | nil => exact ⟨[], rfl, rfl, rfl⟩
  | cons b l ih =>
    obtain ⟨j', h1, h2⟩ := h b List.mem_cons_self
    obtain ⟨l', h3, h4, h5⟩ := ih (fun x hx => h x (List.mem_cons_of_mem _ hx))
    exact ⟨j' :: l', by simp [textAll, h1, h3], by simp [h4], by simp [allRes, h2, h5]⟩

theorem vec' {β : Type} {w : β → Json} {r : Json → Res β} {φ : β → β} {l : List β} (h : ∀ b ∈ l, JRT (w b) r (φ b)) :
    JRT (JArith.vec w l) (JEnv.vec r) (l.map φ) := by
  obtain ⟨l', h1, _, h2⟩ := all' h
  exact ⟨.arr l', by simp [JArith.vec, text, h1], h2⟩
theorem vec {β : Type} {w : β → Json} {r : Json → Res β} {l : List β} (h : ∀ b ∈ l, JRT (w b) r b) : JRT (JArith.vec w l) (JEnv.vec r) l := by
  have := vec' (φ := id) h
  rwa [List.map_id] at this

theorem map {β : Type} {w : β → Json} {r : Json → Res β} {m : OMap Str β} (h : ∀ e ∈ m.toList, Str.IsText e.1 ∧ JRT (w e.2) r e.2) :
    JRT (JArith.map w m) (JEnv.map r) m := by
  have key : ∀ (l : List (Str × β)) (acc : OMap Str β), (∀ e ∈ l, Str.IsText e.1 ∧ JRT (w e.2) r e.2) →
      ∃ fs, textFields (l.map (fun e => (e.1, w e.2))) = .ok fs ∧
        foldRes (fun m e => do
          let v ← r e.2
          return m.insert e.1 v) acc fs = .ok (l.foldl (fun m e => m.insert e.1 e.2) acc) := by
    intro l
    induction l with
    | nil => intro acc _; exact ⟨[], rfl, rfl⟩
    | cons e l ih =>
      intro acc hl
      obtain ⟨h1, j', h2, h3⟩ := hl e List.mem_cons_self
      obtain ⟨fs, h4, h5⟩ := ih (acc.insert e.1 e.2) (fun x hx => hl x (List.mem_cons_of_mem _ hx))
      refine ⟨(e.1, j') :: fs, textFields_cons ((utf8_iff _).2 h1) h2 h4, ?_⟩
      simp only [foldRes_cons, h3, Res.bind_ok, Res.pure_eq, List.foldl_cons]
      exact h5
  obtain ⟨fs, h1, h2⟩ := key m.toList ∅ h
  refine ⟨.obj fs, by simp [JArith.map, text, h1], ?_⟩
  simp only [JEnv.map, h2]
  rw [Rd.foldl_insert_toList]

theorem matrix {β : Type} {w : β → Json} {r : Json → Res β} {nan : β} {φ : β → β} {m : Matrix β} {rows cols : Int} (hs : m.Sized rows cols)
    (hp : rows * cols < 2 ^ 31) (h : ∀ b ∈ m.data, JRT (w b) (JEnv.coeff r nan) (φ b)) :
    ∃ j', (JArith.coeffs w m).text = .ok j' ∧ (j'.size : Int) = rows * cols ∧ E.matrix r nan rows cols j' = .ok { m with data := m.data.map φ } := by
  obtain ⟨h1, h2, h3, h4, h5, h6, h7⟩ := hs
  obtain ⟨l', a1, a2, a3⟩ := all' h
  have hpos : 0 ≤ rows * cols := by rw [← h7]; omega
  have hmul : E.mulInt rows cols = .ok (rows * cols) := by
    unfold JEnv.mulInt
    rw [if_pos ⟨by omega, hp⟩]
  obtain ⟨mr, mc, md⟩ := m
  simp only at h1 h2 h7 a1 a2 a3 h
  subst h1 h2
  cases md with
  | nil =>
    refine ⟨.null, rfl, by simpa [Json.size] using h7, ?_⟩
    simp only [JEnv.matrix, hmul, Res.bind_ok]
    rw [if_neg (by simpa [Json.size] using h7), if_neg (by omega)]
    rfl
  | cons b l =>
    refine ⟨.arr l', by (show (Json.arr ((b :: l).map w)).text = _; simp only [text, a1, Res.bind_ok, Res.pure_eq]), by simp [Json.size, a2, ← h7], ?_⟩
    simp only [JEnv.matrix, hmul, Res.bind_ok]
    rw [if_neg (by simp [Json.size, a2, ← h7]), if_neg (by omega)]
    simp only [a3, Res.bind_ok]
    rfl

theorem matrixFixed {β : Type} {w : β → Json} {r : Json → Res β} {nan : β} {φ : β → β} {m : Matrix β} {rows cols : Int} (hs : m.Sized rows cols)
    (hp : rows * cols < 2 ^ 31) (h : ∀ b ∈ m.data, JRT (w b) (JEnv.coeff r nan) (φ b)) :
    JRT (JArith.coeffs w m) (E.matrixFixed r nan rows cols) { m with data := m.data.map φ } := by
  obtain ⟨j', h1, _, h2⟩ := matrix E hs hp h (nan := nan)
  exact ⟨j', h1, h2⟩

theorem column {β : Type} {w : β → Json} {r : Json → Res β} {nan : β} {φ : β → β} {m : Matrix β} {rows : Int} (hs : m.Sized rows 1)
    (hp : rows < 2 ^ 31) (h : ∀ b ∈ m.data, JRT (w b) (JEnv.coeff r nan) (φ b)) : JRT (JArith.coeffs w m) (E.column r nan) { m with data := m.data.map φ } := by
  obtain ⟨j', h1, h2, h3⟩ := matrix E hs (by omega) h (nan := nan)
  refine ⟨j', h1, ?_⟩
  unfold JEnv.column
  rw [h2, Int.mul_one]
  exact h3

theorem dim {r : Int} (h : 0 ≤ r) (h' : r < 2 ^ 31) : JRT (.int (UInt64.ofBitVec (BitVec.ofInt 64 r))) E.dim r := by
  refine ⟨_, rfl, ?_⟩
  have := dim_back r h h'
  split <;> simpa [JEnv.dim, JEnv.i32, JEnv.integral] using this

/-- an object with the given fields, all of which can be printed -/
theorem obj {fs : List (Str × Json)} (h : ∀ e ∈ fs, utf8 e.1 = true ∧ ∃ v', e.2.text = .ok v')
    (hr : ∀ fs', textFields fs = .ok fs' → r (.obj fs') = .ok a) : JRT (.obj fs) r a := by
  obtain ⟨fs', hf⟩ := textFields_ok h
  exact ⟨.obj fs', by simp [text, hf], hr fs' hf⟩

theorem matrixDyn {β : Type} {w : β → Json} {r : Json → Res β} {nan : β} {φ : β → β} {m : Matrix β} {rows cols : Int} (hs : m.Sized rows cols)
    (hr : rows < 2 ^ 31) (hc : cols < 2 ^ 31) (hp : rows * cols < 2 ^ 31) (h : ∀ b ∈ m.data, JRT (w b) (JEnv.coeff r nan) (φ b)) :
    JRT (JArith.matrixDyn w m) (E.matrixDyn r nan) { m with data := m.data.map φ } := by
  have h1 := matrixFixed E hs hp h (nan := nan)
  have e1 := hs.1
  have e2 := hs.2.1
  have r1 : JRT (.int (UInt64.ofBitVec (BitVec.ofInt 64 m.rows))) E.dim rows := e1 ▸ dim E (by rw [e1]; exact hs.2.2.1) (by rw [e1]; exact hr)
  have r2 : JRT (.int (UInt64.ofBitVec (BitVec.ofInt 64 m.cols))) E.dim cols := e2 ▸ dim E (by rw [e2]; exact hs.2.2.2.2.1) (by rw [e2]; exact hc)
  refine obj ?_ ?_
  · simp only [List.mem_cons, List.not_mem_nil, or_false, forall_eq_or_imp, forall_eq]
    exact ⟨⟨by decide +kernel, r1.textual⟩, ⟨by decide +kernel, r2.textual⟩, ⟨by decide +kernel, h1.textual⟩⟩
  · intro fs' ht
    have hn : (([(Str.lit "rows", Json.int (UInt64.ofBitVec (BitVec.ofInt 64 m.rows))), (Str.lit "cols", .int (UInt64.ofBitVec (BitVec.ofInt 64 m.cols))), (Str.lit "data", JArith.coeffs w m)]).map Prod.fst).Nodup := by
      simp only [List.map]; decide +kernel
    have a1 := r1.at' ht hn (List.mem_of_getElem? (i := 0) rfl)
    have a2 := r2.at' ht hn (List.mem_of_getElem? (i := 1) rfl)
    have a3 := h1.at' ht hn (List.mem_of_getElem? (i := 2) rfl)
    obtain ⟨x1, b1, c1⟩ := bind_eq_ok a1
    obtain ⟨x2, b2, c2⟩ := bind_eq_ok a2
    obtain ⟨x3, b3, c3⟩ := bind_eq_ok a3
    simp only [JEnv.matrixDyn, b1, b2, b3, c1, c2, Res.bind_ok]
    exact c3

end JRT
end Verif
