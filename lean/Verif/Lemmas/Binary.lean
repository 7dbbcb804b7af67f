import Verif.Model.Binary
/-! # Round trip and memory safety of the binary primitives -/

namespace Verif

theorem leBytes_length (k n : Nat) : (leBytes k n).length = k := by
  induction k generalizing n with
  | zero => rfl
  | succ k ih => simp [leBytes, ih]

theorem leNat_leBytes (k n : Nat) : leNat (leBytes k n) = n % 256 ^ k := by
  induction k generalizing n with
  | zero => simp [leBytes, leNat, Nat.mod_one]
  | succ k ih =>
    simp only [leBytes, leNat, ih, UInt8.toNat_ofNat']
    rw [Nat.pow_succ 256 k, Nat.mul_comm (256 ^ k) 256, Nat.mod_mul]

theorem leNat_lt (l : List UInt8) : leNat l < 256 ^ l.length := by
  induction l with
  | nil => simp [leNat]
  | cons b l ih =>
    simp only [leNat, List.length_cons, Nat.pow_succ]
    have := b.toNat_lt
    omega

namespace Rd
variable {α β : Type} {E : Env}

theorem bind_apply (r : Rd α) (k : α → Rd β) (p : Nat) : (r >>= k) E p = (r E p >>= fun x => k x.1 E x.2) := rfl
theorem pure_apply (a : α) (p : Nat) : (Pure.pure a : Rd α) E p = .ok (a, p) := rfl

/-- At the position after `pre`, the reader reads what the writer wrote, and stops right after it. -/
def RT (E : Env) (w : Wr) (r : Rd α) (a : α) : Prop :=
  ∀ bs pre post, w = .ok bs → E.buf = pre ++ bs ++ post → r E pre.length = .ok (a, pre.length + bs.length)

theorem RT.pure (a : α) : RT E Wr.nil (Pure.pure a) a := by
  intro bs pre post hw _
  cases hw
  rfl

theorem seq_ok {w w' : Wr} {bs : List UInt8} (h : w.seq w' = .ok bs) : ∃ b1 b2, w = .ok b1 ∧ w' = .ok b2 ∧ bs = b1 ++ b2 := by
  unfold Wr.seq at h
  cases w with
  | ok b1 =>
    cases w' with
    | ok b2 => simp at h; exact ⟨b1, b2, rfl, rfl, h.symm⟩
    | throw e => simp at h
    | ub => simp at h
  | throw e => simp at h
  | ub => simp at h

theorem RT.bind {w w' : Wr} {r : Rd α} {k : α → Rd β} {a : α} {b : β} (h : RT E w r a) (h' : RT E w' (k a) b) :
    RT E (w.seq w') (r >>= k) b := by
  intro bs pre post hw hb
  obtain ⟨b1, b2, h1, h2, rfl⟩ := seq_ok hw
  rw [bind_apply, h b1 pre (b2 ++ post) h1 (by simp [hb])]
  simp only [Res.bind_ok]
  have := h' b2 (pre ++ b1) post h2 (by simp [hb])
  simp only [List.length_append] at *
  rw [this, Nat.add_assoc]

/-- A last read followed by building the result. -/
theorem RT.map {w : Wr} {r : Rd α} {a : α} (f : α → β) (h : RT E w r a) : RT E w (r >>= fun x => Pure.pure (f x)) (f a) := by
  intro bs pre post hw hb
  rw [bind_apply, h bs pre post hw hb]
  rfl

theorem RT.of_eq {w : Wr} {r : Rd α} {a a' : α} (h : RT E w r a) (e : a = a') : RT E w r a' := e ▸ h

theorem raw_spec {pre bs post : List UInt8} (h : E.buf = pre ++ bs ++ post) :
    raw bs.length E pre.length = .ok (bs, pre.length + bs.length) := by
  unfold raw
  rw [if_pos (by rw [h]; simp), h]
  simp [List.append_assoc]

theorem checkValid_spec {pre bs post : List UInt8} {k n : Nat} (h : E.buf = pre ++ bs ++ post) (hk : n * k = bs.length) :
    checkValid k n E pre.length = .ok ((), pre.length) := by
  unfold checkValid
  rw [if_neg]
  have := E.small
  have h2 := congrArg List.length h
  simp only [List.length_append] at h2
  rw [hk, Nat.mod_eq_of_lt (by omega)]
  omega

theorem currType_spec {pre rest post : List UInt8} {t : UInt8} (h : E.buf = pre ++ (t :: rest) ++ post) :
    currType E pre.length = .ok (t, pre.length) := by
  unfold currType
  have h' : E.buf = pre ++ [t] ++ (rest ++ post) := by simp [h]
  rw [bind_apply, checkValid_spec h' (by rfl)]
  simp only [Res.bind_ok]
  unfold peek
  have := raw_spec h'
  simp only [List.length_singleton] at this
  rw [this]
  simp [leNat]

theorem checkType_spec {pre rest post : List UInt8} {t : UInt8} (h : E.buf = pre ++ (t :: rest) ++ post) :
    checkType t E pre.length = .ok ((), pre.length + 1) := by
  unfold checkType
  rw [bind_apply, currType_spec h]
  simp only [Res.bind_ok, ne_eq, not_true_eq_false, if_false]
  rfl

theorem RT.checkType (t : UInt8) : RT E (Wr.type t) (checkType t) () := by
  intro bs pre post hw hb
  cases hw
  exact checkType_spec (rest := []) hb

theorem RT.word (t : UInt8) (k n : Nat) : RT E (.ok (t :: leBytes k n)) (word t k) (n % 256 ^ k) := by
  intro bs pre post hw hb
  cases hw
  unfold Rd.word
  rw [bind_apply, checkType_spec hb]
  simp only [Res.bind_ok]
  have h' : E.buf = (pre ++ [t]) ++ leBytes k n ++ post := by simp [hb]
  have e : pre.length + 1 = (pre ++ [t]).length := by simp
  rw [bind_apply, e, checkValid_spec h' (by rw [leBytes_length]; omega)]
  simp only [Res.bind_ok]
  rw [bind_apply]
  have := raw_spec h'
  rw [leBytes_length] at this
  rw [this]
  simp only [Res.bind_ok, leNat_leBytes, pure_apply, List.length_append, List.length_cons, leBytes_length]
  simp only [List.length_nil]
  congr 2; omega

theorem toNat_mod8 (v : UInt8) : (v.toNat % 256 ^ 1).toUInt8 = v := by
  have := v.toNat_lt
  rw [Nat.mod_eq_of_lt (by omega)]; exact UInt8.ofNat_toNat
theorem toNat_mod16 (v : UInt16) : (v.toNat % 256 ^ 2).toUInt16 = v := by
  have := v.toNat_lt
  rw [Nat.mod_eq_of_lt (by omega)]; exact UInt16.ofNat_toNat
theorem toNat_mod32 (v : UInt32) : (v.toNat % 256 ^ 4).toUInt32 = v := by
  have := v.toNat_lt
  rw [Nat.mod_eq_of_lt (by omega)]; exact UInt32.ofNat_toNat
theorem toNat_mod64 (v : UInt64) : (v.toNat % 256 ^ 8).toUInt64 = v := by
  have := v.toNat_lt
  rw [Nat.mod_eq_of_lt (by omega)]; exact UInt64.ofNat_toNat

theorem RT.u8 (v : UInt8) : RT E (Wr.u8 v) u8 v := ((RT.word Pack.u8 1 v.toNat).map Nat.toUInt8).of_eq (toNat_mod8 v)
theorem RT.u16 (v : UInt16) : RT E (Wr.u16 v) u16 v := ((RT.word Pack.u16 2 v.toNat).map Nat.toUInt16).of_eq (toNat_mod16 v)
theorem RT.u32 (v : UInt32) : RT E (Wr.u32 v) u32 v := ((RT.word Pack.u32 4 v.toNat).map Nat.toUInt32).of_eq (toNat_mod32 v)
theorem RT.u64 (v : UInt64) : RT E (Wr.u64 v) u64 v := ((RT.word Pack.u64 8 v.toNat).map Nat.toUInt64).of_eq (toNat_mod64 v)
theorem RT.i8 (v : UInt8) : RT E (Wr.i8 v) i8 v := ((RT.word Pack.i8 1 v.toNat).map Nat.toUInt8).of_eq (toNat_mod8 v)
theorem RT.i16 (v : UInt16) : RT E (Wr.i16 v) i16 v := ((RT.word Pack.i16 2 v.toNat).map Nat.toUInt16).of_eq (toNat_mod16 v)
theorem RT.i32 (v : UInt32) : RT E (Wr.i32 v) i32 v := ((RT.word Pack.i32 4 v.toNat).map Nat.toUInt32).of_eq (toNat_mod32 v)
theorem RT.i64 (v : UInt64) : RT E (Wr.i64 v) i64 v := ((RT.word Pack.i64 8 v.toNat).map Nat.toUInt64).of_eq (toNat_mod64 v)
theorem RT.f32 (v : F32) : RT E (Wr.f32 v) f32 v := ((RT.word Pack.f32 4 v.toNat).map Nat.toUInt32).of_eq (toNat_mod32 v)
theorem RT.f64 (v : F64) : RT E (Wr.f64 v) f64 v := ((RT.word Pack.f64 8 v.toNat).map Nat.toUInt64).of_eq (toNat_mod64 v)

theorem RT.bool (b : Bool) : RT E (Wr.bool b) bool b := by
  intro bs pre post hw hb
  unfold Rd.bool
  cases hw
  rw [bind_apply, currType_spec (rest := []) hb]
  simp only [Res.bind_ok]
  rw [bind_apply, checkType_spec (rest := []) hb]
  cases b <;> rfl

theorem RT.arrLen (n : Nat) : RT E (Wr.arrLen n) arrLen n := by
  intro bs pre post hw hb
  unfold Wr.arrLen at hw
  split at hw
  · cases hw
  · rename_i hn
    cases hw
    unfold Rd.arrLen
    rw [bind_apply, currType_spec hb]
    simp only [Res.bind_ok]
    rw [if_neg (by simp)]
    have h' : E.buf = (pre ++ [Pack.arr32]) ++ leBytes 4 n ++ post := by simp [hb]
    have e : pre.length + 1 = (pre ++ [Pack.arr32]).length := by simp
    rw [bind_apply]
    unfold advance
    simp only [Res.bind_ok]
    rw [bind_apply, e, checkValid_spec h' (by rw [leBytes_length])]
    simp only [Res.bind_ok]
    have := raw_spec h'
    rw [leBytes_length] at this
    rw [bind_apply, this]
    simp only [Res.bind_ok, leNat_leBytes, pure_apply, List.length_append, List.length_cons, leBytes_length, List.length_nil]
    rw [Nat.mod_eq_of_lt (by omega)]

theorem RT.checkArrLen (n m : Nat) : RT E (Wr.arrLen n) (checkArrLen m) () := (RT.arrLen n).map (fun _ => ())

theorem RT.str (s : Str) : RT E (Wr.str s) str s := by
  unfold Wr.str Rd.str
  refine (RT.arrLen s.length).bind ?_
  intro bs pre post hw hb
  cases hw
  rw [bind_apply, checkValid_spec hb (by omega)]
  simp only [Res.bind_ok]
  exact raw_spec hb

/-- Whatever is written starts with a byte other than `t`. -/
def NotHead (t : UInt8) (w : Wr) : Prop := ∀ bs, w = .ok bs → ∃ b rest, bs = b :: rest ∧ b ≠ t

theorem RT.opt {f : α → Wr} {r : Rd α} (v : Option α) (h : ∀ a, v = some a → RT E (f a) r a ∧ NotHead Pack.nil (f a)) :
    RT E (Wr.opt f v) (opt r) v := by
  intro bs pre post hw hb
  unfold Rd.opt
  cases v with
  | none =>
    cases hw
    rw [bind_apply, currType_spec (rest := []) hb]
    simp only [Res.bind_ok, if_true]
    rw [bind_apply, checkType_spec (rest := []) hb]
    rfl
  | some a =>
    obtain ⟨h1, h2⟩ := h a rfl
    obtain ⟨b, rest, rfl, hne⟩ := h2 bs hw
    rw [bind_apply, currType_spec hb]
    simp only [Res.bind_ok, hne, if_false]
    exact (h1.map some) _ pre post hw hb

theorem NotHead.u32 (v : UInt32) : NotHead Pack.nil (Wr.u32 v) := by
  intro bs h; cases h; exact ⟨_, _, rfl, by decide⟩
theorem NotHead.i64 (v : UInt64) : NotHead Pack.nil (Wr.i64 v) := by
  intro bs h; cases h; exact ⟨_, _, rfl, by decide⟩

theorem RT.stamp (v : Stamp) : RT E (Wr.stamp v) stamp v := RT.i64 v

theorem RT.times {f : α → Wr} {r : Rd α} (l : List α) (h : ∀ a ∈ l, RT E (f a) r a) : RT E (Wr.all f l) (times r l.length) l := by
  induction l with
  | nil => exact RT.pure []
  | cons a l ih =>
    simp only [Wr.all, List.length_cons, Rd.times]
    refine (h a List.mem_cons_self).bind ?_
    exact (ih (fun b hb => h b (List.mem_cons_of_mem _ hb))).map (fun l => a :: l)

theorem RT.vec {f : α → Wr} {r : Rd α} (l : List α) (h : ∀ a ∈ l, RT E (f a) r a) : RT E (Wr.vec f l) (vec r) l :=
  (RT.arrLen l.length).bind (RT.times l h)

theorem RT.array {f : α → Wr} {r : Rd α} (l : List α) (m n : Nat) (hn : l.length = n) (h : ∀ a ∈ l, RT E (f a) r a) :
    RT E (Wr.seq (Wr.arrLen m) (Wr.all f l)) (array r n) l := by
  subst hn
  exact (RT.checkArrLen m l.length).bind (RT.times l h)

theorem foldl_add_keys {K : Type} [DecidableEq K] [OKey K] (s : OSet K) : s.keys.foldl (fun s k => OMap.add s k) (∅ : OSet K) = s := by
  apply OMap.set_ext
  intro k
  have key : ∀ (L : List K) (t : OSet K), (L.foldl (fun s k => OMap.add s k) t).contains k = (t.contains k || decide (k ∈ L)) := by
    intro L
    induction L with
    | nil => intro t; simp
    | cons a L ih =>
      intro t
      rw [List.foldl_cons, ih, OMap.contains_add]
      by_cases h : a = k
      · subst h; simp
      · have : ¬ k = a := fun hh => h hh.symm
        simp [h, this]
  rw [key]
  cases h : s.contains k with
  | true => rw [decide_eq_true (OMap.mem_keys.2 h)]; simp
  | false =>
    rw [decide_eq_false (fun hh => by rw [OMap.mem_keys.1 hh] at h; cases h)]
    rfl

theorem foldl_insert_toList {K V : Type} [DecidableEq K] [OKey K] (m : OMap K V) :
    m.toList.foldl (fun m e => m.insert e.1 e.2) (∅ : OMap K V) = m := by
  apply OMap.ext
  intro k
  have key : ∀ (L : List (K × V)) (t : OMap K V), (L.map Prod.fst).Nodup →
      (L.foldl (fun m e => m.insert e.1 e.2) t).find? k = (match L.find? (fun e => e.1 = k) with | some e => some e.2 | none => t.find? k) := by
    intro L
    induction L with
    | nil => intro t _; rfl
    | cons a L ih =>
      intro t hn
      simp only [List.map_cons, List.nodup_cons] at hn
      rw [List.foldl_cons, ih _ hn.2, List.find?_cons, OMap.find?_insert]
      by_cases h : a.1 = k
      · have : L.find? (fun e => e.1 = k) = none := by
          rw [List.find?_eq_none]
          intro e he
          simp only [decide_eq_true_eq]
          intro h2
          exact hn.1 (h ▸ h2 ▸ List.mem_map.2 ⟨e, he, rfl⟩)
        simp [this, h]
      · simp [h]
  rw [key _ _ (OMap.keys_nodup m)]
  cases hh : m.find? k with
  | none =>
    have : m.toList.find? (fun e => e.1 = k) = none := by
      rw [List.find?_eq_none]
      rintro ⟨k', v⟩ he
      simp only [decide_eq_true_eq]
      rintro rfl
      rw [OMap.mem_toList.1 he] at hh; cases hh
    rw [this]; rfl
  | some v =>
    cases hf : m.toList.find? (fun e => e.1 = k) with
    | none =>
      rw [List.find?_eq_none] at hf
      exact absurd (decide_eq_true rfl) (hf (k, v) (OMap.mem_toList.2 hh))
    | some e =>
      have h1 := List.mem_of_find?_eq_some hf
      have h2 := List.find?_some hf
      simp only [decide_eq_true_eq] at h2
      obtain ⟨k', v'⟩ := e
      simp only at h2; subst h2
      rw [OMap.mem_toList.1 h1] at hh
      simp at hh
      simp [hh]

theorem RT.set {K : Type} [DecidableEq K] [OKey K] {f : K → Wr} {r : Rd K} (s : OSet K) (h : ∀ k, RT E (f k) r k) :
    RT E (Wr.vec f s.keys) (set r) s := by
  unfold Rd.set
  exact ((RT.vec s.keys (fun a _ => h a)).map (fun l => l.foldl (fun s k => OMap.add s k) (∅ : OSet K))).of_eq (foldl_add_keys s)

theorem RT.mapOf {K V : Type} [DecidableEq K] [OKey K] {f : K → Wr} {g : V → Wr} {r : Rd K} {q : Rd V} (m : OMap K V)
    (h : ∀ k, RT E (f k) r k) (h' : ∀ v, RT E (g v) q v) : RT E (Wr.map f g m) (Rd.map r q) m := by
  unfold Rd.map
  have hl : m.size = m.toList.length := rfl
  unfold Wr.map
  rw [hl]
  exact ((RT.vec (f := fun e : K × V => Wr.seq (f e.1) (g e.2)) m.toList
    (fun e _ => ((h e.1).bind (k := fun k => q >>= fun v => Pure.pure (k, v)) ((h' e.2).map (fun v => (e.1, v)))))).map (fun l => l.foldl (fun m e => m.insert e.1 e.2) (∅ : OMap K V))).of_eq
    (foldl_insert_toList m)

theorem RT.v3d (v : V3d) : RT E (Wr.v3d v) v3d v :=
  (RT.f64 v.x).bind ((RT.f64 v.y).bind ((RT.f64 v.z).map (fun z => (⟨v.x, v.y, z⟩ : V3d))))
theorem RT.v3f (v : V3f) : RT E (Wr.v3f v) v3f v :=
  (RT.f32 v.x).bind ((RT.f32 v.y).bind ((RT.f32 v.z).map (fun z => (⟨v.x, v.y, z⟩ : V3f))))
theorem RT.quat (q : Quat) : RT E (Wr.quat q) quat q :=
  (RT.checkArrLen 4 4).bind ((RT.f64 q.w).bind ((RT.f64 q.x).bind ((RT.f64 q.y).bind ((RT.f64 q.z).map (fun z => (⟨q.w, q.x, q.y, z⟩ : Quat))))))

theorem RT.index (i : Int) (h : -2 ^ 63 ≤ i ∧ i < 2 ^ 63) : RT E (Wr.index i) index i := by
  refine ((RT.i64 (E := E) (UInt64.ofBitVec (BitVec.ofInt 64 i))).map (fun w => w.toBitVec.toInt)).of_eq ?_
  simp only [BitVec.toInt_ofInt]
  rw [Int.bmod_eq_of_le] <;> omega

/-- Eigen's class invariant. -/
structure _root_.Verif.Matrix.WF {α : Type} (m : Matrix α) : Prop where
  rows : 0 ≤ m.rows ∧ m.rows < 2 ^ 63
  cols : 0 ≤ m.cols ∧ m.cols < 2 ^ 63
  data : (m.data.length : Int) = m.rows * m.cols

theorem matrix_bound {w : Wr} {m : Matrix α} {bs : List UInt8} (hm : m.WF) (h : Wr.seq (Wr.arrLen (m.rows * m.cols + 2).toNat) w = .ok bs) :
    m.rows * m.cols + 2 ≤ 0xFFFFFFFF := by
  obtain ⟨b1, b2, h1, _⟩ := seq_ok h
  unfold Wr.arrLen at h1
  split at h1
  · cases h1
  · have := hm.data; omega

theorem RT.dims {w : Wr} {k : Int × Int → Rd β} {b : β} {m : Matrix α} (hm : m.WF) (hb : m.rows * m.cols + 2 ≤ 0xFFFFFFFF)
    (h : RT E w (k (m.rows, m.cols)) b) :
    RT E (Wr.seq (Wr.arrLen (m.rows * m.cols + 2).toNat) (Wr.seq (Wr.index m.rows) (Wr.seq (Wr.index m.cols) w))) (dims >>= k) b := by
  have hp : 0 ≤ m.rows * m.cols := by rw [← hm.data]; omega
  have e : (Rd.dims >>= k) = (do
      let n ← Rd.arrLen
      (if n < 2 then fail .outOfRange
      else do
        let r ← Rd.index
        let c ← Rd.index
        let m ← mulAdd r c
        if m ≠ (n : Int) then fail .outOfRange else k (r, c) : Rd β)) := by
    funext E p
    unfold Rd.dims
    simp only [bind_apply]
    cases hn : Rd.arrLen E p with
    | ok x =>
      simp only [Res.bind_ok]
      split
      · rfl
      · simp only [bind_apply]
        cases Rd.index E x.2 with
        | ok y =>
          simp only [Res.bind_ok]
          cases Rd.index E y.2 with
          | ok z =>
            simp only [Res.bind_ok]
            cases mulAdd y.1 z.1 E z.2 with
            | ok u =>
              simp only [Res.bind_ok]
              split <;> rfl
            | throw e => rfl
            | ub => rfl
          | throw e => rfl
          | ub => rfl
        | throw e => rfl
        | ub => rfl
    | throw e => rfl
    | ub => rfl
  rw [e]
  refine (RT.arrLen _).bind ?_
  rw [if_neg (by omega)]
  refine (RT.index m.rows ⟨by have := hm.rows; omega, hm.rows.2⟩).bind ?_
  refine (RT.index m.cols ⟨by have := hm.cols; omega, hm.cols.2⟩).bind ?_
  intro bs pre post hw hbuf
  rw [bind_apply]
  unfold mulAdd
  rw [if_neg (by omega)]
  simp only [Res.bind_ok]
  rw [Int.bmod_eq_of_le (by omega) (by omega), if_neg (by omega)]
  exact h bs pre post hw hbuf

theorem resizeCheck_ok {m : Matrix α} (hm : m.WF) (hb : m.rows * m.cols + 2 ≤ 0xFFFFFFFF) : resizeCheck m.rows m.cols = Pure.pure () := by
  unfold resizeCheck
  rw [if_neg]
  rintro ⟨h1, h2, h3⟩
  have hc : 0 < m.cols := by have := hm.cols; omega
  rw [Int.tdiv_eq_ediv_of_nonneg (by omega)] at h3
  have := (Int.ediv_lt_iff_lt_mul hc).1 h3
  omega

/-- The environment followed by a test that passes. -/
theorem env_bind {k : Env → Rd β} {p : Nat} : (env >>= k) E p = k E E p := rfl

theorem RT.matrixDyn {f : α → Wr} {q : Rd α} (m : Matrix α) (hm : m.WF) (h : ∀ a, RT E (f a) q a) :
    RT E (Wr.matrix f m) (matrixDyn q) m := by
  intro bs pre post hw
  have hbd := matrix_bound hm hw
  revert hw
  revert bs pre post
  refine RT.dims hm hbd ?_
  intro bs pre post hw hbuf
  simp only [env_bind]
  rw [if_neg (by have := hm.rows; have := hm.cols; omega), resizeCheck_ok hm hbd]
  have hlen : m.rows.toNat * m.cols.toNat = m.data.length := by
    have h1 := hm.data
    have h2 : (m.rows.toNat : Int) = m.rows := Int.toNat_of_nonneg hm.rows.1
    have h3 : (m.cols.toNat : Int) = m.cols := Int.toNat_of_nonneg hm.cols.1
    have : ((m.rows.toNat * m.cols.toNat : Nat) : Int) = (m.data.length : Int) := by rw [Int.natCast_mul, h2, h3, h1]
    exact Int.ofNat.inj this
  rw [hlen]
  exact ((RT.times m.data (fun a _ => h a)).map (fun l => (⟨m.rows, m.cols, l⟩ : Matrix α))) bs pre post hw hbuf

theorem RT.columnVec {f : α → Wr} {q : Rd α} (m : Matrix α) (hm : m.WF) (hc : m.cols = 1) (h : ∀ a, RT E (f a) q a) :
    RT E (Wr.matrix f m) (columnVec q) m := by
  intro bs pre post hw
  have hbd := matrix_bound hm hw
  revert hw
  revert bs pre post
  refine RT.dims hm hbd ?_
  intro bs pre post hw hbuf
  simp only [env_bind]
  rw [if_neg (by have := hm.rows; omega), resizeCheck_ok hm hbd]
  have hlen : m.rows.toNat = m.data.length := by
    have := hm.data; rw [hc] at this; omega
  show (if m.rows > 0 ∧ m.cols ≤ 0 then lift .ub else (Rd.times q m.rows.toNat >>= fun l => Pure.pure ⟨m.rows, 1, l⟩ : Rd (Matrix α))) E pre.length = _
  rw [if_neg (by omega), hlen]
  have := ((RT.times m.data (fun a _ => h a)).map (fun l => (⟨m.rows, 1, l⟩ : Matrix α))) bs pre post hw hbuf
  rw [this, ← hc]

theorem RT.matrixFixed {f : α → Wr} {q : Rd α} (m : Matrix α) (R C : Nat) (hm : m.WF) (hr : m.rows = R) (hc : m.cols = C)
    (h : ∀ a, RT E (f a) q a) : RT E (Wr.matrix f m) (matrixFixed q R C) m := by
  intro bs pre post hw
  have hbd := matrix_bound hm hw
  revert hw
  revert bs pre post
  refine RT.dims hm hbd ?_
  intro bs pre post hw hbuf
  simp only [env_bind]
  rw [if_neg (by omega)]
  have hlen : R * C = m.data.length := by
    have h1 := hm.data
    rw [hr, hc, ← Int.natCast_mul] at h1
    exact (Int.ofNat.inj h1).symm
  rw [hlen]
  have := ((RT.times m.data (fun a _ => h a)).map (fun l => (⟨(R : Int), (C : Int), l⟩ : Matrix α))) bs pre post hw hbuf
  rw [this, ← hc, ← hr]

end Rd
end Verif
