import Verif.Lemmas.Codec
/-! # C21, C23, C24, C28, C29: values, attributes, type tables, meshes and headers in the binary format -/

namespace Verif
open Rd

theorem RoundTrips.rt {α : Type} {f : α → Wr} {r : Rd α} (h : RoundTrips f r) (E : Env) (a : α) : RT E (f a) r a :=
  fun bs pre post hw hb => h a bs pre post E hw hb
theorem RoundTrips.of {α : Type} {f : α → Wr} {r : Rd α} (h : ∀ E a, RT E (f a) r a) : RoundTrips f r :=
  fun a bs pre post E hw hb => h E a bs pre post hw hb

/-- C21, scalars: every value can be written and is read back bit for bit. -/
theorem C21_scalars :
    (RoundTrips Wr.bool Rd.bool ∧ Writes Wr.bool) ∧
    (RoundTrips Wr.u8 Rd.u8 ∧ Writes Wr.u8) ∧ (RoundTrips Wr.u16 Rd.u16 ∧ Writes Wr.u16) ∧
    (RoundTrips Wr.u32 Rd.u32 ∧ Writes Wr.u32) ∧ (RoundTrips Wr.u64 Rd.u64 ∧ Writes Wr.u64) ∧
    (RoundTrips Wr.i8 Rd.i8 ∧ Writes Wr.i8) ∧ (RoundTrips Wr.i16 Rd.i16 ∧ Writes Wr.i16) ∧
    (RoundTrips Wr.i32 Rd.i32 ∧ Writes Wr.i32) ∧ (RoundTrips Wr.i64 Rd.i64 ∧ Writes Wr.i64) ∧
    (RoundTrips Wr.f32 Rd.f32 ∧ Writes Wr.f32) ∧ (RoundTrips Wr.f64 Rd.f64 ∧ Writes Wr.f64) ∧
    (RoundTrips Wr.stamp Rd.stamp ∧ Writes Wr.stamp) :=
  ⟨⟨.of fun _ a => RT.bool a, fun _ => ⟨_, rfl⟩⟩, ⟨.of fun _ a => RT.u8 a, fun _ => ⟨_, rfl⟩⟩, ⟨.of fun _ a => RT.u16 a, fun _ => ⟨_, rfl⟩⟩,
   ⟨.of fun _ a => RT.u32 a, fun _ => ⟨_, rfl⟩⟩, ⟨.of fun _ a => RT.u64 a, fun _ => ⟨_, rfl⟩⟩, ⟨.of fun _ a => RT.i8 a, fun _ => ⟨_, rfl⟩⟩,
   ⟨.of fun _ a => RT.i16 a, fun _ => ⟨_, rfl⟩⟩, ⟨.of fun _ a => RT.i32 a, fun _ => ⟨_, rfl⟩⟩, ⟨.of fun _ a => RT.i64 a, fun _ => ⟨_, rfl⟩⟩,
   ⟨.of fun _ a => RT.f32 a, fun _ => ⟨_, rfl⟩⟩, ⟨.of fun _ a => RT.f64 a, fun _ => ⟨_, rfl⟩⟩, ⟨.of fun _ a => RT.stamp a, fun _ => ⟨_, rfl⟩⟩⟩

theorem arrLen_ok (n : Nat) : (∃ bs, Wr.arrLen n = .ok bs) ↔ n < 2 ^ 32 := by
  unfold Wr.arrLen
  split
  · constructor
    · rintro ⟨_, h⟩; cases h
    · intro h; omega
  · exact ⟨fun _ => by omega, fun _ => ⟨_, rfl⟩⟩

theorem seq_ok_iff (a b : Wr) : (∃ bs, Wr.seq a b = .ok bs) ↔ (∃ x, a = .ok x) ∧ (∃ y, b = .ok y) := by
  unfold Wr.seq
  cases a <;> cases b <;> simp

theorem all_ok {α : Type} {f : α → Wr} (l : List α) : (∃ bs, Wr.all f l = .ok bs) ↔ ∀ a ∈ l, ∃ bs, f a = .ok bs := by
  induction l with
  | nil => simp [Wr.all, Wr.nil]
  | cons a l ih => simp only [Wr.all, seq_ok_iff, ih, List.mem_cons, forall_eq_or_imp]

/-- C21, strings: read back byte for byte; written unless longer than the format can express. -/
theorem C21_strings : RoundTrips Wr.str Rd.str ∧ ∀ s : Str, (∃ bs, Wr.str s = .ok bs) ↔ s.length < 2 ^ 32 := by
  refine ⟨.of fun _ a => RT.str a, fun s => ?_⟩
  unfold Wr.str
  rw [seq_ok_iff, arrLen_ok]
  simp

/-- C21, containers: whatever element type round-trips, so do vectors and lists, arrays, sets, maps and optionals of it, to any nesting
depth. A vector is refused only if it has more elements than the format can express or if one of them is refused. -/
theorem C21_containers {α β : Type} [DecidableEq α] [OKey α] {f : α → Wr} {r : Rd α} {g : β → Wr} {q : Rd β}
    (hf : RoundTrips f r) (hg : RoundTrips g q) :
    RoundTrips (Wr.vec f) (Rd.vec r) ∧
    (∀ l : List α, (∃ bs, Wr.vec f l = .ok bs) ↔ l.length < 2 ^ 32 ∧ ∀ a ∈ l, ∃ bs, f a = .ok bs) ∧
    (∀ n (l : List α), l.length = n → ∀ bs pre post (E : Env), Wr.seq (Wr.arrLen n) (Wr.all f l) = .ok bs → E.buf = pre ++ bs ++ post →
      Rd.array r n E pre.length = .ok (l, pre.length + bs.length)) ∧
    RoundTrips (fun s : OSet α => Wr.vec f s.keys) (Rd.set r) ∧
    RoundTrips (Wr.map f g) (Rd.map r q) ∧
    (NeverNil f → RoundTrips (Wr.opt f) (Rd.opt r)) := by
  refine ⟨.of fun E l => RT.vec l (fun a _ => hf.rt E a), fun l => ?_, fun n l hn bs pre post E hw hb => ?_,
    .of fun E s => RT.set s (hf.rt E), .of fun E m => RT.mapOf m (hf.rt E) (hg.rt E), fun hn => .of fun E v => ?_⟩
  · unfold Wr.vec
    rw [seq_ok_iff, arrLen_ok, all_ok]
  · exact RT.array l n n hn (fun a _ => hf.rt E a) bs pre post hw hb
  · exact RT.opt v (fun a _ => ⟨hf.rt E a, hn a⟩)

/-- C21, matrices: dynamic and fixed sizes, column vectors. -/
theorem C21_matrices {α : Type} {f : α → Wr} {r : Rd α} (hf : RoundTrips f r) (m : Matrix α) (bs pre post : List UInt8) (E : Env)
    (hw : Wr.matrix f m = .ok bs) (hb : E.buf = pre ++ bs ++ post) :
    (∀ R C, m.Sized R C → Rd.matrixDyn r E pre.length = .ok (m, pre.length + bs.length)) ∧
    (∀ R, m.Sized R 1 → Rd.columnVec r E pre.length = .ok (m, pre.length + bs.length)) ∧
    (∀ R C : Nat, m.Sized R C → Rd.matrixFixed r R C E pre.length = .ok (m, pre.length + bs.length)) :=
  ⟨fun _ _ h => RT.matrixDyn m h.wf (hf.rt E) bs pre post hw hb, fun _ h => RT.columnVec m h.wf h.2.1 (hf.rt E) bs pre post hw hb,
   fun R C h => RT.matrixFixed m R C h.wf h.1 h.2.1 (hf.rt E) bs pre post hw hb⟩

/-- A vector of strings and a 2 x 1 matrix meet the hypotheses. -/
example : Wr.vec Wr.str [[1, 2], []] = .ok [0xdd, 2, 0, 0, 0, 0xdd, 2, 0, 0, 0, 1, 2, 0xdd, 0, 0, 0, 0] := by decide +kernel
example : Rd.vec Rd.str ⟨[7, 0xdd, 2, 0, 0, 0, 0xdd, 2, 0, 0, 0, 1, 2, 0xdd, 0, 0, 0, 0, 9], by decide, ⟨1, 0, 4⟩, false, false, fun a _ => a⟩ 1
    = .ok ([[1, 2], []], 18) := by decide +kernel
example : RoundTrips (Wr.vec (Wr.vec Wr.u32)) (Rd.vec (Rd.vec Rd.u32)) :=
  .of fun E l => RT.vec l (fun l _ => RT.vec l (fun a _ => RT.u32 a))
example : (⟨2, 1, [5, 6]⟩ : Matrix UInt32).Sized 2 1 := by unfold Matrix.Sized; decide
example : ∃ bs, Wr.matrix Wr.u32 ⟨2, 1, [5, 6]⟩ = .ok bs := ⟨_, rfl⟩
example : NeverNil Wr.u32 := fun a => NotHead.u32 a

/-- C28: a mesh is read back as it was written, for every combination of present attributes and whatever the lengths of its vectors. -/
theorem C28_mesh_round_trip : RoundTrips Wr.mesh Rd.mesh := .of fun _ m => RT.mesh m

/-- C28: a mesh is written unless one of its vectors is too long for the format. -/
theorem C28_mesh_written (m : Mesh) : (∃ bs, Wr.mesh m = .ok bs) ↔
    m.points.length < 2 ^ 32 ∧ m.colors.length < 2 ^ 32 ∧ m.stamps.length < 2 ^ 32 ∧ m.labels.length < 2 ^ 32 ∧
    m.firstSeen.length < 2 ^ 32 ∧ m.faces.length < 2 ^ 32 := by
  have h : ∀ {α : Type} (f : α → Wr) (l : List α), (∀ a, ∃ bs, f a = .ok bs) → ((∃ bs, Wr.vec f l = .ok bs) ↔ l.length < 2 ^ 32) := by
    intro α f l hf
    unfold Wr.vec
    rw [seq_ok_iff, arrLen_ok, all_ok]
    exact ⟨fun x => x.1, fun x => ⟨x, fun a _ => hf a⟩⟩
  have hb : ∀ b, (∃ bs, Wr.bool b = .ok bs) := fun b => ⟨_, rfl⟩
  unfold Wr.mesh
  simp only [seq_ok_iff, hb, true_and, h Wr.v3f _ (fun a => ⟨_, rfl⟩), h Wr.color _ (fun a => ⟨_, rfl⟩), h Wr.u64 _ (fun a => ⟨_, rfl⟩),
    h Wr.u32 _ (fun a => ⟨_, rfl⟩), h Wr.face _ (fun a => ⟨_, rfl⟩)]

/-- A mesh with first-seen stamps and without colours. -/
example : ∃ bs, Wr.mesh { hasColors := false, hasFirstSeen := true, points := [⟨1, 2, 3⟩, ⟨4, 5, 6⟩], stamps := [7, 8], firstSeen := [7, 8], labels := [1, 2], faces := [(0, 1, 1)] } = .ok bs := ⟨_, rfl⟩

/-! ## Attributes -/

/-- C23: an attribute object of any registered class, written with the writer's registry and read by a program that has the class under the
same type id, in the current format version, comes back as an object of the same class with the same members, up to what `kept` lists;
reading stops right behind it. -/
theorem C23_attributes_round_trip (R : Registry NodeClass) (fac : OMap UInt8 NodeClass) (a : NodeAttrs) (ha : a.Typed)
    (hf : fac.find? (R.typeId a.cls) = some a.cls) (bs pre post : List UInt8) (E : Env) (hv : E.version = FileHeader.current.version)
    (hw : Wr.nodeAttrs R a = .ok bs) (hb : E.buf = pre ++ bs ++ post) :
    Rd.nodeAttrs fac E pre.length = .ok (some a.kept, pre.length + bs.length) :=
  RT.nodeAttrs hv a ha hf bs pre post hw hb

/-- C23: nothing at all is lost for six of the eight classes. -/
theorem C23_nothing_lost (a : NodeAttrs) (h : a.cls ≠ .khronos ∧ a.cls ≠ .place2d) : a.kept = a := by
  cases a <;> first | rfl | (simp [NodeAttrs.cls] at h)

/-- C23, edges. -/
theorem C23_edge_attributes_round_trip (R : Registry EdgeClass) (fac : OMap UInt8 EdgeClass) (a : EdgeAttrs)
    (hf : fac.find? (R.typeId .base) = some .base) (bs pre post : List UInt8) (E : Env)
    (hw : Wr.edgeAttrs R a = .ok bs) (hb : E.buf = pre ++ bs ++ post) :
    Rd.edgeAttrs fac E pre.length = .ok (some a, pre.length + bs.length) :=
  RT.edgeAttrs a hf bs pre post hw hb

/-- The full claim is false: a `KhronosObjectAttributes` comes back without what it inherits from `ObjectNodeAttributes`
(node_attributes.cpp:473 calls the grandparent), although its equality operator compares those members. -/
theorem C23_khronos_loses_object_members :
    ∃ (a a' : NodeAttrs) (bs : List UInt8) (E : Env), a.Typed ∧ E.version = FileHeader.current.version ∧ E.buf = bs ∧
      Wr.nodeAttrs stdNodes a = .ok bs ∧ Rd.nodeAttrs (factory stdNodes.names stdNodes) E 0 = .ok (some a', bs.length) ∧
      a = .khronos {} {} { registered := true } {} ∧ a' = .khronos {} {} { registered := false } {} := by
  have h1 : (NodeAttrs.khronos {} {} { registered := true } {}).Typed :=
    ⟨by refine ⟨rfl, rfl, ?_⟩; decide, 0, 0, by refine ⟨rfl, rfl, ?_⟩; decide⟩
  have h2 : (factory stdNodes.names stdNodes).find? (stdNodes.typeId .khronos) = some .khronos := by decide +kernel
  obtain ⟨bs, hbs⟩ : ∃ bs, Wr.nodeAttrs stdNodes (.khronos {} {} { registered := true } {}) = .ok bs := ⟨_, rfl⟩
  have hlen : bs.length < 2 ^ 63 := by cases hbs; decide +kernel
  refine ⟨_, _, bs, ⟨bs, hlen, FileHeader.current.version, false, false, fun a _ => a⟩, h1, rfl, rfl, hbs, ?_, rfl, rfl⟩
  have := C23_attributes_round_trip stdNodes _ _ h1 h2 bs [] [] ⟨bs, hlen, FileHeader.current.version, false, false, fun a _ => a⟩ rfl hbs (by simp)
  simp only [List.length_nil, Nat.zero_add] at this
  exact this

/-! ## Type tables -/

/-- A class has one registration. -/
def Registry.Once {γ : Type} (R : Registry γ) : Prop := (R.entries.map Prod.snd).Nodup

theorem factory_find? {γ : Type} (R : Registry γ) (names : List Str) (hlen : names.length ≤ 256) (t : UInt8) :
    (factory names R).find? t = (names[t.toNat]?).bind R.find? := by
  unfold factory
  have key : ∀ (l : List Str) (k : Nat) (m : OMap UInt8 γ), k + l.length ≤ 256 →
      ((l.zipIdx k).foldl (fun m e => match R.find? e.1 with | none => m | some c => m.insert (UInt8.ofNat e.2) c) m).find? t =
        (if k ≤ t.toNat ∧ t.toNat < k + l.length then (match (l[t.toNat - k]?).bind R.find? with | some c => some c | none => m.find? t) else m.find? t) := by
    intro l
    induction l with
    | nil => intro k m h; simp
    | cons n l ih =>
      intro k m h
      simp only [List.length_cons] at h
      rw [List.zipIdx_cons, List.foldl_cons, ih (k + 1) _ (by omega)]
      simp only [List.length_cons]
      by_cases h1 : t.toNat = k
      · have ht : UInt8.ofNat k = t := by rw [← h1]; exact UInt8.ofNat_toNat
        rw [if_neg (by omega), if_pos (by omega)]
        simp only [h1, Nat.sub_self, List.getElem?_cons_zero, Option.bind_some]
        cases hr : R.find? n with
        | none => rfl
        | some c => simp [OMap.find?_insert, ht]
      · have hne : UInt8.ofNat k ≠ t := by
          intro he
          apply h1
          rw [← he, UInt8.toNat_ofNat']
          omega
        have hm : (match R.find? n with | none => m | some c => m.insert (UInt8.ofNat k) c).find? t = m.find? t := by
          cases R.find? n with
          | none => rfl
          | some c => simp only [OMap.find?_insert]; rw [if_neg (by first | exact hne | exact fun h => hne h.symm)]
        by_cases h2 : k ≤ t.toNat ∧ t.toNat < k + (l.length + 1)
        · rw [if_pos (by omega), if_pos h2]
          have : t.toNat - k = (t.toNat - (k + 1)) + 1 := by omega
          rw [this, List.getElem?_cons_succ]
          cases (l[t.toNat - (k + 1)]?).bind R.find? with
          | none => exact hm
          | some c => rfl
        · rw [if_neg (by omega), if_neg h2]
          exact hm
  refine Eq.trans (key names 0 ∅ (by omega)) ?_
  simp only [Nat.sub_zero, Nat.zero_le, true_and, Nat.zero_add, OMap.find?_empty]
  by_cases h : t.toNat < names.length
  · rw [if_pos h]
    cases (names[t.toNat]?).bind R.find? <;> rfl
  · rw [if_neg h, List.getElem?_eq_none (by omega)]
    rfl

/-- C24: a file stores the names of the writer's classes next to their type ids. A program that reads the file with any registry of its own
(other classes, another order) finds, for the type id of each of the writer's classes, exactly the class that it knows under the writer's
name for it, and nothing if it knows none: a class is never mistaken for another. Up to 256 classes. -/
theorem C24_type_tables_portable {γ δ : Type} [DecidableEq γ] (W : Registry γ) (R : Registry δ) (hone : W.Once)
    (hlen : W.entries.length ≤ 256) (n : Str) (c : γ) (h : (n, c) ∈ W.entries) :
    (factory W.names R).find? (W.typeId c) = R.find? n := by
  rw [factory_find? R W.names (by simpa [Registry.names] using hlen)]
  obtain ⟨i, hi, he⟩ := List.mem_iff_getElem.1 h
  have h2 : (W.entries.map Prod.snd).idxOf c = i := by
    have hc : (W.entries.map Prod.snd)[i]'(by simpa using hi) = c := by simp [he]
    rw [← hc]
    exact List.Nodup.idxOf_getElem hone i (by simpa using hi)
  have ht : (W.typeId c).toNat = i := by
    unfold Registry.typeId
    rw [h2, UInt8.toNat_ofNat', Nat.mod_eq_of_lt (by omega)]
  rw [ht]
  simp [Registry.names, hi, he]

theorem stdNodes_once : stdNodes.Once := by unfold Registry.Once; decide +kernel

/-- The registry of spark_dsg meets the hypotheses, and a program with another order and another set of classes reads it. -/
example : stdNodes.Once ∧ stdNodes.entries.length ≤ 256 ∧ (Str.lit "RoomNodeAttributes", NodeClass.room) ∈ stdNodes.entries := by
  refine ⟨stdNodes_once, ?_, ?_⟩ <;> decide +kernel

/-- Hence attributes written by one program are read by another that has the class, whatever the order of registration. -/
theorem C24_attributes_portable (W R : Registry NodeClass) (hone : W.Once) (hlen : W.entries.length ≤ 256) (n : Str) (a : NodeAttrs)
    (ha : a.Typed) (hw : (n, a.cls) ∈ W.entries) (hr : R.find? n = some a.cls) (bs pre post : List UInt8) (E : Env)
    (hv : E.version = FileHeader.current.version) (hbs : Wr.nodeAttrs W a = .ok bs) (hb : E.buf = pre ++ bs ++ post) :
    Rd.nodeAttrs (factory W.names R) E pre.length = .ok (some a.kept, pre.length + bs.length) :=
  RT.nodeAttrs hv a ha (by rw [C24_type_tables_portable W R hone hlen n a.cls hw, hr]) bs pre post hbs hb

/-- C24, what remains false: the object of an unknown class is dropped, but its members are not skipped, so the next item is read from
the middle of them. Reading stops after the type id, two bytes into the object. -/
theorem C24_unknown_class_not_skipped (W R : Registry NodeClass) (hone : W.Once) (hlen : W.entries.length ≤ 256) (n : Str) (a : NodeAttrs)
    (hw : (n, a.cls) ∈ W.entries) (hr : R.find? n = none) (bs pre post : List UInt8) (E : Env)
    (hbs : Wr.nodeAttrs W a = .ok bs) (hb : E.buf = pre ++ bs ++ post) :
    Rd.nodeAttrs (factory W.names R) E pre.length = .ok (none, pre.length + 2) ∧ pre.length + 2 < pre.length + bs.length := by
  obtain ⟨b1, b2, h1, h2, rfl⟩ := seq_ok hbs
  cases h1
  refine ⟨RT.nodeAttrs_unknown (W.typeId a.cls) (by rw [C24_type_tables_portable W R hone hlen n a.cls hw, hr]) _ pre (b2 ++ post) rfl (by simp [hb]), ?_⟩
  have : b2 ≠ [] := by
    rintro rfl
    have hbase : ∀ (b : BaseAttrs) w, (Wr.seq (Wr.baseAttrs b) w = .ok []) → False := by
      intro b w h
      obtain ⟨x, y, hx, _, h3⟩ := seq_ok h
      cases hx
      simp at h3
    cases a with
    | base b => simp [Wr.fields, Wr.baseAttrs, Wr.v3d, Wr.f64, Wr.seq, Wr.u64, Wr.bool, Wr.type] at h2
    | semantic b s => exact hbase _ _ h2
    | object b s o => exact hbase _ _ h2
    | room b s p => exact hbase _ _ h2
    | place b s p => exact hbase _ _ h2
    | place2d b s p => exact hbase _ _ h2
    | agent b x => exact hbase _ _ h2
    | khronos b s o k => exact hbase _ _ h2
  have : 0 < b2.length := List.length_pos_iff.2 this
  simp [leBytes_length]
  omega

/-- C24 needs the bound: with more than 256 classes, two of them share a type id, so one of them is read as something else. -/
theorem C24_too_many_classes {γ : Type} [DecidableEq γ] (W : Registry γ) (hone : W.Once) (hlen : 256 < W.entries.length) :
    ∃ n c n' c', (n, c) ∈ W.entries ∧ (n', c') ∈ W.entries ∧ c ≠ c' ∧ W.typeId c = W.typeId c' := by
  have h0 : 0 < W.entries.length := by omega
  have key : ∀ i (hi : i < W.entries.length), W.typeId (W.entries[i].2) = UInt8.ofNat i := by
    intro i hi
    unfold Registry.typeId
    have : (W.entries.map Prod.snd)[i]'(by simpa using hi) = W.entries[i].2 := by simp
    rw [← this, List.Nodup.idxOf_getElem hone i (by simpa using hi)]
  refine ⟨W.entries[0].1, W.entries[0].2, W.entries[256].1, W.entries[256].2, List.getElem_mem h0, List.getElem_mem hlen, ?_, ?_⟩
  · intro he
    have h1 := List.Nodup.idxOf_getElem hone 0 (by simpa using h0)
    have h2 := List.Nodup.idxOf_getElem hone 256 (by simpa using hlen)
    simp only [List.getElem_map] at h1 h2
    rw [he] at h1
    omega
  · rw [key 0 h0, key 256 hlen]
    rfl

/-- Such a registry exists. -/
example : ∃ W : Registry Nat, W.Once ∧ 256 < W.entries.length := by
  refine ⟨⟨(List.range 257).map (fun i => (List.replicate i 0, i)), ?_⟩, ?_, by simp⟩
  · rw [List.map_map]
    refine List.Pairwise.map _ (R := fun a b => a < b) (fun a b h he => ?_) List.pairwise_lt_range
    have := congrArg List.length he
    simp at this
    omega
  · unfold Registry.Once
    rw [List.map_map]
    refine List.Pairwise.map _ (R := fun a b => a < b) (fun a b h he => ?_) List.pairwise_lt_range
    simp at he
    omega

/-! ## Headers -/

/-- C29: a header is read back as written, from the start of a file, and the payload starts right behind it. -/
theorem C29_header_round_trip (h : FileHeader) (bs post : List UInt8) (E : Env) (hw : h.write = .ok bs) (hb : E.buf = bs ++ post) :
    FileHeader.read E 0 = .ok (some h, bs.length) := by
  have e : FileHeader.read = (do
    let t ← Rd.currType
    if t ≠ Pack.arr32 then return none
    else do
      let s ← Rd.str
      if s ≠ FileHeader.identifier then return none
      else do
        let p ← Rd.str
        let a ← Rd.u8
        let b ← Rd.u8
        let c ← Rd.u8
        return some (⟨p, ⟨a, b, c⟩⟩ : FileHeader)) := rfl
  rw [e]
  have hb' : E.buf = [] ++ bs ++ post := by simp [hb]
  have h0 : ∃ rest, bs = Pack.arr32 :: rest := by
    obtain ⟨b1, b2, h1, _, rfl⟩ := seq_ok hw
    obtain ⟨c1, c2, g1, _, rfl⟩ := seq_ok h1
    unfold Wr.arrLen at g1
    split at g1
    · cases g1
    · cases g1; exact ⟨_, rfl⟩
  obtain ⟨rest, rfl⟩ := h0
  have ht := currType_spec (E := E) (pre := []) hb'
  simp only [List.length_nil] at ht
  rw [bind_apply, ht]
  simp only [Res.bind_ok, ne_eq, not_true_eq_false, if_false]
  have key : RT E h.write (do
      let s ← Rd.str
      if s ≠ FileHeader.identifier then return none
      else do
        let p ← Rd.str
        let a ← Rd.u8
        let b ← Rd.u8
        let c ← Rd.u8
        return some (⟨p, ⟨a, b, c⟩⟩ : FileHeader)) (some h) := by
    unfold FileHeader.write
    refine RT.bind (RT.str _) ?_
    rw [if_neg (by simp)]
    exact RT.bind (RT.str _) (RT.bind (RT.u8 _) (RT.bind (RT.u8 _) ((RT.u8 _).map _)))
  have := key _ [] post hw hb'
  simpa using this

/-- C29: any other content is either refused with an exception or taken for a file without header; never undefined behaviour. -/
theorem C29_header_total (E : Env) : (∃ h p, FileHeader.read E 0 = .ok (h, p) ∧ p ≤ E.buf.length) ∨ ∃ e, FileHeader.read E 0 = .throw e := by
  have := Safe.header (E := E) 0 (Nat.zero_le _)
  revert this
  cases FileHeader.read E 0 with
  | ok x => intro h; exact .inl ⟨x.1, x.2, rfl, h.2⟩
  | throw e => intro _; exact .inr ⟨e, rfl⟩
  | ub => intro h; exact h.elim

/-- C29: only a file that starts with the identifier string has a header. -/
theorem C29_header_only_after_identifier (E : Env) (h : FileHeader) (p : Nat) (hr : FileHeader.read E 0 = .ok (some h, p)) :
    ∃ q, Rd.str E 0 = .ok (FileHeader.identifier, q) := by
  unfold FileHeader.read at hr
  rw [bind_apply] at hr
  rcases currType_cases (E := E) 0 (Nat.zero_le _) with ⟨t, ht, _⟩ | ht
  · rw [ht] at hr
    simp only [Res.bind_ok] at hr
    split at hr
    · cases hr
    · rw [bind_apply] at hr
      cases hs : Rd.str E 0 with
      | ok x =>
        rw [hs] at hr
        simp only [Res.bind_ok] at hr
        split at hr
        · cases hr
        · rename_i hne
          obtain ⟨s, q⟩ := x
          simp only [ne_eq, Decidable.not_not] at hne
          exact ⟨q, by simp [hne]⟩
      | throw e => rw [hs] at hr; cases hr
      | ub => rw [hs] at hr; cases hr
  · rw [ht] at hr; cases hr

/-- The number of a version, for comparison. -/
def Version.rank (v : Version) : Nat := v.major.toNat * 65536 + v.minor.toNat * 256 + v.patch.toNat

theorem Version.lt_iff (a b : Version) : a.lt b = true ↔ a.rank < b.rank := by
  obtain ⟨a1, a2, a3⟩ := a
  obtain ⟨b1, b2, b3⟩ := b
  have := a1.toNat_lt; have := a2.toNat_lt; have := a3.toNat_lt
  have := b1.toNat_lt; have := b2.toNat_lt; have := b3.toNat_lt
  simp only [Version.lt, Version.rank, UInt8.lt_iff_toNat_lt, beq_iff_eq, ← UInt8.toNat_inj]
  split
  · simp; omega
  · split
    · split
      · simp; omega
      · split
        · simp; omega
        · simp; omega
    · simp; omega

theorem Version.rank_inj {a b : Version} (h : a.rank = b.rank) : a = b := by
  obtain ⟨a1, a2, a3⟩ := a
  obtain ⟨b1, b2, b3⟩ := b
  have := a1.toNat_lt; have := a2.toNat_lt; have := a3.toNat_lt
  have := b1.toNat_lt; have := b2.toNat_lt; have := b3.toNat_lt
  simp only [Version.rank] at h
  simp only [Version.mk.injEq, ← UInt8.toNat_inj]
  omega

/-- C29: the comparison operators of versions are a strict total order and its derived relations. -/
theorem C29_versions_totally_ordered :
    (∀ a : Version, a.lt a = false) ∧
    (∀ a b c : Version, a.lt b = true → b.lt c = true → a.lt c = true) ∧
    (∀ a b : Version, a.lt b = true ∨ a = b ∨ b.lt a = true) ∧
    (∀ a b : Version, a.eq b = true ↔ a = b) ∧ (∀ a b : Version, a.gt b = true ↔ b.lt a = true) ∧
    (∀ a b : Version, a.le b = true ↔ a.lt b = true ∨ a = b) ∧ (∀ a b : Version, a.ge b = true ↔ b.lt a = true ∨ a = b) := by
  refine ⟨fun a => ?_, fun a b c h1 h2 => ?_, fun a b => ?_, fun a b => ?_, fun a b => Iff.rfl, fun a b => ?_, fun a b => ?_⟩
  · rw [Bool.eq_false_iff, ne_eq, Version.lt_iff]; omega
  · rw [Version.lt_iff] at *; omega
  · rw [Version.lt_iff, Version.lt_iff]
    rcases Nat.lt_trichotomy a.rank b.rank with h | h | h
    · exact .inl h
    · exact .inr (.inl (Version.rank_inj h))
    · exact .inr (.inr h)
  · obtain ⟨a1, a2, a3⟩ := a
    obtain ⟨b1, b2, b3⟩ := b
    simp [Version.eq, and_assoc]
  · simp only [Version.le, Version.gt, Bool.not_eq_true', Bool.eq_false_iff, ne_eq, Version.lt_iff]
    constructor
    · intro h
      by_cases h2 : a.rank < b.rank
      · exact .inl h2
      · exact .inr (Version.rank_inj (by omega))
    · rintro (h | rfl) <;> omega
  · simp only [Version.ge, Bool.not_eq_true', Bool.eq_false_iff, ne_eq, Version.lt_iff]
    constructor
    · intro h
      by_cases h2 : b.rank < a.rank
      · exact .inl h2
      · exact .inr (Version.rank_inj (by omega))
    · rintro (h | rfl) <;> omega

/-- C29: exactly the files of this project from version 1.0.2 on are accepted; a file without header counts as 1.0.0 and is refused. -/
theorem C29_version_gate :
    (∀ h : FileHeader, h.checkCompatibility = .ok () ↔ (h.version.ge ⟨1, 0, 2⟩ = true ∧ h.project = Str.lit "main")) ∧
    (∀ h : FileHeader, h.checkCompatibility = .ok () ∨ h.checkCompatibility = .throw .runtimeError) ∧
    FileHeader.legacy.checkCompatibility = .throw .runtimeError ∧ FileHeader.current.checkCompatibility = .ok () := by
  refine ⟨fun h => ?_, fun h => ?_, by decide +kernel, by decide +kernel⟩
  · unfold FileHeader.checkCompatibility Version.ge
    split
    · rename_i hc
      simp [hc]
    · rename_i hc
      have hc : h.version.lt ⟨1, 0, 2⟩ = false := by simpa using hc
      split
      · rename_i hp
        simp only [hc, Bool.not_false, true_and, true_iff]
        exact hp
      · rename_i hp
        simp only [reduceCtorEq, false_iff, not_and]
        intro _ hh
        exact hp hh
  · unfold FileHeader.checkCompatibility
    split
    · exact .inr rfl
    · split
      · exact .inl rfl
      · exact .inr rfl

/-- The header that the library writes. -/
example : FileHeader.current.write = .ok ([0xdd, 9, 0, 0, 0] ++ Str.lit "SPARK_DSG" ++ [0xdd, 4, 0, 0, 0] ++ Str.lit "main" ++ [0xcc, 1, 0xcc, 0, 0xcc, 4]) := by
  decide +kernel

end Verif
