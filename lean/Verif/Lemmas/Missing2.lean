import Verif.Lemmas.Missing
/-! # Reading records whose attributes lack fields -/

namespace Verif
open Json
namespace JRT
variable (E : JEnv)

/-- An object of attributes, printed, that can be read whichever of its fields are left. -/
def Partly {α : Type} (j : Json) (r : Json → Res α) (name : Str) (f : (Str → Bool) → α) : Prop :=
  ∃ fs', j.text = .ok (.obj fs') ∧ (Json.obj fs').find (Str.lit "type") = some (.str name) ∧
    ∀ keep j', keep (Str.lit "type") = true → (Json.obj fs').Lacks keep j' → r j' = .ok (f keep)

theorem type_found {fs fs' : List (Str × Json)} {name : Str} (hu : name.IsText) (ht : textFields ((Str.lit "type", Json.str name) :: fs) = .ok fs') :
    (Json.obj fs').find (Str.lit "type") = some (.str name) := by
  have ht0 := textFields_find ht (Str.lit "type")
  simp only [List.find?_cons, decide_true] at ht0
  obtain ⟨v', t1, t2⟩ := ht0
  simp only [Json.text, (utf8_iff name).2 hu, if_true] at t1
  cases t1
  simp only [Json.find, t2, Option.map_some]

theorem type_read {fs' : List (Str × Json)} {name : Str} (h : (Json.obj fs').find (Str.lit "type") = some (.str name)) {keep : Str → Bool} {j' : Json}
    (hk : keep (Str.lit "type") = true) (hl : (Json.obj fs').Lacks keep j') : (j'.at' (Str.lit "type") >>= JEnv.str) = .ok name := by
  have := hl _ _ h
  rw [if_pos hk] at this
  simp only [Json.at', this, Res.bind_ok]
  rfl

theorem nodeAttrs_partly (hF : E.toJArith.Exact) (hv : E.version = FileHeader.current.version) {W R' : Registry NodeClass} {a : NodeAttrs} (hty : a.Typed)
    (h : a.Printable E.toJArith) (hone : W.Once) (hfew : R'.entries.length ≤ 256) {name : Str} (hu : name.IsText) (hw : (name, a.cls) ∈ W.entries)
    (hr : R'.find? name = some a.cls) :
    Partly (E.toJArith.nodeAttrs W a) (E.nodeAttrs R') (W.nameOf a.cls) (fun keep => some ((a.jsonKept E.toJArith).only E.fresh keep)) := by
  have hf := fields_tx E hF hv hty h
  have h2 := @fields_only E hF hv a hty h
  rw [Registry.nameOf_eq hone hw]
  unfold JArith.nodeAttrs
  rw [Registry.nameOf_eq hone hw]
  obtain ⟨fs', ht⟩ := textFields_ok (Tx.cons (by decide +kernel) (str hu).textual hf : Tx ((Str.lit "type", Json.str name) :: E.toJArith.fields a))
  have t := type_found hu ht
  refine ⟨fs', obj_text ht, t, fun keep j' hk hl => ?_⟩
  simp only [JEnv.nodeAttrs, type_read t hk hl, Res.bind_ok, Registry.create_eq hfew hr, h2 ht hl, Res.pure_eq]

theorem edgeAttrs_partly {V Q : Registry EdgeClass} {a : EdgeAttrs} (h : F64.finite a.weight = true) (hone : V.Once)
    (hfew : Q.entries.length ≤ 256) {name : Str} (hu : name.IsText) (hw : (name, EdgeClass.base) ∈ V.entries) (hr : Q.find? name = some .base) :
    Partly (JArith.edgeAttrs V a) (E.edgeAttrs Q) (V.nameOf .base) (fun keep => some (a.only keep)) := by
  rw [Registry.nameOf_eq hone hw]
  unfold JArith.edgeAttrs
  rw [Registry.nameOf_eq hone hw]
  have r0 := str hu
  have r1 := bool a.weighted
  have r2 := (f64 E h).jrt
  obtain ⟨fs', ht⟩ := textFields_ok (Tx.cons (by decide +kernel) r0.textual (.cons (by decide +kernel) r1.textual (.cons (by decide +kernel) r2.textual .nil)) :
    Tx [(Str.lit "type", Json.str name), (Str.lit "weighted", Json.bool a.weighted), (Str.lit "weight", Json.num a.weight)])
  have hn : ([(Str.lit "type", Json.str name), (Str.lit "weighted", Json.bool a.weighted), (Str.lit "weight", Json.num a.weight)].map Prod.fst).Nodup := by
    simp only [List.map]; decide +kernel
  have t := type_found hu ht
  refine ⟨fs', obj_text ht, t, fun keep j' hk hl => ?_⟩
  simp only [JEnv.edgeAttrs, type_read t hk hl, Res.bind_ok, Registry.create_eq hfew hr,
    lacks ht hn hl (List.mem_of_getElem? (i := 1) rfl) r1, lacks ht hn hl (List.mem_of_getElem? (i := 2) rfl) r2, Res.pure_eq]
  rfl

/-- a field that stays -/
theorem same_at {α : Type} {j j' : Json} {k : Str} {r : Json → Res α} (h : j'.find k = j.find k) : (j'.at' k >>= r) = (j.at' k >>= r) := by
  simp only [Json.at', h]

/-- the attributes of a record -/
theorem partly_at {α : Type} {k : Str} {names : List Str} {keep : Str → Str → Bool} {j j' : Json} {x : Json} {r : Json → Res α} {name : Str}
    {f : (Str → Bool) → α} (hx : Partly x r name f) (hk : keep name (Str.lit "type") = true) (hj : ∃ v, x.text = .ok v ∧ j.find k = some v)
    (h : RecordLacks keep k names j j') : (j'.at' k >>= r) = .ok (f (keep name)) := by
  obtain ⟨fs', h1, h2, h3⟩ := hx
  obtain ⟨v, h4, h5⟩ := hj
  rw [h1] at h4
  cases h4
  obtain ⟨a', h7, h9⟩ := h.attrs _ _ h5 h2
  simp only [Json.at', h7, Res.bind_ok]
  exact h3 _ _ hk h9

/-- reading the printed record of a node of whose attributes fields are missing is a call that must succeed -/
theorem node_partly {W R' : Registry NodeClass} {σ : Spec} {n : NodeId} {i : NodeInfo} (hst : i.stamp.isSome = i.key.dynamic) {name : Str}
    {f : (Str → Bool) → NodeAttrs} (ha : Partly (E.toJArith.nodeAttrs W i.attrs) (E.nodeAttrs R') name (fun keep => some (f keep))) :
    ∃ j j', E.toJArith.node W (σ.mkNode n i) = .ok j ∧ j.text = .ok j' ∧
      ∀ keep j'', keep name (Str.lit "type") = true →
        RecordLacks keep (Str.lit "attributes") [Str.lit "id", Str.lit "layer", Str.lit "timestamp"] j' j'' →
        ∀ h : Graph, E.readNode R' h j'' = h.must (cloneOp (n, { i with attrs := f (keep name) })) := by
  have r1 := u64 E n
  have r2 := u64 E i.key.layer
  have hat : ∃ v', (E.toJArith.nodeAttrs W i.attrs).text = .ok v' := by obtain ⟨fs', h1, _⟩ := ha; exact ⟨_, h1⟩
  obtain ⟨k, st, at'⟩ := i
  cases k with
  | static l =>
    have : st = none := by simpa [LayerKey.dynamic] using hst
    subst this
    have tx : Tx [(Str.lit "id", Json.uint n), (Str.lit "layer", Json.uint l), (Str.lit "attributes", E.toJArith.nodeAttrs W at')] :=
      Tx.cons (by decide +kernel) r1.textual (.cons (by decide +kernel) r2.textual (.cons (by decide +kernel) hat .nil))
    have hn : ([(Str.lit "id", Json.uint n), (Str.lit "layer", Json.uint l), (Str.lit "attributes", E.toJArith.nodeAttrs W at')].map Prod.fst).Nodup := by
      simp only [List.map]; decide +kernel
    obtain ⟨fs', ht⟩ := textFields_ok tx
    refine ⟨_, .obj fs', rfl, obj_text ht, fun keep j'' hk hl h => ?_⟩
    have e1 := hl.same _ (List.mem_cons_self)
    have e2 := hl.same (Str.lit "layer") (by simp)
    have e3 := hl.same (Str.lit "timestamp") (by simp)
    simp only [JEnv.readNode, same_at e1, same_at e2, e3, r1.at' ht hn (List.mem_of_getElem? (i := 0) rfl), r2.at' ht hn (List.mem_of_getElem? (i := 1) rfl),
      partly_at ha hk (get ht hn (List.mem_of_getElem? (i := 2) rfl)) hl, Res.bind_ok,
      get_none ht (show Str.lit "timestamp" ∉ _ by simp only [List.map]; decide +kernel)]
    rw [Graph.must_ans (r := .ok (h.emplaceNode l n (some (f (keep name))))) rfl]
    rfl
  | dyn l p =>
    obtain ⟨t, rfl⟩ : ∃ t, st = some t := Option.isSome_iff_exists.1 (by simpa [LayerKey.dynamic] using hst)
    have r4 := i64 E t
    have tx : Tx [(Str.lit "id", Json.uint n), (Str.lit "layer", Json.uint l), (Str.lit "attributes", E.toJArith.nodeAttrs W at'), (Str.lit "timestamp", Json.int t)] :=
      Tx.cons (by decide +kernel) r1.textual (.cons (by decide +kernel) r2.textual (.cons (by decide +kernel) hat (.cons (by decide +kernel) r4.textual .nil)))
    have hn : ([(Str.lit "id", Json.uint n), (Str.lit "layer", Json.uint l), (Str.lit "attributes", E.toJArith.nodeAttrs W at'), (Str.lit "timestamp", Json.int t)].map Prod.fst).Nodup := by
      simp only [List.map]; decide +kernel
    obtain ⟨fs', ht⟩ := textFields_ok tx
    refine ⟨_, .obj fs', rfl, obj_text ht, fun keep j'' hk hl h => ?_⟩
    have e1 := hl.same _ (List.mem_cons_self)
    have e2 := hl.same (Str.lit "layer") (by simp)
    have e3 := hl.same (Str.lit "timestamp") (by simp)
    obtain ⟨t', t1, t2⟩ := get ht hn (List.mem_of_getElem? (i := 3) rfl)
    simp only [JEnv.readNode, same_at e1, same_at e2, e3, r1.at' ht hn (List.mem_of_getElem? (i := 0) rfl), r2.at' ht hn (List.mem_of_getElem? (i := 1) rfl),
      partly_at ha hk (get ht hn (List.mem_of_getElem? (i := 2) rfl)) hl, Res.bind_ok, t2, r4.use t1]
    rw [Graph.must_ans (r := h.emplacePrev l n t (some (f (keep name)))) rfl]
    rfl

/-- the same for an edge -/
theorem edge_partly {V Q : Registry EdgeClass} {e : EdgeInfo} {name : Str} {f : (Str → Bool) → EdgeAttrs}
    (ha : Partly (JArith.edgeAttrs V e.attrs) (E.edgeAttrs Q) name (fun keep => some (f keep))) :
    ∃ j j', JArith.edge V (Spec.mkEdge e) = .ok j ∧ j.text = .ok j' ∧
      ∀ keep j'', keep name (Str.lit "type") = true → RecordLacks keep (Str.lit "info") [Str.lit "source", Str.lit "target"] j' j'' →
        ∀ h : Graph, E.readEdge Q h j'' = h.must (cloneEdgeOp { e with attrs := f (keep name) }) := by
  have r1 := u64 E e.src
  have r2 := u64 E e.tgt
  have hat : ∃ v', (JArith.edgeAttrs V e.attrs).text = .ok v' := by obtain ⟨fs', h1, _⟩ := ha; exact ⟨_, h1⟩
  have tx : Tx [(Str.lit "source", Json.uint e.src), (Str.lit "target", Json.uint e.tgt), (Str.lit "info", JArith.edgeAttrs V e.attrs)] :=
    Tx.cons (by decide +kernel) r1.textual (.cons (by decide +kernel) r2.textual (.cons (by decide +kernel) hat .nil))
  have hn : ([(Str.lit "source", Json.uint e.src), (Str.lit "target", Json.uint e.tgt), (Str.lit "info", JArith.edgeAttrs V e.attrs)].map Prod.fst).Nodup := by
    simp only [List.map]; decide +kernel
  obtain ⟨fs', ht⟩ := textFields_ok tx
  refine ⟨_, .obj fs', rfl, obj_text ht, fun keep j'' hk hl h => ?_⟩
  have e1 := hl.same _ (List.mem_cons_self)
  have e2 := hl.same (Str.lit "target") (by simp)
  simp only [JEnv.readEdge, same_at e1, same_at e2, r1.at' ht hn (List.mem_of_getElem? (i := 0) rfl), r2.at' ht hn (List.mem_of_getElem? (i := 1) rfl),
    partly_at ha hk (get ht hn (List.mem_of_getElem? (i := 2) rfl)) hl, Res.bind_ok]
  rw [Graph.must_ans (r := h.insertEdge e.src e.tgt (some (f (keep name)))) rfl]
  rfl

/-- printing a list of records; reading records related to them with calls that must succeed -/
theorem records_partly {α β : Type} {w : α → Res Json} {r : Graph → Json → Res Graph} {φ : β → α} {L : Json → Json → Prop} {op : β → Op} {l : List β}
    (h : ∀ b ∈ l, ∃ j j', w (φ b) = .ok j ∧ j.text = .ok j' ∧ ∀ j'', L j' j'' → ∀ g : Graph, r g j'' = g.must (op b)) :
    ∃ js js', allRes w (l.map φ) = .ok js ∧ textAll js = .ok js' ∧
      ∀ js'', Listwise L js' js'' → ∀ g : Graph, foldRes r g js'' = foldRes Graph.must g (l.map op) := by
  induction l with
  | nil => exact ⟨[], [], rfl, rfl, fun js'' hl _ => by cases hl; rfl⟩
  | cons b l ih =>
    obtain ⟨j, j', h1, h2, h3⟩ := h b List.mem_cons_self
    obtain ⟨js, js', h4, h5, h6⟩ := ih (fun x hx => h x (List.mem_cons_of_mem _ hx))
    refine ⟨j :: js, j' :: js', by simp [allRes, h1, h4], by simp [textAll, h2, h5], fun js'' hl g => ?_⟩
    cases hl with
    | cons h7 h8 =>
      simp only [foldRes_cons, List.map_cons, h3 _ h7]
      cases g.must (op b) with
      | ok g' => simp only [Res.bind_ok, h6 _ h8]
      | throw x => rfl
      | ub => rfl
end JRT

/-- A document that lacks nothing is the document itself. -/
theorem Json.DocumentLacks.refl (j : Json) : j.DocumentLacks (fun _ _ => true) (fun _ _ => true) j := by
  have L : ∀ a : Json, a.Lacks (fun _ => true) a := fun a k v h => by rw [h]; rfl
  have R : ∀ k names (a : Json), RecordLacks (fun _ _ => true) k names a a := fun k names a => ⟨fun _ _ => rfl, fun x _ h _ => ⟨x, h, L x⟩⟩
  have W : ∀ (P : Json → Json → Prop), (∀ a, P a a) → ∀ l, Listwise P l l := by
    intro P h l
    induction l with
    | nil => exact .nil
    | cons a l ih => exact .cons (h a) ih
  exact ⟨fun _ _ => rfl, fun l h => ⟨l, h, W _ (R _ _) l⟩, fun l h => ⟨l, h, W _ (R _ _) l⟩⟩

/-- An object of which nothing is missing. -/
theorem NodeAttrs.only_all (m : Garbage) (a : NodeAttrs) : a.only m (fun _ => true) = a := by cases a <;> rfl
theorem EdgeAttrs.only_all (a : EdgeAttrs) : a.only (fun _ => true) = a := rfl
end Verif
