import Verif.Spec.OldFormat
import Verif.Lemmas.GraphIO
/-! # Old layouts are read -/

namespace Verif.Rd
variable {E : Env} {v : Supported}

/-- a last read, followed by reads of nothing -/
theorem RT.bindNil {α β : Type} {w : Wr} {r : Rd α} {k : α → Rd β} {a : α} {b : β} (h : RT E w r a) (h' : RT E Wr.nil (k a) b) :
    RT E w (r >>= k) b := by
  intro bs pre post hw hb
  exact RT.bind h h' bs pre post (by rw [hw]; simp [Wr.seq, Wr.nil]) hb

theorem RT.oldBase (hv : E.version = v.version) (b : BaseAttrs) : RT E (v.base b) Rd.baseAttrs (v.readBase b) := by
  cases v with
  | v104 => exact RT.baseAttrs hv b
  | v102 | v103 =>
    simp only [Supported.base, Supported.readBase]
    unfold Rd.baseAttrs
    refine RT.bind (RT.v3d _) (RT.bind (RT.u64 _) (RT.bindNil (RT.bool _) ?_))
    refine RT.skip (a := E) (fun p => rfl) ?_
    rw [if_pos (by rw [hv]; decide)]
    exact RT.pure _

theorem RT.oldColor (hv : E.version = v.version) (c : Color) :
    RT E (v.color c) Rd.semanticColor (match v with | .v102 => { c with a := 255 } | _ => c) := by
  unfold Rd.semanticColor
  refine RT.skip (a := E) (fun p => rfl) ?_
  cases v with
  | v102 =>
    rw [if_pos (by rw [hv]; decide)]
    exact RT.bind (RT.u8 _) (RT.bind (RT.u8 _) ((RT.u8 _).map _))
  | v103 | v104 =>
    rw [if_neg (by rw [hv]; decide)]
    exact RT.color c

theorem RT.oldBox (hv : E.version = v.version) (c : V3f × V3f) (b : BBox) (hb : b.rot.Sized 3 3) :
    RT E (v.bbox c b) Rd.bbox (match v with
      | .v102 => { b with dims := ⟨E.fsub c.2.x c.1.x, E.fsub c.2.y c.1.y, E.fsub c.2.z c.1.z⟩ } | _ => b) := by
  unfold Rd.bbox
  refine RT.skip (a := E) (fun p => rfl) ?_
  cases v with
  | v102 =>
    rw [if_pos (by rw [hv]; decide)]
    unfold Supported.bbox
    repeat rt_step
    exact (RT.matrixFixed b.rot 3 3 hb.wf hb.1 hb.2.1 RT.f32).map _
  | v103 | v104 =>
    rw [if_neg (by rw [hv]; decide)]
    unfold Supported.bbox Wr.bbox
    repeat rt_step
    exact (RT.matrixFixed b.rot 3 3 hb.wf hb.1 hb.2.1 RT.f32).map _

theorem RT.oldSemantic (hv : E.version = v.version) (c : V3f × V3f) (s : SemanticAttrs) (hs : s.Typed) :
    RT E (v.semantic c s) Rd.semanticAttrs (Supported.readSemantic E.fsub v c s) := by
  obtain ⟨h1, r, k, h2⟩ := hs
  have key : RT E (v.semantic c s) Rd.semanticAttrs ⟨s.name, (match v with | .v102 => { s.color with a := 255 } | _ => s.color),
      (match v with | .v102 => { s.bbox with dims := ⟨E.fsub c.2.x c.1.x, E.fsub c.2.y c.1.y, E.fsub c.2.z c.1.z⟩ } | _ => s.bbox), s.label, s.feature⟩ := by
    unfold Supported.semantic Rd.semanticAttrs
    refine RT.bind (RT.str _) (RT.bind (RT.oldColor hv _) (RT.bind (RT.oldBox hv _ _ h1) (RT.bind (RT.u32 _) ?_)))
    exact (RT.matrixDyn _ h2.wf RT.f64).map _
  refine key.of_eq ?_
  cases v <;> rfl

theorem RT.oldFields (hv : E.version = v.version) (c : V3f × V3f) (a : NodeAttrs) (ha : a.Typed) :
    RT E (v.fields c a) (Rd.fields a.cls) (v.read E.fsub c a).kept := by
  cases a with
  | base b => exact (RT.oldBase hv b).map _
  | semantic b s => exact (RT.oldBase hv b).bind ((RT.oldSemantic hv c s ha).map _)
  | object b s o => exact (RT.oldBase hv b).bind ((RT.oldSemantic hv c s ha).bind ((RT.objectAttrs o).map _))
  | room b s p => exact (RT.oldBase hv b).bind ((RT.oldSemantic hv c s ha).bind ((RT.mapOf p RT.str RT.f64).map _))
  | place b s p => exact (RT.oldBase hv b).bind ((RT.oldSemantic hv c s ha).bind ((RT.placeAttrs p).map _))
  | place2d b s p => exact (RT.oldBase hv b).bind ((RT.oldSemantic hv c s ha.1).bind ((RT.place2dAttrs p ha.2).map _))
  | agent b x => exact (RT.oldBase hv b).bind ((RT.agentAttrs x ha).map _)
  | khronos b s o k => exact (RT.oldBase hv b).bind ((RT.oldSemantic hv c s ha).bind ((RT.khronosAttrs k).map _))

theorem _root_.Verif.Supported.reads (hv : E.version = v.version) (corners : NodeId → V3f × V3f) : (v.fmt E.fsub corners).Reads E :=
  ⟨by rw [hv]; cases v <;> decide, fun _ a ha => RT.oldFields hv _ a ha⟩

end Verif.Rd
