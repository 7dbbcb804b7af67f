import Verif.Lemmas.Safe
import Verif.Spec.Codec
/-! # Attribute classes, meshes and headers: round trip and memory safety -/

namespace Verif

theorem Matrix.Sized.wf {α : Type} {m : Matrix α} {r c : Int} (h : m.Sized r c) : m.WF := by
  obtain ⟨rfl, rfl, h1, h2, h3, h4, h5⟩ := h
  exact ⟨⟨h1, h2⟩, ⟨h3, h4⟩, h5⟩

namespace Rd
variable {E : Env}

/-- Peel off one read after another. -/
macro "rt_step" : tactic => `(tactic| with_reducible first
  | refine RT.bind (RT.checkArrLen _ _) ?_
  | refine RT.bind (RT.v3f _) ?_
  | refine RT.bind (RT.v3d _) ?_
  | refine RT.bind (RT.quat _) ?_
  | refine RT.bind (RT.bool _) ?_
  | refine RT.bind (RT.str _) ?_
  | refine RT.bind (RT.u8 _) ?_
  | refine RT.bind (RT.u32 _) ?_
  | refine RT.bind (RT.u64 _) ?_
  | refine RT.bind (RT.i32 _) ?_
  | refine RT.bind (RT.f32 _) ?_
  | refine RT.bind (RT.f64 _) ?_
  | refine RT.bind (RT.vec _ (fun _ _ => RT.u8 _)) ?_
  | refine RT.bind (RT.vec _ (fun _ _ => RT.u32 _)) ?_
  | refine RT.bind (RT.vec _ (fun _ _ => RT.u64 _)) ?_
  | refine RT.bind (RT.vec _ (fun _ _ => RT.v3f _)) ?_
  | refine RT.bind (RT.vec _ (fun _ _ => RT.v3d _)) ?_)

theorem RT.color (c : Color) : RT E (Wr.color c) color c := by
  unfold Wr.color Rd.color
  repeat rt_step
  exact (RT.u8 _).map _

theorem RT.face (f : UInt64 × UInt64 × UInt64) : RT E (Wr.face f) face f := by
  unfold Wr.face Rd.face
  repeat rt_step
  exact (RT.u64 _).map _

theorem RT.nvi (x : NearestVertexInfo) : RT E (Wr.nvi x) nvi x := by
  unfold Wr.nvi Rd.nvi
  repeat rt_step
  exact (RT.opt x.label (fun a _ => ⟨RT.u32 a, NotHead.u32 a⟩)).map _

theorem RT.mesh (m : Mesh) : RT E (Wr.mesh m) mesh m := by
  unfold Wr.mesh Rd.mesh
  repeat rt_step
  refine RT.bind (RT.vec _ (fun _ _ => RT.color _)) ?_
  repeat rt_step
  exact (RT.vec _ (fun _ _ => RT.face _)).map _

variable (hv : E.version = FileHeader.current.version)
include hv

theorem RT.bbox (b : BBox) (hb : b.rot.Sized 3 3) : RT E (Wr.bbox b) bbox b := by
  have key : RT E (Wr.bbox b) (do
    Rd.checkArrLen 4
    let t ← Rd.i32
    let d ← Rd.v3f
    let c ← Rd.v3f
    let R ← Rd.matrixFixed Rd.f32 3 3
    return { type := t, dims := d, center := c, rot := R : BBox}) b := by
    unfold Wr.bbox
    repeat rt_step
    exact (RT.matrixFixed b.rot 3 3 hb.wf hb.1 hb.2.1 RT.f32).map _
  intro bs pre post hw hbuf
  unfold Rd.bbox
  rw [env_bind, hv]
  exact key bs pre post hw hbuf

theorem RT.baseAttrs (b : BaseAttrs) : RT E (Wr.baseAttrs b) baseAttrs b := by
  unfold Wr.baseAttrs Rd.baseAttrs
  repeat rt_step
  intro bs pre post hw hbuf
  rw [env_bind, hv]
  exact ((RT.bool b.isPredicted).map (fun q => ({ position := b.position, lastUpdate := b.lastUpdate, isActive := b.isActive, isPredicted := q } : BaseAttrs))) bs pre post hw hbuf

theorem RT.semanticColor (c : Color) : RT E (Wr.color c) semanticColor c := by
  intro bs pre post hw hbuf
  unfold Rd.semanticColor
  rw [env_bind, hv]
  exact RT.color c bs pre post hw hbuf

theorem RT.semanticAttrs (s : SemanticAttrs) (hs : s.Typed) : RT E (Wr.semanticAttrs s) semanticAttrs s := by
  obtain ⟨h1, r, c, h2⟩ := hs
  unfold Wr.semanticAttrs Rd.semanticAttrs
  rt_step
  refine RT.bind (RT.semanticColor hv _) ?_
  refine RT.bind (RT.bbox hv _ h1) ?_
  rt_step
  exact (RT.matrixDyn _ h2.wf RT.f64).map _

omit hv

theorem RT.objectAttrs (o : ObjectAttrs) : RT E (Wr.objectAttrs o) objectAttrs o := by
  unfold Wr.objectAttrs Rd.objectAttrs
  repeat rt_step
  exact (RT.quat _).map _

theorem RT.placeAttrs (p : PlaceAttrs) : RT E (Wr.placeAttrs p) placeAttrs p := by
  unfold Wr.placeAttrs Rd.placeAttrs
  repeat rt_step
  refine RT.bind (RT.vec _ (fun _ _ => RT.nvi _)) ?_
  repeat rt_step
  exact (RT.u64 _).map _

theorem RT.place2dAttrs (p : Place2dAttrs) (hp : p.Typed) :
    RT E (Wr.place2dAttrs p) place2dAttrs { p with pclMin := 0, pclMax := 0, needFinishMerge := false } := by
  unfold Wr.place2dAttrs Rd.place2dAttrs
  repeat rt_step
  refine RT.bind (RT.matrixFixed p.compress 2 2 hp.1.wf hp.1.1 hp.1.2.1 RT.f64) ?_
  refine RT.bind (RT.matrixFixed p.expand 2 2 hp.2.wf hp.2.1 hp.2.2.1 RT.f64) ?_
  repeat rt_step
  refine RT.bind (RT.vec _ (fun _ _ => RT.nvi _)) ?_
  repeat rt_step
  exact (RT.bool _).map _

theorem RT.agentAttrs (a : AgentAttrs) (ha : a.Typed) : RT E (Wr.agentAttrs a) agentAttrs a := by
  obtain ⟨⟨r, h1⟩, ⟨r', h2⟩⟩ := ha
  unfold Wr.agentAttrs Rd.agentAttrs
  repeat rt_step
  refine RT.bind (RT.columnVec _ h1.wf h1.2.1 RT.u32) ?_
  exact (RT.columnVec _ h2.wf h2.2.1 RT.f32).map _

theorem RT.khronosAttrs (k : KhronosAttrs) : RT E (Wr.khronosAttrs k) khronosAttrs k := by
  unfold Wr.khronosAttrs Rd.khronosAttrs
  repeat rt_step
  refine RT.bind (RT.mesh _) ?_
  repeat rt_step
  refine RT.bind (RT.vec _ (fun _ _ => RT.vec _ (fun _ _ => RT.v3f _))) ?_
  exact (RT.mapOf k.details RT.str (fun _ => RT.vec _ (fun _ _ => RT.u64 _))).map _

theorem RT.fields (hv : E.version = FileHeader.current.version) (a : NodeAttrs) (ha : a.Typed) : RT E (Wr.fields a) (fields a.cls) a.kept := by
  cases a with
  | base b => exact (RT.baseAttrs hv b).map _
  | semantic b s => exact (RT.baseAttrs hv b).bind ((RT.semanticAttrs hv s ha).map _)
  | object b s o => exact (RT.baseAttrs hv b).bind ((RT.semanticAttrs hv s ha).bind ((RT.objectAttrs o).map _))
  | room b s p => exact (RT.baseAttrs hv b).bind ((RT.semanticAttrs hv s ha).bind ((RT.mapOf p RT.str RT.f64).map _))
  | place b s p => exact (RT.baseAttrs hv b).bind ((RT.semanticAttrs hv s ha).bind ((RT.placeAttrs p).map _))
  | place2d b s p => exact (RT.baseAttrs hv b).bind ((RT.semanticAttrs hv s ha.1).bind ((RT.place2dAttrs p ha.2).map _))
  | agent b x => exact (RT.baseAttrs hv b).bind ((RT.agentAttrs x ha).map _)
  | khronos b s o k => exact (RT.baseAttrs hv b).bind ((RT.semanticAttrs hv s ha).bind ((RT.khronosAttrs k).map _))

theorem RT.nodeAttrs (hv : E.version = FileHeader.current.version) {R : Registry NodeClass} {fac : OMap UInt8 NodeClass} (a : NodeAttrs)
    (ha : a.Typed) (hf : fac.find? (R.typeId a.cls) = some a.cls) : RT E (Wr.nodeAttrs R a) (nodeAttrs fac) (some a.kept) := by
  unfold Wr.nodeAttrs Rd.nodeAttrs
  refine RT.bind (RT.u8 _) ?_
  rw [hf]
  exact (RT.fields hv a ha).map _

theorem RT.edgeAttrs {R : Registry EdgeClass} {fac : OMap UInt8 EdgeClass} (a : EdgeAttrs)
    (hf : fac.find? (R.typeId .base) = some .base) : RT E (Wr.edgeAttrs R a) (edgeAttrs fac) (some a) := by
  unfold Wr.edgeAttrs Rd.edgeAttrs
  refine RT.bind (RT.u8 _) ?_
  rw [hf]
  exact RT.bind (RT.bool _) ((RT.f64 _).map _)

/-- A class that this program does not have: the pointer is null and the fields stay unread. -/
theorem RT.nodeAttrs_unknown {fac : OMap UInt8 NodeClass} (t : UInt8) (hf : fac.find? t = none) :
    RT E (Wr.u8 t) (Rd.nodeAttrs fac) none := by
  have : RT E (Wr.seq (Wr.u8 t) Wr.nil) (Rd.nodeAttrs fac) none := by
    unfold Rd.nodeAttrs
    refine RT.bind (RT.u8 t) ?_
    rw [hf]
    exact RT.pure none
  intro bs pre post hw hb
  exact this bs pre post (by rw [hw]; simp [Wr.seq, Wr.nil]) hb

/-! ## Safety -/

/-- Peel off one read after another. -/
macro "safe_step" : tactic => `(tactic| with_reducible first
  | exact Safe.pure _
  | exact Safe.fail _ _
  | refine Safe.env ?_
  | refine Safe.ite (fun _ => ?_) (fun _ => ?_)
  | refine Safe.bind0 (d := 0) (d' := 0) ?_ (fun _ => ?_)
  | assumption
  | exact (Safe.checkArrLen _).mono (Nat.zero_le _)
  | exact Safe.v3f.mono (Nat.zero_le _)
  | exact Safe.v3d.mono (Nat.zero_le _)
  | exact Safe.quat.mono (Nat.zero_le _)
  | exact Safe.bool.mono (Nat.zero_le _)
  | exact Safe.str.mono (Nat.zero_le _)
  | exact Safe.u8.mono (Nat.zero_le _)
  | exact Safe.u32.mono (Nat.zero_le _)
  | exact Safe.u64.mono (Nat.zero_le _)
  | exact Safe.i32.mono (Nat.zero_le _)
  | exact Safe.f32.mono (Nat.zero_le _)
  | exact Safe.f64.mono (Nat.zero_le _)
  | exact (Safe.opt Safe.u32 (by omega)).mono (Nat.zero_le _)
  | (refine Safe.mono (Safe.vec (d := 0) ?_) (Nat.zero_le _))
  | (refine Safe.mono (Safe.mapOf (d := 0) (d' := 0) ?_ ?_) (Nat.zero_le _)))

theorem Safe.color : Safe E 0 color := by unfold Rd.color; repeat safe_step
theorem Safe.face : Safe E 0 face := by unfold Rd.face; repeat safe_step
theorem Safe.nvi : Safe E 0 nvi := by unfold Rd.nvi; repeat safe_step
theorem Safe.mesh : Safe E 0 mesh := by
  have h1 := Safe.color (E := E)
  have h2 := Safe.face (E := E)
  unfold Rd.mesh
  repeat safe_step
theorem Safe.rot (ho : E.isoOverflow = false) : Safe E 0 (Rd.matrixFixed Rd.f32 3 3) := (Safe.matrixFixed 3 3 ho Safe.f32).mono (Nat.zero_le _)
theorem Safe.bbox (ho : E.isoOverflow = false) : Safe E 0 bbox := by
  have h1 := Safe.rot ho
  unfold Rd.bbox
  repeat safe_step
theorem Safe.baseAttrs : Safe E 0 baseAttrs := by unfold Rd.baseAttrs; repeat safe_step
theorem Safe.semanticColor : Safe E 0 semanticColor := by
  have h1 := Safe.color (E := E)
  unfold Rd.semanticColor
  repeat safe_step
theorem Safe.semanticAttrs (ho : E.isoOverflow = false) : Safe E 0 semanticAttrs := by
  have h1 := Safe.semanticColor (E := E)
  have h2 := Safe.bbox ho
  have h3 : Safe E 0 (Rd.matrixDyn Rd.f64) := (Safe.matrixDyn ho Safe.f64).mono (Nat.zero_le _)
  unfold Rd.semanticAttrs
  repeat safe_step
theorem Safe.objectAttrs : Safe E 0 objectAttrs := by unfold Rd.objectAttrs; repeat safe_step
theorem Safe.placeAttrs : Safe E 0 placeAttrs := by
  have h1 := Safe.nvi (E := E)
  unfold Rd.placeAttrs
  repeat safe_step
theorem Safe.place2dAttrs (ho : E.isoOverflow = false) : Safe E 0 place2dAttrs := by
  have h1 := Safe.nvi (E := E)
  have h2 : Safe E 0 (Rd.matrixFixed Rd.f64 2 2) := (Safe.matrixFixed 2 2 ho Safe.f64).mono (Nat.zero_le _)
  unfold Rd.place2dAttrs
  repeat safe_step
theorem Safe.agentAttrs (ho : E.isoOverflow = false) (he : E.eigenChecks = true) : Safe E 0 agentAttrs := by
  have h1 : Safe E 0 (Rd.columnVec Rd.u32) := (Safe.columnVec ho he Safe.u32).mono (Nat.zero_le _)
  have h2 : Safe E 0 (Rd.columnVec Rd.f32) := (Safe.columnVec ho he Safe.f32).mono (Nat.zero_le _)
  unfold Rd.agentAttrs; repeat safe_step
theorem Safe.khronosAttrs : Safe E 0 khronosAttrs := by
  have h1 := Safe.mesh (E := E)
  unfold Rd.khronosAttrs
  repeat safe_step

theorem Safe.fields (ho : E.isoOverflow = false) (c : NodeClass) (he : E.eigenChecks = true ∨ c ≠ .agent) : Safe E 0 (fields c) := by
  have hb := Safe.baseAttrs (E := E)
  have hs := Safe.semanticAttrs ho
  cases c with
  | base => exact hb.map _
  | semantic => exact hb.bind0 (fun _ => hs.map _)
  | object => exact hb.bind0 (fun _ => hs.bind0 (fun _ => Safe.objectAttrs.map _))
  | room => exact hb.bind0 (fun _ => hs.bind0 (fun _ => ((Safe.mapOf Safe.str Safe.f64).mono (Nat.zero_le _)).map _))
  | place => exact hb.bind0 (fun _ => hs.bind0 (fun _ => Safe.placeAttrs.map _))
  | place2d => exact hb.bind0 (fun _ => hs.bind0 (fun _ => (Safe.place2dAttrs ho).map _))
  | agent =>
    rcases he with he | he
    · exact hb.bind0 (fun _ => (Safe.agentAttrs ho he).map _)
    · exact absurd rfl he
  | khronos => exact hb.bind0 (fun _ => hs.bind0 (fun _ => Safe.khronosAttrs.map _))

/-- Agents are safe to read only if Eigen's assertions are compiled in. -/
def SafeClasses (E : Env) (fac : OMap UInt8 NodeClass) : Prop := E.eigenChecks = true ∨ ∀ t, fac.find? t ≠ some .agent

theorem Safe.nodeAttrs (ho : E.isoOverflow = false) {fac : OMap UInt8 NodeClass} (hc : SafeClasses E fac) : Safe E 2 (nodeAttrs fac) := by
  unfold Rd.nodeAttrs
  refine Safe.u8.bind0 (d' := 0) (fun t => ?_)
  cases h : fac.find? t with
  | none => exact Safe.pure _
  | some c =>
    refine Safe.map _ (Safe.fields ho c ?_)
    rcases hc with hc | hc
    · exact .inl hc
    · exact .inr (fun h2 => hc t (h2 ▸ h))

theorem Safe.edgeAttrs {fac : OMap UInt8 EdgeClass} : Safe E 2 (edgeAttrs fac) := by
  unfold Rd.edgeAttrs
  refine Safe.u8.bind0 (d' := 0) (fun t => ?_)
  cases fac.find? t with
  | none => exact Safe.pure _
  | some c => repeat safe_step

theorem Safe.header : Safe E 0 FileHeader.read := by
  unfold FileHeader.read
  refine Safe.currType' (fun t => ?_)
  repeat safe_step

end Rd
end Verif
