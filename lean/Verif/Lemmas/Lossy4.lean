import Verif.Lemmas.Lossy2
import Verif.Lemmas.Lossy3
import Verif.Spec.Receive
/-! # A receiver on a lossy line -/

namespace Verif
open Spec (Rules Mix AlongS)

variable {h : Graph} {gs : List Graph} {ids : List LayerId}

theorem NodeFrom.origin {n : NodeId} {j : NodeInfo} (hk : NodeFrom h gs ids n j) : ∃ x ∈ h :: gs, x.layerIds = ids ∧ ∃ i, x.nodeObs n = some i ∧ i.key = j.key ∧ i.stamp = j.stamp := by
  rcases hk with ⟨hl, hn⟩ | ⟨g, hg, hl, i, hi, rfl⟩
  · exact ⟨h, List.mem_cons_self, hl, j, hn, rfl, rfl⟩
  · exact ⟨g, List.mem_cons_of_mem _ hg, hl, i, hi, rfl, rfl⟩

theorem Graph.edgeObs_comm (g : Graph) {τ : Spec} (hr : R g τ) (hw : SWF τ) (a b : NodeId) : g.edgeObs a b = g.edgeObs b a := by
  rw [hr.edgeObs hw, hr.edgeObs hw, Spec.edge?_comm]

theorem Versions.rules (hv : Versions h gs) (hre : ∀ x ∈ h :: gs, ∃ i o, Reached i o x) (ids : List LayerId) :
    Rules (NodeFrom h gs ids) (EdgeFrom h gs ids) where
  same := by
    intro n i j hi hj
    obtain ⟨x, hx, hlx, i', hi', ki, si⟩ := hi.origin
    obtain ⟨y, hy, hly, j', hj', kj, sj⟩ := hj.origin
    obtain ⟨a, b⟩ := (hv y hy x hx (hly.trans hlx.symm)).shared n i' j' hi' hj'
    exact ⟨by rw [← ki, ← kj, a], by rw [← si, ← sj, b]⟩
  sym := by
    rintro a b x (⟨g, hg, hl, e, he, hx⟩ | ⟨hx, i, j, hi, hj, hk, hd⟩)
    · obtain ⟨i, o, hr⟩ := hre g hg
      obtain ⟨r, w⟩ := hr.rep
      exact .inl ⟨g, hg, hl, e, by rw [g.edgeObs_comm r w, he], hx⟩
    · exact .inr ⟨hx, j, i, hj, hi, hk.symm, by rw [← hk]; exact hd⟩
  line := fun hi hj hk hd => .inr ⟨rfl, _, _, hi, hj, hk, hd⟩
  cross := by
    rintro a b x i j (⟨g, hg, hl, e, he, hx⟩ | ⟨hx, i', j', hi', hj', hk, hd⟩) hi hj hlay
    · obtain ⟨x, hx, hlx, ia, hia, ki, si⟩ := hi.origin
      obtain ⟨y, hy, hly, jb, hjb, kj, sj⟩ := hj.origin
      obtain ⟨_, _, hr⟩ := hre g hg
      obtain ⟨r, w⟩ := hr.rep
      have hc := GraphIO.R.noCross r w (hv g hg g hg rfl).cross
      rw [r.edgeObs w] at he
      have hen := w.edge _ e he
      obtain ⟨na, hna⟩ : ∃ na, g.nodeObs a = some na := by
        rw [r.nodeObs w]
        obtain ⟨he1, he2, he3, he4⟩ := hen
        rcases EdgeKey.of_inj.1 he1 with ⟨rfl, rfl⟩ | ⟨rfl, rfl⟩
        · exact OMap.contains_eq_true.1 he3
        · exact OMap.contains_eq_true.1 he4
      obtain ⟨nb, hnb⟩ : ∃ nb, g.nodeObs b = some nb := by
        rw [r.nodeObs w]
        obtain ⟨he1, he2, he3, he4⟩ := hen
        rcases EdgeKey.of_inj.1 he1 with ⟨rfl, rfl⟩ | ⟨rfl, rfl⟩
        · exact OMap.contains_eq_true.1 he4
        · exact OMap.contains_eq_true.1 he3
      have e1 := ((hv x hx g hg (hlx.trans hl.symm)).shared a na ia hna hia).1
      have e2 := ((hv y hy g hg (hly.trans hl.symm)).shared b nb jb hnb hjb).1
      rw [r.nodeObs w] at hna hnb
      rw [← ki, ← kj, e1, e2]
      refine hc a b na.key nb.key (by rw [Spec.hasEdge_edge?, he]; rfl) (by simp [Spec.key?, hna]) (by simp [Spec.key?, hnb]) ?_
      rw [← e1, ← e2, ki, kj, hlay]
    · obtain ⟨x, hx, hlx, ia, hia, ki, si⟩ := hi.origin
      obtain ⟨y, hy, hly, jb, hjb, kj, sj⟩ := hj.origin
      obtain ⟨x', hx', hlx', ia', hia', ki', si'⟩ := hi'.origin
      obtain ⟨y', hy', hly', jb', hjb', kj', sj'⟩ := hj'.origin
      have e1 := ((hv x hx x' hx' (hlx.trans hlx'.symm)).shared a ia' ia hia' hia).1
      have e2 := ((hv y hy y' hy' (hly.trans hly'.symm)).shared b jb' jb hjb' hjb).1
      rw [← ki, ← kj, e1, e2, ki', kj', hk]

/-- The meshes that may be met. -/
def MeshFrom (h : Graph) (gs : List Graph) (m : Option Mesh) : Prop := m = none ∨ ∃ x ∈ h :: gs, x.mesh = m

theorem Graph.MadeOf.iff {g : Graph} {τ : Spec} (hr : R g τ) (hw : SWF τ) :
    g.MadeOf h gs ↔ Mix g.layerIds (NodeFrom h gs g.layerIds) (EdgeFrom h gs g.layerIds) (MeshFrom h gs) τ := by
  constructor
  · intro hm
    refine ⟨hr.layerIds.symm, fun n j hj => hm.nodes n j (by rw [hr.nodeObs hw]; exact hj), fun a b e he => hm.edges a b e (by rw [hr.edgeObs hw]; exact he), ?_⟩
    rw [← (show g.mesh = τ.mesh from hr.mesh)]
    exact hm.mesh
  · intro hm
    refine ⟨fun n j hj => hm.nodes n j (by rw [← hr.nodeObs hw]; exact hj), fun a b e he => hm.edges a b e (by rw [← hr.edgeObs hw]; exact he), ?_⟩
    rw [show g.mesh = τ.mesh from hr.mesh]
    exact hm.mesh

/-- A receiver made of parts of the graphs accepts each of them. -/
theorem Versions.accepts (hv : Versions h gs) (hre : ∀ x ∈ h :: gs, ∃ i o, Reached i o x) {c g : Graph} {τ : Spec} (hr : R c τ) (hw : SWF τ)
    (hm : c.MadeOf h gs) (hg : g ∈ h :: gs) (hl : c.layerIds = g.layerIds) : c.Accepts g where
  shared n i j hi hj := by
    obtain ⟨x, hx, hlx, j', hj', kj, sj⟩ := (hm.nodes n j hj).origin
    obtain ⟨a, b⟩ := (hv x hx g hg (hlx.trans hl)).shared n i j' hi hj'
    exact ⟨by rw [← kj, a], by rw [← sj, b]⟩
  stamps n m i j hi hj hd hk hs := by
    obtain ⟨x, hx, hlx, j', hj', kj, sj⟩ := (hm.nodes m j hj).origin
    exact (hv x hx g hg (hlx.trans hl)).stamps n m i j' hi hj' hd (kj.trans hk) (sj.trans hs)
  cross n m kn km he h1 h2 hlay := by
    have := ((Graph.MadeOf.iff hr hw).1 hm).noCross (hv.rules hre c.layerIds)
    rw [hr.hasEdge hw] at he
    rw [hr.getLayerForNode] at h1 h2
    exact (this n m kn km (by cases he'' : τ.hasEdge n m <;> rw [he''] at he <;> first | rfl | cases he) h1 h2 hlay.symm).symm

/-- The receiver while a message is applied. -/
theorem lossyUpdate (hv : Versions h gs) (hre : ∀ x ∈ h :: gs, ∃ i o, Reached i o x) {c g : Graph} {τ : Spec} (hr : R c τ) (hw : SWF τ)
    (hm : c.MadeOf h gs) (hg : g ∈ gs) (hl : c.layerIds = g.layerIds) (hs : g.Storable) {W R' : Registry NodeClass} {V Q : Registry EdgeClass}
    (hu : g.Understood W R' V Q) {order : List NodeId → List NodeId} (ho : ∀ l, (order l).Perm l) {incl : Bool} {E E' : Env}
    (hver : E'.version = FileHeader.current.version) (H : Rd.Ext E E') :
    ∃ w, g.write W V incl = Wr.seq (Wr.vec Wr.u64 g.layerIds) w ∧ ∀ bs pre post, w = .ok bs → E'.buf = pre ++ bs ++ post → pre.length ≤ E.buf.length →
      Upd.Left (fun x => ∃ a outs, c.run a = .ok (x, outs) ∧ Op.okAll τ a = true ∧ x.MadeOf h gs) (Upd.updateGraph R' Q order E pre.length c) := by
  obtain ⟨i0, o0, hrg⟩ := hre g (List.mem_cons_of_mem _ hg)
  obtain ⟨rg, wg⟩ := hrg.rep
  revert rg wg
  generalize (Spec.init i0).after o0 = σ
  intro rg wg
  have rules := hv.rules hre c.layerIds
  have ha := hv.accepts hre hr hw hm (List.mem_cons_of_mem _ hg) hl
  obtain ⟨A, D, Es, hwr, hnd, hmem, hek, hem⟩ := rg.writer wg (fun d hd => (hs.slots d hd).1) (by
    intro s hs' he
    subst he
    obtain ⟨d, hd, hd'⟩ := List.mem_flatMap.1 hs'
    exact (hs.slots d hd).2 hd')
  have obs : ∀ n i, (n, i) ∈ A ++ D ↔ g.nodeObs n = some i := fun n i => by rw [hmem, rg.nodeObs wg]
  have hids : ∀ m, m ∈ (A ++ D).map Prod.fst ↔ σ.nodes.contains m = true := by
    intro m
    rw [OMap.contains_eq_true]
    constructor
    · intro hm
      obtain ⟨⟨n, i⟩, h1, rfl⟩ := List.mem_map.1 hm
      exact ⟨i, (hmem n i).1 h1⟩
    · rintro ⟨i, hi⟩
      exact List.mem_map.2 ⟨(m, i), (hmem m i).2 hi, rfl⟩
  have hfits := GraphIO.fits rg wg hr hw hl hs ha hnd hmem
  have hok := (Spec.sync_all (F := Fmt.current) (mesh := if incl then g.mesh else none) ⟨hw, c, hr⟩ hfits (GraphIO.R.noCross hr hw ha.cross)
    (GraphIO.stale hr ho (A ++ D)) hek (by
      intro e he
      obtain ⟨_, h2, h3, h4⟩ := wg.edge _ _ ((hem e).1 he)
      exact ⟨h2, (hids _).2 h3, (hids _).2 h4⟩)).1
  have hall := ((Graph.MadeOf.iff hr hw).1 hm).sync rules (F := Fmt.current) hfits (fun e he => .inr ⟨g, hg, hl.symm, e.2, (obs _ _).1 he, rfl⟩)
    (order ((A ++ D).foldl (fun s e => s.erase e.1) (c.lookup.map (fun _ _ => ()))).keys) (Es := Es)
    (fun e he => .inl ⟨g, List.mem_cons_of_mem _ hg, hl.symm, e, by rw [rg.edgeObs wg]; exact (hem e).1 he, rfl⟩)
    (mesh := if incl then g.mesh else none) (fun m hm => .inr ⟨g, List.mem_cons_of_mem _ hg, by
      cases incl
      · cases hm
      · exact hm⟩)
  obtain ⟨g', outs, hrun, hr', hw', _⟩ := hr.run hw _ hok
  refine ⟨_, by rw [← Graph.writeAs_current]; exact hwr Fmt.current W V incl, ?_⟩
  intro bs pre post hwb hb hp
  have hnf : ∀ e ∈ A ++ D, e.2.attrs.Typed ∧ (factory W.names R').find? (W.typeId e.2.attrs.cls) = some e.2.attrs.cls := by
    rintro ⟨n, i⟩ he
    have hobs := (obs n i).1 he
    obtain ⟨name, n1, n2⟩ := hu.nodes n i hobs
    exact ⟨hs.typed n i hobs, by rw [C24_type_tables_portable W R' hu.nodesOnce hu.nodesFew name _ n1, n2]⟩
  have hef : (factory V.names Q).find? (V.typeId .base) = some .base := by
    obtain ⟨name, n1, n2⟩ := hu.edges
    rw [C24_type_tables_portable V Q hu.edgesOnce hu.edgesFew name _ n1, n2]
  refine Upd.Left.updateGraph H (Fmt.reads_current hver) hnf hef hrun ?_ hwb hb hp
  intro a b G1 o1 hab hra
  have hoka : Op.okAll τ a = true := by
    have := hok
    rw [hab, Op.okAll_append, Bool.and_eq_true] at this
    exact this.1
  refine ⟨a, o1, hra, hoka, ?_⟩
  obtain ⟨G2, o2, e2, r2, w2, _⟩ := hr.run hw a hoka
  rw [hra] at e2
  cases e2
  have hmix := hall a b hab
  have hlay : G1.layerIds = c.layerIds := by rw [show G1.layerIds = _ from r2.layerIds, hmix.layers]
  rw [Graph.MadeOf.iff r2 w2, hlay]
  exact hmix

theorem Reached.more {ids : List LayerId} {ops a : List Op} {c x : Graph} {outs : List Out} (hr : Reached ids ops c) (ha : c.run a = .ok (x, outs))
    (hok : Op.okAll ((Spec.init ids).after ops) a = true) : Reached ids (ops ++ a) x := by
  obtain ⟨o1, e1⟩ := hr.run
  obtain ⟨c0, hc0, he0⟩ := bind_eq_ok e1
  refine ⟨hr.nonempty, by rw [Op.okAll_append, hr.ok, hok]; rfl, o1 ++ outs, ?_⟩
  simp only [Graph.exec, hc0, Res.bind_ok, Graph.run_append, he0, ha]

theorem Upd.Left.mono {I J : Graph → Prop} {t : Thru Graph (Unit × Nat)} (h : Left I t) (hij : ∀ g, I g → J g) : Left J t := by
  cases t with
  | ok x g => exact hij _ h
  | throw e g => exact ⟨h.1, hij _ h.2⟩
  | ub => exact h

/-- The receiver's graph after a message of which some bytes arrived. -/
theorem lossyMessage (hv : Versions h gs) (hre : ∀ x ∈ h :: gs, ∃ i o, Reached i o x) {c g : Graph} {ids : List LayerId} {ops : List Op} (hr : Reached ids ops c)
    (hm : c.MadeOf h gs) (hg : g ∈ gs) (hs : g.Storable) {W R' : Registry NodeClass} {V Q : Registry EdgeClass}
    (hu : g.Understood W R' V Q) {order : List NodeId → List NodeId} (ho : ∀ l, (order l).Perm l) {incl : Bool} {E E' : Env}
    (hver : E'.version = FileHeader.current.version) (H : Rd.Ext E E') (hwr : g.write W V incl = .ok E'.buf) :
    Upd.Left (fun x => (∃ ops', Reached ids ops' x) ∧ x.MadeOf h gs) (Upd.updateGraphFrom R' Q order E 0 c) := by
  have start : (∃ ops', Reached ids ops' c) ∧ c.MadeOf h gs := ⟨⟨ops, hr⟩, hm⟩
  -- the receiver with the sender's layers
  obtain ⟨c', ops', hc', hr', hm', hl'⟩ : ∃ c' ops', (if c.layerIds ≠ g.layerIds then c.reset g.layerIds else c) = c' ∧ Reached ids ops' c' ∧ c'.MadeOf h gs ∧
      c'.layerIds = g.layerIds := by
    by_cases hl : c.layerIds = g.layerIds
    · exact ⟨c, ops, if_neg (by simpa using hl), hr, hm, hl⟩
    · obtain ⟨rc, wc⟩ := hr.rep
      have rr := rc.reset g.layerIds
      have wr := wc.reset g.layerIds
      refine ⟨c.reset g.layerIds, ops ++ [.reset g.layerIds], if_pos hl, hr.more (outs := [.unit]) rfl rfl, ?_, rr.layerIds⟩
      rw [Graph.MadeOf.iff rr wr]
      exact ⟨rr.layerIds.symm, fun n j hj => (by cases hj), fun a b e he => (by cases he), .inl rfl⟩
  obtain ⟨rc, wc⟩ := hr'.rep
  unfold Upd.updateGraphFrom
  obtain ⟨w, hw, hall⟩ := lossyUpdate hv hre rc wc hm' hg hl' hs hu ho (incl := incl) hver H
  rw [hw] at hwr
  obtain ⟨b1, b2, h1, h2, hb⟩ := Rd.seq_ok hwr
  have t := (Upd.Tr.rd (I := fun x => (∃ ops', Reached ids ops' x) ∧ x.MadeOf h gs) (G := c)
    (Rd.RT.vec (E := E') g.layerIds (fun a _ => Rd.RT.u64 a)) (Rd.Cut.vec H (Rd.Cut.u64 H)) start) b1 [] b2 h1 (by simpa using hb) (Nat.zero_le _)
  refine Upd.Left.bind (m := Upd.rd (Rd.vec Rd.u64) E 0) t (fun hq => ?_)
  have hlast := hall b2 b1 [] h2 (by simpa using hb) (by simpa using hq)
  have e : Upd.act (Graph.modify (fun x => if x.layerIds ≠ g.layerIds then x.reset g.layerIds else x)) E b1.length c = .ok ((), b1.length) c' := by
    rw [← hc']
    rfl
  show Upd.Left _ ((Upd.act (Graph.modify (fun x => if x.layerIds ≠ g.layerIds then x.reset g.layerIds else x)) E (0 + b1.length) >>= fun x =>
    Upd.updateGraph R' Q order E x.2) c)
  rw [Nat.zero_add, Act.bind_ok e]
  refine hlast.mono ?_
  rintro x ⟨a, outs, hrun, hok, hmade⟩
  exact ⟨⟨_, hr'.more hrun hok⟩, hmade⟩
end Verif
