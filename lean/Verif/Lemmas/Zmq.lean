import Verif.Spec.Zmq
import Verif.Props.Clone
/-! # The invariant of `ZmqGraph` -/

namespace Verif
namespace Zmq

/-! ## Messages -/

/-- What the receiver holds after the message sent for `g`. -/
structure Held (incl : Bool) (g h : Graph) : Prop where
  reached : ∃ ids ops, Reached ids ops h
  sent : ∃ ids ops, Reached ids ops g
  layers : g.layerIds ≠ []
  storable : g.Storable
  mirrors : h.Mirrors g
  mesh : incl = true → ∀ m, g.mesh = some m → h.mesh = some m

theorem Mirrors.layer {ids ids' : List LayerId} {ops ops' : List Op} {g h : Graph} (hh : Reached ids ops h) (hg : Reached ids' ops' g) (hm : h.Mirrors g)
    (n : NodeId) : h.getLayerForNode n = g.getLayerForNode n := by
  have e := hm.nodes n
  obtain ⟨r1, w1⟩ := hh.rep
  obtain ⟨r2, w2⟩ := hg.rep
  rw [r2.nodeObs w2, r1.nodeObs w1] at e
  rw [r1.getLayerForNode, r2.getLayerForNode, Spec.key?, Spec.key?, e]
  cases ((Spec.init ids').after ops').nodes.find? n <;> rfl

theorem Mirrors.hasEdge {ids ids' : List LayerId} {ops ops' : List Op} {g h : Graph} (hh : Reached ids ops h) (hg : Reached ids' ops' g) (hm : h.Mirrors g)
    (a b : NodeId) : h.hasEdge a b = g.hasEdge a b := by
  have e := hm.edges a b
  obtain ⟨r1, w1⟩ := hh.rep
  obtain ⟨r2, w2⟩ := hg.rep
  rw [r2.edgeObs w2, r1.edgeObs w1] at e
  rw [r1.hasEdge w1, r2.hasEdge w2, Spec.hasEdge_edge?, Spec.hasEdge_edge?]
  revert e
  cases ((Spec.init ids').after ops').edge? a b <;> cases ((Spec.init ids).after ops).edge? a b <;> simp

theorem Held.accepts {incl : Bool} {p g h : Graph} (hh : Held incl p h) (ha : p.Accepts g) : h.Accepts g := by
  obtain ⟨_, _, r1⟩ := hh.reached
  obtain ⟨_, _, r2⟩ := hh.sent
  have node : ∀ n j, h.nodeObs n = some j → ∃ j', p.nodeObs n = some j' ∧ j'.key = j.key ∧ j'.stamp = j.stamp := by
    intro n j hj
    rw [hh.mirrors.nodes] at hj
    obtain ⟨j', h1, h2⟩ := Option.map_eq_some_iff.1 hj
    exact ⟨j', h1, by rw [← h2]; rfl, by rw [← h2]; rfl⟩
  constructor
  · intro n i j hi hj
    obtain ⟨j', h1, h2, h3⟩ := node n j hj
    rw [← h2, ← h3]
    exact ha.shared n i j' hi h1
  · intro n m i j hi hj hd hk hs
    obtain ⟨j', h1, h2, h3⟩ := node m j hj
    exact ha.stamps n m i j' hi h1 hd (by rw [h2, hk]) (by rw [h3, hs])
  · intro n m kn km he h1 h2
    rw [Mirrors.hasEdge r1 r2 hh.mirrors] at he
    rw [Mirrors.layer r1 r2 hh.mirrors] at h1 h2
    exact ha.cross n m kn km he h1 h2

variable {P : Prog} {W : Registry NodeClass} {V : Registry EdgeClass} {incl : Bool}

theorem read_first (ho : ∀ l, (P.order l).Perm l) {g : Graph} {m : Msg} (hg : Good P W V incl g m) : ∃ h, read P none m = .ok h ∧ Held incl g h := by
  obtain ⟨ids, ops, hr⟩ := hg.reached
  obtain ⟨h, ops', h1, h2, h3, h4, h5⟩ := C25_graph_round_trip hr hg.storable hg.layers hg.understood ho (includeMesh := incl) (bs := m.bytes) (pre := []) (post := [])
    (E := P.env m.bytes m.small FileHeader.current.version) rfl hg.written (by simp [Prog.env])
  refine ⟨h, ?_, ⟨_, _, h2⟩, hg.reached, hg.layers, hg.storable, h3, ?_⟩
  · unfold read
    simp only
    rw [show Rd.readGraph P.R P.Q P.order _ 0 = .ok (h, [].length + m.bytes.length) from h1]
    rfl
  · intro hi x hx
    rw [h5, hi, if_pos rfl, hx]

theorem read_next (ho : ∀ l, (P.order l).Perm l) {p g h : Graph} {m : Msg} (hp : Held incl p h) (hg : Good P W V incl g m)
    (ha : p.layerIds = g.layerIds → p.Accepts g) : ∃ h', read P (some h) m = .ok h' ∧ Held incl g h' := by
  obtain ⟨ids, ops, hr⟩ := hg.reached
  obtain ⟨ids', ops', hrh⟩ := hp.reached
  obtain ⟨h', ops'', h1, h2, h3, h4, _⟩ := C26_receiver_mirrors_sender hr hrh hg.storable (fun e => hp.accepts (ha (by rw [← hp.mirrors.layerIds, e]))) hg.understood ho
    (includeMesh := incl) (bs := m.bytes) (pre := []) (post := [])
    (E := P.env m.bytes m.small FileHeader.current.version) rfl hg.written (by simp [Prog.env])
  refine ⟨h', ?_, ⟨_, _, h2⟩, hg.reached, hg.layers, hg.storable, h3, ?_⟩
  · unfold read
    simp only
    rw [show Rd.updateGraphFrom P.R P.Q P.order h _ 0 = .ok (h', [].length + m.bytes.length) from h1]
    rfl
  · intro hi x hx
    rw [h4, hi, if_pos rfl, hx]
    rfl

theorem Held.clone {g h : Graph} (hh : Held incl g h) : ∃ k, h.clone = .ok k ∧ Held incl g k := by
  obtain ⟨ids, ops, r1⟩ := hh.reached
  obtain ⟨_, _, r2⟩ := hh.sent
  obtain ⟨k, ops', h1, h2, h3⟩ := C17_clone r1 (by rw [hh.mirrors.layerIds]; exact hh.layers) (fun n key hn hd =>
    r2.indexRoom (fun d hd => (hh.storable.slots d hd).1) n key (by rw [← Mirrors.layer r1 r2 hh.mirrors]; exact hn) hd)
  refine ⟨k, h1, ⟨_, _, h2⟩, hh.sent, hh.layers, hh.storable, ⟨h3.layerIds.trans hh.mirrors.layerIds, ?_, ?_, fun n => (h3.adj n).trans (hh.mirrors.adjacent n)⟩, ?_⟩
  · intro n
    rw [h3.nodes, hh.mirrors.nodes]
    cases hn : g.nodeObs n with
    | none => rfl
    | some i =>
      have hp := hh.storable.plain n i hn
      obtain ⟨key, st, a⟩ := i
      cases key with
      | dyn l p => rfl
      | static l =>
        have : st = none := hp rfl
        subst this
        rfl
  · intro a b
    rw [h3.edges]
    exact hh.mirrors.edges a b
  · intro hi m hm
    rw [h3.mesh]
    exact hh.mesh hi m hm

/-! ## Schedules -/

theorem run_snoc {s s' : State} {as : List Ev} {e : Ev} {x : List Ans} (h : run P s (as ++ [e]) = some (.ok (s', x))) :
    ∃ s1 y z, run P s as = some (.ok (s1, y)) ∧ step P s1 e = some (.ok (s', z)) ∧ x = y ++ [z] ∧ y.length = as.length := by
  induction as generalizing s x with
  | nil =>
    simp only [List.nil_append, run] at h
    cases hs : step P s e with
    | none => rw [hs] at h; cases h
    | some r =>
      cases r with
      | ok r => rw [hs] at h; cases h; exact ⟨s, [], r.2, rfl, hs, rfl, rfl⟩
      | throw e => rw [hs] at h; cases h
      | ub => rw [hs] at h; cases h
  | cons a as ih =>
    simp only [List.cons_append, run] at h
    cases hs : step P s a with
    | none => rw [hs] at h; cases h
    | some r =>
      cases r with
      | throw e => rw [hs] at h; cases h
      | ub => rw [hs] at h; cases h
      | ok r =>
        rw [hs] at h
        simp only at h
        cases hr : run P r.1 (as ++ [e]) with
        | none => rw [hr] at h; cases h
        | some q =>
          cases q with
          | throw e => rw [hr] at h; cases h
          | ub => rw [hr] at h; cases h
          | ok q =>
            rw [hr] at h
            cases h
            obtain ⟨s1, y, z, h1, h2, h3, h4⟩ := ih hr
            refine ⟨s1, r.2 :: y, z, ?_, h2, by rw [h3]; rfl, by simp [h4]⟩
            simp only [run, hs, h1]

theorem run_append {s : State} {as bs : List Ev} : run P s (as ++ bs) =
    match run P s as with
    | some (.ok r) => (match run P r.1 bs with | some (.ok r') => some (.ok (r'.1, r.2 ++ r'.2)) | x => x)
    | x => x := by
  induction as generalizing s with
  | nil =>
    simp only [List.nil_append, run]
    cases run P s bs with
    | none => rfl
    | some q => cases q <;> rfl
  | cons a as ih =>
    simp only [List.cons_append, run]
    cases hs : step P s a with
    | none => rfl
    | some r =>
      cases r with
      | throw e => rfl
      | ub => rfl
      | ok r =>
        simp only [ih]
        cases run P r.1 as with
        | none => rfl
        | some q =>
          cases q with
          | throw e => rfl
          | ub => rfl
          | ok q =>
            simp only
            cases run P q.1 bs with
            | none => rfl
            | some q' => cases q' <;> rfl

theorem arrived_append (a b : List Ev) : arrived (a ++ b) = arrived a ++ arrived b := by simp [arrived]
theorem processed_append (a b : List Ev) : processed (a ++ b) = processed a + processed b := by simp [processed]

/-- The message being processed. -/
def Pc.msgs : Pc → List Msg
  | .busy m => [m]
  | _ => []
/-- the receive thread is processing a message -/
def Pc.isBusy : Pc → Bool
  | .busy _ => true
  | _ => false
/-- the receive thread is at the top of its loop -/
def Pc.isIdle : Pc → Bool
  | .idle => true
  | _ => false

/-- What holds after a schedule `pre`, when the arriving messages are those of `L`. -/
structure Inv (incl : Bool) (L : List (Graph × Msg)) (pre : List Ev) (s : State) : Prop where
  change : s.hasChange = true ↔ Pending pre
  cloning : s.cloning = copying pre
  busy : s.pc.isBusy = working pre
  msgs : arrived pre = (L.take (processed pre)).map Prod.snd ++ s.pc.msgs
  bound : processed pre ≤ L.length
  empty : processed pre = 0 → s.obj = none
  held : ∀ k g m, processed pre = k + 1 → L[k]? = some (g, m) → ∃ h, s.obj = some h ∧ Held incl g h
  published : s.published = pre.any Ev.isPublish
  pubObj : s.published = true → 0 < processed pre
  midObj : s.pc = .more ∨ s.pc = .publish → 0 < processed pre
  unseen : s.pc = .idle → Unseen pre → s.hasChange = true

theorem pending_snoc {pre : List Ev} {e : Ev} : Pending (pre ++ [e]) ↔ e = .publish ∨ (e.isGraph = false ∧ Pending pre) := by
  constructor
  · rintro ⟨a, b, h1, h2⟩
    rcases List.eq_nil_or_concat b with rfl | ⟨b', x, rfl⟩
    · have := List.append_inj_right' h1 rfl
      exact .inl (by simpa using this)
    · rw [List.concat_eq_append] at h1 h2
      rw [show a ++ Ev.publish :: (b' ++ [x]) = (a ++ Ev.publish :: b') ++ [x] by simp] at h1
      have e1 := List.append_inj_right' h1 rfl
      have e2 := List.append_inj_left' h1 rfl
      have e3 : e = x := by simpa using e1
      exact .inr ⟨by rw [e3]; exact h2 x (by simp), a, b', e2, fun y hy => h2 y (by simp [hy])⟩
  · rintro (rfl | ⟨h, a, b, h1, h2⟩)
    · exact ⟨pre, [], rfl, by simp⟩
    · refine ⟨a, b ++ [e], by rw [h1]; simp, ?_⟩
      intro x hx
      rcases List.mem_append.1 hx with hx | hx
      · exact h2 x hx
      · rw [List.mem_singleton.1 hx]; exact h

theorem unseen_snoc {pre : List Ev} {e : Ev} : Unseen (pre ++ [e]) ↔ e = .apply ∨ (e.isGraph = false ∧ Unseen pre) := by
  constructor
  · rintro ⟨a, b, h1, h2⟩
    rcases List.eq_nil_or_concat b with rfl | ⟨b', x, rfl⟩
    · have := List.append_inj_right' h1 rfl
      exact .inl (by simpa using this)
    · rw [List.concat_eq_append] at h1 h2
      rw [show a ++ Ev.apply :: (b' ++ [x]) = (a ++ Ev.apply :: b') ++ [x] by simp] at h1
      have e1 := List.append_inj_right' h1 rfl
      have e2 := List.append_inj_left' h1 rfl
      have e3 : e = x := by simpa using e1
      exact .inr ⟨by rw [e3]; exact h2 x (by simp), a, b', e2, fun y hy => h2 y (by simp [hy])⟩
  · rintro (rfl | ⟨h, a, b, h1, h2⟩)
    · exact ⟨pre, [], rfl, by simp⟩
    · refine ⟨a, b ++ [e], by rw [h1]; simp, ?_⟩
      intro x hx
      rcases List.mem_append.1 hx with hx | hx
      · exact h2 x hx
      · rw [List.mem_singleton.1 hx]; exact h

theorem Inv.init (L : List (Graph × Msg)) : Inv incl L [] {} where
  change := ⟨(fun h => by cases h), (fun ⟨a, b, h, _⟩ => by cases a <;> cases h)⟩
  cloning := rfl
  busy := rfl
  msgs := rfl
  bound := Nat.zero_le _
  empty _ := rfl
  held k g m h := by cases h
  published := rfl
  pubObj h := by cases h
  midObj h := by rcases h with h | h <;> cases h
  unseen _ := fun ⟨a, b, h, _⟩ => by cases a <;> cases h

theorem Feed.get {prev : Option Graph} {L : List (Graph × Msg)} (h : Feed P W V incl prev L) {k : Nat} {g : Graph} {m : Msg} (hk : L[k]? = some (g, m)) :
    Good P W V incl g m ∧ (∀ p ∈ (match k with | 0 => prev | j + 1 => (L[j]?).map Prod.fst), p.layerIds = g.layerIds → p.Accepts g) := by
  induction L generalizing prev k with
  | nil => simp at hk
  | cons x L ih =>
    obtain ⟨g', m'⟩ := x
    obtain ⟨h1, h2, h3⟩ := h
    cases k with
    | zero =>
      simp only [List.getElem?_cons_zero, Option.some.injEq, Prod.mk.injEq] at hk
      obtain ⟨rfl, rfl⟩ := hk
      exact ⟨h1, h2⟩
    | succ k =>
      simp only [List.getElem?_cons_succ] at hk
      obtain ⟨i1, i2⟩ := ih h3 hk
      refine ⟨i1, ?_⟩
      cases k with
      | zero => simpa using i2
      | succ j => simpa using i2

/-- A step of a schedule keeps the invariant, or is a race between `graph()` and the processing of a message. -/
theorem Inv.step (ho : ∀ l, (P.order l).Perm l) {L : List (Graph × Msg)} (hL : Feed P W V incl none L) {pre : List Ev} {s : State}
    (hi : Inv incl L pre s) {e : Ev} (harr : arrived (pre ++ [e]) <+: L.map Prod.snd) {r : Res (State × Ans)} (hs : Zmq.step P s e = some r) :
    (∃ s' x, r = .ok (s', x) ∧ Inv incl L (pre ++ [e]) s') ∨ (r = .ub ∧ working (pre ++ [e]) = true ∧ copying (pre ++ [e]) = true) := by
  obtain ⟨i1, i2, i3, i4, i5, i6, i7, i8, i9, i10, i11⟩ := hi
  obtain ⟨pc, hc, obj, pub, cl⟩ := s
  simp only at i1 i2 i3 i4 i5 i6 i7 i8 i9 i10 i11
  cases e with
  | timeout =>
    cases pc <;> simp only [Zmq.step, Option.some.injEq, reduceCtorEq] at hs
    subst hs
    refine .inl ⟨_, _, rfl, ?_⟩
    constructor <;> simp only [pending_snoc, unseen_snoc, arrived_append, processed_append, working, copying, List.foldl_append, List.foldl_cons, List.foldl_nil, List.any_append]
    · simpa [Ev.isGraph] using i1
    · exact i2
    · exact i3
    · simpa [arrived, processed] using i4
    · simpa [processed] using i5
    · simpa [processed] using i6
    · simpa [processed] using i7
    · simpa [Ev.isPublish] using i8
    · simpa [processed] using i9
    · simpa [processed] using i10
    · simpa [Ev.isGraph] using i11
  | arrive m =>
    have hmore : (pc = .idle ∨ pc = .more) ∧ r = (if cl && pub then .ub else .ok ({ pc := .busy m, hasChange := hc, obj := obj, published := pub, cloning := cl }, .none)) := by
      cases pc <;> simp only [Zmq.step, Option.some.injEq, reduceCtorEq] at hs
      · exact ⟨.inl rfl, hs.symm⟩
      · exact ⟨.inr rfl, hs.symm⟩
    obtain ⟨hpc, rfl⟩ := hmore
    have hms : pc.msgs = [] := by rcases hpc with rfl | rfl <;> rfl
    cases hcl : (cl && pub) with
    | true =>
      simp only [Bool.and_eq_true] at hcl
      refine .inr ⟨rfl, by simp [working], ?_⟩
      rw [hcl.1] at i2
      simpa [copying] using i2.symm
    | false =>
      refine .inl ⟨_, _, rfl, ?_⟩
      constructor <;> simp only [pending_snoc, unseen_snoc, arrived_append, processed_append, working, copying, List.foldl_append, List.foldl_cons, List.foldl_nil, List.any_append]
      · simpa [Ev.isGraph] using i1
      · exact i2
      · rfl
      · rw [i4, hms]; simp [arrived, processed, Pc.msgs]
      · simpa [processed] using i5
      · simpa [processed] using i6
      · simpa [processed] using i7
      · simpa [Ev.isPublish] using i8
      · simpa [processed] using i9
      · simp
      · simp
  | apply =>
    cases pc <;> simp only [Zmq.step, Option.some.injEq, reduceCtorEq] at hs
    rename_i m
    subst hs
    have hms : arrived pre = (L.take (processed pre)).map Prod.snd ++ [m] := i4
    have harr' : arrived pre <+: L.map Prod.snd := by
      have : arrived (pre ++ [Ev.apply]) = arrived pre := by simp [arrived]
      rwa [this] at harr
    -- the message is the next one of the feed
    obtain ⟨g, hg⟩ : ∃ g, L[processed pre]? = some (g, m) := by
      obtain ⟨t, ht⟩ := harr'
      have hlt : (L.map Prod.snd)[processed pre]? = some m := by
        rw [← ht, hms, List.append_assoc, List.getElem?_append_right (by simp; omega)]
        simp [Nat.min_eq_left i5]
      rw [List.getElem?_map, Option.map_eq_some_iff] at hlt
      obtain ⟨⟨g, m'⟩, h1, rfl⟩ := hlt
      exact ⟨g, h1⟩
    obtain ⟨hgood, hacc⟩ := Feed.get hL hg
    obtain ⟨h', hread, hheld⟩ : ∃ h', Zmq.read P obj m = .ok h' ∧ Held incl g h' := by
      cases hk : processed pre with
      | zero =>
        rw [i6 hk]
        exact read_first ho hgood
      | succ k =>
        rw [hk] at hg hacc
        have hkl : k < L.length := by
          have : k + 1 < L.length := by
            rcases Nat.lt_or_ge (k + 1) L.length with h | h
            · exact h
            · rw [List.getElem?_eq_none h] at hg; cases hg
          omega
        obtain ⟨h, ho', hh⟩ := i7 k L[k].1 L[k].2 hk (by simp [List.getElem?_eq_getElem hkl])
        rw [ho']
        exact read_next ho hh hgood (hacc L[k].1 (by simp [List.getElem?_eq_getElem hkl]))
    have hlen : processed pre < L.length := by
      rcases Nat.lt_or_ge (processed pre) L.length with h | h
      · exact h
      · rw [List.getElem?_eq_none h] at hg; cases hg
    refine .inl ⟨_, _, by rw [hread]; rfl, ?_⟩
    constructor <;> simp only [pending_snoc, unseen_snoc, arrived_append, processed_append, working, copying, List.foldl_append, List.foldl_cons, List.foldl_nil, List.any_append]
    · simpa [Ev.isGraph] using i1
    · exact i2
    · rfl
    · rw [i4]
      have h1 : processed [Ev.apply] = 1 := rfl
      have h2 : arrived [Ev.apply] = [] := rfl
      rw [h1, h2, List.take_add_one, hg]
      simp [Pc.msgs]
    · have h1 : processed [Ev.apply] = 1 := rfl
      omega
    · have h1 : processed [Ev.apply] = 1 := rfl
      intro h; omega
    · intro k g' m' h1 h2
      have h3 : processed [Ev.apply] = 1 := rfl
      have h4 : k = processed pre := by omega
      rw [h4, hg] at h2
      cases h2
      exact ⟨h', rfl, hheld⟩
    · simpa [Ev.isPublish] using i8
    · intro _
      have h1 : processed [Ev.apply] = 1 := rfl
      omega
    · intro _
      have h1 : processed [Ev.apply] = 1 := rfl
      omega
    · simp
  | drained =>
    cases pc <;> simp only [Zmq.step, Option.some.injEq, reduceCtorEq] at hs
    subst hs
    refine .inl ⟨_, _, rfl, ?_⟩
    constructor <;> simp only [pending_snoc, unseen_snoc, arrived_append, processed_append, working, copying, List.foldl_append, List.foldl_cons, List.foldl_nil, List.any_append]
    · simpa [Ev.isGraph] using i1
    · exact i2
    · exact i3
    · simpa [arrived, processed, Pc.msgs] using i4
    · simpa [processed] using i5
    · simpa [processed] using i6
    · simpa [processed] using i7
    · simpa [Ev.isPublish] using i8
    · simpa [processed] using i9
    · simpa [processed] using i10
    · simp
  | publish =>
    cases pc <;> cases cl <;> simp only [Zmq.step, Option.some.injEq, reduceCtorEq] at hs
    subst hs
    have hpos := i10 (.inr rfl)
    have hobj : obj.isSome = true := by
      obtain ⟨k, hk⟩ := Nat.exists_eq_succ_of_ne_zero (Nat.pos_iff_ne_zero.1 hpos)
      have hkl : k < L.length := by omega
      obtain ⟨h, ho', _⟩ := i7 k L[k].1 L[k].2 hk (by simp [List.getElem?_eq_getElem hkl])
      rw [ho']; rfl
    refine .inl ⟨_, _, rfl, ?_⟩
    constructor <;> simp only [pending_snoc, unseen_snoc, arrived_append, processed_append, working, copying, List.foldl_append, List.foldl_cons, List.foldl_nil, List.any_append]
    · simp
    · exact i2
    · exact i3
    · simpa [arrived, processed, Pc.msgs] using i4
    · simpa [processed] using i5
    · simpa [processed] using i6
    · simpa [processed] using i7
    · simp [Ev.isPublish, hobj]
    · intro _; simpa [processed] using hpos
    · simp
    · simp
  | hasChange =>
    cases cl <;> simp only [Zmq.step, Option.some.injEq, reduceCtorEq] at hs
    subst hs
    refine .inl ⟨_, _, rfl, ?_⟩
    constructor <;> simp only [pending_snoc, unseen_snoc, arrived_append, processed_append, working, copying, List.foldl_append, List.foldl_cons, List.foldl_nil, List.any_append]
    · simpa [Ev.isGraph] using i1
    · exact i2
    · exact i3
    · simpa [arrived, processed] using i4
    · simpa [processed] using i5
    · simpa [processed] using i6
    · simpa [processed] using i7
    · simpa [Ev.isPublish] using i8
    · simpa [processed] using i9
    · simpa [processed] using i10
    · simpa [Ev.isGraph] using i11
  | graphBegin =>
    cases cl with
    | true => simp [Zmq.step] at hs
    | false =>
      by_cases hb : pc.isBusy = true ∧ pub = true
      · cases pc <;> simp only [Pc.isBusy, Bool.false_eq_true, false_and] at hb
        obtain ⟨_, rfl⟩ := hb
        simp only [Zmq.step, Option.some.injEq] at hs
        refine .inr ⟨hs.symm, ?_, by simp [copying]⟩
        simpa [working, Pc.isBusy] using i3.symm
      · have hs' : r = .ok ({ pc := pc, hasChange := false, obj := obj, published := pub, cloning := true }, .none) := by
          cases pc <;> cases pub <;> simp only [Zmq.step, Option.some.injEq] at hs <;> first | exact hs.symm | exact absurd ⟨rfl, rfl⟩ hb
        subst hs'
        refine .inl ⟨_, _, rfl, ?_⟩
        constructor <;> simp only [pending_snoc, unseen_snoc, arrived_append, processed_append, working, copying, List.foldl_append, List.foldl_cons, List.foldl_nil, List.any_append]
        · simp [Ev.isGraph]
        · exact i3
        · simpa [arrived, processed] using i4
        · simpa [processed] using i5
        · simpa [processed] using i6
        · simpa [processed] using i7
        · simpa [Ev.isPublish] using i8
        · simpa [processed] using i9
        · simpa [processed] using i10
        · simp [Ev.isGraph]
  | graphEnd =>
    cases cl with
    | false => simp [Zmq.step] at hs
    | true =>
      obtain ⟨x, hs'⟩ : ∃ x, r = .ok ({ pc := pc, hasChange := hc, obj := obj, published := pub, cloning := false }, x) := by
        cases pub with
        | false => 
          simp only [Zmq.step, Option.some.injEq] at hs
          exact ⟨_, hs.symm⟩
        | true =>
          have hpos := i9 rfl
          obtain ⟨k, hk⟩ := Nat.exists_eq_succ_of_ne_zero (Nat.pos_iff_ne_zero.1 hpos)
          have hkl : k < L.length := by omega
          obtain ⟨h, ho', hh⟩ := i7 k L[k].1 L[k].2 hk (by simp [List.getElem?_eq_getElem hkl])
          subst ho'
          obtain ⟨c, hc, _⟩ := hh.clone
          simp only [Zmq.step, Option.some.injEq, hc, Res.bind_ok] at hs
          exact ⟨_, hs.symm⟩
      subst hs'
      refine .inl ⟨_, _, rfl, ?_⟩
      constructor <;> simp only [pending_snoc, unseen_snoc, arrived_append, processed_append, working, copying, List.foldl_append, List.foldl_cons, List.foldl_nil, List.any_append]
      · simpa [Ev.isGraph] using i1
      · exact i3
      · simpa [arrived, processed] using i4
      · simpa [processed] using i5
      · simpa [processed] using i6
      · simpa [processed] using i7
      · simpa [Ev.isPublish] using i8
      · simpa [processed] using i9
      · simpa [processed] using i10
      · simpa [Ev.isGraph] using i11

/-- The invariant holds after every schedule that runs to its end. -/
theorem Inv.run (ho : ∀ l, (P.order l).Perm l) {L : List (Graph × Msg)} (hL : Feed P W V incl none L) {evs : List Ev} {s : State} {x : List Ans}
    (harr : arrived evs <+: L.map Prod.snd) (h : Zmq.run P {} evs = some (.ok (s, x))) : Inv incl L evs s := by
  generalize hn : evs.length = n
  induction n generalizing evs s x with
  | zero =>
    have : evs = [] := List.length_eq_zero_iff.1 hn
    subst this
    cases h
    exact Inv.init L
  | succ n ih =>
    rcases List.eq_nil_or_concat evs with rfl | ⟨as, e, rfl⟩
    · cases hn
    · rw [List.concat_eq_append] at *
      obtain ⟨s1, y, z, h1, h2, _, _⟩ := run_snoc h
      have hpre : arrived as <+: L.map Prod.snd := by
        rw [arrived_append] at harr
        exact (List.prefix_append _ _).trans harr
      rcases (ih hpre h1 (by simpa using hn)).step ho hL harr h2 with ⟨s', x', h3, h4⟩ | ⟨h3, _⟩
      · cases h3; exact h4
      · cases h3

end Zmq
end Verif
