import Verif.Model.Views
import Verif.Props.Layer
import Verif.Lemmas.SearchLayer
/-! # C41: adjacency matrices and Laplacians of a layer -/

namespace Verif

/-- The layer files each node under its id. -/
def Layer.Named (l : Layer) : Prop := ∀ n x, l.findNode n = some x → x.id = n

/-- The rows and columns: distinct indices below the number of nodes, for nodes of the layer. -/
structure Layer.Ordering (l : Layer) (ord : OMap NodeId Nat) : Prop where
  node : ∀ a i, ord.find? a = some i → l.hasNode a = true
  range : ∀ a i, ord.find? a = some i → i < ord.size
  inj : ∀ a b i, ord.find? a = some i → ord.find? b = some i → a = b

namespace Layer
variable {D : Type} {l : Layer} {ord : OMap NodeId Nat} {w : NodeId → NodeId → D} {ar : Arith D}

/-- all of a list written into the row and column `i` -/
theorem adjPut_fold (ho : l.Ordering ord) (x : Node) {a : NodeId} {i : Nat} (ha : ord.find? a = some i) (L : List NodeId) (hL : a ∉ L) : ∀ (A : Mat D), A.n = ord.size →
    ∃ A', foldRes (adjPut ord w x i) A L = .ok A' ∧ A'.n = ord.size ∧
      ∀ u v p q, ord.find? u = some p → ord.find? v = some q →
        A'.at_ p q = if u = a ∧ v ∈ L then w x.id v else if v = a ∧ u ∈ L then w x.id u else A.at_ p q := by
  induction L with
  | nil => intro A hn; exact ⟨A, rfl, hn, fun u v p q _ _ => by simp⟩
  | cons s L ih =>
    intro A hn
    have hs : s ≠ a := fun e => hL (e ▸ List.mem_cons_self ..)
    have ih := ih (fun h => hL (List.mem_cons_of_mem _ h))
    rw [foldRes_cons]
    cases hj : ord.find? s with
    | none =>
      have step : adjPut ord w x i A s = .ok A := by unfold adjPut; rw [hj]
      obtain ⟨A', h1, h2, h3⟩ := ih A hn
      refine ⟨A', by rw [step]; exact h1, h2, fun u v p q hu hv => ?_⟩
      have hus : u ≠ s := fun e => by rw [e, hj] at hu; cases hu
      have hvs : v ≠ s := fun e => by rw [e, hj] at hv; cases hv
      rw [h3 u v p q hu hv]
      simp only [List.mem_cons, hus, hvs, false_or]
    | some j =>
      have hi := ho.range a i ha
      have hjr := ho.range s j hj
      have step : adjPut ord w x i A s = .ok ⟨ord.size, fun x' y => if x' = j ∧ y = i then w x.id s else
          if x' = i ∧ y = j then w x.id s else A.at_ x' y⟩ := by
        unfold adjPut; rw [hj]
        simp only [Mat.set, hn, hi, hjr, and_self, if_true, Res.bind_ok]
      obtain ⟨A', h1, h2, h3⟩ := ih ⟨ord.size, fun x' y => if x' = j ∧ y = i then w x.id s else
        if x' = i ∧ y = j then w x.id s else A.at_ x' y⟩ rfl
      refine ⟨A', by rw [step]; exact h1, h2, fun u v p q hu hv => ?_⟩
      rw [h3 u v p q hu hv]
      have e1 : ∀ {u p}, ord.find? u = some p → (p = i ↔ u = a) := fun hu => ⟨fun e => ho.inj _ _ _ (e ▸ hu) ha, fun e => by
        subst e; rw [hu] at ha; exact Option.some.inj ha⟩
      have e2 : ∀ {u p}, ord.find? u = some p → (p = j ↔ u = s) := fun hu => ⟨fun e => ho.inj _ _ _ (e ▸ hu) hj, fun e => by
        subst e; rw [hu] at hj; exact Option.some.inj hj⟩
      simp only [e1 hu, e1 hv, e2 hu, e2 hv, List.mem_cons, and_self, if_true]
      by_cases hua : u = a
      · subst hua
        have hus : ¬ u = s := fun e => hs e.symm
        have hul : u ∉ L := fun h => hL (List.mem_cons_of_mem _ h)
        by_cases hvs : v = s
        · subst hvs; simp [hul, hs]
        · have hul : u ∉ L := fun h => hL (List.mem_cons_of_mem _ h)
          simp [hvs, hus, hul]
      · by_cases hva : v = a
        · subst hva
          have hvs : ¬ v = s := fun e => hs e.symm
          by_cases hus : u = s
          · subst hus; simp [hua]
          · simp [hus, hua]
        · simp [hua, hva]

/-- what has been written when the nodes in `done` are finished -/
def partialEntry (ar : Arith D) (l : Layer) (w : NodeId → NodeId → D) (done : List NodeId) (u v : NodeId) : D :=
  if l.hasEdge u v = true then
    if max u v ∈ done then w (max u v) (min u v) else if min u v ∈ done then w (min u v) (max u v) else ar.zero
  else ar.zero

theorem max_min_cases (u v : NodeId) : (max u v = u ∧ min u v = v ∧ v ≤ u) ∨ (max u v = v ∧ min u v = u ∧ u ≤ v) := by
  by_cases h : u ≤ v
  · exact .inr ⟨by simp [max, h], by simp [min, h], h⟩
  · have h2 : v ≤ u := by rw [UInt64.le_iff_toNat_le] at *; omega
    exact .inl ⟨by simp [max, h], by simp [min, h], h2⟩

theorem max_comm' (a b : NodeId) : max a b = max b a := by
  rcases max_min_cases a b with ⟨h1, _, h3⟩ | ⟨h1, _, h3⟩ <;> rcases max_min_cases b a with ⟨h4, _, h6⟩ | ⟨h4, _, h6⟩ <;> rw [h1, h4] <;>
    (rw [← UInt64.toNat_inj]; rw [UInt64.le_iff_toNat_le] at h3 h6; omega)

theorem min_comm' (a b : NodeId) : min a b = min b a := by
  rcases max_min_cases a b with ⟨_, h1, h3⟩ | ⟨_, h1, h3⟩ <;> rcases max_min_cases b a with ⟨_, h4, h6⟩ | ⟨_, h4, h6⟩ <;> rw [h1, h4] <;>
    (rw [← UInt64.toNat_inj]; rw [UInt64.le_iff_toNat_le] at h3 h6; omega)

theorem weight_sym {w : NodeId → NodeId → D} (hw : ∀ a b, w a b = w b a) (a b : NodeId) : w (max a b) (min a b) = w a b := by
  rcases max_min_cases a b with ⟨h1, h2, _⟩ | ⟨h1, h2, _⟩ <;> rw [h1, h2]
  exact hw _ _

theorem partial_step (hc : l.Consistent) (done : List NodeId) (a : NodeId) (hlt : ∀ d ∈ done, d < a) (u v : NodeId) :
    partialEntry ar l w (done ++ [a]) u v =
      if u = a ∧ l.hasEdge a v = true then w a v else if v = a ∧ l.hasEdge a u = true then w a u else partialEntry ar l w done u v := by
  have hna : a ∉ done := fun h => by have := hlt a h; rw [UInt64.lt_iff_toNat_lt] at this; omega
  unfold partialEntry
  by_cases he : l.hasEdge u v = true
  · have he' : l.hasEdge v u = true := by rw [hasEdge_comm]; exact he
    have hne : u ≠ v := (hc.ends u v he).1
    simp only [he, if_true]
    have hnd : ∀ y, a < y → y ∉ done := fun y hy h => by
      have := hlt y h; rw [UInt64.lt_iff_toNat_lt] at *; omega
    by_cases hua : u = a
    · subst hua
      simp only [he, and_self, if_true]
      rcases max_min_cases u v with ⟨h1, h2, h3⟩ | ⟨h1, h2, h3⟩
      · rw [h1, h2]; simp
      · rw [h1, h2]
        have hlt' : u < v := by
          rw [UInt64.lt_iff_toNat_lt]; rw [UInt64.le_iff_toNat_le] at h3
          have : u.toNat ≠ v.toNat := fun e => hne (UInt64.toNat_inj.1 e)
          omega
        have hv := hnd v hlt'
        simp [hv, Ne.symm hne]
    · simp only [hua, false_and, if_false]
      by_cases hva : v = a
      · subst hva
        simp only [he', and_self, if_true]
        rcases max_min_cases u v with ⟨h1, h2, h3⟩ | ⟨h1, h2, h3⟩
        · rw [h1, h2]
          have hlt' : v < u := by
            rw [UInt64.lt_iff_toNat_lt]; rw [UInt64.le_iff_toNat_le] at h3
            have : u.toNat ≠ v.toNat := fun e => hne (UInt64.toNat_inj.1 e)
            omega
          have hv := hnd u hlt'
          simp [hv, hne]
        · rw [h1, h2]; simp
      · simp only [hva, false_and, if_false]
        have h1 : max u v ∈ done ++ [a] ↔ max u v ∈ done := by
          rcases max_min_cases u v with ⟨h1, _⟩ | ⟨h1, _⟩ <;> rw [h1] <;> simp [hua, hva]
        have h2 : min u v ∈ done ++ [a] ↔ min u v ∈ done := by
          rcases max_min_cases u v with ⟨_, h1, _⟩ | ⟨_, h1, _⟩ <;> rw [h1] <;> simp [hua, hva]
        simp only [h1, h2]
  · simp only [he]
    by_cases hua : u = a
    · subst hua
      have : ¬ (v = u ∧ l.hasEdge u u = true) := fun ⟨h1, h2⟩ => (hc.ends u u h2).1 rfl
      by_cases hva : v = u
      · subst hva; simp [he]
      · simp [he, hva]
    · by_cases hva : v = a
      · subst hva
        have he' : ¬ l.hasEdge v u = true := fun h => he (by rw [hasEdge_comm]; exact h)
        simp [hua, he']
      · simp [hua, hva]

theorem keys_of (x : OMap NodeId Nat) : x.keys = x.toList.map Prod.fst := rfl

/-- sorted prefixes of the ordering -/
theorem ord_split {done todo : List (NodeId × Nat)} {e : NodeId × Nat} (h : ord.toList = done ++ e :: todo) :
    ∀ d ∈ done.map Prod.fst, d < e.1 := by
  have hs := OMap.keys_sorted ord
  rw [keys_of, h] at hs
  simp only [List.map_append, List.map_cons, List.pairwise_append] at hs
  intro d hd
  have := hs.2.2 d hd e.1 (List.mem_cons_self ..)
  simpa [OKey.lt] using this

theorem adj_fold (hc : l.Consistent) (hn : l.Named) (ho : l.Ordering ord) : ∀ (todo done : List (NodeId × Nat)) (A : Mat D),
    ord.toList = done ++ todo → A.n = ord.size →
    (∀ u v p q, ord.find? u = some p → ord.find? v = some q → A.at_ p q = partialEntry ar l w (done.map Prod.fst) u v) →
    ∃ A', foldRes (l.adjRow ord w) A todo = .ok A' ∧ A'.n = ord.size ∧
      ∀ u v p q, ord.find? u = some p → ord.find? v = some q → A'.at_ p q = partialEntry ar l w ord.keys u v := by
  intro todo
  induction todo with
  | nil =>
    intro done A hs hA h
    refine ⟨A, rfl, hA, ?_⟩
    rw [keys_of, hs, List.append_nil]; exact h
  | cons e todo ih =>
    intro done A hs hA h
    have hlt := ord_split hs
    have he : ord.find? e.1 = some e.2 := OMap.mem_toList.1 (by rw [hs]; simp)
    obtain ⟨x, hx⟩ := OMap.contains_eq_true.1 (ho.node _ _ he)
    have hx : l.findNode e.1 = some x := hx
    have hmem : ∀ m, m ∈ x.siblings.keys ↔ l.hasEdge e.1 m = true := fun m => by rw [OMap.mem_keys]; exact hc.siblings _ _ hx m
    obtain ⟨A', h1, h2, h3⟩ := adjPut_fold ho (w := w) x he x.siblings.keys
      (fun hm => (hc.ends _ _ ((hmem _).1 hm)).1 rfl) A hA
    rw [foldRes_cons]
    unfold adjRow
    rw [hx]
    simp only [Res.at?, Res.bind_ok, h1]
    refine ih (done ++ [e]) A' (by rw [hs, List.append_assoc]; rfl) h2 (fun u v p q hu hv => ?_)
    rw [h3 u v p q hu hv, List.map_append, List.map_cons, List.map_nil, partial_step hc _ _ hlt, hn _ _ hx, h u v p q hu hv]
    simp only [hmem]


/-! ### The Laplacian -/

/-- the siblings of a node that have a row, in the order in which the code meets them -/
def rowSiblings (l : Layer) (ord : OMap NodeId Nat) (a : NodeId) : List NodeId := ord.keys.filter (fun b => l.hasEdge a b)

/-- siblings are sorted by id, and so are the rows -/
theorem rowSiblings_eq (hc : l.Consistent) {a : NodeId} {x : Node} (hx : l.findNode a = some x) :
    x.siblings.keys.filter ord.contains = rowSiblings l ord a := by
  unfold rowSiblings
  have h1 := (OMap.keys_sorted x.siblings).filter (p := ord.contains)
  have h2 := (OMap.keys_sorted ord).filter (p := fun b => l.hasEdge a b)
  have hm : ∀ m, m ∈ x.siblings.keys.filter ord.contains ↔ m ∈ ord.keys.filter (fun b => l.hasEdge a b) := by
    intro m
    simp only [List.mem_filter, OMap.mem_keys]
    rw [hc.siblings _ _ hx m]
    exact And.comm
  refine List.Perm.eq_of_pairwise (le := fun a b => OKey.lt a b = true) ?_ h1 h2 ?_
  · intro a b _ _ h h'
    exfalso
    have : a < b := by simpa [OKey.lt] using h
    have : b < a := by simpa [OKey.lt] using h'
    rw [UInt64.lt_iff_toNat_lt] at *; omega
  · refine (List.perm_ext_iff_of_nodup ?_ ?_).2 hm
    · exact (OMap.keys_nodup _).filter _
    · exact (OMap.keys_nodup _).filter _

theorem lapPut_fold (x : Node) (i : Nat) (L : List NodeId) : ∀ (A : Mat D) (d : D),
    foldRes (lapPut ar ord w x i) (A, d) L = foldRes (adjPut ord (fun a b => ar.neg (w a b)) x i) A L >>= fun A' =>
      .ok (A', (L.filter ord.contains).foldl (fun d s => ar.add d (w x.id s)) d) := by
  induction L with
  | nil => intro A d; rfl
  | cons s L ih =>
    intro A d
    rw [foldRes_cons, foldRes_cons]
    cases hj : ord.find? s with
    | none =>
      have e1 : lapPut ar ord w x i (A, d) s = .ok (A, d) := by unfold lapPut; rw [hj]
      have e2 : adjPut ord (fun a b => ar.neg (w a b)) x i A s = .ok A := by unfold adjPut; rw [hj]
      have e3 : ord.contains s = false := by rw [OMap.contains_eq_false]; exact hj
      rw [e1, e2, Res.bind_ok, Res.bind_ok, ih, List.filter_cons, e3]; rfl
    | some j =>
      have e3 : ord.contains s = true := by rw [OMap.contains_eq_true]; exact ⟨_, hj⟩
      have e1 : lapPut ar ord w x i (A, d) s = adjPut ord (fun a b => ar.neg (w a b)) x i A s >>= fun A' => .ok (A', ar.add d (w x.id s)) := by
        unfold lapPut adjPut; rw [hj]
        simp only [Mat.set]
        by_cases h1 : i < A.n ∧ j < A.n
        · simp [h1]
        · simp only [h1, if_false]; rfl
      rw [e1]
      cases adjPut ord (fun a b => ar.neg (w a b)) x i A s with
      | ok A' => rw [Res.bind_ok, Res.bind_ok, Res.bind_ok, ih, List.filter_cons, e3, if_pos rfl]; rfl
      | throw e => rfl
      | ub => rfl

/-- The sum of the weights of the edges of `a` to nodes with a row, in the order of their ids, starting from zero. -/
def degree (ar : Arith D) (l : Layer) (ord : OMap NodeId Nat) (w : NodeId → NodeId → D) (a : NodeId) : D :=
  (rowSiblings l ord a).foldl (fun d b => ar.add d (w a b)) ar.zero

theorem lap_fold (hc : l.Consistent) (hn : l.Named) (ho : l.Ordering ord) : ∀ (todo done : List (NodeId × Nat)) (A : Mat D),
    ord.toList = done ++ todo → A.n = ord.size →
    (∀ u v p q, ord.find? u = some p → ord.find? v = some q → u ≠ v →
      A.at_ p q = partialEntry ar l (fun a b => ar.neg (w a b)) (done.map Prod.fst) u v) →
    (∀ u p, ord.find? u = some p → u ∈ done.map Prod.fst → A.at_ p p = degree ar l ord w u) →
    ∃ A', foldRes (l.lapRow ar ord w) A todo = .ok A' ∧ A'.n = ord.size ∧
      (∀ u v p q, ord.find? u = some p → ord.find? v = some q → u ≠ v →
        A'.at_ p q = partialEntry ar l (fun a b => ar.neg (w a b)) ord.keys u v) ∧
      ∀ u p, ord.find? u = some p → A'.at_ p p = degree ar l ord w u := by
  intro todo
  induction todo with
  | nil =>
    intro done A hs hA h hd
    rw [List.append_nil] at hs
    refine ⟨A, rfl, hA, ?_, ?_⟩
    · rw [keys_of, hs]; exact h
    · intro u p hu
      refine hd u p hu ?_
      rw [← hs, ← keys_of, OMap.mem_keys, OMap.contains_eq_true]; exact ⟨_, hu⟩
  | cons e todo ih =>
    intro done A hs hA h hd
    have hlt := ord_split hs
    have he : ord.find? e.1 = some e.2 := OMap.mem_toList.1 (by rw [hs]; simp)
    obtain ⟨x, hx⟩ := OMap.contains_eq_true.1 (ho.node _ _ he)
    have hx : l.findNode e.1 = some x := hx
    have hmem : ∀ m, m ∈ x.siblings.keys ↔ l.hasEdge e.1 m = true := fun m => by rw [OMap.mem_keys]; exact hc.siblings _ _ hx m
    obtain ⟨A', h1, h2, h3⟩ := adjPut_fold ho (w := fun a b => ar.neg (w a b)) x he x.siblings.keys
      (fun hm => (hc.ends _ _ ((hmem _).1 hm)).1 rfl) A hA
    have hi := ho.range _ _ he
    have step : l.lapRow ar ord w A e = .ok ⟨ord.size, fun p q => if p = e.2 ∧ q = e.2 then degree ar l ord w e.1 else A'.at_ p q⟩ := by
      unfold lapRow
      rw [hx]
      simp only [Res.at?, Res.bind_ok]
      rw [lapPut_fold, h1]
      simp only [Res.bind_ok, Mat.set, h2, hi, and_self, if_true]
      rw [rowSiblings_eq hc hx, hn _ _ hx]
      rfl
    rw [foldRes_cons, step]
    have e1 : ∀ {u p}, ord.find? u = some p → (p = e.2 ↔ u = e.1) := fun hu => ⟨fun e => ho.inj _ _ _ (e ▸ hu) he, fun e => by
      subst e; rw [hu] at he; exact Option.some.inj he⟩
    rw [Res.bind_ok]
    refine ih (done ++ [e]) _ (by rw [hs, List.append_assoc]; rfl) rfl (fun u v p q hu hv huv => ?_) (fun u p hu hm => ?_)
    · have : ¬ (p = e.2 ∧ q = e.2) := fun ⟨ha, hb⟩ => huv (((e1 hu).1 ha).trans ((e1 hv).1 hb).symm)
      simp only [this, if_false]
      rw [h3 u v p q hu hv, List.map_append, List.map_cons, List.map_nil, partial_step hc _ _ hlt, hn _ _ hx, h u v p q hu hv huv]
      simp only [hmem]
    · by_cases hue : u = e.1
      · subst hue
        simp only [(e1 hu).2 rfl, and_self, if_true]
      · have hp : ¬ p = e.2 := fun h => hue ((e1 hu).1 h)
        simp only [hp, false_and, if_false]
        rw [h3 u u p p hu hu, if_neg (fun h => hue h.1), if_neg (fun h => hue h.1)]
        refine hd u p hu ?_
        rw [List.map_append, List.mem_append] at hm
        rcases hm with hm | hm
        · exact hm
        · simp at hm; exact absurd hm hue

/-! ### The sparse versions -/

theorem fold_sparse {T : Type} (f : NodeId × Nat → Node → List T) (L : List (NodeId × Nat)) (hL : ∀ e ∈ L, l.hasNode e.1 = true) : ∀ acc : List T,
    foldRes (fun acc (e : NodeId × Nat) => Res.at? (l.findNode e.1) >>= fun x => .ok (acc ++ f e x)) acc L =
      .ok (acc ++ L.flatMap (fun e => ((l.findNode e.1).map (f e)).getD [])) := by
  induction L with
  | nil => intro acc; simp [foldRes]
  | cons e L ih =>
    intro acc
    rw [foldRes_cons]
    obtain ⟨x, hx⟩ := OMap.contains_eq_true.1 (hL e (List.mem_cons_self ..))
    have hx : l.findNode e.1 = some x := hx
    have e1 : Res.at? (l.findNode e.1) = .ok x := by rw [hx]; rfl
    rw [e1, Res.bind_ok, Res.bind_ok, ih (fun e he => hL e (List.mem_cons_of_mem _ he))]
    simp [hx]

theorem flatMap_single {α β : Type} {L : List α} (hn : L.Nodup) {a : α} (ha : a ∈ L) (f : α → List β) (h : ∀ x ∈ L, x ≠ a → f x = []) :
    L.flatMap f = f a := by
  induction L with
  | nil => cases ha
  | cons y L ih =>
    rw [List.nodup_cons] at hn
    by_cases hy : y = a
    · subst hy
      have : L.flatMap f = [] := List.flatMap_eq_nil_iff.2 (fun x hx => h x (List.mem_cons_of_mem _ hx) (fun e => hn.1 (e ▸ hx)))
      simp [this]
    · rw [List.flatMap_cons, h y (List.mem_cons_self ..) hy, List.nil_append]
      exact ih hn.2 ((List.mem_cons.1 ha).resolve_left (Ne.symm hy)) (fun x hx => h x (List.mem_cons_of_mem _ hx))

theorem toList_nodup (x : OMap NodeId Nat) : x.toList.Nodup := by
  have h := OMap.keys_nodup x
  rw [keys_of, List.Nodup, List.pairwise_map] at h
  exact h.imp (fun hab e => hab (by rw [e]))

/-- the entries of one row in column `j` -/
theorem row_filter (ho : l.Ordering ord) (L : List NodeId) (hL : L.Nodup) {b : NodeId} {i j : Nat} (hb : ord.find? b = some j) (v : NodeId → D) :
    (L.filterMap (fun s => (ord.find? s).map (fun j => (i, j, v s)))).filter (fun (t : Triplet D) => decide (t.1 = i ∧ t.2.1 = j)) =
      if b ∈ L then [(i, j, v b)] else [] := by
  induction L with
  | nil => rfl
  | cons s L ih =>
    rw [List.nodup_cons] at hL
    have ih := ih hL.2
    cases hs : ord.find? s with
    | none =>
      have : b ≠ s := fun e => by rw [e, hs] at hb; cases hb
      rw [List.filterMap_cons, hs]
      simp only [Option.map_none, ih, List.mem_cons, this, false_or]
    | some k =>
      rw [List.filterMap_cons, hs]
      simp only [Option.map_some]
      rw [List.filter_cons, ih]
      by_cases hsb : b = s
      · subst hsb
        have : k = j := by rw [hs] at hb; exact Option.some.inj hb
        subst this
        simp [hL.1]
      · have : ¬ k = j := fun e => hsb (ho.inj _ _ _ hb (e ▸ hs))
        simp [this, hsb]

/-- entries of the whole list: only the row of `a` counts -/
theorem entries_row (ho : l.Ordering ord) {a : NodeId} {i j : Nat} (ha : ord.find? a = some i) (f : NodeId × Nat → Node → List (Triplet D))
    (hf : ∀ e x, ∀ t ∈ f e x, t.1 = e.2) :
    (ord.toList.flatMap (fun e => ((l.findNode e.1).map (f e)).getD [])).filter (fun t => decide (t.1 = i ∧ t.2.1 = j)) =
      (((l.findNode a).map (f (a, i))).getD []).filter (fun t => decide (t.1 = i ∧ t.2.1 = j)) := by
  rw [List.filter_flatMap]
  refine flatMap_single (toList_nodup ord) (OMap.mem_toList.2 ha) (fun e => (((l.findNode e.1).map (f e)).getD []).filter _) ?_
  intro e he hne
  rw [List.filter_eq_nil_iff]
  intro t ht
  have he := OMap.mem_toList.1 he
  have ht1 : t.1 = e.2 := by
    cases hx : l.findNode e.1 with
    | none => rw [hx] at ht; cases ht
    | some x => rw [hx] at ht; exact hf e x t ht
  simp only [decide_eq_true_eq]
  intro ⟨h, _⟩
  have : e.2 = i := ht1.symm.trans h
  refine hne (Prod.ext (ho.inj _ _ _ he (this ▸ ha)) this)

theorem entries_range (ho : l.Ordering ord) (f : NodeId × Nat → Node → List (Triplet D))
    (hf : ∀ e x, ∀ t ∈ f e x, t.1 = e.2 ∧ (t.2.1 = e.2 ∨ ∃ s, ord.find? s = some t.2.1)) :
    (ord.toList.flatMap (fun e => ((l.findNode e.1).map (f e)).getD [])).all (fun t => decide (t.1 < ord.size ∧ t.2.1 < ord.size)) = true := by
  rw [List.all_eq_true]
  intro t ht
  rw [List.mem_flatMap] at ht
  obtain ⟨e, he, ht⟩ := ht
  have he := OMap.mem_toList.1 he
  cases hx : l.findNode e.1 with
  | none => rw [hx] at ht; cases ht
  | some x =>
    rw [hx] at ht
    obtain ⟨h1, h2⟩ := hf e x t ht
    have hi := ho.range _ _ he
    rw [decide_eq_true_eq, h1]
    refine ⟨hi, ?_⟩
    rcases h2 with h2 | ⟨s, hs⟩
    · rw [h2]; exact hi
    · exact ho.range _ _ hs

theorem rows_nodes (ho : l.Ordering ord) : ∀ e ∈ ord.toList, l.hasNode e.1 = true := fun e he => ho.node _ _ (OMap.mem_toList.1 he)

end Layer

open Layer

/-- **C41**, dense adjacency matrix. For every assignment of distinct rows to nodes of the layer and every weight function, the entry of two
nodes is zero if they share no edge and otherwise the weight of the pair (larger id first); so the matrix is symmetric with zero
diagonal. -/
theorem C41_adjacency {D : Type} {l : Layer} (hc : l.Consistent) (hn : l.Named) {ord : OMap NodeId Nat} (ho : l.Ordering ord) (ar : Arith D)
    (w : NodeId → NodeId → D) :
    ∃ A, l.adjacencyMatrix ar ord w = .ok A ∧ A.n = ord.size ∧
      ∀ a b i j, ord.find? a = some i → ord.find? b = some j →
        A.at_ i j = (if l.hasEdge a b = true then w (max a b) (min a b) else ar.zero) ∧ A.at_ i j = A.at_ j i ∧ A.at_ i i = ar.zero := by
  obtain ⟨A, h1, h2, h3⟩ := adj_fold (ar := ar) (w := w) hc hn ho ord.toList [] (Mat.zeros ar ord.size) rfl rfl (fun u v p q _ _ => by
    unfold partialEntry Mat.zeros
    simp)
  have key : ∀ a b i j, ord.find? a = some i → ord.find? b = some j → A.at_ i j = (if l.hasEdge a b = true then w (max a b) (min a b) else ar.zero) := by
    intro a b i j ha hb
    rw [h3 a b i j ha hb]
    unfold partialEntry
    split
    · rw [if_pos]
      have hm : max a b ∈ ord.keys := by
        rcases max_min_cases a b with ⟨h, _⟩ | ⟨h, _⟩ <;> rw [h, OMap.mem_keys, OMap.contains_eq_true]
        · exact ⟨_, ha⟩
        · exact ⟨_, hb⟩
      exact hm
    · rfl
  refine ⟨A, h1, h2, fun a b i j ha hb => ⟨key a b i j ha hb, ?_, ?_⟩⟩
  · rw [key a b i j ha hb, key b a j i hb ha, hasEdge_comm, max_comm' a b, min_comm' a b]
  · rw [key a a i i ha ha, if_neg]
    exact fun h => (hc.ends a a h).1 rfl

/-- **C41**, dense Laplacian. Off the diagonal it is minus the adjacency matrix; on the diagonal it holds the sum of the weights of the
node's edges to nodes that have a row. -/
theorem C41_laplacian {D : Type} {l : Layer} (hc : l.Consistent) (hn : l.Named) {ord : OMap NodeId Nat} (ho : l.Ordering ord) (ar : Arith D)
    (w : NodeId → NodeId → D) :
    ∃ A, l.laplacian ar ord w = .ok A ∧ A.n = ord.size ∧
      ∀ a b i j, ord.find? a = some i → ord.find? b = some j →
        (a ≠ b → A.at_ i j = (if l.hasEdge a b = true then ar.neg (w (max a b) (min a b)) else ar.zero) ∧ A.at_ i j = A.at_ j i) ∧
        A.at_ i i = (ord.keys.filter (fun b => l.hasEdge a b)).foldl (fun d b => ar.add d (w a b)) ar.zero := by
  obtain ⟨A, h1, h2, h3, h4⟩ := lap_fold (ar := ar) (w := w) hc hn ho ord.toList [] (Mat.zeros ar ord.size) rfl rfl (fun u v p q _ _ _ => by
    unfold partialEntry Mat.zeros
    simp) (fun u p _ h => by cases h)
  have key : ∀ a b i j, ord.find? a = some i → ord.find? b = some j → a ≠ b →
      A.at_ i j = (if l.hasEdge a b = true then ar.neg (w (max a b) (min a b)) else ar.zero) := by
    intro a b i j ha hb hab
    rw [h3 a b i j ha hb hab]
    unfold partialEntry
    split
    · rw [if_pos]
      have hm : max a b ∈ ord.keys := by
        rcases max_min_cases a b with ⟨h, _⟩ | ⟨h, _⟩ <;> rw [h, OMap.mem_keys, OMap.contains_eq_true]
        · exact ⟨_, ha⟩
        · exact ⟨_, hb⟩
      exact hm
    · rfl
  refine ⟨A, h1, h2, fun a b i j ha hb => ⟨fun hab => ⟨key a b i j ha hb hab, ?_⟩, h4 a i ha⟩⟩
  rw [key a b i j ha hb hab, key b a j i hb ha (Ne.symm hab), hasEdge_comm, max_comm' a b, min_comm' a b]

/-- **C41**, sparse adjacency matrix: the entry in the row of `a` and the column of `b` is the weight of `(a, b)`. -/
theorem C41_sparse_adjacency {D : Type} {l : Layer} (hc : l.Consistent) (hn : l.Named) {ord : OMap NodeId Nat} (ho : l.Ordering ord)
    (ar : Arith D) (w : NodeId → NodeId → D) :
    ∃ A, l.sparseAdjacency ar ord w = .ok A ∧ A.n = ord.size ∧
      ∀ a b i j, ord.find? a = some i → ord.find? b = some j → A.at_ i j = if l.hasEdge a b = true then w a b else ar.zero := by
  have e1 := fold_sparse (l := l) (fun e x => x.siblings.keys.filterMap (fun s => (ord.find? s).map (fun j => (e.2, j, w x.id s)))) ord.toList
    (rows_nodes ho) []
  have hf : ∀ (e : NodeId × Nat) (x : Node), ∀ t ∈ x.siblings.keys.filterMap (fun s => (ord.find? s).map (fun j => (e.2, j, w x.id s))),
      t.1 = e.2 ∧ (t.2.1 = e.2 ∨ ∃ s, ord.find? s = some t.2.1) := by
    intro e x t ht
    obtain ⟨s, _, hs⟩ := List.mem_filterMap.1 ht
    obtain ⟨j, hj, rfl⟩ := Option.map_eq_some_iff.1 hs
    exact ⟨rfl, .inr ⟨s, hj⟩⟩
  unfold Layer.sparseAdjacency
  have e2 : foldRes (l.sparseRow ord w) [] ord.toList = _ := e1
  rw [e2, Res.bind_ok, List.nil_append]
  unfold Layer.fromTriplets
  rw [if_pos (entries_range ho _ hf)]
  refine ⟨_, rfl, rfl, fun a b i j ha hb => ?_⟩
  simp only
  rw [entries_row ho ha _ (fun e x t ht => (hf e x t ht).1)]
  obtain ⟨x, hx⟩ := OMap.contains_eq_true.1 (ho.node _ _ ha)
  have hx : l.findNode a = some x := hx
  simp only [hx, Option.map_some, Option.getD_some]
  rw [row_filter ho _ (OMap.keys_nodup _) hb, hn _ _ hx]
  have hm : b ∈ x.siblings.keys ↔ l.hasEdge a b = true := by rw [OMap.mem_keys]; exact hc.siblings _ _ hx b
  simp only [hm]
  by_cases he : l.hasEdge a b = true
  · simp [he]
  · simp [he]

/-- **C41**, sparse Laplacian. -/
theorem C41_sparse_laplacian {D : Type} {l : Layer} (hc : l.Consistent) (hn : l.Named) {ord : OMap NodeId Nat} (ho : l.Ordering ord)
    (ar : Arith D) (w : NodeId → NodeId → D) :
    ∃ A, l.sparseLaplacian ar ord w = .ok A ∧ A.n = ord.size ∧
      ∀ a b i j, ord.find? a = some i → ord.find? b = some j →
        (a ≠ b → A.at_ i j = if l.hasEdge a b = true then ar.neg (w a b) else ar.zero) ∧
        A.at_ i i = (ord.keys.filter (fun b => l.hasEdge a b)).foldl (fun d b => ar.add d (w a b)) ar.zero := by
  let f : NodeId × Nat → Node → List (Triplet D) := fun e x =>
    (x.siblings.keys.filter ord.contains).filterMap (fun s => (ord.find? s).map (fun j => (e.2, j, ar.neg (w x.id s)))) ++
      [(e.2, e.2, (x.siblings.keys.filter ord.contains).foldl (fun d s => ar.add d (w x.id s)) ar.zero)]
  have e1 := fold_sparse (l := l) f ord.toList (rows_nodes ho) []
  have hf : ∀ (e : NodeId × Nat) (x : Node), ∀ t ∈ f e x, t.1 = e.2 ∧ (t.2.1 = e.2 ∨ ∃ s, ord.find? s = some t.2.1) := by
    intro e x t ht
    rcases List.mem_append.1 ht with ht | ht
    · obtain ⟨s, _, hs⟩ := List.mem_filterMap.1 ht
      obtain ⟨j, hj, rfl⟩ := Option.map_eq_some_iff.1 hs
      exact ⟨rfl, .inr ⟨s, hj⟩⟩
    · rw [List.mem_singleton] at ht; subst ht; exact ⟨rfl, .inl rfl⟩
  unfold Layer.sparseLaplacian
  have e2 : foldRes (l.sparseLapRow ar ord w) [] ord.toList = .ok ([] ++ ord.toList.flatMap (fun e => ((l.findNode e.1).map (f e)).getD [])) := by
    rw [← e1]
    congr 1
    funext acc e
    unfold Layer.sparseLapRow
    congr 1
    funext x
    show Res.ok _ = Res.ok _
    rw [List.append_assoc]
  rw [e2, Res.bind_ok, List.nil_append]
  unfold Layer.fromTriplets
  rw [if_pos (entries_range ho _ hf)]
  refine ⟨_, rfl, rfl, fun a b i j ha hb => ?_⟩
  obtain ⟨x, hx⟩ := OMap.contains_eq_true.1 (ho.node _ _ ha)
  have hx : l.findNode a = some x := hx
  have hm : ∀ b, b ∈ x.siblings.keys.filter ord.contains ↔ (l.hasEdge a b = true ∧ ord.contains b = true) := fun b => by
    rw [List.mem_filter, OMap.mem_keys, hc.siblings _ _ hx b]
  have hnd : (x.siblings.keys.filter ord.contains).Nodup := (OMap.keys_nodup _).filter _
  simp only
  refine ⟨fun hab => ?_, ?_⟩
  · rw [entries_row ho ha _ (fun e x t ht => (hf e x t ht).1)]
    simp only [hx, Option.map_some, Option.getD_some, f]
    rw [List.filter_append, row_filter ho _ hnd hb, hn _ _ hx]
    have hij : ¬ i = j := fun e => hab (ho.inj _ _ _ ha (e ▸ hb))
    have hcb : ord.contains b = true := OMap.contains_eq_true.2 ⟨_, hb⟩
    simp only [hm, hcb, and_true]
    by_cases he : l.hasEdge a b = true
    · simp [he, hij]
    · simp [he, hij]
  · rw [entries_row ho ha _ (fun e x t ht => (hf e x t ht).1)]
    simp only [hx, Option.map_some, Option.getD_some, f]
    rw [List.filter_append, row_filter ho _ hnd ha, hn _ _ hx]
    have : ¬ (l.hasEdge a a = true ∧ ord.contains a = true) := fun h => (hc.ends a a h.1).1 rfl
    simp only [hm, this, if_false]
    rw [rowSiblings_eq hc hx]
    simp [rowSiblings]

/-- So for a weight function that does not depend on the direction, sparse and dense matrices agree. -/
theorem C41_sparse_is_dense {D : Type} {l : Layer} (hc : l.Consistent) (hn : l.Named) {ord : OMap NodeId Nat} (ho : l.Ordering ord)
    (ar : Arith D) (w : NodeId → NodeId → D) (hw : ∀ a b, w a b = w b a) :
    ∃ A B L M, l.adjacencyMatrix ar ord w = .ok A ∧ l.sparseAdjacency ar ord w = .ok B ∧ l.laplacian ar ord w = .ok L ∧
      l.sparseLaplacian ar ord w = .ok M ∧
      ∀ a b i j, ord.find? a = some i → ord.find? b = some j → A.at_ i j = B.at_ i j ∧ L.at_ i j = M.at_ i j := by
  obtain ⟨A, a1, _, a2⟩ := C41_adjacency hc hn ho ar w
  obtain ⟨B, b1, _, b2⟩ := C41_sparse_adjacency hc hn ho ar w
  obtain ⟨L, l1, _, l2⟩ := C41_laplacian hc hn ho ar w
  obtain ⟨M, m1, _, m2⟩ := C41_sparse_laplacian hc hn ho ar w
  refine ⟨A, B, L, M, a1, b1, l1, m1, fun a b i j ha hb => ⟨?_, ?_⟩⟩
  · rw [(a2 a b i j ha hb).1, b2 a b i j ha hb, weight_sym hw]
  · by_cases hab : a = b
    · subst hab
      have : i = j := by rw [ha] at hb; exact Option.some.inj hb
      subst this
      rw [(l2 a a i i ha ha).2, (m2 a a i i ha ha).2]
    · rw [((l2 a b i j ha hb).1 hab).1, (m2 a b i j ha hb).1 hab, weight_sym hw]

/-- Every static layer of a graph built by the API files nodes under their ids. -/
theorem Reached.layer_named {ids : List LayerId} {ops : List Op} {g : Graph} (h : Reached ids ops g) {i : LayerId} {l : Layer}
    (hl : g.layerFromKey (.static i) = .ok (.static l)) : l.Named := by
  obtain ⟨hr, hw⟩ := h.rep
  have hb := Graph.layerFromKey_iff.1 hl
  intro n x hx
  have : l.findNode n = ((Spec.init ids).after ops).nodeRec (.static i) n := by
    rw [← hr.node, Graph.view_node_of_layerAt? hb]; rfl
  rw [this] at hx
  unfold Spec.nodeRec at hx
  cases hj : ((Spec.init ids).after ops).nodes.find? n with
  | none => rw [hj] at hx; cases hx
  | some j =>
    rw [hj, Option.bind_some] at hx
    split at hx
    · cases hx; rfl
    · cases hx

/-- **C41** for a layer of a graph built by any sequence of API calls. -/
theorem C41_graph {ids : List LayerId} {ops : List Op} {g : Graph} (h : Reached ids ops g) {k : LayerId} {l : Layer}
    (hl : g.layerFromKey (.static k) = .ok (.static l)) (hx : ∀ n, l.hasNode n = true → g.CrossFree n) {ord : OMap NodeId Nat}
    (ho : l.Ordering ord) {D : Type} (ar : Arith D) (w : NodeId → NodeId → D) (hw : ∀ a b, w a b = w b a) :
    ∃ A L, l.adjacencyMatrix ar ord w = .ok A ∧ l.laplacian ar ord w = .ok L ∧
      ∀ a b i j, ord.find? a = some i → ord.find? b = some j →
        A.at_ i j = (if l.hasEdge a b = true then w a b else ar.zero) ∧
        (a ≠ b → L.at_ i j = (if l.hasEdge a b = true then ar.neg (w a b) else ar.zero)) ∧
        L.at_ i i = (ord.keys.filter (fun b => l.hasEdge a b)).foldl (fun d b => ar.add d (w a b)) ar.zero := by
  have hc := h.layer_consistent hl hx
  have hn := h.layer_named hl
  obtain ⟨A, a1, _, a2⟩ := C41_adjacency hc hn ho ar w
  obtain ⟨L, l1, _, l2⟩ := C41_laplacian hc hn ho ar w
  refine ⟨A, L, a1, l1, fun a b i j ha hb => ⟨?_, fun hab => ?_, (l2 a b i j ha hb).2⟩⟩
  · rw [(a2 a b i j ha hb).1, weight_sym hw]
  · rw [((l2 a b i j ha hb).1 hab).1, weight_sym hw]

/-! ### A sample: rows for four of the five nodes of the sample layer, weights that depend on the direction -/

def Sample.ord : OMap NodeId Nat := (((OMap.empty.insert 8 0).insert 1 3).insert 5 1).insert 6 2
def Sample.arith : Arith Int := ⟨0, fun x => -x, fun x y => x + y⟩
def Sample.weight (a b : NodeId) : Int := 10 * a.toNat + b.toNat

theorem Sample.layer_named : Sample.layer.Named := by
  have h : ∀ e ∈ Sample.layer.nodes.toList, e.2.id = e.1 := by decide +kernel
  intro n x hx
  exact h (n, x) (OMap.mem_toList.2 hx)

theorem Sample.ordering : Sample.layer.Ordering Sample.ord := by
  have h : ∀ e ∈ Sample.ord.toList, Sample.layer.hasNode e.1 = true ∧ e.2 < Sample.ord.size ∧ ∀ f ∈ Sample.ord.toList, e.2 = f.2 → e.1 = f.1 := by
    decide +kernel
  refine ⟨fun a i ha => (h (a, i) (OMap.mem_toList.2 ha)).1, fun a i ha => (h (a, i) (OMap.mem_toList.2 ha)).2.1,
    fun a b i ha hb => (h (a, i) (OMap.mem_toList.2 ha)).2.2 (b, i) (OMap.mem_toList.2 hb) rfl⟩

example : Sample.layer.Consistent ∧ Sample.layer.Named ∧ Sample.layer.Ordering Sample.ord :=
  ⟨Sample.layer_consistent, Sample.layer_named, Sample.ordering⟩

/-- rows: 8, 5, 6, 1; edges 1-8, 1-5 and 5-6 among them -/
example : (Sample.layer.laplacian Sample.arith Sample.ord Sample.weight >>= fun A => .ok ((List.range 4).map (fun i => (List.range 4).map (A.at_ i)))) =
    .ok [[81, 0, 0, -81], [0, 107, -65, -51], [0, -65, 65, 0], [-81, -51, 0, 33]] := by
  decide +kernel

example : (Sample.layer.sparseAdjacency Sample.arith Sample.ord Sample.weight >>= fun A => .ok ((List.range 4).map (fun i => (List.range 4).map (A.at_ i)))) =
    .ok [[0, 0, 0, 81], [0, 0, 56, 51], [0, 65, 0, 0], [18, 15, 0, 0]] := by
  decide +kernel

/-- Two nodes with the same row overwrite each other: the ordering must be injective ("TODO think about verifying ordering"). -/
theorem C41_shared_row : ∃ (ord : OMap NodeId Nat), (∀ a i, ord.find? a = some i → Sample.layer.hasNode a = true ∧ i < ord.size) ∧
    (Sample.layer.adjacencyMatrix Sample.arith ord Sample.weight >>= fun A => .ok (A.at_ 0 0)) = .ok 81 := by
  refine ⟨(OMap.empty.insert 8 0).insert 1 0, ?_, by decide +kernel⟩
  have h : ∀ e ∈ ((OMap.empty.insert 8 0).insert 1 0 : OMap NodeId Nat).toList, Sample.layer.hasNode e.1 = true ∧
      e.2 < ((OMap.empty.insert 8 0).insert 1 0 : OMap NodeId Nat).size := by decide +kernel
  exact fun a i ha => h (a, i) (OMap.mem_toList.2 ha)

end Verif
