import Verif.Lemmas.Cut2
import Verif.Lemmas.Receive2
/-! # Applying a message that was cut short -/

namespace Verif

/-- Every state on the way satisfies `I`. -/
def Along (I : Graph → Prop) (G : Graph) (ops : List Op) : Prop :=
  ∀ a b G1 outs, ops = a ++ b → G.run a = .ok (G1, outs) → I G1

namespace Along
variable {I : Graph → Prop} {G G1 : Graph} {x y : List Op} {o : List Out}

theorem here (h : Along I G x) : I G := h [] x G [] rfl rfl
theorem left (h : Along I G (x ++ y)) : Along I G x := fun a b G1 outs e r => h a (b ++ y) G1 outs (by rw [e, List.append_assoc]) r
theorem right (h : Along I G (x ++ y)) (hr : G.run x = .ok (G1, o)) : Along I G1 y := by
  intro a b G2 outs e r
  refine h (x ++ a) b G2 (o ++ outs) (by rw [e, List.append_assoc]) ?_
  rw [Graph.run_append, hr]
  simp only [Res.bind_ok, r]
theorem cons {op : Op} {out : Out} (h : Along I G (op :: y)) (hs : G.step op = .ok (G1, out)) : Along I G1 y :=
  right (x := [op]) h (o := [out]) (by simp only [Graph.run, hs, Res.bind_ok])
theorem last (h : Along I G x) (hr : G.run x = .ok (G1, o)) : I G1 := h x [] G1 o (by simp) hr
end Along

namespace Upd
variable {α β S X : Type} {E E' : Env} {I : Graph → Prop}

/-- The outcome on the short buffer: the value and the graph expected of the whole message, or an exception, not a failed assertion, and a
graph that satisfies `I`. -/
def Half (E : Env) (I : Graph → Prop) (q : Nat) (a : α) (G' : Graph) : Thru Graph (α × Nat) → Prop
  | .ok x g => x = (a, q) ∧ g = G' ∧ q ≤ E.buf.length
  | .throw e g => e ≠ .abort ∧ I g
  | .ub => False

/-- Reading on the short buffer `E` what was written to the whole buffer `E'`. -/
def Tr (E E' : Env) (I : Graph → Prop) (w : Wr) (m : Upd α) (a : α) (G G' : Graph) : Prop :=
  ∀ bs pre post, w = .ok bs → E'.buf = pre ++ bs ++ post → pre.length ≤ E.buf.length → Half E I (pre.length + bs.length) a G' (m E pre.length G)

theorem Tr.rd {w : Wr} {r : Rd α} {a : α} {G : Graph} {d : Nat} (h : Rd.RT E' w r a) (hc : Rd.Cut E E' d r) (hI : I G) : Tr E E' I w (Upd.rd r) a G G := by
  intro bs pre post hw hb hp
  have h1 := h bs pre post hw hb
  have h2 := hc _ hp
  rw [h1] at h2
  simp only [Upd.rd, Act.read]
  cases e : r E pre.length with
  | ok x =>
    rw [e] at h2
    obtain ⟨x, q⟩ := x
    obtain ⟨e1, _, e3⟩ := h2
    cases e1
    exact ⟨rfl, rfl, e3⟩
  | throw x =>
    rw [e] at h2
    refine ⟨fun hx => ?_, hI⟩
    cases h2 hx
  | ub => rw [e] at h2; cases h2

theorem Tr.bind {w w' : Wr} {m : Upd α} {k : α → Upd β} {a : α} {b : β} {G G1 G' : Graph} (h : Tr E E' I w m a G G1) (h' : Tr E E' I w' (k a) b G1 G') :
    Tr E E' I (w.seq w') (m >>= k) b G G' := by
  intro bs pre post hw hb hp
  obtain ⟨b1, b2, h1, h2, rfl⟩ := Rd.seq_ok hw
  have x1 := h b1 pre (b2 ++ post) h1 (by simpa using hb) hp
  show Half E I _ b G' ((m E pre.length >>= fun x => k x.1 E x.2) G)
  cases e : m E pre.length G with
  | ok x g =>
    rw [e] at x1
    obtain ⟨e1, e2, e3⟩ := x1
    subst e1 e2
    rw [Act.bind_ok e]
    have x2 := h' b2 (pre ++ b1) post h2 (by simpa using hb) (by simpa using e3)
    simp only [List.length_append] at x2 ⊢
    rw [← Nat.add_assoc]
    exact x2
  | throw x g => rw [e] at x1; rw [Act.bind_throw e]; exact x1
  | ub => rw [e] at x1; exact x1.elim

/-- A step that reads nothing. -/
theorem Tr.skip {w : Wr} {m : Upd α} {k : α → Upd β} {a : α} {b : β} {G G1 G' : Graph} (h : ∀ p, m E p G = .ok (a, p) G1) (h' : Tr E E' I w (k a) b G1 G') :
    Tr E E' I w (m >>= k) b G G' := by
  intro bs pre post hw hb hp
  show Half E I _ b G' ((m E pre.length >>= fun x => k x.1 E x.2) G)
  rw [Act.bind_ok (h pre.length)]
  exact h' bs pre post hw hb hp

theorem Tr.last {w : Wr} {m : Upd α} {k : α → Upd β} {a : α} {b : β} {G G1 G' : Graph} (h : Tr E E' I w m a G G1) (h' : ∀ p, k a E p G1 = .ok (b, p) G') :
    Tr E E' I w (m >>= k) b G G' := by
  intro bs pre post hw hb hp
  have x1 := h bs pre post hw hb hp
  show Half E I _ b G' ((m E pre.length >>= fun x => k x.1 E x.2) G)
  cases e : m E pre.length G with
  | ok x g =>
    rw [e] at x1
    obtain ⟨e1, e2, e3⟩ := x1
    subst e1 e2
    rw [Act.bind_ok e, h']
    exact ⟨rfl, rfl, e3⟩
  | throw x g => rw [e] at x1; rw [Act.bind_throw e]; exact x1
  | ub => rw [e] at x1; exact x1.elim

theorem act_ok {m : Act Graph α} {G G' : Graph} {a : α} (h : m.res G = .ok (G', a)) (p : Nat) : Upd.act m E p G = .ok (a, p) G' := by
  have : m G = .ok a G' := by
    unfold Act.res at h
    cases e : m G with
    | ok x g => rw [e] at h; cases h; rfl
    | throw x g => rw [e] at h; cases h
    | ub => rw [e] at h; cases h
  show (m >>= fun a => (Pure.pure (a, p) : Act Graph _)) G = _
  rw [Act.bind_ok this]
  rfl

/-! ## Loops -/

/-- What the items of a dynamic array do to the state of the reading loop and to the graph. -/
inductive LoopT (E E' : Env) (I : Graph → Prop) (f : X → Wr) (body : S → Upd S) : S → Graph → List X → S → Graph → Prop
  | nil (s : S) (G : Graph) : I G → LoopT E E' I f body s G [] s G
  | cons {s s' s'' : S} {G G' G'' : Graph} {x : X} {xs : List X} (hI : I G) (h : Tr E E' I (f x) (body s) s' G G') (hn : Rd.NotHead Pack.arrEnd (f x))
      (t : LoopT E E' I f body s' G' xs s'' G'') : LoopT E E' I f body s G (x :: xs) s'' G''

theorem LoopT.notHead {f : X → Wr} {body : S → Upd S} {s s' : S} {G G' : Graph} {xs : List X} (h : LoopT E E' I f body s G xs s' G') :
    ∀ x ∈ xs, Rd.NotHead Pack.arrEnd (f x) := by
  induction h with
  | nil s => simp
  | cons _ _ hn _ ih =>
    intro y hy
    rcases List.mem_cons.1 hy with rfl | hy
    · exact hn
    · exact ih y hy

theorem LoopT.init {f : X → Wr} {body : S → Upd S} {s s' : S} {G G' : Graph} {xs : List X} (h : LoopT E E' I f body s G xs s' G') : I G := by
  cases h <;> assumption

theorem Half.of_end {q : Nat} {b : Bool} (H : Rd.Ext E E') {p : Nat} {G : Graph} (hI : I G) (hp : p ≤ E.buf.length) (h : Rd.dynEnd E' p = .ok (b, q)) :
    Half E I q b G (Upd.rd Rd.dynEnd E p G) := by
  have h2 := Rd.Cut.dynEnd H p hp
  rw [h] at h2
  simp only [Upd.rd, Act.read]
  cases e : Rd.dynEnd E p with
  | ok x =>
    rw [e] at h2
    obtain ⟨x, q⟩ := x
    obtain ⟨e1, _, e3⟩ := h2
    cases e1
    exact ⟨rfl, rfl, e3⟩
  | throw x =>
    rw [e] at h2
    refine ⟨fun hx => ?_, hI⟩
    cases h2 hx
  | ub => rw [e] at h2; cases h2

theorem Half.bind {q q' : Nat} {m : Act Graph (α × Nat)} {k : α × Nat → Act Graph (β × Nat)} {a : α} {b : β} {G G1 G' : Graph}
    (h : Half E I q a G1 (m G)) (h' : q ≤ E.buf.length → Half E I q' b G' (k (a, q) G1)) : Half E I q' b G' ((m >>= k) G) := by
  cases e : m G with
  | ok x g =>
    rw [e] at h
    obtain ⟨e1, e2, e3⟩ := h
    subst e1 e2
    rw [Act.bind_ok e]
    exact h' e3
  | throw x g => rw [e] at h; rw [Act.bind_throw e]; exact h
  | ub => rw [e] at h; exact h.elim

theorem Tr.dynLoop (H : Rd.Ext E E') {f : X → Wr} {body : S → Upd S} {s s' : S} {G G' : Graph} {xs : List X} (h : LoopT E E' I f body s G xs s' G') :
    ∀ bs pre post, Wr.seq (Wr.all f xs) (Wr.type Pack.arrEnd) = .ok bs → E'.buf = pre ++ bs ++ post → pre.length ≤ E.buf.length →
      ∀ fuel, E.buf.length < pre.length + fuel → Half E I (pre.length + bs.length) s' G' (Upd.dynLoop body fuel s E pre.length G) := by
  induction h with
  | nil s G hI =>
    intro bs pre post hw hb hp fuel hf
    obtain ⟨n, rfl⟩ : ∃ n, fuel = n + 1 := ⟨fuel - 1, by omega⟩
    obtain ⟨b1, b2, h1, h2, rfl⟩ := Rd.seq_ok hw
    cases h1
    cases h2
    simp only [List.nil_append] at hb ⊢
    unfold Upd.dynLoop
    refine Half.bind (Half.of_end H (q := pre.length + 1) (b := true) hI hp ?_) (fun h' => ?_)
    · unfold Rd.dynEnd
      rw [Rd.bind_apply, Rd.currType_spec (rest := []) hb]
      simp [Rd.advance, Rd.bind_apply, Rd.pure_apply]
    · exact ⟨rfl, rfl, h'⟩
  | @cons s s' s'' G G1 G2 x xs hI hx hn _ ih =>
    intro bs pre post hw hb hp fuel hf
    obtain ⟨n, rfl⟩ : ∃ n, fuel = n + 1 := ⟨fuel - 1, by omega⟩
    obtain ⟨b1, b2, h1, h2, rfl⟩ := Rd.seq_ok hw
    obtain ⟨c1, c2, h3, h4, rfl⟩ := Rd.seq_ok h1
    obtain ⟨b, rest, rfl, hne⟩ := hn c1 h3
    unfold Upd.dynLoop
    refine Half.bind (Half.of_end H (q := pre.length) (b := false) hI hp ?_) (fun h' => ?_)
    · unfold Rd.dynEnd
      rw [Rd.bind_apply, Rd.currType_spec (rest := rest ++ c2 ++ b2) (by simpa using hb)]
      simp only [Res.bind_ok, ne_eq, hne, not_false_eq_true, if_true, Rd.pure_apply]
    · have y1 := hx (b :: rest) pre (c2 ++ b2 ++ post) h3 (by simpa using hb) hp
      refine Half.bind (m := body s E pre.length) y1 (fun h' => ?_)
      have := ih (c2 ++ b2) (pre ++ b :: rest) post (by rw [h4, h2]; rfl) (by simpa using hb) (by simp only [List.length_append]; exact h') n
        (by simp only [List.length_append, List.length_cons]; omega)
      simp only [List.length_append, List.length_cons] at this ⊢
      have e : pre.length + (rest.length + 1 + c2.length + b2.length) = pre.length + (rest.length + 1) + (c2.length + b2.length) := by omega
      rw [e]
      exact this

theorem Tr.dynArr (H : Rd.Ext E E') {f : X → Wr} {body : S → Upd S} {s s' : S} {G G' : Graph} {xs : List X} (h : LoopT E E' I f body s G xs s' G') :
    Tr E E' I (Wr.dynArr f xs) (Upd.dynArr body s) s' G G' := by
  unfold Upd.dynArr
  refine Tr.bind (Tr.rd (Rd.RT.checkType Pack.arrStart) (Rd.Cut.checkType H _) h.init) ?_
  refine Tr.skip (a := E) (fun p => rfl) ?_
  intro bs pre post hw hb hp
  exact Tr.dynLoop H h bs pre post hw hb hp _ (by omega)
end Upd
end Verif
