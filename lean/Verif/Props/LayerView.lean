import Verif.Model.Views
import Verif.Props.Layer
/-! # C42: filtered views of a layer -/

namespace Verif
namespace LayerView

/-- The filter accepts the node (an empty filter accepts everything). -/
def accepts (f : Option (Node → Bool)) (x : Node) : Bool :=
  match f with
  | none => true
  | some f => f x

theorem valid_cons (f : Option (Node → Bool)) (e : NodeId × Node) (l : ViewIter) : valid f (e :: l) = accepts f e.2 := rfl

theorem filter_next (f : Option (Node → Bool)) (e : NodeId × Node) (l : ViewIter) :
    (next f (e :: l)).filter (fun e => accepts f e.2) = l.filter (fun e => accepts f e.2) ∧ (next f (e :: l)).length ≤ l.length ∧
      (next f (e :: l) = [] ∨ valid f (next f (e :: l)) = true) := by
  induction l generalizing e with
  | nil => simp [next]
  | cons d l ih =>
    unfold next
    by_cases h : valid f (d :: l) = true
    · simp [h]
    · have h' : accepts f d.2 = false := by simpa [valid_cons] using h
      obtain ⟨h1, h2, h3⟩ := ih d
      simp only [h, List.cons_ne_nil, if_false, Bool.false_eq_true]
      refine ⟨?_, by simp only [List.length_cons]; omega, h3⟩
      rw [h1, List.filter_cons, h']; rfl

theorem visit_eq (f : Option (Node → Bool)) (n : Nat) (it : ViewIter) (hn : it.length ≤ n) (hv : it = [] ∨ valid f it = true) :
    visit f n it = (it.filter (fun e => accepts f e.2)).map Prod.snd := by
  induction n generalizing it with
  | zero =>
    cases it with
    | nil => rfl
    | cons e l => simp at hn
  | succ n ih =>
    cases it with
    | nil => rfl
    | cons e l =>
      obtain ⟨h1, h2, h3⟩ := filter_next f e l
      have hv' : accepts f e.2 = true := by
        rcases hv with h | h
        · cases h
        · exact h
      unfold visit
      rw [ih (next f (e :: l)) (by simp only [List.length_cons] at hn; omega) h3, h1, List.filter_cons, hv']
      rfl
end LayerView

/-- **C42.** Iterating over a view visits exactly the nodes of the layer that its filter accepts, in order of their ids and each once (the
node map has one entry per id); a view without filter visits all of them. -/
theorem C42_view (l : Layer) (f : Option (Node → Bool)) :
    ∃ out, LayerView.nodes ⟨some l, f⟩ = .ok out ∧ out = (l.nodes.toList.filter (fun e => LayerView.accepts f e.2)).map Prod.snd ∧
      (∀ x, x ∈ out ↔ (∃ n, l.findNode n = some x) ∧ LayerView.accepts f x = true) ∧
      ((∀ n x, l.findNode n = some x → x.id = n) → out.Pairwise (fun x y => x.id < y.id)) := by
  have key : LayerView.nodes ⟨some l, f⟩ = .ok ((l.nodes.toList.filter (fun e => LayerView.accepts f e.2)).map Prod.snd) := by
    unfold LayerView.nodes LayerView.begin
    simp only [Res.bind_ok]
    congr 1
    cases h : l.nodes.toList with
    | nil => simp [LayerView.valid, LayerView.next, LayerView.visit]
    | cons e rest =>
      by_cases hv : LayerView.valid f (e :: rest) = true
      · simp only [hv, if_true]
        exact LayerView.visit_eq f _ _ (Nat.le_refl _) (.inr hv)
      · simp only [hv, if_false, Bool.false_eq_true]
        obtain ⟨h1, h2, h3⟩ := LayerView.filter_next f e rest
        rw [LayerView.visit_eq f _ _ (Nat.le_refl _) h3, h1, List.filter_cons]
        have : LayerView.accepts f e.2 = false := by simpa [LayerView.valid_cons] using hv
        rw [this]; rfl
  refine ⟨_, key, rfl, ?_, ?_⟩
  · intro x
    simp only [List.mem_map, List.mem_filter]
    constructor
    · rintro ⟨⟨n, y⟩, ⟨h1, h2⟩, rfl⟩; exact ⟨⟨n, OMap.mem_toList.1 h1⟩, h2⟩
    · rintro ⟨⟨n, h1⟩, h2⟩; exact ⟨(n, x), ⟨OMap.mem_toList.2 h1, h2⟩, rfl⟩
  · intro hid
    have hs := OMap.keys_sorted l.nodes
    unfold OMap.keys at hs
    rw [List.pairwise_map] at hs
    rw [List.pairwise_map]
    refine List.Pairwise.imp_of_mem ?_ (hs.filter _)
    intro a b ha hb h
    have ha' := OMap.mem_toList.1 (show (a.1, a.2) ∈ l.nodes.toList from (List.mem_filter.1 ha).1)
    have hb' := OMap.mem_toList.1 (show (b.1, b.2) ∈ l.nodes.toList from (List.mem_filter.1 hb).1)
    rw [hid a.1 a.2 ha', hid b.1 b.2 hb']
    simpa [OKey.lt] using h

/-- A default-constructed view has no layer; iterating over it follows a null pointer. -/
theorem C42_default_view : ∃ v : LayerView, v.layer = none ∧ v.nodes = .ub := ⟨⟨none, none⟩, rfl, rfl⟩

example : (LayerView.nodes ⟨some Sample.layer, some (fun x => x.siblings.size == 1)⟩ >>= fun l => .ok (l.map (·.id))) = .ok [2, 6, 8] ∧
    (LayerView.nodes ⟨some Sample.layer, none⟩ >>= fun l => .ok (l.map (·.id))) = .ok [1, 2, 5, 6, 8] := by decide +kernel

end Verif
