import Verif.FuncCutLemmas
import Verif.FuncTellProps
/-! # C64, C65: documents in functional syntax that are cut short -/
namespace Cowl
open Change Func Prefix FuncCut

/-- C64: what follows an accepted document is never taken as a part of it. The handler is told
the same, and the text is accepted as well, or else rejected. -/
theorem C64_more {σ : Type} (h : Callback σ Item) (m : PMap) (addr : Nat) (t u : Str) (s s' : σ) (ht : funcRead h m addr t s = (s', .ok)) :
    funcRead h m addr (t ++ u) s = (s', .ok) ∨ funcRead h m addr (t ++ u) s = (s', .rejected) := by
  obtain ⟨Y, -, e⟩ := funcRead_more (u := u) ht
  rw [e]
  by_cases hY : Y = []
  · rw [if_pos hY]; exact .inl rfl
  · rw [if_neg hY]; exact .inr rfl

/-- C64: a document that is cut short is never accepted in place of the document: if both are
accepted, the handler ends in the same state. -/
theorem C64_cut {σ : Type} (h : Callback σ Item) (m : PMap) (addr : Nat) (t u : Str) (s s1 s2 : σ)
    (h1 : funcRead h m addr t s = (s1, .ok)) (h2 : funcRead h m addr (t ++ u) s = (s2, .ok)) : s1 = s2 := by
  rcases C64_more h m addr t u s s1 h1 with e | e <;> rw [e] at h2 <;> cases h2
  rfl

/-- C64, for two handlers: a handler that takes notes next to another one. Whatever the handler
makes of the items, a cut that is accepted leaves out no item. -/
theorem C64_items {σ : Type} (h : Callback σ Item) (m : PMap) (addr : Nat) (t u : Str) (s : σ) (s' : σ × List Item)
    (ht : funcRead (taking h) m addr t (s, []) = (s', .ok)) : (funcRead (taking h) m addr (t ++ u) (s, [])).1 = s' := by
  rcases C64_more (taking h) m addr t u (s, []) s' ht with e | e <;> rw [e]

/-- C65, but for the name of the ontology: what is told about a beginning of a text is told about
the whole text. -/
theorem C65_partial (m : PMap) (addr : Nat) (t u : Str) : CutOf (funcRead noting m addr t []) (funcRead noting m addr (t ++ u) []) :=
  funcRead_cut m addr t u

/-- C65: if the last thing told about the beginning is not a name, then nothing is missing in the
statement. -/
theorem C65_body (m : PMap) (addr : Nat) (t u : Str) (l : List Item) (x : Item) (hx : ¬ IsName x)
    (hl : (funcRead noting m addr t []).1 = l ++ [x]) : l ++ [x] <+: (funcRead noting m addr (t ++ u) []).1 := by
  obtain ⟨a, ids, h1, h2, h3, -⟩ := C65_partial m addr t u
  rcases List.eq_nil_or_concat ids with hn | ⟨L, b, hc⟩
  · subst hn
    rw [hl, List.append_nil] at h1
    rw [h1]
    exact h2
  · exfalso
    rw [List.concat_eq_append] at hc
    subst hc
    rw [hl, ← List.append_assoc] at h1
    have : x = b := by
      have := congrArg List.getLast? h1
      simpa using this
    exact hx (this ▸ h3 b (by simp))

/-- C65, accepted beginnings: nothing is missing in the statement. -/
theorem C65_accepted (m : PMap) (addr : Nat) (t u : Str) (hr : (funcRead noting m addr t []).2 = .ok) :
    (funcRead noting m addr t []).1 <+: (funcRead noting m addr (t ++ u) []).1 := by
  obtain ⟨a, ids, h1, h2, -, h4⟩ := C65_partial m addr t u
  rcases h4 with rfl | h4
  · rw [h1, List.append_nil]; exact h2
  · rw [h4] at hr; cases hr

/-- The names among the items. -/
def namesOf : List Item → List Iri
  | .iri i :: l => i :: namesOf l
  | .version i :: l => i :: namesOf l
  | _ :: l => namesOf l
  | [] => []

theorem namesOf_prefix {a b : List Item} (h : a <+: b) : namesOf a <+: namesOf b := by
  obtain ⟨c, rfl⟩ := h
  induction a with
  | nil => exact List.nil_prefix
  | cons x a ih =>
    cases x with
    | iri i => exact List.prefix_cons_inj i |>.2 ih
    | version i => exact List.prefix_cons_inj i |>.2 ih
    | prefixDecl _ _ | «import» _ | annot _ | ax _ => exact ih

/-- C65 is false as stated: a text that is cut within the name of the ontology tells another name. -/
theorem C65_fails : ∃ (m : PMap) (addr : Nat) (t u : Str),
    (funcRead noting m addr (t ++ u) []).2 = .ok ∧ namesOf (funcRead noting m addr (t ++ u) []).1 = [⟨owlNs, ascii "ab"⟩] ∧
    (funcRead noting m addr t []).2 = .rejected ∧ namesOf (funcRead noting m addr t []).1 = [⟨owlNs, ascii "a"⟩] ∧
    ¬ (funcRead noting m addr t []).1 <+: (funcRead noting m addr (t ++ u) []).1 := by
  have h1 : namesOf (funcRead noting (create [1, 2, 3, 4] []) 9 (ascii "Ontology(owl:a" ++ ascii "b)") []).1 = [⟨owlNs, ascii "ab"⟩] := by decide +kernel
  have h2 : namesOf (funcRead noting (create [1, 2, 3, 4] []) 9 (ascii "Ontology(owl:a") []).1 = [⟨owlNs, ascii "a"⟩] := by decide +kernel
  refine ⟨create [1, 2, 3, 4] [], 9, ascii "Ontology(owl:a", ascii "b)", by decide +kernel, h1, by decide +kernel, h2, fun h => ?_⟩
  have := namesOf_prefix h
  rw [h1, h2] at this
  revert this
  decide +kernel

/-- A document that is accepted, and followed by blanks and a comment, or by a parenthesis. -/
example : funcRead (answers .ok .ok) (create [1, 2, 3, 4] []) 9 versioned [] = ([0, 1, 2, 3], .ok) ∧
    funcRead (answers .ok .ok) (create [1, 2, 3, 4] []) 9 (versioned ++ ascii "  # end\n") [] = ([0, 1, 2, 3], .ok) ∧
    funcRead (answers .ok .ok) (create [1, 2, 3, 4] []) 9 (versioned ++ ascii ")") [] = ([0, 1, 2, 3], .rejected) := by
  refine ⟨?_, ?_, ?_⟩ <;> decide +kernel

/-- A document that is cut after one of two axioms: the last thing told is not a name. -/
example : ∃ t u : Str, ∃ l x, ¬ IsName x ∧ (funcRead noting (create [1, 2, 3, 4] []) 9 t []).1 = l ++ [x] ∧
    (funcRead noting (create [1, 2, 3, 4] []) 9 t []).2 = .rejected ∧ (funcRead noting (create [1, 2, 3, 4] []) 9 (t ++ u) []).2 = .ok := by
  have one : ∀ l : List Item, (match l with | [.import _] => true | _ => false) = true → ∃ i, l = [.import i] := by
    intro l h
    split at h
    · exact ⟨_, rfl⟩
    · cases h
  obtain ⟨i, hi⟩ := one (funcRead noting (create [1, 2, 3, 4] []) 9 (ascii "Ontology(Import(<a:b>)Declaration(Cl") []).1 (by decide +kernel)
  exact ⟨ascii "Ontology(Import(<a:b>)Declaration(Cl", ascii "ass(owl:C)))", [], .import i, id, hi, by decide +kernel, by decide +kernel⟩

end Cowl
