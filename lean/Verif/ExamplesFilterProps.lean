import Verif.ExamplesProps
import Verif.FuncDocLemmas
/-! # C100: the example program that collects axioms with a filter -/
namespace Cowl
open Ast Func OntoSpec IterSpec Examples

/-- What the program says it looks for: axioms `SubClassOf` and `EquivalentClasses` that mention the class and the
property. -/
def Wanted (c p : Iri) (a : Ref) : Prop :=
  (a.obj.otype = .aSubClass ∨ a.obj.otype = .aEquivClasses) ∧ 0 < times (.ent .cls c) a.obj ∧ 0 < times (.ent .objProp p) a.obj

instance (c p : Iri) (a : Ref) : Decidable (Wanted c p a) := by unfold Wanted; infer_instance

theorem advancedFilter_eq (c p : Iri) : advancedFilter c p = ⟨6#64, [.ent .cls c, .ent .objProp p], none⟩ := by
  simp [advancedFilter, Filter.addPrimitive, afSubClass, afEquivClasses]

theorem wanted_iff (c p : Iri) (a : Ref) : Matches (advancedFilter c p) a ↔ Wanted c p a := by
  rw [advancedFilter_eq]
  unfold Matches Wanted
  have h1 : (∃ t, t < 37 ∧ OfType t a ∧ (6#64).getLsbD t = true) ↔ (a.obj.otype = .aSubClass ∨ a.obj.otype = .aEquivClasses) := by
    unfold OfType
    have hb : ∀ t, t < 37 → ((6#64).getLsbD t = true ↔ t = 1 ∨ t = 2) := by decide +kernel
    have hc : ∀ x : OType, (x.code = OType.aDecl.code + 1 ↔ x = .aSubClass) ∧ (x.code = OType.aDecl.code + 2 ↔ x = .aEquivClasses) := by
      intro x; cases x <;> decide
    constructor
    · rintro ⟨t, ht, hx, hy⟩
      rcases (hb t ht).1 hy with rfl | rfl
      · exact .inl ((hc _).1.1 hx)
      · exact .inr ((hc _).2.1 hx)
    · rintro (h | h)
      · exact ⟨1, by decide, (hc _).1.2 h, by decide⟩
      · exact ⟨2, by decide, (hc _).2.2 h, by decide⟩
  have h3 : Accepts (none : Option (Ref → Bool)) a ↔ True := Iff.rfl
  constructor
  · rintro ⟨x, y, -⟩
    exact ⟨h1.1 x, y _ (by simp), y _ (by simp)⟩
  · rintro ⟨x, y, z⟩
    refine ⟨h1.2 x, fun q hq => ?_, trivial⟩
    simp only [List.mem_cons, List.not_mem_nil, or_false] at hq
    rcases hq with rfl | rfl <;> assumption

/-- What a set iterator holds at the end: the longest part of the visits without a repetition. -/
theorem run_set {eq : Ref → Ref → Bool} {v : List Ref} {s s' : List Ref} {r : Ret} (h : Run (storeSetCb eq) v s s' r)
    (hs : s.Pairwise fun x y => eq x y = false) :
    (s'.Pairwise fun x y => eq x y = false) ∧ ∃ w, s' = s ++ w ∧ w <+: v ∧
      (w = v ∨ ∃ x, w ++ [x] <+: v ∧ ∃ y ∈ s', eq y x = true) := by
  induction h with
  | done s => exact ⟨hs, [], by simp, List.nil_prefix, .inl rfl⟩
  | @stop x xs s s' r h hr =>
    unfold storeSetCb at h
    split at h
    · rename_i hx
      cases h
      refine ⟨hs, [], by simp, List.nil_prefix, .inr ⟨x, ?_, ?_⟩⟩
      · exact ⟨xs, rfl⟩
      · simpa using hx
    · cases h; exact absurd rfl hr
  | @go x xs s s1 s2 r h hs' ih =>
    unfold storeSetCb at h
    split at h
    · cases h
    · rename_i hx
      cases h
      have hx' : ∀ y ∈ s, eq y x = false := by simpa using hx
      obtain ⟨h1, w, h2, h3, h4⟩ := ih (by
        rw [List.pairwise_append]
        exact ⟨hs, List.pairwise_singleton _ _, fun y hy z hz => by rw [List.mem_singleton.1 hz]; exact hx' y hy⟩)
      refine ⟨h1, x :: w, by rw [h2]; simp, (List.prefix_cons_inj x).2 h3, ?_⟩
      rcases h4 with rfl | ⟨z, hz, hy⟩
      · exact .inl rfl
      · exact .inr ⟨z, (List.prefix_cons_inj x).2 hz, hy⟩

/-- C100, soundness: whatever the ontology holds, the program prints axioms of the ontology, no two of them equal. -/
theorem C100_sound (o : Onto) (s : Abs) (h : Reaches o s) (c p : Iri) :
    (∀ a ∈ advancedQuery o c p, a ∈ s.axioms) ∧ (advancedQuery o c p).Pairwise fun a b => a.obj.equals b.obj = false := by
  obtain ⟨v, -, h2, h3⟩ := C14_complete o s h (advancedFilter c p) (by rw [advancedFilter_eq]; simp)
  obtain ⟨h4, w, h5, h6, -⟩ := run_set (h3 _ (storeSetCb fun a b => a.obj.equals b.obj) []) .nil
  refine ⟨fun a ha => h2 a (h6.subset ?_), h4⟩
  have : advancedQuery o c p = w := by unfold advancedQuery; rw [h5]; rfl
  rwa [← this]

/-- C100, proved part: if no two axioms of the ontology are equal, and none mentions the class or the property more than once, or
as an IRI, then the program prints exactly the axioms wanted, each once. Missing: repeated mentions and IRIs (`C100_fails`). -/
theorem C100_partial (o : Onto) (s : Abs) (h : Reaches o s) (c p : Iri)
    (hm : ∀ a ∈ s.axioms, ∀ q ∈ [Prim.ent .cls c, .ent .objProp p], mentions q a.obj = times q a.obj ∧ times q a.obj ≤ 1)
    (hd : s.axioms.Pairwise fun a b => a.obj.equals b.obj = false ∧ b.obj.equals a.obj = false) :
    (advancedQuery o c p).Perm (s.axioms.filter fun a => Wanted c p a) := by
  obtain ⟨v, h1, h2⟩ := C14_partial o s h (advancedFilter c p) (by rw [advancedFilter_eq]; simp) (by
    intro q hq a ha
    rw [advancedFilter_eq] at hq
    exact hm a ha q hq)
  have h1' : v.Perm (s.axioms.filter fun a => Wanted c p a) := by
    refine h1.trans (List.Perm.of_eq ?_)
    congr 1
    funext a
    exact decide_eq_decide.2 (wanted_iff c p a)
  have hv : v.Pairwise fun a b => a.obj.equals b.obj = false ∧ b.obj.equals a.obj = false :=
    h1'.symm.pairwise (hd.filter _) (fun h => ⟨h.2, h.1⟩)
  have : advancedQuery o c p = v := by
    obtain ⟨-, w, h5, h6, h7⟩ := run_set (h2 _ (storeSetCb fun a b => a.obj.equals b.obj) []) .nil
    have e : advancedQuery o c p = w := by unfold advancedQuery; rw [h5]; rfl
    rcases h7 with rfl | ⟨x, ⟨t, hx⟩, y, hy, he⟩
    · exact e
    · exfalso
      rw [h5, List.nil_append] at hy
      rw [← hx, List.append_assoc, List.pairwise_append] at hv
      have := (hv.2.2 y hy x (by simp)).1
      rw [this] at he; cases he
  rw [this]
  exact h1'

/-- `SubClassOf(i ObjectSomeValuesFrom(p ObjectIntersectionOf(c ...)))`, with annotations. -/
def withProp (i : String) (c : List String) (as : List Annot := []) : Axiom :=
  ⟨.subClass (.cls (foodIri i)) (.objSome (.prop (foodIri "p")) (.inter (c.map fun n => .cls (foodIri n)))), as⟩

/-- The axioms, at addresses from `n` on. -/
def refsOf : Nat → List Axiom → List Ref
  | _, [] => []
  | n, a :: as => ⟨n, a.toObj⟩ :: refsOf (n + 1) as

theorem refsOf_ge : ∀ (n : Nat) (as : List Axiom), ∀ x ∈ refsOf n as, n ≤ x.addr ∧ OntoSpec.IsAxiom x.obj
  | _, [], _, h => by cases h
  | n, a :: as, x, h => by
    rcases List.mem_cons.1 h with rfl | h'
    · exact ⟨Nat.le_refl _, isAxiom_toObj a⟩
    · have := refsOf_ge (n + 1) as x h'; exact ⟨Nat.le_of_succ_le this.1, this.2⟩

theorem refsOf_inj : ∀ (n : Nat) (as : List Axiom), ∀ x ∈ refsOf n as, ∀ y ∈ refsOf n as, x.addr = y.addr → x = y
  | _, [], _, h, _, _, _ => by cases h
  | n, a :: as, x, hx, y, hy, e => by
    rcases List.mem_cons.1 hx with rfl | hx' <;> rcases List.mem_cons.1 hy with rfl | hy'
    · rfl
    · have := (refsOf_ge (n + 1) as y hy').1; rw [← e] at this; exact absurd this (Nat.not_succ_le_self _)
    · have := (refsOf_ge (n + 1) as x hx').1; rw [e] at this; exact absurd this (Nat.not_succ_le_self _)
    · exact refsOf_inj (n + 1) as x hx' y hy' e

/-- An ontology with these axioms. -/
def ontoOf (as : List Axiom) : Onto := loaded [] [] (refsOf 1 as)

theorem ontoOf_reaches (as : List Axiom) : Reaches (ontoOf as) ⟨refsOf 1 as, [], []⟩ :=
  loaded_reaches nofun (fun y hy => (refsOf_ge 1 as y hy).2) (refsOf_inj 1 as)

/-- Three axioms, two of which are wanted. -/
def advancedSample : List Axiom := [withProp "A" ["F", "G"], below "A" "F", withProp "B" ["G", "F"]]

/-- A concrete case for `C100_partial`. -/
example : Reaches (ontoOf advancedSample) ⟨refsOf 1 advancedSample, [], []⟩ ∧
    (∀ a ∈ refsOf 1 advancedSample, ∀ q ∈ [Prim.ent .cls (foodIri "F"), .ent .objProp (foodIri "p")],
      mentions q a.obj = times q a.obj ∧ times q a.obj ≤ 1) ∧
    ((refsOf 1 advancedSample).Pairwise fun a b => a.obj.equals b.obj = false ∧ b.obj.equals a.obj = false) ∧
    (advancedQuery (ontoOf advancedSample) (foodIri "F") (foodIri "p")).map Ref.addr = [1, 3] := by
  refine ⟨ontoOf_reaches _, ?_, ?_, by decide +kernel⟩
  · have : ((refsOf 1 advancedSample).all fun a => [Prim.ent .cls (foodIri "F"), .ent .objProp (foodIri "p")].all fun q =>
        mentions q a.obj == times q a.obj && decide (times q a.obj ≤ 1)) = true := by decide +kernel
    intro a ha q hq
    have := List.all_eq_true.1 (List.all_eq_true.1 this a ha) q hq
    simpa using this
  · simp only [advancedSample, refsOf, List.pairwise_cons, List.mem_cons, List.not_mem_nil, or_false]
    refine ⟨?_, ?_, nofun, .nil⟩
    · rintro b (rfl | rfl) <;> decide +kernel
    · rintro b rfl; decide +kernel

/-- C100 is false as stated.
* An axiom that mentions the class twice is visited twice, and the set iterator ends the query at the second visit: the axioms that
  come later are not printed.
* An axiom that mentions the property, and the class only as an IRI in an annotation, is printed. -/
theorem C100_fails :
    (advancedQuery (ontoOf [withProp "A" ["F", "F"], withProp "B" ["F"], withProp "C" ["G"], withProp "D" ["G"]]) (foodIri "F") (foodIri "p")).map Ref.addr = [1] ∧
    Wanted (foodIri "F") (foodIri "p") ⟨2, (withProp "B" ["F"]).toObj⟩ ∧
    (let x := withProp "B" ["G"] [.mk (foodIri "q") (.iri (foodIri "F")) []]
     (advancedQuery (ontoOf [withProp "A" ["F"], x]) (foodIri "F") (foodIri "p")).map Ref.addr = [1, 2] ∧
     ¬ Wanted (foodIri "F") (foodIri "p") ⟨2, x.toObj⟩) := by
  refine ⟨by decide +kernel, by decide +kernel, by decide +kernel, by decide +kernel⟩

end Cowl
