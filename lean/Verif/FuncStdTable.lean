import Verif.FuncStdSpec
/-!
# Lemmas: the rules of the functional reader against those of the standard
-/
namespace Cowl.Std
open YOwn (NT Term rules)
open Cowl.Gram

/-! ## Expressions as alternatives of sequences -/

/-- A symbol, or a repetition. -/
inductive Atom where
  | s (x : Sy)
  | many (l : List (List Sy))
  deriving DecidableEq

/-- All concatenations of one of each. -/
def cross (a b : List (List Atom)) : List (List Atom) := a.flatMap fun x => b.map fun y => x ++ y

/-- The alternatives of an expression. -/
def flat : E → List (List Atom)
  | .nil => [[]]
  | .s x => [[.s x]]
  | .seq a b => cross (flat a) (flat b)
  | .alt a b => flat a ++ flat b
  | .opt a => [] :: flat a
  | .star l => [[.many l]]

/-- Words of symbols, if those of nonterminals are given. -/
def SSeq (I : N → List Term → Prop) : List Sy → List Term → Prop
  | [], w => w = []
  | .t x :: α, w => ∃ v, w = x :: v ∧ SSeq I α v
  | .n x :: α, w => ∃ u v, w = u ++ v ∧ I x u ∧ SSeq I α v

/-- Repetitions. -/
inductive StarOf (P : List Term → Prop) : List Term → Prop where
  | nil : StarOf P []
  | cons {u w : List Term} : P u → StarOf P w → StarOf P (u ++ w)

/-- Words of one of several sequences. -/
def AnySeq (I : N → List Term → Prop) (l : List (List Sy)) (w : List Term) : Prop := ∃ β ∈ l, SSeq I β w

/-- Words of atoms. -/
def ASem (I : N → List Term → Prop) : List Atom → List Term → Prop
  | [], w => w = []
  | .s x :: α, w => ∃ u v, w = u ++ v ∧ SSeq I [x] u ∧ ASem I α v
  | .many l :: α, w => ∃ u v, w = u ++ v ∧ StarOf (AnySeq I l) u ∧ ASem I α v

/-- Words of one of several sequences of atoms. -/
def Any (I : N → List Term → Prop) (l : List (List Atom)) (w : List Term) : Prop := ∃ α ∈ l, ASem I α w

theorem asem_append {I : N → List Term → Prop} : ∀ {α β : List Atom} {w : List Term},
    ASem I (α ++ β) w ↔ ∃ u v, w = u ++ v ∧ ASem I α u ∧ ASem I β v
  | [], β, w => by
    constructor
    · intro h; exact ⟨[], w, rfl, rfl, h⟩
    · rintro ⟨u, v, rfl, rfl, h⟩; exact h
  | .s x :: α, β, w => by
    constructor
    · rintro ⟨u, v, rfl, h, g⟩
      obtain ⟨a, b, rfl, g1, g2⟩ := asem_append.1 g
      exact ⟨u ++ a, b, (List.append_assoc ..).symm, ⟨u, a, rfl, h, g1⟩, g2⟩
    · rintro ⟨u, v, rfl, ⟨a, b, rfl, h, g1⟩, g2⟩
      exact ⟨a, b ++ v, List.append_assoc .., h, asem_append.2 ⟨b, v, rfl, g1, g2⟩⟩
  | .many l :: α, β, w => by
    constructor
    · rintro ⟨u, v, rfl, h, g⟩
      obtain ⟨a, b, rfl, g1, g2⟩ := asem_append.1 g
      exact ⟨u ++ a, b, (List.append_assoc ..).symm, ⟨u, a, rfl, h, g1⟩, g2⟩
    · rintro ⟨u, v, rfl, ⟨a, b, rfl, h, g1⟩, g2⟩
      exact ⟨a, b ++ v, List.append_assoc .., h, asem_append.2 ⟨b, v, rfl, g1, g2⟩⟩

theorem sseq_one {I : N → List Term → Prop} {x : Sy} {α : List Sy} {w : List Term} :
    SSeq I (x :: α) w ↔ ∃ u v, w = u ++ v ∧ SSeq I [x] u ∧ SSeq I α v := by
  cases x with
  | t x =>
    constructor
    · rintro ⟨v, rfl, h⟩; exact ⟨[x], v, rfl, ⟨[], rfl, rfl⟩, h⟩
    · rintro ⟨u, v, rfl, ⟨_, rfl, rfl⟩, h⟩; exact ⟨v, rfl, h⟩
  | n x =>
    constructor
    · rintro ⟨u, v, rfl, h, g⟩; exact ⟨u, v, rfl, ⟨u, [], (List.append_nil u).symm, h, rfl⟩, g⟩
    · rintro ⟨u, v, rfl, ⟨a, _, rfl, h, rfl⟩, g⟩; exact ⟨a, v, by rw [List.append_nil], h, g⟩

theorem asem_syms {I : N → List Term → Prop} : ∀ {α : List Sy} {w : List Term}, ASem I (α.map .s) w ↔ SSeq I α w
  | [], w => Iff.rfl
  | x :: α, w => by
    rw [sseq_one]
    constructor
    · rintro ⟨u, v, rfl, h, g⟩; exact ⟨u, v, rfl, h, asem_syms.1 g⟩
    · rintro ⟨u, v, rfl, h, g⟩; exact ⟨u, v, rfl, h, asem_syms.2 g⟩

theorem any_cross {I : N → List Term → Prop} {a b : List (List Atom)} {w : List Term} :
    Any I (cross a b) w ↔ ∃ u v, w = u ++ v ∧ Any I a u ∧ Any I b v := by
  constructor
  · rintro ⟨α, hα, h⟩
    obtain ⟨x, hx, hα⟩ := List.mem_flatMap.1 hα
    obtain ⟨y, hy, rfl⟩ := List.mem_map.1 hα
    obtain ⟨u, v, rfl, h1, h2⟩ := asem_append.1 h
    exact ⟨u, v, rfl, ⟨x, hx, h1⟩, ⟨y, hy, h2⟩⟩
  · rintro ⟨u, v, rfl, ⟨x, hx, h1⟩, ⟨y, hy, h2⟩⟩
    exact ⟨x ++ y, List.mem_flatMap.2 ⟨x, hx, List.mem_map.2 ⟨y, hy, rfl⟩⟩, asem_append.2 ⟨u, v, rfl, h1, h2⟩⟩

theorem flat_seqs : ∀ α : List Sy, flat (seqs (α.map .s)) = [α.map .s]
  | [] => rfl
  | x :: α => by
    show cross [[.s x]] (flat (seqs (α.map .s))) = _
    rw [flat_seqs α]; rfl

/-- What an expression generates is generated by one of its alternatives, for an interpretation of the
nonterminals that is closed under the rules. -/
theorem words_flat {v : Variant} {I : N → List Term → Prop} (hI : ∀ x w, Any I (flat (rule v x)) w → I x w) {e : E}
    {w : List Term} (h : Words v e w) : Any I (flat e) w := by
  induction h with
  | nil => exact ⟨[], List.mem_singleton.2 rfl, rfl⟩
  | t x => exact ⟨_, List.mem_singleton.2 rfl, [x], [], rfl, ⟨[], rfl, rfl⟩, rfl⟩
  | @n x w _ ih =>
    exact ⟨_, List.mem_singleton.2 rfl, w, [], (List.append_nil w).symm, ⟨w, [], (List.append_nil w).symm, hI x w ih, rfl⟩, rfl⟩
  | seq _ _ ih1 ih2 => exact any_cross.2 ⟨_, _, rfl, ih1, ih2⟩
  | altL _ ih => obtain ⟨α, hα, h⟩ := ih; exact ⟨α, List.mem_append_left _ hα, h⟩
  | altR _ ih => obtain ⟨α, hα, h⟩ := ih; exact ⟨α, List.mem_append_right _ hα, h⟩
  | optN => exact ⟨[], List.mem_cons_self .., rfl⟩
  | optS _ ih => obtain ⟨α, hα, h⟩ := ih; exact ⟨α, List.mem_cons_of_mem _ hα, h⟩
  | starN => exact ⟨_, List.mem_singleton.2 rfl, [], [], rfl, .nil, rfl⟩
  | @starS l α u w hα _ _ ih1 ih2 =>
    obtain ⟨β, hβ, h⟩ := ih1
    rw [flat_seqs] at hβ
    rw [List.mem_singleton.1 hβ, asem_syms] at h
    obtain ⟨γ, hγ, g⟩ := ih2
    rw [List.mem_singleton.1 hγ] at g
    obtain ⟨x, y, rfl, g1, rfl⟩ := g
    refine ⟨_, List.mem_singleton.2 rfl, u ++ x, [], (List.append_assoc u x []).symm, .cons ⟨α, hα, h⟩ g1, rfl⟩

/-- Words of a nonterminal. -/
def NWords (v : Variant) (x : N) (w : List Term) : Prop := Words v (.s (.n x)) w

theorem sseq_words {v : Variant} : ∀ {α : List Sy} {w : List Term}, SSeq (NWords v) α w → Words v (seqs (α.map .s)) w
  | [], w, h => by cases h; exact .nil
  | .t x :: α, w, ⟨u, e, h⟩ => by subst e; exact Words.seq (u := [x]) (.t x) (sseq_words h)
  | .n x :: α, w, ⟨a, b, e, h, g⟩ => by subst e; exact .seq h (sseq_words g)

theorem star_words {v : Variant} {l : List (List Sy)} {w : List Term} (h : StarOf (AnySeq (NWords v) l) w) :
    Words v (.star l) w := by
  induction h with
  | nil => exact .starN
  | cons h _ ih => obtain ⟨α, hα, h⟩ := h; exact .starS hα (sseq_words h) ih

/-- The alternatives of an expression generate what it generates. -/
theorem flat_words {v : Variant} : ∀ {e : E} {w : List Term}, Any (NWords v) (flat e) w → Words v e w
  | .nil, w, ⟨α, hα, h⟩ => by rw [List.mem_singleton.1 hα] at h; cases h; exact .nil
  | .s x, w, ⟨α, hα, h⟩ => by
    rw [List.mem_singleton.1 hα] at h
    obtain ⟨u, _, rfl, h, rfl⟩ := h
    rw [List.append_nil]
    cases x with
    | t x => obtain ⟨_, rfl, rfl⟩ := h; exact .t x
    | n x => obtain ⟨a, _, rfl, h, rfl⟩ := h; rw [List.append_nil]; exact h
  | .seq a b, w, h => by
    obtain ⟨u, x, rfl, h1, h2⟩ := any_cross.1 h
    exact .seq (flat_words h1) (flat_words h2)
  | .alt a b, w, ⟨α, hα, h⟩ => by
    rcases List.mem_append.1 hα with hα | hα
    · exact .altL (flat_words ⟨α, hα, h⟩)
    · exact .altR (flat_words ⟨α, hα, h⟩)
  | .opt a, w, ⟨α, hα, h⟩ => by
    rcases List.mem_cons.1 hα with rfl | hα
    · cases h; exact .optN
    · exact .optS (flat_words ⟨α, hα, h⟩)
  | .star l, w, ⟨α, hα, h⟩ => by
    rw [List.mem_singleton.1 hα] at h
    obtain ⟨u, _, rfl, h, rfl⟩ := h
    rw [List.append_nil]
    exact star_words h

/-! ## Nonterminals of the program -/

/-- What a nonterminal of the program is in the standard: one of its nonterminals, alternatives of
sequences of symbols, or a list. -/
inductive Kind where
  | main (x : N)
  | trans (b : List (List Sy))
  | star (es : List NT)
  | list1 (e : NT)
  | list2 (l e : NT)

/-- The nonterminals of the program in the standard. -/
def kind : NT → Kind
  | .fullIri | .ns => .trans [[.t .iriRef]]
  | .abbreviatedIri => .trans [[.t .pnameLn]]
  | .prefix_ => .trans [[.t .pnameNs]]
  | .quotedString => .trans [[.t .qstr]]
  | .langTag => .trans [[.t .lang]]
  | .cardinality => .trans [[.t .nat]]
  | .imp => .trans [imports]
  | .ontologyId => .trans [[], [.n .iri], [.n .iri, .n .iri]]
  | .facetRestriction => .trans [[.n .iri, .n .literal]]
  | .prefixDeclarations => .star [.prefixDeclaration]
  | .importsAndAnnotations => .star [.imp, .annotation]
  | .axs => .star [.ax]
  | .annotationStar => .star [.annotation]
  | .dataPropertyExpressionStar => .star [.dataPropertyExpression]
  | .objectPropertyExpressionStar => .star [.objectPropertyExpression]
  | .classExpressionList => .list1 .classExpression
  | .dataPropertyExpressionList => .list1 .dataPropertyExpression
  | .dataRangeList => .list1 .dataRange
  | .facetRestrictionList => .list1 .facetRestriction
  | .individualList => .list1 .individual
  | .literalList => .list1 .literal
  | .objectPropertyExpressionList => .list1 .objectPropertyExpression
  | .classExpression2List => .list2 .classExpressionList .classExpression
  | .dataPropertyExpression2List => .list2 .dataPropertyExpressionList .dataPropertyExpression
  | .dataRange2List => .list2 .dataRangeList .dataRange
  | .individual2List => .list2 .individualList .individual
  | .objectPropertyExpression2List => .list2 .objectPropertyExpressionList .objectPropertyExpression
  | .iri => .main .iri
  | .ontologyDocument => .main .ontologyDocument
  | .prefixDeclaration => .main .prefixDeclaration
  | .ontology => .main .ontology
  | .cls => .main .cls
  | .datatype => .main .datatype
  | .objectProperty => .main .objectProperty
  | .dataProperty => .main .dataProperty
  | .annotationProperty => .main .annotationProperty
  | .individual => .main .individual
  | .namedIndividual => .main .namedIndividual
  | .anonymousIndividual => .main .anonymousIndividual
  | .literal => .main .literal
  | .declaration => .main .declaration
  | .entity => .main .entity
  | .objectPropertyExpression => .main .objectPropertyExpression
  | .inverseObjectProperty => .main .inverseObjectProperty
  | .dataPropertyExpression => .main .dataPropertyExpression
  | .dataRange => .main .dataRange
  | .dataIntersectionOf => .main .dataIntersectionOf
  | .dataUnionOf => .main .dataUnionOf
  | .dataComplementOf => .main .dataComplementOf
  | .dataOneOf => .main .dataOneOf
  | .datatypeRestriction => .main .datatypeRestriction
  | .classExpression => .main .classExpression
  | .objectIntersectionOf => .main .objectIntersectionOf
  | .objectUnionOf => .main .objectUnionOf
  | .objectComplementOf => .main .objectComplementOf
  | .objectOneOf => .main .objectOneOf
  | .objectSomeValuesFrom => .main .objectSomeValuesFrom
  | .objectAllValuesFrom => .main .objectAllValuesFrom
  | .objectHasValue => .main .objectHasValue
  | .objectHasSelf => .main .objectHasSelf
  | .objectMinCardinality => .main .objectMinCardinality
  | .objectMaxCardinality => .main .objectMaxCardinality
  | .objectExactCardinality => .main .objectExactCardinality
  | .dataSomeValuesFrom => .main .dataSomeValuesFrom
  | .dataAllValuesFrom => .main .dataAllValuesFrom
  | .dataHasValue => .main .dataHasValue
  | .dataMinCardinality => .main .dataMinCardinality
  | .dataMaxCardinality => .main .dataMaxCardinality
  | .dataExactCardinality => .main .dataExactCardinality
  | .ax => .main .ax
  | .classAxiom => .main .classAxiom
  | .subClassOf => .main .subClassOf
  | .equivalentClasses => .main .equivalentClasses
  | .disjointClasses => .main .disjointClasses
  | .disjointUnion => .main .disjointUnion
  | .objectPropertyAxiom => .main .objectPropertyAxiom
  | .subObjectPropertyOf => .main .subObjectPropertyOf
  | .propertyExpressionChain => .main .propertyExpressionChain
  | .equivalentObjectProperties => .main .equivalentObjectProperties
  | .disjointObjectProperties => .main .disjointObjectProperties
  | .inverseObjectProperties => .main .inverseObjectProperties
  | .objectPropertyDomain => .main .objectPropertyDomain
  | .objectPropertyRange => .main .objectPropertyRange
  | .functionalObjectProperty => .main .functionalObjectProperty
  | .inverseFunctionalObjectProperty => .main .inverseFunctionalObjectProperty
  | .reflexiveObjectProperty => .main .reflexiveObjectProperty
  | .irreflexiveObjectProperty => .main .irreflexiveObjectProperty
  | .symmetricObjectProperty => .main .symmetricObjectProperty
  | .asymmetricObjectProperty => .main .asymmetricObjectProperty
  | .transitiveObjectProperty => .main .transitiveObjectProperty
  | .dataPropertyAxiom => .main .dataPropertyAxiom
  | .subDataPropertyOf => .main .subDataPropertyOf
  | .equivalentDataProperties => .main .equivalentDataProperties
  | .disjointDataProperties => .main .disjointDataProperties
  | .dataPropertyDomain => .main .dataPropertyDomain
  | .dataPropertyRange => .main .dataPropertyRange
  | .functionalDataProperty => .main .functionalDataProperty
  | .datatypeDefinition => .main .datatypeDefinition
  | .hasKey => .main .hasKey
  | .assertion => .main .assertion
  | .sameIndividual => .main .sameIndividual
  | .differentIndividuals => .main .differentIndividuals
  | .classAssertion => .main .classAssertion
  | .objectPropertyAssertion => .main .objectPropertyAssertion
  | .negativeObjectPropertyAssertion => .main .negativeObjectPropertyAssertion
  | .dataPropertyAssertion => .main .dataPropertyAssertion
  | .negativeDataPropertyAssertion => .main .negativeDataPropertyAssertion
  | .annotation => .main .annotation
  | .annotationValue => .main .annotationValue
  | .annotationAxiom => .main .annotationAxiom
  | .annotationAssertion => .main .annotationAssertion
  | .annotationSubject => .main .annotationSubject
  | .subAnnotationPropertyOf => .main .subAnnotationPropertyOf
  | .annotationPropertyDomain => .main .annotationPropertyDomain
  | .annotationPropertyRange => .main .annotationPropertyRange

/-- The nonterminals of the standard in the program. -/
def ntOf : N → NT
  | .iri => .iri
  | .ontologyDocument => .ontologyDocument
  | .prefixDeclaration => .prefixDeclaration
  | .ontology => .ontology
  | .cls => .cls
  | .datatype => .datatype
  | .objectProperty => .objectProperty
  | .dataProperty => .dataProperty
  | .annotationProperty => .annotationProperty
  | .individual => .individual
  | .namedIndividual => .namedIndividual
  | .anonymousIndividual => .anonymousIndividual
  | .literal => .literal
  | .declaration => .declaration
  | .entity => .entity
  | .objectPropertyExpression => .objectPropertyExpression
  | .inverseObjectProperty => .inverseObjectProperty
  | .dataPropertyExpression => .dataPropertyExpression
  | .dataRange => .dataRange
  | .dataIntersectionOf => .dataIntersectionOf
  | .dataUnionOf => .dataUnionOf
  | .dataComplementOf => .dataComplementOf
  | .dataOneOf => .dataOneOf
  | .datatypeRestriction => .datatypeRestriction
  | .classExpression => .classExpression
  | .objectIntersectionOf => .objectIntersectionOf
  | .objectUnionOf => .objectUnionOf
  | .objectComplementOf => .objectComplementOf
  | .objectOneOf => .objectOneOf
  | .objectSomeValuesFrom => .objectSomeValuesFrom
  | .objectAllValuesFrom => .objectAllValuesFrom
  | .objectHasValue => .objectHasValue
  | .objectHasSelf => .objectHasSelf
  | .objectMinCardinality => .objectMinCardinality
  | .objectMaxCardinality => .objectMaxCardinality
  | .objectExactCardinality => .objectExactCardinality
  | .dataSomeValuesFrom => .dataSomeValuesFrom
  | .dataAllValuesFrom => .dataAllValuesFrom
  | .dataHasValue => .dataHasValue
  | .dataMinCardinality => .dataMinCardinality
  | .dataMaxCardinality => .dataMaxCardinality
  | .dataExactCardinality => .dataExactCardinality
  | .ax => .ax
  | .classAxiom => .classAxiom
  | .subClassOf => .subClassOf
  | .equivalentClasses => .equivalentClasses
  | .disjointClasses => .disjointClasses
  | .disjointUnion => .disjointUnion
  | .objectPropertyAxiom => .objectPropertyAxiom
  | .subObjectPropertyOf => .subObjectPropertyOf
  | .propertyExpressionChain => .propertyExpressionChain
  | .equivalentObjectProperties => .equivalentObjectProperties
  | .disjointObjectProperties => .disjointObjectProperties
  | .inverseObjectProperties => .inverseObjectProperties
  | .objectPropertyDomain => .objectPropertyDomain
  | .objectPropertyRange => .objectPropertyRange
  | .functionalObjectProperty => .functionalObjectProperty
  | .inverseFunctionalObjectProperty => .inverseFunctionalObjectProperty
  | .reflexiveObjectProperty => .reflexiveObjectProperty
  | .irreflexiveObjectProperty => .irreflexiveObjectProperty
  | .symmetricObjectProperty => .symmetricObjectProperty
  | .asymmetricObjectProperty => .asymmetricObjectProperty
  | .transitiveObjectProperty => .transitiveObjectProperty
  | .dataPropertyAxiom => .dataPropertyAxiom
  | .subDataPropertyOf => .subDataPropertyOf
  | .equivalentDataProperties => .equivalentDataProperties
  | .disjointDataProperties => .disjointDataProperties
  | .dataPropertyDomain => .dataPropertyDomain
  | .dataPropertyRange => .dataPropertyRange
  | .functionalDataProperty => .functionalDataProperty
  | .datatypeDefinition => .datatypeDefinition
  | .hasKey => .hasKey
  | .assertion => .assertion
  | .sameIndividual => .sameIndividual
  | .differentIndividuals => .differentIndividuals
  | .classAssertion => .classAssertion
  | .objectPropertyAssertion => .objectPropertyAssertion
  | .negativeObjectPropertyAssertion => .negativeObjectPropertyAssertion
  | .dataPropertyAssertion => .dataPropertyAssertion
  | .negativeDataPropertyAssertion => .negativeDataPropertyAssertion
  | .annotation => .annotation
  | .annotationValue => .annotationValue
  | .annotationAxiom => .annotationAxiom
  | .annotationAssertion => .annotationAssertion
  | .annotationSubject => .annotationSubject
  | .subAnnotationPropertyOf => .subAnnotationPropertyOf
  | .annotationPropertyDomain => .annotationPropertyDomain
  | .annotationPropertyRange => .annotationPropertyRange

/-- A nonterminal that is no list, as alternatives of sequences of symbols. -/
def base (x : NT) : List (List Sy) :=
  match kind x with
  | .main y => [[.n y]]
  | .trans b => b
  | _ => []

/-- The same as atoms. -/
def baseA (x : NT) : List (List Atom) := (base x).map fun β => β.map .s

/-- A nonterminal as alternatives of sequences of atoms. -/
def g (x : NT) : List (List Atom) :=
  match kind x with
  | .main y => [[.s (.n y)]]
  | .trans b => b.map fun β => β.map .s
  | .star es => [[.many (es.flatMap base)]]
  | .list1 e => cross (baseA e) [[.many (base e)]]
  | .list2 _ e => cross (baseA e) (cross (baseA e) [[.many (base e)]])

/-- A symbol as alternatives. -/
def gs : GSym → List (List Atom)
  | .t x => [[.s (.t x)]]
  | .n x => g x

/-- A right side as alternatives. -/
def prod : List GSym → List (List Atom)
  | [] => [[]]
  | x :: α => cross (gs x) (prod α)

/-- A symbol that is no list, in the standard. -/
def symSy : GSym → Option Sy
  | .t x => some (.t x)
  | .n x => match kind x with | .main y => some (.n y) | _ => none

/-- The right sides of a nonterminal. -/
def rhss (x : NT) : List (List GSym) := (rules.filter fun r => decide (r.lhs = x)).map (·.rhs)

/-- The variant of the standard that the program implements. -/
def prg : Variant := { nary := false, mixed := true }

/-- Whether the rules of a nonterminal are as its kind says. -/
def check (x : NT) : Bool :=
  match kind x with
  | .main y => decide (ntOf y = x) && (rhss x).all (fun α => (prod α).all fun a => (flat (rule prg y)).contains a) &&
      (flat (rule prg y)).all (fun a => (rhss x).any fun α => (prod α).contains a)
  | .trans b => decide ((rhss x).map (fun α => α.mapM symSy) = b.map some)
  | .star es => decide (rhss x = [] :: es.map fun e => [.n x, .n e]) && es.all fun e => !(base e).isEmpty
  | .list1 e => decide (rhss x = [[.n e], [.n x, .n e]]) && !(base e).isEmpty
  | .list2 l e => decide (rhss x = [[.n l, .n e]]) && (match kind l with | .list1 e' => decide (e' = e) | _ => false)

theorem checks_rules : rules.all (fun r => check r.lhs) = true := by decide +kernel

theorem checks_main : ∀ y : N, check (ntOf y) = true ∧ (match kind (ntOf y) with | .main z => z = y | _ => False) := by
  intro y; cases y <;> exact ⟨by decide +kernel, rfl⟩

end Cowl.Std
