import Verif.SaysSpec
/-!
# Specification: texts that are close to documents in functional-style syntax

The converse of `SaysSpec.lean` is about any text that is accepted. What is accepted may depart from the standard in few ways: imports
and annotations may come in any order, a prefix may be declared more than once or against its first meaning, and
`rdf:langString` stands for `rdf:PlainLiteral`.
-/
namespace Cowl.Says
open Ast Func

/-- All spellings, and `rdf:langString`; but no literals of `rdf:PlainLiteral` without a language. -/
def lax : Ways := ⟨fun _ _ => True, False, fun _ => True, True⟩

/-- The requirements on the number of operands. -/
def counts : Req := { req with iri := fun _ => True }

/-- Documents whose imports and annotations come in any order. -/
structure Loose where
  prefixes : List (Str × Str)
  id : Option (Iri × Option Iri)
  header : List (Iri ⊕ Annot)
  axioms : List Axiom

/-- An import or an annotation. -/
def partForm : Iri ⊕ Annot → List Sym
  | .inl i => form .import_ [.iri i]
  | .inr a => annotForm a

/-- As `Doc.form`. -/
def Loose.form (d : Loose) : List Sym :=
  d.prefixes.flatMap prefixForm ++ Says.form .ontology (idForm d.id ++ (d.header.flatMap partForm ++ d.axioms.flatMap axiomForm))

/-- The numbers of operands are as the standard requires. -/
structure Loose.Ok (d : Loose) : Prop where
  annots : ∀ a, .inr a ∈ d.header → a.Meets counts
  axioms : ∀ a ∈ d.axioms, a.Meets counts

/-- What prefixes stand for: what they stand for at first, or else what is declared first. -/
def Loose.ns (d : Loose) (first : Str → Option Str) (p : Str) : Option Str :=
  match first p with
  | some n => some n
  | none => (d.prefixes.find? fun e => e.1 == p).map Prod.snd

/-- What the IRI and the version are told as. -/
def idItems : Option (Iri × Option Iri) → List Item
  | none => []
  | some (i, none) => [.iri i]
  | some (i, some v) => [.iri i, .version v]

/-- What an import or an annotation is told as. -/
def partItem : Iri ⊕ Annot → Item
  | .inl i => .import i
  | .inr a => .annot a.toObj

/-- As `Doc.items`. -/
def Loose.items (d : Loose) : List Item :=
  d.prefixes.map (fun e => .prefixDecl e.1 e.2) ++ (idItems d.id ++ (d.header.map partItem ++ d.axioms.map fun a => .ax a.toObj))

/-- The text says the document. -/
def Hears (first : Str → Option Str) (text : Str) (d : Loose) : Prop := Spelt lax (d.ns first) d.form (lex text)

/-- The document of the standard with the same parts. -/
def Loose.doc (d : Loose) : Doc where
  prefixes := d.prefixes
  id := d.id
  imports := d.header.filterMap fun x => match x with | .inl i => some i | .inr _ => none
  annots := d.header.filterMap fun x => match x with | .inl _ => none | .inr a => some a
  axioms := d.axioms

/-- Imports come before annotations. -/
def Loose.Sorted (d : Loose) : Prop := ∃ (is : List Iri) (as : List Annot), d.header = is.map .inl ++ as.map .inr

end Cowl.Says
