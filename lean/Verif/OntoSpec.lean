import Verif.Onto
import Verif.IterSpec
import Verif.ObjSpec
/-! # Specification of ontologies: lists of axioms, annotations and imports -/
namespace Cowl.OntoSpec
open ObjSpec IterSpec

mutual
/-- How many times `p` is mentioned in an object (`Occurs` with multiplicity). -/
def times (p : Prim) : Obj → Nat
  | .prim q => if p = q then 1 else 0
  | .lit _ (.dt i) => if p = .ent .datatype i then 1 else 0
  | .lit _ (.lang _) => if p = .ent .datatype rdfLangString then 1 else 0
  | .vec _ xs => timesAll p xs
  | .comp t b fs _ =>
    timesAll p fs +
      (if b = false ∧ (t = .ceObjSome ∨ t = .ceObjAll) ∧ p = .ent .cls owlThing then 1 else 0) +
      (if b = false ∧ (t = .ceDataSome ∨ t = .ceDataAll) ∧ p = .ent .datatype rdfsLiteral then 1
        else 0)
  | .str _ => 0
  | .other _ _ => 0

def timesAll (p : Prim) : List Obj → Nat
  | [] => 0
  | x :: xs => times p x + timesAll p xs
end

/-- How many times an object mentions `p`, or the IRI of `p` if `p` is an entity. -/
def mentions (p : Prim) (x : Obj) : Nat :=
  times p x + match p with
    | .ent _ i => times (.iri i) x
    | _ => 0

/-- A well-formed axiom. -/
def IsAxiom (x : Obj) : Prop :=
  WellFormed x ∧ match x with
    | .comp t _ _ _ => t.isAxiom = true
    | _ => False

/-- The axiom has axiom type number `t` (the position of its object type among
the 37 axiom types). -/
def OfType (t : Nat) (a : Ref) : Prop := a.obj.otype.code = OType.aDecl.code + t

instance (t : Nat) (a : Ref) : Decidable (OfType t a) := by unfold OfType; infer_instance

/-- The closure of a filter accepts the axiom; no closure accepts all. -/
def Accepts (c : Option (Ref → Bool)) (a : Ref) : Prop :=
  match c with
  | some c => c a = true
  | none => True

instance (c : Option (Ref → Bool)) (a : Ref) : Decidable (Accepts c a) := by
  unfold Accepts; cases c <;> infer_instance

/-- What a filter asks for: the type is in the mask, all primitives are
referenced, the closure accepts. -/
def Matches (f : Filter) (a : Ref) : Prop :=
  (∃ t, t < 37 ∧ OfType t a ∧ f.types.getLsbD t = true) ∧ (∀ p ∈ f.prims, 0 < times p a.obj) ∧
    Accepts f.closure a

instance (f : Filter) (a : Ref) : Decidable (Matches f a) := by
  unfold Matches; infer_instance

/-- The object is the primitive `p`. -/
def IsPrim (p : Prim) : Obj → Prop
  | .prim q => q = p
  | _ => False

instance (p : Prim) (x : Obj) : Decidable (IsPrim p x) := by
  unfold IsPrim; cases x <;> infer_instance

/-- The operands of an axiom: its fields without the annotations. -/
def operands : Obj → List Obj
  | .comp t _ fs _ => fs.take t.fieldCount
  | _ => []

/-- The operand is `p`, or a vector with item `p`. -/
def OperandIs (p : Prim) : Obj → Prop
  | .vec _ xs => ∃ x ∈ xs, IsPrim p x
  | x => IsPrim p x

instance (p : Prim) (x : Obj) : Decidable (OperandIs p x) := by
  unfold OperandIs; cases x <;> infer_instance

/-- `p` is an operand of the axiom, or an item of one. -/
def HasOperand (p : Prim) (a : Ref) : Prop := ∃ op ∈ operands a.obj, OperandIs p op

instance (p : Prim) (a : Ref) : Decidable (HasOperand p a) := by
  unfold HasOperand; infer_instance

/-- The type of the axiom is selected by the mask. -/
def TypeIn (types : BitVec 64) (a : Ref) : Prop :=
  ∃ t, t < 37 ∧ OfType t a ∧ types.getLsbD t = true

instance (types : BitVec 64) (a : Ref) : Decidable (TypeIn types a) := by
  unfold TypeIn; infer_instance

/-- What one axiom relates to `p`: nothing unless the type is selected and `p` is
an operand; then the operands at the position, without `p`. -/
def related (p : Prim) (types : BitVec 64) (pos : BitVec 8) (a : Ref) : List Obj :=
  if TypeIn types a ∧ HasOperand p a then
    (operandsAt (operands a.obj) pos).filter fun x => ¬ IsPrim p x
  else []

/-- Contents of an ontology. -/
structure Abs where
  axioms : List Ref
  annots : List Ref
  imports : List Ref

/-- Changes of an ontology. -/
inductive Op where
  | addAxiom (a : Ref)
  | removeAxiom (a : Ref)
  | removeMatching (f : Filter)
  | addAnnot (x : Ref)
  | removeAnnot (x : Ref)
  | addImport (x : Ref)
  | removeImport (x : Ref)

/-- What the changes mean. Removing an axiom takes out this very axiom (same
address), if it is there. -/
def Abs.step (s : Abs) : Op → Abs
  | .addAxiom a => { s with axioms := s.axioms ++ [a] }
  | .removeAxiom a => { s with axioms := s.axioms.eraseP fun b => b.addr = a.addr }
  | .removeMatching f => { s with axioms := s.axioms.filter fun a => ¬ Matches f a }
  | .addAnnot x => { s with annots := s.annots ++ [x] }
  | .removeAnnot x => { s with annots := s.annots.eraseP fun y => y.obj.equals x.obj }
  | .addImport x => { s with imports := s.imports ++ [x] }
  | .removeImport x => { s with imports := s.imports.eraseP fun y => y.obj.equals x.obj }

/-- Contents after a history. -/
def Abs.run : Abs → List Op → Abs
  | s, [] => s
  | s, op :: ops => (s.step op).run ops

/-- No contents. -/
def Abs.empty : Abs := ⟨[], [], []⟩

/-- The object at an address does not change while the ontology holds it. -/
def Fits (held : List Ref) (a : Ref) : Prop := ∀ b ∈ held, b.addr = a.addr → b = a

/-- A filter for which bulk removal works: it selects no axiom type at all, or
it has a primitive, and none of its primitives is mentioned twice in a held axiom. -/
def Tame (held : List Ref) (f : Filter) : Prop :=
  (∀ t < 37, f.types.getLsbD t = false) ∨
    (f.prims ≠ [] ∧ ∀ p ∈ f.prims, ∀ a ∈ held, times p a.obj ≤ 1)

/-- Legal use: axioms are axioms, and addresses identify objects. -/
def Legal (s : Abs) : Op → Prop
  | .addAxiom a => IsAxiom a.obj ∧ Fits s.axioms a
  | .removeAxiom a => IsAxiom a.obj ∧ Fits s.axioms a
  | .removeMatching f => Tame s.axioms f
  | .addAnnot x => WellFormed x.obj
  | _ => True

def LegalRun : Abs → List Op → Prop
  | _, [] => True
  | s, op :: ops => Legal s op ∧ LegalRun (s.step op) ops

/-- `p` was mentioned by an axiom or annotation added at some point. -/
def EverMentioned (ops : List Op) (p : Prim) : Prop :=
  ∃ x, (.addAxiom x ∈ ops ∨ .addAnnot x ∈ ops) ∧ 0 < times p x.obj

/-- `p` is mentioned by a held axiom or annotation. -/
def Mentioned (s : Abs) (p : Prim) : Prop := ∃ x, (x ∈ s.axioms ∨ x ∈ s.annots) ∧ 0 < times p x.obj

/-- `P` of the primitive, or of its IRI if it is an entity. -/
def OrIri (P : Prim → Prop) : Prim → Prop
  | .ent k i => P (.ent k i) ∨ P (.iri i)
  | p => P p

/-- The operation adds something. -/
def Op.Adds : Op → Prop
  | .addAxiom _ | .addAnnot _ | .addImport _ => True
  | _ => False

/-- The IRI added or removed as an import. -/
def Op.import? : Op → Option (Bool × Prim)
  | .addImport ⟨_, .prim p⟩ => some (true, p)
  | .removeImport ⟨_, .prim p⟩ => some (false, p)
  | _ => none

/-- The last import operation on `p`, if any, was an add; `b` if there is none. -/
def lastIsAdd (p : Prim) : Bool → List Op → Bool
  | b, [] => b
  | b, op :: ops =>
    match op.import? with
    | some (c, q) => lastIsAdd p (if q = p then c else b) ops
    | none => lastIsAdd p b ops

/-- Imports are IRIs, and no IRI is added while it is already imported. -/
def OnceEach : Abs → List Op → Prop
  | _, [] => True
  | s, op :: ops =>
    (match op with
      | .addImport x => (∃ p, x.obj = .prim p) ∧ ∀ y ∈ s.imports, ¬ Same y.obj x.obj
      | .removeImport x => ∃ p, x.obj = .prim p
      | _ => True) ∧ OnceEach (s.step op) ops

/-- Removal calls pass the very object that is held (as found first), or one that
equals nothing held. -/
def Honest (s : Abs) : Op → Prop
  | .removeAxiom a => a ∈ s.axioms ∨ ∀ b ∈ s.axioms, a.obj.equals b.obj = false
  | .removeAnnot x => ∀ y, (s.annots.find? fun y => y.obj.equals x.obj) = some y → y.addr = x.addr
  | .removeImport x => ∀ y, (s.imports.find? fun y => y.obj.equals x.obj) = some y → y.addr = x.addr
  | _ => True

def HonestRun : Abs → List Op → Prop
  | _, [] => True
  | s, op :: ops => Honest s op ∧ HonestRun (s.step op) ops

/-- How many references the contents account for, per address. -/
def Abs.owned (s : Abs) (n : Nat) : Nat :=
  (s.axioms ++ s.annots ++ s.imports).countP fun x => x.addr = n

end Cowl.OntoSpec

namespace Cowl

open OntoSpec in
/-- The model's operation for each change; `none` is undefined behaviour. -/
def Onto.step (o : Onto) : Op → Option Onto
  | .addAxiom a => some (o.addAxiom a)
  | .removeAxiom a => (o.removeAxiom a).map Prod.fst
  | .removeMatching f => (o.removeAxiomsMatching f).map Prod.fst
  | .addAnnot x => some (o.addAnnot x)
  | .removeAnnot x => some (o.removeAnnot x).1
  | .addImport x => some (o.addImport x)
  | .removeImport x => some (o.removeImport x).1

open OntoSpec in
/-- The model on a history. -/
def Onto.run : Onto → List Op → Option Onto
  | o, [] => some o
  | o, op :: ops => (o.step op).bind fun o' => o'.run ops

open OntoSpec in
/-- State `o` is reached from a new ontology by a legal history with contents `s`. -/
def OntoSpec.Reaches (o : Onto) (s : Abs) : Prop :=
  ∃ ops, LegalRun Abs.empty ops ∧ Onto.empty.run ops = some o ∧ s = Abs.empty.run ops

end Cowl
