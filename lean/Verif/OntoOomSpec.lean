import Verif.OntoOom
import Verif.OntoSpec
/-! # Specification of additions when memory runs out -/
namespace Cowl.OntoOom
open OntoSpec

/-- The change an addition stands for when there is enough memory. -/
def Add.op : Add → Op
  | .ax a => .addAxiom a
  | .annot x => .addAnnot x
  | .imp x => .addImport x

/-- The object added. -/
def Add.obj : Add → Ref
  | .ax a => a
  | .annot x => x
  | .imp x => x

/-- Everything an ontology says without its index of primitives is the same. -/
structure Same (o o' : Onto) : Prop where
  axioms : ∀ (σ : Type) (k : σ → Ref → σ × Ret) (s : σ), o'.iterAxioms k s = o.iterAxioms k s
  ofType : ∀ (t : Nat) (σ : Type) (k : σ → Ref → σ × Ret) (s : σ),
    o'.iterAxiomsOfType t k s = o.iterAxiomsOfType t k s
  ofTypes : ∀ (f : BitVec 64) (σ : Type) (k : σ → Ref → σ × Ret) (s : σ),
    o'.iterAxiomsOfTypes f k s = o.iterAxiomsOfTypes f k s
  annots : ∀ (σ : Type) (k : σ → Ref → σ × Ret) (s : σ), o'.iterAnnot k s = o.iterAnnot k s
  imports : ∀ (σ : Type) (k : σ → Ref → σ × Ret) (s : σ), o'.iterImports k s = o.iterImports k s
  count : o'.axiomCount = o.axiomCount
  countOfType : ∀ t, o'.axiomCountForType t = o.axiomCountForType t
  countOfTypes : ∀ f, o'.axiomCountForTypes f = o.axiomCountForTypes f
  countImports : o'.importCount = o.importCount
  hasImport : ∀ x, o'.hasImport x = o.hasImport x

/-- The axioms the index lists for `p`. -/
def listed (o : Onto) (p : Prim) : List Ref := (o.pindex p).getD []

/-- `o` is the result of legal changes with enough memory followed by additions in
any supply of memory; `ops` are the changes whose call did not fail. -/
inductive Grows : Onto → List Op → Prop
  | start {o : Onto} {ops : List Op} (h : LegalRun Abs.empty ops) (e : Onto.empty.run ops = some o) :
      Grows o ops
  | ok {o o' : Onto} {ops : List Op} {os : List Out} {x : Add} (h : Grows o ops)
      (hl : Legal (Abs.empty.run ops) x.op) (e : x.run os o = some (o', .ok)) :
      Grows o' (ops ++ [x.op])
  | failed {o o' : Onto} {ops : List Op} {os : List Out} {x : Add} {r : Ret} (h : Grows o ops)
      (hl : Legal (Abs.empty.run ops) x.op) (e : x.run os o = some (o', r)) (hr : r ≠ .ok) :
      Grows o' ops

end Cowl.OntoOom
