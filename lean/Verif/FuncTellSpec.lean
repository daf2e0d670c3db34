import Verif.FuncDoc
/-! # Specification: what a reader of functional syntax tells its handler -/
namespace Cowl.FuncTell
open Change Func

/-- A handler is told a list of items. An item that is not accepted ends this, with a code. Two
things are peculiar: a prefix is refused by errors only, and a version is told even if the IRI
of the ontology, just before, was refused. -/
def tell {σ : Type} (h : Callback σ Item) : List Item → σ → σ × Option Ret
  | [], s => (s, none)
  | .prefixDecl p n :: l, s =>
    let r := h s (.prefixDecl p n)
    if r.2.isErr then (r.1, some (if r.2 = .errMem then .errMem else .errSyntax)) else tell h l r.1
  | .iri i :: .version v :: l, s =>
    let r := h s (.iri i)
    let r' := h r.1 (.version v)
    if r.2 = .ok ∧ r'.2 = .ok then tell h l r'.1 else (r'.1, some .errSyntax)
  | i :: l, s =>
    let r := h s i
    if r.2 = .ok then tell h l r.1 else (r.1, some .errSyntax)

/-- The end of reading: the code of a refusal, or else whether the text was accepted. -/
def conclude (accepted : Bool) : Option Ret → Outcome
  | some r => .refused r
  | none => if accepted then .ok else .rejected

end Cowl.FuncTell
