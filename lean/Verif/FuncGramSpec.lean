import Verif.FuncRules
import Verif.FuncFault
/-!
# Specification: the sentences of the grammar of functional syntax

The grammar is the list of rules of `cowl_functional.y` (`YOwn.rules`), without their actions. What it
generates is defined as for any context-free grammar.
-/
namespace Cowl.Gram
open YOwn (NT Term rules)

/-- The symbols of the grammar. -/
abbrev GSym := YOwn.Sym

/-- The words that symbols generate. -/
inductive Gen : List GSym → List Term → Prop where
  | nil : Gen [] []
  | t {x : Term} {α : List GSym} {w : List Term} : Gen α w → Gen (.t x :: α) (x :: w)
  | n {r : YOwn.Rule} {α : List GSym} {u w : List Term} : r ∈ rules → Gen r.rhs u → Gen α w → Gen (.n r.lhs :: α) (u ++ w)

/-- A sentence: the start symbol is `ontology_document`, `cowl_functional.y:297`. -/
def Sentence (w : List Term) : Prop := Gen [.n .ontologyDocument] w

/-- The terminal that a token is. -/
def termOf : Func.Tok → Term
  | .kw k => .kw k
  | .nat _ => .nat
  | .iriRef _ => .iriRef
  | .pnameNs _ => .pnameNs
  | .pnameLn _ => .pnameLn
  | .blank _ => .blank
  | .lang _ => .lang
  | .qstr _ => .qstr
  | .dcaret => .dcaret
  | .lpar => .lpar
  | .rpar => .rpar
  | .equals => .equals
  | .char _ => .other

end Cowl.Gram
