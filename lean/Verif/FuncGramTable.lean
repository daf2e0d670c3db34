import Verif.FuncGramSpec
import Verif.FuncLexLemmas
/-! # Lemmas: the table of productions and the rules of the grammar -/
namespace Cowl.Gram
open YOwn (NT Term rules)
open Func (Cat Arg Kw prod)

/-- The nonterminals of a category. -/
def catNTs : Cat → List NT
  | .iri => [.iri]
  | .ent .cls => [.cls]
  | .ent .datatype => [.datatype]
  | .ent .objProp => [.objectProperty]
  | .ent .dataProp => [.dataPropertyExpression]
  | .ent .annotProp => [.annotationProperty]
  | .ent .namedInd => [.namedIndividual]
  | .ind => [.individual]
  | .lit => [.literal]
  | .ope => [.objectPropertyExpression]
  | .dr => [.dataRange]
  | .ce => [.classExpression]
  | .facet => [.facetRestriction]
  | .annotVal => [.annotationValue]
  | .annotSubj => [.annotationSubject]
  | .annotation => [.annotation]
  | .entity => [.entity]
  | .subOpe => [.objectPropertyExpression, .propertyExpressionChain]
  | .ax => [.ax]

/-- The nonterminal of lists of some length. -/
def listNT : Cat → Nat → Option NT
  | .ce, 2 => some .classExpression2List
  | .dr, 2 => some .dataRange2List
  | .ind, 2 => some .individual2List
  | .ope, 2 => some .objectPropertyExpression2List
  | .ent .dataProp, 2 => some .dataPropertyExpression2List
  | .ind, 1 => some .individualList
  | .lit, 1 => some .literalList
  | .facet, 1 => some .facetRestrictionList
  | .ope, 0 => some .objectPropertyExpressionStar
  | .ent .dataProp, 0 => some .dataPropertyExpressionStar
  | _, _ => none

/-- The nonterminal of lists. -/
def listSym (c : Cat) (k : Nat) : List GSym := (listNT c k).toList.map .n

/-- The right-hand sides of arguments. -/
def argAlts : List Arg → List (List GSym)
  | [] => [[]]
  | .one c :: as => (catNTs c).flatMap fun x => (argAlts as).map (.n x :: ·)
  | .many c k :: as => (argAlts as).map (listSym c k ++ ·)
  | .opt c :: as => argAlts as ++ (catNTs c).flatMap fun x => (argAlts as).map (.n x :: ·)
  | .group c :: as => (argAlts as).map fun l => .t .lpar :: (listSym c 0 ++ .t .rpar :: l)
  | .card :: as => (argAlts as).map (.n .cardinality :: ·)

/-- The right-hand side of a production, after the parenthesis. -/
def prodTail (annotated : Bool) (l : List GSym) : List GSym :=
  (if annotated then [.n .annotationStar] else []) ++ (l ++ [.t .rpar])

/-- The right-hand side is that of a nonterminal, or of one that it is. -/
def derives : Nat → NT → List GSym → Bool
  | 0, _, _ => false
  | n + 1, x, rhs => rules.any fun r => r.lhs == x && (r.rhs == rhs || match r.rhs with
    | [.n y] => derives n y rhs
    | _ => false)

/-- Every production is one of the grammar. -/
theorem prod_rule : ∀ k ∈ Kw.all, ∀ pr ∈ prod k, ∀ l ∈ argAlts pr.args, ∀ x ∈ catNTs pr.cat,
    derives 3 x (.t (.kw k) :: .t .lpar :: prodTail pr.annotated l) = true := by
  decide +kernel

end Cowl.Gram
