import Verif.FuncOwnMem
/-!
# A check of the actions of the functional reader, and why it is enough

`Abs.step` follows the statements of an action without running them: which values of the right-hand
side still have to be released, what is known about `$$`, and what `$$` refers to.
-/
namespace Cowl.YOwn
open Cowl.Own

/-- What is known about the value of a symbol. -/
inductive Kind where
  | plain | buf | obj | vec | vecOpt
  deriving DecidableEq

/-- Symbols whose value is a vector or NULL. -/
def starNTs : List NT := [.annotationStar, .dataPropertyExpressionStar, .objectPropertyExpressionStar]

def kindOf : Sym → Kind
  | .t .qstr => .buf
  | .t _ => .plain
  | .n x =>
    match x.ctype with
    | none => .plain
    | some .number => .plain
    | some .vector => if x ∈ starNTs then .vecOpt else .vec
    | some _ => .obj

def Kind.isVec : Kind → Bool
  | .vec | .vecOpt => true
  | _ => false

def Kind.isPtr : Kind → Bool
  | .obj | .vec | .vecOpt => true
  | _ => false

/-- Values of the kind. -/
def Shape (v : Val) : Kind → Prop
  | .plain => (∀ p, v ≠ .ptr p) ∧ v ≠ .buf
  | .buf => v = .buf
  | .obj | .vec => ∃ a, v = .ptr (some a)
  | .vecOpt => ∃ p, v = .ptr p

/-- What is known about `$$`. -/
inductive RK where
  | unset | null | obj | maybe | vec | vecE
  deriving DecidableEq

structure Abs where
  own : List Nat
  sole : Bool
  res : RK
  holds : List Nat
  bufs : Nat

def kindAt (ks : List Kind) (i : Nat) : Kind := ks[i - 1]?.getD .plain

def valAt (args : List Val) (i : Nat) : Val := args[i - 1]?.getD .unit

/-- The positions are still owned, and of the kind. -/
def Abs.has (A : Abs) (ks : List Kind) (l : List Nat) (p : Kind → Bool) : Bool :=
  l.all fun i => decide (i ∈ A.own) && p (kindAt ks i)

def isObj : Kind → Bool
  | .obj => true
  | _ => false

def isOneVec : Kind → Bool
  | .vec => true
  | _ => false

def isOne : Kind → Bool
  | .obj | .vec => true
  | _ => false

/-- A statement. -/
def Abs.step (ks : List Kind) (A : Abs) : Stmt → Option Abs
  | .alias i =>
    if A.res = .unset ∧ A.sole = true then
      match kindAt ks i with
      | .obj => if i ∈ A.own then some ⟨A.own.erase i, false, .obj, [], A.bufs⟩ else none
      | .vec => if i ∈ A.own then some ⟨A.own.erase i, false, .vec, [], A.bufs⟩ else none
      | .plain => if (ks[i - 1]?).isSome then some ⟨A.own, false, .unset, [], A.bufs⟩ else none
      | _ => none
    else none
  | .null => if A.res = .unset then some ⟨A.own, false, .null, [], A.bufs⟩ else none
  | .leaf l =>
    if A.res = .unset ∧ A.has ks l isObj then some ⟨A.own, false, .maybe, [], A.bufs⟩ else none
  | .str i =>
    if A.res = .unset ∧ kindAt ks i = .buf ∧ 0 < A.bufs then some ⟨A.own, false, .maybe, [], A.bufs - 1⟩ else none
  | .make k l o =>
    if A.res = .unset ∧ A.sole = true ∧ k ∈ ctors ∧ l.length = k.n ∧ A.has ks l isOne ∧
        A.has ks o.toList (if k.form = .annot then Kind.isVec else isObj) ∧ (k.form = .plain → o = none) then
      some ⟨A.own, false, .obj, l ++ o.toList, A.bufs⟩
    else none
  | .chain i j k =>
    if A.res = .unset ∧ A.sole = true ∧ A.has ks [i] isOneVec ∧ A.has ks [j] isObj ∧ A.has ks [k] Kind.isVec then
      some ⟨A.own, false, .obj, [i, j, k], A.bufs⟩
    else none
  | .hasKey i j k n =>
    if A.res = .unset ∧ A.sole = true ∧ A.has ks [i] isObj ∧ A.has ks [j, k, n] Kind.isVec then
      some ⟨A.own, false, .obj, [i, j, k, n], A.bufs⟩
    else none
  | .lit i j =>
    if A.res = .unset ∧ A.has ks (i :: j.toList) isObj then some ⟨A.own, false, .maybe, [], A.bufs⟩ else none
  | .empty => if A.res = .unset then some ⟨A.own, false, .vecE, [], A.bufs⟩ else none
  | .reuse i =>
    if A.res = .unset ∧ A.sole = true ∧ A.has ks [i] Kind.isVec then
      some ⟨A.own.erase i, false, .vecE, [], A.bufs⟩
    else none
  | .push i =>
    if (A.res = .vec ∨ A.res = .vecE) ∧ A.has ks [i] isObj then some ⟨A.own.erase i, false, .vec, [], A.bufs⟩
    else none
  | .release i => if A.has ks [i] isObj then some ⟨A.own.erase i, false, A.res, A.holds, A.bufs⟩ else none
  | .finalize i =>
    if A.has ks [i] Kind.isVec ∧ i ∈ A.holds then some ⟨A.own.erase i, false, A.res, A.holds, A.bufs⟩ else none
  | .check | .checkSyntax =>
    if A.own = [] ∧ A.bufs = 0 ∧ (A.res = .maybe ∨ A.res = .obj) then some ⟨[], false, .obj, A.holds, 0⟩
    else if A.res = .vec ∨ A.res = .vecE then some ⟨A.own, false, A.res, A.holds, A.bufs⟩
    else none
  | .handle l => if A.res = .unset ∧ A.has ks l isObj then some ⟨A.own, false, .unset, [], A.bufs⟩ else none
  | .failAny | .failErr =>
    if A.own = [] ∧ A.bufs = 0 ∧ A.res = .unset then some ⟨[], false, .unset, [], 0⟩ else none

def Abs.steps (ks : List Kind) (A : Abs) : List Stmt → Option Abs
  | [] => some A
  | x :: xs => (A.step ks x).bind fun A => Abs.steps ks A xs

/-- Before the action: everything on the right-hand side is owned. -/
def Abs.start (ks : List Kind) : Abs :=
  ⟨((List.range ks.length).map (· + 1)).filter fun i => (kindAt ks i).isPtr, true, .unset, [], ks.count .buf⟩

/-- After the action: nothing is left, and `$$` is what it should be. -/
def Abs.done (A : Abs) (k : Kind) : Bool :=
  decide (A.own = []) && decide (A.bufs = 0) &&
    match k with
    | .plain => A.res = .unset
    | .buf => false
    | .obj => A.res = .obj
    | .vec => A.res = .vec
    | .vecOpt => A.res = .vec || A.res = .null

/-- The rule passes the check. -/
def Rule.checks (r : Rule) : Bool :=
  match (Abs.start (r.rhs.map kindOf)).steps (r.rhs.map kindOf) r.act with
  | none => false
  | some A => A.done (kindOf (.n r.lhs))

theorem rules_check : ∀ r ∈ rules, r.checks = true := by decide +kernel

end Cowl.YOwn
