import Verif.Obj
/-!
# Specification of object equality

Independent of the code's algorithm: two objects are the same when they are
built the same way, except that the items of a vector that is not flagged as
ordered may come in any order.
-/
namespace Cowl.ObjSpec

mutual
/-- Same object up to the order of items in unordered vectors. -/
inductive Same : Obj → Obj → Prop
  | str (s : Str) : Same (.str s) (.str s)
  | lit (v : Str) (t : LitTag) : Same (.lit v t) (.lit v t)
  | prim (p : Prim) : Same (.prim p) (.prim p)
  | other (t : OType) (a : Nat) : Same (.other t a) (.other t a)
  | ordered {xs ys : List Obj} (h : SameAll xs ys) : Same (.vec true xs) (.vec true ys)
  | unordered {xs zs ys : List Obj} (h : SameAll xs zs) (hp : zs.Perm ys) :
      Same (.vec false xs) (.vec false ys)
  | comp {t : OType} {b : Bool} {fs gs : List Obj} {u v : Nat} (h : SameAll fs gs)
      (hu : t.flags.card = true → u = v) : Same (.comp t b fs u) (.comp t b gs v)

/-- Itemwise the same. -/
inductive SameAll : List Obj → List Obj → Prop
  | nil : SameAll [] []
  | cons {x y : Obj} {xs ys : List Obj} (h : Same x y) (hs : SameAll xs ys) :
      SameAll (x :: xs) (y :: ys)
end

mutual
/-- Objects as an application builds them through the public constructors,
without listing an operand twice:
* a composite has the fields of its type;
* an unordered vector has no two items that are the same;
* the vector in first position of a SubObjectPropertyOf axiom (a property
  chain) is flagged as ordered, all other vectors are not. `c` is the flag
  expected at this place. -/
def Regular (c : Bool) : Obj → Prop
  | .vec o xs => o = c ∧ (o = false → xs.Pairwise fun x y => ¬ Same x y) ∧ RegularItems xs
  | .comp t b fs _ => fs.length = nFields t b ∧ RegularFields (t = .aSubObjProp) fs
  | _ => True

/-- Items of a vector. -/
def RegularItems : List Obj → Prop
  | [] => True
  | x :: xs => Regular false x ∧ RegularItems xs

/-- Fields of a composite; `chain` tells whether a vector in first place is a chain. -/
def RegularFields (chain : Bool) : List Obj → Prop
  | [] => True
  | x :: xs => Regular chain x ∧ RegularItems xs
end

mutual
/-- Every composite, at any depth, has exactly the fields of its type. -/
def WellFormed : Obj → Prop
  | .vec _ xs => WellFormedAll xs
  | .comp t b fs _ => fs.length = nFields t b ∧ WellFormedAll fs
  | _ => True

def WellFormedAll : List Obj → Prop
  | [] => True
  | x :: xs => WellFormed x ∧ WellFormedAll xs
end

end Cowl.ObjSpec
