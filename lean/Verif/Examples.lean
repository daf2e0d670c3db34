import Verif.Onto
import Verif.FuncDoc
import Verif.Change
import Verif.Api
/-! # The example programs that ask for subclasses

The programs of `examples/src` load `example_pizza.owl` and ask for the subclasses of `Food`; the document and
the class are parameters here. The document is taken to be in functional syntax (the choice of the reader is
modelled in `Verif.Reader`). What a program prints are the lines below its heading. -/
namespace Cowl.Examples
open Change Func Prefix

/-- `COWL_AF_SUB_CLASS`, `include/cowl_axiom_flags.h:49`: bit `COWL_AT_SUB_CLASS`, which is 1. -/
def afSubClass : BitVec 64 := 2#64

/-- `cowl_ontology_iterate_sub_classes`, `include/cowl_ontology.h:448-451`. -/
def iterSubClasses {σ : Type} (o : Onto) (c : Iri) (k : Callback σ Obj) (s : σ) : σ × Ret :=
  o.iterRelated (.ent .cls c) afSubClass psLeft k s

/-- `for_each_cls`, `examples/src/02_query.c:22-30`: a line for an atomic class, nothing for another class
expression. -/
def queryCb : Callback (List Str) Obj := fun out x =>
  match x with
  | .prim (.ent .cls i) => (out ++ [i.rem], .ok)
  | _ => (out, .ok)

/-- `main`, `examples/src/02_query.c:32-55`: `none` if the ontology could not be loaded. The prefix map of the
reader, the prefix map of the ontology and the addresses are those of a fresh start. -/
def queryMain (dflt : Fwd) (c : Iri) (txt : Str) : Option (List Str) :=
  match funcRead ontoHandler (create [0, 1, 2, 3] dflt) 20 txt (OntoSt.new [0, 1, 2, 3] dflt, 100) with
  | ((o, _), .ok) => some (iterSubClasses o.onto c queryCb []).1
  | _ => none

/-- What `puts` shows of a string, `examples/src/06_istream.c:40`: everything before the first NUL. -/
def shown (s : Str) : Str := s.takeWhile (· != 0)

/-- `handle_axiom`, `examples/src/06_istream.c:24-42`. -/
def streamCb (c : Iri) : Callback (List Str) Item := fun out x =>
  match x with
  | .ax o =>
    if o.otype != .aSubClass then (out, .ok)
    else match Api.subClsAxiomGetSuper o, Api.subClsAxiomGetSub o with
      | some sup, some sub =>
        if !(Obj.prim (.ent .cls c)).equals sup then (out, .ok)
        else match sub with
          | .prim (.ent .cls i) => (out ++ [shown i.rem], .ok)
          | _ => (out, .ok)
      | _, _ => (out, .ok)
  | _ => (out, .ok)

/-- `main`, `examples/src/06_istream.c:44-64`: the lines, and whether it ends with success. -/
def streamMain (dflt : Fwd) (c : Iri) (txt : Str) : List Str × Bool :=
  let r := funcRead (streamCb c) (create [0, 1, 2, 3] dflt) 20 txt []
  (r.1, r.2 == .ok)

/-- `for_each_cls`, `examples/src/03_recursive_query.c:28-39`. The program recurses as deep as the stack allows:
`fuel` is the number of calls that fit, `none` means that there was no room for a call, after which nothing is
defined. -/
def recCb (o : Onto) : Nat → Callback (Option (List Str)) Obj
  | 0, _, _ => (none, .ok)
  | fuel + 1, out, x =>
    match out, x with
    | none, _ => (none, .ok)
    | some out, .prim (.ent .cls i) => iterSubClasses o i (recCb o fuel) (some (out ++ [i.rem]))
    | some out, _ => (some out, .ok)

/-- The query of `main`, `examples/src/03_recursive_query.c:57-58`. -/
def recQuery (fuel : Nat) (o : Onto) (c : Iri) : Option (List Str) :=
  (iterSubClasses o c (recCb o fuel) (some [])).1

/-- `COWL_AF_EQUIV_CLASSES`, `include/cowl_axiom_flags.h:52`: bit `COWL_AT_EQUIV_CLASSES`, which is 2. -/
def afEquivClasses : BitVec 64 := 4#64

/-- The filter of `main`, `examples/src/04_advanced_query.c:47-50`. -/
def advancedFilter (c p : Iri) : Filter :=
  ((Filter.mk (afSubClass ||| afEquivClasses) [] none).addPrimitive (.ent .cls c)).addPrimitive (.ent .objProp p)

/-- The query of `main`, `examples/src/04_advanced_query.c:55-57`: the axioms in the set (there in the order of
insertion; the program prints them in the order of the hash table). -/
def advancedQuery (o : Onto) (c p : Iri) : List Ref :=
  (o.iterAxiomsMatching (advancedFilter c p) (storeSetCb fun a b => a.obj.equals b.obj) []).1

end Cowl.Examples
