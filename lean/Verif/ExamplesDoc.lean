import Verif.Api
import Verif.FuncSession
import Verif.FuncDocSpec
/-! # The example programs that make the Porcini pizza

`examples/src/05_editing.c` adds it to an ontology that was loaded, `examples/src/07_ostream.c` writes it to a stream.
Nothing fails here for lack of memory, and streams do not fail. -/
namespace Cowl.Examples
open Change Func FuncSpec Prefix FSess Api

/-- `cowl_class_from_literal`, `include/cowl_class.h:70`, and `cowl_obj_prop_from_literal`, `include/cowl_obj_prop.h:72`,
with `cowl_entity_from_string_impl`, `cowl_entity.c:108-118`. -/
def fromLiteral (k : EntKind) (s : String) : Option Obj := (iriFromString (ascii s)).map fun x => .prim (.ent k ⟨x.1, x.2⟩)

/-- The axioms of `examples/src/05_editing.c:36-80` and `07_ostream.c:66-110`, in order. The classes of the pizza
itself have the prefix `own`, the others `base` (the same in the first program). -/
def porciniAxioms (own base : String) : Option (List Obj) := do
  let topping ← fromLiteral .cls (own ++ "PorciniTopping")
  let porcini ← fromLiteral .cls (own ++ "Porcini")
  let mushroom ← fromLiteral .cls (base ++ "MushroomTopping")
  let named ← fromLiteral .cls (base ++ "NamedPizza")
  let has ← fromLiteral .objProp (base ++ "hasTopping")
  let mozzarella ← fromLiteral .cls (base ++ "MozzarellaTopping")
  let some1 ← objSome has (some mozzarella)
  let some2 ← objSome has (some topping)
  let all ← objAll has (some (naryGetImpl .ceObjUnion [mozzarella, topping]))
  return [declAxiom topping none, declAxiom porcini none, subClsAxiom topping mushroom none, subClsAxiom porcini named none,
    subClsAxiom porcini some1 none, subClsAxiom porcini some2 none, subClsAxiom porcini all none]

/-- `NS` of `examples/src/05_editing.c:19`, `IMPORT_NS` of `07_ostream.c:22`. -/
def pizzaNs : String := "http://www.co-ode.org/ontologies/pizza/pizza.owl#"

/-- `NS` of `examples/src/07_ostream.c:25`. -/
def porciniNs : String := "http://example.com/ontologies/porcini_pizza/porcini_pizza.owl#"

/-- `main`, `examples/src/05_editing.c:21-96`: the text that is written, if the document can be read. The inner
option is `none` if writing is undefined. Axioms are added as the reader does (`cowl_ontology_add_axiom`). -/
def editMain (dflt : Fwd) (txt : Str) : Option (Option Str) :=
  match funcRead ontoHandler (create [0, 1, 2, 3] dflt) 20 txt (OntoSt.new [0, 1, 2, 3] dflt, 100), porciniAxioms pizzaNs pizzaNs with
  | (s, .ok), some xs => some (writeDoc (give ontoHandler s (xs.map Item.ax)).1)
  | _, _ => none

/-- The prefix map of `examples/src/07_ostream.c:42-45`, at the addresses 10 and 11; `dflt` are the default prefixes. -/
def porciniMap (dflt : Fwd) : PMap :=
  (((create [0, 1, 2, 3] dflt).add ⟨10, []⟩ (ascii porciniNs) false).1.add ⟨11, ascii "pizza"⟩ (ascii pizzaNs) false).1

/-- Axioms at addresses from `n` on. -/
def numbered : Nat → List Obj → List Ref
  | _, [] => []
  | n, x :: xs => ⟨n, x⟩ :: numbered (n + 1) xs

/-- The header of `examples/src/07_ostream.c:48-57`; the map is at address 1. -/
def porciniHeader : Option FSess.Header := do
  let iri ← iriFromString (ascii "http://example.com/ontologies/porcini_pizza")
  let imp ← iriFromString (ascii "http://www.co-ode.org/ontologies/pizza")
  return ⟨some 1, some ⟨iri.1, iri.2⟩, none, [⟨20, .prim (.iri ⟨imp.1, imp.2⟩)⟩], []⟩

/-- `main`, `examples/src/07_ostream.c:40-116`: the calls of the writer, and those on the map, which is released after the
header. -/
def ostreamOps (dflt : Fwd) : Option (List FSess.Op) := do
  let h ← porciniHeader
  let xs ← porciniAxioms porciniNs pizzaNs
  return [.new 1 (porciniMap dflt)] ++ .header h :: (.drop 1 :: (numbered 30 xs).map .ax ++ [.footer])

end Cowl.Examples
