import Verif.Onto
/-!
# Additions to an ontology when memory runs out

`Verif.Onto` leaves out allocation failure. Here the three additions of
`src/cowl_ontology.c` are modelled with it: `cowl_ontology_add_axiom`,
`cowl_ontology_add_annot` and `cowl_ontology_add_import`. `none` is undefined
behaviour.
-/
namespace Cowl.OntoOom

/-- What happens to the memory one insertion asks for. `put`: `uhash_put` cannot
grow the table. `vec`: the vector object cannot be allocated. `push`: `uvec_push`
cannot grow the vector. A step that allocates nothing ignores the outcomes that
do not concern it. -/
inductive Out where
  | ok
  | put
  | vec
  | push
  deriving DecidableEq

/-- The outcome for the next insertion, and the later ones. Once the list is used
up there is enough memory. -/
def next : List Out → Out × List Out
  | [] => (.ok, [])
  | o :: os => (o, os)

/-- Tables of primitives, as in `Onto.idx`. -/
abbrev Idx := List (Prim × Option (List Ref))

/-- `uhmap_set_val` of a new empty vector for the key just put,
`cowl_ontology.c:500-507`. -/
def touch : Idx → Prim → Idx
  | [], p => [(p, some [])]
  | (q, v) :: m, p => if p = q then (q, some (v.getD [])) :: m else (q, v) :: touch m p

/-- State of the iteration over the primitives of an axiom: outcomes to come,
tables, balances. `none`: undefined behaviour has happened. -/
abbrev St := Option (List Out × Idx × (Nat → Int))

/-- `add_axiom_to_map`, `cowl_ontology.c:497-516`, called by
`index_axiom_foreach`, `522-526`. `cowl_vector_ordered_empty`
(`cowl_vector.c:81-85`) sets a bit of the object it could not allocate: undefined.
A failed `cowl_vector_push` (`cowl_vector.c:183-190`) releases the axiom. Every
error of `uhash_put` is lack of memory. -/
def addToMap (a : Ref) : Callback St Prim := fun s p =>
  match s with
  | none => (none, .errMem)
  | some (os, m, r) =>
    match (next os).1 with
    | .ok => (some ((next os).2, putAxiom a m p, r), .ok)
    | .put => (some ((next os).2, m, r), .errMem)
    | .vec =>
      if (m.lookup p).join.isSome then (some ((next os).2, putAxiom a m p, r), .ok)
      else (none, .errMem)
    | .push => (some ((next os).2, touch m p, bump r a.addr (-1)), .errMem)

/-- `index_axiom`, `cowl_ontology.c:528-532`. -/
def index (a : Ref) (s : St) : St × Ret := iterPrims Masks.pfAll (addToMap a) a.obj s

/-- `add_annot_foreach`, `cowl_ontology.c:467-471`, with `add_primitive_to_map`,
`459-465`. No vector is made. -/
def keyToMap : Callback (List Out × Idx) Prim := fun s p =>
  match (next s.1).1 with
  | .put => (((next s.1).2, s.2), .errMem)
  | _ => (((next s.1).2, putKey s.2 p), .ok)

/-- Result of `vecPtrAddM`: the vector and whether the object was added. -/
abbrev Added := Option (List Ref) × Bool

/-- `vector_ptr_add`, `cowl_ontology.c:444-447`, with `cowl_vector_add`,
`cowl_vector.c:176-181`. -/
def vecPtrAddM (os : List Out) (v : Option (List Ref)) (x : Ref) : Option Added :=
  match (next os).1 with
  | .vec => if v.isSome then some (vecPtrAdd v x, true) else none
  | .push => some (some (v.getD []), false)
  | _ => some (vecPtrAdd v x, true)

/-- `cowl_ontology_add_import`, `cowl_ontology.c:489-491`. -/
def addImport (os : List Out) (o : Onto) (x : Ref) : Option (Onto × Ret) :=
  match vecPtrAddM os o.imports x with
  | none => none
  | some (v, true) => some ({ o with imports := v, refs := bump o.refs x.addr 1 }, .ok)
  | some (v, false) => some ({ o with imports := v }, .errMem)

/-- `cowl_ontology_add_annot`, `cowl_ontology.c:473-479`. -/
def addAnnot (os : List Out) (o : Onto) (x : Ref) : Option (Onto × Ret) :=
  let k := iterPrims Masks.pfAll keyToMap x.obj (os, o.idx)
  let o := { o with idx := k.1.2 }
  if k.2.isErr then some (o, k.2)
  else
    match vecPtrAddM k.1.1 o.annot x with
    | none => none
    | some (v, true) => some ({ o with annot := v, refs := bump o.refs x.addr 1 }, .ok)
    | some (v, false) => some ({ o with annot := v }, .errMem)

/-- `add_axiom`, `cowl_ontology.c:518-520`. -/
def addByType (os : List Out) (o : Onto) (a : Ref) : Option (Onto × Ret) :=
  match vecPtrAddM os (o.tindex (axType a.obj)) a with
  | none => none
  | some (v, true) =>
    some ({ o with byType := setType o.byType (axType a.obj) v, refs := bump o.refs a.addr 1 }, .ok)
  | some (v, false) => some ({ o with byType := setType o.byType (axType a.obj) v }, .errMem)

/-- `cowl_ontology_add_axiom`, `cowl_ontology.c:534-540`. -/
def addAxiom (os : List Out) (o : Onto) (a : Ref) : Option (Onto × Ret) :=
  if o.disabled then addByType os o a
  else
    match index a (some (os, o.idx, o.refs)) with
    | (none, _) => none
    | (some (os', m, r), ret) =>
      if ret.isErr then some ({ o with idx := m, refs := r }, ret)
      else addByType os' { o with idx := m, refs := r } a

/-- The additions. -/
inductive Add where
  | ax (a : Ref)
  | annot (x : Ref)
  | imp (x : Ref)

/-- One of the additions, `cowl_ontology.c:473-540`. -/
def Add.run (os : List Out) (o : Onto) : Add → Option (Onto × Ret)
  | .ax a => addAxiom os o a
  | .annot x => addAnnot os o x
  | .imp x => addImport os o x

end Cowl.OntoOom
