import Verif.Vector
import Verif.Masks
/-!
# Ontologies

Models `src/cowl_ontology.c` with `src/cowl_axiom_filter_private.h` and
`include/cowl_axiom_filter.h`: the vectors of axioms by type, the index from
primitives to axioms, annotations and imports. The ontology IRI and version are
in `Verif.OntoHeader`, the prefix map in `Verif.PrefixMap`.

Identity matters (axioms are removed by address), so an axiom is a `Ref`.
Primitives are canonical (C04), so a primitive is its content. Allocation
failure is not modelled, hence operations that can fail only that way have no
return code. `Option` results: `none` is undefined behaviour.
-/
namespace Cowl

/-- `struct CowlOntology`, `cowl_ontology_private.h:24-33`. `none` is a null
vector. The tables `refs[0..7]`, one per primitive type, are one association
list here: a primitive carries its type (`Prim.bit`), and the table of a type is
the part of the list with keys of that type. Keys are kept in order of
insertion; the iteration order of the hash table is a parameter of the functions
that iterate. `refs` is, per address, the balance of retains and releases done
by the ontology on its axioms, annotations and imports. -/
structure Onto where
  disabled : Bool
  imports : Option (List Ref)
  annot : Option (List Ref)
  byType : Nat → Option (List Ref)
  idx : List (Prim × Option (List Ref))
  refs : Nat → Int

/-- `cowl_ontology`, `cowl_ontology.c:36-44`. -/
def Onto.empty : Onto := ⟨false, none, none, fun _ => none, [], fun _ => 0⟩

/-- `cowl_axiom_get_type`, `include/cowl_axiom.h:54-56`. -/
def axType (x : Obj) : Nat := x.otype.code - OType.aDecl.code

/-- `cowl_vector_count` on a possibly null vector. -/
def vecCount (v : Option (List Ref)) : Nat := (v.getD []).length

/-- `pindex`, `cowl_ontology.c:76-79`. -/
def Onto.pindex (o : Onto) (p : Prim) : Option (List Ref) := (o.idx.lookup p).join

/-- `tindex`, `cowl_ontology.c:82-84`. -/
def Onto.tindex (o : Onto) (t : Nat) : Option (List Ref) := o.byType t

/-- `struct BestPrimitiveCtx`, `cowl_ontology.c:86-91`; `none`: nothing chosen yet. -/
abbrev Best := Option (Prim × Option (List Ref))

/-- `best_pindex_foreach`, `cowl_ontology.c:93-105`. Simplification: the initial
count `ULIB_UINT_MAX` is above every count. -/
def bestCb (o : Onto) : Callback Best Prim := fun b p =>
  let v := o.pindex p
  match b with
  | none => (some (p, v), .ok)
  | some (_, w) => if vecCount v < vecCount w then (some (p, v), .ok) else (b, .ok)

/-- `best_pindex`, `cowl_ontology.c:107-114`. -/
def Onto.bestPindex (o : Onto) (x : Obj) : Best := (iterPrims Masks.pfAll (bestCb o) x none).1

/-- `best_index_between`, `cowl_ontology.c:116-120`. -/
def bestBetween (a b : Option (List Ref)) : Option (List Ref) :=
  match a, b with
  | none, b => b
  | a, none => a
  | some a, some b => if a.length < b.length then some a else some b

/-- `best_index`, `cowl_ontology.c:122-127`, on an axiom (which is no primitive). -/
def Onto.bestIndex (o : Onto) (x : Obj) (t : Nat) : Option (List Ref) :=
  match o.tindex t with
  | none => none
  | some v => bestBetween ((o.bestPindex x).bind Prod.snd) (some v)

/-! ## Counts -/

/-- A count as `ulib_uint` (32 bits). -/
abbrev u32 (n : Nat) : BitVec 32 := BitVec.ofNat 32 n

/-- `cowl_ontology_axiom_count`, `cowl_ontology.c:161-169`. -/
def Onto.axiomCount (o : Onto) : BitVec 32 :=
  (List.range 37).foldl (fun c t => c + u32 (vecCount (o.tindex t))) 0#32

/-- `cowl_ontology_import_count`, `cowl_ontology.c:171-173`. -/
def Onto.importCount (o : Onto) : BitVec 32 := u32 (vecCount o.imports)

/-- `cowl_ontology_axiom_count_for_type`, `cowl_ontology.c:175-177`. -/
def Onto.axiomCountForType (o : Onto) (t : Nat) : BitVec 32 := u32 (vecCount (o.tindex t))

/-- The types of a mask in the order of `cowl_axiom_flags_foreach_type`; the
loop always ends (`C43_foreach`). -/
def typesOf (f : BitVec 64) : List Nat := (Masks.foreachType 38 f).getD []

/-- `cowl_ontology_axiom_count_for_types`, `cowl_ontology.c:179-185`. -/
def Onto.axiomCountForTypes (o : Onto) (f : BitVec 64) : BitVec 32 :=
  (typesOf f).foldl (fun c t => c + o.axiomCountForType t) 0#32

/-- `cowl_is_entity` with `cowl_entity_get_iri`: the IRI of an entity. -/
def Prim.entIri? : Prim → Option Prim
  | .ent _ i => some (.iri i)
  | _ => none

/-- `cowl_ontology_axiom_count_for_primitive`, `cowl_ontology.c:187-196`. -/
def Onto.axiomCountForPrimitive (o : Onto) (p : Prim) : BitVec 32 :=
  match p.entIri? with
  | some i => u32 (vecCount (o.pindex p)) + u32 (vecCount (o.pindex i))
  | none => u32 (vecCount (o.pindex p))

/-- The keys of table `refs[i]`. -/
def Onto.keys (o : Onto) (i : Nat) : List Prim := (o.idx.map Prod.fst).filter fun p => p.bit = i

/-- `cowl_ontology_primitive_count`, `cowl_ontology.c:198-208`. -/
def Onto.primitiveCount (o : Onto) (fl : BitVec 8) : BitVec 32 :=
  (List.range 8).foldl (fun c i => if Masks.hasType fl i then c + u32 (o.keys i).length else c) 0#32

/-- `uhash_contains` on the table of the primitive's type. -/
def Onto.hasKey (o : Onto) (p : Prim) : Bool := (o.idx.lookup p).isSome

/-- `cowl_ontology_has_primitive`, `cowl_ontology.c:210-220`. -/
def Onto.hasPrimitive (o : Onto) (p : Prim) : Bool :=
  if o.hasKey p then true
  else match p.entIri? with
    | some i => o.hasKey i
    | none => false

/-- `cowl_ontology_has_axiom`, `cowl_ontology.c:222-225`. -/
def Onto.hasAxiom (o : Onto) (x : Obj) : Bool :=
  match o.bestIndex x (axType x) with
  | none => false
  | some v => v.any fun y => y.obj.equals x

/-! ## Iteration -/

/-- `cowl_vector_foreach` with the usual stop test, on a possibly null vector. -/
def iterVec {σ : Type} (v : Option (List Ref)) (k : Callback σ Ref) (s : σ) : σ × Ret :=
  iterList k (v.getD []) s

/-- `cowl_ontology_iterate_annot`, `cowl_ontology.c:227-233`. -/
def Onto.iterAnnot {σ : Type} (o : Onto) (k : Callback σ Ref) (s : σ) : σ × Ret :=
  iterVec o.annot k s

/-- `cowl_ontology_iterate_imports`, `cowl_ontology.c:235-241`. -/
def Onto.iterImports {σ : Type} (o : Onto) (k : Callback σ Ref) (s : σ) : σ × Ret :=
  iterVec o.imports k s

/-- Inner loop of `cowl_ontology_iterate_primitives`, `cowl_ontology.c:247-250`. -/
def iterKeys {σ : Type} (fl : BitVec 8) (k : Callback σ Prim) : List Prim → σ → σ × Ret
  | [], s => (s, .ok)
  | p :: ps, s =>
    let r := iterPrims fl k (.prim p) s
    if r.2.shouldStop then r else iterKeys fl k ps r.1

/-- Outer loop, `cowl_ontology.c:245-251`; `order` is the iteration order of the
hash table. -/
def iterTables {σ : Type} (o : Onto) (order : List Prim → List Prim) (fl : BitVec 8)
    (k : Callback σ Prim) : List Nat → σ → σ × Ret
  | [], s => (s, .ok)
  | i :: is, s =>
    if Masks.hasType fl i then
      let r := iterKeys fl k (order (o.keys i)) s
      if r.2.shouldStop then r else iterTables o order fl k is r.1
    else iterTables o order fl k is s

/-- `cowl_ontology_iterate_primitives`, `cowl_ontology.c:243-253`. -/
def Onto.iterPrimitives {σ : Type} (o : Onto) (order : List Prim → List Prim) (fl : BitVec 8)
    (k : Callback σ Prim) (s : σ) : σ × Ret :=
  iterTables o order fl k (List.range 8) s

/-- `cowl_ontology_iterate_axioms_of_type`, `cowl_ontology.c:265-272`. -/
def Onto.iterAxiomsOfType {σ : Type} (o : Onto) (t : Nat) (k : Callback σ Ref) (s : σ) : σ × Ret :=
  iterVec (o.tindex t) k s

/-- Loop over types, `cowl_ontology.c:256-261` and `276-279`. -/
def iterTypes {σ : Type} (o : Onto) (k : Callback σ Ref) : List Nat → σ → σ × Ret
  | [], s => (s, .ok)
  | t :: ts, s =>
    let r := o.iterAxiomsOfType t k s
    if r.2.shouldStop then r else iterTypes o k ts r.1

/-- `cowl_ontology_iterate_axioms`, `cowl_ontology.c:255-263`. -/
def Onto.iterAxioms {σ : Type} (o : Onto) (k : Callback σ Ref) (s : σ) : σ × Ret :=
  iterTypes o k (List.range 37) s

/-- `cowl_ontology_iterate_axioms_of_types`, `cowl_ontology.c:274-281`. -/
def Onto.iterAxiomsOfTypes {σ : Type} (o : Onto) (f : BitVec 64) (k : Callback σ Ref) (s : σ) :
    σ × Ret :=
  iterTypes o k (typesOf f) s

/-- `cowl_ontology_iterate_axioms_for_primitive`, `cowl_ontology.c:283-301`. -/
def Onto.iterAxiomsForPrimitive {σ : Type} (o : Onto) (p : Prim) (k : Callback σ Ref) (s : σ) :
    σ × Ret :=
  let r := iterVec (o.pindex p) k s
  if r.2.shouldStop then r
  else match p.entIri? with
    | some i => iterVec (o.pindex i) k r.1
    | none => (r.1, .ok)

/-! ## Filters -/

/-- `CowlAxiomFilter`, `include/cowl_axiom_filter.h:27-38`. The closure is a pure
function of the axiom. -/
structure Filter where
  types : BitVec 64
  prims : List Prim
  closure : Option (Ref → Bool)

/-- `cowl_axiom_filter_add_primitive`, `cowl_axiom_filter.h:101-106`. -/
def Filter.addPrimitive (f : Filter) (p : Prim) : Filter :=
  if p ∈ f.prims then f else { f with prims := f.prims ++ [p] }

/-- `cowl_axiom_filter_remove_primitive`, `cowl_axiom_filter.h:115-120`. -/
def Filter.removePrimitive (f : Filter) (p : Prim) : Filter :=
  match f.prims.findIdx? (· = p) with
  | some i => { f with prims := swapRemove f.prims i }
  | none => f

/-- `cowl_axiom_filter_matches_types`, `cowl_axiom_filter_private.h:37-40`. -/
def Filter.matchesTypes (f : Filter) (a : Ref) : Bool :=
  f.types == Masks.afAll || Masks.hasType f.types (axType a.obj)

/-- `cowl_axiom_filter_matches_primitives`, `cowl_axiom_filter_private.h:44-49`. -/
def Filter.matchesPrims (f : Filter) (a : Ref) : Bool := f.prims.all fun p => Cowl.hasPrimitive a.obj p

/-- `cowl_axiom_filter_matches_filter`, `cowl_axiom_filter_private.h:53-55`. -/
def Filter.matchesClosure (f : Filter) (a : Ref) : Bool :=
  match f.closure with
  | none => true
  | some c => c a

/-- `cowl_axiom_filter_matches`, `cowl_axiom_filter_private.h:59-63`. -/
def Filter.matches (f : Filter) (a : Ref) : Bool :=
  f.matchesTypes a && f.matchesPrims a && f.matchesClosure a

/-- `best_pindex_for_filter`, `cowl_ontology.c:303-325`: the updated filter, and
the chosen primitive with its index. -/
def Onto.bestForFilter (o : Onto) (f : Filter) : Filter × Best :=
  let b := o.bestPindex (.vec false (f.prims.map Obj.prim))
  let count := vecCount (b.bind Prod.snd)
  if count = 0 ∨ Masks.hasNoTypes f.types then ({ f with types := 0#64 }, none)
  else
    let fb : Filter × Best :=
      if Masks.hasAllTypes f.types then ({ f with types := Masks.afAll }, b)
      else if (o.axiomCountForTypes f.types).toNat < count then (f, none)
      else (f, b)
    match fb.2 with
    | none => (fb.1, none)
    | some (p, v) => (fb.1.removePrimitive p, some (p, v))

/-- `iterate_axioms_matching_foreach`, `cowl_ontology.c:332-336`. -/
def matchingCb {σ : Type} (f : Filter) (k : Callback σ Ref) : Callback σ Ref := fun s a =>
  if f.matches a then k s a else (s, .ok)

/-- `cowl_ontology_iterate_axioms_matching`, `cowl_ontology.c:338-390`. -/
def Onto.iterAxiomsMatching {σ : Type} (o : Onto) (f0 : Filter) (k : Callback σ Ref) (s : σ) :
    σ × Ret :=
  let (f, best) := o.bestForFilter f0
  if f.types = 0#64 then (s, .ok)
  else
    let checkTypes : Bool := f.types != Masks.afAll
    let checkPrims : Bool := f.prims.length != 0
    let checkFilter : Bool := f.closure.isSome
    match best with
    | some (p, _) =>
      if checkTypes || checkPrims || checkFilter then o.iterAxiomsForPrimitive p (matchingCb f k) s
      else o.iterAxiomsForPrimitive p k s
    | none =>
      let types := f.types
      let f := { f with types := Masks.afAll }
      if !checkTypes && !checkPrims && !checkFilter then o.iterAxioms k s
      else if checkTypes && !checkPrims && !checkFilter then o.iterAxiomsOfTypes types k s
      else if checkTypes then o.iterAxiomsOfTypes types (matchingCb f k) s
      else o.iterAxioms (matchingCb f k) s

/-- `iterate_related_foreach_foreach`, `cowl_ontology.c:399-403`. -/
def relatedOpCb {σ : Type} (p : Prim) (k : Callback σ Obj) : Callback σ Obj := fun s op =>
  match op with
  | .prim q => if q = p then (s, .ok) else k s op
  | _ => k s op

/-- `iterate_related_foreach`, `cowl_ontology.c:405-411`. -/
def relatedCb {σ : Type} (p : Prim) (types : BitVec 64) (pos : BitVec 8) (k : Callback σ Obj) :
    Callback σ Ref := fun s a =>
  if !Masks.hasType types (axType a.obj) then (s, .ok)
  else if !hasOperand a.obj (.prim p) psAny then (s, .ok)
  else iterOperands a.obj pos (relatedOpCb p k) s

/-- `cowl_ontology_iterate_related`, `cowl_ontology.c:413-425`. -/
def Onto.iterRelated {σ : Type} (o : Onto) (p : Prim) (types : BitVec 64) (pos : BitVec 8)
    (k : Callback σ Obj) (s : σ) : σ × Ret :=
  match o.pindex p with
  | some v => iterList (relatedCb p types pos k) v s
  | none => (s, .ok)

/-! ## Changes -/

/-- `vector_ptr_add`, `cowl_ontology.c:444-447`. -/
def vecPtrAdd (v : Option (List Ref)) (x : Ref) : Option (List Ref) := some (v.getD [] ++ [x])

/-- `vector_ptr_remove`, `cowl_ontology.c:449-457`: the vectors are ordered, so
`cowl_vector_remove` (`cowl_vector.c:193-202`) takes out the first equal item
and closes the gap; an emptied vector is released. -/
def vecPtrRemove (v : Option (List Ref)) (x : Ref) : Option (List Ref) × Bool :=
  match v with
  | none => (none, false)
  | some xs =>
    match xs.findIdx? fun y => y.obj.equals x.obj with
    | none => (some xs, false)
    | some i =>
      let ys := xs.eraseIdx i
      (if ys.length = 0 then none else some ys, true)

/-- `add_primitive_to_map`, `cowl_ontology.c:459-465`. -/
def putKey (m : List (Prim × Option (List Ref))) (p : Prim) : List (Prim × Option (List Ref)) :=
  if (m.lookup p).isSome then m else m ++ [(p, none)]

/-- `cowl_ontology_add_annot`, `cowl_ontology.c:473-479` with `467-471`. -/
def Onto.addAnnot (o : Onto) (x : Ref) : Onto :=
  { o with
    idx := (iterPrims Masks.pfAll (fun m p => (putKey m p, .ok)) x.obj o.idx).1
    annot := vecPtrAdd o.annot x
    refs := bump o.refs x.addr 1 }

/-- Release of the argument after a successful removal, `cowl_vector.c:200`. -/
def releasedIf (refs : Nat → Int) (x : Ref) (b : Bool) : Nat → Int :=
  if b then bump refs x.addr (-1) else refs

/-- `cowl_ontology_remove_annot`, `cowl_ontology.c:481-483`. -/
def Onto.removeAnnot (o : Onto) (x : Ref) : Onto × Bool :=
  let r := vecPtrRemove o.annot x
  ({ o with annot := r.1, refs := releasedIf o.refs x r.2 }, r.2)

/-- `cowl_ontology_has_import`, `cowl_ontology.c:485-487`. -/
def Onto.hasImport (o : Onto) (x : Ref) : Bool :=
  (o.imports.getD []).any fun y => y.obj.equals x.obj

/-- `cowl_ontology_add_import`, `cowl_ontology.c:489-491`. -/
def Onto.addImport (o : Onto) (x : Ref) : Onto :=
  { o with imports := vecPtrAdd o.imports x, refs := bump o.refs x.addr 1 }

/-- `cowl_ontology_remove_import`, `cowl_ontology.c:493-495`. -/
def Onto.removeImport (o : Onto) (x : Ref) : Onto × Bool :=
  let r := vecPtrRemove o.imports x
  ({ o with imports := r.1, refs := releasedIf o.refs x r.2 }, r.2)

/-- `add_axiom_to_map`, `cowl_ontology.c:497-516`. -/
def putAxiom (a : Ref) : List (Prim × Option (List Ref)) → Prim → List (Prim × Option (List Ref))
  | [], p => [(p, some [a])]
  | (q, v) :: m, p =>
    if p = q then (q, some (v.getD [] ++ [a])) :: m else (q, v) :: putAxiom a m p

/-- Replacement of one vector of `axioms_by_type`. -/
def setType (f : Nat → Option (List Ref)) (t : Nat) (v : Option (List Ref)) :
    Nat → Option (List Ref) := fun u => if u = t then v else f u

/-- `cowl_ontology_add_axiom`, `cowl_ontology.c:534-540` with `518-532`. -/
def Onto.addAxiom (o : Onto) (a : Ref) : Onto :=
  { o with
    idx := if o.disabled then o.idx
      else (iterPrims Masks.pfAll (fun m p => (putAxiom a m p, .ok)) a.obj o.idx).1
    byType := setType o.byType (axType a.obj) (vecPtrAdd (o.tindex (axType a.obj)) a)
    refs := bump o.refs a.addr 1 }

/-- `uvec_foreach_reverse` with pointer comparison and `uvec_unordered_remove_at`,
`cowl_ontology.c:546-551` and `558-563`: the last item at this address goes. -/
def dropLastAt (a : Ref) (xs : List Ref) : List Ref :=
  match xs.reverse.findIdx? fun y => y.addr = a.addr with
  | none => xs
  | some i => swapRemove xs (xs.length - 1 - i)

/-- `remove_axiom_from_map`, `cowl_ontology.c:542-552`. -/
def takeAxiom (a : Ref) : List (Prim × Option (List Ref)) → Prim → List (Prim × Option (List Ref))
  | [], _ => []
  | (q, v) :: m, p => if p = q then (q, v.map (dropLastAt a)) :: m else (q, v) :: takeAxiom a m p

/-- `remove_and_unindex`, `cowl_ontology.c:579-583` with `554-577`. A null type
vector is dereferenced: undefined. -/
def Onto.removeAndUnindex (o : Onto) (a : Ref) : Option Onto :=
  match o.tindex (axType a.obj) with
  | none => none
  | some v => some
    { o with
      byType := setType o.byType (axType a.obj) (some (dropLastAt a v))
      idx := (iterPrims Masks.pfAll (fun m p => (takeAxiom a m p, .ok)) a.obj o.idx).1
      refs := bump o.refs a.addr (-1) }

/-- `cowl_ontology_remove_axiom`, `cowl_ontology.c:585-597`. -/
def Onto.removeAxiom (o : Onto) (a : Ref) : Option (Onto × Bool) :=
  match o.bestIndex a.obj (axType a.obj) with
  | none => some (o, false)
  | some v =>
    if v.reverse.any fun y => a.obj.equals y.obj then (o.removeAndUnindex a).map (·, true)
    else some (o, false)

/-- Which vector `remove_matching` walks over. -/
inductive IndexRef where
  | prim (p : Prim)
  | type (t : Nat)

/-- Current items of that vector. -/
def Onto.items (o : Onto) : IndexRef → List Ref
  | .prim p => (o.pindex p).getD []
  | .type t => (o.tindex t).getD []

/-- Loop of `remove_matching`, `cowl_ontology.c:602-607`: `i` items remain to be
looked at; reading an item beyond the current end is undefined. -/
def removeLoop (x : IndexRef) (f : Filter) : Nat → Onto → BitVec 32 → Option (Onto × BitVec 32)
  | 0, o, c => some (o, c)
  | i + 1, o, c =>
    match (o.items x)[i]? with
    | none => none
    | some a =>
      if f.matches a then
        match o.removeAndUnindex a with
        | none => none
        | some o' => removeLoop x f i o' (c + 1#32)
      else removeLoop x f i o c

/-- `remove_matching`, `cowl_ontology.c:599-609`. -/
def removeMatching (x : IndexRef) (f : Filter) (o : Onto) : Option (Onto × BitVec 32) :=
  removeLoop x f (o.items x).length o 0#32

/-- Loop over types, `cowl_ontology.c:626-628`. -/
def removeTypes (f : Filter) : List Nat → Onto → BitVec 32 → Option (Onto × BitVec 32)
  | [], o, c => some (o, c)
  | t :: ts, o, c =>
    match removeMatching (.type t) f o with
    | none => none
    | some (o', n) => removeTypes f ts o' (c + n)

/-- `cowl_ontology_remove_axioms_matching`, `cowl_ontology.c:611-633`. -/
def Onto.removeAxiomsMatching (o : Onto) (f0 : Filter) : Option (Onto × BitVec 32) :=
  if f0.types = 0#64 then some (o, 0#32)
  else
    let (f, best) := o.bestForFilter f0
    match best with
    | some (p, _) => removeMatching (.prim p) f o
    | none => removeTypes { f with types := Masks.afAll } (typesOf f.types) o 0#32

/-- Release of every item of a vector, `cowl_vector.c:87-95`. -/
def releaseAll (refs : Nat → Int) (xs : List Ref) : Nat → Int :=
  xs.foldl (fun r x => bump r x.addr (-1)) refs

/-- `cowl_ontology_free`, `cowl_ontology.c:47-66`: the balances afterwards. The
vectors of the index are freed without releasing their items. -/
def Onto.free (o : Onto) : Nat → Int :=
  let r := releaseAll (releaseAll o.refs (o.imports.getD [])) (o.annot.getD [])
  (List.range 37).foldl (fun r t => releaseAll r ((o.tindex t).getD [])) r

end Cowl
