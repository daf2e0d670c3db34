/-!
# IRI and version of an ontology

Models `cowl_ontology_set_iri` and `cowl_ontology_set_version`
(`src/cowl_ontology.c:427-437`), the getters (`src/cowl_ontology.c:149-155`, which read the members) and the
part of `cowl_ontology_free` that concerns them (`src/cowl_ontology.c:47-49`), over
reference counters. IRIs are addresses; a counter of zero means that the object has
been freed. `none` stands for undefined behaviour: retaining or releasing an object
that has been freed. Counters are unbounded (their overflow is C01).
-/
namespace Cowl.Header

/-- The `iri` and `version` members of `CowlOntology` (`cowl_ontology_private.h`),
the reference counters, and (ghost, read by no function) the references that others
own. -/
structure St where
  iri : Option Nat
  version : Option Nat
  rc : Nat → Nat
  ext : Nat → Nat

/-- `cowl_retain`, `cowl_object.c:157-160`. -/
def retain (rc : Nat → Nat) (a : Nat) : Option (Nat → Nat) :=
  if rc a = 0 then none else some fun b => if b = a then rc a + 1 else rc b

/-- `cowl_release`, `cowl_object.c:171-194`. -/
def release (rc : Nat → Nat) (a : Nat) : Option (Nat → Nat) :=
  if rc a = 0 then none else some fun b => if b = a then rc a - 1 else rc b

/-- `cowl_release` of a pointer that may be null, `cowl_object.c:172`. -/
def releaseOpt (rc : Nat → Nat) : Option Nat → Option (Nat → Nat)
  | none => some rc
  | some a => release rc a

/-- `x ? cowl_retain(x) : NULL`, `cowl_ontology.c:429`, `435`. -/
def retainOpt (rc : Nat → Nat) : Option Nat → Option (Nat → Nat)
  | none => some rc
  | some a => retain rc a

/-- `cowl_ontology_set_iri`, `cowl_ontology.c:427-431`. -/
def St.setIri (s : St) (x : Option Nat) : Option St :=
  match releaseOpt s.rc s.iri with
  | none => none
  | some rc =>
    match retainOpt rc x with
    | none => none
    | some rc => some { s with iri := x, rc := rc }

/-- `cowl_ontology_set_version`, `cowl_ontology.c:433-437`. -/
def St.setVersion (s : St) (x : Option Nat) : Option St :=
  match releaseOpt s.rc s.version with
  | none => none
  | some rc =>
    match retainOpt rc x with
    | none => none
    | some rc => some { s with version := x, rc := rc }

/-- `cowl_ontology_free`, `cowl_ontology.c:47-49`. -/
def St.free (s : St) : Option (Nat → Nat) :=
  match releaseOpt s.rc s.iri with
  | none => none
  | some rc => releaseOpt rc s.version

end Cowl.Header
