import Verif.Onto
import Verif.PrefixMap
/-!
# Changes of ontologies

Models `src/cowl_change_handler.c` and `include/cowl_change.h`. The change of a handler
is split into its type, which selects a function here, and its part. Handlers must not
change the ontology that is being replayed. Allocation failure is not modelled.
-/
namespace Cowl.Change
open Prefix

/-- `cowl_part` with its value, `include/cowl_change.h:33-64`. -/
inductive Part where
  | prefixDecl (p : SRef) (ns : Str)
  | iri (i : Iri)
  | version (i : Iri)
  | «import» (x : Ref)
  | annot (x : Ref)
  | ax (x : Ref)

/-- `struct CowlOntology`, `cowl_ontology_private.h:24-33`, whole. -/
structure OntoSt where
  pm : PMap
  iri : Option Iri
  version : Option Iri
  onto : Onto

/-- `cowl_ontology`, `cowl_ontology.c:36-44`; the parameters are those of
`Prefix.create`. -/
def OntoSt.new (ks : List Nat) (dflt : Fwd) : OntoSt := ⟨create ks dflt, none, none, Onto.empty⟩

/-- `add_to_ontology`, `cowl_change_handler.c:30-40` with `18-21`; the operations of
ontologies fail only for lack of memory. -/
def addPart (o : OntoSt) : Part → OntoSt × Ret
  | .prefixDecl p n => let r := o.pm.add p n true; ({ o with pm := r.1 }, r.2)
  | .iri i => ({ o with iri := some i }, .ok)
  | .version i => ({ o with version := some i }, .ok)
  | .import x => ({ o with onto := o.onto.addImport x }, .ok)
  | .annot x => ({ o with onto := o.onto.addAnnot x }, .ok)
  | .ax x => ({ o with onto := o.onto.addAxiom x }, .ok)

/-- Conversion of `bool` to `cowl_ret` in the returns of `cowl_change_handler.c:47-49`:
`COWL_OK` is 0 and `COWL_NO` is 1 (`include/cowl_ret.h:36-46`, ulib). -/
def retOfBool (b : Bool) : Ret := if b then .no else .ok

/-- `remove_from_ontology`, `cowl_change_handler.c:42-52` with `23-28`; `none` is
undefined behaviour. -/
def removePart (o : OntoSt) : Part → Option (OntoSt × Ret)
  | .prefixDecl p n =>
    let r := o.pm.removePrefix p.txt
    let s := r.1.removeNs n
    some ({ o with pm := s.1 }, if r.2.isErr then r.2 else s.2)
  | .iri _ => some ({ o with iri := none }, .ok)
  | .version _ => some ({ o with version := none }, .ok)
  | .import x => let r := o.onto.removeImport x; some ({ o with onto := r.1 }, retOfBool r.2)
  | .annot x => let r := o.onto.removeAnnot x; some ({ o with onto := r.1 }, retOfBool r.2)
  | .ax x => (o.onto.removeAxiom x).map fun r => ({ o with onto := r.1 }, retOfBool r.2)

/-- A handler call for a member that may be null, `cowl_change_handler.c:95-103`. -/
def handleOpt {σ : Type} (h : Callback σ Part) (s : σ) : Option Part → σ × Ret
  | none => (s, .ok)
  | some p => h s p

/-- `cowl_change_handler_handle_ontology`, `cowl_change_handler.c:80-116`, with
`handle_change`, `72-78`; the order of prefixes is that of the table. -/
def handleOntology {σ : Type} (h : Callback σ Part) (o : OntoSt) (s : σ) : σ × Ret :=
  let r := iterList h (o.pm.fwd.map fun e => .prefixDecl e.1 e.2) s
  if r.2.shouldStop then r else
  let r := handleOpt h r.1 (o.iri.map .iri)
  if r.2.shouldStop then r else
  let r := handleOpt h r.1 (o.version.map .version)
  if r.2.shouldStop then r else
  let r := o.onto.iterAnnot (fun s x => h s (.annot x)) r.1
  if r.2.shouldStop then r else
  let r := o.onto.iterImports (fun s x => h s (.import x)) r.1
  if r.2.shouldStop then r else
  o.onto.iterAxioms (fun s x => h s (.ax x)) r.1

end Cowl.Change
