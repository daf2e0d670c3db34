import Verif.FuncSession
import Verif.FuncDocSpec
/-! # Specification of documents that are streamed in functional syntax -/
namespace Cowl.FSess
open Prefix PrefixSpec Func FuncSpec Ast

/-- References that the caller holds, by address. -/
abbrev Own := Nat → Nat

/-- Those after an operation. -/
def Own.after (n : Own) : Op → Own
  | .new a _ => fun b => if b = a then 1 else n b
  | .keep a => fun b => if b = a then n b + 1 else n b
  | .drop a => fun b => if b = a then n b - 1 else n b
  | _ => n

/-- A caller that keeps the rules: memory that is allocated was free; maps that are used
are owned; objects are axioms and annotations as the writer expects them. The writer is
given a map with each header, or with none. -/
def Allowed (s : St) (n : Own) : Op → Prop
  | .new a _ => s.mem a = none
  | .set a _ => 0 < n a
  | .keep a => 0 < n a
  | .drop a => 0 < n a
  | .header h => (match h.pm with | none => s.pm = none | some a => 0 < n a) ∧ ∀ x ∈ h.annots, writeDefined x.obj = true
  | .ax x => writeDefined x.obj = true
  | .footer => True

/-- All operations are allowed, as long as there is no undefined behaviour. -/
def Calm : St → Own → List Op → Prop
  | _, _, [] => True
  | s, n, op :: ops => Allowed s n op ∧ ∀ s', s.op op = some s' → Calm s' (n.after op) ops

/-- The reference counts are as they should be: those of the caller, and one of the writer. -/
def Counted (s : St) (n : Own) : Prop :=
  ∀ a, (match s.mem a with | none => 0 | some x => x.2) = n a + (if s.pm = some a then 1 else 0) ∧
    ∀ x, s.mem a = some x → 0 < x.2

/-- Axioms among the operations. -/
def axioms : List Op → List Ref
  | [] => []
  | .ax x :: ops => x :: axioms ops
  | _ :: ops => axioms ops

/-- Operations within a document: axioms, and others of the caller that do not change the map
of the document. -/
def Within (pm : Option Nat) : Op → Prop
  | .header _ => False
  | .footer => False
  | .set a _ => pm ≠ some a
  | _ => True

/-- Prefixes of a map that may be missing. -/
def fwdOf (m : Option PMap) : Fwd := (m.map PMap.fwd).getD []

/-- How names are abbreviated with a map that may be missing. -/
def lookupOf (m : Option PMap) : Str → Option Str :=
  match m with
  | none => fun _ => none
  | some m => lookup m

/-- Headers and axioms that documents can express, as in `DocOk`. -/
structure StreamOk (m : Option PMap) (h : Header) (xs : List Ref) : Prop where
  history : ∀ w, m = some w → ∃ a, PrefixSpec.Reaches False w a
  sound : ∀ w, m = some w → ∀ n p, lookup w n = some p → w.getNs p = some n
  plain : ∀ w, m = some w → ∀ p n, w.getNs p = some n → PlainPrefix p
  chars : ∀ w, m = some w → ∀ p n, w.getNs p = some n → ∀ c ∈ n, IriChar c
  iri : ∀ i, h.iri = some i → IriOk (fun _ => none) i
  version : ∀ v, h.version = some v → h.iri ≠ none ∧ IriOk (fun _ => none) v
  imports : ∀ x ∈ h.imports, ∃ i, x.obj = .prim (.iri i) ∧ IriOk (fun _ => none) i
  annots : ∀ x ∈ h.annots, ∃ a : Annot, x.obj = a.toObj ∧ a.Meets (textReq (lookupOf m))
  axioms : ∀ x ∈ xs, ∃ a : Axiom, x.obj = a.toObj ∧ a.Meets (textReq (lookupOf m))

/-- What the document tells, in order: prefixes that are not standard, IRI, version, imports,
annotations, axioms as they were written. -/
def StreamTells (m : Option PMap) (h : Header) (xs : List Ref) (items : List Item) : Prop :=
  ∃ (ps : Fwd) (is : List Iri),
    ps.Sublist (fwdOf m) ∧ (∀ e ∈ fwdOf m, e ∈ ps ↔ ¬ Standard e.1.txt) ∧
    h.imports.map Ref.obj = is.map (fun i => Obj.prim (.iri i)) ∧
    items = (ps.map fun e => Item.prefixDecl e.1.txt e.2) ++ ((h.iri.map Item.iri).toList ++
      (h.version.map Item.version).toList ++ is.map Item.import ++
      (h.annots.map Ref.obj).map Item.annot ++ (xs.map Ref.obj).map Item.ax)

end Cowl.FSess
