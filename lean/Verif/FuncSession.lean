import Verif.FuncDoc
/-!
# Functional writers in use

Models the streaming interface of `src/formats/functional/writer/cowl_func_writer.c`: one
writer for several documents, with prefix maps that belong to its callers. Prefix maps are
objects at addresses with a reference count; the memory of their strings is a subject of
its own (`Verif.PrefixMem`). `none` is undefined behaviour. Streams do not fail, and
allocation does not fail.
-/
namespace Cowl.FSess
open Prefix Func

/-- Prefix maps in memory: contents and reference count. -/
abbrev Mem := Nat → Option (PMap × Nat)

/-- The memory, where the address `a` is changed. -/
def Mem.put (w : Mem) (a : Nat) (x : Option (PMap × Nat)) : Mem := fun b => if b = a then x else w b

/-- `cowl_retain`, `cowl_object.c:157-160`. -/
def Mem.retain (w : Mem) (a : Nat) : Option Mem := (w a).map fun x => w.put a (some (x.1, x.2 + 1))

/-- `cowl_release`, `cowl_object.c:171-194`, of a prefix map: it is freed with the last
reference. -/
def Mem.release (w : Mem) (a : Nat) : Option Mem :=
  (w a).map fun x => w.put a (if x.2 = 1 then none else some (x.1, x.2 - 1))

/-- `CowlOntologyHeader`, `include/cowl_ontology_header.h:27-44`. A vector that is NULL is
written like an empty one. -/
structure Header where
  pm : Option Nat
  iri : Option Iri
  version : Option Iri
  imports : List Ref
  annots : List Ref

/-- The writer, `FuncEncoder`, `cowl_func_writer.c:38-41`, the memory, and what was written
to the stream. -/
structure St where
  mem : Mem
  pm : Option Nat
  out : Str

/-- `cowl_writer_functional`, `cowl_func_writer.c:471-484`, with `encoder_init`, `43-45`. -/
def St.init : St := ⟨fun _ => none, none, []⟩

/-- `cowl_release(e->pm)`; NULL is ignored. -/
def St.releaseMap (s : St) : Option Mem :=
  match s.pm with
  | none => some s.mem
  | some a => s.mem.release a

/-- `encoder_set_prefix_map`, `cowl_func_writer.c:55-59`: without a new map the pointer to
the old one stays, although it is released. -/
def St.setPrefixMap (s : St) (pm : Option Nat) : Option St :=
  if s.pm = pm then some s
  else
    s.releaseMap.bind fun w =>
      match pm with
      | none => some { s with mem := w }
      | some a => (w.retain a).map fun w => { s with mem := w, pm := some a }

/-- The prefixes that `write_iri`, `cowl_func_writer.c:173-183`, finds. A map that was freed
is taken to be read even if there is no name to be written. -/
def St.prefixes (s : St) : Option (Str → Option Str) :=
  match s.pm with
  | none => some fun _ => none
  | some a => (s.mem a).map fun x => lookup x.1

/-- `write_obj`, `cowl_func_writer.c:386-429`, and a newline, for several objects. -/
def St.writeLines (s : St) (xs : List Ref) : Option St :=
  if xs.all fun x => writeDefined x.obj then
    match xs with
    | [] => some s
    | _ => s.prefixes.map fun gp => { s with out := s.out ++ (xs.map fun x => writeLine gp x.obj).flatten }
  else none

/-- `write_header`, `cowl_func_writer.c:357-379`, up to the annotations; the map is that of
the header. -/
def headText (m : Option PMap) (h : Header) : Str :=
  (m.map writePrefixes).getD [] ++ (Kw.text .ontology ++ 40 :: (writeId h.iri h.version ++ 10 ::
    (h.imports.map fun x => writeImport x.obj).flatten))

/-- What a header's pointer to a map leads to. -/
def Mem.contents (w : Mem) : Option Nat → Option (Option PMap)
  | none => some none
  | some a => (w a).map fun x => some x.1

/-- `func_write_header`, `cowl_func_writer.c:439-446`, with `357-379`. -/
def St.header (s : St) (h : Header) : Option St :=
  (s.setPrefixMap h.pm).bind fun s =>
    (s.mem.contents h.pm).bind fun m =>
      ({ s with out := s.out ++ headText m h }).writeLines h.annots

/-- `func_free`, `cowl_func_writer.c:465-468`, with `encoder_deinit`, `47-49`. -/
def St.close (s : St) : Option Mem := s.releaseMap

/-- What happens while the writer exists: the first four are operations of the caller on
prefix maps, the others calls of the writer. -/
inductive Op where
  | new (a : Nat) (m : PMap)
  | set (a : Nat) (m : PMap)
  | keep (a : Nat)
  | drop (a : Nat)
  | header (h : Header)
  | ax (x : Ref)
  | footer

/-- One operation: `cowl_prefix_map`, `cowl_prefix_map.c:90-104`, at an address that the
allocator chooses; any operation that changes a map; `cowl_retain` and `cowl_release`;
`func_write_header`; `func_write_axiom`, `cowl_func_writer.c:448-455`; `func_write_footer`,
`457-463`, with `write_footer`, `381-384`. -/
def St.op (s : St) : Op → Option St
  | .new a m => some { s with mem := s.mem.put a (some (m, 1)) }
  | .set a m => (s.mem a).map fun x => { s with mem := s.mem.put a (some (m, x.2)) }
  | .keep a => (s.mem.retain a).map fun w => { s with mem := w }
  | .drop a => (s.mem.release a).map fun w => { s with mem := w }
  | .header h => s.header h
  | .ax x => s.writeLines [x]
  | .footer => some { s with out := s.out ++ [41, 10] }

/-- Several operations. -/
def St.run (s : St) : List Op → Option St
  | [] => some s
  | op :: ops => (s.op op).bind fun s => s.run ops

end Cowl.FSess
