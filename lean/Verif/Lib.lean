import Verif.Iter
/-!
# Initialisation of the library

Models `src/cowl_config.c`, with the parts of `src/cowl_string.c` and `src/cowl_vocab.c` that it
calls. Objects are addresses with a reference count, 0 if there is none. A vocabulary is one
object. The tables of instances have no memory of their own until something is put into
them. `none` is undefined behaviour.
-/
namespace Cowl.Lib

/-- Global variables that own objects: `empty`, `cowl_string.c:22`; the vocabularies; and the
defaults, `cowl_config.c:25-27`. -/
inductive Slot where
  | empty | owl | rdf | rdfs | xml | xsd | reader | writer | pmap
  deriving DecidableEq

/-- The vocabularies, in the order of `cowl_vocab_init`, `cowl_vocab.c:31-46`. -/
def vocabs : List Slot := [.owl, .rdf, .rdfs, .xml, .xsd]

/-- The defaults, in the order of `cowl_api_init`, `cowl_config.c:40-49`. -/
def defaults : List Slot := [.reader, .writer, .pmap]

/-- State of the library and of memory. -/
structure St where
  inited : Bool
  ptr : Slot → Option Nat
  refs : Nat → Nat

/-- At the start of the program. -/
def St.start : St := ⟨false, fun _ => none, fun _ => 0⟩

/-- A new object, at address `a`, is assigned to a variable. -/
def St.place (l : St) (s : Slot) (a : Nat) : St :=
  { l with ptr := fun t => if t = s then some a else l.ptr t, refs := fun b => if b = a then 1 else l.refs b }

/-- A variable becomes NULL. -/
def St.clear (l : St) (s : Slot) : St := { l with ptr := fun t => if t = s then none else l.ptr t }

/-- `cowl_retain`, `cowl_object.c:157-160`. -/
def St.retain (l : St) (a : Nat) : Option St :=
  if l.refs a = 0 then none else some { l with refs := fun b => if b = a then l.refs b + 1 else l.refs b }

/-- `cowl_release`, `cowl_object.c:171-194`. -/
def St.release (l : St) (a : Nat) : Option St :=
  if l.refs a = 0 then none else some { l with refs := fun b => if b = a then l.refs b - 1 else l.refs b }

/-- `cowl_release` of a variable; NULL is ignored. -/
def St.releaseSlot (l : St) (s : Slot) : Option St :=
  match l.ptr s with
  | none => some l
  | some a => l.release a

/-- `cowl_release` of a variable, and the variable becomes NULL. -/
def St.drop (l : St) (s : Slot) : Option St := (l.releaseSlot s).map fun l => l.clear s

/-- Several variables. -/
def St.dropAll : List Slot → St → Option St
  | [], l => some l
  | s :: ss, l => (l.drop s).bind (St.dropAll ss)

/-- `cowl_owl_vocab_deinit`, `cowl_owl_vocab.c:86-123`, and the other vocabularies: objects are
freed whatever their reference count. Without IRIs, `cowl_iri_vocab_free`,
`cowl_vocab_private.h:35-39`, dereferences NULL; the XML vocabulary has none,
`cowl_xml_vocab.c:35-41`. -/
def St.freeVocab (l : St) (v : Slot) : Option St :=
  match l.ptr v with
  | none => if v = .xml then some l else none
  | some a => some ({ l with refs := fun b => if b = a then 0 else l.refs b }.clear v)

/-- `cowl_vocab_deinit`, `cowl_vocab.c:48-55`. -/
def St.freeVocabs : List Slot → St → Option St
  | [], l => some l
  | v :: vs, l => (l.freeVocab v).bind (St.freeVocabs vs)

/-- `cowl_vocab_init`, `cowl_vocab.c:31-46`; `al` are the addresses of new objects, none if
memory is lacking. A vocabulary that cannot be created is taken to clean up after itself
(with some of its IRIs missing it dereferences NULL, too). The result is false on errors. -/
def St.initVocabs (al : Slot → Option Nat) : List Slot → St → Option (St × Bool)
  | [], l => some (l, true)
  | v :: vs, l =>
    match al v with
    | some a => St.initVocabs al vs (l.place v a)
    | none => (St.freeVocabs vocabs (l.clear v)).map fun l => (l, false)

/-- `cowl_api_init`, `cowl_config.c:40-49`. -/
def St.initApi (al : Slot → Option Nat) : List Slot → St → Option (St × Bool)
  | [], l => some (l, true)
  | s :: ss, l =>
    match al s with
    | some a => St.initApi al ss (l.place s a)
    | none => (St.dropAll defaults (l.clear s)).map fun l => (l, false)

/-- `cowl_deinit`, `cowl_config.c:68-78`. -/
def St.deinit (l : St) : Option St :=
  if !l.inited then some l
  else
    (l.dropAll defaults).bind fun l => (l.drop .empty).bind fun l =>
      (l.freeVocabs vocabs).map fun l => { l with inited := false }

/-- `cowl_init`, `cowl_config.c:51-66`, with `cowl_string_api_init`, `cowl_string.c:65-74`. The
other steps do not fail: `cowl_iri.c:38-41`, `cowl_entity.c:41-47`, `cowl_anon_ind.c:34-37`,
`cowl_prefix_map.c:28-39`. -/
def St.init (l : St) (al : Slot → Option Nat) : Option (St × Ret) :=
  if l.inited then some (l, .ok)
  else
    match al .empty with
    | none => (l.clear .empty).deinit.map fun l => (l, .errMem)
    | some a =>
      ((l.place .empty a).initVocabs al vocabs).bind fun r =>
        if !r.2 then r.1.deinit.map fun l => (l, .errMem)
        else
          (r.1.initApi al defaults).bind fun r =>
            if !r.2 then r.1.deinit.map fun l => (l, .errMem)
            else some ({ r.1 with inited := true }, .ok)

/-- `cowl_set_reader`, `cowl_config.c:84-88`, and `cowl_set_writer`, `94-98`. -/
def St.set (l : St) (s : Slot) (x : Option Nat) : Option St :=
  if x = l.ptr s then some l
  else
    (l.releaseSlot s).bind fun l =>
      match x with
      | none => none
      | some a => (l.retain a).map fun l => { l with ptr := fun t => if t = s then some a else l.ptr t }

/-- What a program does: it starts and ends the library, sets defaults, and creates, retains and
releases readers and writers of its own. -/
inductive Op where
  | init (al : Slot → Option Nat)
  | deinit
  | setReader (x : Option Nat)
  | setWriter (x : Option Nat)
  | new (a : Nat)
  | keep (a : Nat)
  | drop (a : Nat)

/-- One operation. `cowl_reader` and `cowl_writer` (`cowl_reader.c:29-39`) make objects. -/
def St.op (l : St) : Op → Option St
  | .init al => (l.init al).map Prod.fst
  | .deinit => l.deinit
  | .setReader x => l.set .reader x
  | .setWriter x => l.set .writer x
  | .new a => some { l with refs := fun b => if b = a then 1 else l.refs b }
  | .keep a => l.retain a
  | .drop a => l.release a

/-- Several operations. -/
def St.run (l : St) : List Op → Option St
  | [] => some l
  | op :: ops => (l.op op).bind fun l => l.run ops

end Cowl.Lib
