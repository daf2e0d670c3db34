import Verif.FuncDoc
import Verif.PrtDoc
/-!
# Conversion between formats

What a program does that reads ontologies in one format and writes them in another, over and over:
`cowl_writer_write_ontology` (`cowl_writer.c:123-131`) with one of the two built-in writers, then
`cowl_reader_read_ontology` (`cowl_reader.c:70-86`) with the reader of the same format, into a new
ontology. Writers and readers are those of `Verif/FuncDoc.lean` and `Verif/PrtDoc.lean`.
-/
namespace Cowl.Convert
open Prefix Func Change Prt

/-- One conversion: the format, addresses and numbers of the objects that are made by reading, and for
ProtocOWL the order in which the hash table of primitives is walked. -/
inductive Step where
  | func (ks ks' : List Nat) (addr n : Nat)
  | prt (order : List Prim → List Prim) (ks : List Nat) (n : Nat)

/-- The ontology is written to a stream with enough room, `cowl_writer.c:92-121` or
`cowl_prt_encoder.c:736-748`, and read without an error into a new ontology, `cowl_func_reader.c:28-43`
or `cowl_prt_decoder.c:1280-1294`, which becomes the second one. -/
def Step.Gives (E : Env) (dflt : Fwd) (o o' : OntoSt) : Step → Prop
  | .func ks ks' addr n => ∃ txt n', writeDoc o = some txt ∧
      funcRead ontoHandler (create ks dflt) addr txt (OntoSt.new ks' dflt, n) = ((o', n'), .ok)
  | .prt order ks n => ∃ b n', (∀ cap, b.length ≤ cap → writeOntology E.u true order o cap = (b, .ok)) ∧
      prtRead E changeHandler b (some (OntoSt.new ks dflt, n)) = (some (o', n'), .done)

/-- Conversions one after the other. -/
def Gives (E : Env) (dflt : Fwd) : List Step → OntoSt → OntoSt → Prop
  | [], o, o' => o' = o
  | x :: l, o, o' => ∃ o₁, x.Gives E dflt o o₁ ∧ Gives E dflt l o₁ o'

end Cowl.Convert
