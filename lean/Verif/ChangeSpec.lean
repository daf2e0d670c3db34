import Verif.Change
import Verif.OntoSpec
import Verif.PrefixMapSpec
/-! # Specification of changes: the parts of an ontology as a list -/
namespace Cowl.Change

/-- Axioms in order of type, and within a type in the order of the program. -/
def axiomsOf (o : Onto) : List Ref := (List.range 37).flatMap fun t => (o.byType t).getD []

/-- The parts of an ontology in the order of their replay. -/
def parts (o : OntoSt) : List Part :=
  (o.pm.fwd.map fun e => Part.prefixDecl e.1 e.2) ++ (o.iri.map Part.iri).toList ++
    (o.version.map Part.version).toList ++ (o.onto.annot.getD []).map .annot ++
    (o.onto.imports.getD []).map .import ++ (axiomsOf o.onto).map .ax

end Cowl.Change
