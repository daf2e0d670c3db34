import Verif.PrtHandlerSpec
/-! # Specification: ProtocOWL documents that were cut short -/
namespace Cowl
open Prt

/-- What is assumed of ulib in addition: numbers end where they end, whatever follows. -/
structure Prt.Ulib.Local (u : Ulib) : Prop where
  varint : ∀ {s n r} q, u.readVarint s = some (n, r) → u.readVarint (s ++ q) = some (n, r ++ q)
  svarint : ∀ {s n r} q, u.readSvarint s = some (n, r) → u.readSvarint (s ++ q) = some (n, r ++ q)

/-- What was told, and how it ended, against what should have been told: a beginning of it;
or, without the checks that the program lacks, one sub-property axiom more before an error. -/
def Begins (E : Env) (r : List (Bool × Func.Item) × End) (whole : List (Bool × Func.Item)) : Prop :=
  r.1 <+: whole ∨ E.checked = false ∧ r.2 = .rejected ∧
    ∃ l rm o, r.1 = l ++ [(rm, .ax o)] ∧ o.otype = .aSubObjProp ∧ l <+: whole

end Cowl
