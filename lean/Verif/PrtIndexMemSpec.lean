import Verif.PrtIndexMem
import Verif.PrtIndex
/-! # Specification: memory of the index of the ProtocOWL encoder -/
namespace Cowl.PIdx

/-- The caller resets everything after a call that failed, or makes no further call, as
`write_ontology` and `write_header` do (`cowl_prt_encoder.c:747-760`, `855-871`). The code is that of
the call before. -/
def prudent (std : List (Thing × Thing)) : Ret → St → Mem → List Call → Bool
  | _, _, _, [] => true
  | r, s, mem, c :: l => (r != .errMem || c == .reset true) &&
    match exec std s mem c with
    | none => true
    | some (s, r, mem) => prudent std r s mem l

/-- The same, of the whole life of an index. -/
def prudentLife (std : List (Thing × Thing)) (mem : Mem) (cs : List Call) : Bool :=
  match initNs std {} mem with
  | none => true
  | some (s, r, mem) => prudent std r s mem cs

/-- The life of an index is defined and nothing is left of it. -/
def Clean (std : List (Thing × Thing)) (mem : Mem) (cs : List Call) : Prop :=
  ∃ rs, life std mem cs = some (rs, [])

/-- A vector and its table without addresses, as in `Verif/PrtIndex.lean`. -/
def PVec.keys (m : PVec) : Prt.PVec Nat :=
  ⟨m.vec.map (·.key), m.tab.map fun e => (e.1.key, e.2), m.enc, m.sep⟩

/-- What a call that succeeds does to the namespaces and to the other names, as in C33. -/
def meant (std : List (Thing × Thing)) (x : Prt.PVec Nat × Prt.PVec Nat) : Call → Prt.PVec Nat × Prt.PVec Nat
  | .addPrefix ns _ => (x.1.add ns.key true, x.2)
  | .addIri i ns => (x.1.add ns.key false, x.2.add i.key true)
  | .addAnon i => (x.1, x.2.add i.key false)
  | .flush _ _ => (x.1.sync, x.2.sync)
  | .reset p => (if p then (std.foldl (fun (m : Prt.PVec Nat) e => m.add e.1.key true) {}).sync else x.1, {})

end Cowl.PIdx
