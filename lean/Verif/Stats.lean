import Verif.Onto
import Verif.UintText
/-!
# The statistics tool

Models `tools/src/stats.c`, but for loading the ontology and the memory of its strings.
-/
namespace Cowl.Stats

/-- `Stat`, `stats.c:25-28`. -/
structure Stat where
  name : Str
  value : UInt32

/-- A count as `ulib_uint`. -/
def num (n : BitVec 32) : UInt32 := ⟨n⟩

/-- `compute_global_stats`, `stats.c:131-172`. -/
def globalStats (o : Onto) : List Stat := [
  ⟨ascii "Axioms", num o.axiomCount⟩,
  ⟨ascii "Classes", num (o.primitiveCount 0x01#8)⟩,
  ⟨ascii "Datatypes", num (o.primitiveCount 0x02#8)⟩,
  ⟨ascii "Named individuals", num (o.primitiveCount 0x20#8)⟩,
  ⟨ascii "Anonymous individuals", num (o.primitiveCount 0x40#8)⟩,
  ⟨ascii "Object properties", num (o.primitiveCount 0x04#8)⟩,
  ⟨ascii "Data properties", num (o.primitiveCount 0x08#8)⟩,
  ⟨ascii "Annotation properties", num (o.primitiveCount 0x10#8)⟩ ]

/-- `compute_axiom_stats`, `stats.c:174-189`: for each of the 37 axiom types, the name of its
object type. -/
def axiomStats (o : Onto) : List Stat :=
  (List.range 37).map fun t =>
    ⟨typeToString (t + OType.aDecl.code) ++ ascii " axioms", num (o.axiomCountForType t)⟩

/-- The statistics, `write_stats`, `stats.c:191-198`. -/
def stats (o : Onto) : List Stat := globalStats o ++ axiomStats o

/-- `write_human`, `stats.c:37-45`. -/
def writeHuman (l : List Stat) : Str :=
  l.flatMap fun s => s.name ++ ascii ": " ++ uintToStr s.value ++ ascii "\n"

/-- `write_csv_header`, `stats.c:47-56`; there is at least one statistic. -/
def writeHeader : List Stat → Str
  | [] => []
  | s :: l => s.name ++ (l.flatMap fun s => ascii "," ++ s.name) ++ ascii "\n"

/-- `write_csv_no_header`, `stats.c:58-67`. -/
def writeValues : List Stat → Str
  | [] => []
  | s :: l => uintToStr s.value ++ (l.flatMap fun s => ascii "," ++ uintToStr s.value) ++ ascii "\n"

/-- `write_csv`, `stats.c:69-73`. -/
def writeCsv (l : List Stat) : Str := writeHeader l ++ writeValues l

/-- `formats`, `stats.c:75-80`. -/
def formats : List (Str × (List Stat → Str)) := [
  (ascii "human", writeHuman), (ascii "csv", writeCsv), (ascii "csv_header", writeHeader),
  (ascii "csv_no_header", writeValues) ]

/-- `select_format`, `stats.c:82-97`; `none` if the format is rejected. -/
def selectFormat (name : Str) : Option (List Stat → Str) :=
  if name = [] then some writeHuman
  else (formats.find? fun f => f.1 = name).map Prod.snd

/-- `parse_args` and `main`, `stats.c:107-115` and `210-229`, for an ontology that has been loaded: the output, if any. `args`
are the arguments after the path. -/
def main (args : List Str) (o : Onto) : Option Str :=
  (selectFormat (args.headD [])).map fun f => f (stats o)

end Cowl.Stats
