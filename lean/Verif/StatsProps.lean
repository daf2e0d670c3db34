import Verif.Stats
import Verif.OntoProps
import Verif.UintTextProps
/-!
# Property C70: the statistics tool
-/
namespace Cowl
open Stats OntoSpec

namespace Stats

/-- Parts of a text between separators. -/
def splitAt (sep : UInt8) : Str → List Str
  | [] => [[]]
  | c :: s =>
    if c = sep then [] :: splitAt sep s
    else
      match splitAt sep s with
      | [] => [[c]]
      | w :: ws => (c :: w) :: ws

theorem splitAt_ne (sep : UInt8) (s : Str) : splitAt sep s ≠ [] := by
  cases s with
  | nil => simp [splitAt]
  | cons c s =>
    rw [splitAt]
    split
    · simp
    · split <;> simp

theorem splitAt_plain {sep : UInt8} : ∀ {s : Str}, sep ∉ s → splitAt sep s = [s]
  | [], _ => rfl
  | c :: s, h => by
    have h1 : c ≠ sep := fun e => h (by rw [e]; exact List.mem_cons_self)
    have h2 : sep ∉ s := fun e => h (List.mem_cons_of_mem _ e)
    rw [splitAt, if_neg h1, splitAt_plain h2]

theorem splitAt_append {sep : UInt8} : ∀ {s : Str} (t : Str), sep ∉ s →
    splitAt sep (s ++ sep :: t) = s :: splitAt sep t
  | [], t, _ => by rw [List.nil_append, splitAt, if_pos rfl]
  | c :: s, t, h => by
    have h1 : c ≠ sep := fun e => h (by rw [e]; exact List.mem_cons_self)
    have h2 : sep ∉ s := fun e => h (List.mem_cons_of_mem _ e)
    rw [List.cons_append, splitAt, if_neg h1, splitAt_append t h2]

theorem splitAt_join {sep : UInt8} {α} (f : α → Str) : ∀ (x : α) (l : List α), (∀ y ∈ x :: l, sep ∉ f y) →
    splitAt sep (f x ++ l.flatMap fun y => sep :: f y) = (x :: l).map f
  | x, [], h => by
    simp only [List.flatMap_nil, List.append_nil, List.map_cons, List.map_nil]
    exact splitAt_plain (h x List.mem_cons_self)
  | x, y :: l, h => by
    rw [List.flatMap_cons, List.cons_append, splitAt_append _ (h x List.mem_cons_self),
      splitAt_join f y l fun z hz => h z (List.mem_cons_of_mem _ hz)]
    rfl

/-- The lines of a text, each of which ends with a newline. -/
def linesOf (s : Str) : List Str := (splitAt 10 s).dropLast

/-- The columns of a line. -/
def columns (s : Str) : List Str := splitAt 44 s

/-- The name can be used as a column. -/
def Plain (s : Str) : Prop := s ≠ [] ∧ ∀ c ∈ s, c ≠ 44 ∧ c ≠ 10 ∧ c ≠ 58

instance (s : Str) : Decidable (Plain s) := by unfold Plain; infer_instance

/-- The names of the statistics. -/
def names : List Str :=
  ["Axioms", "Classes", "Datatypes", "Named individuals", "Anonymous individuals", "Object properties",
    "Data properties", "Annotation properties"].map ascii ++
  (List.range 37).map fun t => typeToString (t + OType.aDecl.code) ++ ascii " axioms"

theorem names_eq (o : Onto) : (stats o).map Stat.name = names := by
  simp only [stats, List.map_append, names, axiomStats, List.map_map]
  rfl

theorem names_plain : ∀ s ∈ names, Plain s := by decide +kernel

theorem name_plain {o : Onto} {s : Stat} (h : s ∈ stats o) : Plain s.name :=
  names_plain _ (names_eq o ▸ List.mem_map_of_mem h)

theorem digit_plain {c : UInt8} (h : IsDigit c) : c ≠ 44 ∧ c ≠ 10 ∧ c ≠ 58 := by
  unfold IsDigit at h
  refine ⟨?_, ?_, ?_⟩ <;> rintro rfl <;> exact absurd h (by decide)

theorem comma_eq : ascii "," = [44] := by decide +kernel

theorem newline_eq : ascii "\n" = [10] := by decide +kernel

theorem colon_eq : ascii ": " = [58, 32] := by decide +kernel

theorem stats_cons (o : Onto) : ∃ s l, stats o = s :: l := ⟨_, _, rfl⟩

/-- A line without newlines within it. -/
theorem linesOf_cons {s : Str} (t : Str) (h : (10 : UInt8) ∉ s) : linesOf (s ++ 10 :: t) = s :: linesOf t := by
  unfold linesOf
  rw [splitAt_append t h, List.dropLast_cons_of_ne_nil (splitAt_ne _ _)]

theorem linesOf_nil : linesOf [] = [] := rfl

/-- The row of a table. -/
def row (f : Stat → Str) : List Stat → Str
  | [] => []
  | s :: l => f s ++ l.flatMap fun s => 44 :: f s

theorem row_columns {f : Stat → Str} {s : Stat} {l : List Stat} (h : ∀ y ∈ s :: l, (44 : UInt8) ∉ f y) :
    columns (row f (s :: l)) = (s :: l).map f := splitAt_join f s l h

theorem row_line {f : Stat → Str} {l : List Stat} (h : ∀ y ∈ l, (10 : UInt8) ∉ f y) : (10 : UInt8) ∉ row f l := by
  cases l with
  | nil => simp [row]
  | cons s l =>
    intro hm
    rcases List.mem_append.mp hm with hm | hm
    · exact h s List.mem_cons_self hm
    · obtain ⟨y, hy, hm⟩ := List.mem_flatMap.mp hm
      rcases List.mem_cons.mp hm with hm | hm
      · exact absurd hm (by decide)
      · exact h y (List.mem_cons_of_mem _ hy) hm

theorem writeHeader_eq {s : Stat} {l : List Stat} : writeHeader (s :: l) = row Stat.name (s :: l) ++ [10] := by
  simp only [writeHeader, row, comma_eq, newline_eq]
  rfl

theorem writeValues_eq {s : Stat} {l : List Stat} :
    writeValues (s :: l) = row (fun s => uintToStr s.value) (s :: l) ++ [10] := by
  simp only [writeValues, row, comma_eq, newline_eq]
  rfl

theorem value_plain (s : Stat) : (44 : UInt8) ∉ uintToStr s.value ∧ (10 : UInt8) ∉ uintToStr s.value :=
  ⟨fun h => (digit_plain ((C28_write s.value).2.1 _ h)).1 rfl,
    fun h => (digit_plain ((C28_write s.value).2.1 _ h)).2.1 rfl⟩

end Stats

/-! ## C70 -/

/-- The output in CSV is two lines with the same columns: the names, and the values in decimal. -/
theorem C70_csv (o : Onto) : ∃ h v, linesOf (writeCsv (stats o)) = [h, v] ∧
    linesOf (writeHeader (stats o)) = [h] ∧ linesOf (writeValues (stats o)) = [v] ∧
    columns h = (stats o).map Stat.name ∧ (columns v).length = (columns h).length ∧
    (columns v).map strToUint = (stats o).map Stat.value := by
  have hp : ∀ s ∈ stats o, Plain s.name := fun s hs => name_plain hs
  obtain ⟨s, l, e⟩ := stats_cons o
  rw [e] at hp ⊢
  have h10 : (10 : UInt8) ∉ row Stat.name (s :: l) := row_line fun y hy h => ((hp y hy).2 _ h).2.1 rfl
  have v10 : (10 : UInt8) ∉ row (fun s => uintToStr s.value) (s :: l) := row_line fun y _ => (value_plain y).2
  have hc : columns (row Stat.name (s :: l)) = (s :: l).map Stat.name :=
    row_columns fun y hy h => ((hp y hy).2 _ h).1 rfl
  have vc : columns (row (fun s => uintToStr s.value) (s :: l)) = (s :: l).map fun s => uintToStr s.value :=
    row_columns fun y _ => (value_plain y).1
  refine ⟨row Stat.name (s :: l), row (fun s => uintToStr s.value) (s :: l), ?_, ?_, ?_, hc, ?_, ?_⟩
  · rw [writeCsv, writeHeader_eq, writeValues_eq, List.append_assoc, List.singleton_append, linesOf_cons _ h10,
      linesOf_cons _ v10, linesOf_nil]
  · rw [writeHeader_eq, linesOf_cons _ h10, linesOf_nil]
  · rw [writeValues_eq, linesOf_cons _ v10, linesOf_nil]
  · rw [hc, vc]; simp
  · rw [vc, List.map_map]
    exact List.map_congr_left fun y _ => C28_round_trip y.value

/-- The names are the same for all ontologies, and no two are the same. -/
theorem C70_names (o : Onto) : (stats o).map Stat.name = names ∧ names.Nodup ∧ names.length = 45 :=
  ⟨names_eq o, by decide +kernel, by decide +kernel⟩

/-- The output for humans has a line for each statistic: its name, a colon, a blank, and the value. -/
theorem C70_human (o : Onto) : linesOf (writeHuman (stats o)) =
    (stats o).map fun s => s.name ++ [58, 32] ++ uintToStr s.value := by
  have hp : ∀ s ∈ stats o, Plain s.name := fun s hs => name_plain hs
  generalize stats o = l at hp
  induction l with
  | nil => rfl
  | cons s l ih =>
    have hs := (hp s List.mem_cons_self).2
    have h10 : (10 : UInt8) ∉ s.name ++ [58, 32] ++ uintToStr s.value := by
      intro h
      rcases List.mem_append.mp h with h | h
      · rcases List.mem_append.mp h with h | h
        · exact (hs _ h).2.1 rfl
        · exact absurd h (by decide)
      · exact (value_plain s).2 h
    have e : writeHuman (s :: l) = (s.name ++ [58, 32] ++ uintToStr s.value) ++ 10 :: writeHuman l := by
      simp only [writeHuman, List.flatMap_cons, colon_eq, newline_eq, List.append_assoc, List.singleton_append]
    rw [e, linesOf_cons _ h10, ih fun y hy => hp y (List.mem_cons_of_mem _ hy)]
    rfl

/-- The number of axioms is the sum of the numbers for the types (modulo 2^32, as all of them). -/
theorem C70_sum (o : Onto) : ((stats o).map Stat.value)[0]? =
    some (((stats o).map Stat.value).drop 8).sum := by
  have h : ∀ (l : List Nat) (c : BitVec 32), num (l.foldl (fun c t => c + u32 (vecCount (o.tindex t))) c) =
      num c + (l.map fun t => num (o.axiomCountForType t)).sum := by
    intro l
    induction l with
    | nil => intro c; simp
    | cons t l ih =>
      intro c
      rw [List.foldl_cons, ih, List.map_cons, List.sum_cons]
      show num c + num (o.axiomCountForType t) + _ = _
      rw [UInt32.add_assoc]
  have h0 := h (List.range 37) 0#32
  have e : ((stats o).map Stat.value).drop 8 = (List.range 37).map fun t => num (o.axiomCountForType t) := by
    simp only [stats, axiomStats, List.map_append, List.map_map]
    rfl
  rw [e]
  show some (num o.axiomCount) = _
  rw [Onto.axiomCount, h0]
  simp [num]

/-- For an ontology that has been built by adding axioms and annotations, as readers do, the
statistics are the numbers of axioms, of primitives of each kind that occur in it, and of axioms
of each type. -/
theorem C70_counts (ops : List Op) (h : LegalRun Abs.empty ops) (ha : ∀ op ∈ ops, op.Adds) :
    ∃ o, Onto.empty.run ops = some o ∧
      ((stats o).map Stat.value)[0]? = some (UInt32.ofNat (Abs.empty.run ops).axioms.length) ∧
      (∀ t < 37, ((stats o).map Stat.value)[8 + t]? =
        some (UInt32.ofNat ((Abs.empty.run ops).axioms.filter fun a => OfType t a).length)) ∧
      ∀ im ∈ [(1, 0x01#8), (2, 0x02#8), (3, 0x20#8), (4, 0x40#8), (5, 0x04#8), (6, 0x08#8), (7, 0x10#8)],
        ∃ ps : List Prim, ps.Nodup ∧ (∀ p, p ∈ ps ↔ IterSpec.Selects im.2 p ∧ Mentioned (Abs.empty.run ops) p) ∧
          ((stats o).map Stat.value)[im.1]? = some (UInt32.ofNat ps.length) := by
  obtain ⟨o, h1, h2⟩ := C11_total ops h
  refine ⟨o, h1, ?_, fun t ht => ?_, fun im him => ?_⟩
  · obtain ⟨_, _, hc, _⟩ := C11_axioms o _ h2
    show some (num o.axiomCount) = _
    rw [hc]; rfl
  · obtain ⟨_, _, hc, _⟩ := C11_by_type o _ h2 t
    have e : ((stats o).map Stat.value)[8 + t]? = some (num (o.axiomCountForType t)) := by
      simp only [stats, axiomStats, List.map_append, List.map_map]
      rw [List.getElem?_append_right (by simp [globalStats])]
      simp [globalStats, ht]
    rw [e, hc]; rfl
  · obtain ⟨o', h1', ps, hn, hm, hc, _⟩ := C17_iterate ops h id (fun ps => List.Perm.refl ps) im.2
    rw [h1] at h1'
    cases h1'
    have hev : ∀ p, EverMentioned ops p ↔ Mentioned (Abs.empty.run ops) p := fun p => by
      rw [mentioned_run ops _ ha]
      simp [Mentioned, Abs.empty]
    refine ⟨ps, hn, fun p => by rw [hm, hev], ?_⟩
    have e : ((stats o).map Stat.value)[im.1]? = some (num (o.primitiveCount im.2)) := by
      simp only [List.mem_cons, List.not_mem_nil, or_false] at him
      rcases him with rfl | rfl | rfl | rfl | rfl | rfl | rfl <;> rfl
    rw [e, hc]; rfl

/-- The format is the one named by the argument, the one for humans without, and unknown ones are
rejected. -/
theorem C70_format (o : Onto) : main [] o = some (writeHuman (stats o)) ∧
    (∀ rest, main (ascii "human" :: rest) o = some (writeHuman (stats o))) ∧
    (∀ rest, main (ascii "csv" :: rest) o = some (writeCsv (stats o))) ∧
    (∀ rest, main (ascii "csv_header" :: rest) o = some (writeHeader (stats o))) ∧
    (∀ rest, main (ascii "csv_no_header" :: rest) o = some (writeValues (stats o))) ∧
    ∀ f rest, f ≠ [] → f ∉ formats.map Prod.fst → main (f :: rest) o = none := by
  have e1 : ascii "human" ≠ ascii "csv" ∧ ascii "human" ≠ [] ∧ ascii "csv" ≠ [] ∧ ascii "human" ≠ ascii "csv_header" ∧
    ascii "csv" ≠ ascii "csv_header" ∧ ascii "csv_header" ≠ [] ∧ ascii "human" ≠ ascii "csv_no_header" ∧
    ascii "csv" ≠ ascii "csv_no_header" ∧ ascii "csv_header" ≠ ascii "csv_no_header" ∧ ascii "csv_no_header" ≠ [] := by
    decide +kernel
  obtain ⟨a1, a2, a3, a4, a5, a6, a7, a8, a9, a10⟩ := e1
  refine ⟨rfl, fun rest => ?_, fun rest => ?_, fun rest => ?_, fun rest => ?_, fun f rest hf hn => ?_⟩
  · simp [main, selectFormat, formats, a2]
  · simp [main, selectFormat, formats, a1, a3]
  · simp [main, selectFormat, formats, a4, a5, a6]
  · simp [main, selectFormat, formats, a7, a8, a9, a10]
  · have : formats.find? (fun g => g.1 = f) = none := by
      rw [List.find?_eq_none]
      intro x hx e
      exact hn (of_decide_eq_true (p := x.1 = f) e ▸ List.mem_map_of_mem hx)
    simp [main, selectFormat, hf, this]

/-- The output for the empty ontology. -/
example : (linesOf (writeCsv (stats Onto.empty))).map (fun l => (columns l).length) = [45, 45] ∧
    ((linesOf (writeHuman (stats Onto.empty)))[9]? = some (ascii "SubClassOf axioms: 0")) := by decide +kernel

example : LegalRun Abs.empty (sampleOps.take 4) ∧ ∀ op ∈ sampleOps.take 4, op.Adds := by
  obtain ⟨h1, h2, h3, h4, _⟩ := sampleOps_legal.1
  refine ⟨⟨h1, h2, h3, h4, trivial⟩, ?_⟩
  simp [sampleOps, Op.Adds]

end Cowl
