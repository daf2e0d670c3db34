import Verif.FuncTextLemmas
/-! # C29, C30: quoted strings and IRIs in the functional syntax -/
namespace Cowl
open Func FuncSpec Prefix PrefixSpec

/-! ## C29 -/

/-- The text of a literal of type `xsd:string`. -/
def quoted (v : Str) : Str := writeObj (fun _ => none) (.lit v (.dt xsdString))

theorem quoted_eq (v : Str) : quoted v = 34 :: (escape v ++ [34]) := by
  have h1 : litDatatype (.dt xsdString) ≠ rdfLangString := by decide +kernel
  have h2 : litDatatype (.dt xsdString) = xsdString := rfl
  rw [quoted, writeObj, writeLiteral, writeTag, if_neg h1, if_pos h2]; simp

/-- C29 for values without NUL: the text is one quoted string with the same contents,
and what follows is untouched. -/
theorem C29_partial {v : Str} (hv : 0 ∉ v) (rest : Str) :
    lex (quoted v ++ rest) = .qstr v :: lex rest := by
  rw [quoted_eq, List.cons_append, List.append_assoc, List.cons_append, List.nil_append, lex_escaped,
    takeWhile_no_nul hv]

/-- C29 for any value: what is read is the value up to its first NUL. -/
theorem C29_read (v rest : Str) : ∃ w t, lex (quoted v ++ rest) = .qstr w :: lex rest ∧
    v = w ++ t ∧ 0 ∉ w ∧ (t = [] ∨ t.head? = some 0) := by
  refine ⟨v.takeWhile (· != 0), v.dropWhile (· != 0), ?_, List.takeWhile_append_dropWhile.symm, ?_, ?_⟩
  · rw [quoted_eq, List.cons_append, List.append_assoc, List.cons_append, List.nil_append, lex_escaped]
  · intro h
    have := List.all_eq_true.1 List.all_takeWhile _ h
    simp at this
  · cases h : v.dropWhile (· != 0) with
    | nil => exact .inl rfl
    | cons c t =>
      have := List.head_dropWhile_not (p := fun c : UInt8 => c != 0) (l := v) (by rw [h]; simp)
      simp only [h, List.head_cons] at this
      right; simpa using this

/-- Two values that are written alike agree up to their first NUL; without NUL they
are equal. -/
theorem C29_injective {v w : Str} (hv : 0 ∉ v) (hw : 0 ∉ w) (h : quoted v = quoted w) : v = w := by
  have h1 := C29_partial hv []
  have h2 := C29_partial hw []
  rw [h, h2] at h1
  simpa using h1.symm

/-- C29 is false as stated: a value with a NUL is cut there. -/
theorem C29_fails : quoted [97, 0, 98] = ascii "\"a\"" ∧
    lex (quoted [97, 0, 98]) = [.qstr [97]] := by
  have : quoted [97, 0, 98] = ascii "\"a\"" := by rw [quoted_eq]; decide +kernel
  refine ⟨this, ?_⟩
  rw [quoted_eq]
  have := lex_escaped [97, 0, 98] []
  rw [this]; rfl

/-- A value with quotes, backslashes, a newline and a hash, before more text. -/
example : (0 : UInt8) ∉ ascii "say \"hi\\\" \\\\ \n#x" ∧
    quoted (ascii "a\"\\") = ascii "\"a\\\"\\\\\"" := by
  refine ⟨by decide +kernel, ?_⟩
  rw [quoted_eq]; decide +kernel

/-! ## C30 -/

/-- The maps of writer and reader: the prefixes that the writer's map finds for
namespaces are registered for them (as after every history that is calm in the sense
of C23), its prefixes are well-formed, and the reader's map has them with the same
namespaces. -/
structure Maps (w r : PMap) : Prop where
  sound : ∀ n p, lookup w n = some p → w.getNs p = some n
  plain : ∀ p n, w.getNs p = some n → PlainPrefix p
  same : ∀ p n, w.getNs p = some n → r.getNs p = some n

theorem sound_of_calm {w : PMap} {a : PrefixSpec.Abs} (ha : Reaches True w a) (n p : Str) (hp : lookup w n = some p) :
    w.getNs p = some n := by
  unfold lookup at hp
  cases hk : (w.getPrefix n).2 with
  | none => simp [hk] at hp
  | some k =>
    rw [hk] at hp
    cases hp
    exact ((C23_partial ha n).1 k hk).1

theorem Maps.agree {w r : PMap} (h : Maps w r) : Agree (lookup w) r :=
  ⟨fun hp => plain_prefix (h.plain _ _ (h.sound _ _ hp)), fun hp => h.same _ _ (h.sound _ _ hp)⟩

/-- C30 under conditions: the text of the IRI is one token, and it resolves to the
IRI. The conditions are those of `Maps` on the maps, and those of `IriOk` on the IRI:
it is split as by C02, has the characters allowed in text if written in full, and no
final full stop if abbreviated. -/
theorem C30_partial {w r : PMap} (hm : Maps w r) {i : Iri} (hi : IriOk (lookup w) i) :
    ∃ tk, readIri r tk = some i ∧
      ∀ c ∈ [32, 41, 10], ∀ rest, lex (writeIri (lookup w) i ++ c :: rest) = tk :: lex (c :: rest) := by
  obtain ⟨tk, _, h1, h2⟩ := iri_text hm.agree hi
  refine ⟨tk, h1, fun c hc rest => h2 _ ⟨c, rest, rfl, ?_⟩⟩
  simpa using hc

/-- Without an abbreviation only the characters matter: any split gives an IRI with
the same full string, followed by any text. -/
theorem C30_full (m : PMap) {i : Iri} (hne : i.ns ++ i.rem ≠ [])
    (hc : ∀ c ∈ i.ns ++ i.rem, IriChar c) :
    ∃ tk j, readIri m tk = some j ∧ j.ns ++ j.rem = i.ns ++ i.rem ∧
      ∀ rest, lex (writeFullIri i ++ rest) = tk :: lex rest := by
  obtain ⟨a, b, e, hs⟩ := C02_split _ hne
  refine ⟨.iriRef (i.ns ++ i.rem), ⟨a, b⟩, by rw [readIri, e]; rfl, hs.1.symm, fun rest => ?_⟩
  have : writeFullIri i ++ rest = 60 :: ((i.ns ++ i.rem) ++ 62 :: rest) := by simp [writeFullIri]
  rw [this, lex_iriRef fun c h => (isIriChar_iff c).2 (hc c h)]

/-- A map with prefix `_`, registered by the user. -/
def underMap : PMap := (freshMap.add (pfx 10 "_") exNs1 false).1

/-- C30 is false as stated, each time with one map for writer and reader:
* an abbreviated name that ends with a full stop loses it;
* an IRI with prefix `_` is read as an anonymous individual;
* an IRI with a space is several tokens if written in full;
* with the stale map of C23 the text stands for another IRI;
* the empty IRI is written as `<>`, which the reader rejects. -/
theorem C30_fails :
    (lex (writeIri (lookup busyMap) ⟨exNs1, ascii "Inc."⟩ ++ [41]) =
        [.pnameLn (ascii "ex:Inc"), .char 46, .rpar] ∧
      readIri busyMap (.pnameLn (ascii "ex:Inc")) = some ⟨exNs1, ascii "Inc"⟩) ∧
    (writeIri (lookup underMap) ⟨exNs1, ascii "A"⟩ = ascii "_:A" ∧
      lex (ascii "_:A") = [.blank (ascii "A")]) ∧
    (writeIri (lookup busyMap) ⟨ascii "urn:a b/", ascii "c"⟩ = ascii "<urn:a b/c>" ∧
      lex (ascii "<urn:a b/c>") ≠ [.iriRef (ascii "urn:a b/c")]) ∧
    (writeIri (lookup staleMap) ⟨exNs1, ascii "A"⟩ = ascii "a:A" ∧
      readIri staleMap (.pnameLn (ascii "a:A")) = some ⟨exNs2, ascii "A"⟩ ∧ exNs1 ≠ exNs2) ∧
    (writeIri (lookup freshMap) ⟨[], []⟩ = ascii "<>" ∧ lex (ascii "<>") = [.iriRef []] ∧
      readIri freshMap (.iriRef []) = none) := by
  refine ⟨⟨?_, ?_⟩, ⟨?_, ?_⟩, ⟨?_, ?_⟩, ⟨?_, ?_, ?_⟩, ⟨?_, ?_, ?_⟩⟩ <;> decide +kernel

theorem busy_maps : Maps busyMap busyMap :=
  ⟨sound_of_calm busy_reaches, plain_of_check (by decide +kernel), fun _ _ h => h⟩

/-- The conditions of `C30_partial` hold for an abbreviated IRI and for one in full. -/
example : Maps busyMap busyMap ∧ IriOk (lookup busyMap) ⟨exNs1, ascii "A.b-c"⟩ ∧
    writeIri (lookup busyMap) ⟨exNs1, ascii "A.b-c"⟩ = ascii "ex:A.b-c" ∧
    IriOk (lookup busyMap) ⟨ascii "urn:x/", ascii "A"⟩ ∧
    writeIri (lookup busyMap) ⟨ascii "urn:x/", ascii "A"⟩ = ascii "<urn:x/A>" := by
  refine ⟨busy_maps, iriOk_of (by decide +kernel) (by decide +kernel) (by decide +kernel),
    by decide +kernel, iriOk_of (by decide +kernel) (by decide +kernel) (by decide +kernel),
    by decide +kernel⟩

end Cowl
