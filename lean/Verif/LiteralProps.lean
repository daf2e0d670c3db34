import Verif.Literal
import Verif.IterProps
/-! # C25, C26, C27, C49: literals, quantifiers, names -/
namespace Cowl
open ObjSpec

/-! ## C25 -/

/-- The literal reports this value, datatype and language. -/
def Reports (r : LitRes) (value : Str) (dt : Iri) (lang : Option Str) : Prop :=
  ∃ t, r = .lit value t ∧ litDatatype t = dt ∧ litLang t = lang

/-- C25, nothing given: xsd:string, no language. -/
theorem C25_plain (v : Str) :
    Reports (literal v .none) v xsdString none ∧ Reports (literalPlain v) v xsdString none :=
  ⟨⟨_, rfl, rfl, rfl⟩, ⟨_, rfl, rfl, rfl⟩⟩

/-- C25, a language: rdf:langString and the language in lower case; an empty
language counts as none. -/
theorem C25_lang (v l : Str) :
    (l ≠ [] → Reports (literal v (.lang l)) v rdfLangString (some (lower l))) ∧
    (l = [] → Reports (literal v (.lang l)) v xsdString none) := by
  refine ⟨fun h => ⟨.lang (lower l), ?_, rfl, rfl⟩, fun h => ⟨.dt xsdString, ?_, rfl, rfl⟩⟩
  · cases l with
    | nil => exact absurd rfl h
    | cons a l => rfl
  · subst h; rfl

/-- C25: lower case means that `A` to `Z` become `a` to `z` and other bytes stay. -/
theorem C25_lower (s : Str) (i : Nat) :
    (lower s)[i]? = s[i]?.map fun c =>
      if 'A'.toNat ≤ c.toNat ∧ c.toNat ≤ 'Z'.toNat then
        UInt8.ofNat (c.toNat - 'A'.toNat + 'a'.toNat) else c := by
  rw [lower, List.getElem?_map]
  congr 1
  funext c
  unfold lowerByte
  have e : (65 ≤ c ∧ c ≤ 90) ↔ ('A'.toNat ≤ c.toNat ∧ c.toNat ≤ 'Z'.toNat) := by
    rw [UInt8.le_iff_toNat_le, UInt8.le_iff_toNat_le]
    exact Iff.rfl
  by_cases h : 65 ≤ c ∧ c ≤ 90
  · rw [if_pos h, if_pos (e.1 h)]
    have h' := e.1 h
    have h1 : 'A'.toNat = 65 := rfl
    have h2 : 'a'.toNat = 97 := rfl
    have h3 : 'Z'.toNat = 90 := rfl
    rw [h1, h3] at h'
    apply UInt8.toNat_inj.1
    rw [UInt8.toNat_add, UInt8.toNat_ofNat', h1, h2]
    have e3 : (32 : UInt8).toNat = 32 := rfl
    rw [e3]
    omega
  · rw [if_neg h, if_neg (fun h' => h (e.2 h'))]

/-- C25, a datatype other than rdf:langString and rdf:PlainLiteral; with
`cowl_literal_typed`, any datatype. -/
theorem C25_typed (v : Str) (i : Iri) :
    (i ≠ rdfLangString → i ≠ rdfPlainLiteral → Reports (literal v (.dt i)) v i none) ∧
    Reports (literalTyped v i) v i none := by
  refine ⟨fun h1 h2 => ⟨.dt i, ?_, rfl, rfl⟩, ⟨.dt i, rfl, rfl, rfl⟩⟩
  simp [literal, isLangDatatype, h1, h2]

theorem indexOfLast_append (v l : Str) (c : UInt8) (hl : ∀ x ∈ l, x ≠ c) :
    indexOfLast (v ++ c :: l) c = v.length := by
  unfold indexOfLast
  have hf : (v ++ c :: l).reverse.findIdx? (· == c) = some l.length := by
    rw [List.reverse_append, List.reverse_cons, List.append_assoc, List.findIdx?_append]
    have h1 : l.reverse.findIdx? (· == c) = none := by
      rw [List.findIdx?_eq_none_iff]
      intro x hx
      simpa using hl x (by simpa using hx)
    rw [h1]
    simp [List.findIdx?_cons]
  rw [hf]
  simp only [List.length_append, List.length_cons]
  omega

theorem indexOfLast_none (v : Str) (c : UInt8) (h : ∀ x ∈ v, x ≠ c) : indexOfLast v c = v.length := by
  unfold indexOfLast
  have hf : v.reverse.findIdx? (· == c) = none := by
    rw [List.findIdx?_eq_none_iff]
    intro x hx
    simpa using h x (by simpa using hx)
  rw [hf]

/-- C25, the lexical form `value@lang` of rdf:PlainLiteral: value and language are
told apart at the last `@`. -/
theorem C25_plain_literal (v l : Str) (hl : l ≠ []) (hat : ∀ x ∈ l, x ≠ 64) (i : Iri)
    (hi : i = rdfLangString ∨ i = rdfPlainLiteral) :
    Reports (literal (v ++ 64 :: l) (.dt i)) v rdfLangString (some (lower l)) := by
  refine ⟨.lang (lower l), ?_, rfl, rfl⟩
  have h1 : isLangDatatype i = true := by rcases hi with h | h <;> simp [isLangDatatype, h]
  have hlen : 0 < l.length := List.length_pos_iff.2 hl
  simp only [literal, h1, if_true, literalParseLang, indexOfLast_append v l 64 hat]
  rw [if_neg (by simp; omega)]
  congr 1
  · simp
  · rw [List.drop_append, List.drop_eq_nil_of_le (Nat.le_succ _)]; simp

example : Reports (literal (ascii "ciao@IT") (.dt rdfPlainLiteral)) (ascii "ciao") rdfLangString
    (some (ascii "it")) := by
  refine ⟨.lang (ascii "it"), by decide +kernel, by decide +kernel, by decide +kernel⟩

/-- C25 fails for rdf:PlainLiteral / rdf:langString values without a language part
(legal lexical forms such as `text@`, or `text` with no `@`): the constructor
dereferences a null pointer. -/
theorem C25_fails (v : Str) (h : (∀ x ∈ v, x ≠ 64) ∨ ∃ w, v = w ++ [64]) :
    literal v (.dt rdfPlainLiteral) = .ub ∧ literal v (.dt rdfLangString) = .ub := by
  have key : literalParseLang v = .ub := by
    unfold literalParseLang
    rcases h with h | ⟨w, rfl⟩
    · rw [indexOfLast_none v 64 h]; simp
    · rw [show w ++ [64] = w ++ 64 :: [] from rfl, indexOfLast_append w [] 64 (by simp)]
      simp
  have h1 : isLangDatatype rdfPlainLiteral = true := by decide +kernel
  have h2 : isLangDatatype rdfLangString = true := by decide +kernel
  simp [literal, h1, h2, key]

example : literal (ascii "text@") (.dt rdfPlainLiteral) = .ub :=
  (C25_fails (ascii "text@") (.inr ⟨ascii "text", by decide +kernel⟩)).1

theorem lower_idem (s : Str) : lower (lower s) = lower s := by
  have h : ∀ c : UInt8, lowerByte (lowerByte c) = lowerByte c := by
    intro c
    unfold lowerByte
    by_cases h : 65 ≤ c ∧ c ≤ 90
    · have h' : ¬ (65 ≤ c + 32 ∧ c + 32 ≤ 90) := by
        have := c.toNat_lt
        rw [UInt8.le_iff_toNat_le, UInt8.le_iff_toNat_le] at h ⊢
        rw [UInt8.toNat_add]
        have e1 : (65 : UInt8).toNat = 65 := rfl
        have e2 : (90 : UInt8).toNat = 90 := rfl
        have e3 : (32 : UInt8).toNat = 32 := rfl
        omega
      rw [if_pos h, if_neg h']
    · simp [h]
  simp [lower, h]

/-- C25, equality: two literals are equal iff value, datatype and language agree;
for language literals the case of the language does not matter. -/
theorem C25_equality (v w : Str) (s t : LitTag) :
    ((Obj.lit v s).equals (.lit w t) = true ↔
      v = w ∧ litDatatype s = litDatatype t ∧ litLang s = litLang t) ∧
    (∀ l m : Str, l ≠ [] → m ≠ [] →
      (literal v (.lang l) = literal w (.lang m) ↔ v = w ∧ lower l = lower m)) := by
  refine ⟨?_, fun l m hl hm => ?_⟩
  · simp only [Obj.equals, Obj.eqv, Bool.and_eq_true, beq_iff_eq]
    cases s <;> cases t <;> simp [litDatatype, litLang] <;> constructor <;> rintro ⟨h1, h2⟩ <;>
      simp [h1, h2]
  · cases l with
    | nil => exact absurd rfl hl
    | cons a l =>
      cases m with
      | nil => exact absurd rfl hm
      | cons b m => simp [literal, literalLang]

example : literal (ascii "a") (.lang (ascii "EN")) = literal (ascii "a") (.lang (ascii "en")) := by
  decide +kernel

/-! ## C26 -/

theorem getD_dropDefault (d : Prim) (f : Option Obj) :
    (dropDefault d f).getD (.prim d) = f.getD (.prim d) := by
  unfold dropDefault
  split
  · split
    · rename_i h; subst h; rfl
    · rfl
  · rfl

theorem getImpl_one (t : OType) (ht : t.fieldCount = 1) (prop : Obj) (f : Option Obj) :
    getOptField (getImpl t [prop] f) = f ∧ restrProp (getImpl t [prop] f) = some prop ∧
      (getImpl t [prop] f).otype = t := by
  cases f with
  | none => exact ⟨rfl, rfl, rfl⟩
  | some x => exact ⟨by simp [getImpl, getOptField, ht], rfl, rfl⟩

/-- C26, object quantifiers: property and filler are the ones given, the filler being
owl:Thing when omitted. -/
theorem C26_obj (qt : Nat) (hq : qt < 2) (prop : Obj) (filler : Option Obj) :
    ∃ o, objQuant qt prop filler = some o ∧
      objQuantFiller o = filler.getD (.prim (.ent .cls owlThing)) ∧
      restrProp o = some prop ∧
      o.otype = (if qt = 0 then .ceObjSome else .ceObjAll) := by
  have ht : (if qt = 0 then OType.ceObjSome else .ceObjAll).fieldCount = 1 := by split <;> rfl
  obtain ⟨h1, h2, h3⟩ := getImpl_one _ ht prop (dropDefault (.ent .cls owlThing) filler)
  refine ⟨_, if_neg (by omega), ?_, h2, h3⟩
  rw [objQuantFiller, h1, getD_dropDefault]

/-- C26, data quantifiers likewise, with rdfs:Literal. -/
theorem C26_data (qt : Nat) (hq : qt < 2) (prop : Obj) (range : Option Obj) :
    ∃ o, dataQuant qt prop range = some o ∧
      dataQuantRange o = range.getD (.prim (.ent .datatype rdfsLiteral)) ∧
      restrProp o = some prop ∧
      o.otype = (if qt = 0 then .ceDataSome else .ceDataAll) := by
  have ht : (if qt = 0 then OType.ceDataSome else .ceDataAll).fieldCount = 1 := by split <;> rfl
  obtain ⟨h1, h2, h3⟩ := getImpl_one _ ht prop (dropDefault (.ent .datatype rdfsLiteral) range)
  refine ⟨_, if_neg (by omega), ?_, h2, h3⟩
  rw [dataQuantRange, h1, getD_dropDefault]

example : ∃ o, objQuant 1 (sampleCls "p") (some sampleInter) = some o ∧
    objQuantFiller o = sampleInter :=
  let ⟨o, h1, h2, _⟩ := C26_obj 1 (by omega) (sampleCls "p") (some sampleInter)
  ⟨o, h1, h2⟩

/-- C26, an explicit default filler makes no difference. -/
theorem C26_default (qt : Nat) (prop : Obj) :
    objQuant qt prop (some (.prim (.ent .cls owlThing))) = objQuant qt prop none ∧
    dataQuant qt prop (some (.prim (.ent .datatype rdfsLiteral))) = dataQuant qt prop none := by
  simp [objQuant, dataQuant, dropDefault]

/-- Cardinality restrictions give back what they were built from: the number,
the property and the filler or its absence. -/
theorem C26_card (ct : Nat) (hc : ct < 3) (prop : Obj) (filler : Option Obj) (n : Nat) :
    ∃ o, objCard ct prop filler n = some o ∧ getOptField o = filler ∧ restrProp o = some prop ∧
      getUint o = n ∧
      o.otype = (if ct = 0 then .ceObjMinCard else if ct = 1 then .ceObjMaxCard else .ceObjExactCard) := by
  have : ct = 0 ∨ ct = 1 ∨ ct = 2 := by omega
  rcases this with rfl | rfl | rfl <;> cases filler <;> exact ⟨_, rfl, rfl, rfl, rfl, rfl⟩

/-- Unlike quantifiers, cardinality restrictions tell an explicit owl:Thing from an
omitted filler: they are not equal, although they mean the same. -/
theorem C26_card_default_fails :
    ∃ a b, objCard 0 (.prim (.ent .objProp (sampleIri "p"))) none 1 = some a ∧
      objCard 0 (.prim (.ent .objProp (sampleIri "p"))) (some (.prim (.ent .cls owlThing))) 1 = some b ∧
      a.equals b = false :=
  ⟨_, _, rfl, rfl, by decide +kernel⟩

/-! ## C27 -/

theorem type_mem_all (t : OType) : t ∈ OType.all := by cases t <;> decide

/-- C27. Names of object types are read back as the type, and no other string is
read as a type: it gives the invalid marker. -/
theorem C27_names :
    (∀ t : OType, typeFromString (typeToString t.code) = t.code) ∧
    (∀ s : Str, (∀ t : OType, s ≠ typeToString t.code) → typeFromString s = OType.all.length) ∧
    (∀ t : OType, t.code < OType.all.length) := by
  refine ⟨?_, fun s h => ?_, ?_⟩
  · have h : ∀ t ∈ OType.all, typeFromString (typeToString t.code) = t.code := by decide +kernel
    exact fun t => h t (type_mem_all t)
  · unfold typeFromString
    have : OType.all.find? (fun t => s == typeToString t.code) = none := by
      rw [List.find?_eq_none]
      intro t _
      simpa using h t
    rw [this]
  · have h : ∀ t ∈ OType.all, t.code < OType.all.length := by decide +kernel
    exact fun t => h t (type_mem_all t)

example : typeFromString (ascii "SubClassOf") = OType.aSubClass.code ∧
    (∀ t ∈ OType.all, ascii "SubClassof" ≠ typeToString t.code) := by decide +kernel

/-! ## C49 -/

/-- C49. `cowl_has_iri_string(o, s)` holds iff `o` is an IRI or an entity whose full
IRI string is `s`. -/
theorem C49_has_iri_string (o : Obj) (s : Str) :
    hasIriString o s = true ↔
      ∃ i : Iri, (o = .prim (.iri i) ∨ ∃ k, o = .prim (.ent k i)) ∧ s = i.ns ++ i.rem := by
  have hiri : ∀ i, o.iri? = some i ↔ (o = .prim (.iri i) ∨ ∃ k, o = .prim (.ent k i)) := by
    intro i
    constructor
    · intro h
      unfold Obj.iri? at h
      split at h
      · cases h; exact .inr ⟨_, rfl⟩
      · cases h; exact .inl rfl
      · cases h
    · rintro (rfl | ⟨k, rfl⟩) <;> rfl
  unfold hasIriString
  cases h : o.iri? with
  | none =>
    simp only [Bool.false_eq_true, false_iff]
    rintro ⟨i, h1, _⟩
    rw [(hiri i).2 h1] at h; cases h
  | some i =>
    have hex : (∃ i : Iri, (o = .prim (.iri i) ∨ ∃ k, o = .prim (.ent k i)) ∧ s = i.ns ++ i.rem) ↔
        s = i.ns ++ i.rem := by
      constructor
      · rintro ⟨j, h1, h2⟩
        rw [(hiri j).2 h1] at h; cases h; exact h2
      · intro h2; exact ⟨i, (hiri i).1 h, h2⟩
    rw [hex]
    constructor
    · intro h'
      simp only [bne_iff_ne, ne_eq, ite_not] at h'
      split at h'
      · rename_i hl
        split at h'
        · cases h'
        · rename_i hs
          simp only [Bool.not_eq_true', Bool.not_eq_false] at hs
          obtain ⟨r, hr⟩ := List.isPrefixOf_iff_prefix.1 h'
          obtain ⟨l, hl'⟩ := List.isSuffixOf_iff_suffix.1 hs
          have hlen : l.length = i.ns.length := by
            have := congrArg List.length hl'
            simp at this; omega
          rw [← hl'] at hr
          have := List.append_inj_left hr (by rw [hlen])
          rw [← hl', this]
      · cases h'
    · rintro rfl
      simp [List.isPrefixOf_iff_prefix, List.isSuffixOf_iff_suffix]

example : hasIriString (sampleCls "A") (ascii "http://x#A") = true ∧
    hasIriString (sampleCls "A") (ascii "http://x#B") = false := by decide +kernel

end Cowl
