import Verif.VocabFullSpec
import Verif.XmlProps
import Verif.PrefixMapProps
import Verif.LiteralProps
/-! # C74: the vocabularies; C75: reserved terms -/
namespace Cowl
open Voc VocSpec XmlSpec

/-! ## C74 -/

/-- The vocabularies with terms, each with its documentation. -/
def vocabs : List (Voc.Def × List (Sec × String × String)) :=
  [(owlDef, owlDoc), (rdfDef, rdfDoc), (rdfsDef, rdfsDoc), (xsdDef, xsdDoc)]

/-- Decides `Means`. -/
def meansB (v : Val) (k : Option EntKind) (short : Str) : Bool :=
  standard.any fun e =>
    let n := (ascii e.1 ++ ascii ":").length
    decide (short = ascii e.1 ++ ascii ":" ++ short.drop n ∧
      v = .prim (match k with
        | none => .iri ⟨ascii e.2, short.drop n⟩
        | some k => .ent k ⟨ascii e.2, short.drop n⟩))

theorem means_of_B {v : Val} {k : Option EntKind} {short : Str} (h : meansB v k short = true) :
    Means v k short := by
  unfold meansB at h
  rw [List.any_eq_true] at h
  obtain ⟨e, he, h⟩ := h
  rw [decide_eq_true_eq] at h
  exact ⟨e, he, _, h.1, h.2⟩

/-- C74. Each vocabulary has just the documented members besides its namespace and
prefix, and after initialisation each of them is the documented term: as an IRI,
or as an entity of the kind of its part. -/
theorem C74_terms (v : Voc.Def × List (Sec × String × String)) (hv : v ∈ vocabs) :
    v.1.members.Perm ([(.ns, ""), (.prefix, "")] ++ v.2.map fun t => (t.1, t.2.1)) ∧
    ∀ t ∈ v.2, ∃ x, v.1.val (t.1, t.2.1) = some x ∧ Means x (kindOf t.1) (ascii t.2.2) := by
  have h : ∀ v ∈ vocabs,
      v.1.members.Perm ([(.ns, ""), (.prefix, "")] ++ v.2.map fun t => (t.1, t.2.1)) ∧
      ∀ t ∈ v.2, (v.1.val (t.1, t.2.1)).any (fun x => meansB x (kindOf t.1) (ascii t.2.2)) = true := by
    decide +kernel
  refine ⟨(h v hv).1, fun t ht => ?_⟩
  obtain ⟨x, h1, h2⟩ := (Option.any_eq_true _ _).1 ((h v hv).2 t ht)
  exact ⟨x, h1, means_of_B h2⟩

/-- C74. Namespace and prefix are the standard ones. -/
theorem C74_names : [owlDef, rdfDef, rdfsDef, xsdDef].map
    (fun d => (d.val (.prefix, ""), d.val (.ns, ""))) =
      standard.map (fun e => (some (.str (ascii e.1)), some (.str (ascii e.2)))) ∧
    xmlDef.val (.prefix, "") = some (.str (ascii "xml")) ∧
    xmlDef.val (.ns, "") = some (.str (ascii "http://www.w3.org/XML/1998/namespace")) ∧
    xmlDef.val (.xmlnsPrefix, "") = some (.str (ascii "xmlns")) ∧
    xmlDef.val (.xmlnsNs, "") = some (.str (ascii "http://www.w3.org/2000/xmlns/")) := by
  decide +kernel

/-- C74. Different members are different objects. -/
theorem C74_distinct (d d' : Voc.Def) (hd : d ∈ defs) (hd' : d' ∈ defs) (m m' : Member)
    (hm : m ∈ d.members) (hm' : m' ∈ d'.members) (h : d.val m = d'.val m') :
    d.val (.ns, "") = d'.val (.ns, "") ∧ m = m' := by
  have hall : ∀ d ∈ defs, ∀ d' ∈ defs, ∀ m ∈ d.members, ∀ m' ∈ d'.members, d.val m = d'.val m' →
      d.val (.ns, "") = d'.val (.ns, "") ∧ m = m' := by
    decide +kernel
  exact hall d hd d' hd' m hm m' hm' h

/-- C74. The IRI of each term is found by its text: splitting the text yields
the namespace and remainder of the vocabulary, and `prefix:name` in a new prefix map
yields them too. -/
theorem C74_found (d : Voc.Def) (hd : d ∈ defs) (n r : String) (h : (n, r) ∈ d.iris) :
    ∃ i p, d.iri n = some i ∧ d.val (.prefix, "") = some (.str p) ∧
      iriFromString (i.ns ++ i.rem) = some (i.ns, i.rem) ∧
      freshMap.parseIri (p ++ ascii ":" ++ i.rem) = some (some (i.ns, i.rem)) := by
  have hall : ∀ d ∈ defs, ∀ e ∈ d.iris,
      (d.iri e.1).any (fun i => (d.string .prefix).any fun p =>
        decide (iriFromString (i.ns ++ i.rem) = some (i.ns, i.rem)) &&
        decide (freshMap.parseIri (p ++ ascii ":" ++ i.rem) = some (some (i.ns, i.rem)))) = true := by
    decide +kernel
  obtain ⟨i, h1, h2⟩ := (Option.any_eq_true _ _).1 (hall d hd _ h)
  obtain ⟨p, h3, h4⟩ := (Option.any_eq_true _ _).1 h2
  rw [Bool.and_eq_true, decide_eq_true_eq, decide_eq_true_eq] at h4
  exact ⟨i, p, h1, by rw [show d.val (.prefix, "") = (d.string .prefix).map .str from rfl, h3]; rfl,
    h4.1, h4.2⟩

/-- C74. The validators find any member that could not be made. -/
theorem C74_validate (d : Voc.Def) (hd : d ∈ defs) (null : Member → Bool) :
    (d.validate null = .ok ↔ ∀ m ∈ d.members, null m = false) ∧
    (d.validate null ≠ .ok → d.validate null = .errMem) := by
  have hp : ∀ d ∈ defs, d.checked.Perm d.members := by decide +kernel
  unfold Def.validate
  by_cases h : (d.checked.all fun m => !null m) = true
  · rw [if_pos h]
    refine ⟨⟨fun _ m hm => ?_, fun _ => rfl⟩, fun hc => absurd rfl hc⟩
    simpa using List.all_eq_true.1 h m ((hp d hd).mem_iff.2 hm)
  · rw [if_neg h]
    refine ⟨⟨fun hc => (by cases hc), fun hc => absurd ?_ h⟩, fun _ => rfl⟩
    rw [List.all_eq_true]
    intro m hm
    simpa using hc m ((hp d hd).mem_iff.1 hm)

/-- C74. The destructors free each member once. -/
theorem C74_freed (d : Voc.Def) (hd : d ∈ defs) : d.freed.Perm d.members ∧ d.freed.Nodup := by
  have hp : ∀ d ∈ defs, d.freed.Perm d.members ∧ d.freed.Nodup := by decide +kernel
  exact hp d hd

example : (Sec.cls, "thing", "owl:Thing") ∈ owlDoc ∧
    owlDef.val (.cls, "thing") = some (.prim (.ent .cls owlThing)) ∧
    ("string", "string") ∈ xsdDef.iris ∧ xsdDef.iri "string" = some xsdString ∧
    (Sec.dt, "gap") ∉ xsdDef.members ∧ xsdDef.members.length = 112 := by decide +kernel
example : (owlDef, owlDoc) ∈ vocabs ∧ xsdDef ∈ defs := by simp [vocabs, defs]

/-! ## C75 -/

theorem isReservedNs_iff (n : Str) : isReservedNs n = true ↔ ∃ e ∈ standard, n = ascii e.2 := by
  simp [isReservedNs, reserved, standard, owlNs, rdfNs, rdfsNs, xsdNs]

/-- C75. An object is reserved iff it is an IRI, or an entity with an IRI,
whose namespace is one of the four. -/
theorem C75_object (o : Obj) : objIsReserved o = true ↔
    ∃ i : Iri, (o = .prim (.iri i) ∨ ∃ k, o = .prim (.ent k i)) ∧ ∃ e ∈ standard, i.ns = ascii e.2 := by
  have hiri : ∀ i, o.iri? = some i ↔ (o = .prim (.iri i) ∨ ∃ k, o = .prim (.ent k i)) := by
    intro i
    cases o with
    | prim p => cases p <;> simp [Obj.iri?]
    | _ => simp [Obj.iri?]
  unfold objIsReserved
  cases h : o.iri? with
  | none =>
    constructor
    · intro h; cases h
    · rintro ⟨i, h1, _⟩
      rw [← hiri, h] at h1
      cases h1
  | some i =>
    show isReservedNs i.ns = true ↔ _
    rw [isReservedNs_iff]
    constructor
    · exact fun he => ⟨i, (hiri i).1 h, he⟩
    · rintro ⟨j, h1, h2⟩
      rw [← hiri, h] at h1
      cases h1
      exact h2

/-- A standard namespace ends with a byte that is in no local name. -/
theorem standard_hash (e : String × String) (he : e ∈ standard) :
    ∃ t, ascii e.2 = t ++ [35] := by
  have h : ∀ e ∈ standard, ascii e.2 = (ascii e.2).dropLast ++ [35] := by decide +kernel
  exact ⟨_, h e he⟩

theorem isSplit_standard {e : String × String} (he : e ∈ standard) {r : Str}
    (hr : r = [] ∨ LocalName r) : IsSplit (ascii e.2 ++ r) (ascii e.2) r := by
  refine ⟨rfl, hr, fun a b h hb => ?_⟩
  obtain ⟨t, ht⟩ := standard_hash e he
  rw [ht, List.append_assoc] at h
  apply Nat.le_of_not_lt
  intro hlt
  have hm : (35 : UInt8) ∈ b := by
    rcases List.append_eq_append_iff.1 h with ⟨w, h1, h2⟩ | ⟨w, h1, h2⟩
    · rcases w with _ | ⟨c, w⟩
      · simp at h2; rw [← h2]; simp
      · rw [List.cons_append, List.cons_append, List.nil_append] at h2
        have h3 := (List.cons.inj h2).2
        rw [h3, List.length_append] at hlt
        omega
    · rw [h2]; simp
  obtain ⟨c, u, rfl, h1, h2⟩ := hb
  have hn : NameChar 35 := by
    rcases List.mem_cons.1 hm with h | h
    · rw [h]; exact .inl h1
    · exact h2 _ h
  unfold NameChar NameStart at hn
  revert hn
  decide

/-- C75, in part: an IRI made from a text is reserved iff the text is a
reserved namespace followed by a local name or nothing. Missing: texts in a
reserved namespace that go on otherwise (`C75_fails`). -/
theorem C75_partial (s ns rem : Str) (h : iriFromString s = some (ns, rem)) :
    iriIsReserved ⟨ns, rem⟩ = true ↔ ReservedName s := by
  have hs : s ≠ [] := by
    rintro rfl
    rw [C02_empty] at h
    cases h
  obtain ⟨ns', rem', h1, h2⟩ := C02_split s hs
  rw [h] at h1
  cases h1
  rw [iriIsReserved, isReservedNs_iff]
  constructor
  · rintro ⟨e, he, hn⟩
    exact ⟨e, he, rem, hn ▸ h2.1, h2.2.1⟩
  · rintro ⟨e, he, r, rfl, hr⟩
    exact ⟨e, he, (C02_split_unique _ _ _ _ _ h2 (isSplit_standard he hr)).1⟩

/-- C75. A reserved IRI, however it was made, begins with a reserved namespace. -/
theorem C75_sound (i : Iri) (h : iriIsReserved i = true) : InReserved (i.ns ++ i.rem) := by
  obtain ⟨e, he, hn⟩ := (isReservedNs_iff _).1 h
  exact ⟨e, he, i.rem, hn ▸ rfl⟩

/-- C75. The terms of the vocabularies are reserved. -/
theorem C75_terms (d : Voc.Def) (hd : d ∈ defs) (m : Member) (p : Prim)
    (hm : m ∈ d.members)
    (hv : d.val m = some (.prim p)) : objIsReserved (.prim p) = true := by
  have hall : ∀ d ∈ defs, ∀ m ∈ d.members, (match d.val m with
      | some (.prim p) => objIsReserved (.prim p)
      | _ => true) = true := by
    decide +kernel
  have := hall d hd m hm
  rw [hv] at this
  exact this

/-- C75. Namespace and remainder of an object with an IRI make up the IRI, and it is
by the first that reserved objects are told. -/
theorem C75_parts (s ns rem : Str) (h : iriFromString s = some (ns, rem)) (o : Obj)
    (ho : o = .prim (.iri ⟨ns, rem⟩) ∨ ∃ k, o = .prim (.ent k ⟨ns, rem⟩)) :
    ∃ n r, getNs o = some n ∧ getRem o = some r ∧ n ++ r = s ∧
      (objIsReserved o = true ↔ ∃ e ∈ standard, n = ascii e.2) := by
  have hs : s ≠ [] := by
    rintro rfl
    rw [C02_empty] at h
    cases h
  obtain ⟨ns', rem', h1, h2⟩ := C02_split s hs
  rw [h] at h1
  cases h1
  refine ⟨ns, rem, ?_, ?_, h2.1.symm, ?_⟩
  · rcases ho with rfl | ⟨k, rfl⟩ <;> rfl
  · rcases ho with rfl | ⟨k, rfl⟩ <;> rfl
  · rw [← isReservedNs_iff]
    rcases ho with rfl | ⟨k, rfl⟩ <;> rfl

/-- C75 fails: `owl#1st` and `owl#a/b` are in a reserved namespace but not reserved,
as they are split elsewhere. -/
theorem C75_fails :
    (iriFromString (owlNs ++ ascii "1st")).map (fun i => iriIsReserved ⟨i.1, i.2⟩) = some false ∧
    (iriFromString (owlNs ++ ascii "a/b")).map (fun i => iriIsReserved ⟨i.1, i.2⟩) = some false ∧
    InReserved (owlNs ++ ascii "1st") ∧ InReserved (owlNs ++ ascii "a/b") :=
  ⟨by decide +kernel, by decide +kernel,
    ⟨("owl", _), by simp [standard], _, rfl⟩, ⟨("owl", _), by simp [standard], _, rfl⟩⟩

example : iriFromString (ascii "http://www.w3.org/2002/07/owl#Thing") = some (owlNs, ascii "Thing") ∧
    iriIsReserved ⟨owlNs, ascii "Thing"⟩ = true ∧
    (iriFromString (ascii "http://x#Thing")).map (fun i => iriIsReserved ⟨i.1, i.2⟩) = some false ∧
    xsdDef.val (.dt, "string") = some (.prim (.ent .datatype xsdString)) ∧
    (Sec.dt, "string") ∈ xsdDef.members ∧
    getNs (.prim (.iri ⟨owlNs, ascii "Thing"⟩)) = some owlNs ∧
    getRem (.prim (.ent .cls ⟨owlNs, ascii "Thing"⟩)) = some (ascii "Thing") := by decide +kernel

end Cowl
