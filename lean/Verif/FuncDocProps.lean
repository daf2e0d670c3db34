import Verif.FuncDocLemmas
import Verif.FuncProps
import Verif.AstLemmas
/-! # C45, C52: documents in functional syntax -/
namespace Cowl
open Prefix PrefixSpec Func FuncSpec Change Ast

/-! ## C45 -/

/-- C45 for any handler that accepts everything, under the conditions of `DocOk` and
`Compatible`: the ontology has a text, and reading it calls the handler on exactly what
the ontology consists of, in order. -/
theorem C45_events {o : OntoSt} (ho : DocOk o) {ks : List Nat} (hk : ks.length = 4) {dflt : Fwd}
    (hd : Distinct dflt) (hc : Compatible o.pm dflt) (addr : Nat) :
    ∃ txt items, writeDoc o = some txt ∧ Tells o items ∧
      ∀ {σ : Type} (h : Callback σ Item), Accepts h → ∀ s,
        funcRead h (create ks dflt) addr txt s = (give h s items, .ok) := by
  obtain ⟨items, h1, h2⟩ := read_written ho hk hd hc addr
  refine ⟨_, items, doc_defined ho, h1, fun h hh s => ?_⟩
  have := h2 h hh s []
  rwa [List.append_nil] at this

/-- What reading a written ontology gives, with its prefix map and its primitives. -/
theorem func_back {o : OntoSt} {s : OntoSpec.Abs} (hs : OntoSpec.Reaches o.onto s) (ho : DocOk o)
    {ks ks' : List Nat} (hk : ks.length = 4) (hk' : ks'.length = 4) {dflt : Fwd} (hd : Distinct dflt)
    (hc : Compatible o.pm dflt) (addr n : Nat) :
    ∃ txt o' n', writeDoc o = some txt ∧
      funcRead ontoHandler (create ks dflt) addr txt (OntoSt.new ks' dflt, n) = ((o', n'), .ok) ∧
      (∃ ps : Fwd, ps.Sublist o.pm.fwd ∧ o'.pm = overlay n ps (create ks' dflt)) ∧
      o'.iri = o.iri ∧ o'.version = o.version ∧
      (o'.onto.imports.getD []).map Ref.obj = s.imports.map Ref.obj ∧
      (o'.onto.annot.getD []).map Ref.obj = s.annots.map Ref.obj ∧
      (∀ t, ((o'.onto.byType t).getD []).map Ref.obj = ((o.onto.byType t).getD []).map Ref.obj) ∧
      (∀ p, o'.pm.getNs p = match o.pm.getNs p with
        | some n => some n
        | none => initial dflt p) ∧
      ∃ s', OntoSpec.Reaches o'.onto s' ∧ (s'.axioms.map Ref.obj).Perm (s.axioms.map Ref.obj) ∧
        ∀ p, o'.onto.hasPrimitive p = true → OntoSpec.OrIri (OntoSpec.Mentioned s') p := by
  obtain ⟨txt, items, h1, ⟨ps, is, h2, h3, h4, rfl⟩, h5⟩ := C45_events ho hk hd hc addr
  have hi := reaches_inv hs
  have hperm := axiomsOf_perm hi
  obtain ⟨x, hx⟩ := ho.history
  have hdist := (inv_reaches hx).distinct
  have e := h5 ontoHandler ontoHandler_accepts (OntoSt.new ks' dflt, n)
  have hid : ∀ n1 (pm : PMap), ∃ n2, give ontoHandler (⟨pm, none, none, Onto.empty⟩, n1)
      ((o.iri.map Item.iri).toList ++ (o.version.map Item.version).toList) =
      (⟨pm, o.iri, o.version, Onto.empty⟩, n2) := by
    intro n1 pm
    cases o.iri <;> cases o.version <;> exact ⟨_, rfl⟩
  rw [give_append, give_prefixes, List.append_assoc, List.append_assoc, give_append] at e
  obtain ⟨n2, e2⟩ := hid (n + ps.length) (overlay n ps (create ks' dflt))
  simp only [OntoSt.new] at e
  rw [e2, give_append, give_imports, give_append, give_annots, give_axioms, ← h4] at e
  refine ⟨txt, _, _, h1, e, ⟨ps, h2, rfl⟩, rfl, rfl, ?_⟩
  generalize hI : number n2 ((o.onto.imports.getD []).map Ref.obj) = I
  generalize hA : number (n2 + is.length) ((o.onto.annot.getD []).map Ref.obj) = A
  generalize hX : number (n2 + is.length + ((o.onto.annot.getD []).map Ref.obj).length)
    ((axiomsOf o.onto).map Ref.obj) = X
  have oI : I.map Ref.obj = (o.onto.imports.getD []).map Ref.obj := by rw [← hI, number_obj]
  have oA : A.map Ref.obj = (o.onto.annot.getD []).map Ref.obj := by rw [← hA, number_obj]
  have oX : X.map Ref.obj = (axiomsOf o.onto).map Ref.obj := by rw [← hX, number_obj]
  have hwa : ∀ y ∈ A, ObjSpec.WellFormed y.obj := by
      intro y hy
      have : y.obj ∈ A.map Ref.obj := List.mem_map_of_mem hy
      rw [oA, hi.annot] at this
      obtain ⟨z, hz, ez⟩ := List.mem_map.1 this
      rw [← ez]; exact annots_wf hs z hz
  have hwx : ∀ y ∈ X, OntoSpec.IsAxiom y.obj := by
      intro y hy
      have : y.obj ∈ X.map Ref.obj := List.mem_map_of_mem hy
      rw [oX] at this
      obtain ⟨z, hz, ez⟩ := List.mem_map.1 this
      rw [← ez]; exact hi.axioms z (hperm.mem_iff.1 hz)
  have hwn : ∀ y ∈ X, ∀ z ∈ X, y.addr = z.addr → y = z := by rw [← hX]; exact number_inj _ _
  have hr : OntoSpec.Reaches (loaded I A X) ⟨X, A, I⟩ := loaded_reaches hwa hwx hwn
  have hri := reaches_inv hr
  refine ⟨?_, ?_, ?_, ?_, _, hr, ?_, fun p hp => loaded_prims hwa hwx hwn hp⟩
  · rw [← hi.imports, ← oI]
    exact congrArg (List.map Ref.obj) hri.imports
  · rw [← hi.annot, ← oA]
    exact congrArg (List.map Ref.obj) hri.annot
  · intro t
    have := rebuilt_byType hi [] [] t
    rw [built_byType] at this
    rw [← this]
    show (((loaded I A X).byType t).getD []).map Ref.obj = _
    rw [loaded_byType, filter_obj, filter_obj, oX]
  · intro p
    have hpd : Distinct ps := hdist.sublist h2
    have hm : ∀ n, meaning ps p = some n ↔ ¬ Standard p ∧ meaning o.pm.fwd p = some n := by
      intro n
      constructor
      · intro h
        obtain ⟨k, hy, rfl⟩ := meaning_some h
        have hyf := h2.subset hy
        exact ⟨(h3 _ hyf).1 hy, meaning_of_mem hdist hyf⟩
      · rintro ⟨hst, h⟩
        obtain ⟨k, hy, rfl⟩ := meaning_some h
        exact meaning_of_mem hpd ((h3 _ hy).2 hst)
    refine (C22_get_ns (overlay_reaches ps n (.create ks' dflt hk' hd)) p).trans ?_
    rw [foldAdd_spec _ _ _ hpd]
    simp only [PrefixSpec.Abs.merge, getNs_meaning]
    cases hf : meaning o.pm.fwd p with
    | none =>
      cases hp : meaning ps p with
      | none => rfl
      | some n => have := ((hm n).1 hp).2; rw [hf] at this; cases this
    | some n =>
      by_cases hst : Standard p
      · cases hp : meaning ps p with
        | some n => exact absurd hst ((hm n).1 hp).1
        | none =>
          have := std_registered hx ((getNs_meaning _ _).trans hf)
          show initial dflt p = some n
          unfold initial
          refine (if_pos hst).trans ?_
          rw [← this]
          exact congrArg some (std_standard (by simpa [standardPrefixes, Standard] using hst) _ _)
      · rw [(hm n).2 ⟨hst, hf⟩]
        simp [std_other hst]
  · rw [oX]; exact hperm.map _

/-- C45 under the conditions of `DocOk` and `Compatible`: an ontology that is written
and read into a new one has the same IRI, version, imports, annotations and axioms (of
each type in the same order), and the same prefixes, besides the standard and default
ones. The new ontology is consistent (C11 to C21 apply to it). -/
theorem C45_partial {o : OntoSt} {s : OntoSpec.Abs} (hs : OntoSpec.Reaches o.onto s) (ho : DocOk o)
    {ks ks' : List Nat} (hk : ks.length = 4) (hk' : ks'.length = 4) {dflt : Fwd} (hd : Distinct dflt)
    (hc : Compatible o.pm dflt) (addr n : Nat) :
    ∃ txt o' n', writeDoc o = some txt ∧
      funcRead ontoHandler (create ks dflt) addr txt (OntoSt.new ks' dflt, n) = ((o', n'), .ok) ∧
      o'.iri = o.iri ∧ o'.version = o.version ∧
      (o'.onto.imports.getD []).map Ref.obj = s.imports.map Ref.obj ∧
      (o'.onto.annot.getD []).map Ref.obj = s.annots.map Ref.obj ∧
      (∀ t, ((o'.onto.byType t).getD []).map Ref.obj = ((o.onto.byType t).getD []).map Ref.obj) ∧
      (∀ p, o'.pm.getNs p = match o.pm.getNs p with
        | some n => some n
        | none => initial dflt p) ∧
      ∃ s', OntoSpec.Reaches o'.onto s' ∧ (s'.axioms.map Ref.obj).Perm (s.axioms.map Ref.obj) := by
  obtain ⟨txt, o', n', h1, h2, -, h3, h4, h5, h6, h7, h8, s', h9, h10, -⟩ := func_back hs ho hk hk' hd hc addr n
  exact ⟨txt, o', n', h1, h2, h3, h4, h5, h6, h7, h8, s', h9, h10⟩

/-! ## Counterexamples -/

/-- The empty ontology with this version and no IRI. -/
def versionOnly : OntoSt := ⟨freshMap, none, some (exIri "v1"), Onto.empty⟩

/-- An ontology with this prefix for this namespace. -/
def withPrefix (p : String) (n : Str) : OntoSt :=
  ⟨(freshMap.add (pfx 10 p) n false).1, none, none, Onto.empty⟩

/-- The reader, into a new ontology. -/
def readNew (dflt : Fwd) (txt : Str) : OntoSt × Outcome :=
  let r := funcRead ontoHandler (create [0, 1, 2, 3] dflt) 20 txt (OntoSt.new [0, 1, 2, 3] dflt, 100)
  (r.1.1, r.2)

/-- `Declaration(Class(ex:A))`, for the sample namespace. -/
def declA : Obj := (Axiom.mk (.decl .cls (exIri "A")) []).toObj

/-- C45 is false as stated.
* A version without an IRI is read back as the IRI.
* A namespace with a space makes a document that is rejected.
* So does the prefix `_`.
* If the default map has another namespace for a prefix of the ontology, names of the
  document are resolved with the default map. -/
theorem C45_fails :
    ((writeDoc versionOnly).map (fun t => ((readNew [] t).1.iri, (readNew [] t).1.version, (readNew [] t).2)) =
      some (some (exIri "v1"), none, .ok)) ∧
    ((writeDoc (withPrefix "ex" (ascii "urn:a b/"))).map (fun t => (readNew [] t).2) = some .rejected) ∧
    ((writeDoc (withPrefix "_" exNs1)).map (fun t => (readNew [] t).2) = some .rejected) ∧
    (let o := { withPrefix "ex" exNs1 with onto := Onto.empty.addAxiom ⟨1, declA⟩ }
     (writeDoc o).map (fun t =>
        let r := readNew [(pfx 5 "ex", exNs2)] t
        (r.2, r.1.pm.getNs (ascii "ex"), r.1.onto.idx.map Prod.fst)) =
      some (.ok, some exNs1, [.ent .cls ⟨exNs2, ascii "A"⟩])) := by
  refine ⟨?_, ?_, ?_, ?_⟩ <;> decide +kernel

/-! ## Non-vacuity -/

/-- An annotation. -/
def exAnnot : Annot := .mk (exIri "note") (.iri (exIri "doc")) []

/-- An ontology with prefixes, IRI, version, import, annotation and axiom. -/
def docOnto : OntoSt :=
  ⟨busyMap, some (exIri "o"), some (exIri "v1"),
    loaded [⟨1, .prim (.iri (exIri "i"))⟩] [⟨2, exAnnot.toObj⟩] [⟨3, exAxiom.toObj⟩]⟩

theorem docOnto_reaches : OntoSpec.Reaches docOnto.onto
    ⟨[⟨3, exAxiom.toObj⟩], [⟨2, exAnnot.toObj⟩], [⟨1, .prim (.iri (exIri "i"))⟩]⟩ := by
  refine loaded_reaches ?_ ?_ ?_
  · intro y hy; rw [List.mem_singleton.1 hy]; exact wf_annot exAnnot
  · intro y hy; rw [List.mem_singleton.1 hy]; exact isAxiom_toObj exAxiom
  · intro y hy z hz _; rw [List.mem_singleton.1 hy, List.mem_singleton.1 hz]

theorem chars_of_check {m : PMap} (h : (m.fwd.all fun e => e.2.all isIriChar) = true) :
    ∀ p n, m.getNs p = some n → ∀ c ∈ n, IriChar c := by
  intro p n hp c hc
  rw [getNs_meaning] at hp
  obtain ⟨k, hk, _⟩ := meaning_some hp
  exact (isIriChar_iff c).1 (List.all_eq_true.1 (List.all_eq_true.1 h _ hk) c hc)

theorem docOnto_ok : DocOk docOnto := by
  have hi := reaches_inv docOnto_reaches
  have full : ∀ i ∈ [exIri "o", exIri "v1", exIri "i"], IriOk (fun _ => none) i := by
    intro i hi
    simp only [List.mem_cons, List.not_mem_nil, or_false] at hi
    rcases hi with h | h | h <;> rw [h] <;>
      exact iriOk_of (by decide +kernel) (by decide +kernel) (by decide +kernel)
  have short : ∀ i ∈ [exIri "note", exIri "doc"], IriOk (lookup busyMap) i := by
    intro i hi
    simp only [List.mem_cons, List.not_mem_nil, or_false] at hi
    rcases hi with h | h <;> rw [h] <;>
      exact iriOk_of (by decide +kernel) (by decide +kernel) (by decide +kernel)
  refine ⟨⟨_, busy_reaches.weaken⟩, busy_maps.sound, busy_maps.plain, chars_of_check (by decide +kernel), ?_, ?_, ?_, ?_, ?_⟩
  · intro i h; cases h; exact full _ (by simp)
  · intro i h; cases h; exact ⟨nofun, full _ (by simp)⟩
  · intro x hx
    rw [hi.imports] at hx
    rw [List.mem_singleton.1 hx]
    exact ⟨_, rfl, full _ (by simp)⟩
  · intro x hx
    rw [hi.annot] at hx
    rw [List.mem_singleton.1 hx]
    refine ⟨_, rfl, ?_⟩
    rw [exAnnot, Annot.Meets]
    exact ⟨short _ (by simp), short _ (by simp), by simp [Annot.AllMeet], trivial⟩
  · intro x hx
    have := (axiomsOf_perm hi).mem_iff.1 hx
    rw [List.mem_singleton.1 this]
    exact ⟨_, rfl, exAxiom_meets⟩

/-- The conditions of `C45_partial` hold for it, also if the reader has default
prefixes: one that the ontology has with the same namespace, and another one. -/
example : OntoSpec.Reaches docOnto.onto
      ⟨[⟨3, exAxiom.toObj⟩], [⟨2, exAnnot.toObj⟩], [⟨1, .prim (.iri (exIri "i"))⟩]⟩ ∧ DocOk docOnto ∧
    Distinct [(pfx 5 "ex", exNs1), (pfx 6 "other", exNs2)] ∧
    Compatible docOnto.pm [(pfx 5 "ex", exNs1), (pfx 6 "other", exNs2)] := by
  refine ⟨docOnto_reaches, docOnto_ok, by simp only [Distinct]; decide +kernel, ?_⟩
  intro p n n' h h'
  left
  have e1 : docOnto.pm.getNs (ascii "ex") = some exNs1 := by decide +kernel
  have e2 : docOnto.pm.getNs (ascii "other") = none := by decide +kernel
  obtain ⟨k, hk, rfl⟩ := meaning_some h'
  rcases List.mem_cons.1 hk with hk | hk
  · cases hk
    exact Option.some.inj (h.symm.trans e1)
  · cases List.mem_singleton.1 hk
    exact absurd (h.symm.trans e2) nofun

/-! ## C52 -/

/-- C52, the part that holds, for documents of the writer: with something after the
document that has a token, it is rejected. The document has been delivered to the
handler before that. -/
theorem C52_partial {o : OntoSt} (ho : DocOk o) {ks : List Nat} (hk : ks.length = 4) {dflt : Fwd}
    (hd : Distinct dflt) (hc : Compatible o.pm dflt) (addr : Nat) :
    ∃ txt items, writeDoc o = some txt ∧ Tells o items ∧
      ∀ {σ : Type} (h : Callback σ Item), Accepts h → ∀ s extra, lex extra ≠ [] →
        funcRead h (create ks dflt) addr (txt ++ extra) s = (give h s items, .rejected) := by
  obtain ⟨items, h1, h2⟩ := read_written ho hk hd hc addr
  refine ⟨_, items, doc_defined ho, h1, fun h hh s extra he => ?_⟩
  rw [h2 h hh s extra, if_neg he]

/-- C52 is false as stated: anything after a NUL byte is ignored. -/
theorem C52_fails {o : OntoSt} (ho : DocOk o) {ks : List Nat} (hk : ks.length = 4) {dflt : Fwd}
    (hd : Distinct dflt) (hc : Compatible o.pm dflt) (addr : Nat) :
    ∃ txt, writeDoc o = some txt ∧ ∀ {σ : Type} (h : Callback σ Item), Accepts h → ∀ s more,
      (funcRead h (create ks dflt) addr (txt ++ 0 :: more) s).2 = .ok := by
  obtain ⟨items, h1, h2⟩ := read_written ho hk hd hc addr
  refine ⟨_, doc_defined ho, fun h hh s more => ?_⟩
  rw [h2 h hh s, if_pos (lex_nul more)]

/-- C52 is false as stated, further witnesses: an opening quote that is never closed,
and a byte that cannot begin a token. -/
theorem C52_other_fails :
    (readNew [] (ascii "Ontology(\n)\n" ++ ascii "\"garbage")).2 = .ok ∧
    (readNew [] (ascii "Ontology(\n)\n" ++ 0x80 :: ascii " garbage")).2 = .ok := by
  refine ⟨by decide +kernel, by decide +kernel⟩

/-- Text that has a token, as `C52_partial` requires. -/
example : lex (ascii " Ontology()") ≠ [] ∧ DocOk docOnto := ⟨by decide +kernel, docOnto_ok⟩

end Cowl
