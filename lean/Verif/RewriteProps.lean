import Verif.RewriteDoc
import Verif.ConvertProps
/-!
# C93: what was read from functional syntax can be written, and read again

Statement: "if the functional reader accepts a text, the ontology that results can be written in functional syntax, the
text is accepted by the reader, and gives the same ontology."
-/
namespace Cowl
open Cowl.Prefix Cowl.PrefixSpec Cowl.Func Cowl.FuncSpec Cowl.Change Cowl.Ast Cowl.XmlSpec Cowl.Rewrite

/-- C93, the part that holds. For every text, accepted or not, the ontology `o` that results from reading it: if its
names are split as cowl splits, have no full stop at their end when abbreviated, values have no NUL, languages are tags,
no inverse is a sub-property, and no prefix of the text redefines a default one, then writing `o` is defined, the text is
accepted, and gives an ontology with the same IRI, version, imports, annotations, axioms of each type, and prefixes.

That the constructs are complete, have their numbers of operands and valid names, that namespaces and prefixes can be
declared, and that a version comes with an IRI is not assumed, but follows from `o` having been read. -/
theorem C93_partial {ks ks' : List Nat} (hk : ks.length = 4) (hk' : ks'.length = 4) {dflt : Fwd} (hd : Distinct dflt)
    (hg : GoodDefaults dflt) (addr n : Nat) (text : Str) (o : OntoSt)
    (ho : (funcRead ontoHandler (create ks dflt) addr text (OntoSt.new ks' dflt, n)).1.1 = o) (hw : Rewritable o)
    (hc : Compatible o.pm dflt) {js js' : List Nat} (hj : js.length = 4) (hj' : js'.length = 4) (addr' n' : Nat) :
    ∃ text' o' n'', writeDoc o = some text' ∧
      funcRead ontoHandler (create js dflt) addr' text' (OntoSt.new js' dflt, n') = ((o', n''), .ok) ∧
      o'.iri = o.iri ∧ o'.version = o.version ∧
      (o'.onto.imports.getD []).map Ref.obj = (o.onto.imports.getD []).map Ref.obj ∧
      (o'.onto.annot.getD []).map Ref.obj = (o.onto.annot.getD []).map Ref.obj ∧
      (∀ t, ((o'.onto.byType t).getD []).map Ref.obj = ((o.onto.byType t).getD []).map Ref.obj) ∧
      (∀ p, o'.pm.getNs p = o.pm.getNs p) := by
  subst ho
  obtain ⟨⟨s, hs⟩, hp, hdoc⟩ := doc_of_read hk hk' hd hg addr n text
  obtain ⟨t, o', m, h1, h2, h3, h4, h5, h6, h7, h8, -⟩ := C45_partial hs (hdoc hw) hj hj' hd hc addr' n'
  have hi := reaches_inv hs
  refine ⟨t, o', m, h1, h2, h3, h4, h5.trans (by rw [hi.imports]), h6.trans (by rw [hi.annot]), h7, fun p => ?_⟩
  rw [h8 p]
  split
  · rename_i e; exact e.symm
  · rename_i e; rw [e]; exact hp p e

/-! ## Counterexamples -/

/-- What becomes of a text that is read and written: whether it is accepted, the text written, and whether that is
accepted. -/
def again (text : Str) : Outcome × Option (Str × Outcome) :=
  ((readNew [] text).2, (writeDoc (readNew [] text).1).map fun t => (t, (readNew [] t).2))

/-- The names of what an ontology declares. -/
def declared (o : OntoSt) : List Prim := o.onto.idx.map Prod.fst

/-- C93 is false as stated.
* A name with a full stop at its end, given in full, is abbreviated; the text is rejected.
* A language made of the end of a literal of type `rdf:PlainLiteral` is written as it is; the text is rejected.
* Writing a sub-property axiom with an inverse is undefined.
* A value with a NUL comes back shorter.
* A name from a prefix whose namespace ends within the name comes back as another object: cowl keeps `http://x/a#b1` in
  one part, and splits it when it reads it in full. -/
theorem C93_fails :
    again (ascii "Prefix(e:=<http://a#>) Ontology(Declaration(Class(<http://a#x.>)))") =
      (.ok, some (ascii "Prefix(e:=<http://a#>)\nOntology(\nDeclaration(Class(e:x.))\n)\n", .rejected)) ∧
    again (ascii "Ontology(AnnotationAssertion(<http://a#p> <http://a#q> \"a@b c\"^^rdf:PlainLiteral))") =
      (.ok, some (ascii "Ontology(\nAnnotationAssertion(<http://a#p> <http://a#q> \"a\"@b c)\n)\n", .rejected)) ∧
    again inverseDoc = (.ok, none) ∧
    again (ascii "Ontology(AnnotationAssertion(<http://a#p> <http://a#q> \"a" ++ 0 :: ascii "b\"))") =
      (.ok, some (ascii "Ontology(\nAnnotationAssertion(<http://a#p> <http://a#q> \"a\")\n)\n", .ok)) ∧
    (let r := readNew [] (ascii "Prefix(e:=<http://x/a#b>) Ontology(Declaration(Class(e:1)))")
     r.2 = .ok ∧ declared r.1 = [.ent .cls ⟨ascii "http://x/a#b1", []⟩] ∧
     (writeDoc r.1).map (fun t => ((readNew [] t).2, declared (readNew [] t).1)) =
       some (.ok, [.ent .cls ⟨ascii "http://x/a#", ascii "b1"⟩])) := by
  refine ⟨?_, ?_, ?_, ?_, ?_, ?_, ?_⟩ <;> decide +kernel

/-! ## Non-vacuity -/

/-- A text with prefix, IRI, version, import, annotation and axioms. -/
def rewriteText : Str := ascii "Prefix(e:=<http://x.org/a#>) Ontology(<http://x.org/o> <http://x.org/v> Import(<http://x.org/i>) Annotation(e:note \"hi\"@en) Declaration(Class(e:A)) SubClassOf(e:A <http://x.org/a#B>))"

/-- The default prefixes of the example. -/
def rewriteDflt : Fwd := [(pfx 5 "other", exNs2)]

/-- Numbers of imports, annotations and axioms of the example, IRI, and version. -/
example : let r := readNew rewriteDflt rewriteText
    (r.2, (r.1.onto.imports.getD []).length, (r.1.onto.annot.getD []).length, (axiomsOf r.1.onto).length, r.1.iri.isSome, r.1.version.isSome) =
      (.ok, 1, 1, 2, true, true) := by decide +kernel

/-- Check that a name is split and has no full stop at its end. -/
def nameCheck (i : Iri) : Bool :=
  iriFromString (i.ns ++ i.rem) == some (i.ns, i.rem) && (i.ns ++ i.rem).all isIriChar && !(i.rem.getLast? == some 46)

/-- Checks of the objects of the example. -/
def objCheck : Obj → Bool
  | .comp .aDecl false [.prim (.ent _ i)] 0 => nameCheck i
  | .comp .aSubClass false [.prim (.ent .cls i), .prim (.ent .cls j)] 0 => nameCheck i && nameCheck j
  | .comp .annotation false [.prim (.ent .annotProp i), .lit v (.lang t)] 0 => nameCheck i && !(v.contains 0) && t == ascii "en"
  | .prim (.iri i) => nameCheck i
  | _ => false

theorem of_nameCheck {i : Iri} (h : nameCheck i = true) (gp : Str → Option Str) :
    IsSplit (i.ns ++ i.rem) i.ns i.rem ∧ (gp i.ns ≠ none → NoFinalDot i.rem) := by
  unfold nameCheck at h
  simp only [Bool.and_eq_true, beq_iff_eq, Bool.not_eq_true', beq_eq_false_iff_ne] at h
  have := iriOk_of (gp := gp) h.1.1 h.1.2 h.2
  exact ⟨this.split, this.short⟩

theorem check_annotated (t : OType) (fs : List Obj) (n : Nat) : objCheck (.comp t true fs n) = false := by
  unfold objCheck
  split <;> first | rfl | (rename_i e; cases e)

theorem axiom_of_check {o : Obj} (h : objCheck o = true) {a : Axiom} (e : o = a.toObj) (gp : Str → Option Str) : a.Meets (restReq gp) := by
  obtain ⟨ax, as⟩ := a
  subst e
  unfold Axiom.toObj at h
  cases as with
  | cons y as => rw [Annot.toObjs, annotated, check_annotated] at h; cases h
  | nil =>
    rw [Annot.toObjs, annotated] at h
    refine ⟨?_, trivial, trivial⟩
    cases ax with
    | decl k i => exact of_nameCheck h gp
    | subClass c d =>
      rw [Ax.type, Ax.fields] at h
      cases c <;> cases d <;> first
        | (have h := Bool.and_eq_true _ _ ▸ h
           exact ⟨of_nameCheck h.1 gp, of_nameCheck h.2 gp⟩)
        | (simp only [CE.toObj] at h; first | cases h | (split at h <;> cases h))
    | objPropChar k p => cases k <;> cases h
    | _ => cases h

theorem annot_of_check {o : Obj} (h : objCheck o = true) {a : Annot} (e : o = a.toObj) (gp : Str → Option Str) : a.Meets (restReq gp) := by
  obtain ⟨p, v, as⟩ := a
  subst e
  rw [Annot.toObj] at h
  cases as with
  | cons y as => rw [Annot.toObjs, annotated, check_annotated] at h; cases h
  | nil =>
    rw [Annot.toObjs, annotated] at h
    cases v with
    | lit l =>
      obtain ⟨v, t⟩ := l
      cases t with
      | lang t =>
        have h : (nameCheck p && !(v.contains 0) && t == ascii "en") = true := h
        simp only [Bool.and_eq_true, beq_iff_eq, Bool.not_eq_true'] at h
        refine ⟨of_nameCheck h.1.1 gp, ⟨fun c => ?_, ?_⟩, trivial, trivial⟩
        · have := List.contains_iff_mem.2 c; rw [h.1.2] at this; cases this
        · rw [h.2]
          refine ⟨ascii "en", [], by decide +kernel, by decide +kernel, ?_, nofun⟩
          intro c hc
          have : c = 101 ∨ c = 110 := by
            have e : ascii "en" = [101, 110] := by decide +kernel
            rw [e] at hc; simpa using hc
          rcases this with rfl | rfl <;> (unfold Letter; decide)
      | dt i => cases h
    | _ => cases h

theorem rewritable_of_check {o : OntoSt} (ci : o.iri.all nameCheck = true) (cv : o.version.all nameCheck = true)
    (cm : (o.onto.imports.getD []).all (fun x => objCheck x.obj) = true) (cn : (o.onto.annot.getD []).all (fun x => objCheck x.obj) = true)
    (ca : (axiomsOf o.onto).all (fun x => objCheck x.obj) = true) : Rewritable o := by
  refine ⟨?_, ?_, ?_, ?_, ?_⟩
  · intro i h
    rw [h] at ci
    exact (of_nameCheck ci (fun _ => none)).1
  · intro i h
    rw [h] at cv
    exact (of_nameCheck cv (fun _ => none)).1
  · intro x hx i h
    have := List.all_eq_true.1 cm x hx
    rw [h] at this
    exact (of_nameCheck this (fun _ => none)).1
  · intro x hx a h
    exact annot_of_check (List.all_eq_true.1 cn x hx) h _
  · intro x hx a h
    exact axiom_of_check (List.all_eq_true.1 ca x hx) h _

/-- The default prefix is not redefined. -/
theorem compatible_of_check {m : PMap} (e : m.getNs (ascii "other") = some exNs2) : Compatible m rewriteDflt := by
  intro p n n' h h'
  left
  obtain ⟨k, hk, rfl⟩ := meaning_some h'
  cases List.mem_singleton.1 hk
  exact Option.some.inj (h.symm.trans e)

/-- All checks at once. -/
def ontoCheck (o : OntoSt) : Bool :=
  (o.iri.all nameCheck && o.version.all nameCheck) && ((o.onto.imports.getD []).all (fun x => objCheck x.obj) &&
    (o.onto.annot.getD []).all (fun x => objCheck x.obj)) && (axiomsOf o.onto).all (fun x => objCheck x.obj)

theorem rewritable_of {o : OntoSt} (h : ontoCheck o = true) : Rewritable o := by
  unfold ontoCheck at h
  simp only [Bool.and_eq_true] at h
  exact rewritable_of_check h.1.1.1 h.1.1.2 h.1.2.1 h.1.2.2 h.2

theorem rewriteText_check : ontoCheck (readNew rewriteDflt rewriteText).1 = true := by decide +kernel

theorem rewriteText_ok : Rewritable (readNew rewriteDflt rewriteText).1 := rewritable_of rewriteText_check

theorem rewriteDflt_distinct : Distinct rewriteDflt := by simp only [Distinct]; decide +kernel

theorem rewriteDflt_good : GoodDefaults rewriteDflt := by
  intro e he
  rw [List.mem_singleton.1 he]
  exact ⟨plain_of (by decide +kernel) (by decide +kernel), chars_of (by decide +kernel)⟩

theorem rewriteText_compatible : Compatible (readNew rewriteDflt rewriteText).1.pm rewriteDflt := by
  have e : (readNew rewriteDflt rewriteText).1.pm.getNs (ascii "other") = some exNs2 := by decide +kernel
  exact compatible_of_check e

/-- The conditions of `C93_partial` hold for the example. -/
example : Distinct rewriteDflt ∧ GoodDefaults rewriteDflt ∧ Rewritable (readNew rewriteDflt rewriteText).1 ∧
    Compatible (readNew rewriteDflt rewriteText).1.pm rewriteDflt :=
  ⟨rewriteDflt_distinct, rewriteDflt_good, rewriteText_ok, rewriteText_compatible⟩

end Cowl
