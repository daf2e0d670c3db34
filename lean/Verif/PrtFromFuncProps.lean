import Verif.PrtAgainProps
import Verif.RewriteProps
/-! # C97: an ontology read from functional syntax can be written in ProtocOWL and read again -/
namespace Cowl
open Change Func FuncSpec Prefix PrefixSpec Prt Ast Rewrite

/-- No requirements. -/
def noReq : Req where
  iri _ := True
  lit _ := True
  anon _ := True
  sub _ := True
  two _ := True
  one _ := True
  any _ := True
  card _ := True

mutual
theorem leafs_noReq : ∀ o : Obj, Leafs noReq o
  | .prim (.iri _) => trivial
  | .prim (.ent _ _) => trivial
  | .prim (.anon _) => trivial
  | .lit _ _ => trivial
  | .vec _ xs => leafsAll_noReq xs
  | .comp _ _ xs _ => leafsAll_noReq xs
  | .str _ => trivial
  | .other _ _ => trivial

theorem leafsAll_noReq : ∀ xs : List Obj, LeafsAll noReq xs
  | [] => trivial
  | x :: xs => ⟨leafs_noReq x, leafsAll_noReq xs⟩
end

theorem suits_sizes : Suits owl2 small noReq prtSizes where
  iri _ _ _ _ := trivial
  thing := trivial
  literal := trivial
  lit _ a b _ := ⟨a, b⟩
  anon _ _ _ _ := trivial
  sub _ _ _ := trivial
  two _ _ b := b
  one _ _ b := b
  any _ _ b := b
  card _ _ b := b

/-- C97 for names and sizes that can be written (`C97_fails`). Whatever the text, accepted or not, the ontology that
was read from it can be written in ProtocOWL, and what was written is read as the same ontology, with literals in
normal form (C94). That the literals are as `cowl_literal` makes them, and that the constructs are complete, is not
assumed. -/
theorem C97_partial (E : Env) (hu : E.u.Lawful) : ∃ norm, IsNorm E.u norm ∧
    ∀ (text : Str) (m : PMap) (ks ks' : List Nat) (dflt dflt' : Fwd) (a : PrefixSpec.Abs) (addr n n' : Nat),
      PrefixSpec.Reaches False (create ks dflt) a →
      let o := (funcRead ontoHandler m addr text (OntoSt.new ks dflt, n)).1.1
      ∃ s, OntoSpec.Reaches o.onto s ∧
        ∀ names, NamesFit names o → SizesFit o → ∀ order : List Prim → List Prim, (∀ ps, (order ps).Perm ps) →
        ∃ b o' m', (∀ cap, b.length ≤ cap → writeOntology E.u true order o cap = (b, .ok)) ∧
          prtRead E changeHandler b (some (OntoSt.new ks' dflt', n')) = (some (o', m'), .done) ∧
          o'.iri = o.iri ∧ o'.version = o.version ∧
          (o'.onto.imports.getD []).map Ref.obj = s.imports.map Ref.obj ∧
          (o'.onto.annot.getD []).map Ref.obj = s.annots.map (fun x => mapLit norm x.obj) ∧
          (∀ t, ((o'.onto.byType t).getD []).map Ref.obj = ((o.onto.byType t).getD []).map fun x => mapLit norm x.obj) ∧
          ∃ s', OntoSpec.Reaches o'.onto s' ∧ (s'.axioms.map Ref.obj).Perm (s.axioms.map fun x => mapLit norm x.obj) := by
  obtain ⟨norm, k1, -, k2⟩ := C94_normal_form E hu
  refine ⟨norm, k1, fun text m ks ks' dflt dflt' a addr n n' hp => ?_⟩
  obtain ⟨told, s, -, -, ht, hr, -, h1, h2, h3⟩ := C91_load_partial (o := OntoSt.new ks dflt) (s := OntoSpec.Abs.empty)
    ⟨[], trivial, rfl, rfl⟩ hp n nofun m addr text
  refine ⟨s, hr, fun names hn hz order hord => ?_⟩
  have hi := reaches_inv hr
  refine k2 names _ s hr (writable_fits hr ⟨?_, ?_, ?_⟩ hn) order hord ks' dflt' n'
  · intro x hx
    have hm : x.obj ∈ toldAxioms told := by
      have : x.obj ∈ s.axioms.map Ref.obj := List.mem_map_of_mem hx
      rwa [h1] at this
    obtain ⟨a, e1, e2⟩ := ht _ (mem_toldAxioms hm)
    exact ⟨a, e1, axiom_suits suits_sizes e2 (hz.axioms x ((axiomsOf_perm hi).mem_iff.2 hx) a e1) (leafs_noReq _)⟩
  · intro x hx
    have hm : x.obj ∈ toldAnnots told := by
      have : x.obj ∈ s.annots.map Ref.obj := List.mem_map_of_mem hx
      rwa [h2] at this
    obtain ⟨a, e1, e2⟩ := ht _ (mem_toldAnnots hm)
    exact ⟨a, e1, annot_suits suits_sizes a e2 (hz.annots x (by rw [hi.annot]; exact hx) a e1) (leafs_noReq _)⟩
  · intro x hx
    have hm : x.obj ∈ toldImports told := by
      have : x.obj ∈ s.imports.map Ref.obj := List.mem_map_of_mem hx
      rwa [h3] at this
    obtain ⟨i, e1, -⟩ := mem_toldImports hm
    exact ⟨i, e1⟩

/-! ## Example -/

theorem small_of_check {o : Obj} (h : objCheck o = true) {a : Axiom} (e : o = a.toObj) : a.Meets small := by
  obtain ⟨ax, as⟩ := a
  subst e
  unfold Axiom.toObj at h
  cases as with
  | cons y as => rw [Annot.toObjs, annotated, check_annotated] at h; cases h
  | nil =>
    rw [Annot.toObjs, annotated] at h
    refine ⟨?_, trivial, show 0 < 4294967296 by decide⟩
    cases ax with
    | decl k i => trivial
    | subClass c d =>
      rw [Ax.type, Ax.fields] at h
      cases c <;> cases d <;> first
        | exact ⟨trivial, trivial⟩
        | (simp only [CE.toObj] at h; first | cases h | (split at h <;> cases h))
    | objPropChar k p => cases k <;> cases h
    | _ => cases h

/-- A text with prefix, IRI, version, import and axioms. -/
def fromFuncText : Str := ascii "Prefix(e:=<http://x.org/a#>) Ontology(<http://x.org/o> <http://x.org/v> Import(<http://x.org/i>) Declaration(Class(e:A)) SubClassOf(e:A <http://x.org/a#B>))"

/-- Its names. -/
def fromFuncNames : List Prt.Id :=
  [.iri ⟨ascii "http://x.org/", ascii "o"⟩, .iri ⟨ascii "http://x.org/", ascii "v"⟩, .iri ⟨ascii "http://x.org/", ascii "i"⟩,
    .iri ⟨ascii "http://x.org/a#", ascii "A"⟩, .iri ⟨ascii "http://x.org/a#", ascii "B"⟩]

example : PrefixSpec.Reaches False (create [0, 1, 2, 3] []) (PrefixSpec.initial []) ∧ (readNew [] fromFuncText).2 = .ok ∧
    NamesFit fromFuncNames (readNew [] fromFuncText).1 ∧ SizesFit (readNew [] fromFuncText).1 ∧
    (axiomsOf (readNew [] fromFuncText).1.onto).length = 2 := by
  have hx : (axiomsOf (readNew [] fromFuncText).1.onto).all (fun x => objCheck x.obj) = true := by decide +kernel
  have hn : (readNew [] fromFuncText).1.onto.annot.getD [] = [] := List.isEmpty_iff.1 (by decide +kernel)
  refine ⟨.create _ _ rfl (by simp [PrefixSpec.Distinct]), by decide +kernel, namesCheck_fit (by decide +kernel), ⟨?_, ?_⟩, by decide +kernel⟩
  · intro x h; rw [hn] at h; cases h
  · intro x h a e; exact small_of_check (List.all_eq_true.1 hx x h) e

/-! ## Witnesses -/

/-- A restriction with the cardinality 3000000000. -/
def bigDoc : Str := ascii "Ontology(SubClassOf(<http://x.org/A> ObjectMinCardinality(3000000000 <http://x.org/p>)))"

/-- A class whose name is made from a prefix. -/
def partDoc : Str := ascii "Prefix(e:=<http://x/a#b>) Ontology(Declaration(Class(e:1)))"

/-- C97 fails.
* A name that is made from a prefix whose namespace ends within it comes back as another object.
* A cardinality of 2^31 or more comes back as another number.
* Numbers come back in normal form (C94), that is, as other literals. -/
theorem C97_fails :
    ((readNew [] partDoc).2 = .ok ∧ declared (readNew [] partDoc).1 = [.ent .cls ⟨ascii "http://x/a#b1", []⟩] ∧
      (prtBack (readNew [] partDoc).1).1.map declared = some [.ent .cls ⟨ascii "http://x/a#", ascii "b1"⟩]) ∧
    ((readNew [] bigDoc).2 = .ok ∧
      axTexts (readNew [] bigDoc).1 = [ascii "SubClassOf(<http://x.org/A> ObjectMinCardinality(3000000000 <http://x.org/p>))"] ∧
      (prtBack (readNew [] bigDoc).1).1.map axTexts ≠ some (axTexts (readNew [] bigDoc).1)) ∧
    ((readNew [] plusDoc).2 = .ok ∧ (prtBack (readNew [] plusDoc).1).1.map axTexts ≠ some (axTexts (readNew [] plusDoc).1)) := by
  refine ⟨⟨?_, ?_, ?_⟩, ⟨?_, ?_, ?_⟩, ⟨?_, ?_⟩⟩ <;> decide +kernel

end Cowl
