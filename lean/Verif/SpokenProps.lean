import Verif.HeardProps
import Verif.FuncDocProps
/-! # Properties: what the functional writer writes says the ontology

The writer is judged by the syntax of `SaysSpec.lean`, which mentions neither writer nor reader. The proof uses the reader: the text is
accepted and gives the contents (C45), and what is accepted, the text says (C113).
-/
namespace Cowl
open Says Func FuncSpec FuncTell Ast Change Prefix PrefixSpec Sem OntoSpec

/-- The document has the contents of the ontology: its prefixes but for the standard ones, its IRI and version, its imports, annotations
and axioms. -/
structure SaysOnto (o : OntoSt) (s : OntoSpec.Abs) (d : Doc) : Prop where
  once : d.prefixes.Pairwise fun e f => e.1 ≠ f.1
  prefixes : ∀ p n, (p, n) ∈ d.prefixes ↔ o.pm.getNs p = some n ∧ ¬ Standard p
  iri : d.id.map _root_.Prod.fst = o.iri
  version : d.id.bind _root_.Prod.snd = o.version
  imports : d.imports.map (fun i => Obj.prim (.iri i)) = s.imports.map Ref.obj
  annots : d.annots.map Annot.toObj = s.annots.map Ref.obj
  axioms : (d.axioms.map Axiom.toObj).Perm (s.axioms.map Ref.obj)

/-- The prefix declarations, the IRI and version, the header and the axioms among items. -/
def prefixOf? : Item → Option (Str × Str)
  | .prefixDecl p n => some (p, n)
  | _ => none
@[inherit_doc prefixOf?]
def idOf? : Item → Option Item
  | .iri i => some (.iri i)
  | .version v => some (.version v)
  | _ => none
@[inherit_doc prefixOf?]
def partOf? : Item → Option Item
  | .import i => some (.import i)
  | .annot a => some (.annot a)
  | _ => none
@[inherit_doc prefixOf?]
def axOf? : Item → Option Obj
  | .ax a => some a
  | _ => none

theorem filterMap_map_some {α β γ : Type} {f : β → Option γ} {g : α → β} {k : α → γ} (h : ∀ x, f (g x) = some (k x)) (xs : List α) :
    (xs.map g).filterMap f = xs.map k := by
  induction xs with
  | nil => rfl
  | cons x xs ih => rw [List.map_cons, List.filterMap_cons, h x, ih]; rfl

theorem filterMap_map_none {α β γ : Type} {f : β → Option γ} {g : α → β} (h : ∀ x, f (g x) = none) (xs : List α) :
    (xs.map g).filterMap f = [] := by
  induction xs with
  | nil => rfl
  | cons x xs ih => rw [List.map_cons, List.filterMap_cons, h x, ih]

theorem toList_none {α γ : Type} {f : α → Option γ} (h : ∀ x, f x = none) (x : Option α) : x.toList.filterMap f = [] := by
  cases x with
  | none => rfl
  | some x => simp [h]

/-- The parts of items that are told in this order. -/
theorem parts {ps : List (Str × Str)} {i v : Option Iri} {is : List Iri} {as xs : List Obj} {l : List Item}
    (h : l = ps.map (fun e => Item.prefixDecl e.1 e.2) ++ ((i.map Item.iri).toList ++ (v.map Item.version).toList ++ is.map Item.import ++
      as.map Item.annot ++ xs.map Item.ax)) :
    l.filterMap prefixOf? = ps ∧ l.filterMap idOf? = (i.map Item.iri).toList ++ (v.map Item.version).toList ∧
    l.filterMap partOf? = is.map Item.import ++ as.map Item.annot ∧ l.filterMap axOf? = xs := by
  subst h
  have n1 {γ : Type} {f : Item → Option γ} (h : ∀ x, f (.iri x) = none) : ((i.map Item.iri).toList).filterMap f = [] := by
    cases i with
    | none => rfl
    | some x => simp [h]
  have n2 {γ : Type} {f : Item → Option γ} (h : ∀ x, f (.version x) = none) : ((v.map Item.version).toList).filterMap f = [] := by
    cases v with
    | none => rfl
    | some x => simp [h]
  simp only [List.filterMap_append]
  refine ⟨?_, ?_, ?_, ?_⟩
  · rw [n1 (fun _ => rfl), n2 (fun _ => rfl), filterMap_map_none (g := Item.import) (fun _ => rfl),
      filterMap_map_none (g := Item.annot) (fun _ => rfl), filterMap_map_none (g := Item.ax) (fun _ => rfl),
      filterMap_map_some (g := fun e : Str × Str => Item.prefixDecl e.1 e.2) (k := fun e => e) (fun _ => rfl)]
    simp
  · rw [filterMap_map_none (fun _ => rfl), filterMap_map_none (fun _ => rfl), filterMap_map_none (fun _ => rfl),
      filterMap_map_none (fun _ => rfl)]
    cases i <;> cases v <;> rfl
  · rw [n1 (fun _ => rfl), n2 (fun _ => rfl), filterMap_map_none (g := fun e : Str × Str => Item.prefixDecl e.1 e.2) (fun _ => rfl),
      filterMap_map_none (g := Item.ax) (fun _ => rfl), filterMap_map_some (f := partOf?) (g := Item.import) (k := Item.import) (fun _ => rfl),
      filterMap_map_some (f := partOf?) (g := Item.annot) (k := Item.annot) (fun _ => rfl)]
    simp
  · rw [n1 (fun _ => rfl), n2 (fun _ => rfl), filterMap_map_none (g := Item.import) (fun _ => rfl),
      filterMap_map_none (g := Item.annot) (fun _ => rfl), filterMap_map_none (g := fun e : Str × Str => Item.prefixDecl e.1 e.2) (fun _ => rfl),
      filterMap_map_some (g := Item.ax) (k := fun e => e) (fun _ => rfl)]
    simp

/-- The same for a document in the wider sense. -/
theorem loose_parts (d : Loose) :
    d.items.filterMap prefixOf? = d.prefixes ∧ d.items.filterMap idOf? = Says.idItems d.id ∧
    d.items.filterMap partOf? = d.header.map partItem ∧ d.items.filterMap axOf? = d.axioms.map Axiom.toObj := by
  have i0 {γ : Type} {f : Item → Option γ} (h1 : ∀ x, f (.iri x) = none) (h2 : ∀ x, f (.version x) = none) :
      (Says.idItems d.id).filterMap f = [] := by
    unfold Says.idItems
    split <;> simp [h1, h2]
  have p0 {γ : Type} {f : Item → Option γ} (h1 : ∀ x, f (.import x) = none) (h2 : ∀ x, f (.annot x) = none) :
      (d.header.map partItem).filterMap f = [] := filterMap_map_none (fun x => by cases x <;> simp [partItem, h1, h2]) _
  unfold Loose.items
  simp only [List.filterMap_append]
  refine ⟨?_, ?_, ?_, ?_⟩
  · rw [i0 (fun _ => rfl) (fun _ => rfl), p0 (fun _ => rfl) (fun _ => rfl),
      filterMap_map_none (g := fun a : Axiom => Item.ax a.toObj) (fun _ => rfl),
      filterMap_map_some (g := fun e : Str × Str => Item.prefixDecl e.1 e.2) (k := fun e => e) (fun _ => rfl)]
    simp
  · rw [p0 (fun _ => rfl) (fun _ => rfl), filterMap_map_none (fun _ => rfl), filterMap_map_none (fun _ => rfl)]
    unfold Says.idItems
    split <;> rfl
  · rw [i0 (fun _ => rfl) (fun _ => rfl), filterMap_map_none (g := fun e : Str × Str => Item.prefixDecl e.1 e.2) (fun _ => rfl),
      filterMap_map_none (g := fun a : Axiom => Item.ax a.toObj) (fun _ => rfl),
      filterMap_map_some (k := partItem) (fun x => by cases x <;> rfl)]
    simp
  · rw [i0 (fun _ => rfl) (fun _ => rfl), p0 (fun _ => rfl) (fun _ => rfl), filterMap_map_none (g := fun e : Str × Str => Item.prefixDecl e.1 e.2) (fun _ => rfl),
      filterMap_map_some (g := fun a : Axiom => Item.ax a.toObj) (k := Axiom.toObj) (fun _ => rfl)]
    simp

/-- A header that is told in order is in order. -/
theorem header_sorted : ∀ {l : List (Iri ⊕ Annot)} {is : List Iri} {as : List Obj},
    l.map partItem = is.map Item.import ++ as.map Item.annot → ∃ bs : List Annot, l = is.map .inl ++ bs.map .inr ∧ bs.map Annot.toObj = as
  | [], [], [], _ => ⟨[], rfl, rfl⟩
  | [], _ :: _, _, h => by cases h
  | [], [], _ :: _, h => by cases h
  | x :: l, i :: is, as, h => by
    cases x with
    | inr a => cases (List.cons.inj h).1
    | inl j =>
      obtain ⟨bs, e, e2⟩ := header_sorted (is := is) (as := as) (List.cons.inj h).2
      cases (List.cons.inj h).1
      exact ⟨bs, by rw [e]; rfl, e2⟩
  | x :: l, [], [], h => by cases h
  | x :: l, [], a :: as, h => by
    cases x with
    | inl a => cases (List.cons.inj h).1
    | inr b =>
      obtain ⟨bs, e, e2⟩ := header_sorted (is := []) (as := as) (List.cons.inj h).2
      refine ⟨b :: bs, by rw [e]; rfl, ?_⟩
      rw [List.map_cons, e2, Item.annot.inj (List.cons.inj h).1]

/-- C114, but for ontologies that documents cannot express (C45): what is written says, in the syntax of the standard, a document with the contents of
the ontology. -/
theorem C114_partial {o : OntoSt} {s : OntoSpec.Abs} (hs : OntoSpec.Reaches o.onto s) (ho : DocOk o) {dflt : Fwd} (hd : Distinct dflt)
    (hc : Compatible o.pm dflt) :
    ∃ txt, writeDoc o = some txt ∧ ∃ d : Doc, Says.Says lax (initial dflt) txt d ∧ SaysOnto o s d := by
  obtain ⟨txt, items, h1, ⟨ps, is, k1, k2, k3, k4⟩, h3⟩ := C45_events ho (ks := [1, 2, 3, 4]) rfl hd hc 5
  obtain ⟨d, g1, g2, g3⟩ := read_heard (h := taking fun (s : Unit) _ => (s, .ok)) (ks := [1, 2, 3, 4]) rfl hd (h3 _ (fun _ _ => rfl) ((), []))
  have e0 : items = d.items := by
    have := congrArg _root_.Prod.snd g3
    rwa [Examples.give_taking, Examples.give_taking] at this
  have hi := reaches_inv hs
  obtain ⟨a, ha⟩ := ho.history
  have hp := inv_reaches ha
  obtain ⟨e1, e2, e3, e4⟩ := parts (ps := ps.map fun e => (e.1.txt, e.2)) (l := items) (i := o.iri) (v := o.version) (is := is)
    (as := (o.onto.annot.getD []).map Ref.obj) (xs := (axiomsOf o.onto).map Ref.obj) (by rw [k4, List.map_map (l := ps)]; rfl)
  obtain ⟨f1, f2, f3, f4⟩ := loose_parts d
  rw [e0] at e1 e2 e3 e4
  rw [f1] at e1; rw [f2] at e2; rw [f3] at e3; rw [f4] at e4
  obtain ⟨bs, b1, b2⟩ := header_sorted e3
  have hps : Distinct ps := hp.distinct.sublist k1
  have once : d.prefixes.Pairwise fun e f => e.1 ≠ f.1 := by
    rw [e1]; exact List.pairwise_map.2 hps
  have mem : ∀ p n, (p, n) ∈ d.prefixes ↔ o.pm.getNs p = some n ∧ ¬ Standard p := by
    intro p n
    rw [e1, getNs_meaning]
    constructor
    · intro h
      obtain ⟨e, he, e'⟩ := List.mem_map.1 h
      cases e'
      exact ⟨meaning_of_mem hp.distinct (k1.subset he), (k2 e (k1.subset he)).1 he⟩
    · rintro ⟨h, hn⟩
      obtain ⟨k, hk, rfl⟩ := meaning_some h
      exact List.mem_map.2 ⟨(k, n), (k2 _ hk).2 hn, rfl⟩
  have agrees : d.doc.Agrees (initial dflt) := by
    intro e he n hn
    obtain ⟨m1, m2⟩ := (mem e.1 e.2).1 he
    unfold initial at hn
    rw [if_neg (show ¬ (_ ∨ _ ∨ _ ∨ _) from m2)] at hn
    rcases hc _ _ _ m1 hn with h | h
    · exact h.symm
    · exact absurd h m2
  obtain ⟨s1, s2⟩ := C113_document ⟨is, bs, b1⟩ once agrees g2
  have p1 : d.doc.imports = is := by
    show d.header.filterMap _ = _
    rw [b1, List.filterMap_append, filterMap_map_some (g := Sum.inl) (k := fun x => x) (fun _ => rfl),
      filterMap_map_none (g := Sum.inr) (fun _ => rfl)]
    simp
  have p2 : d.doc.annots = bs := by
    show d.header.filterMap _ = _
    rw [b1, List.filterMap_append, filterMap_map_some (g := Sum.inr) (k := fun x => x) (fun _ => rfl),
      filterMap_map_none (g := Sum.inl) (fun _ => rfl)]
    simp
  refine ⟨txt, h1, d.doc, s1, once, mem, ?_, ?_, ?_, ?_, ?_⟩
  · show d.id.map _ = _
    have hv := ho.version
    revert e2 hv
    unfold Says.idItems
    match d.id with
    | none => cases o.iri <;> cases o.version <;> simp
    | some (i, none) => cases o.iri <;> cases o.version <;> simp
    | some (i, some v) => cases o.iri <;> cases o.version <;> simp <;> intro a b <;> simp_all
  · show d.id.bind _ = _
    have hv := ho.version
    revert e2 hv
    unfold Says.idItems
    match d.id with
    | none => cases o.iri <;> cases o.version <;> simp
    | some (i, none) => cases o.iri <;> cases o.version <;> simp
    | some (i, some v) => cases o.iri <;> cases o.version <;> simp <;> intro a b <;> simp_all
  · rw [p1, ← k3, hi.imports]
  · rw [p2, b2, hi.annot]
  · show (d.axioms.map Axiom.toObj).Perm _
    rw [e4]
    exact (axiomsOf_perm hi).map _

/-- C114, meaning: the ontology holds in an interpretation exactly if the axioms that its text says do. -/
theorem C114_means {o : OntoSt} {s : OntoSpec.Abs} (hs : OntoSpec.Reaches o.onto s) (ho : DocOk o) {dflt : Fwd} (hd : Distinct dflt)
    (hc : Compatible o.pm dflt) :
    ∃ txt, writeDoc o = some txt ∧ ∃ d : Doc, Says.Says lax (initial dflt) txt d ∧
      ∀ I : Interp, HoldsIn I (s.axioms.map Ref.obj) ↔ ∀ a ∈ d.axioms, sat I a.ax := by
  obtain ⟨txt, h1, d, h2, h3⟩ := C114_partial hs ho hd hc
  refine ⟨txt, h1, d, h2, fun I => holds_map fun x => ?_⟩
  rw [← h3.axioms.mem_iff, List.mem_map]
  constructor
  · rintro ⟨a, ha, rfl⟩; exact ⟨a, ha, rfl⟩
  · rintro ⟨a, ha, rfl⟩; exact ⟨a, ha, rfl⟩

/-- The conditions hold for an ontology with prefixes, IRI, version, import, annotation and axiom. -/
example : OntoSpec.Reaches docOnto.onto
      ⟨[⟨3, exAxiom.toObj⟩], [⟨2, exAnnot.toObj⟩], [⟨1, .prim (.iri (exIri "i"))⟩]⟩ ∧ DocOk docOnto ∧
    Distinct [] ∧ Compatible docOnto.pm [] :=
  ⟨docOnto_reaches, docOnto_ok, .nil, fun _ _ _ _ h => by cases h⟩

/-- An ontology with a version and no IRI. -/
def onlyVersion : OntoSt := ⟨create [1, 2, 3, 4] [], none, some (exIri "v"), Onto.empty⟩

/-- What is written for it. -/
def onlyText : Str := ascii "Ontology(<http://ex.org/a#v>\n)\n"

/-- C114 is false as stated: for an ontology with a version and no IRI a text is written that says no document with its contents, as it says
that the version is the IRI. -/
theorem C114_fails : OntoSpec.Reaches onlyVersion.onto ⟨[], [], []⟩ ∧ writeDoc onlyVersion = some onlyText ∧
    ¬ ∃ d : Doc, d.Ok ∧ Says.Says every (initial []) onlyText d ∧ SaysOnto onlyVersion ⟨[], [], []⟩ d := by
  refine ⟨⟨[], trivial, rfl, rfl⟩, by decide +kernel, ?_⟩
  rintro ⟨d, hd, h, ho⟩
  have hi : d.id = none := by
    have := ho.iri
    revert this
    cases d.id with
    | none => exact fun _ => rfl
    | some x => intro e; cases e
  unfold Says.Says at h
  have hl : lex onlyText = [.kw .ontology, .lpar, .iriRef (ascii "http://ex.org/a#v"), .rpar] := by decide +kernel
  have h1 := usual_of_every h (by rw [hl]; simp)
  have hp : d.prefixes = [] := by
    rw [hl] at h
    obtain ⟨us, vs, e, h2, -⟩ := spelt_append h
    rw [spelt_prefixes _ h2] at e
    cases hd : d.prefixes with
    | nil => rfl
    | cons x xs => rw [hd] at e; cases e
  have hr := read_doc (h := taking fun (s : Unit) _ => (s, .ok)) (fun _ _ => rfl) hd (ks := [1, 2, 3, 4]) rfl (dflt := []) .nil
    (by intro e he; rw [hp] at he; cases he) 5 ((), []) h1
  have h3 : toldOf onlyText = (d.items.map place, .ok) := by
    unfold toldOf
    rw [hr, Examples.give_taking]; rfl
  have h4 := (_root_.Prod.mk.inj (h3.symm.trans (show toldOf onlyText = ([1], .ok) by decide +kernel))).1
  have h5 : 1 ∉ d.items.map place := by
    unfold Doc.items
    rw [hi]
    intro h
    obtain ⟨x, hx, e⟩ := List.mem_map.1 h
    simp only [List.mem_append, List.mem_map, List.not_mem_nil, false_or] at hx
    rcases hx with ⟨y, -, rfl⟩ | ⟨y, -, rfl⟩ | ⟨y, -, rfl⟩ | ⟨y, -, rfl⟩ <;> cases e
  rw [h4] at h5
  exact h5 (.head _)

end Cowl
