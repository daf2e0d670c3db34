import Verif.ExamplesDoc
import Verif.ExamplesProps
import Verif.FuncSessionProps
/-! # C101, C102: the example programs that make the Porcini pizza -/
namespace Cowl
open Ast Change Func FuncSpec Prefix PrefixSpec OntoSpec FuncTell Rewrite Examples FSess

/-! ## The axioms -/

/-- The axioms of the Porcini pizza, as the comments of the programs give them. -/
def porcini (own base : Str) : List Axiom :=
  let c (ns : Str) (n : String) : Iri := ⟨ns, ascii n⟩
  [⟨.decl .cls (c own "PorciniTopping"), []⟩,
   ⟨.decl .cls (c own "Porcini"), []⟩,
   ⟨.subClass (.cls (c own "PorciniTopping")) (.cls (c base "MushroomTopping")), []⟩,
   ⟨.subClass (.cls (c own "Porcini")) (.cls (c base "NamedPizza")), []⟩,
   ⟨.subClass (.cls (c own "Porcini")) (.objSome (.prop (c base "hasTopping")) (.cls (c base "MozzarellaTopping"))), []⟩,
   ⟨.subClass (.cls (c own "Porcini")) (.objSome (.prop (c base "hasTopping")) (.cls (c own "PorciniTopping"))), []⟩,
   ⟨.subClass (.cls (c own "Porcini")) (.objAll (.prop (c base "hasTopping"))
     (.union [.cls (c base "MozzarellaTopping"), .cls (c own "PorciniTopping")])), []⟩]

theorem literals : (["PorciniTopping", "Porcini", "MushroomTopping", "NamedPizza", "hasTopping", "MozzarellaTopping"].all fun n =>
    iriFromString (ascii (pizzaNs ++ n)) == some (ascii pizzaNs, ascii n) &&
    iriFromString (ascii (porciniNs ++ n)) == some (ascii porciniNs, ascii n) &&
    (ascii pizzaNs ++ ascii n).all isIriChar && (ascii porciniNs ++ ascii n).all isIriChar &&
    iriFromString (ascii pizzaNs ++ ascii n) == some (ascii pizzaNs, ascii n) &&
    iriFromString (ascii porciniNs ++ ascii n) == some (ascii porciniNs, ascii n) &&
    !((ascii n).getLast? == some 46)) = true := by decide +kernel

theorem literal_of {ns : String} (hns : ns = pizzaNs ∨ ns = porciniNs) {n : String}
    (hn : n ∈ ["PorciniTopping", "Porcini", "MushroomTopping", "NamedPizza", "hasTopping", "MozzarellaTopping"]) :
    (∀ k, fromLiteral k (ns ++ n) = some (ent k ⟨ascii ns, ascii n⟩)) ∧ ∀ gp, IriOk gp ⟨ascii ns, ascii n⟩ := by
  have h := List.all_eq_true.1 literals n hn
  simp only [Bool.and_eq_true, beq_iff_eq, Bool.not_eq_true', beq_eq_false_iff_ne] at h
  obtain ⟨⟨⟨⟨⟨⟨h1, h2⟩, h3⟩, h4⟩, h5⟩, h6⟩, h7⟩ := h
  rcases hns with rfl | rfl
  · exact ⟨fun k => by unfold fromLiteral; rw [h1]; rfl, fun gp => iriOk_of h5 h3 h7⟩
  · exact ⟨fun k => by unfold fromLiteral; rw [h2]; rfl, fun gp => iriOk_of h6 h4 h7⟩

theorem keep_filler (ns : Str) {n : String} (h : n = "PorciniTopping" ∨ n = "MozzarellaTopping") :
    dropDefault (.ent .cls owlThing) (some (ent .cls ⟨ns, ascii n⟩)) = some (ent .cls ⟨ns, ascii n⟩) ∧
    (CE.cls ⟨ns, ascii n⟩).isTop = false := by
  have hne : (⟨ns, ascii n⟩ : Iri) ≠ owlThing := by
    intro e
    have h1 : ascii n = owlThing.rem := congrArg Iri.rem e
    rcases h with rfl | rfl <;> exact absurd h1 (by decide +kernel)
  constructor
  · show (if Prim.ent .cls ⟨ns, ascii n⟩ = Prim.ent .cls owlThing then none else some (Obj.prim (.ent .cls ⟨ns, ascii n⟩))) = _
    rw [if_neg (fun e => hne (by injection e))]
    rfl
  · exact decide_eq_false hne

/-- The programs build the axioms that their comments announce. -/
theorem porcini_built {own base : String} (ho : own = pizzaNs ∨ own = porciniNs) (hb : base = pizzaNs ∨ base = porciniNs) :
    porciniAxioms own base = some ((porcini (ascii own) (ascii base)).map Axiom.toObj) := by
  have hq : ∀ (p f : Obj) (k : Nat) (t : OType), dropDefault (.ent .cls owlThing) (some f) = some f → Api.enumType 2 .ceObjSome k = some t →
      Api.objQuant k p (some f) = some (.comp t true [p, f] 0) := by
    intro p f k t h1 h2
    unfold Api.objQuant
    rw [h1, h2]
    rfl
  obtain ⟨k1, t1⟩ := keep_filler (ascii base) (n := "MozzarellaTopping") (.inr rfl)
  obtain ⟨k2, t2⟩ := keep_filler (ascii own) (n := "PorciniTopping") (.inl rfl)
  unfold porciniAxioms Api.objSome Api.objAll
  rw [(literal_of ho (n := "PorciniTopping") (by simp)).1, (literal_of ho (n := "Porcini") (by simp)).1,
    (literal_of hb (n := "MushroomTopping") (by simp)).1, (literal_of hb (n := "NamedPizza") (by simp)).1,
    (literal_of hb (n := "hasTopping") (by simp)).1, (literal_of hb (n := "MozzarellaTopping") (by simp)).1]
  simp only [Option.bind_eq_bind, Option.bind_some]
  rw [hq _ _ _ .ceObjSome k1 (by decide), hq _ _ _ .ceObjSome k2 (by decide), hq _ _ _ .ceObjAll rfl (by decide)]
  simp only [Option.bind_some, porcini, List.map_cons, List.map_nil, Axiom.toObj, Ax.fields, CE.toObj, t1, t2]
  rfl

theorem porcini_meets {own base : String} (ho : own = pizzaNs ∨ own = porciniNs) (hb : base = pizzaNs ∨ base = porciniNs)
    (gp : Str → Option Str) : ∀ a ∈ porcini (ascii own) (ascii base), a.Meets (textReq gp) := by
  have o1 := (literal_of ho (n := "PorciniTopping") (by simp)).2 gp
  have o2 := (literal_of ho (n := "Porcini") (by simp)).2 gp
  have b1 := (literal_of hb (n := "MushroomTopping") (by simp)).2 gp
  have b2 := (literal_of hb (n := "NamedPizza") (by simp)).2 gp
  have b3 := (literal_of hb (n := "hasTopping") (by simp)).2 gp
  have b4 := (literal_of hb (n := "MozzarellaTopping") (by simp)).2 gp
  intro a ha
  simp only [porcini, List.mem_cons, List.not_mem_nil, or_false] at ha
  rcases ha with rfl | rfl | rfl | rfl | rfl | rfl | rfl
  · exact ⟨o1, trivial, trivial⟩
  · exact ⟨o2, trivial, trivial⟩
  · exact ⟨⟨o1, b1⟩, trivial, trivial⟩
  · exact ⟨⟨o2, b2⟩, trivial, trivial⟩
  · exact ⟨⟨o2, b3, b4⟩, trivial, trivial⟩
  · exact ⟨⟨o2, b3, o1⟩, trivial, trivial⟩
  · exact ⟨⟨o2, b3, Nat.le_refl 2, b4, o1, trivial⟩, trivial, trivial⟩

/-! ## Editing -/

theorem holds_ax {s : OntoSpec.Abs} (x : (OntoSt × Nat) × List Item) (ax : Axiom) (hx : LoadInv s x) :
    LoadInv s (taking ontoHandler x (.ax ax.toObj)).1 := by
  obtain ⟨⟨o, n⟩, l⟩ := x
  obtain ⟨⟨s', h1, h2, h3, h4, h5⟩, ⟨a, ha⟩⟩ := hx
  obtain ⟨t1, t2, t3⟩ := told_append l [Item.ax ax.toObj]
  refine ⟨⟨s'.step (.addAxiom ⟨n, ax.toObj⟩), reach_step h1 ⟨isAxiom_toObj ax, ?_⟩ rfl, ?_, ?_, ?_, ?_⟩, ⟨a, ha⟩⟩
  · intro b hb e
    exact absurd e (Nat.ne_of_lt (h2 b hb))
  · intro b hb
    rcases List.mem_append.1 hb with hb | hb
    · exact Nat.lt_succ_of_lt (h2 b hb)
    · cases List.mem_singleton.1 hb; exact Nat.lt_succ_self n
  · show (s'.axioms ++ [_]).map Ref.obj = _ ++ toldAxioms (l ++ [_]); rw [List.map_append, h3, t1]; simp [toldAxioms]
  · show s'.annots.map Ref.obj = _ ++ toldAnnots (l ++ [_]); rw [h4, t2]; simp [toldAnnots]
  · show s'.imports.map Ref.obj = _ ++ toldImports (l ++ [_]); rw [h5, t3]; simp [toldImports]

theorem give_step : ∀ (axs : List Axiom) (s : OntoSpec.Abs) (x : (OntoSt × Nat) × List Item), LoadInv s x →
    let y := give (taking ontoHandler) x (axs.map fun a => Item.ax a.toObj)
    LoadInv s y ∧ y.1.1.pm = x.1.1.pm ∧ y.1.1.iri = x.1.1.iri ∧ y.1.1.version = x.1.1.version
  | [], _, _, h => ⟨h, rfl, rfl, rfl⟩
  | a :: axs, s, x, h => give_step axs s _ (holds_ax x a h)

theorem told_ax : ∀ (l : List Item) (axs : List Axiom), toldAxioms (l ++ axs.map fun a => Item.ax a.toObj) = toldAxioms l ++ axs.map Axiom.toObj ∧
    toldAnnots (l ++ axs.map fun a => Item.ax a.toObj) = toldAnnots l ∧ toldImports (l ++ axs.map fun a => Item.ax a.toObj) = toldImports l := by
  intro l axs
  obtain ⟨h1, h2, h3⟩ := told_append l (axs.map fun a => Item.ax a.toObj)
  rw [h1, h2, h3]
  have : ∀ axs : List Axiom, toldAxioms (axs.map fun a => Item.ax a.toObj) = axs.map Axiom.toObj ∧
      toldAnnots (axs.map fun a => Item.ax a.toObj) = [] ∧ toldImports (axs.map fun a => Item.ax a.toObj) = [] := by
    intro axs
    induction axs with
    | nil => exact ⟨rfl, rfl, rfl⟩
    | cons a axs ih => exact ⟨by simp [toldAxioms, ih.1], by simp [toldAnnots, ih.2.1], by simp [toldImports, ih.2.2]⟩
  obtain ⟨g1, g2, g3⟩ := this axs
  rw [g1, g2, g3]
  simp

theorem of_map_mem {l l' : List Ref} (h : l.map Ref.obj = l'.map Ref.obj) {x : Ref} (hx : x ∈ l) : ∃ y ∈ l', y.obj = x.obj :=
  List.mem_map.1 (h ▸ List.mem_map_of_mem hx)

/-- C101, the part that holds: read a text; add axioms, with names and values that text can express; write. If what was read
could have been written again (`Rewritable`, C93), and no prefix of the text redefines a default one, then writing is defined, the text is
accepted, and gives the ontology that was read with the axioms added: nothing else has changed. -/
theorem C101_partial {ks ks' : List Nat} (hk : ks.length = 4) (hk' : ks'.length = 4) {dflt : Fwd} (hd : Distinct dflt)
    (hg : GoodDefaults dflt) (addr n : Nat) (text : Str) (s : OntoSt × Nat)
    (hs : (funcRead ontoHandler (create ks dflt) addr text (OntoSt.new ks' dflt, n)).1 = s) (hw : Rewritable s.1)
    (hc : Compatible s.1.pm dflt) (axs : List Axiom) (ha : ∀ a ∈ axs, a.Meets (textReq (lookup s.1.pm)))
    {js js' : List Nat} (hj : js.length = 4) (hj' : js'.length = 4) (addr' n' : Nat) :
    ∃ text' o' n'', writeDoc (give ontoHandler s (axs.map fun a => Item.ax a.toObj)).1 = some text' ∧
      funcRead ontoHandler (create js dflt) addr' text' (OntoSt.new js' dflt, n') = ((o', n''), .ok) ∧
      o'.iri = s.1.iri ∧ o'.version = s.1.version ∧
      (o'.onto.imports.getD []).map Ref.obj = (s.1.onto.imports.getD []).map Ref.obj ∧
      (o'.onto.annot.getD []).map Ref.obj = (s.1.onto.annot.getD []).map Ref.obj ∧
      ((axiomsOf o'.onto).map Ref.obj).Perm ((axiomsOf s.1.onto).map Ref.obj ++ axs.map Axiom.toObj) ∧
      (∀ p, o'.pm.getNs p = s.1.pm.getNs p) := by
  subst hs
  obtain ⟨-, hp, hdoc⟩ := doc_of_read hk hk' hd hg addr n text
  have inv := funcRead_typed (P := LoadInv OntoSpec.Abs.empty) (h := taking ontoHandler) holds_step (create ks dflt) addr text
    (s := ((OntoSt.new ks' dflt, n), [])) ⟨⟨OntoSpec.Abs.empty, ⟨[], trivial, rfl, rfl⟩, nofun, by simp [toldAxioms], by simp [toldAnnots],
      by simp [toldImports]⟩, ⟨_, .create ks' dflt hk' hd⟩⟩
  have e := funcRead_taking ontoHandler (create ks dflt) addr text (OntoSt.new ks' dflt, n)
  generalize (funcRead (taking ontoHandler) (create ks dflt) addr text ((OntoSt.new ks' dflt, n), [])).1 = x at inv e
  generalize (funcRead ontoHandler (create ks dflt) addr text (OntoSt.new ks' dflt, n)).1 = s at *
  obtain ⟨x, told⟩ := x
  cases e
  obtain ⟨inv', e1, e2, e3⟩ := give_step axs _ _ inv
  rw [give_taking] at inv' e1 e2 e3
  dsimp only at e1 e2 e3
  obtain ⟨⟨s0, r0, -, a0, b0, c0⟩, -⟩ := inv
  obtain ⟨⟨s1, r1, -, a1, b1, c1⟩, -⟩ := inv'
  obtain ⟨d1, d2, d3⟩ := told_ax told axs
  dsimp only at r0 r1 a0 b0 c0 a1 b1 c1
  rw [d1, ← List.append_assoc, ← a0] at a1
  rw [d2, ← b0] at b1
  rw [d3, ← c0] at c1
  have i0 := reaches_inv r0
  have i1 := reaches_inv r1
  have doc := hdoc hw
  generalize give ontoHandler x (axs.map fun a => Item.ax a.toObj) = y at *
  have doc' : DocOk y.1 := by
    refine ⟨?_, ?_, ?_, ?_, ?_, ?_, ?_, ?_, ?_⟩
    · rw [e1]; exact doc.history
    · rw [e1]; exact doc.sound
    · rw [e1]; exact doc.plain
    · rw [e1]; exact doc.chars
    · rw [e2]; exact doc.iri
    · rw [e2, e3]; exact doc.version
    · rw [i1.imports]
      intro z hz
      obtain ⟨w, hw1, hw2⟩ := of_map_mem c1 hz
      rw [← hw2]
      exact doc.imports w (by rw [i0.imports]; exact hw1)
    · rw [i1.annot, e1]
      intro z hz
      obtain ⟨w, hw1, hw2⟩ := of_map_mem b1 hz
      rw [← hw2]
      exact doc.annots w (by rw [i0.annot]; exact hw1)
    · intro z hz
      rw [e1]
      have : z.obj ∈ s1.axioms.map Ref.obj := List.mem_map_of_mem ((axiomsOf_perm i1).mem_iff.1 hz)
      rw [a1] at this
      rcases List.mem_append.1 this with h | h
      · obtain ⟨w, hw1, hw2⟩ := List.mem_map.1 h
        rw [← hw2]
        exact doc.axioms w ((axiomsOf_perm i0).mem_iff.2 hw1)
      · obtain ⟨a, ha1, ha2⟩ := List.mem_map.1 h
        exact ⟨a, ha2.symm, ha a ha1⟩
  obtain ⟨t, o', m, h1, h2, h3, h4, h5, h6, -, h8, s2, h9, h10⟩ := C45_partial r1 doc' hj hj' hd (by rw [e1]; exact hc) addr' n'
  refine ⟨t, o', m, h1, h2, h3.trans e2, h4.trans e3, ?_, ?_, ?_, ?_⟩
  · rw [h5, c1, i0.imports]
  · rw [h6, b1, i0.annot]
  · have p1 := ((axiomsOf_perm (reaches_inv h9)).map Ref.obj).trans h10
    rw [a1] at p1
    exact p1.trans (List.Perm.append_right _ ((axiomsOf_perm i0).map Ref.obj).symm)
  · intro p
    rw [h8 p, e1]
    split
    · rename_i k; exact k.symm
    · rename_i k; rw [k]; exact hp p k

/-- C101 for the example program: it writes the ontology that was read together with the Porcini pizza. -/
theorem C101_program {dflt : Fwd} (hd : Distinct dflt) (hg : GoodDefaults dflt) (text : Str) (hr : (readNew dflt text).2 = .ok)
    (hw : Rewritable (readNew dflt text).1) (hc : Compatible (readNew dflt text).1.pm dflt) :
    ∃ text', editMain dflt text = some (some text') ∧ (readNew dflt text').2 = .ok ∧
      ((axiomsOf (readNew dflt text').1.onto).map Ref.obj).Perm
        ((axiomsOf (readNew dflt text).1.onto).map Ref.obj ++ (porcini (ascii pizzaNs) (ascii pizzaNs)).map Axiom.toObj) := by
  obtain ⟨t, o', m, h1, h2, -, -, -, -, h7, -⟩ := C101_partial (ks := [0, 1, 2, 3]) (ks' := [0, 1, 2, 3]) rfl rfl hd hg 20 100 text _ rfl hw hc
    (porcini (ascii pizzaNs) (ascii pizzaNs)) (porcini_meets (.inl rfl) (.inl rfl) _) (js := [0, 1, 2, 3]) (js' := [0, 1, 2, 3]) rfl rfl 20 100
  refine ⟨t, ?_, ?_, ?_⟩
  · unfold editMain
    rw [porcini_built (.inl rfl) (.inl rfl)]
    have hr : (funcRead ontoHandler (create [0, 1, 2, 3] dflt) 20 text (OntoSt.new [0, 1, 2, 3] dflt, 100)).2 = .ok := hr
    revert h1
    generalize funcRead ontoHandler (create [0, 1, 2, 3] dflt) 20 text (OntoSt.new [0, 1, 2, 3] dflt, 100) = r at hr
    obtain ⟨s, out⟩ := r
    cases hr
    intro h1
    dsimp only
    rw [List.map_map]
    exact congrArg some h1
  · unfold readNew; rw [h2]
  · have e : (readNew dflt t).1 = o' := by unfold readNew; rw [h2]
    rw [e]
    exact h7

/-- The conditions of `C101_program` hold for the sample text of C93. -/
example : (readNew rewriteDflt rewriteText).2 = .ok ∧ Rewritable (readNew rewriteDflt rewriteText).1 ∧
    Compatible (readNew rewriteDflt rewriteText).1.pm rewriteDflt :=
  ⟨by decide +kernel, rewriteText_ok, rewriteText_compatible⟩

/-- What is read after the program, and how many axioms there are. -/
def edited (text : Str) : Option (Option (Outcome × Nat)) :=
  (editMain [] text).map fun r => r.map fun t => ((readNew [] t).2, (axiomsOf (readNew [] t).1.onto).length)

/-- C101 is false as stated. Three ontologies with one axiom; the last is fine.
* With an inverse in a sub-property axiom, writing is undefined.
* With a name that ends with a full stop and can be abbreviated, the text that is written is rejected. -/
theorem C101_fails :
    edited inverseDoc = some none ∧
    edited (ascii "Prefix(e:=<http://a#>) Ontology(Declaration(Class(<http://a#x.>)))") = some (some (.rejected, 0)) ∧
    edited (ascii "Prefix(e:=<http://a#>) Ontology(Declaration(Class(<http://a#x>)))") = some (some (.ok, 8)) := by
  refine ⟨?_, ?_, ?_⟩ <;> decide +kernel

/-! ## Streaming -/

/-- The IRI of the ontology. -/
def porciniIri : Iri := ⟨ascii "http://example.com/ontologies/", ascii "porcini_pizza"⟩

/-- The IRI of the ontology that it imports. -/
def pizzaIri : Iri := ⟨ascii "http://www.co-ode.org/ontologies/", ascii "pizza"⟩

theorem header_checks : iriFromString (ascii "http://example.com/ontologies/porcini_pizza") = some (porciniIri.ns, porciniIri.rem) ∧
    iriFromString (ascii "http://www.co-ode.org/ontologies/pizza") = some (pizzaIri.ns, pizzaIri.rem) ∧
    nameCheck porciniIri = true ∧ nameCheck pizzaIri = true := by
  refine ⟨?_, ?_, ?_, ?_⟩ <;> decide +kernel

theorem header_built : porciniHeader = some ⟨some 1, some porciniIri, none, [⟨20, .prim (.iri pizzaIri)⟩], []⟩ := by
  unfold porciniHeader
  rw [header_checks.1, header_checks.2.1]
  rfl

theorem iriOk_of_check {i : Iri} (h : nameCheck i = true) (gp : Str → Option Str) : IriOk gp i := by
  unfold nameCheck at h
  simp only [Bool.and_eq_true, beq_iff_eq, Bool.not_eq_true', beq_eq_false_iff_ne] at h
  exact iriOk_of h.1.1 h.1.2 h.2

theorem porciniMap_reaches {dflt : Fwd} (hd : Distinct dflt) :
    PrefixSpec.Reaches False (porciniMap dflt) (((initial dflt).add [] (ascii porciniNs) false).add (ascii "pizza") (ascii pizzaNs) false) :=
  .add ⟨11, ascii "pizza"⟩ _ _ (.add ⟨10, []⟩ _ _ (.create _ _ rfl hd) (fun c => c.elim)) (fun c => c.elim)

theorem porciniMap_ok {dflt : Fwd} (hd : Distinct dflt) (hg : GoodDefaults dflt) : MapOk (porciniMap dflt) :=
  mapOk_add (mapOk_add (mapOk_create rfl hd hg) 10 (.inl rfl) (chars_of (by decide +kernel)) false) 11
    (plain_of (by decide +kernel) (by decide +kernel)) (chars_of (by decide +kernel)) false

theorem porciniMap_rev (dflt : Fwd) : (porciniMap dflt).rev = [] := by
  unfold porciniMap
  rw [add_rev, add_rev, create_rev]

/-- Prefixes that were there are kept. -/
theorem add_keeps {a : PrefixSpec.Abs} {p n q x : Str} (h : a q = some x) : a.add p n false q = some x := by
  unfold PrefixSpec.Abs.add
  rw [if_neg]
  · exact h
  · rintro ⟨rfl, c | c⟩
    · cases c
    · rw [h] at c; cases c

theorem porciniMap_compatible {dflt : Fwd} (hd : Distinct dflt) : Compatible (porciniMap dflt) dflt := by
  intro p n n' h h'
  rw [C22_get_ns (porciniMap_reaches hd)] at h
  by_cases hs : p = ascii "owl" ∨ p = ascii "rdf" ∨ p = ascii "rdfs" ∨ p = ascii "xsd"
  · exact .inr hs
  · have : initial dflt p = some n' := by unfold initial; rw [if_neg hs]; exact h'
    rw [add_keeps (add_keeps this)] at h
    exact .inl (Option.some.inj h).symm

theorem numbered_map : ∀ (xs : List Obj) (n : Nat), (numbered n xs).map Ref.obj = xs
  | [], _ => rfl
  | x :: xs, n => by rw [numbered, List.map_cons, numbered_map xs]

theorem calm_axioms : ∀ (xs : List Ref) (s : FSess.St) (n : Own), (∀ x ∈ xs, writeDefined x.obj = true) → Calm s n (xs.map Op.ax ++ [.footer])
  | [], _, _, _ => ⟨trivial, fun _ _ => trivial⟩
  | x :: xs, _, _, h => ⟨h x List.mem_cons_self, fun s' _ => calm_axioms xs s' _ (fun y hy => h y (List.mem_cons_of_mem _ hy))⟩

theorem after_axioms : ∀ (xs : List Ref) (n : Own), Own.afterAll n (xs.map Op.ax ++ [.footer]) = n
  | [], _ => rfl
  | _ :: xs, n => after_axioms xs n

theorem axioms_map : ∀ (xs : List Ref), FSess.axioms (xs.map Op.ax) = xs
  | [] => rfl
  | x :: xs => by rw [List.map_cons, FSess.axioms, axioms_map xs]

/-- C102: whatever the default prefixes, as long as they can be declared in a document, the program that streams the Porcini
pizza does nothing that is undefined, although it releases the map early; what it writes is accepted by a reader with the same
default prefixes, and tells its handler the prefixes of the map that are not standard, the IRI, the import and the axioms,
in order, and nothing else. The writer then holds the only reference to the map, and frees it with itself. -/
theorem C102_stream {dflt : Fwd} (hd : Distinct dflt) (hg : GoodDefaults dflt) :
    ∃ ops s, ostreamOps dflt = some ops ∧ St.init.run ops = some s ∧
      (∀ {ks : List Nat}, ks.length = 4 → ∀ addr : Nat, ∃ ps : Fwd, ps.Sublist (porciniMap dflt).fwd ∧
        (∀ e ∈ (porciniMap dflt).fwd, e ∈ ps ↔ ¬ Standard e.1.txt) ∧
        ∀ {σ : Type} (k : Callback σ Item), Accepts k → ∀ x : σ, funcRead k (create ks dflt) addr s.out x =
          (give k x ((ps.map fun e => Item.prefixDecl e.1.txt e.2) ++ [Item.iri porciniIri, .import pizzaIri] ++
            (porcini (ascii porciniNs) (ascii pizzaNs)).map fun a => Item.ax a.toObj), .ok)) ∧
      ∃ w : Mem, s.close = some w ∧ ∀ a, w a = none := by
  have hax := porcini_meets (own := porciniNs) (base := pizzaNs) (.inr rfl) (.inl rfl)
  have hb := porcini_built (own := porciniNs) (base := pizzaNs) (.inr rfl) (.inl rfl)
  generalize porcini (ascii porciniNs) (ascii pizzaNs) = axs at hax hb
  have hdef : ∀ x ∈ numbered 30 (axs.map Axiom.toObj), writeDefined x.obj = true := by
    intro x hx
    have : x.obj ∈ axs.map Axiom.toObj := by
      rw [← numbered_map (axs.map Axiom.toObj) 30]; exact List.mem_map_of_mem hx
    obtain ⟨a, ha, e⟩ := List.mem_map.1 this
    rw [← e]
    exact def_axiom (hax (fun _ => none) a ha)
  have hobj : ∀ x ∈ numbered 30 (axs.map Axiom.toObj), ∃ a ∈ axs, x.obj = a.toObj := by
    intro x hx
    have : x.obj ∈ axs.map Axiom.toObj := by
      rw [← numbered_map (axs.map Axiom.toObj) 30]; exact List.mem_map_of_mem hx
    obtain ⟨a, ha, e⟩ := List.mem_map.1 this
    exact ⟨a, ha, e.symm⟩
  have hnum := numbered_map (axs.map Axiom.toObj) 30
  generalize hxs : numbered 30 (axs.map Axiom.toObj) = xs at hdef hobj hnum
  let h : FSess.Header := ⟨some 1, some porciniIri, none, [⟨20, .prim (.iri pizzaIri)⟩], []⟩
  let ops : List FSess.Op := [.new 1 (porciniMap dflt)] ++ .header h :: ((.drop 1 :: xs.map Op.ax) ++ [.footer])
  have hops : ostreamOps dflt = some ops := by
    unfold ostreamOps
    rw [header_built, hb]
    show some _ = some _
    rw [hxs]
  have hcalm : Calm FSess.St.init (fun _ => 0) ops := by
    refine ⟨rfl, fun s1 e1 => ?_⟩
    cases e1
    refine ⟨⟨?_, nofun⟩, fun s2 _ => ⟨?_, fun s3 _ => calm_axioms xs s3 _ hdef⟩⟩
    · show 0 < (if 1 = 1 then 1 else 0); decide
    · show 0 < (if 1 = 1 then 1 else 0); decide
  have hwithin : ∀ op ∈ Op.drop 1 :: xs.map Op.ax, Within h.pm op := by
    intro op hop
    rcases List.mem_cons.1 hop with rfl | hop
    · trivial
    · obtain ⟨x, -, rfl⟩ := List.mem_map.1 hop; trivial
  obtain ⟨s1, s2, m, txt, r1, r2, r3, r4, r5⟩ := C58_partial (hist := [.new 1 (porciniMap dflt)]) hcalm hwithin
  obtain ⟨s3, w, q1, -, q3, q4⟩ := C58_memory hcalm
  cases r3.symm.trans q1
  cases r1
  cases r2
  have hout : s2.out = txt := r4
  have haxs : FSess.axioms (Op.drop 1 :: xs.map Op.ax) = xs := axioms_map xs
  rw [haxs] at r5
  have hr := porciniMap_reaches hd
  obtain ⟨a, ha, hok⟩ := porciniMap_ok hd hg
  have ok : StreamOk (some (porciniMap dflt)) h xs := by
    refine ⟨?_, ?_, ?_, ?_, ?_, nofun, ?_, nofun, ?_⟩
    · intro v e; cases e; exact ⟨_, hr⟩
    · intro v e n p hp; cases e; exact sound_of_new hr (porciniMap_rev dflt) n p hp
    · intro v e p n hp; cases e; rw [C22_get_ns ha] at hp; exact (hok p n hp).1
    · intro v e p n hp; cases e; rw [C22_get_ns ha] at hp; exact (hok p n hp).2
    · intro i e; cases e; exact iriOk_of_check header_checks.2.2.1 _
    · intro x hx; cases List.mem_singleton.1 hx; exact ⟨pizzaIri, rfl, iriOk_of_check header_checks.2.2.2 _⟩
    · intro x hx
      obtain ⟨b, hb1, hb2⟩ := hobj x hx
      exact ⟨b, hb2, hax _ b hb1⟩
  refine ⟨ops, s2, hops, r3, fun hk addr => ?_, w, q3, fun b => ?_⟩
  · obtain ⟨items, ⟨ps, is, t1, t2, t3, t4⟩, t5⟩ := r5 ok hk hd (fun v e => by cases e; exact porciniMap_compatible hd) addr
    refine ⟨ps, t1, t2, fun k acc x => ?_⟩
    rw [hout, t5 k acc x, t4]
    have his : is = [pizzaIri] := by
      match is, t3 with
      | [j], t3 =>
        have : Obj.prim (.iri pizzaIri) = Obj.prim (.iri j) := (List.cons.inj t3).1
        injection this with e
        injection e with e
        rw [e]
    rw [his, hnum, List.map_map]
    simp [h]
    rfl
  · have hz := q4 b
    have hn : Own.afterAll (fun _ => 0) ops b = 0 := by
      show Own.afterAll _ (xs.map Op.ax ++ [.footer]) b = 0
      rw [after_axioms]
      by_cases e : b = 1
      · subst e; rfl
      · show (if b = 1 then _ else if b = 1 then _ else _) = 0
        rw [if_neg e, if_neg e]
    cases e : w b with
    | none => rfl
    | some y =>
      obtain ⟨z1, z2⟩ := hz
      have z2 := z2 y e
      dsimp only at z1
      rw [e, hn] at z1
      simp at z1
      omega

/-- The conditions of `C102_stream` hold for the default prefixes of the example of C93. -/
example : Distinct rewriteDflt ∧ GoodDefaults rewriteDflt := ⟨rewriteDflt_distinct, rewriteDflt_good⟩

/-- The document that the program writes if there are no default prefixes. -/
def porciniText : List String := [
  "Prefix(:=<http://example.com/ontologies/porcini_pizza/porcini_pizza.owl#>)",
  "Prefix(pizza:=<http://www.co-ode.org/ontologies/pizza/pizza.owl#>)",
  "Ontology(<http://example.com/ontologies/porcini_pizza>",
  "Import(<http://www.co-ode.org/ontologies/pizza>)",
  "Declaration(Class(:PorciniTopping))",
  "Declaration(Class(:Porcini))",
  "SubClassOf(:PorciniTopping pizza:MushroomTopping)",
  "SubClassOf(:Porcini pizza:NamedPizza)",
  "SubClassOf(:Porcini ObjectSomeValuesFrom(pizza:hasTopping pizza:MozzarellaTopping))",
  "SubClassOf(:Porcini ObjectSomeValuesFrom(pizza:hasTopping :PorciniTopping))",
  "SubClassOf(:Porcini ObjectAllValuesFrom(pizza:hasTopping ObjectUnionOf(pizza:MozzarellaTopping :PorciniTopping)))",
  ")"]

/-- C102, the text: each axiom on a line of its own, as the comments of the program have it. -/
theorem C102_text : ((ostreamOps []).bind fun ops => (FSess.St.init.run ops).map FSess.St.out) =
    some (porciniText.flatMap fun l => ascii l ++ [10]) := by decide +kernel

end Cowl
