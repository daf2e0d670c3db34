import Verif.TypedDoc
/-! # C91: what the functional reader hands over are constructs of OWL 2 -/
namespace Cowl
open Change Func FuncSpec Prefix FuncTell Ast

/-- C91, where the program is defined (`C91_fails`; the model rejects what is not): whatever the text, the axioms and annotations that a handler is told are axioms and annotations
of OWL 2, also if the handler stops the reader, and if the text is rejected in the end. -/
theorem C91_partial {σ : Type} (h : Callback σ Item) (m : PMap) (addr : Nat) (text : Str) (s : σ) :
    ∀ i ∈ (funcRead (taking h) m addr text (s, [])).1.2, ItemOk owl2 i := by
  refine funcRead_typed (P := fun x : σ × List Item => ∀ i ∈ x.2, ItemOk owl2 i) (h := taking h) ?_ m addr text (s := (s, [])) nofun
  intro x i hx hi j hj
  rcases List.mem_append.1 hj with hj | hj
  · exact hx j hj
  · cases List.mem_singleton.1 hj; exact hi

/-- The axioms among the items. -/
def toldAxioms : List Item → List Obj
  | [] => []
  | .ax o :: l => o :: toldAxioms l
  | _ :: l => toldAxioms l

/-- The annotations among the items. -/
def toldAnnots : List Item → List Obj
  | [] => []
  | .annot o :: l => o :: toldAnnots l
  | _ :: l => toldAnnots l

/-- The imports among the items. -/
def toldImports : List Item → List Obj
  | [] => []
  | .import i :: l => .prim (.iri i) :: toldImports l
  | _ :: l => toldImports l

theorem told_append (l l' : List Item) : toldAxioms (l ++ l') = toldAxioms l ++ toldAxioms l' ∧
    toldAnnots (l ++ l') = toldAnnots l ++ toldAnnots l' ∧ toldImports (l ++ l') = toldImports l ++ toldImports l' := by
  induction l with
  | nil => exact ⟨rfl, rfl, rfl⟩
  | cons i l ih =>
    obtain ⟨h1, h2, h3⟩ := ih
    cases i <;> simp [toldAxioms, toldAnnots, toldImports, h1, h2, h3]

/-- The ontology is sound, with the contents `s` and what was told after that. -/
structure LoadInv (s : OntoSpec.Abs) (x : (OntoSt × Nat) × List Item) : Prop where
  onto : ∃ s', OntoSpec.Reaches x.1.1.onto s' ∧ (∀ a ∈ s'.axioms, a.addr < x.1.2) ∧
    s'.axioms.map Ref.obj = s.axioms.map Ref.obj ++ toldAxioms x.2 ∧ s'.annots.map Ref.obj = s.annots.map Ref.obj ++ toldAnnots x.2 ∧
    s'.imports.map Ref.obj = s.imports.map Ref.obj ++ toldImports x.2
  pm : ∃ a, PrefixSpec.Reaches False x.1.1.pm a

theorem holds_step {s : OntoSpec.Abs} (x : (OntoSt × Nat) × List Item) (i : Item) (hx : LoadInv s x) (hi : ItemOk owl2 i) :
    LoadInv s (taking ontoHandler x i).1 := by
  obtain ⟨⟨o, n⟩, l⟩ := x
  obtain ⟨⟨s', h1, h2, h3, h4, h5⟩, ⟨a, ha⟩⟩ := hx
  obtain ⟨t1, t2, t3⟩ := told_append l [i]
  cases i with
  | prefixDecl p ns =>
    exact ⟨⟨s', h1, fun a ha => Nat.lt_succ_of_lt (h2 a ha), by rw [h3]; show _ = _ ++ toldAxioms (l ++ [_]); rw [t1]; simp [toldAxioms],
      by rw [h4]; show _ = _ ++ toldAnnots (l ++ [_]); rw [t2]; simp [toldAnnots],
      by rw [h5]; show _ = _ ++ toldImports (l ++ [_]); rw [t3]; simp [toldImports]⟩, ⟨_, .add ⟨n, p⟩ ns true ha (fun c => c.elim)⟩⟩
  | iri i =>
    exact ⟨⟨s', h1, fun a ha => Nat.lt_succ_of_lt (h2 a ha), by rw [h3]; show _ = _ ++ toldAxioms (l ++ [_]); rw [t1]; simp [toldAxioms],
      by rw [h4]; show _ = _ ++ toldAnnots (l ++ [_]); rw [t2]; simp [toldAnnots],
      by rw [h5]; show _ = _ ++ toldImports (l ++ [_]); rw [t3]; simp [toldImports]⟩, ⟨a, ha⟩⟩
  | version i =>
    exact ⟨⟨s', h1, fun a ha => Nat.lt_succ_of_lt (h2 a ha), by rw [h3]; show _ = _ ++ toldAxioms (l ++ [_]); rw [t1]; simp [toldAxioms],
      by rw [h4]; show _ = _ ++ toldAnnots (l ++ [_]); rw [t2]; simp [toldAnnots],
      by rw [h5]; show _ = _ ++ toldImports (l ++ [_]); rw [t3]; simp [toldImports]⟩, ⟨a, ha⟩⟩
  | «import» i =>
    refine ⟨⟨s'.step (.addImport ⟨n, .prim (.iri i)⟩), reach_step h1 trivial rfl, fun a ha => Nat.lt_succ_of_lt (h2 a ha), ?_, ?_, ?_⟩, ⟨a, ha⟩⟩
    · show s'.axioms.map Ref.obj = _ ++ toldAxioms (l ++ [_]); rw [h3, t1]; simp [toldAxioms]
    · show s'.annots.map Ref.obj = _ ++ toldAnnots (l ++ [_]); rw [h4, t2]; simp [toldAnnots]
    · show (s'.imports ++ [_]).map Ref.obj = _ ++ toldImports (l ++ [_]); rw [List.map_append, h5, t3]; simp [toldImports]
  | annot ob =>
    obtain ⟨an, rfl, -⟩ := hi
    refine ⟨⟨s'.step (.addAnnot ⟨n, an.toObj⟩), reach_step h1 (wf_annot an) rfl, fun a ha => Nat.lt_succ_of_lt (h2 a ha), ?_, ?_, ?_⟩, ⟨a, ha⟩⟩
    · show s'.axioms.map Ref.obj = _ ++ toldAxioms (l ++ [_]); rw [h3, t1]; simp [toldAxioms]
    · show (s'.annots ++ [_]).map Ref.obj = _ ++ toldAnnots (l ++ [_]); rw [List.map_append, h4, t2]; simp [toldAnnots]
    · show s'.imports.map Ref.obj = _ ++ toldImports (l ++ [_]); rw [h5, t3]; simp [toldImports]
  | ax ob =>
    obtain ⟨ax, rfl, -⟩ := hi
    refine ⟨⟨s'.step (.addAxiom ⟨n, ax.toObj⟩), reach_step h1 ⟨isAxiom_toObj ax, ?_⟩ rfl, ?_, ?_, ?_, ?_⟩, ⟨a, ha⟩⟩
    · intro b hb e
      exact absurd e (Nat.ne_of_lt (h2 b hb))
    · intro b hb
      rcases List.mem_append.1 hb with hb | hb
      · exact Nat.lt_succ_of_lt (h2 b hb)
      · cases List.mem_singleton.1 hb; exact Nat.lt_succ_self n
    · show (s'.axioms ++ [_]).map Ref.obj = _ ++ toldAxioms (l ++ [_]); rw [List.map_append, h3, t1]; simp [toldAxioms]
    · show s'.annots.map Ref.obj = _ ++ toldAnnots (l ++ [_]); rw [h4, t2]; simp [toldAnnots]
    · show s'.imports.map Ref.obj = _ ++ toldImports (l ++ [_]); rw [h5, t3]; simp [toldImports]

/-- C91, loading: whatever the text, and whether it is accepted or not, reading it into an ontology in use
gives an ontology in use. It holds what it held, and after that what the reader told, which are constructs
of OWL 2. -/
theorem C91_load_partial {o : OntoSt} {s : OntoSpec.Abs} {a : PrefixSpec.Abs} (ho : OntoSpec.Reaches o.onto s) (hp : PrefixSpec.Reaches False o.pm a)
    (n : Nat) (hn : ∀ x ∈ s.axioms, x.addr < n) (m : PMap) (addr : Nat) (text : Str) :
    ∃ (told : List Item) (s' : OntoSpec.Abs) (a' : PrefixSpec.Abs), let r := (funcRead ontoHandler m addr text (o, n)).1.1
      told = (funcRead (taking ontoHandler) m addr text ((o, n), [])).1.2 ∧ (∀ i ∈ told, ItemOk owl2 i) ∧
      OntoSpec.Reaches r.onto s' ∧ PrefixSpec.Reaches False r.pm a' ∧
      s'.axioms.map Ref.obj = s.axioms.map Ref.obj ++ toldAxioms told ∧ s'.annots.map Ref.obj = s.annots.map Ref.obj ++ toldAnnots told ∧
      s'.imports.map Ref.obj = s.imports.map Ref.obj ++ toldImports told := by
  have := funcRead_typed (P := LoadInv s) (h := taking ontoHandler) holds_step m addr text (s := ((o, n), []))
    ⟨⟨s, ho, hn, by simp [toldAxioms], by simp [toldAnnots], by simp [toldImports]⟩, ⟨a, hp⟩⟩
  obtain ⟨⟨s', h1, -, h3, h4, h5⟩, a', h6⟩ := this
  refine ⟨_, s', a', rfl, C91_partial _ _ _ _ _, ?_, ?_, h3, h4, h5⟩
  · rw [← funcRead_taking]; exact h1
  · rw [← funcRead_taking]; exact h6

/-- A text that is rejected after its first axiom. -/
def typedText : Str :=
  ascii "Ontology(<http://e.x/o> SubClassOf(Annotation(rdfs:label \"x\"@EN) ObjectUnionOf(<http://e.x/A> <http://e.x/B>) <http://e.x/C>) SubClassOf(<http://e.x/A>))"

example : (funcRead (taking (fun s _ => (s, .ok))) (create [1, 2, 3, 4] []) 5 typedText ((), [])).1.2.length = 2 ∧
    (funcRead (taking (fun s _ => (s, .ok))) (create [1, 2, 3, 4] []) 5 typedText ((), [])).2 = .rejected := by decide +kernel

example : OntoSpec.Reaches (OntoSt.new [1, 2, 3, 4] []).onto OntoSpec.Abs.empty ∧ ∀ x ∈ OntoSpec.Abs.empty.axioms, x.addr < 5 :=
  ⟨⟨[], trivial, rfl, rfl⟩, nofun⟩

/-- C91 fails: there are texts for which reading is undefined. The value of a literal with the datatype
`rdf:PlainLiteral` is handed to `cowl_literal`, which dereferences a null pointer if it has no language
part (C25). -/
theorem C91_fails : ∃ (v : Str) (t : Tok) (i : Iri), lex (ascii "\"a\"^^rdf:PlainLiteral") = [.qstr v, .dcaret, t] ∧
    readIri (create [1, 2, 3, 4] []) t = some i ∧ Cowl.literal v (.dt i) = .ub :=
  ⟨ascii "a", .pnameLn (ascii "rdf:PlainLiteral"), rdfPlainLiteral, by decide +kernel, by decide +kernel, by decide +kernel⟩

end Cowl
