import Verif.HeardDoc
import Verif.SaysProps
/-! # Properties: what the functional reader accepts says what is read -/
namespace Cowl
open Says Func FuncSpec FuncTell Ast Change Prefix PrefixSpec Sem

/-- C113, but for the departures that `Loose` and `lax` allow: a text that is accepted says a document, and the handler, whatever it is,
was told what that document consists of, in order. -/
theorem C113_partial {σ : Type} {h : Callback σ Item} {ks : List Nat} (hk : ks.length = 4) {dflt : Fwd} (hf : Distinct dflt)
    {addr : Nat} {text : Str} {s s' : σ} (e : funcRead h (create ks dflt) addr text s = (s', .ok)) :
    ∃ d : Loose, d.Ok ∧ Hears (initial dflt) text d ∧ s' = give h s d.items :=
  read_heard hk hf e

theorem filterMap_none {α β : Type} {f : α → Option β} {xs : List α} (h : ∀ x ∈ xs, f x = none) : xs.filterMap f = [] := by
  induction xs with
  | nil => rfl
  | cons x xs ih => rw [List.filterMap_cons, h x (.head _)]; exact ih fun y hy => h y (.tail _ hy)

theorem filterMap_some {α β : Type} {f : β → Option α} {g : α → β} (h : ∀ x, f (g x) = some x) (xs : List α) : (xs.map g).filterMap f = xs := by
  induction xs with
  | nil => rfl
  | cons x xs ih => rw [List.map_cons, List.filterMap_cons, h x, ih]

theorem annotForms_flatMap (as : List Annot) : annotForms as = as.flatMap annotForm := by
  induction as with
  | nil => rw [annotForms]; rfl
  | cons a as ih => rw [annotForms, ih]; rfl

/-- C113, order and prefixes: if imports come before annotations, each prefix is declared once and none against its first meaning, then what
is said is a document of the standard. -/
theorem C113_document {first : Str → Option Str} {text : Str} {d : Loose} (hs : d.Sorted)
    (hp : d.prefixes.Pairwise (fun e f => e.1 ≠ f.1)) (ha : d.doc.Agrees first) (h : Hears first text d) :
    Says.Says lax first text d.doc ∧ d.doc.items = d.items := by
  obtain ⟨is, as, hl⟩ := hs
  have e1 : d.doc.imports = is := by
    show d.header.filterMap _ = _
    rw [hl, List.filterMap_append, filterMap_some (g := Sum.inl) (fun _ => rfl), filterMap_none, List.append_nil]
    intro x hx
    obtain ⟨a, _, rfl⟩ := List.mem_map.1 hx
    rfl
  have e2 : d.doc.annots = as := by
    show d.header.filterMap _ = _
    rw [hl, List.filterMap_append, filterMap_some (g := Sum.inr) (fun _ => rfl), filterMap_none, List.nil_append]
    intro x hx
    obtain ⟨a, _, rfl⟩ := List.mem_map.1 hx
    rfl
  have e3 : d.doc.form = d.form := by
    unfold Doc.form Loose.form
    rw [e1, e2, hl, List.flatMap_append, annotForms_flatMap, List.append_assoc]
    have i1 : (is.map Sum.inl).flatMap partForm = is.flatMap fun i => form .import_ [.iri i] := by rw [List.flatMap_map]; rfl
    have i2 : (as.map Sum.inr).flatMap partForm = as.flatMap annotForm := by rw [List.flatMap_map]; rfl
    rw [i1, i2]; rfl
  have e4 : d.doc.ns first = d.ns first := by
    funext p
    unfold Doc.ns Loose.ns
    show (match d.prefixes.find? (fun e => e.1 == p) with | some e => some e.2 | none => first p) = _
    cases hf : d.prefixes.find? (fun e => e.1 == p) with
    | none => cases first p <;> rfl
    | some e =>
      cases hn : first p with
      | none => rfl
      | some n =>
        have h1 : e.1 = p := by simpa using List.find?_some hf
        have h2 := ha e (List.mem_of_find?_eq_some hf) n (h1 ▸ hn)
        simp [h2]
  refine ⟨?_, ?_⟩
  · unfold Says.Says
    rw [e3, e4]; exact h
  · unfold Doc.items Loose.items
    rw [e1, e2, hl, List.map_append, List.map_map, List.map_map, List.append_assoc]
    rfl

theorem toldAxioms_loose (d : Loose) : toldAxioms d.items = d.axioms.map Axiom.toObj := by
  have e1 : ∀ ps : List (Str × Str), toldAxioms (ps.map fun e => .prefixDecl e.1 e.2) = [] := by
    intro ps; induction ps with
    | nil => rfl
    | cons e ps ih => exact ih
  have e2 : ∀ l : List (Iri ⊕ Annot), toldAxioms (l.map partItem) = [] := by
    intro l; induction l with
    | nil => rfl
    | cons e l ih => cases e <;> exact ih
  have e4 : ∀ as : List Axiom, toldAxioms (as.map fun a => .ax a.toObj) = as.map Axiom.toObj := by
    intro as; induction as with
    | nil => rfl
    | cons e as ih => exact congrArg _ ih
  unfold Loose.items
  simp only [told_append, e1, e2, e4]
  unfold Says.idItems
  split <;> rfl

/-- Recording changes nothing. -/
theorem funcRead_record {σ : Type} (h : Callback σ Item) (m : PMap) (addr : Nat) (text : Str) (s : σ) :
    (funcRead (taking h) m addr text (s, [])).1.1 = (funcRead h m addr text s).1 ∧
    (funcRead (taking h) m addr text (s, [])).2 = (funcRead h m addr text s).2 := by
  obtain ⟨items, acc, hf⟩ := funcRead_tells m addr text
  obtain ⟨_, _, _, _, _, h4⟩ := tell_taking h items s []
  rw [hf, hf, h4]
  exact ⟨rfl, rfl⟩

/-- C113, meaning: if reading into a new ontology succeeds, the text says a document, and the ontology holds in an interpretation exactly if
the axioms of the document do. -/
theorem C113_means {ks : List Nat} (hk : ks.length = 4) {dflt : Fwd} (hf : Distinct dflt) {addr n n' : Nat} {text : Str} {o : OntoSt}
    (e : funcRead ontoHandler (create ks dflt) addr text (OntoSt.new ks dflt, n) = ((o, n'), .ok)) :
    ∃ (d : Loose) (s : OntoSpec.Abs), d.Ok ∧ Hears (initial dflt) text d ∧ OntoSpec.Reaches o.onto s ∧
      ∀ I : Interp, HoldsIn I (s.axioms.map Ref.obj) ↔ ∀ a ∈ d.axioms, sat I a.ax := by
  obtain ⟨r1, r2⟩ := funcRead_record ontoHandler (create ks dflt) addr text (OntoSt.new ks dflt, n)
  rw [e] at r1 r2
  obtain ⟨d, h1, h2, h3⟩ := read_heard (h := taking ontoHandler) hk hf (s := ((OntoSt.new ks dflt, n), [])) (addr := addr) (text := text)
    (_root_.Prod.ext rfl r2)
  obtain ⟨told, s', a', e1, -, e3, -, e5, -⟩ := C91_load_partial (o := OntoSt.new ks dflt) (s := ⟨[], [], []⟩)
    (a := _) ⟨[], trivial, rfl, rfl⟩ (.create ks dflt hk hf) n nofun (create ks dflt) addr text
  have e2 : told = d.items := by
    refine e1.trans ((congrArg _root_.Prod.snd h3).trans ?_)
    rw [Examples.give_taking, List.nil_append]
  subst e2
  rw [e] at e3
  refine ⟨d, s', h1, h2, e3, fun I => holds_map fun x => ?_⟩
  rw [e5, toldAxioms_loose]
  simp only [List.map_nil, List.nil_append, List.mem_map]
  constructor
  · rintro ⟨a, ha, rfl⟩; exact ⟨a, ha, rfl⟩
  · rintro ⟨a, ha, rfl⟩; exact ⟨a, ha, rfl⟩

/-- A text is accepted with a handler that accepts everything. -/
example : (funcRead (taking (fun s _ => (s, .ok))) (create [1, 2, 3, 4] []) 5 sayText ((), [])).2 = .ok := by decide +kernel

/-- A text is accepted when reading into a new ontology. -/
example : (funcRead ontoHandler (create [1, 2, 3, 4] []) 5 sayText (OntoSt.new [1, 2, 3, 4] [], 0)).2 = .ok := by decide +kernel

/-- A sorted document and a text that says it. -/
example : ∃ d : Loose, d.Sorted ∧ d.prefixes.Pairwise (fun e f => e.1 ≠ f.1) ∧ d.doc.Agrees (initial []) ∧
    Hears (initial []) (ascii "Prefix(e:=<http://e.x/>) Ontology(Import(e:p) Declaration(Class(<http://e.x/c>)))") d := by
  refine ⟨⟨[(ascii "e", ascii "http://e.x/")], none, [.inl (sayIri "p")], [⟨.decl .cls (sayIri "c"), []⟩]⟩, ⟨[sayIri "p"], [], rfl⟩, by simp, ?_, ?_⟩
  · intro e he n hn
    rcases List.mem_singleton.1 he with rfl
    exact absurd hn (by rw [show initial [] (ascii "e") = none from by decide +kernel]; nofun)
  · unfold Hears
    rw [show lex (ascii "Prefix(e:=<http://e.x/>) Ontology(Import(e:p) Declaration(Class(<http://e.x/c>)))") = [.kw .prefix_, .lpar,
      .pnameNs (ascii "e"), .equals, .iriRef (ascii "http://e.x/"), .rpar, .kw .ontology, .lpar, .kw .import_, .lpar,
      .pnameLn (ascii "e:p"), .rpar, .kw .declaration, .lpar, .kw .class_, .lpar, .iriRef (ascii "http://e.x/c"), .rpar, .rpar, .rpar]
      by decide +kernel]
    exact .tok <| .tok <| .tok <| .tok <| .tok <| .tok <| .tok <| .tok <| .tok <| .tok <|
      .iri (say_short (p := "e") (n := "http://e.x/") (l := "p") (by decide +kernel) (by decide +kernel) rfl trivial (by decide +kernel)) <|
      .tok <| .tok <| .tok <| .tok <| .tok <| .iri (say_full (by decide +kernel)) <| .tok <| .tok <| .tok .nil

/-! ## Failure -/

theorem usual_of_every {ns : Str → Option Str} : ∀ {xs : List Says.Sym} {ts : List Tok}, Spelt every ns xs ts →
    (∀ t ∈ ts, t ≠ .dcaret ∧ ∀ s, t ≠ .pnameLn s) → Spelt Says.usual ns xs ts
  | _, _, .nil, _ => .nil
  | _, _, .tok h, hn => .tok (usual_of_every h fun t ht => hn t (.tail _ ht))
  | _, _, .iri hi h, hn => by
    refine .iri ?_ (usual_of_every h fun t ht => hn t (.tail _ ht))
    cases hi with
    | full => exact .full
    | short p l n h1 h2 h3 h4 => exact absurd rfl ((hn _ (.head _)).2 _)
  | _, _, .lit hl h, hn => by
    refine .lit ?_ (usual_of_every h fun t ht => hn t (List.mem_append_right _ ht))
    have hd : ∀ t, t ∈ _ → t ≠ Tok.dcaret := fun t ht => (hn t (List.mem_append_left _ ht)).1
    cases hl with
    | string v => exact .string v
    | lang v l h => exact .lang v l h
    | typed => exact absurd rfl (hd _ (.tail _ (.head _)))
    | plain => exact absurd rfl (hd _ (.tail _ (.head _)))
    | plainString => exact absurd rfl (hd _ (.tail _ (.head _)))
    | langString => exact absurd rfl (hd _ (.tail _ (.head _)))

/-- The place of an item in a document. -/
def place : Item → Nat
  | .prefixDecl _ _ => 0
  | .iri _ => 1
  | .version _ => 2
  | .import _ => 3
  | .annot _ => 4
  | .ax _ => 5

theorem places (d : Doc) : (d.items.map place).Pairwise (· ≤ ·) := by
  have rep : ∀ {α : Type} (f : α → Item) (k : Nat), (∀ x, place (f x) = k) → ∀ xs : List α, (xs.map f).map place = List.replicate xs.length k := by
    intro α f k hk xs
    induction xs with
    | nil => rfl
    | cons x xs ih => rw [List.map_cons, List.map_cons, hk, ih]; rfl
  unfold Doc.items
  simp only [List.map_append, rep (fun e : Str × Str => Item.prefixDecl e.1 e.2) 0 (fun _ => rfl), rep Item.import 3 (fun _ => rfl),
    rep (fun a : Annot => Item.annot a.toObj) 4 (fun _ => rfl), rep (fun a : Axiom => Item.ax a.toObj) 5 (fun _ => rfl)]
  have ids : ∀ x : Option (Iri × Option Iri), ((match (motive := _ → List Item) x with
      | none => []
      | some (i, none) => [.iri i]
      | some (i, some v) => [.iri i, .version v]).map place).Pairwise (· ≤ ·) ∧ ∀ k ∈ ((match (motive := _ → List Item) x with
      | none => []
      | some (i, none) => [.iri i]
      | some (i, some v) => [.iri i, .version v]).map place), k ≤ 2 := by
    intro x
    match x with
    | none => simp
    | some (i, none) => simp [place]
    | some (i, some v) => simp [place]
  obtain ⟨i1, i2⟩ := ids d.id
  refine List.pairwise_append.2 ⟨by simp [List.pairwise_replicate], List.pairwise_append.2 ⟨i1, ?_, ?_⟩, ?_⟩
  · have r : ∀ n k : Nat, (List.replicate n k).Pairwise (· ≤ ·) := by simp [List.pairwise_replicate]
    refine List.pairwise_append.2 ⟨r _ _, List.pairwise_append.2 ⟨r _ _, r _ _, ?_⟩, ?_⟩
    · intro a ha b hb
      simp only [List.mem_replicate] at ha hb
      omega
    · intro a ha b hb
      simp only [List.mem_replicate, List.mem_append] at ha hb
      omega
  · intro a ha b hb
    have := i2 a ha
    simp only [List.mem_replicate, List.mem_append] at hb
    omega
  · intro a ha b hb
    simp only [List.mem_replicate] at ha
    omega

/-- An annotation before an import. -/
def lateText : Str := ascii "Ontology(Annotation(<http://e.x/p> \"a\") Import(<http://e.x/i>))"

/-- A prefix that is declared twice. -/
def twiceText : Str := ascii "Prefix(e:=<http://a.x/>) Prefix(e:=<http://b.x/>) Ontology(Declaration(Class(e:c)))"

/-- What is told of a text. -/
def toldOf (text : Str) : List Nat × Outcome :=
  let r := funcRead (taking fun s _ => (s, .ok)) (create [1, 2, 3, 4] []) 5 text ((), [])
  (r.1.2.map place, r.2)

/-- C113 is false as stated. An import after an annotation is accepted, and so is a prefix that is declared more than once, though no
document of the standard is written so. The first declaration counts. -/
theorem C113_fails :
    (toldOf lateText = ([4, 3], .ok) ∧ ¬ ∃ d : Doc, d.Ok ∧ Says.Says every (initial []) lateText d) ∧
    (toldOf twiceText = ([0, 0, 5], .ok) ∧ readDecls [] twiceText = ([⟨ascii "http://a.x/", ascii "c"⟩], .ok) ∧
      ¬ ∃ d : Doc, d.Ok ∧ Says.Says every (initial []) twiceText d) := by
  refine ⟨⟨by decide +kernel, ?_⟩, by decide +kernel, by decide +kernel, ?_⟩
  · rintro ⟨d, hd, h⟩
    unfold Says.Says at h
    have hl : lex lateText = [.kw .ontology, .lpar, .kw .annotation, .lpar, .iriRef (ascii "http://e.x/p"), .qstr (ascii "a"), .rpar,
      .kw .import_, .lpar, .iriRef (ascii "http://e.x/i"), .rpar, .rpar] := by decide +kernel
    have h1 := usual_of_every h (by rw [hl]; simp)
    have hp : d.prefixes = [] := by
      rw [hl] at h
      obtain ⟨us, vs, e, h2, -⟩ := spelt_append h
      rw [spelt_prefixes _ h2] at e
      cases hd : d.prefixes with
      | nil => rfl
      | cons x xs => rw [hd] at e; cases e
    have hr := read_doc (h := taking fun (s : Unit) _ => (s, .ok)) (fun _ _ => rfl) hd (ks := [1, 2, 3, 4]) rfl (dflt := []) .nil
      (by intro e he; rw [hp] at he; cases he) 5 ((), []) h1
    have h3 : toldOf lateText = (d.items.map place, .ok) := by
      unfold toldOf
      rw [hr, Examples.give_taking]; rfl
    have h4 := places d
    rw [(_root_.Prod.mk.inj (h3.symm.trans (show toldOf lateText = ([4, 3], .ok) by decide +kernel))).1] at h4
    simp at h4
  · rintro ⟨d, hd, h⟩
    unfold Says.Says at h
    have hl : lex twiceText = [.kw .prefix_, .lpar, .pnameNs (ascii "e"), .equals, .iriRef (ascii "http://a.x/"), .rpar,
      .kw .prefix_, .lpar, .pnameNs (ascii "e"), .equals, .iriRef (ascii "http://b.x/"), .rpar, .kw .ontology, .lpar,
      .kw .declaration, .lpar, .kw .class_, .lpar, .pnameLn (ascii "e:c"), .rpar, .rpar, .rpar] := by decide +kernel
    have hp := hd.prefixes
    rw [hl] at h
    obtain ⟨us, vs, e, h2, h3⟩ := spelt_append h
    obtain ⟨ws, rfl, -⟩ := spelt_form h3
    rw [spelt_prefixes _ h2] at e
    cases hx : d.prefixes with
    | nil => rw [hx] at e; cases e
    | cons x xs =>
      cases hy : xs with
      | nil => rw [hx, hy] at e; simp [entries, prefixToks] at e
      | cons y ys =>
        rw [hx, hy] at e hp
        simp only [entries, prefixToks, List.map_cons, List.flatMap_cons, List.cons_append, List.nil_append, List.cons.injEq,
          Tok.pnameNs.injEq, true_and] at e
        exact (List.pairwise_cons.1 hp).1 y (.head _) (e.1.symm.trans e.2.2.1)

end Cowl
