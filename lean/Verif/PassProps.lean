import Verif.SiftProps
import Verif.SeriesProps
import Verif.PrtStreamProps
/-!
# Properties: a document can be converted as it goes by

Two programs that have no ontology. One reads functional syntax and writes ProtocOWL through the streaming interface, with an index of any size. The other
reads ProtocOWL and writes functional syntax, as in `SiftProps.lean`.
-/
namespace Cowl
open Says Func FuncSpec FuncTell Ast Change Prefix PrefixSpec Sem Rewrite Convert

/-! ## The programs -/

/-- What the first program remembers: the header, in an ontology without axioms; how many items it was told; and the encoder, once the header is written. -/
structure Pass where
  head : OntoSt
  n : Nat
  enc : Option (Option Prt.SSt)

/-- The header is written, unless it already is. -/
def Pass.begin (u : Prt.Ulib) (size : Nat) (x : Pass) : Option Prt.SSt :=
  match x.enc with
  | some s => s
  | none => Prt.writeHeader u true size (Prt.headerOf x.head)

/-- Its handler: axioms are passed on, the rest is collected as by the handler of an ontology (`cowl_change_handler.c:61-70`). -/
def pass (u : Prt.Ulib) (size : Nat) : Callback Pass Item
  | x, .ax a => ({ x with n := x.n + 1, enc := some ((x.begin u size).bind fun s => s.writeAxiom u true size ⟨x.n, a⟩) }, .ok)
  | x, i => ({ x with head := (ontoHandler (x.head, x.n) i).1.1, n := x.n + 1 }, .ok)

/-- The first program: the bytes, unless there was an error, and how reading ended. -/
def passDoc (u : Prt.Ulib) (size : Nat) (ks : List Nat) (dflt : Fwd) (addr n : Nat) (text : Str) : Option Str × Outcome :=
  let r := funcRead (pass u size) (create ks dflt) addr text ⟨OntoSt.new ks dflt, n, none⟩
  ((r.1.begin u size).bind (Prt.SSt.writeFooter u true), r.2)

/-- The second program: its calls of the writer, and how reading ended. It takes all changes for additions. -/
def prtSift (keep : Obj → Bool) (E : Prt.Env) (ks : List Nat) (dflt : Fwd) (n : Nat) (b : Str) : List FSess.Op × Prt.End :=
  let r := Prt.prtRead E (fun x i => sift keep x i.2) b ⟨OntoSt.new ks dflt, n, false, []⟩
  (r.1.begin.ops ++ [.footer], r.2)

/-! ## What they do -/

theorem pass_accepts (u : Prt.Ulib) (size : Nat) : Accepts (pass u size) := fun x i => by cases i <;> rfl

theorem pass_head (u : Prt.Ulib) (size : Nat) : ∀ (l : List Item) (x : Pass), (∀ i ∈ l, ∀ a, i ≠ .ax a) →
    give (pass u size) x l = { x with head := (give ontoHandler (x.head, x.n) l).1, n := (give ontoHandler (x.head, x.n) l).2 }
  | [], _, _ => rfl
  | i :: l, x, h => by
    have hs : (pass u size x i).1 = { x with head := (ontoHandler (x.head, x.n) i).1.1, n := (ontoHandler (x.head, x.n) i).1.2 } := by
      cases i with
      | ax a => exact absurd rfl (h _ (.head _) a)
      | _ => rfl
    show give (pass u size) (pass u size x i).1 l = _
    rw [pass_head u size l _ fun j hj => h j (.tail _ hj), hs]
    rfl

theorem pass_axioms (u : Prt.Ulib) (size : Nat) : ∀ (l : List Obj) (x : Pass),
    (give (pass u size) x (l.map Item.ax)).begin u size = (x.begin u size).bind fun s => (number x.n l).foldlM (Prt.SSt.writeAxiom u true size) s
  | [], x => by
    show x.begin u size = _
    cases x.begin u size <;> rfl
  | a :: l, x => by
    have := pass_axioms u size l (pass u size x (.ax a)).1
    refine Eq.trans this ?_
    show ((x.begin u size).bind fun s => s.writeAxiom u true size ⟨x.n, a⟩).bind _ = _
    cases x.begin u size with
    | none => rfl
    | some s => rfl

/-- All that is not an axiom leaves the axioms alone. -/
theorem head_byType (t : Nat) : ∀ (l : List Item) (o : OntoSt) (n : Nat), (∀ i ∈ l, ∀ a, i ≠ .ax a) →
    (give ontoHandler (o, n) l).1.onto.byType t = o.onto.byType t
  | [], _, _, _ => rfl
  | i :: l, o, n, h => by
    have hs : (ontoHandler (o, n) i).1.1.onto.byType t = o.onto.byType t := by
      cases i with
      | ax a => exact absurd rfl (h _ (.head _) a)
      | _ => rfl
    exact (head_byType t l _ _ fun j hj => h j (.tail _ hj)).trans hs

/-- C124, for contents that both formats can express: if a text is accepted, it can be turned into ProtocOWL as it goes by, with an index of any size, and that can
be turned into functional syntax again as it goes by, with any axioms left out. Neither program holds an ontology. Both succeed, the second does nothing undefined and
leaves no memory behind. The last text says the IRI, version, imports and annotations of the first, and the axioms that are wanted, in some order; its prefixes are
among the given ones. Missing: see `C124_fails`. -/
theorem C124_partial (keep : Obj → Bool) {E : Prt.Env} (hu : E.u.Lawful) {names : List Prt.Id} {P : List (Str × Str)} {dflt : Fwd}
    (hS : Setting names P dflt) {ks ks' : List Nat} (hk : ks.length = 4) (hk' : ks'.length = 4) {addr n n' : Nat} {text : Str} {o : OntoSt}
    (e : funcRead ontoHandler (create ks dflt) addr text (OntoSt.new ks dflt, n) = ((o, n'), .ok)) (hP : Portable E.u names P o) (size m : Nat) :
    ∃ (d : Loose) (b : Str) (ops : List FSess.Op) (s : FSess.St) (d' : Doc), d.Ok ∧ Hears (initial dflt) text d ∧
      passDoc E.u size ks dflt addr n text = (some b, .ok) ∧ prtSift keep E ks' dflt m b = (ops, .done) ∧
      FSess.St.init.run ops = some s ∧ (∃ w : FSess.Mem, s.close = some w ∧ ∀ a, w a = none) ∧ Says.Says lax (initial dflt) s.out d' ∧
      d'.id = d.id ∧ d'.imports = d.doc.imports ∧ d'.annots = d.doc.annots ∧ d'.axioms.Perm (d.axioms.filter fun a => keep a.toObj) ∧
      (∀ e ∈ d'.prefixes, e ∈ P) ∧
      ∀ I : Interp, (∀ a ∈ d'.axioms, sat I a.ax) ↔ ∀ a ∈ d.axioms, keep a.toObj = true → sat I a.ax := by
  have hr : PrefixSpec.Reaches False (create ks dflt) (initial dflt) := .create ks dflt hk hS.distinct
  obtain ⟨items, acc, hall⟩ := C62_accepting (create ks dflt) addr text
  have e1 := hall ontoHandler (OntoSt.new ks dflt, n) ontoHandler_accepts
  rw [e] at e1
  have hacc : acc = true := by
    cases acc with
    | true => rfl
    | false => cases (_root_.Prod.mk.inj e1).2
  subst hacc
  obtain ⟨d, s0, h1, h2, h3, hs, -, c1, c2, c3, hiri, hver, -, -⟩ := read_given hk hS.distinct (s := ⟨[], [], []⟩) (o := OntoSt.new ks dflt)
    ⟨[], trivial, rfl, rfl⟩ hr nofun e
  have c1 : s0.axioms.map Ref.obj = d.axioms.map Axiom.toObj := c1
  have c2 : s0.annots.map Ref.obj = d.doc.annots.map Annot.toObj := c2
  have c3 : s0.imports.map Ref.obj = d.doc.imports.map fun i => .prim (.iri i) := c3
  have et := hall (taking ontoHandler) ((OntoSt.new ks dflt, n), []) (fun x i => ontoHandler_accepts _ _)
  have e0 : items = d.items := by
    rw [et, Examples.give_taking, List.nil_append] at h3
    exact (_root_.Prod.mk.inj h3).2
  have e1 : (o, n') = give ontoHandler (OntoSt.new ks dflt, n) items := (_root_.Prod.mk.inj e1).1
  subst e0
  have es := hall (pass E.u size) ⟨OntoSt.new ks dflt, n, none⟩ (pass_accepts E.u size)
  have hsplit : d.items = (d.prefixes.map (fun e => Item.prefixDecl e.1 e.2) ++ (Says.idItems d.id ++ d.header.map partItem)) ++
      (d.axioms.map Axiom.toObj).map Item.ax := by
    unfold Loose.items
    simp [List.map_map]
  generalize hl0 : (d.prefixes.map (fun e => Item.prefixDecl e.1 e.2) ++ (Says.idItems d.id ++ d.header.map partItem)) = l0 at hsplit
  have hnot : ∀ i ∈ l0, ∀ a, i ≠ .ax a := by
    rw [← hl0]
    intro i hi a ea
    subst ea
    rcases List.mem_append.1 hi with hi | hi
    · obtain ⟨x, _, k⟩ := List.mem_map.1 hi; cases k
    · rcases List.mem_append.1 hi with hi | hi
      · revert hi; rcases d.id with _ | ⟨i, _ | v⟩ <;> simp [Says.idItems]
      · obtain ⟨x, _, k⟩ := List.mem_map.1 hi; cases x <;> cases k
  rw [hsplit, give_append] at es e1
  rw [pass_head E.u size l0 _ hnot] at es
  have hbt := fun t => head_byType t l0 (OntoSt.new ks dflt) n hnot
  generalize hH : give ontoHandler (OntoSt.new ks dflt, n) l0 = H at es e1 hbt
  obtain ⟨H, hn⟩ := H
  rw [give_axioms] at e1
  have e1 := (_root_.Prod.mk.inj e1).1
  dsimp only at es hbt
  generalize hxs : number hn (d.axioms.map Axiom.toObj) = xs at e1
  have hobj : xs.map Ref.obj = d.axioms.map Axiom.toObj := by rw [← hxs, number_obj]
  have hH : Prt.headerOf H = Prt.headerOf o := by
    unfold Prt.headerOf
    rw [e1]
    dsimp only
    rw [(addAxioms_head _ _).1, (addAxioms_head _ _).2]
  have hby : ∀ t, ((o.onto.byType t).getD []).map Ref.obj = (xs.map Ref.obj).filter fun x => axType x = t := by
    intro t
    have : o.onto.byType t = (xs.foldl Onto.addAxiom H.onto).byType t := by rw [e1]
    rw [this, foldAxiom_byType, hbt t, ← filter_obj]
    rfl
  -- ProtocOWL
  have hi := reaches_inv hs
  have hpd := prtDocOk hS hP
  have hok0 := Prt.headerOf_ok hs hpd
  have hok : PrtStreamOk E.u names (Prt.headerOf o) xs := by
    refine ⟨hok0.iri, hok0.version, hok0.imports, hok0.annots, ?_, hok0.split, hok0.short, hok0.prefixes, hok0.few, hok0.few_imports,
      hok0.few_annots⟩
    intro x hx
    have : x.obj ∈ s0.axioms.map Ref.obj := by rw [c1, ← hobj]; exact List.mem_map_of_mem hx
    obtain ⟨r, hr, er⟩ := List.mem_map.1 this
    have := hok0.axioms r (by rw [collect_eq]; exact (axiomsOf_perm hi).mem_iff.2 hr)
    rwa [er] at this
  obtain ⟨b, ps, X, w1, ⟨g1, g2, g3⟩, w3, w4⟩ := Prt.streamed hu hok size
  have hpass : passDoc E.u size ks dflt addr n text = (some b, .ok) := by
    unfold passDoc
    rw [es]
    dsimp only
    rw [pass_axioms, if_pos rfl]
    dsimp only
    rw [hxs]
    have : (Pass.begin E.u size ⟨H, hn, none⟩) = Prt.writeHeader E.u true size (Prt.headerOf o) := by rw [← hH]; rfl
    rw [this, ← w1]
    unfold Prt.writeStream
    cases Prt.writeHeader E.u true size (Prt.headerOf o) <;> rfl
  -- functional syntax
  have hv : o.version ≠ none → o.iri ≠ none := by
    intro h
    obtain ⟨v, hv⟩ := Option.ne_none_iff_exists'.1 h
    exact (hP.version v hv).1
  have himp : (o.onto.imports.getD []).map Ref.obj = ((o.onto.imports.getD []).map Prt.importIri).map fun i => .prim (.iri i) := by
    rw [List.map_map]
    refine List.map_congr_left fun x hx => ?_
    obtain ⟨i, e, -⟩ := hP.imports x hx
    simp [Prt.importIri, e]
  have hX : ∀ t, (X.map Ref.obj).filter (fun x => axType x = t) = ((o.onto.byType t).getD []).map Ref.obj := by
    intro t
    rw [← filter_obj, w3.2 t, filter_obj, hby]
  have hp : (X.map Ref.obj).Perm (s0.axioms.map Ref.obj) := by
    rw [c1, ← hobj]
    exact w3.1.map _
  obtain ⟨o1, n1, e2, r1, r2, r3, r4, r5, r6, s1, r7, r8, r9⟩ := Prt.load hs hv himp rfl hX hp ps (create ks' dflt) m
  have hsame : Same o o1 := ⟨r2, r3, by rw [r4, hi.imports], by rw [r5, hi.annot], r6⟩
  have hP1 : Portable E.u names P o1 := by
    refine portable_same hP hsame ⟨s1, r7, r9⟩ ?_
    rw [r1]
    obtain ⟨a, ha⟩ := hP.calm
    have g1 : ps.Sublist (o.pm.fwd.map fun e => (e.1.txt, e.2)) := g1
    refine pm_read hS hk' ?_ ?_ m
    · unfold Distinct Prt.asFwd
      rw [List.pairwise_map]
      refine List.Pairwise.sublist g1 ?_
      rw [List.pairwise_map]
      exact (inv_reaches ha).distinct
    · intro e he
      obtain ⟨p, hp, rfl⟩ := List.mem_map.1 he
      obtain ⟨e', he', rfl⟩ := List.mem_map.1 (g1.subset hp)
      exact (fwd_mem hP he' : (e'.1.txt, e'.2) ∈ P)
  generalize hl1 : (ps.map fun p => Item.prefixDecl p.1 p.2) ++ Prt.idItems o.iri o.version ++
    ((o.onto.imports.getD []).map Prt.importIri).map Item.import ++ ((o.onto.annot.getD []).map Ref.obj).map Item.annot = l1 at e2
  have hnot1 : ∀ i ∈ l1, ∀ a, i ≠ .ax a := by
    rw [← hl1]
    intro i hi a ea
    subst ea
    rcases List.mem_append.1 hi with hi | hi
    · rcases List.mem_append.1 hi with hi | hi
      · rcases List.mem_append.1 hi with hi | hi
        · obtain ⟨x, _, k⟩ := List.mem_map.1 hi; cases k
        · revert hi
          unfold Prt.idItems
          cases o.iri <;> cases o.version <;> simp
      · obtain ⟨x, _, k⟩ := List.mem_map.1 hi; cases k
    · obtain ⟨x, _, k⟩ := List.mem_map.1 hi; cases k
  have i1 := reaches_inv r7
  obtain ⟨s2, d', z1, z2, z3, j1, j2, z4, z5, z6, z7⟩ := sift_items keep (ks := ks') hS.distinct (n := m) hnot1 e2.symm (docOk hS hP1) r7
    (fun x hx => (r8.mem_iff.2 (hp.mem_iff.1 hx))) (compatible hS hP1)
  have hread := w4 (fun x i => sift keep x i.2) (sift_accepts keep) ⟨OntoSt.new ks' dflt, m, false, []⟩
  have hitems : Prt.headerItems ps (Prt.headerOf o) ++ X.map (fun x => Item.ax x.obj) = l1 ++ (X.map Ref.obj).map Item.ax := by
    rw [← hl1]
    simp [Prt.headerItems, Prt.headerOf, List.map_map, Function.comp_def]
  have hax : d'.axioms.Perm (d.axioms.filter fun a => keep a.toObj) := by
    refine perm_of_map Axiom.inj ?_
    rw [z6]
    have : (d.axioms.filter fun a => keep a.toObj).map Axiom.toObj = (d.axioms.map Axiom.toObj).filter keep := by
      rw [List.filter_map]; rfl
    rw [this, ← c1]
    exact hp.filter keep
  refine ⟨d, b, _, s2, d', h1, h2, hpass, ?_, z1, z2, z3, ?_, ?_, ?_, hax, ?_, ?_⟩
  · unfold prtSift
    rw [hread, hitems]
  · have i1 : d'.id.map _root_.Prod.fst = d.id.map _root_.Prod.fst := j1.trans (r2.trans (hiri.trans (Option.or_none ..)))
    have i2 : d'.id.bind _root_.Prod.snd = d.id.bind _root_.Prod.snd := j2.trans (r3.trans (hver.trans (Option.or_none ..)))
    revert i1 i2
    rcases d'.id with _ | ⟨i, v⟩ <;> rcases d.id with _ | ⟨j, u⟩ <;> simp
    exact fun a b => ⟨a, b⟩
  · refine map_inj (f := fun i => Obj.prim (.iri i)) (fun k => by cases k; rfl) (z4.trans ?_)
    rw [← i1.imports, r4, c3]
  · refine map_inj Annot.inj (z5.trans ?_)
    rw [← i1.annot, r5, c2]
  · intro x hx
    exact hP1.pm _ _ ((z7 x.1 x.2).1 hx).1
  · intro I
    exact ⟨fun k a ha hka => k a (hax.mem_iff.2 (List.mem_filter.2 ⟨ha, hka⟩)),
      fun k a ha => k a (List.mem_filter.1 (hax.mem_iff.1 ha)).1 (List.mem_filter.1 (hax.mem_iff.1 ha)).2⟩

/-! ## Samples -/

/-- The conditions of `C124_partial` hold for the text of a document with prefixes, IRI, version, import, annotation and axiom. -/
example : lebEnv.u.Lawful ∧ Setting convNames convPfx convDflt ∧ ∃ (text : Str) (o : OntoSt) (n' : Nat), writeDoc convOnto = some text ∧
    funcRead ontoHandler (create [0, 1, 2, 3] convDflt) 20 text (OntoSt.new [0, 1, 2, 3] convDflt, 100) = ((o, n'), .ok) ∧
    Portable lebEnv.u convNames convPfx o ∧ Same convOnto o := by
  obtain ⟨o, ⟨txt, n', h1, h2⟩, h3, h4⟩ := step_gives (E := lebEnv) Prt.leb_lawful convSetting convOnto_portable
    (.func [0, 1, 2, 3] [0, 1, 2, 3] 20 100) ⟨rfl, rfl⟩
  exact ⟨Prt.leb_lawful, convSetting, txt, o, n', h1, h2, h4, h3⟩

/-- A text that both programs were applied to: whether it was accepted, and the text at the end. -/
def passed (size : Nat) (text : Str) : Outcome × Option Str :=
  let r := passDoc Prt.leb size [0, 1, 2, 3] [] 20 100 text
  (r.2, r.1.bind fun b => (FSess.St.init.run (prtSift (fun _ => true) lebEnv [0, 1, 2, 3] [] 100 b).1).map FSess.St.out)

/-- With a small index the axioms keep their order; with a large one they are sorted by type. -/
example : passed 0 (ascii "Prefix(e:=<b#>) Ontology(<c> SubClassOf(e:x e:y) Declaration(Class(e:x)))") =
      (.ok, some (ascii "Prefix(e:=<b#>)\nOntology(<c>\nSubClassOf(e:x e:y)\nDeclaration(Class(e:x))\n)\n")) ∧
    passed 100 (ascii "Prefix(e:=<b#>) Ontology(<c> SubClassOf(e:x e:y) Declaration(Class(e:x)))") =
      (.ok, some (ascii "Prefix(e:=<b#>)\nOntology(<c>\nDeclaration(Class(e:x))\nSubClassOf(e:x e:y)\n)\n")) := by
  refine ⟨?_, ?_⟩ <;> decide +kernel

/-- C124 is false as stated. Of texts that are accepted, one says another number at the end, and writing another one is undefined. And if a text is not accepted,
the part of it before the error has been converted. -/
theorem C124_fails :
    passed 100 negText = (.ok, some (ascii "Ontology(\nDataPropertyAssertion(<http://x.org/p> <http://x.org/a> \"0.5\"^^xsd:decimal)\n)\n")) ∧
    passed 100 inverseDoc = (.ok, none) ∧
    passed 100 (ascii "Ontology(Declaration(Class(<http://a>)) Import())") = (.rejected, some (ascii "Ontology(\nDeclaration(Class(<http://a>))\n)\n")) := by
  refine ⟨?_, ?_, ?_⟩ <;> decide +kernel

end Cowl
