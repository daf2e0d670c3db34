import Verif.JoinProps
import Verif.ExamplesDocProps
/-!
# Properties: a document can be sifted as it goes by

A program that has no ontology: its handler collects the header of the document that is read, writes it as soon as there is an axiom, passes on
the axioms that it wants to keep, and writes the footer in the end.
-/
namespace Cowl
open Says Func FuncSpec FuncTell Ast Change Prefix PrefixSpec Sem Rewrite FSess

/-! ## What is streamed says what was given -/

/-- The document has the contents of the header and the axioms in their order. -/
structure SaysStream (m : PMap) (h : FSess.Header) (xs : List Ref) (d : Doc) : Prop where
  once : d.prefixes.Pairwise fun e f => e.1 ≠ f.1
  prefixes : ∀ p n, (p, n) ∈ d.prefixes ↔ m.getNs p = some n ∧ ¬ Standard p
  iri : d.id.map _root_.Prod.fst = h.iri
  version : d.id.bind _root_.Prod.snd = h.version
  imports : d.imports.map (fun i => Obj.prim (.iri i)) = h.imports.map Ref.obj
  annots : d.annots.map Annot.toObj = h.annots.map Ref.obj
  axioms : d.axioms.map Axiom.toObj = xs.map Ref.obj

theorem streamed_says {m : PMap} {h : FSess.Header} {xs : List Ref} (ok : StreamOk (some m) h xs) {dflt : Fwd} (hd : Distinct dflt)
    (hc : Compatible m dflt) {txt : Str} {items : List Item} (ht : StreamTells (some m) h xs items)
    (hr : ∀ {σ : Type} (k : Callback σ Item), Accepts k → ∀ s, funcRead k (create [1, 2, 3, 4] dflt) 5 txt s = (give k s items, .ok)) :
    ∃ d : Doc, Says.Says lax (initial dflt) txt d ∧ SaysStream m h xs d := by
  obtain ⟨ps, is, k1, k2, k3, k4⟩ := ht
  obtain ⟨d, g1, g2, g3⟩ := read_heard (h := taking fun (s : Unit) _ => (s, .ok)) (ks := [1, 2, 3, 4]) rfl hd (hr _ (fun _ _ => rfl) ((), []))
  have e0 : items = d.items := by
    have := congrArg _root_.Prod.snd g3
    rwa [Examples.give_taking, Examples.give_taking] at this
  obtain ⟨a, ha⟩ := ok.history m rfl
  have hp := inv_reaches ha
  obtain ⟨e1, e2, e3, e4⟩ := parts (ps := ps.map fun e => (e.1.txt, e.2)) (l := items) (i := h.iri) (v := h.version) (is := is)
    (as := h.annots.map Ref.obj) (xs := xs.map Ref.obj) (by rw [k4, List.map_map (l := ps)]; rfl)
  obtain ⟨f1, f2, f3, f4⟩ := loose_parts d
  rw [e0] at e1 e2 e3 e4
  rw [f1] at e1; rw [f2] at e2; rw [f3] at e3; rw [f4] at e4
  obtain ⟨bs, b1, b2⟩ := header_sorted e3
  have k1 : ps.Sublist m.fwd := k1
  have k2 : ∀ e ∈ m.fwd, e ∈ ps ↔ ¬ Standard e.1.txt := k2
  have hps : Distinct ps := hp.distinct.sublist k1
  have once : d.prefixes.Pairwise fun e f => e.1 ≠ f.1 := by
    rw [e1]; exact List.pairwise_map.2 hps
  have mem : ∀ p n, (p, n) ∈ d.prefixes ↔ m.getNs p = some n ∧ ¬ Standard p := by
    intro p n
    rw [e1, getNs_meaning]
    constructor
    · intro h
      obtain ⟨e, he, e'⟩ := List.mem_map.1 h
      cases e'
      exact ⟨meaning_of_mem hp.distinct (k1.subset he), (k2 e (k1.subset he)).1 he⟩
    · rintro ⟨h, hn⟩
      obtain ⟨k, hk, rfl⟩ := meaning_some h
      exact List.mem_map.2 ⟨(k, n), (k2 _ hk).2 hn, rfl⟩
  have agrees : d.doc.Agrees (initial dflt) := by
    intro e he n hn
    obtain ⟨m1, m2⟩ := (mem e.1 e.2).1 he
    unfold initial at hn
    rw [if_neg (show ¬ (_ ∨ _ ∨ _ ∨ _) from m2)] at hn
    rcases hc _ _ _ m1 hn with h | h
    · exact h.symm
    · exact absurd h m2
  obtain ⟨s1, s2⟩ := C113_document ⟨is, bs, b1⟩ once agrees g2
  have p1 : d.doc.imports = is := by
    show d.header.filterMap _ = _
    rw [b1, List.filterMap_append, filterMap_map_some (g := Sum.inl) (k := fun x => x) (fun _ => rfl),
      filterMap_map_none (g := Sum.inr) (fun _ => rfl)]
    simp
  have p2 : d.doc.annots = bs := by
    show d.header.filterMap _ = _
    rw [b1, List.filterMap_append, filterMap_map_some (g := Sum.inr) (k := fun x => x) (fun _ => rfl),
      filterMap_map_none (g := Sum.inl) (fun _ => rfl)]
    simp
  have hid : d.id.map _root_.Prod.fst = h.iri ∧ d.id.bind _root_.Prod.snd = h.version := by
    have hv := ok.version
    revert e2 hv
    unfold Says.idItems
    match d.id with
    | none => cases h.iri <;> cases h.version <;> simp
    | some (i, none) => cases h.iri <;> cases h.version <;> simp
    | some (i, some v) => cases h.iri <;> cases h.version <;> simp <;> intro a b <;> simp_all
  exact ⟨d.doc, s1, once, mem, hid.1, hid.2, by rw [p1, ← k3], by rw [p2, b2], e4⟩

/-- C123, streams, under the conditions of C58: whatever the writer did before, what it writes for a header with a prefix map, axioms and the footer
says a document with the contents of the header, its prefixes but for the standard ones, and the axioms, in their order. -/
theorem C123_stream {hist mid : List Op} {h : FSess.Header} {a : Nat} (ha : h.pm = some a)
    (hc : Calm FSess.St.init (fun _ => 0) (hist ++ .header h :: (mid ++ [.footer]))) (hw : ∀ op ∈ mid, Within h.pm op) :
    ∃ s1 s2 m txt, FSess.St.init.run hist = some s1 ∧ s1.mem.contents h.pm = some (some m) ∧
      FSess.St.init.run (hist ++ .header h :: (mid ++ [.footer])) = some s2 ∧ s2.out = s1.out ++ txt ∧
      ∀ (_ : StreamOk (some m) h (axioms mid)) {dflt : Fwd} (_ : Distinct dflt) (_ : Compatible m dflt),
        ∃ d : Doc, Says.Says lax (initial dflt) txt d ∧ SaysStream m h (axioms mid) d := by
  obtain ⟨s1, s2, m, txt, h1, h2, h3, h4, h5⟩ := C58_partial hc hw
  cases m with
  | none =>
    rw [ha] at h2
    simp only [Mem.contents] at h2
    cases e : s1.mem a with
    | none => rw [e] at h2; cases h2
    | some x => rw [e] at h2; cases h2
  | some m =>
    refine ⟨s1, s2, m, txt, h1, h2, h3, h4, fun ok dflt hd hcm => ?_⟩
    obtain ⟨items, t1, t2⟩ := h5 ok (ks := [1, 2, 3, 4]) rfl hd (fun w e => by cases e; exact hcm) 5
    exact streamed_says ok hd hcm t1 t2

/-! ## The program -/

/-- What the program remembers: the header, in an ontology without axioms; how many items it was told; whether the header is written; and
its calls of the writer so far. -/
structure Sift where
  head : OntoSt
  n : Nat
  begun : Bool
  ops : List Op

/-- The header that was collected; the map is at address 1. -/
def Sift.header (o : OntoSt) : FSess.Header := ⟨some 1, o.iri, o.version, o.onto.imports.getD [], o.onto.annot.getD []⟩

/-- The header is written, unless it already is, and the program gives up its reference to the map. -/
def Sift.begin (x : Sift) : Sift :=
  if x.begun then x else { x with begun := true, ops := x.ops ++ [.new 1 x.head.pm, .header (Sift.header x.head), .drop 1] }

/-- The handler: axioms that are wanted are passed on, the rest is collected as by the handler of an ontology
(`cowl_change_handler.c:61-70`). -/
def sift (keep : Obj → Bool) : Callback Sift Item
  | x, .ax a => ({ x.begin with n := x.n + 1, ops := x.begin.ops ++ if keep a then [.ax ⟨x.n, a⟩] else [] }, .ok)
  | x, i => ({ x with head := (ontoHandler (x.head, x.n) i).1.1, n := x.n + 1 }, .ok)

/-- The program: what it calls, and how reading ended. -/
def siftDoc (keep : Obj → Bool) (ks : List Nat) (dflt : Fwd) (addr n : Nat) (text : Str) : List Op × Outcome :=
  let r := funcRead (sift keep) (create ks dflt) addr text ⟨OntoSt.new ks dflt, n, false, []⟩
  (r.1.begin.ops ++ [.footer], r.2)

theorem sift_accepts (keep : Obj → Bool) : Accepts (sift keep) := fun x i => by cases i <;> rfl

/-- Items other than axioms are collected. -/
theorem sift_head (keep : Obj → Bool) : ∀ (l : List Item) (x : Sift), (∀ i ∈ l, ∀ a, i ≠ .ax a) →
    give (sift keep) x l = { x with head := (give ontoHandler (x.head, x.n) l).1, n := (give ontoHandler (x.head, x.n) l).2 }
  | [], _, _ => rfl
  | i :: l, x, h => by
    have hs : (sift keep x i).1 = { x with head := (ontoHandler (x.head, x.n) i).1.1, n := (ontoHandler (x.head, x.n) i).1.2 } := by
      cases i with
      | ax a => exact absurd rfl (h _ (.head _) a)
      | _ => rfl
    show give (sift keep) (sift keep x i).1 l = _
    rw [sift_head keep l _ fun j hj => h j (.tail _ hj), hs]
    rfl

theorem sift_axioms (keep : Obj → Bool) : ∀ (l : List Obj) (x : Sift), x.begun = true →
    ∃ xs : List Ref, xs.map Ref.obj = l.filter keep ∧
      (give (sift keep) x (l.map Item.ax)).begin.ops = x.ops ++ xs.map Op.ax
  | [], x, hx => ⟨[], rfl, by show (Sift.begin x).ops = _; rw [Sift.begin, if_pos hx]; simp⟩
  | a :: l, x, hx => by
    have hb : x.begin = x := if_pos hx
    have hs : (sift keep x (.ax a)).1 = { x with n := x.n + 1, ops := x.ops ++ if keep a then [.ax ⟨x.n, a⟩] else [] } := by
      show ({ x.begin with n := x.n + 1, ops := x.begin.ops ++ if keep a then [.ax ⟨x.n, a⟩] else [] } : Sift) = _
      rw [hb]
    obtain ⟨xs, h1, h2⟩ := sift_axioms keep l (sift keep x (.ax a)).1 (by rw [hs]; exact hx)
    have h2 : (give (sift keep) x ((a :: l).map Item.ax)).begin.ops = _ := h2
    rw [h2, hs]
    by_cases hk : keep a = true
    · exact ⟨⟨x.n, a⟩ :: xs, by simp [hk, h1], by simp [hk]⟩
    · exact ⟨xs, by simp [hk, h1], by simp [hk]⟩

/-- All that is called. -/
theorem sift_all (keep : Obj → Bool) (l : List Obj) (x : Sift) (hb : x.begun = false) (ho : x.ops = []) :
    ∃ xs : List Ref, xs.map Ref.obj = l.filter keep ∧ (give (sift keep) x (l.map Item.ax)).begin.ops =
      [.new 1 x.head.pm, .header (Sift.header x.head), .drop 1] ++ xs.map Op.ax := by
  have e : x.begin.begun = true := by rw [Sift.begin]; simp [hb]
  have eo : x.begin.ops = [.new 1 x.head.pm, .header (Sift.header x.head), .drop 1] := by rw [Sift.begin]; simp [hb, ho]
  cases l with
  | nil => exact ⟨[], rfl, by show x.begin.ops = _; rw [eo]; rfl⟩
  | cons a l =>
    obtain ⟨xs, h1, h2⟩ := sift_axioms keep (a :: l) x.begin e
    refine ⟨xs, h1, ?_⟩
    rw [← eo, ← h2]
    have : (sift keep x (.ax a)).1 = (sift keep { x.begin with n := x.n } (.ax a)).1 := by
      show ({ x.begin with n := x.n + 1, ops := x.begin.ops ++ if keep a then [.ax ⟨x.n, a⟩] else [] } : Sift) =
        ({ ({ x.begin with n := x.n } : Sift).begin with n := x.n + 1, ops := ({ x.begin with n := x.n } : Sift).begin.ops ++ if keep a then [.ax ⟨x.n, a⟩] else [] } : Sift)
      rw [show ({ x.begin with n := x.n } : Sift).begin = { x.begin with n := x.n } from if_pos e]
    have hn : x.begin.n = x.n := by rw [Sift.begin, hb]; rfl
    have hx : ({ x.begin with n := x.n } : Sift) = x.begin := by rw [← hn]
    rw [hx] at this
    show (give (sift keep) (sift keep x (.ax a)).1 (l.map Item.ax)).begin.ops = (give (sift keep) (sift keep x.begin (.ax a)).1 (l.map Item.ax)).begin.ops
    rw [this]

theorem addAxioms_head : ∀ (xs : List Ref) (o : Onto), (xs.foldl Onto.addAxiom o).imports = o.imports ∧ (xs.foldl Onto.addAxiom o).annot = o.annot
  | [], _ => ⟨rfl, rfl⟩
  | x :: xs, o => addAxioms_head xs (o.addAxiom x)

/-- The program on any list of changes in which the axioms come last, if what they make of a new ontology can be written. -/
theorem sift_items (keep : Obj → Bool) {ks : List Nat} {dflt : Fwd} (hd : Distinct dflt) {n n' : Nat} {l0 : List Item} {X : List Obj}
    (hnot : ∀ i ∈ l0, ∀ a, i ≠ .ax a) {o : OntoSt} {s : OntoSpec.Abs}
    (e1 : (o, n') = give ontoHandler (OntoSt.new ks dflt, n) (l0 ++ X.map Item.ax)) (ho : DocOk o) (hs : OntoSpec.Reaches o.onto s)
    (hX : ∀ x ∈ X, x ∈ s.axioms.map Ref.obj) (hc : Compatible o.pm dflt) :
    ∃ (s2 : FSess.St) (d' : Doc),
      FSess.St.init.run ((give (sift keep) ⟨OntoSt.new ks dflt, n, false, []⟩ (l0 ++ X.map Item.ax)).begin.ops ++ [.footer]) = some s2 ∧
      (∃ w : Mem, s2.close = some w ∧ ∀ a, w a = none) ∧ Says.Says lax (initial dflt) s2.out d' ∧
      d'.id.map _root_.Prod.fst = o.iri ∧ d'.id.bind _root_.Prod.snd = o.version ∧
      d'.imports.map (fun i => Obj.prim (.iri i)) = s.imports.map Ref.obj ∧ d'.annots.map Annot.toObj = s.annots.map Ref.obj ∧
      d'.axioms.map Axiom.toObj = X.filter keep ∧ ∀ p n, (p, n) ∈ d'.prefixes ↔ o.pm.getNs p = some n ∧ ¬ Standard p := by
  rw [give_append] at e1
  rw [give_append, sift_head keep l0 _ hnot]
  generalize hH : give ontoHandler (OntoSt.new ks dflt, n) l0 = H at e1 ⊢
  obtain ⟨H, hn⟩ := H
  rw [give_axioms] at e1
  have e1 := (_root_.Prod.mk.inj e1).1
  obtain ⟨xs, x1, x2⟩ := sift_all keep X ⟨H, hn, false, []⟩ rfl rfl
  dsimp only at x2 ⊢
  rw [x2]
  have hi := reaches_inv hs
  have p1 : H.pm = o.pm := by rw [e1]
  have p2 : H.iri = o.iri := by rw [e1]
  have p3 : H.version = o.version := by rw [e1]
  have p4 : H.onto.imports = o.onto.imports := by rw [e1]; exact (addAxioms_head _ _).1.symm
  have p5 : H.onto.annot = o.onto.annot := by rw [e1]; exact (addAxioms_head _ _).2.symm
  have hx : ∀ x ∈ xs, ∃ a : Axiom, x.obj = a.toObj ∧ a.Meets (textReq (lookup o.pm)) := by
    intro x hx
    have : x.obj ∈ X.filter keep := by rw [← x1]; exact List.mem_map_of_mem hx
    obtain ⟨r, hr, er⟩ := List.mem_map.1 (hX _ (List.mem_filter.1 this).1)
    obtain ⟨a, ha, hm⟩ := ho.axioms r ((axiomsOf_perm hi).mem_iff.2 hr)
    exact ⟨a, er.symm.trans ha, hm⟩
  have ok : StreamOk (some H.pm) (Sift.header H) xs := by
    unfold Sift.header
    rw [p1, p2, p3, p4, p5]
    refine ⟨?_, ?_, ?_, ?_, ho.iri, ho.version, ho.imports, ho.annots, hx⟩
    · intro v ev; cases ev; exact ho.history
    · intro v ev; cases ev; exact ho.sound
    · intro v ev; cases ev; exact ho.plain
    · intro v ev; cases ev; exact ho.chars
  have hcalm : Calm FSess.St.init (fun _ => 0) ([.new 1 H.pm] ++ .header (Sift.header H) :: ((.drop 1 :: xs.map Op.ax) ++ [.footer])) := by
    refine ⟨rfl, fun s1 _ => ⟨⟨?_, ?_⟩, fun s2 _ => ⟨?_, fun s3 _ => calm_axioms xs s3 _ ?_⟩⟩⟩
    · show 0 < (if 1 = 1 then 1 else 0); decide
    · intro x hx
      have hx : x ∈ H.onto.annot.getD [] := hx
      rw [p5] at hx
      obtain ⟨a, ha, hm⟩ := ho.annots x hx
      rw [ha]; exact def_annot a hm
    · show 0 < (if 1 = 1 then 1 else 0); decide
    · intro x hxx
      obtain ⟨a, ha, hm⟩ := hx x hxx
      rw [ha]; exact def_axiom hm
  have hwithin : ∀ op ∈ Op.drop 1 :: xs.map Op.ax, Within (Sift.header H).pm op := by
    intro op hop
    rcases List.mem_cons.1 hop with rfl | hop
    · trivial
    · obtain ⟨x, -, rfl⟩ := List.mem_map.1 hop; trivial
  obtain ⟨s1, s2, m, txt, r1, r2, r3, r4, r5⟩ := C123_stream (hist := [.new 1 H.pm]) (h := Sift.header H) rfl hcalm hwithin
  obtain ⟨s3, w, q1, -, q3, q4⟩ := C58_memory hcalm
  cases r3.symm.trans q1
  cases r1
  cases r2
  have hout : s2.out = txt := r4
  have haxs : FSess.axioms (Op.drop 1 :: xs.map Op.ax) = xs := axioms_map xs
  rw [haxs] at r5
  obtain ⟨d', w1, w2⟩ := r5 ok hd (by rw [p1]; exact hc)
  refine ⟨s2, d', by rw [← r3]; simp, ⟨w, q3, fun b => ?_⟩, by rw [hout]; exact w1, w2.iri.trans p2, w2.version.trans p3, ?_, ?_, ?_, ?_⟩
  · have hz := q4 b
    have hnn : Own.afterAll (fun _ => 0) ([.new 1 H.pm] ++ .header (Sift.header H) :: ((.drop 1 :: xs.map Op.ax) ++ [.footer])) b = 0 := by
      show Own.afterAll _ (xs.map Op.ax ++ [.footer]) b = 0
      rw [after_axioms]
      by_cases eb : b = 1
      · subst eb; rfl
      · show (if b = 1 then _ else if b = 1 then _ else _) = 0
        rw [if_neg eb, if_neg eb]
    cases ew : w b with
    | none => rfl
    | some y =>
      obtain ⟨z1, z2⟩ := hz
      have z2 := z2 y ew
      dsimp only at z1
      rw [ew, hnn] at z1
      simp at z1
      omega
  · rw [w2.imports]
    show (H.onto.imports.getD []).map Ref.obj = _
    rw [p4, hi.imports]
  · rw [w2.annots]
    show (H.onto.annot.getD []).map Ref.obj = _
    rw [p5, hi.annot]
  · rw [w2.axioms, x1]
  · intro p n
    rw [w2.prefixes, p1]

/-- C123, but for what C93 excepts: if a text is accepted, and the ontology that would be read from it can be written, then the program, which has no
ontology, succeeds. It does nothing undefined and leaves no memory behind. What it writes says the IRI, version, imports and annotations that the first
text says, and exactly the axioms that are wanted, in the order of the first text. -/
theorem C123_partial (keep : Obj → Bool) {ks : List Nat} (hk : ks.length = 4) {dflt : Fwd} (hd : Distinct dflt) (hg : GoodDefaults dflt)
    {addr n n' : Nat} {text : Str} {o : OntoSt}
    (e : funcRead ontoHandler (create ks dflt) addr text (OntoSt.new ks dflt, n) = ((o, n'), .ok)) (hw : Rewritable o)
    (hc : Compatible o.pm dflt) :
    ∃ (d : Loose) (ops : List Op) (s : FSess.St) (d' : Doc), d.Ok ∧ Hears (initial dflt) text d ∧
      siftDoc keep ks dflt addr n text = (ops, .ok) ∧ FSess.St.init.run ops = some s ∧ (∃ w : Mem, s.close = some w ∧ ∀ a, w a = none) ∧
      Says.Says lax (initial dflt) s.out d' ∧
      d'.id = d.id ∧ d'.imports = d.doc.imports ∧ d'.annots = d.doc.annots ∧ d'.axioms = d.axioms.filter (fun a => keep a.toObj) ∧
      ∀ p n, (p, n) ∈ d'.prefixes ↔ ¬ Standard p ∧ (lastNs d.prefixes p).or (initial dflt p) = some n := by
  have hr : PrefixSpec.Reaches False (create ks dflt) (initial dflt) := .create ks dflt hk hd
  obtain ⟨items, acc, hall⟩ := C62_accepting (create ks dflt) addr text
  have e1 := hall ontoHandler (OntoSt.new ks dflt, n) ontoHandler_accepts
  rw [e] at e1
  have hacc : acc = true := by
    cases acc with
    | true => rfl
    | false => cases (_root_.Prod.mk.inj e1).2
  subst hacc
  -- the document
  obtain ⟨d, s0, h1, h2, h3, hs, -, c1, c2, c3, hiri, hver, -, hp⟩ := read_given hk hd (s := ⟨[], [], []⟩) (o := OntoSt.new ks dflt)
    ⟨[], trivial, rfl, rfl⟩ hr nofun e
  have et := hall (taking ontoHandler) ((OntoSt.new ks dflt, n), []) (fun x i => ontoHandler_accepts _ _)
  have e0 : items = d.items := by
    rw [et, Examples.give_taking, List.nil_append] at h3
    exact (_root_.Prod.mk.inj h3).2
  have e1 : (o, n') = give ontoHandler (OntoSt.new ks dflt, n) items := (_root_.Prod.mk.inj e1).1
  subst e0
  -- what the program collects
  have es := hall (sift keep) ⟨OntoSt.new ks dflt, n, false, []⟩ (sift_accepts keep)
  have hsplit : d.items = (d.prefixes.map (fun e => Item.prefixDecl e.1 e.2) ++ (Says.idItems d.id ++ d.header.map partItem)) ++
      (d.axioms.map Axiom.toObj).map Item.ax := by
    unfold Loose.items
    simp [List.map_map]
  generalize hl0 : (d.prefixes.map (fun e => Item.prefixDecl e.1 e.2) ++ (Says.idItems d.id ++ d.header.map partItem)) = l0 at hsplit
  have hnot : ∀ i ∈ l0, ∀ a, i ≠ .ax a := by
    rw [← hl0]
    intro i hi a ea
    subst ea
    rcases List.mem_append.1 hi with hi | hi
    · obtain ⟨x, _, k⟩ := List.mem_map.1 hi; cases k
    · rcases List.mem_append.1 hi with hi | hi
      · revert hi; rcases d.id with _ | ⟨i, _ | v⟩ <;> simp [Says.idItems]
      · obtain ⟨x, _, k⟩ := List.mem_map.1 hi; cases x <;> cases k
  rw [hsplit] at es e1
  have hdoc := (doc_of_read hk hk hd hg addr n text).2.2
  rw [e] at hdoc
  have c1 : s0.axioms.map Ref.obj = d.axioms.map Axiom.toObj := c1
  have c2 : s0.annots.map Ref.obj = d.doc.annots.map Annot.toObj := c2
  have c3 : s0.imports.map Ref.obj = d.doc.imports.map fun i => .prim (.iri i) := c3
  obtain ⟨s2, d', r1, r2, r3, i1, i2, w1, w2, w3, w4⟩ := sift_items keep hd hnot e1 (hdoc hw) hs (fun x hx => by rw [c1]; exact hx) hc
  refine ⟨d, _, s2, d', h1, h2, ?_, r1, r2, r3, ?_, ?_, ?_, ?_, ?_⟩
  · unfold siftDoc
    rw [es]
    rfl
  · have i1 : d'.id.map _root_.Prod.fst = d.id.map _root_.Prod.fst := i1.trans (hiri.trans (Option.or_none ..))
    have i2 : d'.id.bind _root_.Prod.snd = d.id.bind _root_.Prod.snd := i2.trans (hver.trans (Option.or_none ..))
    revert i1 i2
    rcases d'.id with _ | ⟨i, v⟩ <;> rcases d.id with _ | ⟨j, u⟩ <;> simp
    exact fun a b => ⟨a, b⟩
  · exact map_inj (f := fun i => Obj.prim (.iri i)) (fun k => by cases k; rfl) (w1.trans c3)
  · exact map_inj Annot.inj (w2.trans c2)
  · refine map_inj Axiom.inj (w3.trans ?_)
    rw [List.filter_map]; rfl
  · intro p n
    rw [w4]
    refine and_comm.trans (and_congr_right fun hst => ?_)
    rw [hp p hst, ← C22_get_ns hr p]
    exact Iff.rfl

/-- C123, meaning, under the same conditions: what is written holds in an interpretation exactly if the wanted axioms of the first text do; so it holds wherever
the first text does, and if all axioms are wanted, exactly there. -/
theorem C123_means (keep : Obj → Bool) {ks : List Nat} (hk : ks.length = 4) {dflt : Fwd} (hd : Distinct dflt) (hg : GoodDefaults dflt)
    {addr n n' : Nat} {text : Str} {o : OntoSt}
    (e : funcRead ontoHandler (create ks dflt) addr text (OntoSt.new ks dflt, n) = ((o, n'), .ok)) (hw : Rewritable o)
    (hc : Compatible o.pm dflt) :
    ∃ (d : Loose) (s : FSess.St) (d' : Doc), Hears (initial dflt) text d ∧
      FSess.St.init.run (siftDoc keep ks dflt addr n text).1 = some s ∧ Says.Says lax (initial dflt) s.out d' ∧
      (∀ I : Interp, (∀ a ∈ d'.axioms, sat I a.ax) ↔ ∀ a ∈ d.axioms, keep a.toObj = true → sat I a.ax) := by
  obtain ⟨d, ops, s, d', -, h2, h3, h4, -, h5, -, -, -, h6, -⟩ := C123_partial keep hk hd hg e hw hc
  refine ⟨d, s, d', h2, by rw [h3]; exact h4, h5, fun I => ?_⟩
  rw [h6]
  exact ⟨fun k a ha hka => k a (List.mem_filter.2 ⟨ha, hka⟩), fun k a ha => k a (List.mem_filter.1 ha).1 (List.mem_filter.1 ha).2⟩

/-- The conditions of `C123_partial` hold for a text with prefix, IRI, version, import, annotation and axioms. -/
example : (∃ n', funcRead ontoHandler (create [0, 1, 2, 3] rewriteDflt) 20 rewriteText (OntoSt.new [0, 1, 2, 3] rewriteDflt, 100) =
      (((readNew rewriteDflt rewriteText).1, n'), .ok)) ∧ Distinct rewriteDflt ∧ GoodDefaults rewriteDflt ∧
    Rewritable (readNew rewriteDflt rewriteText).1 ∧ Compatible (readNew rewriteDflt rewriteText).1.pm rewriteDflt :=
  ⟨run_readNew rewriteText_read, rewriteDflt_distinct, rewriteDflt_good, rewriteText_ok, rewriteText_compatible⟩

/-- The text that the program writes, and how reading the first text ended. -/
def sifted (keep : Obj → Bool) (text : Str) : Option Str × Outcome :=
  let r := siftDoc keep [0, 1, 2, 3] [] 20 100 text
  ((FSess.St.init.run r.1).map FSess.St.out, r.2)

/-- Declarations are sifted out of a document. -/
example : sifted (fun x => x.otype != .aDecl)
      (ascii "Prefix(e:=<b#>) Ontology(<c> Declaration(Class(e:x)) SubClassOf(e:x e:y))") =
    (some (ascii "Prefix(e:=<b#>)\nOntology(<c>\nSubClassOf(e:x e:y)\n)\n"), .ok) := by decide +kernel

/-- C123 is false as stated. There is a document that is accepted, and passing on one of its axioms is undefined (C93). And if a document is not accepted, the header and the
axioms before the error have gone out already; with a footer they are a document. -/
theorem C123_fails :
    sifted (fun _ => true) inverseDoc = (none, .ok) ∧
    sifted (fun _ => true) (ascii "Ontology(Declaration(Class(<http://a>)) Import())") =
      (some (ascii "Ontology(\nDeclaration(Class(<http://a>))\n)\n"), .rejected) := by
  refine ⟨?_, ?_⟩ <;> decide +kernel

end Cowl
