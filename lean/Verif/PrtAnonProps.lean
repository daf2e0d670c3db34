import Verif.PrtAnonDocLemmas
import Verif.PrtHandlerProps
import Verif.PrtSessionProps
/-!
# C37: anonymous individuals that are left out of ProtocOWL documents
-/
namespace Cowl.Prt
open Func FuncSpec Ast Change Prefix

theorem rename_otype (r : Str → Str) (x : Obj) : (x.rename r).otype = x.otype := by
  cases x with
  | prim p => cases p <;> simp [rename_anon, rename_iri, rename_ent, Obj.otype, Prim.otype]
  | vec b xs => rw [rename_vec]; rfl
  | comp t b fs n => rw [rename_comp]; rfl
  | lit v t => rw [rename_lit]
  | str s => rw [Obj.rename]; all_goals nofun
  | other t n => rw [Obj.rename]; all_goals nofun

mutual
theorem rename_wf (r : Str → Str) : ∀ x : Obj, ObjSpec.WellFormed x → ObjSpec.WellFormed (x.rename r)
  | .prim (.anon s), _ => by rw [rename_anon]; simp [ObjSpec.WellFormed]
  | .prim (.iri i), _ => by rw [rename_iri]; simp [ObjSpec.WellFormed]
  | .prim (.ent k i), _ => by rw [rename_ent]; simp [ObjSpec.WellFormed]
  | .vec b xs, h => by
    rw [rename_vec, ObjSpec.WellFormed]
    rw [ObjSpec.WellFormed] at h
    exact rename_wfAll r xs h
  | .comp t b fs n, h => by
    rw [rename_comp, ObjSpec.WellFormed]
    rw [ObjSpec.WellFormed] at h
    exact ⟨by rw [List.length_map]; exact h.1, rename_wfAll r fs h.2⟩
  | .lit v t, h => by rw [rename_lit]; exact h
  | .str s, h => by
    have e : (Obj.str s).rename r = .str s := by rw [Obj.rename]; all_goals nofun
    rw [e]; exact h
  | .other t n, h => by
    have e : (Obj.other t n).rename r = .other t n := by rw [Obj.rename]; all_goals nofun
    rw [e]; exact h
theorem rename_wfAll (r : Str → Str) : ∀ xs : List Obj, ObjSpec.WellFormedAll xs → ObjSpec.WellFormedAll (xs.map (Obj.rename r))
  | [], _ => by simp [ObjSpec.WellFormedAll]
  | x :: xs, h => by
    rw [ObjSpec.WellFormedAll] at h
    rw [List.map_cons, ObjSpec.WellFormedAll]
    exact ⟨rename_wf r x h.1, rename_wfAll r xs h.2⟩
end

theorem rename_isAxiom (r : Str → Str) {x : Obj} (h : OntoSpec.IsAxiom x) : OntoSpec.IsAxiom (x.rename r) := by
  refine ⟨rename_wf r x h.1, ?_⟩
  have h2 := h.2
  cases x <;> first | exact h2.elim | skip
  rw [rename_comp]
  exact h2

theorem rename_axType (r : Str → Str) (x : Obj) : axType (x.rename r) = axType x := by
  unfold axType; rw [rename_otype]

/-- The anonymous individuals in the index are those of the ontology. -/
theorem populate_anon {R : Ast.Req} {names : List Id} {o : OntoSt} (ho : PrtDocFits R names o)
    {order : List Prim → List Prim} (hord : ∀ ps, (order ps).Perm ps) (s : Str) :
    .anon s ∈ (populate {} order o).ids.vec ↔ o.onto.hasPrimitive (.anon s) = true := by
  obtain ⟨x1, e1, a1, -, a3, -, -, -⟩ := addPrefixes_spec (o.pm.fwd.map fun e => (e.1.txt, e.2)) agree_init sane_init due_init
  obtain ⟨x, e2, -, -, -, b4, -⟩ := addPrims_spec (popPrims order o) a1
  rw [populate_eq, e1, e2, b4, a3, hasPrimitive_iff]
  constructor
  · rintro (h | ⟨p, hp, e⟩)
    · exact nomatch h
    · have : p = .anon s := by cases p <;> cases e; rfl
      subst this
      rcases (mem_popPrims hord o _).1 hp with ⟨i, -, h⟩ | h | ⟨r, hr, h⟩
      · cases h
      · exact h
      · obtain ⟨i, h1, -⟩ := ho.imports r hr
        rw [h] at h1; cases h1
  · intro h
    exact .inr ⟨.anon s, (mem_popPrims hord o _).2 (.inr (.inl h)), rfl⟩

theorem idxOf_inj : ∀ {l : List Str} {s t : Str}, s ∈ l → l.idxOf s = l.idxOf t → s = t := by
  intro l
  induction l with
  | nil => intro s t h; exact nomatch h
  | cons a l ih =>
    intro s t hs e
    rw [List.idxOf_cons, List.idxOf_cons] at e
    by_cases h1 : a = s
    · by_cases h2 : a = t
      · rw [← h1, h2]
      · have f1 : (a == s) = true := by simpa using h1
        have f2 : (a == t) = false := by simpa using h2
        rw [f1, f2] at e; simp at e
    · have f1 : (a == s) = false := by simpa using h1
      by_cases h2 : a = t
      · have f2 : (a == t) = true := by simpa using h2
        rw [f1, f2] at e; simp at e
      · have f2 : (a == t) = false := by simpa using h2
        rw [f1, f2] at e
        refine ih ?_ (by simpa using e)
        rcases List.mem_cons.1 hs with h | h
        · exact absurd h.symm h1
        · exact h

/-- The bytes, and the changes in them. -/
theorem anonless {E : Env} (hu : E.u.Lawful) {names : List Id} {o : OntoSt} {s : OntoSpec.Abs}
    (hs : OntoSpec.Reaches o.onto s) (ho : PrtDocOk E.u names o) {order : List Prim → List Prim}
    (hord : ∀ ps, (order ps).Perm ps) :
    ∃ b items r, (∀ cap, b.length ≤ cap → writeOntology E.u false order o cap = (b, .ok)) ∧
      WritesItems o (newPfxs (stdPrefixes.map (·.2)) (o.pm.fwd.map fun e => (e.1.txt, e.2))) items ∧
      ((∀ m n, E.gen m = E.gen n → m = n) → ∀ a b, o.onto.hasPrimitive (.anon a) = true →
        o.onto.hasPrimitive (.anon b) = true → r a = r b → a = b) ∧
      (prtChanges E b = (items.map (fun i => (false, renameItem r i)), .done) ∨
        (∃ a b, a ≠ b ∧ o.onto.hasPrimitive (.anon a) = true ∧ o.onto.hasPrimitive (.anon b) = true) ∧
          (prtChanges E b).2 = .rejected) := by
  obtain ⟨x, e, hA, hS, hdue, is, as, xs, hc⟩ := populate_ok hs ho hord
  obtain ⟨b, ps, C, hn, hnd, hm1, hm2, h1, h2, h3⟩ := lazy_data hu hA hS hc
  have hps : ps = newPfxs (stdPrefixes.map (·.2)) (o.pm.fwd.map fun e => (e.1.txt, e.2)) :=
    Option.some.inj (h2.symm.trans hdue)
  have hread : prtChanges E (1 :: b) = run E noteAll ⟨[], ⟨b, {}, 0⟩, false, .ok⟩ := by
    unfold prtChanges prtRead
    exact if_pos rfl
  refine ⟨1 :: b, chunkItems ps o is as xs, C.name, fun cap hcap => ?_, ?_, ?_, ?_⟩
  · unfold writeOntology
    rw [e, h1]
    dsimp only
    rw [if_pos hcap, List.take_of_length_le hcap]
  · rw [← hps]
    exact writes_items hc (fun v h => (ho.version v h).1) ps
  · intro hg a b' ha hb hr
    rw [hn] at hr
    rw [← populate_anon ho hord, e] at ha
    exact idxOf_inj (hm2 a ha) (hg _ _ hr)
  · rw [hread]
    rcases h3 with h3 | ⟨h4, l, h3⟩
    · rw [h3]
      refine .inl ?_
      simp [renamed, Function.comp_def]
    · rw [h3]
      refine .inr ⟨?_, rfl⟩
      have hp : ∀ a ∈ C.anons, o.onto.hasPrimitive (.anon a) = true := fun a ha => by
        rw [← populate_anon ho hord, e]; exact hm1 a ha
      match hC : C.anons with
      | [] => rw [hC] at h4; simp at h4
      | [_] => rw [hC] at h4; simp at h4
      | a :: a' :: l =>
        refine ⟨a, a', ?_, hp a (by simp [hC]), hp a' (by simp [hC])⟩
        rw [hC] at hnd
        intro e
        rw [e] at hnd
        simp at hnd

theorem feed_accepts {σ : Type} {k : Callback σ (Bool × Item)} (h : Accepts (told k false)) :
    ∀ (is : List Item) (c : σ), feed k c (is.map fun i => (false, i)) = (give (told k false) c is, .ok)
  | [], _ => rfl
  | i :: is, c => by
    have hi : (k c (false, i)).2 = .ok := h c i
    rw [List.map_cons]
    unfold feed feedFrom
    rw [hi]
    exact feed_accepts h is _

end Cowl.Prt

namespace Cowl
open Prt Func FuncSpec Ast Change Prefix

/-- C37, the part that holds: the ontology is written without an error. The document is
read as the ontology with its anonymous individuals renamed, distinct ones to distinct ones;
or the reader rejects it, which can only happen if there are two anonymous individuals.
Missing: that it is not rejected, see `C37_fails`. -/
theorem C37_partial {E : Env} (hu : E.u.Lawful) {names : List Id} {o : OntoSt} {s : OntoSpec.Abs}
    (hs : OntoSpec.Reaches o.onto s) (ho : PrtDocOk E.u names o) {order : List Prim → List Prim}
    (hord : ∀ ps, (order ps).Perm ps) :
    ∃ b items r, (∀ cap, b.length ≤ cap → writeOntology E.u false order o cap = (b, .ok)) ∧ PrtTells o items ∧
      ((∀ m n, E.gen m = E.gen n → m = n) → ∀ a b, o.onto.hasPrimitive (.anon a) = true →
        o.onto.hasPrimitive (.anon b) = true → r a = r b → a = b) ∧
      (prtChanges E b = (items.map (fun i => (false, renameItem r i)), .done) ∨
        (∃ a b, a ≠ b ∧ o.onto.hasPrimitive (.anon a) = true ∧ o.onto.hasPrimitive (.anon b) = true) ∧
          (prtChanges E b).2 = .rejected) := by
  obtain ⟨b, items, r, h1, h2, h3⟩ := anonless hu hs ho hord
  exact ⟨b, items, r, h1, tells_of_writes h2, h3⟩

/-- C37, whatever the number of anonymous individuals: if the reader does not reject the document, reading it into a new ontology
gives the same IRI, version and imports, and the same annotations and axioms up to the names of anonymous individuals. -/
theorem C37_accepted {E : Env} (hu : E.u.Lawful) {names : List Id} {o : OntoSt} {s : OntoSpec.Abs}
    (hs : OntoSpec.Reaches o.onto s) (ho : PrtDocOk E.u names o) {order : List Prim → List Prim}
    (hord : ∀ ps, (order ps).Perm ps) (ks : List Nat) (dflt : Fwd) (n : Nat) :
    ∃ b r, (∀ cap, b.length ≤ cap → writeOntology E.u false order o cap = (b, .ok)) ∧
      ((∀ m n, E.gen m = E.gen n → m = n) → ∀ a b, o.onto.hasPrimitive (.anon a) = true →
        o.onto.hasPrimitive (.anon b) = true → r a = r b → a = b) ∧
      ((prtChanges E b).2 = .rejected →
        ∃ a b, a ≠ b ∧ o.onto.hasPrimitive (.anon a) = true ∧ o.onto.hasPrimitive (.anon b) = true) ∧
      ((prtChanges E b).2 ≠ .rejected → ∃ o' n',
      prtRead E changeHandler b (some (OntoSt.new ks dflt, n)) = (some (o', n'), .done) ∧
      o'.iri = o.iri ∧ o'.version = o.version ∧
      (o'.onto.imports.getD []).map Ref.obj = s.imports.map Ref.obj ∧
      (o'.onto.annot.getD []).map Ref.obj = s.annots.map (fun x => x.obj.rename r) ∧
      (∀ t, ((o'.onto.byType t).getD []).map Ref.obj = ((o.onto.byType t).getD []).map (fun x => x.obj.rename r)) ∧
      ∃ s', OntoSpec.Reaches o'.onto s' ∧ (s'.axioms.map Ref.obj).Perm (s.axioms.map fun x => x.obj.rename r)) := by
  obtain ⟨b, items, r, h1, ⟨is, h2, rfl⟩, hinj, h3⟩ := anonless hu hs ho hord
  have hinv := reaches_inv hs
  have hv : o.version ≠ none → o.iri ≠ none := by
    intro h
    obtain ⟨v, hv⟩ := Option.ne_none_iff_exists'.1 h
    exact (ho.version v hv).1
  refine ⟨b, r, h1, hinj, fun h => ?_, fun h => ?_⟩
  · rcases h3 with h3 | h3
    · rw [h3] at h; cases h
    · exact h3.1
  have hch := h3.resolve_right fun k => h k.2
  let I := number 0 ((o.onto.imports.getD []).map Ref.obj)
  let A := number 0 ((o.onto.annot.getD []).map fun x => x.obj.rename r)
  let X := number 0 ((axiomsOf o.onto).map fun x => x.obj.rename r)
  have oI : I.map Ref.obj = (o.onto.imports.getD []).map Ref.obj := number_obj _ _
  have oA : A.map Ref.obj = (o.onto.annot.getD []).map fun x => x.obj.rename r := number_obj _ _
  have oX : X.map Ref.obj = (axiomsOf o.onto).map fun x => x.obj.rename r := number_obj _ _
  have hr : OntoSpec.Reaches (loaded I A X) ⟨X, A, I⟩ := by
    refine loaded_reaches ?_ ?_ (number_inj _ _)
    · intro y hy
      have : y.obj ∈ A.map Ref.obj := List.mem_map_of_mem hy
      rw [oA, hinv.annot] at this
      obtain ⟨z, hz, ez⟩ := List.mem_map.1 this
      rw [← ez]; exact rename_wf r _ (annots_wf hs z hz)
    · intro y hy
      have : y.obj ∈ X.map Ref.obj := List.mem_map_of_mem hy
      rw [oX] at this
      obtain ⟨z, hz, ez⟩ := List.mem_map.1 this
      rw [← ez]; exact rename_isAxiom r (hinv.axioms z ((axiomsOf_perm hinv).mem_iff.1 hz))
  have hri := reaches_inv hr
  have hrI : ((loaded I A X).imports.getD []).map Ref.obj = (o.onto.imports.getD []).map Ref.obj := by
    rw [← oI]; exact congrArg (List.map Ref.obj) hri.imports
  have hrA : ((loaded I A X).annot.getD []).map Ref.obj = (o.onto.annot.getD []).map fun x => x.obj.rename r := by
    rw [← oA]; exact congrArg (List.map Ref.obj) hri.annot
  have hX : ∀ t, (X.map Ref.obj).filter (fun x => axType x = t) = (((loaded I A X).byType t).getD []).map Ref.obj := by
    intro t; rw [loaded_byType, filter_obj]
  obtain ⟨o', n', e, g1, g2, g3, g4, g5, g6, s', g7, g8, -⟩ := load (o := ⟨o.pm, o.iri, o.version, loaded I A X⟩) hr hv
    (hrI.trans h2) hrA hX (List.Perm.refl _) (newPfxs (stdPrefixes.map (·.2)) (o.pm.fwd.map fun e => (e.1.txt, e.2)))
    (create ks dflt) n
  refine ⟨o', n', ?_, g2, g3, ?_, ?_, ?_, s', g7, ?_⟩
  · have hd := C57_good E changeHandler b (some (OntoSt.new ks dflt, n)) (by rw [hch])
    have hm : ∀ l : List Item, (l.map fun i => (false, renameItem r i)) = (l.map (renameItem r)).map fun i => (false, i) := by
      intro l; simp [Function.comp_def]
    rw [hch] at hd
    dsimp only at hd
    rw [hm, feed_accepts change_accepts, give_change] at hd
    refine (Prod.ext hd.1 (hd.2.resolve_right fun h => by cases h.1) : _ = (_, End.done)).trans ?_
    refine congrArg (·, End.done) (congrArg some ?_)
    rw [← e]
    have ei : idItems o.iri o.version = (o.iri.map Item.iri).toList ++ (o.version.map Item.version).toList := by
      unfold idItems
      cases h1 : o.iri with
      | some i => rfl
      | none =>
        cases h2 : o.version with
        | none => rfl
        | some v => exact absurd h1 (ho.version v h2).1
    have er : (idItems o.iri o.version).map (renameItem r) = idItems o.iri o.version := by
      unfold idItems
      cases o.iri <;> cases o.version <;> rfl
    simp only [OntoSt.new]
    rw [← ei, oX]
    simp only [List.map_append, List.map_map, er]
    rfl
  · rw [g4]
    show I.map Ref.obj = _
    rw [oI, hinv.imports]
  · rw [g5]
    show A.map Ref.obj = _
    rw [oA, hinv.annot]
  · intro t
    rw [g6 t]
    show (((loaded I A X).byType t).getD []).map Ref.obj = _
    rw [← hX t, oX]
    have := congrArg (List.map (Obj.rename r)) (axioms_filter hs t)
    rw [List.map_map] at this
    rw [show (fun x : Ref => x.obj.rename r) = Obj.rename r ∘ Ref.obj from rfl, ← this, ← List.map_map, List.filter_map]
    congr 1
    apply List.filter_congr
    intro y _
    simp [rename_axType]
  · refine g8.trans ?_
    show (X.map Ref.obj).Perm _
    rw [oX]
    exact (axiomsOf_perm hinv).map _

/-- C37 for ontologies with at most one anonymous individual: read into a new ontology, the
document gives the same IRI, version and imports, and the same annotations and axioms up to
the name of the individual. -/
theorem C37_one {E : Env} (hu : E.u.Lawful) {names : List Id} {o : OntoSt} {s : OntoSpec.Abs}
    (hs : OntoSpec.Reaches o.onto s) (ho : PrtDocOk E.u names o) {order : List Prim → List Prim}
    (hord : ∀ ps, (order ps).Perm ps)
    (hone : ∀ a b, o.onto.hasPrimitive (.anon a) = true → o.onto.hasPrimitive (.anon b) = true → a = b)
    (ks : List Nat) (dflt : Fwd) (n : Nat) :
    ∃ b o' n' r, (∀ cap, b.length ≤ cap → writeOntology E.u false order o cap = (b, .ok)) ∧
      prtRead E changeHandler b (some (OntoSt.new ks dflt, n)) = (some (o', n'), .done) ∧
      o'.iri = o.iri ∧ o'.version = o.version ∧
      (o'.onto.imports.getD []).map Ref.obj = s.imports.map Ref.obj ∧
      (o'.onto.annot.getD []).map Ref.obj = s.annots.map (fun x => x.obj.rename r) ∧
      (∀ t, ((o'.onto.byType t).getD []).map Ref.obj = ((o.onto.byType t).getD []).map (fun x => x.obj.rename r)) ∧
      ∃ s', OntoSpec.Reaches o'.onto s' ∧ (s'.axioms.map Ref.obj).Perm (s.axioms.map fun x => x.obj.rename r) := by
  obtain ⟨b, r, h1, -, h2, h3⟩ := C37_accepted hu hs ho hord ks dflt n
  obtain ⟨o', n', h⟩ := h3 fun h => by
    obtain ⟨a, b, hab, ha, hb⟩ := h2 h
    exact hab (hone a b ha hb)
  exact ⟨b, o', n', r, h1, h⟩

/-- The conditions hold for an ontology with one anonymous individual. -/
example : OntoSpec.Reaches prtOnto.onto
      ⟨[⟨3, prtAxiom.toObj⟩], [⟨2, exAnnot.toObj⟩], [⟨1, .prim (.iri (exIri "i"))⟩]⟩ ∧
    PrtDocOk lebEnv.u prtOntoNames prtOnto ∧ lebEnv.u.Lawful ∧ prtOnto.onto.hasPrimitive (.anon (ascii "b")) = true ∧
    ∀ a b, prtOnto.onto.hasPrimitive (.anon a) = true → prtOnto.onto.hasPrimitive (.anon b) = true → a = b := by
  refine ⟨prtOnto_reaches, prtOnto_ok, leb_lawful, by decide +kernel, ?_⟩
  have h : ∀ p ∈ prtOnto.onto.idx.map Prod.fst, ∀ a, p = .anon a → a = ascii "b" := by
    have hd : (prtOnto.onto.idx.map Prod.fst).all (fun p => match p with
      | .anon a => a == ascii "b"
      | _ => true) = true := by decide +kernel
    intro p hp a e
    have := List.all_eq_true.1 hd p hp
    subst e
    simpa using this
  intro a b ha hb
  rw [hasPrimitive_iff] at ha hb
  rw [h _ ha a rfl, h _ hb b rfl]

/-! ## Counterexamples -/

/-- The axiom that two anonymous individuals and one with a name are different. -/
def threeInds : Axiom := ⟨.diffInd [.anon (ascii "x"), .anon (ascii "y"), .named (exIri "c")], []⟩

/-- A property inclusion with two anonymous individuals in its annotations. -/
def noted : Axiom :=
  ⟨.subObjProp (.ope (.prop (exIri "p"))) (.prop (exIri "q")),
    [.mk (exIri "note") (.anon (ascii "x")) [], .mk (exIri "note") (.anon (ascii "y")) []]⟩

/-- An ontology with one axiom. -/
def just (a : Axiom) : OntoSt := ⟨create [1, 2, 3, 4] [], none, none, Onto.empty.addAxiom ⟨1, a.toObj⟩⟩

/-- How reading ends and how many changes there were, if anonymous individuals are left out;
the second argument is the order of the hash tables. -/
def anonBack (a : Axiom) (order : List Prim → List Prim) : Ret × End × Nat :=
  let w := writeOntology leb false order (just a) 1000000
  (w.2, (prtChanges lebEnv w.1).2, (prtChanges lebEnv w.1).1.length)

/-- C37 is false as stated.
* Whether the document can be read depends on the order of the primitives in a hash table;
  the writer reports no error.
* A stream of axioms depends on the order in the axioms: an individual with a name after two
  anonymous ones exchanges the two in the index.
* Before the document is rejected, the handler may be told an axiom without its annotations,
  which is not in the ontology. -/
theorem C37_fails :
    (anonBack threeInds id = (.ok, .done, 1) ∧ anonBack threeInds List.reverse = (.ok, .rejected, 0)) ∧
    (writeStream leb false 1000 ⟨[], none, none, [], []⟩ [⟨1, threeInds.toObj⟩]).map (fun b => (prtChanges lebEnv b).2) =
      some .rejected ∧
    (anonBack noted List.reverse = (.ok, .rejected, 1) ∧
      (prtChanges lebEnv (writeOntology leb false List.reverse (just noted) 1000000).1).1.map (fun c => (c.1, match c.2 with
        | .ax (.comp t b fs _) => some (t, b, fs.length)
        | _ => none)) = [(false, some (.aSubObjProp, false, 2))]) := by
  refine ⟨⟨?_, ?_⟩, ?_, ?_, ?_⟩ <;> decide +kernel

end Cowl
