import Verif.ExamplesLemmas
import Verif.ChangeLemmas
import Verif.RewriteProps
/-! # C98, C99: the example programs that ask for subclasses -/
namespace Cowl
open Ast Change Func FuncSpec Prefix PrefixSpec OntoSpec IterSpec FuncTell Rewrite Examples

/-! ## C98 -/

/-- C98, without axioms that put the class below itself (`C98_fails`): the program that loads the ontology and asks for
the subclasses, and the program that watches the document go by, fail for the same texts. Of a text that
is accepted they print the same lines, up to the order. The lines are those of the axioms of the ontology that put
an atomic class below the given one. -/
theorem C98_partial (dflt : Fwd) (hd : Distinct dflt) (hg : GoodDefaults dflt) (c : Iri) (txt : Str) :
    ((queryMain dflt c txt).isSome ↔ (streamMain dflt c txt).2 = true) ∧
    ∃ as : List Axiom, (∀ a ∈ as, a.Meets owl2) ∧
      ((axiomsOf (funcRead ontoHandler (create [0, 1, 2, 3] dflt) 20 txt (OntoSt.new [0, 1, 2, 3] dflt, 100)).1.1.onto).map Ref.obj).Perm
        (as.map Axiom.toObj) ∧
      (streamMain dflt c txt).1 = as.filterMap (belowLine c) ∧
      (∀ out, queryMain dflt c txt = some out → out.Perm (as.filterMap (properLine c))) ∧
      ((∀ a ∈ as, ¬ SelfBelow c a) → ∀ out, queryMain dflt c txt = some out → out.Perm (streamMain dflt c txt).1) := by
  obtain ⟨items, acc, hall⟩ := C62_accepting (create [0, 1, 2, 3] dflt) 20 txt
  have hm : MapOk (create [0, 1, 2, 3] dflt) := mapOk_create rfl hd hg
  have hq := hall ontoHandler (OntoSt.new [0, 1, 2, 3] dflt, 100) ontoHandler_accepts
  have hs := hall (streamCb c) [] (streamCb_accepts c)
  have ht := hall (taking ontoHandler) ((OntoSt.new [0, 1, 2, 3] dflt, 100), []) (fun s i => ontoHandler_accepts s.1 i)
  rw [give_taking, List.nil_append] at ht
  have h1 : ∀ i ∈ items, ItemOk owl2 i := by
    have := C91_partial ontoHandler (create [0, 1, 2, 3] dflt) 20 txt (OntoSt.new [0, 1, 2, 3] dflt, 100)
    rwa [ht] at this
  have h2 : ∀ i ∈ items, ItemLex i := by
    have := funcRead_itemLex ontoHandler hm 20 txt (OntoSt.new [0, 1, 2, 3] dflt, 100)
    rwa [ht] at this
  obtain ⟨as, ha, hmeets, hgive⟩ := told_axioms h1 h2
  obtain ⟨told, s', a', e1, -, e3, -, e5, -, -⟩ := C91_load_partial (o := OntoSt.new [0, 1, 2, 3] dflt) (s := ⟨[], [], []⟩)
    (a := _) ⟨[], trivial, rfl, rfl⟩ (.create [0, 1, 2, 3] dflt rfl hd) 100 nofun (create [0, 1, 2, 3] dflt) 20 txt
  rw [ht] at e1
  dsimp only at e1
  subst e1
  have e6 : s'.axioms.map Ref.obj = as.map Axiom.toObj := by rw [e5, ← ha]; rfl
  have hstream : (streamMain dflt c txt).1 = as.filterMap (belowLine c) := by
    show (funcRead (streamCb c) _ 20 txt []).1 = _
    rw [hs]; exact hgive c []
  have hquery : ∀ out, queryMain dflt c txt = some out → out.Perm (as.filterMap (properLine c)) := by
    intro out ho
    unfold queryMain at ho
    split at ho
    · rename_i o n e
      cases ho
      rw [e] at e3
      exact query_lines e3 c e6
    · cases ho
  refine ⟨?_, as, hmeets, ?_, hstream, hquery, ?_⟩
  · have hb : (streamMain dflt c txt).2 = acc := by
      show ((funcRead (streamCb c) _ 20 txt []).2 == .ok) = _
      rw [hs]; cases acc <;> rfl
    rw [hb]
    unfold queryMain
    rw [hq]
    cases acc <;> simp
  · rw [← e6]
    exact (axiomsOf_perm (reaches_inv e3)).map _
  · intro hn out ho
    rw [hstream]
    refine (hquery out ho).trans (List.Perm.of_eq ?_)
    clear ho hquery hstream e6 ha hgive hmeets
    induction as with
    | nil => rfl
    | cons a as ih =>
      rw [List.filterMap_cons, List.filterMap_cons, ih fun b hb => hn b (List.mem_cons_of_mem _ hb)]
      have : properLine c a = belowLine c a := by
        have := hn a List.mem_cons_self
        unfold properLine belowLine
        unfold SelfBelow at this
        split
        · rename_i i d _
          dsimp only at this ⊢
          by_cases hdc : d = c
          · rw [if_pos ⟨hdc, fun hi => this ⟨hdc, hi⟩⟩, if_pos hdc]
          · rw [if_neg fun k => hdc k.1, if_neg hdc]
        · rfl
      rw [this]

/-- A name of the sample namespace. -/
def foodIri (n : String) : Iri := ⟨ascii "http://e.x/", ascii n⟩

/-- A document with two atomic subclasses of `F`, one of them twice, one that is not atomic, and one the other way round. -/
def foodText : Str :=
  ascii "Ontology(<http://e.x/o> SubClassOf(<http://e.x/A> <http://e.x/F>) SubClassOf(<http://e.x/F> <http://e.x/T>) SubClassOf(Annotation(rdfs:label \"x\") <http://e.x/B> <http://e.x/F>) SubClassOf(ObjectComplementOf(<http://e.x/F>) <http://e.x/F>) SubClassOf(<http://e.x/A> <http://e.x/F>))"

/-- A concrete case for `C98_partial`: both programs print `A`, `B` and `A`. -/
example : Distinct [] ∧ GoodDefaults [] ∧
    queryMain [] (foodIri "F") foodText = some [ascii "A", ascii "B", ascii "A"] ∧
    streamMain [] (foodIri "F") foodText = ([ascii "A", ascii "B", ascii "A"], true) :=
  ⟨.nil, nofun, by decide +kernel, by decide +kernel⟩

/-- C98 is false as stated: the axiom `SubClassOf(F F)` gives a line in one program and none in the other. -/
theorem C98_fails :
    queryMain [] (foodIri "F") (ascii "Ontology(SubClassOf(<http://e.x/F> <http://e.x/F>))") = some [] ∧
    streamMain [] (foodIri "F") (ascii "Ontology(SubClassOf(<http://e.x/F> <http://e.x/F>))") = ([ascii "F"], true) :=
  ⟨by decide +kernel, by decide +kernel⟩

/-! ## C99 -/

/-- The ontology holds exactly these axioms. -/
def HoldsAxioms (o : Onto) (as : List Axiom) : Prop := ∃ s, Reaches o s ∧ s.axioms.map Ref.obj = as.map Axiom.toObj

theorem visited_child {o : Onto} {as : List Axiom} (h : HoldsAxioms o as) (c : Iri) : ∃ v : List Obj,
    (∀ i, .prim (.ent .cls i) ∈ v ↔ Child as c i) ∧
    ∀ (σ : Type) (k : σ → Obj → σ × Ret) (x : σ), Run k v x (iterSubClasses o c k x).1 (iterSubClasses o c k x).2 := by
  obtain ⟨s, hs, e⟩ := h
  obtain ⟨v, h1, h2⟩ := C21_visited o s hs (.ent .cls c) afSubClass psLeft
  refine ⟨v, fun i => ?_, h2⟩
  rw [h1]
  constructor
  · rintro ⟨r, hr, ht, hop, hx, hne⟩
    have : r.obj ∈ as.map Axiom.toObj := by rw [← e]; exact List.mem_map_of_mem hr
    obtain ⟨a, ha, ea⟩ := List.mem_map.1 this
    by_cases hsub : ∃ x y, a.ax = .subClass x y
    · obtain ⟨x, y, ex⟩ := hsub
      have ho : operands r.obj = [x.toObj, y.toObj] := by
        rw [← ea]; unfold Axiom.toObj; rw [ex]; exact operands_annotated rfl
      rw [ho, operandsAt_left fun _ _ => ce_not_vec, List.mem_singleton] at hx
      obtain ⟨j, rfl, hj⟩ := ce_prim hx.symm
      cases hj
      have hic : i ≠ c := by rintro rfl; exact hne rfl
      refine ⟨hic, a, ha, ?_⟩
      obtain ⟨op, hm, hi⟩ := hop
      rw [ho] at hm
      rcases List.mem_cons.1 hm with rfl | hm'
      · rw [operandIs_ce] at hi; exact absurd (CE.cls.inj hi) hic
      · rw [List.mem_singleton.1 hm', operandIs_ce] at hi
        rw [ex, hi]
    · exfalso
      obtain ⟨t, ht, hc, hb⟩ := ht
      have h1 : ∀ t, t < 37 → afSubClass.getLsbD t = true → t = 1 := by decide +kernel
      obtain rfl := h1 t ht hb
      have h2 : ∀ x : OType, x.code = OType.aDecl.code + 1 → x = .aSubClass := by
        intro x; cases x <;> decide
      have := h2 _ hc
      rw [← ea] at this
      exact not_subClass (fun x y k => hsub ⟨x, y, k⟩) this
  · rintro ⟨hne, a, ha, ex⟩
    have : a.toObj ∈ s.axioms.map Ref.obj := by rw [e]; exact List.mem_map_of_mem ha
    obtain ⟨r, hr, er⟩ := List.mem_map.1 this
    have ho : operands r.obj = [.prim (.ent .cls i), .prim (.ent .cls c)] := by
      rw [er]; unfold Axiom.toObj; rw [ex]; exact operands_annotated rfl
    refine ⟨r, hr, ⟨1, by decide, ?_, by decide⟩, ⟨.prim (.ent .cls c), by rw [ho]; simp, rfl⟩, ?_, ?_⟩
    · show r.obj.otype.code = _
      rw [er]; unfold Axiom.toObj; rw [otype_annotated, ex]; rfl
    · rw [ho, operandsAt_left (fun _ _ k => by cases k)]; simp
    · intro k; cases k; exact hne rfl

theorem rec_run {o : Onto} {as : List Axiom} {fuel : Nat} : ∀ {v : List Obj},
    (∀ i, .prim (.ent .cls i) ∈ v → ∃ names : List Iri, (∀ j, j ∈ names ↔ Below as i j) ∧
      ∀ out, iterSubClasses o i (recCb o fuel) (some out) = (some (out ++ names.map Iri.rem), .ok)) →
    ∃ names : List Iri, (∀ j, j ∈ names ↔ ∃ i, .prim (.ent .cls i) ∈ v ∧ (j = i ∨ Below as i j)) ∧
      ∀ out x' r, Run (recCb o (fuel + 1)) v (some out) x' r → x' = some (out ++ names.map Iri.rem) ∧ r = .ok
  | [], _ => ⟨[], by simp, fun out x' r h => by cases h; simp⟩
  | x :: v, h => by
    obtain ⟨names, h1, h2⟩ := rec_run (v := v) fun i hi => h i (List.mem_cons_of_mem _ hi)
    by_cases hx : ∃ i, x = .prim (.ent .cls i)
    · obtain ⟨i, rfl⟩ := hx
      obtain ⟨ns, g1, g2⟩ := h i List.mem_cons_self
      refine ⟨i :: (ns ++ names), fun j => ?_, fun out x' r hr => ?_⟩
      · rw [List.mem_cons, List.mem_append, g1, h1]
        constructor
        · rintro (rfl | hb | ⟨k, hk, hj⟩)
          · exact ⟨j, List.mem_cons_self, .inl rfl⟩
          · exact ⟨i, List.mem_cons_self, .inr hb⟩
          · exact ⟨k, List.mem_cons_of_mem _ hk, hj⟩
        · rintro ⟨k, hk, hj⟩
          rcases List.mem_cons.1 hk with e | hk'
          · cases e
            rcases hj with rfl | hj
            · exact .inl rfl
            · exact .inr (.inl hj)
          · exact .inr (.inr ⟨k, hk', hj⟩)
      · have e : recCb o (fuel + 1) (some out) (.prim (.ent .cls i)) = (some (out ++ [i.rem] ++ ns.map Iri.rem), .ok) := g2 _
        cases hr with
        | stop k kr => rw [e] at k; cases k; exact absurd rfl kr
        | go k ks =>
          rw [e] at k
          cases k
          obtain ⟨rfl, rfl⟩ := h2 _ _ _ ks
          exact ⟨by simp, rfl⟩
    · refine ⟨names, fun j => ?_, fun out x' r hr => ?_⟩
      · rw [h1]
        refine exists_congr fun k => and_congr_left fun _ => ⟨List.mem_cons_of_mem _, fun hk => ?_⟩
        rcases List.mem_cons.1 hk with e | hk'
        · exact absurd ⟨k, e.symm⟩ hx
        · exact hk'
      · have e : recCb o (fuel + 1) (some out) x = (some out, .ok) := by
          unfold recCb
          split
          · rename_i k; cases k
          · exact absurd ⟨_, rfl⟩ hx
          · rename_i k _; cases k; rfl
        cases hr with
        | stop k kr => rw [e] at k; cases k; exact absurd rfl kr
        | go k ks => rw [e] at k; cases k; exact h2 _ _ _ ks

/-- C99, if no class is below itself in several steps (`C99_fails`): when the stack has room for one call more than the
number of levels, the recursive query ends and prints the classes below the given one, and only these. -/
theorem C99_partial {o : Onto} {as : List Axiom} (h : HoldsAxioms o as) (rank : Iri → Nat)
    (hr : ∀ c i, Child as c i → rank i < rank c) : ∀ (fuel : Nat) (c : Iri), rank c < fuel →
    ∃ names : List Iri, (∀ i, i ∈ names ↔ Below as c i) ∧ recQuery fuel o c = some (names.map Iri.rem) := by
  have key : ∀ (fuel : Nat) (c : Iri), rank c < fuel → ∃ names : List Iri, (∀ j, j ∈ names ↔ Below as c j) ∧
      ∀ out, iterSubClasses o c (recCb o fuel) (some out) = (some (out ++ names.map Iri.rem), .ok) := by
    intro fuel
    induction fuel with
    | zero => intro c hc; exact absurd hc (Nat.not_lt_zero _)
    | succ fuel ih =>
      intro c hc
      obtain ⟨v, h1, h2⟩ := visited_child h c
      obtain ⟨names, g1, g2⟩ := rec_run (o := o) (as := as) (fuel := fuel) (v := v) fun i hi =>
        ih i (Nat.lt_of_lt_of_le (hr c i ((h1 i).1 hi)) (Nat.le_of_lt_succ hc))
      refine ⟨names, fun j => ?_, fun out => ?_⟩
      · rw [g1]
        constructor
        · rintro ⟨i, hi, rfl | hb⟩
          · exact .one ((h1 j).1 hi)
          · exact .more ((h1 i).1 hi) hb
        · intro hb
          cases hb with
          | one k => exact ⟨j, (h1 j).2 k, .inl rfl⟩
          | more k g => exact ⟨_, (h1 _).2 k, .inr g⟩
      · obtain ⟨e1, e2⟩ := g2 out _ _ (h2 _ _ _)
        exact Prod.ext e1 e2
  intro fuel c hc
  obtain ⟨names, g1, g2⟩ := key fuel c hc
  exact ⟨names, g1, by unfold recQuery; rw [g2]; rfl⟩

theorem run_ok {σ α : Type} {k : σ → α → σ × Ret} (hk : ∀ s x, (k s x).2 = .ok) {v : List α} {s s' : σ} {r : Ret} (h : Run k v s s' r) : r = .ok := by
  induction h with
  | done => rfl
  | @stop x _ s _ _ h hr => have := hk s x; rw [h] at this; exact absurd this hr
  | go _ _ ih => exact ih

theorem rec_ok {o : Onto} {as : List Axiom} (h : HoldsAxioms o as) : ∀ (fuel : Nat) (s : Option (List Str)) (x : Obj), (recCb o fuel s x).2 = .ok
  | 0, _, _ => rfl
  | fuel + 1, s, x => by
    unfold recCb
    split
    · rfl
    · rename_i i
      obtain ⟨v, -, h2⟩ := visited_child h i
      exact run_ok (rec_ok h fuel) (h2 _ _ _)
    · rfl

theorem rec_none (o : Onto) (fuel : Nat) (x : Obj) : recCb o fuel none x = (none, .ok) := by
  cases fuel <;> rfl

theorem run_none {o : Onto} {fuel : Nat} {v : List Obj} {s s' : Option (List Str)} {r : Ret} (h : Run (recCb o fuel) v s s' r)
    (hs : s = none) : s' = none := by
  induction h with
  | done => exact hs
  | stop h => rw [hs, rec_none] at h; cases h; rfl
  | go h _ ih => rw [hs, rec_none] at h; cases h; exact ih rfl

theorem run_deep {o : Onto} {as : List Axiom} (ho : HoldsAxioms o as) {fuel : Nat} {y : Obj} (hy : ∀ out, (recCb o fuel (some out) y).1 = none)
    {v : List Obj} {s s' : Option (List Str)} {r : Ret} (h : Run (recCb o fuel) v s s' r) (hm : y ∈ v) : s' = none := by
  induction h with
  | done => cases hm
  | @stop x _ s _ _ h hr => have := rec_ok ho fuel s x; rw [h] at this; exact absurd this hr
  | @go x xs s s1 s2 r h hs ih =>
    rcases List.mem_cons.1 hm with e | hm'
    · subst e
      have : s1 = none := by
        cases s with
        | none => rw [rec_none] at h; cases h; rfl
        | some out => have := hy out; rw [h] at this; exact this
      exact run_none hs this
    · exact ih hm'

/-- C99, the other direction: if from the class one can go down for ever, no stack is deep enough. -/
theorem C99_deep {o : Onto} {as : List Axiom} (h : HoldsAxioms o as) (S : Iri → Prop) (hS : ∀ c, S c → ∃ i, Child as c i ∧ S i) :
    ∀ (fuel : Nat) (c : Iri), S c → recQuery fuel o c = none := by
  have key : ∀ (fuel : Nat) (c : Iri), S c → ∀ out, (iterSubClasses o c (recCb o fuel) (some out)).1 = none := by
    intro fuel
    induction fuel with
    | zero =>
      intro c hc out
      obtain ⟨v, h1, h2⟩ := visited_child h c
      obtain ⟨i, hi, -⟩ := hS c hc
      exact run_deep h (fun _ => rfl) (h2 _ _ _) ((h1 i).2 hi)
    | succ fuel ih =>
      intro c hc out
      obtain ⟨v, h1, h2⟩ := visited_child h c
      obtain ⟨i, hi, si⟩ := hS c hc
      exact run_deep h (fuel := fuel + 1) (y := .prim (.ent .cls i)) (fun out => ih i si (out ++ [i.rem])) (h2 _ _ _) ((h1 i).2 hi)
  intro fuel c hc
  exact key fuel c hc []

/-- `SubClassOf(a b)`. -/
def below (a b : String) : Axiom := ⟨.subClass (.cls (foodIri a)) (.cls (foodIri b)), []⟩

/-- The ontology with two axioms. -/
def twoBelow (a b : Axiom) : Onto := (Onto.empty.addAxiom ⟨1, a.toObj⟩).addAxiom ⟨2, b.toObj⟩

theorem twoBelow_holds (a b c d : String) : HoldsAxioms (twoBelow (below a b) (below c d)) [below a b, below c d] := by
  refine ⟨⟨[⟨1, (below a b).toObj⟩, ⟨2, (below c d).toObj⟩], [], []⟩, ?_, rfl⟩
  have w : ∀ a b : String, IsAxiom (below a b).toObj := by
    intro a b
    refine ⟨?_, rfl⟩
    simp [below, Axiom.toObj, annotated, Annot.toObjs, Ax.type, Ax.fields, CE.toObj, ent, ObjSpec.WellFormed, ObjSpec.WellFormedAll, nFields, OType.fieldCount, OType.flags]
  refine ⟨[.addAxiom _, .addAxiom _], ⟨⟨w a b, nofun⟩, ⟨w c d, ?_⟩, trivial⟩, rfl, rfl⟩
  intro x hx e
  rw [List.mem_singleton.1 hx] at e
  exact absurd (show (1 : Nat) = 2 from e) (by decide)

/-- A concrete case for `C99_partial`: `A` below `B` below `F`. -/
example : HoldsAxioms (twoBelow (below "A" "B") (below "B" "F")) [below "A" "B", below "B" "F"] ∧
    (∀ c i, Child [below "A" "B", below "B" "F"] c i →
      (fun x => if x = foodIri "F" then 2 else if x = foodIri "B" then 1 else 0) i <
      (fun x => if x = foodIri "F" then 2 else if x = foodIri "B" then 1 else 0 : Iri → Nat) c) ∧
    recQuery 3 (twoBelow (below "A" "B") (below "B" "F")) (foodIri "F") = some [ascii "B", ascii "A"] := by
  refine ⟨twoBelow_holds _ _ _ _, ?_, by decide +kernel⟩
  rintro c i ⟨-, a, ha, e⟩
  simp only [List.mem_cons, List.not_mem_nil, or_false] at ha
  rcases ha with rfl | rfl <;> cases e <;> decide +kernel

/-- C99 is false as stated: with two classes below each other, the program exhausts every stack. -/
theorem C99_fails : ∀ fuel, recQuery fuel (twoBelow (below "A" "B") (below "B" "A")) (foodIri "A") = none := by
  intro fuel
  refine C99_deep (twoBelow_holds _ _ _ _) (fun c => c = foodIri "A" ∨ c = foodIri "B") ?_ fuel _ (.inl rfl)
  rintro c (rfl | rfl)
  · exact ⟨foodIri "B", ⟨by decide +kernel, below "B" "A", by simp, rfl⟩, .inr rfl⟩
  · exact ⟨foodIri "A", ⟨by decide +kernel, below "A" "B", by simp, rfl⟩, .inl rfl⟩

end Cowl
