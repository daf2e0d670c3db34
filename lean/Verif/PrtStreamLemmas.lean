import Verif.PrtStreamSpec
import Verif.PrtDocProps
/-!
# Lemmas: streaming in ProtocOWL
-/
namespace Cowl.Prt
open Func FuncSpec
open Ast Change

/-! ## Axioms sorted by type -/

/-- The axioms of a buffer that got `xs`. -/
def sorted (xs : List Ref) : List Ref := (List.range 37).flatMap fun t => xs.filter fun a => axType a.obj = t

theorem byKey_perm (xs : List Ref) : ∀ (ts : List Nat), ts.Nodup →
    (ts.flatMap fun t => xs.filter fun a => axType a.obj = t).Perm (xs.filter fun a => axType a.obj ∈ ts)
  | [], _ => by simp
  | t :: ts, hn => by
    rw [List.nodup_cons] at hn
    rw [List.flatMap_cons]
    have h1 := (List.Perm.refl (xs.filter fun a => axType a.obj = t)).append (byKey_perm xs ts hn.2)
    refine h1.trans ((filter_split ?_).symm.trans ?_)
    · rintro a _ ⟨h2, h3⟩
      exact hn.1 (by simpa [← show axType a.obj = t by simpa using h2] using h3)
    · apply List.Perm.of_eq
      congr 1
      funext a
      simp

/-- The same axioms, those of each type in the same order. -/
def SameAx (xs ys : List Ref) : Prop :=
  xs.Perm ys ∧ ∀ t, xs.filter (fun x => axType x.obj = t) = ys.filter fun x => axType x.obj = t

theorem SameAx.refl (xs : List Ref) : SameAx xs xs := ⟨.refl _, fun _ => rfl⟩

theorem SameAx.trans {xs ys zs : List Ref} (h : SameAx xs ys) (h' : SameAx ys zs) : SameAx xs zs :=
  ⟨h.1.trans h'.1, fun t => (h.2 t).trans (h'.2 t)⟩

theorem SameAx.append {xs ys xs' ys' : List Ref} (h : SameAx xs ys) (h' : SameAx xs' ys') : SameAx (xs ++ xs') (ys ++ ys') :=
  ⟨h.1.append h'.1, fun t => by rw [List.filter_append, List.filter_append, h.2, h'.2]⟩

theorem sorted_sim {xs : List Ref} (h : ∀ x ∈ xs, OntoSpec.IsAxiom x.obj) : SameAx (sorted xs) xs := by
  have hlt : ∀ x ∈ xs, axType x.obj < 37 := fun x hx => (isAxiom_axType (h x hx)).1
  refine ⟨(byKey_perm xs _ List.nodup_range).trans (List.Perm.of_eq ?_), fun t => ?_⟩
  · rw [List.filter_eq_self]
    intro a ha
    simpa using hlt a ha
  · rw [sorted, filter_flatMap (fun t a ha => by simpa using (List.mem_filter.1 ha).2) t _ List.nodup_range]
    split
    · rfl
    · rename_i ht
      symm
      rw [List.filter_eq_nil_iff]
      intro a ha c
      have : axType a.obj = t := by simpa using c
      exact ht (List.mem_range.2 (this ▸ hlt a ha))

/-! ## Names and sizes -/

/-- Names and prefixes that fit. -/
structure NamesOk (names : List Id) (l : List (Str × Str)) : Prop where
  split : ∀ i, .iri i ∈ names → XmlSpec.IsSplit (i.ns ++ i.rem) i.ns i.rem
  short : ∀ i ∈ names, IdShort i
  prefixes : ∀ e ∈ l, e.1.length < 4294967296 ∧ e.2.length < 4294967296
  few : names.length + l.length < 4294967000

theorem NamesOk.read {names : List Id} {l : List (Str × Str)} (h : NamesOk names l) {i : Id} (hi : i ∈ names) : readAs i = i := by
  cases i with
  | anon s => rfl
  | iri i => exact readAs_eq (h.split i hi)

/-- Where the contents of an index come from. -/
structure Bnd (names : List Id) (l : List (Str × Str)) (x : Index) : Prop where
  ids : ∀ i ∈ x.ids.vec, i ∈ names
  ns : ∀ n ∈ x.ns.pv.vec, n ∈ stdPrefixes.map (·.2) ∨ (∃ p, (p, n) ∈ l) ∨ ∃ r, .iri ⟨n, r⟩ ∈ names
  pfx : ∀ n p, x.ns.pfx n = some p → ({} : Index).ns.pfx n = some p ∨ (p, n) ∈ l
  std : ∀ n ∈ stdPrefixes.map (·.2), n ∈ x.ns.pv.vec

theorem bnd_init (names : List Id) (l : List (Str × Str)) : Bnd names l {} := by
  refine ⟨nofun, fun n hn => .inl ?_, fun n p h => .inl h, fun n hn => ?_⟩
  · have : n ∈ NsMap.init.pv.vec := hn
    rwa [init_vec] at this
  · show n ∈ NsMap.init.pv.vec
    rwa [init_vec]

theorem Bnd.short {names : List Id} {l : List (Str × Str)} {x : Index} {d : DIndex} (h : Bnd names l x) (hA : Agree x d)
    (hn : NamesOk names l) : x.Short := by
  refine ⟨?_, ?_, ?_, ?_, ?_, ?_⟩
  · obtain ⟨_, _, _, hi, _⟩ := hA.ids
    have := nodup_length_le hi.nodup h.ids
    have := hn.few
    omega
  · obtain ⟨_, _, hi, _⟩ := hA.ns
    have := nodup_length_le (m := stdPrefixes.map (·.2) ++ l.map (·.2) ++ names.map fun i => match i with
        | .iri i => i.ns
        | .anon s => s) hi.nodup (by
      intro n hn
      simp only [List.mem_append]
      rcases h.ns n hn with h | ⟨p, h⟩ | ⟨r, h⟩
      · exact .inl (.inl h)
      · exact .inl (.inr (List.mem_map.2 ⟨_, h, rfl⟩))
      · exact .inr (List.mem_map.2 ⟨_, h, rfl⟩))
    have h5 : (stdPrefixes.map (·.2)).length = 5 := rfl
    rw [List.length_append, List.length_append, h5, List.length_map, List.length_map] at this
    have := hn.few
    omega
  · intro i hi; exact (hn.short _ (h.ids _ hi)).2
  · intro t ht; exact hn.short _ (h.ids _ ht)
  · intro n hm
    rcases h.ns n hm with h | ⟨p, h⟩ | ⟨r, h⟩
    · exact std_short n h
    · exact (hn.prefixes _ h).2
    · exact idShort_ns (hn.short _ h)
  · intro n p hp
    rcases h.pfx n p hp with h | h
    · exact init_pfx_short h
    · exact (hn.prefixes _ h).1

/-! ## The buffer -/

/-- The IRI of an import. -/
def importIri (x : Ref) : Iri :=
  match x.obj with
  | .prim (.iri i) => i
  | _ => ⟨[], []⟩

/-- What the buffer holds, and that the index has all names in it. -/
structure Pend (u : Ulib) (x : Index) (buf : OntoSt) (I A X : List Ref) : Prop where
  imports : buf.onto.imports.getD [] = I
  annots : buf.onto.annot.getD [] = A
  axioms : ∀ t, (buf.onto.byType t).getD [] = X.filter fun a => axType a.obj = t
  has_iri : ∀ i, buf.iri = some i → x.Has (.iri i)
  has_version : ∀ i, buf.version = some i → x.Has (.iri i)
  good_import : ∀ y ∈ I, ∃ i, y.obj = .prim (.iri i) ∧ x.Has (.iri i)
  good_annot : ∀ y ∈ A, ∃ a : Annot, y.obj = a.toObj ∧ a.Meets (prtContents u) ∧ ∀ p, IterSpec.Occurs p y.obj → x.Has (idOf p)
  good_axiom : ∀ y ∈ X, ∃ a : Axiom, y.obj = a.toObj ∧ a.Meets (prtContents u) ∧ ∀ p, IterSpec.Occurs p y.obj → x.Has (idOf p)
  few_imports : I.length < 4294967296
  few_annots : A.length < 4294967296

theorem pend_empty (u : Ulib) (x : Index) : Pend u x emptyBuf [] [] [] :=
  ⟨rfl, rfl, fun _ => rfl, nofun, nofun, nofun, nofun, nofun, by decide, by decide⟩

theorem Pend.mono {u : Ulib} {x y : Index} {buf : OntoSt} {I A X : List Ref} (h : Pend u x buf I A X)
    (hxy : ∀ i, x.Has i → y.Has i) : Pend u y buf I A X where
  imports := h.imports
  annots := h.annots
  axioms := h.axioms
  has_iri i hi := hxy _ (h.has_iri i hi)
  has_version i hi := hxy _ (h.has_version i hi)
  good_import z hz := let ⟨i, h1, h2⟩ := h.good_import z hz; ⟨i, h1, hxy _ h2⟩
  good_annot z hz := let ⟨i, h1, h2, h3⟩ := h.good_annot z hz; ⟨i, h1, h2, fun p hp => hxy _ (h3 p hp)⟩
  good_axiom z hz := let ⟨i, h1, h2, h3⟩ := h.good_axiom z hz; ⟨i, h1, h2, fun p hp => hxy _ (h3 p hp)⟩
  few_imports := h.few_imports
  few_annots := h.few_annots

theorem Pend.isAxiom {u : Ulib} {x : Index} {buf : OntoSt} {I A X : List Ref} (h : Pend u x buf I A X) :
    ∀ y ∈ X, OntoSpec.IsAxiom y.obj := by
  intro y hy
  obtain ⟨a, e, _⟩ := h.good_axiom y hy
  rw [e]; exact isAxiom_toObj a

/-- The items of what is due. -/
def pendItems (ps : List (Str × Str)) (buf : OntoSt) (I A X : List Ref) : List Item :=
  (ps.map fun p => Item.prefixDecl p.1 p.2) ++ idItems buf.iri buf.version ++ I.map (fun x => Item.import (importIri x)) ++
    A.map (fun x => Item.annot x.obj) ++ (sorted X).map fun x => Item.ax x.obj

theorem Pend.chunk {u : Ulib} {x : Index} {buf : OntoSt} {I A X : List Ref} (h : Pend u x buf I A X) :
    ∃ is as xs, Chunk (prtContents u) x buf is as xs ∧ ∀ ps, chunkItems ps buf is as xs = pendItems ps buf I A X := by
  have hX : collectAxioms buf.onto = sorted X := by
    rw [collect_eq, axiomsOf, sorted]
    congr 1
    funext t
    exact h.axioms t
  have hm : ∀ y ∈ sorted X, y ∈ X := by
    intro y hy
    obtain ⟨t, _, ht⟩ := List.mem_flatMap.1 hy
    exact (List.mem_filter.1 ht).1
  obtain ⟨is, i1, i2⟩ := exists_map h.good_import
  obtain ⟨as, n1, n2⟩ := exists_map (P := fun a : Annot => a.Meets (prtContents u) ∧ ∀ p, IterSpec.Occurs p a.toObj → x.Has (idOf p))
    (xs := A) (f := Annot.toObj) (fun y hy => let ⟨a, e1, e2, e3⟩ := h.good_annot y hy; ⟨a, e1, e2, fun p hp => e3 p (by rw [e1]; exact hp)⟩)
  obtain ⟨xs, x1, x2⟩ := exists_map (P := fun a : Axiom => a.Meets (prtContents u) ∧ ∀ p, IterSpec.Occurs p a.toObj → x.Has (idOf p))
    (xs := sorted X) (f := Axiom.toObj) (fun y hy => let ⟨a, e1, e2, e3⟩ := h.good_axiom y (hm y hy); ⟨a, e1, e2, fun p hp => e3 p (by rw [e1]; exact hp)⟩)
  have l1 : is.length = I.length := by simpa using (congrArg List.length i1).symm
  have l2 : as.length = A.length := by simpa using (congrArg List.length n1).symm
  refine ⟨is, as, xs, ⟨?_, ?_, ?_, h.has_iri, h.has_version, i2, fun a ha => (n2 a ha).2, fun a ha => (x2 a ha).2,
    fun a ha => (n2 a ha).1, fun a ha => (x2 a ha).1, ?_, ?_⟩, fun ps => ?_⟩
  · rw [h.imports]; exact i1
  · rw [h.annots]; exact n1
  · rw [hX]; exact x1
  · rw [l1]; exact h.few_imports
  · rw [l2]; exact h.few_annots
  · unfold chunkItems pendItems
    have e1 : A.map (fun x => Item.annot x.obj) = as.map fun a => Item.annot a.toObj := by
      have := congrArg (List.map Item.annot) n1
      simpa [Function.comp_def] using this
    have e2 : (sorted X).map (fun x => Item.ax x.obj) = xs.map fun a => Item.ax a.toObj := by
      have := congrArg (List.map Item.ax) x1
      simpa [Function.comp_def] using this
    have e3 : I.map (fun x => Item.import (importIri x)) = is.map Item.import := by
      have := congrArg (List.map fun o => Item.import (importIri ⟨0, o⟩)) i1
      simp only [List.map_map, Function.comp_def] at this
      exact this
    rw [e1, e2, e3]

/-! ## Additions and removals -/

/-- Items as changes. -/
def tag (rm : Bool) (is : List Item) : List (Bool × Item) := is.map fun i => (rm, i)

theorem tag_append (rm : Bool) (is js : List Item) : tag rm (is ++ js) = tag rm is ++ tag rm js := List.map_append

theorem tag_nil (rm : Bool) : tag rm [] = [] := rfl

/-- Some frames are read, where additions and removals may alternate. -/
def FRx {σ : Type} (E : Env) (h : Callback σ (Bool × Item)) (rm : Bool) (d : DIndex) (b : Str) (js : List (Bool × Item))
    (rm' : Bool) (d' : DIndex) : Prop :=
  ∀ rest ctx f, run E h ⟨ctx, ⟨b ++ rest, d, f⟩, rm, .ok⟩ = run E h ⟨give h ctx js, ⟨rest, d', f⟩, rm', .ok⟩

theorem give_tag {σ : Type} (h : Callback σ (Bool × Item)) (rm : Bool) (is : List Item) (ctx : σ) :
    give (told h rm) ctx is = give h ctx (tag rm is) := by
  unfold give tag
  rw [List.foldl_map]
  rfl

theorem FR.x {σ : Type} {E : Env} {h : Callback σ (Bool × Item)} {rm : Bool} {d d' : DIndex} {b : Str} {is : List Item}
    (hf : FR E h rm d b is d') : FRx E h rm d b (tag rm is) rm d' := by
  intro rest ctx f
  rw [hf, give_tag]

theorem FRx.append {σ : Type} {E : Env} {h : Callback σ (Bool × Item)} {rm rm' rm'' : Bool} {d d' d'' : DIndex} {b b' : Str}
    {js js' : List (Bool × Item)} (h1 : FRx E h rm d b js rm' d') (h2 : FRx E h rm' d' b' js' rm'' d'') :
    FRx E h rm d (b ++ b') (js ++ js') rm'' d'' := by
  intro rest ctx f
  rw [List.append_assoc, h1, h2, Func.give_append]

/-! ## The encoder -/

/-- The encoder is in step with a reader: `T` was told, `ps`, `I`, `A`, `X` are due, as
additions or as removals. The handler accepts at least the kinds of change in `R`. -/
structure SInv (R : Bool → Prop) (E : Env) (names : List Id) (l : List (Str × Str)) (rm : Bool) (s : SSt) (T : List (Bool × Item))
    (ps : List (Str × Str)) (I A X : List Ref) : Prop where
  mode : R rm
  wrote : ∃ d b, Agree s.x d ∧ s.out = 1 :: b ∧ ∀ {σ : Type} (k : Callback σ (Bool × Item)), (∀ r, R r → Accepts (told k r)) →
    FRx E k false {} b T rm d
  sane : s.x.ns.Sane
  due : s.x.ns.due = some ps
  bnd : Bnd names l s.x
  pend : Pend E.u s.x s.buf I A X

theorem sinv_init (R : Bool → Prop) (hR : R false) (E : Env) (names : List Id) (l : List (Str × Str)) :
    SInv R E names l false { out := [1] } [] [] [] [] [] where
  mode := hR
  wrote := ⟨{}, [], agree_init, rfl, fun _ _ => fun _ _ _ => rfl⟩
  sane := sane_init
  due := due_init
  bnd := bnd_init names l
  pend := pend_empty _ _

section
variable {R : Bool → Prop} {E : Env} {names : List Id} {l : List (Str × Str)} {rm : Bool} {s : SSt} {T : List (Bool × Item)} {ps : List (Str × Str)} {I A X : List Ref}

theorem flush_spec (hu : E.u.Lawful) (hn : NamesOk names l) (h : SInv R E names l rm s T ps I A X) :
    ∃ t, s.flush E.u true = some t ∧ t.buf = emptyBuf ∧ t.x.ns.pv.vec = s.x.ns.pv.vec ∧
      SInv R E names l rm t (T ++ tag rm (pendItems ps s.buf I A X)) [] [] [] [] := by
  obtain ⟨d, b, hA, ho, hf⟩ := h.wrote
  obtain ⟨is, as, xs, hc, hi⟩ := h.pend.chunk
  obtain ⟨b', ps', e1, e2, e3⟩ := fr_data hu hA (h.bnd.short hA hn) hc
  have hps : ps' = ps := Option.some.inj (e2.symm.trans h.due)
  subst hps
  obtain ⟨ds, -, -, hA'⟩ := hA.flush
  refine ⟨{ x := s.x.sync, out := s.out ++ b' }, ?_, rfl, rfl, h.mode, ⟨_, b ++ b', hA', by rw [ho]; rfl, fun k hk => ?_⟩, h.sane, ?_, ?_, pend_empty _ _⟩
  · unfold SSt.flush
    rw [e1]; rfl
  · rw [← hi]; exact (hf k hk).append (e3 k rm (hk rm h.mode)).x
  · show NsMap.due { s.x.ns with pv := s.x.ns.pv.sync } = some []
    have : s.x.ns.pv.sync.firsts = [] := by simp [PVec.firsts, PVec.sync]
    unfold NsMap.due
    rw [this]; rfl
  · exact ⟨h.bnd.ids, h.bnd.ns, h.bnd.pfx, h.bnd.std⟩

theorem reset_spec (hu : E.u.Lawful) (b : Bool) (h : SInv R E names l rm s T [] [] [] []) :
    SInv R E names l rm (s.reset b) T [] [] [] [] := by
  obtain ⟨d, w, hA, ho, hf⟩ := h.wrote
  have hi := bnd_init names l
  refine ⟨h.mode, ⟨d.reset b true, w ++ [resetByte b], hA.reset b, by simp [SSt.reset, ho], fun k hk => ?_⟩, ?_, ?_, ?_, pend_empty _ _⟩
  · have : FR E k rm d [resetByte b] [] (d.reset b true) := by
      refine fr_frame hu ?_
      intro rest ctx f
      cases b <;> rfl
    simpa [tag] using (hf k hk).append this.x
  · cases b with
    | true => exact sane_init
    | false => exact h.sane
  · cases b with
    | true => exact due_init
    | false => exact h.due
  · cases b with
    | true => exact ⟨nofun, hi.ns, hi.pfx, hi.std⟩
    | false => exact ⟨nofun, h.bnd.ns, h.bnd.pfx, h.bnd.std⟩

theorem need_spec (hu : E.u.Lawful) (hn : NamesOk names l) (size : Nat) (h : SInv R E names l rm s T ps I A X) :
    ∃ t, s.flushIfNeeded E.u true size = some t ∧ (∀ n ∈ t.x.ns.pv.vec, n ∈ stdPrefixes.map (·.2) ∨ n ∈ s.x.ns.pv.vec) ∧
      (t = s ∨ t.buf = emptyBuf ∧ SInv R E names l rm t (T ++ tag rm (pendItems ps s.buf I A X)) [] [] [] []) := by
  obtain ⟨t, h1, h2, h3, h4⟩ := flush_spec hu hn h
  unfold SSt.flushIfNeeded
  split
  · generalize hb : decide (size / 4 < s.prefixCount) = b
    refine ⟨t.reset b, by rw [h1]; rfl, fun n hm => ?_, .inr ⟨rfl, reset_spec hu b h4⟩⟩
    cases b with
    | true =>
      have : n ∈ NsMap.init.pv.vec := hm
      rw [init_vec] at this
      exact .inl this
    | false => exact .inr (h3 ▸ hm)
  · split
    · exact ⟨t, h1, fun n hm => .inr (h3 ▸ hm), .inr ⟨h2, h4⟩⟩
    · exact ⟨s, rfl, fun n hm => .inr hm, .inl rfl⟩

/-- Names are added to the index. -/
theorem SInv.prims (hn : NamesOk names l) (h : SInv R E names l rm s T ps I A X) (ls : List Prim) (hl : ∀ p ∈ ls, idOf p ∈ names) :
    SInv R E names l rm { s with x := ls.foldl Index.addPrim s.x } T ps I A X ∧
      ∀ p ∈ ls, (ls.foldl Index.addPrim s.x).Has (idOf p) := by
  obtain ⟨d, w, hA, ho, hf⟩ := h.wrote
  obtain ⟨y, e, h1, h2, h3, h4, h5⟩ := addPrims_spec ls hA
  rw [e]
  have hp : ∀ n, y.ns.pfx n = s.x.ns.pfx n := fun n => by unfold NsMap.pfx; rw [h2]
  refine ⟨⟨h.mode, ⟨d, w, h1, ho, hf⟩, fun n hm => ?_, h3.trans h.due, ⟨fun i hi => ?_, fun n hm => ?_, fun n p hm => ?_, fun n hm => ?_⟩, ?_⟩, ?_⟩
  · rw [hp n] at hm
    exact (h5 n).2 (.inl (h.sane n hm))
  · rcases (h4 i).1 hi with hi | ⟨p, hp, rfl⟩
    · exact h.bnd.ids i hi
    · exact hl p hp
  · rcases (h5 n).1 hm with hm | ⟨p, hp, r, hr⟩
    · exact h.bnd.ns n hm
    · exact .inr (.inr ⟨r, hr ▸ hl p hp⟩)
  · rw [hp n] at hm
    exact h.bnd.pfx n p hm
  · exact (h5 n).2 (.inl (h.bnd.std n hm))
  · exact h.pend.mono fun i hi => ⟨(h4 i).2 (.inl hi.1), hi.2⟩
  · intro p hp
    exact ⟨(h4 _).2 (.inr ⟨p, hp, rfl⟩), hn.read (hl p hp)⟩

theorem addObj_eq (x : Index) (o : Obj) : x.addObj o = (occ o).foldl Index.addPrim x :=
  iterPrims_fold Index.addPrim o x

/-! ## Prefixes -/

/-- While prefixes are added. -/
def PfxSt (R : Bool → Prop) (E : Env) (names : List Id) (l : List (Str × Str)) (s : SSt) (Q : List (Str × Str)) : Prop :=
  ∃ T ps, SInv R E names l false s T ps [] [] [] ∧ s.buf = emptyBuf ∧
    T ++ tag false (ps.map fun p => Item.prefixDecl p.1 p.2) = tag false (Q.map fun p => Item.prefixDecl p.1 p.2) ∧
    ∀ n ∈ s.x.ns.pv.vec, n ∈ stdPrefixes.map (·.2) ∨ n ∈ Q.map (·.2)

theorem pendItems_pfx (ps : List (Str × Str)) : pendItems ps emptyBuf [] [] [] = ps.map fun p => Item.prefixDecl p.1 p.2 := by
  have : sorted [] = [] := rfl
  simp [pendItems, this, emptyBuf, idItems]

theorem addPrefix_spec (hu : E.u.Lawful) (hn : NamesOk names l) (size : Nat) {Q : List (Str × Str)} (h : PfxSt R E names l s Q)
    {e : Str × Str} (he : e ∈ l) :
    ∃ t Q', s.addPrefix E.u true size e = some t ∧ PfxSt R E names l t (Q ++ Q') ∧ Q'.Sublist [e] ∧
      (∀ q ∈ Q', q.2 ∉ stdPrefixes.map (·.2)) ∧ (e.2 ∈ stdPrefixes.map (·.2) ∨ e.2 ∈ (Q ++ Q').map (·.2)) := by
  obtain ⟨T, ps, hi, hb, hT, hv⟩ := h
  obtain ⟨d, w, hA, ho, hf⟩ := hi.wrote
  obtain ⟨y, e1, h1, h2, h3, h4, h5, h6⟩ := addPrefixes_spec [e] hA hi.sane hi.due
  have e1 : s.x.addPrefix e.2 e.1 = y := e1
  have hi' : SInv R E names l false { s with x := y } T (ps ++ newPfxs s.x.ns.pv.vec [e]) [] [] [] := by
    refine ⟨hi.mode, ⟨d, w, h1, ho, hf⟩, h2, h4, ⟨fun i hm => ?_, fun n hm => ?_, fun n p hm => ?_, fun n hm => ?_⟩, ?_⟩
    · have hm : i ∈ y.ids.vec := hm
      rw [h3] at hm; exact hi.bnd.ids i hm
    · rcases (h5 n).1 hm with hm | ⟨e', he', rfl⟩
      · exact hi.bnd.ns n hm
      · rw [List.mem_singleton.1 he']; exact .inr (.inl ⟨e.1, he⟩)
    · rcases h6 n p hm with hm | hm
      · exact hi.bnd.pfx n p hm
      · rw [List.mem_singleton.1 hm]; exact .inr he
    · exact (h5 n).2 (.inl (hi.bnd.std n hm))
    · exact hi.pend.mono fun i hm => ⟨by show i ∈ y.ids.vec; rw [h3]; exact hm.1, hm.2⟩
  generalize hQ' : newPfxs s.x.ns.pv.vec [e] = Q' at hi'
  have hT' : T ++ tag false ((ps ++ Q').map fun p => Item.prefixDecl p.1 p.2) =
      tag false ((Q ++ Q').map fun p => Item.prefixDecl p.1 p.2) := by
    rw [List.map_append, List.map_append, tag_append, tag_append, ← List.append_assoc, hT]
  have hnew : Q'.Sublist [e] ∧ (∀ q ∈ Q', q.2 ∉ s.x.ns.pv.vec) ∧ (e.2 ∈ s.x.ns.pv.vec ∨ e ∈ Q') := by
    rw [← hQ']
    refine ⟨newPfxs_sublist _ _, ?_, ?_⟩
    · intro q hq
      exact (((newPfxs_ns [e] s.x.ns.pv.vec).2 q.2).1 (List.mem_map_of_mem hq)).1
    · by_cases hm : e.2 ∈ s.x.ns.pv.vec
      · exact .inl hm
      · right; simp [newPfxs, hm]
  have hcov : ∀ n ∈ y.ns.pv.vec, n ∈ stdPrefixes.map (·.2) ∨ n ∈ (Q ++ Q').map (·.2) := by
    intro n hm
    rw [List.map_append, List.mem_append]
    rcases (h5 n).1 hm with hm | ⟨e', he', rfl⟩
    · rcases hv n hm with h | h
      · exact .inl h
      · exact .inr (.inl h)
    · rw [List.mem_singleton.1 he']
      rcases hnew.2.2 with hm | hm
      · rcases hv _ hm with h | h
        · exact .inl h
        · exact .inr (.inl h)
      · exact .inr (.inr (List.mem_map_of_mem hm))
  obtain ⟨t, t1, t2, t3⟩ := need_spec hu hn size hi'
  refine ⟨t, Q', ?_, ?_, hnew.1, fun q hq c => hnew.2.1 q hq (hi.bnd.std _ c), ?_⟩
  · unfold SSt.addPrefix
    rw [e1]; exact t1
  · rcases t3 with rfl | ⟨tb, ti⟩
    · exact ⟨T, ps ++ Q', hi', hb, hT', hcov⟩
    · refine ⟨_, [], ti, tb, ?_, fun n hm => ?_⟩
      · rw [List.map_nil, tag_nil, List.append_nil]
        show T ++ tag false (pendItems (ps ++ Q') s.buf [] [] []) = _
        rw [hb, pendItems_pfx, hT']
      · rcases t2 n hm with h | h
        · exact .inl h
        · exact hcov n h
  · exact hcov e.2 ((h5 e.2).2 (.inr ⟨e, by simp, rfl⟩))

theorem addPrefixes_stream (hu : E.u.Lawful) (hn : NamesOk names l) (size : Nat) : ∀ (es : List (Str × Str)) (s : SSt)
    (Q : List (Str × Str)), PfxSt R E names l s Q → (∀ e ∈ es, e ∈ l) →
    ∃ t Q', es.foldlM (SSt.addPrefix E.u true size) s = some t ∧ PfxSt R E names l t (Q ++ Q') ∧ Q'.Sublist es ∧
      (∀ q ∈ Q', q.2 ∉ stdPrefixes.map (·.2)) ∧ ∀ e ∈ es, e.2 ∈ stdPrefixes.map (·.2) ∨ e.2 ∈ (Q ++ Q').map (·.2)
  | [], s, Q, h, _ => ⟨s, [], rfl, by rwa [List.append_nil], .slnil, nofun, nofun⟩
  | e :: es, s, Q, h, hl => by
    obtain ⟨t, Q1, a1, a2, a3, a4, a5⟩ := addPrefix_spec hu hn size h (hl e (by simp))
    obtain ⟨t', Q2, b1, b2, b3, b4, b5⟩ := addPrefixes_stream hu hn size es t _ a2 fun e he => hl e (by simp [he])
    refine ⟨t', Q1 ++ Q2, ?_, by rw [← List.append_assoc]; exact b2, ?_, ?_, ?_⟩
    · rw [List.foldlM_cons, a1]; exact b1
    · exact a3.append b3
    · intro q hq
      rcases List.mem_append.1 hq with hq | hq
      · exact a4 q hq
      · exact b4 q hq
    · intro f hf
      rw [← List.append_assoc]
      rcases List.mem_cons.1 hf with rfl | hf
      · rcases a5 with h | h
        · exact .inl h
        · right; rw [List.map_append]; exact List.mem_append_left _ h
      · exact b5 f hf

/-! ## IRI and version, imports, annotations -/

/-- While the rest of the header is added: all that was told or is due; at most `n` imports
and `m` annotations are due. -/
def HdrSt (R : Bool → Prop) (E : Env) (names : List Id) (l : List (Str × Str)) (s : SSt) (Q : List Item) (n m : Nat) : Prop :=
  ∃ T ps I A, SInv R E names l false s T ps I A [] ∧ T ++ tag false (pendItems ps s.buf I A []) = tag false Q ∧ I.length ≤ n ∧ A.length ≤ m

theorem HdrSt.need (hu : E.u.Lawful) (hn : NamesOk names l) (size : Nat) {Q : List Item} {n m : Nat}
    (h : HdrSt R E names l s Q n m) : ∃ t, s.flushIfNeeded E.u true size = some t ∧ HdrSt R E names l t Q n m := by
  obtain ⟨T, ps, I, A, hi, hT, h1, h2⟩ := h
  obtain ⟨t, t1, t2, t3⟩ := need_spec hu hn size hi
  refine ⟨t, t1, ?_⟩
  rcases t3 with rfl | ⟨tb, ti⟩
  · exact ⟨T, ps, I, A, hi, hT, h1, h2⟩
  · refine ⟨_, [], [], [], ti, ?_, Nat.zero_le _, Nat.zero_le _⟩
    rw [hT, tb, pendItems_pfx]
    simp [tag]

theorem addId_spec (hu : E.u.Lawful) (hn : NamesOk names l) (size : Nat) {Q : List (Str × Str)} (h : PfxSt R E names l s Q)
    (iri version : Option Iri) (h1 : ∀ i, iri = some i → .iri i ∈ names) (h2 : ∀ i, version = some i → .iri i ∈ names) :
    ∃ t, s.addId E.u true size iri version = some t ∧
      HdrSt R E names l t ((Q.map fun p => Item.prefixDecl p.1 p.2) ++ idItems iri version) 0 0 := by
  obtain ⟨T, ps, hi, hb, hT, hv⟩ := h
  have key : ∀ (i v : Option Iri) (ls : List Prim), (∀ p ∈ ls, idOf p ∈ names) → (∀ j, i = some j → .iri j ∈ ls.map idOf) →
      (∀ j, v = some j → .iri j ∈ ls.map idOf) →
      HdrSt R E names l { s with buf := { s.buf with iri := i, version := v }, x := ls.foldl Index.addPrim s.x }
        ((Q.map fun p => Item.prefixDecl p.1 p.2) ++ idItems i v) 0 0 := by
    intro i v ls hl hi1 hv1
    obtain ⟨k1, k2⟩ := hi.prims hn ls hl
    have hp : Pend E.u (ls.foldl Index.addPrim s.x) { s.buf with iri := i, version := v } [] [] [] := by
      refine { k1.pend with has_iri := fun j hj => ?_, has_version := fun j hj => ?_ }
      · obtain ⟨p, hp, e⟩ := List.mem_map.1 (hi1 j hj)
        rw [← e]; exact k2 p hp
      · obtain ⟨p, hp, e⟩ := List.mem_map.1 (hv1 j hj)
        rw [← e]; exact k2 p hp
    refine ⟨T, ps, [], [], ⟨k1.mode, k1.wrote, k1.sane, k1.due, k1.bnd, hp⟩, ?_, Nat.le_refl _, Nat.le_refl _⟩
    rw [tag_append, ← hT]
    have : sorted [] = [] := rfl
    simp [pendItems, this, tag]
  have hbuf : s.buf = { s.buf with iri := none, version := none } := by rw [hb]; rfl
  unfold SSt.addId
  cases iri with
  | none =>
    have := key none none [] nofun nofun nofun
    rw [← hbuf] at this
    exact (HdrSt.need hu hn size this)
  | some i =>
    have hii := h1 i rfl
    cases version with
    | none =>
      have := key (some i) none [.iri i] (by simp [idOf, hii]) (by simp [idOf]) nofun
      have e : s.buf.version = none := by rw [hb]; rfl
      have e : { s.buf with iri := some i } = { s.buf with iri := some i, version := none } := by rw [← e]
      dsimp only
      rw [e]
      exact (HdrSt.need hu hn size this)
    | some v =>
      exact (HdrSt.need hu hn size (key (some i) (some v) [.iri i, .iri v] (by simp [idOf, hii, h2 v rfl]) (by simp [idOf])
        (by simp [idOf])))

theorem addImport_spec (hu : E.u.Lawful) (hn : NamesOk names l) (size : Nat) {Q : List Item} {n : Nat}
    (h : HdrSt R E names l s Q n 0) (hlt : n + 1 < 4294967296) {x : Ref} (hx : ∃ i, x.obj = .prim (.iri i) ∧ .iri i ∈ names) :
    ∃ t, s.add E.u true size OntoSt.withImport x = some t ∧ HdrSt R E names l t (Q ++ [Item.import (importIri x)]) (n + 1) 0 := by
  obtain ⟨T, ps, I, A, hi, hT, h1, h2⟩ := h
  have hA : A = [] := List.length_eq_zero_iff.1 (Nat.le_zero.1 h2)
  subst hA
  obtain ⟨i, e, hm⟩ := hx
  have hocc : occ x.obj = [.iri i] := by rw [e, occ]
  obtain ⟨k1, k2⟩ := hi.prims hn (occ x.obj) (by rw [hocc]; simpa [idOf] using hm)
  unfold SSt.add
  rw [addObj_eq]
  refine HdrSt.need hu hn size ⟨T, ps, I ++ [x], [], ⟨k1.mode, k1.wrote, k1.sane, k1.due, k1.bnd, ?_⟩, ?_, by simp; omega, Nat.le_refl _⟩
  · refine { k1.pend with imports := ?_, good_import := ?_, few_imports := by simp; omega }
    · rw [← hi.pend.imports]; rfl
    · intro y hy
      rcases List.mem_append.1 hy with hy | hy
      · exact k1.pend.good_import y hy
      · rw [List.mem_singleton.1 hy]
        exact ⟨i, e, k2 (.iri i) (by rw [hocc]; simp)⟩
  · rw [tag_append, ← hT]
    have : sorted [] = [] := rfl
    simp [pendItems, this, tag, OntoSt.withImport]

theorem addAnnot_spec (hu : E.u.Lawful) (hn : NamesOk names l) (size : Nat) {Q : List Item} {n m : Nat}
    (h : HdrSt R E names l s Q n m) (hlt : m + 1 < 4294967296) {x : Ref}
    (hx : ∃ a : Annot, x.obj = a.toObj ∧ a.Meets (prtContents E.u) ∧ ∀ p, IterSpec.Occurs p x.obj → idOf p ∈ names) :
    ∃ t, s.add E.u true size OntoSt.withAnnot x = some t ∧ HdrSt R E names l t (Q ++ [Item.annot x.obj]) n (m + 1) := by
  obtain ⟨T, ps, I, A, hi, hT, h1, h2⟩ := h
  obtain ⟨a, e, hM, hm⟩ := hx
  have hocc : ∀ p, p ∈ occ x.obj ↔ IterSpec.Occurs p x.obj := fun p => mem_occ_iff x.obj p (by rw [e]; exact wf_annot a)
  obtain ⟨k1, k2⟩ := hi.prims hn (occ x.obj) fun p hp => hm p ((hocc p).1 hp)
  unfold SSt.add
  rw [addObj_eq]
  refine HdrSt.need hu hn size ⟨T, ps, I, A ++ [x], ⟨k1.mode, k1.wrote, k1.sane, k1.due, k1.bnd, ?_⟩, ?_, h1, by simp; omega⟩
  · refine { k1.pend with annots := ?_, good_annot := ?_, few_annots := by simp; omega }
    · rw [← hi.pend.annots]; rfl
    · intro y hy
      rcases List.mem_append.1 hy with hy | hy
      · exact k1.pend.good_annot y hy
      · rw [List.mem_singleton.1 hy]
        exact ⟨a, e, hM, fun p hp => k2 p ((hocc p).2 hp)⟩
  · rw [tag_append, ← hT]
    have : sorted [] = [] := rfl
    simp [pendItems, this, tag, OntoSt.withAnnot]

theorem addImports_stream (hu : E.u.Lawful) (hn : NamesOk names l) (size : Nat) : ∀ (xs : List Ref) (s : SSt) (Q : List Item) (n : Nat),
    HdrSt R E names l s Q n 0 → n + xs.length < 4294967296 → (∀ x ∈ xs, ∃ i, x.obj = .prim (.iri i) ∧ .iri i ∈ names) →
    ∃ t k, xs.foldlM (SSt.add E.u true size OntoSt.withImport) s = some t ∧
      HdrSt R E names l t (Q ++ xs.map fun x => Item.import (importIri x)) k 0
  | [], s, Q, n, h, _, _ => ⟨s, n, rfl, by simpa using h⟩
  | x :: xs, s, Q, n, h, hl, hx => by
    simp only [List.length_cons] at hl
    obtain ⟨t, a1, a2⟩ := addImport_spec hu hn size h (by omega) (hx x (by simp))
    obtain ⟨t', k, b1, b2⟩ := addImports_stream hu hn size xs t _ (n + 1) a2 (by omega) fun y hy => hx y (by simp [hy])
    refine ⟨t', k, ?_, by simpa using b2⟩
    rw [List.foldlM_cons, a1]; exact b1

theorem addAnnots_stream (hu : E.u.Lawful) (hn : NamesOk names l) (size : Nat) : ∀ (xs : List Ref) (s : SSt) (Q : List Item) (n m : Nat),
    HdrSt R E names l s Q n m → m + xs.length < 4294967296 →
    (∀ x ∈ xs, ∃ a : Annot, x.obj = a.toObj ∧ a.Meets (prtContents E.u) ∧ ∀ p, IterSpec.Occurs p x.obj → idOf p ∈ names) →
    ∃ t k, xs.foldlM (SSt.add E.u true size OntoSt.withAnnot) s = some t ∧
      HdrSt R E names l t (Q ++ xs.map fun x => Item.annot x.obj) n k
  | [], s, Q, n, m, h, _, _ => ⟨s, m, rfl, by simpa using h⟩
  | x :: xs, s, Q, n, m, h, hl, hx => by
    simp only [List.length_cons] at hl
    obtain ⟨t, a1, a2⟩ := addAnnot_spec hu hn size h (by omega) (hx x (by simp))
    obtain ⟨t', k, b1, b2⟩ := addAnnots_stream hu hn size xs t _ n (m + 1) a2 (by omega) fun y hy => hx y (by simp [hy])
    refine ⟨t', k, ?_, by simpa using b2⟩
    rw [List.foldlM_cons, a1]; exact b1

/-! ## Axioms -/

/-- While axioms are added: the header `H` and the axioms `Y`. -/
def AxSt (R : Bool → Prop) (E : Env) (names : List Id) (l : List (Str × Str)) (rm : Bool) (s : SSt) (H : List (Bool × Item)) (Y : List Ref) : Prop :=
  ∃ T ps I A X X0, SInv R E names l rm s T ps I A X ∧ T ++ tag rm (pendItems ps s.buf I A []) = H ++ tag rm (X0.map fun x => Item.ax x.obj) ∧
    SameAx (X0 ++ X) Y

theorem pendItems_ax (ps : List (Str × Str)) (buf : OntoSt) (I A X : List Ref) :
    pendItems ps buf I A X = pendItems ps buf I A [] ++ (sorted X).map fun x => Item.ax x.obj := by
  have : sorted [] = [] := rfl
  simp [pendItems, this]

theorem addAxiom_spec (hu : E.u.Lawful) (hn : NamesOk names l) (size : Nat) {H : List (Bool × Item)} {Y : List Ref}
    (h : AxSt R E names l rm s H Y) {x : Ref}
    (hx : ∃ a : Axiom, x.obj = a.toObj ∧ a.Meets (prtContents E.u) ∧ ∀ p, IterSpec.Occurs p x.obj → idOf p ∈ names) :
    ∃ t, s.writeAxiom E.u true size x = some t ∧ AxSt R E names l rm t H (Y ++ [x]) := by
  obtain ⟨T, ps, I, A, X, X0, hi, hT, hs⟩ := h
  obtain ⟨a, e, hM, hm⟩ := hx
  have hocc : ∀ p, p ∈ occ x.obj ↔ IterSpec.Occurs p x.obj := fun p => mem_occ_iff x.obj p (by rw [e]; exact (isAxiom_toObj a).1)
  obtain ⟨k1, k2⟩ := hi.prims hn (occ x.obj) fun p hp => hm p ((hocc p).1 hp)
  unfold SSt.writeAxiom SSt.add
  rw [addObj_eq]
  have hi' : SInv R E names l rm { s with x := (occ x.obj).foldl Index.addPrim s.x, buf := OntoSt.withAxiom s.buf x, cur := s.cur + 1 }
      T ps I A (X ++ [x]) := by
    refine ⟨k1.mode, k1.wrote, k1.sane, k1.due, k1.bnd, { k1.pend with axioms := ?_, good_axiom := ?_ }⟩
    · intro t
      show ((s.buf.onto.addAxiom x).byType t).getD [] = _
      rw [addAxiom_byType, hi.pend.axioms t, List.filter_append, List.filter_cons]
      simp
    · intro y hy
      rcases List.mem_append.1 hy with hy | hy
      · exact k1.pend.good_axiom y hy
      · rw [List.mem_singleton.1 hy]
        exact ⟨a, e, hM, fun p hp => k2 p ((hocc p).2 hp)⟩
  have hs' : SameAx (X0 ++ (X ++ [x])) (Y ++ [x]) := by
    rw [← List.append_assoc]; exact hs.append (.refl _)
  obtain ⟨t, t1, t2, t3⟩ := need_spec hu hn size hi'
  refine ⟨t, t1, ?_⟩
  rcases t3 with rfl | ⟨tb, ti⟩
  · exact ⟨T, ps, I, A, X ++ [x], X0, hi', hT, hs'⟩
  · refine ⟨_, [], [], [], [], X0 ++ sorted (X ++ [x]), ti, ?_, ?_⟩
    · rw [tb, pendItems_pfx, pendItems_ax, tag_append, ← List.append_assoc]
      show ((T ++ tag rm (pendItems ps s.buf I A [])) ++ _) ++ _ = _
      rw [hT]
      simp [tag]
    · rw [List.append_nil]
      exact ((SameAx.refl X0).append (sorted_sim hi'.pend.isAxiom)).trans hs'

theorem addAxioms_stream (hu : E.u.Lawful) (hn : NamesOk names l) (size : Nat) : ∀ (xs : List Ref) (s : SSt) (H : List (Bool × Item))
    (Y : List Ref), AxSt R E names l rm s H Y →
    (∀ x ∈ xs, ∃ a : Axiom, x.obj = a.toObj ∧ a.Meets (prtContents E.u) ∧ ∀ p, IterSpec.Occurs p x.obj → idOf p ∈ names) →
    ∃ t, xs.foldlM (SSt.writeAxiom E.u true size) s = some t ∧ AxSt R E names l rm t H (Y ++ xs)
  | [], s, H, Y, h, _ => ⟨s, rfl, by simpa using h⟩
  | x :: xs, s, H, Y, h, hx => by
    obtain ⟨t, a1, a2⟩ := addAxiom_spec hu hn size h (hx x (by simp))
    obtain ⟨t', b1, b2⟩ := addAxioms_stream hu hn size xs t _ _ a2 fun y hy => hx y (by simp [hy])
    refine ⟨t', ?_, by simpa using b2⟩
    rw [List.foldlM_cons, a1]; exact b1

/-- Writing what is due. -/
theorem flushAx_spec (hu : E.u.Lawful) (hn : NamesOk names l) {H : List (Bool × Item)} {Y : List Ref} (h : AxSt R E names l rm s H Y) :
    ∃ t X, s.flush E.u true = some t ∧ SameAx X Y ∧ t.buf = emptyBuf ∧
      SInv R E names l rm t (H ++ tag rm (X.map fun x => Item.ax x.obj)) [] [] [] [] := by
  obtain ⟨T, ps, I, A, X, X0, hi, hT, hs⟩ := h
  obtain ⟨t, t1, t2, t3, t4⟩ := flush_spec hu hn hi
  refine ⟨t, X0 ++ sorted X, t1, ((SameAx.refl X0).append (sorted_sim hi.pend.isAxiom)).trans hs, t2, ?_⟩
  rw [pendItems_ax, tag_append, ← List.append_assoc, hT, List.append_assoc, ← tag_append, ← List.map_append] at t4
  exact t4

theorem SInv.axSt (h : SInv R E names l rm s T [] [] [] []) (hb : s.buf = emptyBuf) : AxSt R E names l rm s T [] := by
  refine ⟨T, [], [], [], [], [], h, ?_, .refl _⟩
  rw [hb, pendItems_pfx]
  rfl

theorem footer_spec (hu : E.u.Lawful) (hn : NamesOk names l) {H : List (Bool × Item)} {Y : List Ref} (h : AxSt R E names l rm s H Y) :
    ∃ b X, s.writeFooter E.u true = some (1 :: b) ∧ SameAx X Y ∧
      ∀ {σ : Type} (k : Callback σ (Bool × Item)), (∀ r, R r → Accepts (told k r)) → ∀ ctx,
        prtRead E k (1 :: b) ctx = (give k ctx (H ++ tag rm (X.map fun x => Item.ax x.obj)), .done) := by
  obtain ⟨t, X, t1, t2, -, t4⟩ := flushAx_spec hu hn h
  obtain ⟨d, b, hA, ho, hf⟩ := t4.wrote
  refine ⟨b ++ [3], X, ?_, t2, fun k hk ctx => ?_⟩
  · unfold SSt.writeFooter
    rw [t1, Option.map_some, ho]; rfl
  · have := hf k hk [3] ctx 0
    unfold prtRead
    exact (if_pos rfl).trans this

end
end Cowl.Prt
