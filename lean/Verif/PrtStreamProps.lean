import Verif.PrtStreamLemmas
/-!
# C36: ProtocOWL streaming is transparent
-/
namespace Cowl.Prt
open Func FuncSpec
open Ast Change

/-- A selection of a list with distinct namespaces is determined by the namespaces. -/
theorem sublist_filter {known : List Str} : ∀ {ps l : List (Str × Str)}, ps.Sublist l → l.Pairwise (fun a b => a.2 ≠ b.2) →
    (∀ q ∈ ps, q.2 ∉ known) → (∀ e ∈ l, e.2 ∈ known ∨ e.2 ∈ ps.map (·.2)) → ps = l.filter fun e => !known.contains e.2
  | _, _, .slnil, _, _, _ => rfl
  | ps, _, .cons (l₂ := l) e h, hp, hk, hc => by
    have hp' := List.pairwise_cons.1 hp
    have he : e.2 ∈ known := by
      rcases hc e (by simp) with h' | h'
      · exact h'
      · obtain ⟨q, hq, eq⟩ := List.mem_map.1 h'
        exact absurd eq.symm (hp'.1 q (h.subset hq))
    rw [List.filter_cons, sublist_filter h hp'.2 hk fun f hf => hc f (by simp [hf])]
    simp [he]
  | _, _, .cons_cons (l₁ := ps) (l₂ := l) e h, hp, hk, hc => by
    have hp' := List.pairwise_cons.1 hp
    rw [List.filter_cons]
    have he : e.2 ∉ known := hk e (by simp)
    have ih := sublist_filter h hp'.2 (fun q hq => hk q (by simp [hq])) fun f hf => by
      rcases hc f (by simp [hf]) with h' | h'
      · exact .inl h'
      · rw [List.map_cons, List.mem_cons] at h'
        rcases h' with h' | h'
        · exact absurd h'.symm (hp'.1 f hf)
        · exact .inr h'
    rw [← ih]
    simp [he]

theorem idItems_eq {iri version : Option Iri} (h : ∀ v, version = some v → iri ≠ none) :
    idItems iri version = (iri.map Item.iri).toList ++ (version.map Item.version).toList := by
  unfold idItems
  cases iri with
  | some i => rfl
  | none =>
    cases version with
    | none => rfl
    | some v => exact absurd rfl (h v rfl)

/-- What a header tells, with a selection of the prefixes. -/
def headerItems (ps : List (Str × Str)) (h : Header) : List Item :=
  (ps.map fun p => Item.prefixDecl p.1 p.2) ++ idItems h.iri h.version ++
    h.imports.map (fun x => Item.import (importIri x)) ++ h.annots.map (fun x => Item.annot x.obj)

/-- The selection of prefixes. -/
def Selected (ps l : List (Str × Str)) : Prop :=
  ps.Sublist l ∧ (∀ q ∈ ps, q.2 ∉ stdPrefixes.map (·.2)) ∧ ∀ e ∈ l, e.2 ∈ stdPrefixes.map (·.2) ∨ e.2 ∈ ps.map (·.2)

theorem header_spec {R : Bool → Prop} (hR : R false) {E : Env} (hu : E.u.Lawful) {names : List Id} {h : Header} {axioms : List Ref}
    (ho : PrtStreamOk E.u names h axioms) (size : Nat) :
    ∃ s ps, writeHeader E.u true size h = some s ∧ Selected ps h.prefixes ∧
      AxSt R E names h.prefixes false s (tag false (headerItems ps h)) [] := by
  have hn : NamesOk names h.prefixes := ⟨ho.split, ho.short, ho.prefixes, ho.few⟩
  have h0 : PfxSt R E names h.prefixes { out := [1] } [] := ⟨[], [], sinv_init R hR E names _, rfl, rfl, fun n hm => .inl (by
    have : n ∈ NsMap.init.pv.vec := hm
    rwa [init_vec] at this)⟩
  obtain ⟨s1, ps, a1, a2, a3, a4, a5⟩ := addPrefixes_stream hu hn size h.prefixes _ _ h0 fun _ he => he
  obtain ⟨s2, b1, b2⟩ := addId_spec hu hn size a2 h.iri h.version ho.iri fun i hi => (ho.version i hi).2
  obtain ⟨s3, k3, c1, c2⟩ := addImports_stream hu hn size h.imports s2 _ 0 b2 (by have := ho.few_imports; omega) ho.imports
  obtain ⟨s4, k4, d1, d2⟩ := addAnnots_stream hu hn size h.annots s3 _ k3 0 c2 (by have := ho.few_annots; omega) ho.annots
  obtain ⟨T, qs, I, A, hi, hT, -, -⟩ := d2
  refine ⟨s4, ps, ?_, ⟨a3, a4, a5⟩, T, qs, I, A, [], [], hi, hT.trans (List.append_nil _).symm, .refl _⟩
  unfold writeHeader
  rw [a1, Option.bind_some, b1, Option.bind_some, c1, Option.bind_some, d1]

/-- The bytes, and what reading them does. -/
theorem streamed {E : Env} (hu : E.u.Lawful) {names : List Id} {h : Header} {axioms : List Ref}
    (ho : PrtStreamOk E.u names h axioms) (size : Nat) :
    ∃ (b : Str) (ps : List (Str × Str)) (X : List Ref), writeStream E.u true size h axioms = some b ∧ Selected ps h.prefixes ∧
      SameAx X axioms ∧
      ∀ {σ : Type} (k : Callback σ (Bool × Item)), Accepts (fun s i => k s (false, i)) → ∀ ctx,
        prtRead E k b ctx = (give (fun s i => k s (false, i)) ctx (headerItems ps h ++ X.map fun x => Item.ax x.obj), .done) := by
  have hn : NamesOk names h.prefixes := ⟨ho.split, ho.short, ho.prefixes, ho.few⟩
  obtain ⟨s4, ps, a1, a2, d2⟩ := header_spec (R := (· = false)) rfl hu ho size
  obtain ⟨s5, e1, e2⟩ := addAxioms_stream hu hn size axioms s4 _ [] d2 ho.axioms
  obtain ⟨b, X, f1, f2, f3⟩ := footer_spec hu hn e2
  refine ⟨1 :: b, ps, X, ?_, a2, f2, fun k hk ctx => ?_⟩
  · unfold writeStream
    rw [a1, Option.bind_some, e1, Option.bind_some, f1]
  · rw [f3 k (by rintro _ rfl; exact hk) ctx, ← tag_append]
    exact congrArg (·, End.done) (give_tag k false _ ctx).symm

theorem headerOf_ok {u : Ulib} {names : List Id} {o : OntoSt} {s : OntoSpec.Abs} (hs : OntoSpec.Reaches o.onto s)
    (ho : PrtDocOk u names o) : PrtStreamOk u names (headerOf o) (collectAxioms o.onto) := by
  have hinv := reaches_inv hs
  have hocc : ∀ y, y ∈ s.axioms ∨ y ∈ s.annots → ∀ p, IterSpec.Occurs p y.obj → idOf p ∈ names := by
    intro y hy p hp
    have := hinv.keys p y hy ((times_pos p y.obj).2 hp)
    exact ho.prims p ((hasPrimitive_iff o.onto p).2 (by cases p <;> first | exact this | exact .inl this))
  refine ⟨ho.iri, ho.version, ho.imports, fun x hx => ?_, fun x hx => ?_, ho.split, ho.short, ?_, ?_, ho.few_imports, ho.few_annots⟩
  · obtain ⟨a, e1, e2⟩ := ho.annots x hx
    refine ⟨a, e1, e2, hocc x (.inr ?_)⟩
    have hx : x ∈ o.onto.annot.getD [] := hx
    rwa [hinv.annot] at hx
  · rw [collect_eq] at hx
    obtain ⟨a, e1, e2⟩ := ho.axioms x hx
    exact ⟨a, e1, e2, hocc x (.inl ((axiomsOf_perm hinv).mem_iff.1 hx))⟩
  · intro e he
    obtain ⟨e', he', rfl⟩ := List.mem_map.1 he
    exact ho.prefixes e' he'
  · show names.length + (o.pm.fwd.map _).length < _
    rw [List.length_map]; exact ho.few

end Cowl.Prt

namespace Cowl
open Prt Func FuncSpec Ast Change Prefix

/-- C36 for any handler that accepts everything, under the conditions of `PrtStreamOk`:
whatever the size of the index, header and axioms are written without an error, and reading
the bytes calls the handler on exactly what was written. -/
theorem C36_events {E : Env} (hu : E.u.Lawful) {names : List Id} {h : Prt.Header} {axioms : List Ref}
    (ho : PrtStreamOk E.u names h axioms) (size : Nat) :
    ∃ b items, writeStream E.u true size h axioms = some b ∧ PrtStreamTells h axioms items ∧
      ∀ {σ : Type} (k : Callback σ (Bool × Item)), Accepts (fun s i => k s (false, i)) → ∀ ctx,
        prtRead E k b ctx = (give (fun s i => k s (false, i)) ctx items, .done) := by
  obtain ⟨b, ps, X, h1, ⟨h2, h3, h4⟩, h5, h6⟩ := streamed hu ho size
  refine ⟨b, _, h1, ⟨ps, h.imports.map importIri, X, h2, fun n => ?_, ?_, h5.1, h5.2, rfl⟩, fun k hk ctx => ?_⟩
  · rw [← mem_knownNs]
    constructor
    · intro hm
      obtain ⟨q, hq, rfl⟩ := List.mem_map.1 hm
      exact ⟨h3 q hq, q.1, h2.subset hq⟩
    · rintro ⟨hk, p, hp⟩
      exact (h4 _ hp).resolve_left hk
  · rw [List.map_map]
    refine List.map_congr_left fun x hx => ?_
    obtain ⟨i, e, -⟩ := ho.imports x hx
    simp [importIri, e]
  · rw [h6 k hk, headerItems, idItems_eq fun v hv => (ho.version v hv).1, List.map_map]
    rfl

/-- C36 under the conditions of `PrtDocOk`: written with a bounded index of any size, and
written in one go, an ontology is read as the same IRI, version, imports, annotations and
axioms (of each type in the same order); both results are consistent. If no namespace has
several prefixes, the prefix maps are the same. Missing: what `PrtDocOk` asks for, several
prefixes for one namespace, see `C36_fails`. -/
theorem C36_partial {E : Env} (hu : E.u.Lawful) {names : List Id} {o : OntoSt} {s : OntoSpec.Abs}
    (hs : OntoSpec.Reaches o.onto s) (ho : PrtDocOk E.u names o) {order : List Prim → List Prim}
    (hord : ∀ ps, (order ps).Perm ps) (size : Nat) (ks : List Nat) (dflt : Fwd) (n : Nat) :
    ∃ b b' o1 o2 n1 n2, writeBounded E.u true size o = some b ∧
      (∀ cap, b'.length ≤ cap → writeOntology E.u true order o cap = (b', .ok)) ∧
      prtRead E changeHandler b (some (OntoSt.new ks dflt, n)) = (some (o1, n1), .done) ∧
      prtRead E changeHandler b' (some (OntoSt.new ks dflt, n)) = (some (o2, n2), .done) ∧
      o1.iri = o2.iri ∧ o1.version = o2.version ∧
      (o1.onto.imports.getD []).map Ref.obj = (o2.onto.imports.getD []).map Ref.obj ∧
      (o1.onto.annot.getD []).map Ref.obj = (o2.onto.annot.getD []).map Ref.obj ∧
      (∀ t, ((o1.onto.byType t).getD []).map Ref.obj = ((o2.onto.byType t).getD []).map Ref.obj) ∧
      (o.pm.fwd.Pairwise (fun a b => a.2 ≠ b.2) → o1.pm = o2.pm) ∧
      (∃ s1, OntoSpec.Reaches o1.onto s1) ∧ ∃ s2, OntoSpec.Reaches o2.onto s2 := by
  obtain ⟨b', o2, n2, w1, w2, w3, w4, w5, w6, w7, w8, s2, w9, -⟩ := readBack hu hs ho hord ks dflt n
  have hok := headerOf_ok hs ho
  obtain ⟨b, ps, X, h1, ⟨h2, h3, h4⟩, h5, h6⟩ := streamed hu hok size
  have hv : o.version ≠ none → o.iri ≠ none := by
    intro h
    obtain ⟨v, hv⟩ := Option.ne_none_iff_exists'.1 h
    exact (ho.version v hv).1
  have hi : (o.onto.imports.getD []).map Ref.obj = ((o.onto.imports.getD []).map importIri).map fun i => .prim (.iri i) := by
    rw [List.map_map]
    refine List.map_congr_left fun x hx => ?_
    obtain ⟨i, e, -⟩ := ho.imports x hx
    simp [importIri, e]
  have hX : ∀ t, (X.map Ref.obj).filter (fun x => axType x = t) = ((o.onto.byType t).getD []).map Ref.obj := by
    intro t
    rw [← filter_obj, h5.2 t, filter_obj, collect_eq]
    exact axioms_filter hs t
  have hp : (X.map Ref.obj).Perm (s.axioms.map Ref.obj) := by
    have := h5.1
    rw [collect_eq] at this
    exact (this.trans (axiomsOf_perm (reaches_inv hs))).map _
  obtain ⟨o1, n1, e, r1, r2, r3, r4, r5, r6, s1, r7, -⟩ := load hs hv hi rfl hX hp ps (create ks dflt) n
  refine ⟨b, b', o1, o2, n1, n2, h1, w1, ?_, w2, r2.trans w4.symm, r3.trans w5.symm, r4.trans w6.symm, r5.trans w7.symm,
    fun t => (r6 t).trans (w8 t).symm, fun hd => ?_, ⟨s1, r7⟩, s2, w9⟩
  · rw [h6 changeHandler change_accepts]
    refine congrArg (·, End.done) ((give_change _ _).trans (congrArg some ?_))
    rw [← e]
    simp only [OntoSt.new, headerOf, List.map_map]
    rfl
  · have hd' : (o.pm.fwd.map fun e => (e.1.txt, e.2)).Pairwise (fun a b => a.2 ≠ b.2) := List.pairwise_map.2 hd
    rw [r1, w3, newPfxs_filter _ _ hd', sublist_filter h2 hd' h3 h4]
    rfl

/-! ## Examples -/

/-- The conditions of `C36_events` and `C36_partial` hold for an ontology with prefixes, IRI,
version, import, annotation and axiom. With an index of size 1 more is written than in one go:
the index is reset on the way. -/
example : OntoSpec.Reaches prtOnto.onto
      ⟨[⟨3, prtAxiom.toObj⟩], [⟨2, exAnnot.toObj⟩], [⟨1, .prim (.iri (exIri "i"))⟩]⟩ ∧
    PrtDocOk lebEnv.u prtOntoNames prtOnto ∧ lebEnv.u.Lawful ∧
    PrtStreamOk lebEnv.u prtOntoNames (headerOf prtOnto) (collectAxioms prtOnto.onto) ∧
    (writeOntology leb true id prtOnto 1000000).1.length < ((writeBounded leb true 1 prtOnto).getD []).length :=
  ⟨prtOnto_reaches, prtOnto_ok, leb_lawful, headerOf_ok prtOnto_reaches prtOnto_ok, by decide +kernel⟩

/-- The ontology that is read back from the bytes of this one, written with a bounded index. -/
def streamBack (size : Nat) (o : OntoSt) : Option OntoSt × Option End :=
  match writeBounded leb true size o with
  | none => (none, none)
  | some b =>
    let r := prtRead lebEnv changeHandler b (some (OntoSt.new [0, 1, 2, 3] [], 100))
    (r.1.map Prod.fst, some r.2)

/-- Two prefixes for one namespace, one for another between them. -/
def threePrefixes : OntoSt :=
  let o := withPrefix "ex" exNs1
  { o with pm := ((o.pm.add (pfx 11 "ez") exNs2 false).1.add (pfx 12 "ey") exNs1 false).1 }

/-- C36 is false as stated: if the prefixes in the index are reset in between, both prefixes of
a namespace are written, but only one in one go. -/
theorem C36_fails :
    (streamBack 1 threePrefixes).1.map (fun o => (o.pm.getNs (ascii "ex"), o.pm.getNs (ascii "ey"))) =
      some (some exNs1, some exNs1) ∧ (streamBack 1 threePrefixes).2 = some .done ∧
    (prtBack threePrefixes).1.map (fun o => (o.pm.getNs (ascii "ex"), o.pm.getNs (ascii "ey"))) = some (some exNs1, none) ∧
    (prtBack threePrefixes).2 = (.ok, .done) := by
  refine ⟨?_, ?_, ?_, ?_⟩ <;> decide +kernel

end Cowl
