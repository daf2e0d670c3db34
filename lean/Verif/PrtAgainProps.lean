import Verif.PrtAgainSpec
import Verif.PrtNormProps
import Verif.PrtTypedProps
/-! # C96: an ontology read from ProtocOWL can be written in it and read again -/
namespace Cowl
open Change Func Prefix Prt Ast

/-- The contents are constructs that can be written. -/
structure Writable (s : OntoSpec.Abs) : Prop where
  axioms : ∀ x ∈ s.axioms, IsAx prtSizes x.obj
  annots : ∀ x ∈ s.annots, IsAnnot prtSizes x.obj
  imports : ∀ x ∈ s.imports, ∃ i, x.obj = .prim (.iri i)

theorem writable_add {P : Ref → Prop} {xs : List Ref} {x : Ref} (h : ∀ y ∈ xs, P y) (hx : P x) : ∀ y ∈ xs ++ [x], P y := by
  intro y hy
  rcases List.mem_append.1 hy with hy' | hy'
  · exact h y hy'
  · rw [List.mem_singleton.1 hy']; exact hx

theorem writable_change {s : OntoSpec.Abs} (h : Writable s) (n : Nat) {c : Bool × Item} (hc : ItemOk prtSizes c.2) :
    Writable (s.run (changeOps n c)) := by
  obtain ⟨b, i⟩ := c
  cases b <;> cases i <;> first
    | exact h
    | exact ⟨h.axioms, h.annots, writable_add h.imports ⟨_, rfl⟩⟩
    | exact ⟨h.axioms, writable_add h.annots hc, h.imports⟩
    | exact ⟨writable_add h.axioms hc, h.annots, h.imports⟩
    | exact ⟨h.axioms, h.annots, fun x hx => h.imports x (List.mem_of_mem_eraseP hx)⟩
    | exact ⟨h.axioms, fun x hx => h.annots x (List.mem_of_mem_eraseP hx), h.imports⟩
    | exact ⟨fun x hx => h.axioms x (List.mem_of_mem_eraseP hx), h.annots, h.imports⟩

theorem writable_run : ∀ (cs : List (Bool × Item)) (n : Nat) (s : OntoSpec.Abs), Writable s → (∀ c ∈ cs, ItemOk prtSizes c.2) →
    Writable (runChanges n s cs)
  | [], _, _, h, _ => h
  | c :: cs, n, _, h, hc => writable_run cs (n + 1) _ (writable_change h n (hc c (by simp))) fun d hd => hc d (by simp [hd])

/-- Contents that can be written, with names that can be written. -/
theorem writable_fits {o : OntoSt} {s : OntoSpec.Abs} (hs : OntoSpec.Reaches o.onto s) (h : Writable s) {names : List Prt.Id}
    (hn : NamesFit names o) : PrtDocFits prtSizes names o := by
  have hi := reaches_inv hs
  refine ⟨hn.iri, hn.version, hn.prims, ?_, ?_, ?_, hn.split, hn.short, hn.prefixes, hn.few, hn.few_imports, hn.few_annots⟩
  · intro x hx
    obtain ⟨i, e⟩ := h.imports x (by rw [hi.imports] at hx; exact hx)
    exact ⟨i, e, hn.imports x hx i e⟩
  · intro x hx; rw [hi.annot] at hx; exact h.annots x hx
  · intro x hx; exact h.axioms x ((axiomsOf_perm hi).mem_iff.1 hx)

/-- C96 for names that can be written (`C96_fails`). Whatever the input and however reading it ends, as far as
reading is defined (C39): if an ontology was read from it, it can be written, and what was written is read
as the same ontology, with literals in normal form (C94). -/
theorem C96_partial (E : Env) (hu : E.u.Lawful) : ∃ norm, IsNorm E.u norm ∧
    ∀ (text : Str) (ks ks' : List Nat) (dflt dflt' : Fwd) (a : PrefixSpec.Abs) (n n' : Nat), PrefixSpec.Reaches False (create ks dflt) a →
      ∃ o m s, (prtRead E changeHandler text (some (OntoSt.new ks dflt, n))).1 = some (o, m) ∧ OntoSpec.Reaches o.onto s ∧
        ∀ names, NamesFit names o → ∀ order : List Prim → List Prim, (∀ ps, (order ps).Perm ps) →
        ∃ b o' m', (∀ cap, b.length ≤ cap → writeOntology E.u true order o cap = (b, .ok)) ∧
          prtRead E changeHandler b (some (OntoSt.new ks' dflt', n')) = (some (o', m'), .done) ∧
          o'.iri = o.iri ∧ o'.version = o.version ∧
          (o'.onto.imports.getD []).map Ref.obj = s.imports.map Ref.obj ∧
          (o'.onto.annot.getD []).map Ref.obj = s.annots.map (fun x => mapLit norm x.obj) ∧
          (∀ t, ((o'.onto.byType t).getD []).map Ref.obj = ((o.onto.byType t).getD []).map fun x => mapLit norm x.obj) ∧
          ∃ s', OntoSpec.Reaches o'.onto s' ∧ (s'.axioms.map Ref.obj).Perm (s.axioms.map fun x => mapLit norm x.obj) := by
  obtain ⟨norm, h1, -, h2⟩ := C94_normal_form E hu
  refine ⟨norm, h1, fun text ks ks' dflt dflt' a n n' hp => ?_⟩
  obtain ⟨o, -, e, hs, -, -⟩ := C92_load_partial E hu (o := OntoSt.new ks dflt) (s := OntoSpec.Abs.empty) ⟨[], trivial, rfl, rfl⟩ hp n nofun text
  refine ⟨o, _, _, e, hs, fun names hn order hord => ?_⟩
  have hw : Writable (runChanges n OntoSpec.Abs.empty (prtChanges E text).1) :=
    writable_run _ n _ ⟨nofun, nofun, nofun⟩ (C92_partial E hu text)
  exact h2 names o _ hs (writable_fits hs hw hn) order hord ks' dflt' n'

/-! ## Example -/

/-- `a:b`, then the ontology with this IRI and a declaration of a class of this name. -/
def againText : Str := [1, 4, 1, 2, 97, 58, 69, 1, 5, 1, 98, 6, 0, 9, 0]

/-- What is read. -/
def againRead (text : Str) : OntoSt :=
  ((prtRead lebEnv changeHandler text (some (OntoSt.new [1, 2, 3, 4] [], 5))).1.map Prod.fst).getD (OntoSt.new [] [])

/-- The names in it. -/
def againNames : List Prt.Id := [.iri ⟨ascii "a:", ascii "b"⟩]

/-- A check for `NamesFit`. -/
def namesCheck (names : List Prt.Id) (o : OntoSt) : Bool :=
  (match o.iri with | some i => names.contains (.iri i) | none => o.version.isNone) &&
  (match o.version with | some i => names.contains (.iri i) | none => true) &&
  (o.onto.idx.map Prod.fst).all (fun p => names.contains (idOf p)) &&
  (o.onto.imports.getD []).all (fun x => match x.obj with | .prim (.iri i) => names.contains (.iri i) | _ => true) &&
  names.all splitOk && names.all shortOk &&
  o.pm.fwd.all (fun e => e.1.txt.length < 4294967296 && e.2.length < 4294967296) &&
  decide (names.length + o.pm.fwd.length < 4294967000) &&
  decide ((o.onto.imports.getD []).length < 4294967296) && decide ((o.onto.annot.getD []).length < 4294967296)

theorem namesCheck_fit {names : List Prt.Id} {o : OntoSt} (h : namesCheck names o = true) : NamesFit names o := by
  unfold namesCheck at h
  simp only [Bool.and_eq_true, decide_eq_true_eq] at h
  obtain ⟨⟨⟨⟨⟨⟨⟨⟨⟨h1, h2⟩, h3⟩, h4⟩, h5⟩, h6⟩, h7⟩, h8⟩, h9⟩, h10⟩ := h
  refine ⟨?_, ?_, ?_, ?_, ?_, ?_, ?_, h8, h9, h10⟩
  · intro i e; rw [e] at h1; simpa using h1
  · intro i e
    rw [e] at h2
    refine ⟨fun e' => ?_, by simpa using h2⟩
    rw [e', e] at h1
    cases h1
  · have hk : ∀ p ∈ o.onto.idx.map Prod.fst, idOf p ∈ names := fun p hp => by
      simpa using List.all_eq_true.1 h3 p hp
    intro p hp
    have := (hasPrimitive_iff o.onto p).1 hp
    cases p with
    | ent k i =>
      rcases this with h | h
      · exact hk _ h
      · exact hk (.iri i) h
    | iri i => exact hk _ this
    | anon s => exact hk _ this
  · intro x hx i e
    have := List.all_eq_true.1 h4 x hx
    rw [e] at this
    simpa using this
  · intro i hi; exact splitOk_split (List.all_eq_true.1 h5 _ hi)
  · intro i hi
    have := List.all_eq_true.1 h6 _ hi
    cases i <;> simpa [shortOk, IdShort] using this
  · intro e he; simpa using List.all_eq_true.1 h7 e he

example : lebEnv.u.Lawful ∧ PrefixSpec.Reaches False (create [1, 2, 3, 4] []) (PrefixSpec.initial []) ∧
    NamesFit againNames (againRead againText) ∧ (axiomsOf (againRead againText).onto).length = 1 :=
  ⟨leb_lawful, .create _ _ rfl (by simp [PrefixSpec.Distinct]), namesCheck_fit (by decide +kernel), by decide +kernel⟩

/-! ## Witnesses -/

/-- What is written. -/
def againWrite (o : OntoSt) : Str × Ret := writeOntology lebEnv.u true id o 1000

/-- `a:b` and `a:c`; the ontology gets the first as its IRI and the second as its version, and then
its IRI is removed. -/
def againVersion : Str := [1, 4, 1, 2, 97, 58, 69, 2, 5, 1, 98, 5, 1, 99, 134, 0, 1, 1, 6, 0]

/-- A declaration of the class with namespace `a:b` and name `1c`. -/
def againSplit : Str := [1, 4, 1, 3, 97, 58, 98, 69, 1, 5, 2, 49, 99, 9, 0]

/-- The input is read without an error, and so is what is then written. -/
def againFine (text : Str) : Bool :=
  (prtRead lebEnv changeHandler text (some (OntoSt.new [1, 2, 3, 4] [], 5))).2 == .done &&
  (againWrite (againRead text)).2 == .ok &&
  (prtRead lebEnv changeHandler (againWrite (againRead text)).1 (some (OntoSt.new [1, 2, 3, 4] [], 5))).2 == .done

/-- C96 fails.
* The version of an ontology without an IRI is lost. An input can remove the IRI of an ontology and
  leave its version.
* The decoder does not split all IRIs as C02 says: that of `againSplit` has the namespace `a:b1`, and after it was
  written it has the namespace `a:`. So it is not the same object, and the class is another one. -/
theorem C96_fails :
    (againFine againVersion = true ∧ (againRead againVersion).iri = none ∧
      (againRead againVersion).version = some ⟨ascii "a:", ascii "c"⟩ ∧
      (againRead (againWrite (againRead againVersion)).1).version = none) ∧
    (againFine againSplit = true ∧
      (againRead againSplit).onto.idx.map Prod.fst = [.ent .cls ⟨ascii "a:b1", ascii "c"⟩] ∧
      (againRead (againWrite (againRead againSplit)).1).onto.idx.map Prod.fst = [.ent .cls ⟨ascii "a:", ascii "b1c"⟩]) := by
  refine ⟨⟨?_, ?_, ?_, ?_⟩, ?_, ?_, ?_⟩ <;> decide +kernel

end Cowl
