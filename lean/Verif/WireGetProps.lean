import Verif.WireGetLemmas
import Verif.WireReadProps
import Verif.ApartLemmas
/-!
# C127: what the bytes say, the reader of ProtocOWL accepts

The converse of C126. Together they say exactly which documents are read without an error,
and what they mean. The bound on the fuel of the model is the one under which the program's
recursion is modelled: more than the bytes that are left.
-/
namespace Cowl
open Prt Ast Wire

section
variable {E : Env} (hu : E.u.Lawful)
include hu

/-- C127 for axioms: if the bytes say an axiom, it is read, without an error. -/
theorem C127_axiom {n : Nat} {c : UInt8} {s : DSt} {t : Src} {a : Axiom} {cs : List Act} (hn : s.inp.length < n)
    (h : axSays a c cs) (hd : Does E.u.readVarint E.u.readSvarint E.gen cs (src s) t) :
    ∃ s', decAxiom E n c s = .ok (a.toObj, true) s' ∧ src s' = t ∧ s'.ix.nss = s.ix.nss :=
  ⟨_, gets_axiom hu a c n (Nat.le_refl _) cs s t hn h hd, rfl, rfl⟩

/-- C127 for class expressions. -/
theorem C127_class {n : Nat} {s : DSt} {t : Src} {x : CE} {cs : List Act} (hn : s.inp.length < n)
    (h : ceSays x cs) (hd : Does E.u.readVarint E.u.readSvarint E.gen cs (src s) t) :
    ∃ s', decCE E n s = .ok x.toObj s' ∧ src s' = t ∧ s'.ix.nss = s.ix.nss :=
  ⟨_, gets_ce hu x _ n (Nat.le_refl _) cs s t hn h hd, rfl, rfl⟩

/-- C127 for data ranges. -/
theorem C127_range {n : Nat} {s : DSt} {t : Src} {x : DR} {cs : List Act} (hn : s.inp.length < n)
    (h : drSays x cs) (hd : Does E.u.readVarint E.u.readSvarint E.gen cs (src s) t) :
    ∃ s', decDR E n s = .ok x.toObj s' ∧ src s' = t ∧ s'.ix.nss = s.ix.nss :=
  ⟨_, gets_dr hu x _ n (Nat.le_refl _) cs s t hn h hd, rfl, rfl⟩

/-- C127 for annotations. -/
theorem C127_annotation {n : Nat} {s : DSt} {t : Src} {x : Annot} {cs : List Act} (hn : s.inp.length < n)
    (h : annotSays x cs) (hd : Does E.u.readVarint E.u.readSvarint E.gen cs (src s) t) :
    ∃ s', decAnnot E n s = .ok x.toObj s' ∧ src s' = t ∧ s'.ix.nss = s.ix.nss :=
  ⟨_, gets_annot hu x _ n (Nat.le_refl _) cs s t hn h hd, rfl, rfl⟩

/-- C127 for documents, with C126: there is one way of putting an IRI together
from its two parts, losing nothing, such that reading ends well with these changes exactly
if the document says them. -/
theorem C127_document : ∃ mk : Str → Str → Iri, (∀ n r, (mk n r).ns ++ (mk n r).rem = n ++ r) ∧
    ∀ (b : Str) (x : List (Bool × Func.Item)), prtChanges E b = (x, .done) ↔
      ∃ fs, DocSays E.u.readVarint E.u.readSvarint E.gen mk b fs ∧ x = fs.map fun f => (f.1, f.2.item) :=
  ⟨mkIri, C03_lossless, fun _ _ => ⟨run_doc hu, fun ⟨_, h, e⟩ => e ▸ go_doc hu h⟩⟩

/-- The bytes say at most one axiom, and it ends in one place. -/
theorem C127_one_axiom {c : UInt8} {s t t' : Src} {a a' : Axiom} {cs cs' : List Act}
    (h : axSays a c cs) (hd : Does E.u.readVarint E.u.readSvarint E.gen cs s t)
    (h' : axSays a' c cs') (hd' : Does E.u.readVarint E.u.readSvarint E.gen cs' s t') : a = a' ∧ t = t' := by
  obtain ⟨s1, h1, h2, -⟩ := C127_axiom hu (s := ⟨s.inp, ⟨[], s.ids⟩, s.fresh⟩) (Nat.lt_succ_self _) h hd
  obtain ⟨s2, h3, h4, -⟩ := C127_axiom hu (s := ⟨s.inp, ⟨[], s.ids⟩, s.fresh⟩) (Nat.lt_succ_self _) h' hd'
  rw [h1] at h3
  injection h3 with h5 h6
  injection h5 with h5 _
  exact ⟨Axiom.inj h5, by rw [← h2, ← h4, h6]⟩

omit hu in
theorem same_entries {fs gs : List (Bool × Entry)}
    (e : fs.map (fun f => (f.1, f.2.item)) = gs.map fun f => (f.1, f.2.item)) : fs = gs := by
  induction fs generalizing gs with
  | nil => cases gs with
    | nil => rfl
    | cons g gs => cases e
  | cons f fs ih => cases gs with
    | nil => cases e
    | cons g gs =>
      simp only [List.map_cons, List.cons.injEq, Prod.mk.injEq] at e
      obtain ⟨⟨e1, e2⟩, e3⟩ := e
      rw [ih e3]
      obtain ⟨f1, f2⟩ := f
      obtain ⟨g1, g2⟩ := g
      dsimp only at e1 e2
      subst e1
      have : f2 = g2 := by
        cases f2 <;> cases g2 <;> simp only [Entry.item, Func.Item.prefixDecl.injEq, Func.Item.iri.injEq, Func.Item.version.injEq,
          Func.Item.import.injEq, Func.Item.annot.injEq, Func.Item.ax.injEq, reduceCtorEq] at e2
        · rw [e2.1, e2.2]
        · rw [e2]
        · rw [e2]
        · rw [e2]
        · rw [Annot.inj e2]
        · rw [Axiom.inj e2]
      rw [this]

/-- A document says at most one thing. -/
theorem C127_one_document : ∃ mk : Str → Str → Iri, (∀ n r, (mk n r).ns ++ (mk n r).rem = n ++ r) ∧
    ∀ {b : Str} {fs gs : List (Bool × Entry)}, DocSays E.u.readVarint E.u.readSvarint E.gen mk b fs →
      DocSays E.u.readVarint E.u.readSvarint E.gen mk b gs → fs = gs := by
  refine ⟨mkIri, C03_lossless, fun {b fs gs} h h' => ?_⟩
  exact same_entries (congrArg Prod.fst ((go_doc hu h).symm.trans (go_doc hu h')))

end

/-! ## Non-vacuity -/

example : lebEnv.u.Lawful ∧ ∃ (a : Axiom) (cs : List Act) (t : Src), axSays a (79 : UInt8) cs ∧
    Does lebEnv.u.readVarint lebEnv.u.readSvarint lebEnv.gen cs ⟨[18, 17, 0], [.iri owlThing, .iri ⟨[], [97]⟩], 0⟩ t := by
  have run : ∃ o s', decAxiom lebEnv 9 (79 : UInt8) ⟨[18, 17, 0], ⟨[], [.iri owlThing, .iri ⟨[], [97]⟩]⟩, 0⟩ = .ok (o, true) s' :=
    ⟨_, _, rfl⟩
  obtain ⟨o, s', run⟩ := run
  obtain ⟨a, cs, -, h1, h2⟩ := C126_partial leb_lawful (by decide) run
  exact ⟨leb_lawful, a, cs, _, h1, h2⟩

/-- The union of the first two classes that are known. -/
example : ∃ (x : CE) (cs : List Act) (t : Src), ceSays x cs ∧
    Does lebEnv.u.readVarint lebEnv.u.readSvarint lebEnv.gen cs ⟨[2, 2, 17, 18], [.iri owlThing, .iri ⟨[], [97]⟩], 0⟩ t := by
  have run : ∃ o s', decCE lebEnv 9 ⟨[2, 2, 17, 18], ⟨[], [.iri owlThing, .iri ⟨[], [97]⟩]⟩, 0⟩ = .ok o s' := ⟨_, _, rfl⟩
  obtain ⟨o, s', run⟩ := run
  obtain ⟨x, cs, -, h1, h2⟩ := C126_class leb_lawful run
  exact ⟨x, cs, _, h1, h2⟩

theorem said_length {E : Env} (hu : E.u.Lawful) {b : Str} {n : Nat}
    (h : ((prtChanges E b).2, (prtChanges E b).1.length) = (.done, n)) :
    ∃ fs, DocSays E.u.readVarint E.u.readSvarint E.gen mkIri b fs ∧ fs.length = n := by
  generalize hp : prtChanges E b = p at h
  obtain ⟨x, d⟩ := p
  injection h with h1 h2
  dsimp only at h1 h2
  subst h1
  obtain ⟨fs, h3, rfl⟩ := run_doc hu hp
  exact ⟨fs, h3, by rw [← h2, List.length_map]⟩

theorem said_nothing {E : Env} (hu : E.u.Lawful) {b : Str} (h : (prtChanges E b).2 ≠ .done) (fs : List (Bool × Entry)) :
    ¬ DocSays E.u.readVarint E.u.readSvarint E.gen mkIri b fs := fun hd => h (by rw [go_doc hu hd])

/-- The document of C126 says three things. -/
example : ∃ fs, DocSays lebEnv.u.readVarint lebEnv.u.readSvarint lebEnv.gen mkIri saidDoc fs ∧ fs.length = 3 := by
  refine said_length leb_lawful ?_
  decide +kernel

/-- Another version, an axiom cut short, or an unknown frame: these say nothing. -/
example : (∀ fs, ¬ DocSays lebEnv.u.readVarint lebEnv.u.readSvarint lebEnv.gen mkIri [2] fs) ∧
    (∀ fs, ¬ DocSays lebEnv.u.readVarint lebEnv.u.readSvarint lebEnv.gen mkIri [1, 9] fs) ∧
    (∀ fs, ¬ DocSays lebEnv.u.readVarint lebEnv.u.readSvarint lebEnv.gen mkIri [1, 63] fs) := by
  refine ⟨said_nothing leb_lawful ?_, said_nothing leb_lawful ?_, said_nothing leb_lawful ?_⟩ <;> decide +kernel

end Cowl
