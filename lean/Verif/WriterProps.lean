import Verif.WriterSpec
import Verif.FuncDocProps
/-! # C59: writing an ontology piece by piece -/
namespace Cowl
open Change Writer

theorem obey_append {σ : Type} (k : Callback σ Call) (a b : List Call) (s : σ) :
    obey k (a ++ b) s = if (obey k a s).2 = .ok then obey k b (obey k a s).1 else obey k a s := by
  induction a generalizing s with
  | nil => rfl
  | cons c a ih =>
    show (if _ then _ else _) = _
    rw [obey]
    split
    · exact ih _
    · rfl

theorem obey_axioms {σ : Type} {h : Callback σ Writer.Header} {a : Callback σ Ref} {f : σ → σ × Ret} (xs : List Ref) (s : σ) :
    obey (serve h a f) (xs.map .ax) s = iterList a xs s := by
  induction xs generalizing s with
  | nil => rfl
  | cons x xs ih =>
    show (if (a s x).2 = .ok then _ else a s x) = if (a s x).2.shouldStop then a s x else _
    have : (a s x).2.shouldStop = true ↔ ¬ (a s x).2 = .ok := by simp [Ret.shouldStop]
    by_cases e : (a s x).2 = .ok
    · rw [if_pos e, if_neg fun h => this.1 h e]; exact ih _
    · rw [if_neg e, if_pos (this.2 e)]

/-- C59 for writers whose function for axioms does not return `COWL_NO`: the header is written,
then every axiom once, then the footer, up to the first call with a code other than OK, which
is the result. -/
theorem C59_partial {σ : Type} (h : Callback σ Writer.Header) (a : Callback σ Ref) (f : σ → σ × Ret)
    (hno : ∀ s x, (a s x).2 ≠ .no) (o : OntoSt) {t : OntoSpec.Abs} (ho : OntoSpec.Reaches o.onto t) (s : σ) :
    ∃ xs : List Ref, xs.Perm t.axioms ∧
      Impl.writeOntology ⟨some h, some a, some f, none⟩ o s =
        obey (serve h a f) (.header ⟨o.pm, o.iri, o.version, t.imports, t.annots⟩ :: (xs.map .ax ++ [.footer])) s := by
  have hi := reaches_inv ho
  refine ⟨axiomsOf o.onto, axiomsOf_perm hi, ?_⟩
  have hh : headerOf o = ⟨o.pm, o.iri, o.version, t.imports, t.annots⟩ := by
    unfold headerOf
    rw [hi.imports, hi.annot]
  show Impl.writeStream _ o s = _
  unfold Impl.writeStream
  rw [obey, ← hh]
  show (if (h s _).2 ≠ .ok then h s _ else _) = if (h s _).2 = .ok then _ else h s _
  by_cases e : (h s (headerOf o)).2 = .ok
  · rw [if_neg (fun h => h e), if_pos e, obey_append, obey_axioms]
    have hk : ∀ s, o.onto.iterAxioms a s = iterList a (axiomsOf o.onto) s := fun s => iterTypes_eq _ _ _ _
    have hc : ∀ (xs : List Ref) (s : σ), (iterList a xs s).2 ≠ .no := by
      intro xs
      induction xs with
      | nil => intro s; exact nofun
      | cons x xs ih =>
        intro s
        show (if (a s x).2.shouldStop then a s x else _).2 ≠ _
        split
        · exact hno s x
        · exact ih _
    have hc' := hc (axiomsOf o.onto) (h s (headerOf o)).1
    have last : ∀ r : σ × Ret, r.2 ≠ .no → (if r.2.isErr then r else f r.1) =
        if r.2 = .ok then obey (serve h a f) [.footer] r.1 else r := by
      intro r hr'
      cases hr : r.2 with
      | no => exact absurd hr hr'
      | ok =>
        show f r.1 = if (f r.1).2 = .ok then ((f r.1).1, .ok) else f r.1
        split
        · rename_i h; rw [← h]
        · rfl
      | _ => rfl
    refine Eq.trans ?_ (last _ hc')
    rw [← hk]
    rfl
  · rw [if_pos e, if_neg e]

/-- C59, choice of the functions: one for whole ontologies is preferred; if one of the three
is missing nothing is called and there is an error. -/
theorem C59_dispatch {σ : Type} (w : Impl σ) (o : OntoSt) (s : σ) :
    (∀ f, w.onto = some f → w.writeOntology o s = f s o) ∧
    (w.onto = none → (w.header = none ∨ w.ax = none ∨ w.footer = none) → w.writeOntology o s = (s, .err)) := by
  refine ⟨fun f h => by unfold Impl.writeOntology; rw [h], fun h hn => ?_⟩
  unfold Impl.writeOntology
  rw [h]
  have : w.canStream = false := by
    unfold Impl.canStream
    rcases hn with hn | hn | hn <;> simp [hn]
  simp [this]

/-- C59, files: if the file cannot be opened nothing is written; otherwise an error of the
writer is the result, or else the code of closing the file. -/
theorem C59_path {σ : Type} (w : Impl σ) (o : OntoSt) (s : σ) (oret uret : Ret) :
    (oret.isErr = true → w.writeToPath oret uret o s = (s, oret)) ∧
    (oret.isErr = false → (w.writeToPath oret uret o s).1 = (w.writeOntology o s).1 ∧
      (w.writeToPath oret uret o s).2 = if (w.writeOntology o s).2.isErr then (w.writeOntology o s).2 else uret) := by
  unfold Impl.writeToPath
  refine ⟨fun h => by rw [if_pos h], fun h => ?_⟩
  rw [if_neg (by rw [h]; nofun)]
  exact ⟨rfl, rfl⟩

/-- Notes what is written: 0 for a header, 1 for the footer, the address of an axiom. The code
for axioms is `r`. -/
def noting (r : Ret) : Impl (List Nat) :=
  ⟨some fun s _ => (s ++ [0], .ok), some fun s x => (s ++ [x.addr], r), some fun s => (s ++ [1], .ok), none⟩

/-- An ontology with two axioms. -/
def twoAxioms : OntoSt := ⟨freshMap, none, none, (Onto.empty.addAxiom ⟨5, declA⟩).addAxiom ⟨6, exAxiom.toObj⟩⟩

/-- C59 is false as stated: if the function for axioms returns `COWL_NO`, the other axioms are
left out, the footer is written, and the result is OK. -/
theorem C59_fails :
    (noting .ok).writeOntology twoAxioms [] = ([0, 5, 6, 1], .ok) ∧
    (noting .no).writeOntology twoAxioms [] = ([0, 5, 1], .ok) ∧
    (noting .errIo).writeOntology twoAxioms [] = ([0, 5], .errIo) := by
  refine ⟨?_, ?_, ?_⟩ <;> decide +kernel

/-- The conditions of `C59_partial` hold. -/
example : (∀ s x, (((noting .errIo).ax.getD fun s _ => (s, .ok)) s x).2 ≠ .no) ∧
    OntoSpec.Reaches docOnto.onto ⟨[⟨3, exAxiom.toObj⟩], [⟨2, exAnnot.toObj⟩], [⟨1, .prim (.iri (exIri "i"))⟩]⟩ :=
  ⟨nofun, docOnto_reaches⟩

end Cowl
