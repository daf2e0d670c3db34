import Verif.MixProps
import Verif.WireUpdateProps
/-!
# C130 for documents with removals

As C129 for ProtocOWL alone: removals of axioms have no effect, the others do what they say, also on
what was read from texts in functional syntax.
-/
namespace Cowl
open Prt Ast Wire Change Prefix PrefixSpec FuncSpec FuncTell
open Func (ontoHandler)

/-- What additions lead to. -/
theorem told_added : ∀ (fs : List (Bool × Entry)) (h : Held), (∀ f ∈ fs, f.1 = false) →
    fs.foldl Held.told h = ⟨h.annots ++ annotsSaid fs, h.imports ++ importsSaid fs, (iriSaid fs).or h.iri, (versionSaid fs).or h.version⟩ ∧
    axiomsAdded fs = axiomsSaid fs
  | [], h, _ => ⟨by simp [annotsSaid, importsSaid, iriSaid, versionSaid, lastSome], rfl⟩
  | (b, e) :: fs, h, hf => by
    obtain rfl : b = false := hf (b, e) List.mem_cons_self
    obtain ⟨h1, h2⟩ := told_added fs (h.told (false, e)) fun f hm => hf f (List.mem_cons_of_mem _ hm)
    rw [List.foldl_cons, h1]
    refine ⟨?_, ?_⟩
    · cases e <;> simp [Held.told, annotsSaid, importsSaid, iriSaid, versionSaid, lastSome]
    · rw [← List.singleton_append, axiomsAdded_append, h2]
      cases e <;> rfl

/-- The document is accepted as a text, or is one of ProtocOWL. -/
def Fine (E : Env) (mk : Str → Str → Iri) : Source × Bool → Prop
  | (.text _, r) => r = true
  | (.bytes b, _) => ∃ fs, DocSays E.u.readVarint E.u.readSvarint E.gen mk b fs

section
variable {E : Env} (hu : E.u.Lawful)
include hu

theorem holding_source {ks : List Nat} (hk : ks.length = 4) {dflt : Fwd} (hd : Distinct dflt) {addr : Nat} {x : Source} {o : OntoSt}
    {s : OntoSpec.Abs} {n : Nat} {axs : List Axiom} {h : Held} (hh : Holding o s axs h) (hn : ∀ x ∈ s.axioms, x.addr < n)
    (hp : ∃ a, PrefixSpec.Reaches False o.pm a) (hf : Fine E mkIri (x, (readSource E ks dflt addr x (some (o, n))).2)) :
    ∃ fs o' n' s', SourceSays E mkIri (initial dflt) x fs ∧ (readSource E ks dflt addr x (some (o, n))).1 = some (o', n') ∧
      Holding o' s' (axs ++ axiomsAdded fs) (fs.foldl Held.told h) ∧ (∀ x ∈ s'.axioms, x.addr < n') ∧
      ∃ a, PrefixSpec.Reaches False o'.pm a := by
  cases x with
  | text t =>
    obtain ⟨fs, o', n', s', h1, h2, h3, h4⟩ := mixed_one hu hk hd hh.reaches hn hp (x := .text t) (addr := addr) hf (by
      rintro fs ⟨d, -, -, rfl⟩
      exact loose_added d)
    have ha : ∀ f ∈ fs, f.1 = false := by
      obtain ⟨d, -, -, rfl⟩ := h1
      exact loose_added d
    obtain ⟨k1, k2⟩ := told_added fs h ha
    refine ⟨fs, o', n', s', h1, h2, ⟨h3.reaches, ?_, ?_, ?_, ?_, ?_⟩, h4⟩
    · rw [k2, h3.axioms, hh.axioms, List.map_append]
    · rw [k1, h3.annots, hh.annots, List.map_append]
    · rw [k1, h3.imports, hh.imports, List.map_append]
    · rw [k1, h3.iri, hh.iri]
    · rw [k1, h3.version, hh.version]
  | bytes b =>
    obtain ⟨fs, hfs⟩ := hf
    obtain ⟨o', n', s', d, h1, -, h2⟩ := holding_doc hu hfs hh hn hp
    exact ⟨fs, o', n', s', hfs, by simp only [readSource, h1], h2⟩

theorem holding_sources {ks : List Nat} (hk : ks.length = 4) {dflt : Fwd} (hd : Distinct dflt) {addr : Nat} :
    ∀ {xs : List Source} {o : OntoSt} {s : OntoSpec.Abs} {n : Nat} {axs : List Axiom} {h : Held}, Holding o s axs h →
    (∀ x ∈ s.axioms, x.addr < n) → (∃ a, PrefixSpec.Reaches False o.pm a) →
    (∀ y ∈ xs.zip (readSources E ks dflt addr xs (some (o, n))).2, Fine E mkIri y) →
    ∃ fss o' n' s', fss.length = xs.length ∧ (∀ y ∈ xs.zip fss, SourceSays E mkIri (initial dflt) y.1 y.2) ∧
      (readSources E ks dflt addr xs (some (o, n))).1 = some (o', n') ∧
      Holding o' s' (axs ++ axiomsAdded (fss.flatMap id)) ((fss.flatMap id).foldl Held.told h)
  | [], o, s, n, axs, h, hh, _, _, _ => ⟨[], o, n, s, rfl, nofun, rfl, by simpa [axiomsAdded, axiomsSaid] using hh⟩
  | x :: xs, o, s, n, axs, h, hh, hn, hp, hf => by
    obtain ⟨fs, o1, n1, s1, h1, h2, h3, h4, h5⟩ := holding_source hu hk hd hh hn hp (addr := addr) (x := x) (hf _ List.mem_cons_self)
    have hf' : ∀ y ∈ xs.zip (readSources E ks dflt addr xs (some (o1, n1))).2, Fine E mkIri y := by
      intro y hm
      refine hf y ?_
      rw [readSources]
      dsimp only
      rw [h2]
      exact List.mem_cons_of_mem _ hm
    obtain ⟨fss, o2, n2, s2, k1, k2, k3, k4⟩ := holding_sources hk hd h3 h4 h5 hf'
    refine ⟨fs :: fss, o2, n2, s2, by simp [k1], ?_, ?_, ?_⟩
    · intro y hy
      rcases List.mem_cons.1 hy with rfl | hy
      · exact h1
      · exact k2 y hy
    · rw [readSources]
      dsimp only
      rw [h2]
      exact k3
    · rw [List.flatMap_cons, axiomsAdded_append, List.foldl_append, ← List.append_assoc]
      exact k4

/-- C130 for any documents, but for removed axioms (`C129_fails`), prefixes, and the version (`C130_fails`): if documents of both formats
are read into a new ontology, one after another, each a text that is accepted or bytes that say something, then the ontology has all the
axioms that were said to be added, in their order, and the annotations, imports, IRI and version that are left after the additions and
removals that the documents say, in their order. -/
theorem C130_updates_partial : ∃ mk : Str → Str → Iri, (∀ n r, (mk n r).ns ++ (mk n r).rem = n ++ r) ∧
    ∀ {ks : List Nat} {dflt : Fwd}, ks.length = 4 → Distinct dflt → ∀ {addr n : Nat} {xs : List Source},
      (∀ y ∈ xs.zip (readSources E ks dflt addr xs (some (OntoSt.new ks dflt, n))).2, Fine E mk y) →
      ∃ fss o n' s, fss.length = xs.length ∧ (∀ y ∈ xs.zip fss, SourceSays E mk (initial dflt) y.1 y.2) ∧
        (readSources E ks dflt addr xs (some (OntoSt.new ks dflt, n))).1 = some (o, n') ∧ OntoSpec.Reaches o.onto s ∧
        s.axioms.map Ref.obj = (axiomsAdded (fss.flatMap id)).map Axiom.toObj ∧
        s.annots.map Ref.obj = ((fss.flatMap id).foldl Held.told {}).annots.map Annot.toObj ∧
        s.imports.map Ref.obj = (((fss.flatMap id).foldl Held.told {}).imports.map fun i => .prim (.iri i)) ∧
        o.iri = ((fss.flatMap id).foldl Held.told {}).iri ∧ o.version = ((fss.flatMap id).foldl Held.told {}).version := by
  refine ⟨mkIri, C03_lossless, fun {ks dflt} hk hd {addr n xs} hf => ?_⟩
  have hc : PrefixSpec.Reaches False (OntoSt.new ks dflt).pm _ := .create ks dflt hk hd
  obtain ⟨fss, o, n', s, h1, h2, h3, h4⟩ := holding_sources hu hk hd (o := OntoSt.new ks dflt) (s := ⟨[], [], []⟩) (n := n) (axs := [])
    (h := {}) ⟨⟨[], trivial, rfl, rfl⟩, rfl, rfl, rfl, rfl, rfl⟩ nofun ⟨_, hc⟩ hf
  exact ⟨fss, o, n', s, h1, h2, h3, h4.reaches, h4.axioms, h4.annots, h4.imports, h4.iri, h4.version⟩

end

/-! ## Non-vacuity -/

/-- A text with an import, and bytes that remove it. -/
def mixedUpdate : List Source :=
  [.text (ascii "Ontology(<http://a.x/o> Import(<a:b>) Declaration(Class(<a:b>)))"),
    .bytes [1, 68, 1, 1, 101, 2, 97, 58, 69, 1, 5, 1, 98, 1, 7, 1, 0, 9, 0]]

/-- The conditions of `C130_updates_partial` hold for these documents. -/
example : lebEnv.u.Lawful ∧ Distinct ([] : Fwd) ∧ ∀ y ∈ mixedUpdate.zip (mixed mixedUpdate).2, Fine lebEnv mkIri y := by
  refine ⟨leb_lawful, by simp [Distinct], ?_⟩
  have e : ∃ r, (mixed mixedUpdate).2 = [true, r] := by
    have : (mixed mixedUpdate).2.length = 2 ∧ (mixed mixedUpdate).2.head? = some true := by decide +kernel
    generalize (mixed mixedUpdate).2 = l at this
    match l, this with
    | [a, r], h => exact ⟨r, by simp at h; rw [h]⟩
  obtain ⟨r, e⟩ := e
  rw [e]
  intro y hy
  simp only [mixedUpdate, List.zip_cons_cons, List.zip_nil_right, List.mem_cons, List.not_mem_nil, or_false] at hy
  rcases hy with rfl | rfl
  · rfl
  · have r1 : (prtChanges lebEnv [1, 68, 1, 1, 101, 2, 97, 58, 69, 1, 5, 1, 98, 1, 7, 1, 0, 9, 0]).2 = .done := by decide +kernel
    obtain ⟨fs, h1, -⟩ := run_doc leb_lawful (_root_.Prod.ext rfl r1 : prtChanges lebEnv _ = (_, .done))
    exact ⟨fs, h1⟩

/-- The import is gone; the axiom, which is removed too, is not. -/
example : (mixed mixedUpdate).1.map (fun s => ((s.1.onto.imports.getD []).length, (axiomsOf s.1.onto).length)) = some (0, 1) := by
  decide +kernel

end Cowl
