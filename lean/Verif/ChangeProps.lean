import Verif.ChangeLemmas
import Verif.PrefixMapProps
/-! # C40, C53: changes of ontologies -/
namespace Cowl
open Prefix PrefixSpec OntoSpec IterSpec Change

/-! ## C40 -/

/-- C40, replay: the handler is called on the parts of the ontology (prefixes, IRI,
version, annotations, imports, axioms) one after the other, until it gives a code other
than OK, which is then the result. -/
theorem C40_replay {σ : Type} (h : Callback σ Part) (o : OntoSt) (s : σ) :
    Run h (parts o) s (handleOntology h o s).1 (handleOntology h o s).2 := by
  rw [replay_eq]; exact iterList_run h _ s

/-- The standard prefixes have their namespaces wherever they are registered. -/
theorem std_registered {m : PMap} {a : PrefixSpec.Abs} (h : PrefixSpec.Reaches False m a) {p n : Str}
    (hp : m.getNs p = some n) : std p n = n := by
  by_cases hs : p ∈ standardPrefixes
  · rcases C22_partial h hs with h1 | h1
    · rw [h1] at hp; cases hp
    · rw [h1] at hp
      cases hp
      exact std_standard hs _ _
  · simp only [standardPrefixes, List.mem_cons, List.not_mem_nil, or_false, not_or] at hs
    simp [std, hs]

/-- C40, rebuilding, except for prefixes that only the new ontology has: replaying an
ontology into a new one succeeds, and the new one has the same IRI, version,
annotations, imports and axioms, in the same order. It has every prefix with the same
namespace, and otherwise the standard and default ones. Its indices are consistent
(C11 to C21 apply to it). -/
theorem C40_partial {o : OntoSt} {s : OntoSpec.Abs} {a : PrefixSpec.Abs} (ho : OntoSpec.Reaches o.onto s)
    (hp : PrefixSpec.Reaches False o.pm a) {ks : List Nat} (hk : ks.length = 4) {dflt : Fwd}
    (hd : Distinct dflt) {r : OntoSt × Ret} (hr : r = handleOntology addPart o (OntoSt.new ks dflt)) :
    r.2 = .ok ∧ r.1.iri = o.iri ∧ r.1.version = o.version ∧
      r.1.onto.annot.getD [] = s.annots ∧ r.1.onto.imports.getD [] = s.imports ∧
      (∀ t, (r.1.onto.byType t).getD [] = (o.onto.byType t).getD []) ∧
      (∀ p, r.1.pm.getNs p = match o.pm.getNs p with
        | some n => some n
        | none => initial dflt p) ∧
      (∃ s', OntoSpec.Reaches r.1.onto s' ∧ s'.axioms.Perm s.axioms ∧ s'.annots = s.annots ∧
        s'.imports = s.imports) := by
  have hi := reaches_inv ho
  have hperm := axiomsOf_perm hi
  have e : r = (addAll (OntoSt.new ks dflt) (parts o), .ok) := by
    rw [hr, replay_eq, iterList_add]
  rw [addAll_parts o _ rfl rfl rfl] at e
  subst e
  have hb : OntoSpec.Reaches (built (o.onto.annot.getD []) (o.onto.imports.getD []) (axiomsOf o.onto))
      ⟨axiomsOf o.onto, o.onto.annot.getD [], o.onto.imports.getD []⟩ :=
    built_reaches (by rw [hi.annot]; exact annots_wf ho) (fun y hy => hi.axioms y (hperm.mem_iff.1 hy))
      (fun y hy z hz e => hi.fits z (hperm.mem_iff.1 hz) y (hperm.mem_iff.1 hy) e)
  have hbi := reaches_inv hb
  refine ⟨rfl, rfl, rfl, ?_, ?_, rebuilt_byType hi _ _, ?_, _, hb, hperm, hi.annot, hi.imports⟩
  · rw [← hi.annot]; exact hbi.annot
  · rw [← hi.imports]; exact hbi.imports
  · intro p
    have hdist := (inv_reaches hp).distinct
    have := C22_get_ns (.merge (m := create ks dflt) o.pm.fwd true (.create ks dflt hk hd) hdist
      (fun f => f.elim)) p
    refine this.trans ?_
    unfold PrefixSpec.Abs.merge
    rw [← getNs_meaning]
    cases h : o.pm.getNs p with
    | none => rfl
    | some n => simp [std_registered hp h]

/-- An ontology whose map has lost prefix `owl` (C22). -/
def bareOnto : OntoSt := ⟨(freshMap.removePrefix (ascii "owl")).1, none, none, Onto.empty⟩

/-- C40 is false as stated: the new ontology has the standard prefixes (and those of
the default map) although the replayed one has not. -/
theorem C40_fails :
    PrefixSpec.Reaches False bareOnto.pm (freshAbs.removePrefix (ascii "owl")) ∧
    OntoSpec.Reaches bareOnto.onto OntoSpec.Abs.empty ∧
    bareOnto.pm.getNs (ascii "owl") = none ∧
    (handleOntology addPart bareOnto (OntoSt.new [0, 1, 2, 3] [])).1.pm.getNs (ascii "owl") = some owlNs :=
  ⟨.removePrefix _ (fresh_reaches _), ⟨[], trivial, rfl, rfl⟩, by decide +kernel, by decide +kernel⟩

/-- An ontology with IRI, prefixes and contents. -/
def richOnto : OntoSt :=
  ⟨busyMap, some ⟨exNs1, ascii "o"⟩, none, (Onto.empty.run sampleOps).getD Onto.empty⟩

/-- The conditions of `C40_partial` hold for it, and it has axioms. -/
example : ∃ s a, OntoSpec.Reaches richOnto.onto s ∧ PrefixSpec.Reaches False richOnto.pm a ∧
    s.axioms ≠ [] := by
  obtain ⟨o, h1, h2⟩ := C11_total sampleOps sampleOps_legal.1
  refine ⟨OntoSpec.Abs.empty.run sampleOps, _, ?_, busy_reaches.weaken, ?_⟩
  · simp only [richOnto, h1, Option.getD_some]; exact h2
  · decide +kernel

/-! ## C53 -/

/-- The part is held by the ontology. -/
def Holds (o : OntoSt) : Part → Prop
  | .prefixDecl p n => o.pm.getNs p.txt = some n
  | .iri i => o.iri = some i
  | .version i => o.version = some i
  | .import x => ∃ y ∈ o.onto.imports.getD [], y.obj.equals x.obj = true
  | .annot x => ∃ y ∈ o.onto.annot.getD [], y.obj.equals x.obj = true
  | .ax x => o.onto.hasAxiom x.obj = true

theorem vecPtrRemove_found (v : Option (List Ref)) (x : Ref) :
    (vecPtrRemove v x).2 = true ↔ ∃ y ∈ v.getD [], y.obj.equals x.obj = true := by
  cases v with
  | none => simp [vecPtrRemove]
  | some xs =>
    simp only [vecPtrRemove, Option.getD_some]
    cases h : xs.findIdx? fun y => y.obj.equals x.obj with
    | none => simpa [List.findIdx?_eq_none_iff] using h
    | some i =>
      simp only [true_iff]
      rw [List.findIdx?_eq_some_iff_getElem] at h
      obtain ⟨hi, h1, _⟩ := h
      exact ⟨_, List.getElem_mem hi, h1⟩

/-- C53 is false as stated, and for imports and annotations always so: the code is OK
exactly if there was nothing to remove. -/
theorem C53_inverted (o : OntoSt) (x : Ref) :
    ((removePart o (.import x)).map Prod.snd = some .ok ↔ ¬ Holds o (.import x)) ∧
    ((removePart o (.annot x)).map Prod.snd = some .ok ↔ ¬ Holds o (.annot x)) := by
  have key : ∀ b, (some (retOfBool b) = some Ret.ok ↔ ¬ b = true) := by decide
  constructor
  · simp only [removePart, Onto.removeImport, Option.map_some, Holds, ← vecPtrRemove_found]
    exact key _
  · simp only [removePart, Onto.removeAnnot, Option.map_some, Holds, ← vecPtrRemove_found]
    exact key _

/-- C53, the part that holds: the IRI and the version are unset, with code OK. -/
theorem C53_partial (o : OntoSt) (i : Iri) :
    removePart o (.iri i) = some ({ o with iri := none }, .ok) ∧
    removePart o (.version i) = some ({ o with version := none }, .ok) := ⟨rfl, rfl⟩

/-- A map with two prefixes for one namespace. -/
def twinMap : PMap := ((freshMap.add (pfx 10 "a") exNs1 false).1.add (pfx 11 "b") exNs1 false).1

/-- C53 is false as stated: the removal of one prefix declaration removes the other
prefix of the namespace too; without another prefix, the code says that nothing was
removed. -/
theorem C53_fails :
    (let o : OntoSt := ⟨twinMap, none, none, Onto.empty⟩
     let r := removePart o (.prefixDecl (pfx 12 "a") exNs1)
     Holds o (.prefixDecl (pfx 12 "b") exNs1) ∧
     r.map (fun x => x.1.pm.getNs (ascii "b")) = some none) ∧
    (let o : OntoSt := ⟨(freshMap.add (pfx 10 "a") exNs1 false).1, none, none, Onto.empty⟩
     let r := removePart o (.prefixDecl (pfx 12 "a") exNs1)
     Holds o (.prefixDecl (pfx 12 "a") exNs1) ∧ r.map Prod.snd = some .no) := by
  refine ⟨⟨?_, ?_⟩, ⟨?_, ?_⟩⟩ <;> (try unfold Holds) <;> decide +kernel

/-- C53 for axioms: the code is OK exactly if there was nothing to remove. The axiom is
removed if the very object is held; if only an equal one is held, nothing is removed and the
code is as if (C15). -/
theorem C53_axioms {o : OntoSt} {s : OntoSpec.Abs} (h : OntoSpec.Reaches o.onto s) (a : Ref) :
    (a ∈ s.axioms → ∃ o' s', removePart o (.ax a) = some ({ o with onto := o' }, .no) ∧ OntoSpec.Reaches o' s' ∧
      s.axioms.Perm (a :: s'.axioms) ∧ s'.annots = s.annots ∧ s'.imports = s.imports) ∧
    ((∀ b ∈ s.axioms, a.obj.equals b.obj = false) → removePart o (.ax a) = some (o, .ok)) ∧
    (IsAxiom a.obj → ObjSpec.Regular false a.obj → (∀ c ∈ s.axioms, c.addr ≠ a.addr) →
      (∃ b ∈ s.axioms, ObjSpec.Regular false b.obj ∧ ObjSpec.Same a.obj b.obj) →
      ∃ o', removePart o (.ax a) = some ({ o with onto := o' }, .no) ∧ OntoSpec.Reaches o' s) := by
  refine ⟨fun ha => ?_, fun hn => ?_, fun ha hr hne ⟨b, hb, hrb, he⟩ => ?_⟩
  · obtain ⟨o', s', h1, h2⟩ := (C15_partial o.onto s h a).1 ha
    exact ⟨o', s', by simp only [removePart, h1, Option.map_some]; rfl, h2⟩
  · simp only [removePart, (C15_partial o.onto s h a).2 hn, Option.map_some]; rfl
  · obtain ⟨o', h1, h2, -⟩ := C15_fails o.onto s h a b ha hr hrb hb he hne
    exact ⟨o', by simp only [removePart, h1, Option.map_some]; rfl, h2⟩

/-- C53 for prefix declarations: all prefixes of the namespace go along, and the code tells
whether there was one besides. Everything else is as before. -/
theorem C53_prefixes {o : OntoSt} {a : PrefixSpec.Abs} (h : PrefixSpec.Reaches False o.pm a) (p : SRef) (n : Str) :
    ∃ pm r, removePart o (.prefixDecl p n) = some ({ o with pm }, r) ∧ (∃ a', PrefixSpec.Reaches False pm a') ∧
      (∀ q, pm.getNs q = if q = p.txt ∨ o.pm.getNs q = some n then none else o.pm.getNs q) ∧
      (r = .ok ∨ r = .no) ∧ (r = .ok ↔ ∃ q, q ≠ p.txt ∧ o.pm.getNs q = some n) := by
  have h1 : PrefixSpec.Reaches False (o.pm.removePrefix p.txt).1 _ := .removePrefix p.txt h
  have h2 : PrefixSpec.Reaches False ((o.pm.removePrefix p.txt).1.removeNs n).1 _ := .removeNs n h1
  have hr : ((o.pm.removePrefix p.txt).2).isErr = false := by
    rw [C22_remove_prefix h]; split <;> rfl
  obtain ⟨h3, h4⟩ := C22_remove_ns h1 n
  refine ⟨_, _, rfl, ⟨_, h2⟩, fun q => ?_, ?_, ?_⟩
  · rw [C22_get_ns h2, C22_get_ns h]
    unfold PrefixSpec.Abs.removeNs PrefixSpec.Abs.removePrefix
    grind
  · rw [hr]; exact h3
  · rw [hr]
    refine h4.trans ?_
    simp only [C22_get_ns h]
    unfold PrefixSpec.Abs.removePrefix
    grind

/-- The prefix map of the example for C40 meets the condition. -/
example : ∃ a, PrefixSpec.Reaches False richOnto.pm a := ⟨_, busy_reaches.weaken⟩

/-- An import that is held, as `C53_inverted` requires for a wrong code. -/
example : ∃ o x, Holds o (.import x) ∧ (removePart o (.import x)).map Prod.snd = some .no := by
  let x : Ref := ⟨1, .prim (.iri ⟨exNs1, ascii "i"⟩)⟩
  refine ⟨⟨freshMap, none, none, Onto.empty.addImport x⟩, x, ⟨x, by simp [Onto.addImport, vecPtrAdd, Onto.empty], ?_⟩, ?_⟩
  · decide +kernel
  · decide +kernel

end Cowl
