import Verif.AnonMeanLemmas
import Verif.PrtAnonProps
import Verif.PrtMeanProps
/-! # C111: leaving out the names of anonymous individuals keeps the meaning -/
namespace Cowl
open Prt Func FuncSpec Ast Change Prefix Sem ObjSpec IterSpec

theorem fields_occur {a : Axiom} {x : Obj} (hx : x ∈ a.ax.fields) {p : Prim} (h : Occurs p x) : Occurs p a.toObj := by
  unfold Axiom.toObj
  obtain ⟨b, e, k⟩ := annotated_eq a.ax.type a.ax.fields (Annot.toObjs a.annots)
  rw [k]
  exact .field (List.mem_append_left _ hx) h

/-- Axioms mean the same when anonymous individuals get other names, distinct ones distinct names. -/
theorem renamed_holds {r : Str → Str} {xs ys : List Obj} {as : List Axiom} (hx : xs = as.map Axiom.toObj)
    (hy : ys.Perm (xs.map (Obj.rename r)))
    (hr : ∀ s t, (∃ x ∈ xs, Occurs (.anon s) x) → (∃ x ∈ xs, Occurs (.anon t) x) → r s = r t → s = t) (I : Interp) :
    HoldsSome I ys ↔ HoldsSome I xs := by
  subst hx
  have e : ∀ x, x ∈ ys ↔ ∃ a ∈ as.map (renAxiom r), x = a.toObj := by
    intro x
    rw [hy.mem_iff, List.map_map]
    simp only [List.mem_map, Function.comp]
    constructor
    · rintro ⟨a, ha, rfl⟩; exact ⟨_, ⟨a, ha, rfl⟩, (ren_axiom a).symm⟩
    · rintro ⟨_, ⟨a, ha, rfl⟩, rfl⟩; exact ⟨a, ha, (ren_axiom a).symm⟩
  have e' : ∀ x, x ∈ as.map Axiom.toObj ↔ ∃ a ∈ as, x = a.toObj := by
    intro x; simp only [List.mem_map]
    exact ⟨fun ⟨a, ha, k⟩ => ⟨a, ha, k.symm⟩, fun ⟨a, ha, k⟩ => ⟨a, ha, k.symm⟩⟩
  have key : ∀ an an' : Str → I.Thing, (∀ a ∈ as, ∀ s, Occurs (.anon s) a.toObj → an' (r s) = an s) →
      (HoldsIn (I.withAnon an') ys ↔ HoldsIn (I.withAnon an) (as.map Axiom.toObj)) := by
    intro an an' h
    rw [holds_map e, holds_map e']
    have one : ∀ a ∈ as, (sat (I.withAnon an') (renAxiom r a).ax ↔ sat (I.withAnon an) a.ax) := fun a ha =>
      ren_sat a.ax fun x hx s hs => h a ha s (fields_occur hx hs)
    constructor
    · intro k a ha; exact (one a ha).1 (k _ (List.mem_map_of_mem ha))
    · intro k b hb
      obtain ⟨a, ha, rfl⟩ := List.mem_map.1 hb
      exact (one a ha).2 (k a ha)
  constructor
  · rintro ⟨an', h⟩
    exact ⟨fun s => an' (r s), (key _ _ fun _ _ _ _ => rfl).1 h⟩
  · rintro ⟨an, h⟩
    let Q : Str → Str → Prop := fun y s => (∃ x ∈ as.map Axiom.toObj, Occurs (.anon s) x) ∧ r s = y
    refine ⟨fun y => open Classical in if h : ∃ s, Q y s then an h.choose else an y, (key an _ ?_).2 h⟩
    intro a ha s hs
    have hq : Q (r s) s := ⟨⟨_, List.mem_map_of_mem ha, hs⟩, rfl⟩
    have hex : ∃ t, Q (r s) t := ⟨s, hq⟩
    rw [dif_pos hex]
    congr 1
    exact hr _ _ hex.choose_spec.1 hq.1 hex.choose_spec.2

/-- C111, in part: an ontology written in ProtocOWL without the names of anonymous individuals and read into a new one, unless the
reader rejects it, holds in the same interpretations as before, for some choice of the anonymous individuals. It is rejected only if
there are two of them. Missing: that it is not rejected (`C111_fails`). -/
theorem C111_partial {E : Env} (hu : E.u.Lawful) (hg : ∀ m n, E.gen m = E.gen n → m = n) {names : List Prt.Id} {o : OntoSt}
    {s : OntoSpec.Abs} (hs : OntoSpec.Reaches o.onto s) (ho : PrtDocOk E.u names o) {order : List Prim → List Prim}
    (hord : ∀ ps, (order ps).Perm ps) (ks : List Nat) (dflt : Fwd) (n : Nat) :
    ∃ b, (∀ cap, b.length ≤ cap → writeOntology E.u false order o cap = (b, .ok)) ∧
      ((prtChanges E b).2 = .rejected →
        ∃ a b, a ≠ b ∧ o.onto.hasPrimitive (.anon a) = true ∧ o.onto.hasPrimitive (.anon b) = true) ∧
      ((prtChanges E b).2 ≠ .rejected → ∃ o' n' s',
        prtRead E changeHandler b (some (OntoSt.new ks dflt, n)) = (some (o', n'), .done) ∧ OntoSpec.Reaches o'.onto s' ∧
        s'.axioms.length = s.axioms.length ∧ (∀ x ∈ s'.axioms, ∃ a : Axiom, x.obj = a.toObj) ∧
        ∀ I : Interp, HoldsSome I (s'.axioms.map Ref.obj) ↔ HoldsSome I (s.axioms.map Ref.obj)) := by
  obtain ⟨b, r, h1, h2, h3, h4⟩ := C37_accepted hu hs ho hord ks dflt n
  refine ⟨b, h1, h3, fun h => ?_⟩
  obtain ⟨o', n', h5, -, -, -, -, -, s', h6, h7⟩ := h4 h
  obtain ⟨as, has⟩ := typed_axioms hs ho
  have hm : s.axioms.map (fun x => x.obj.rename r) = (s.axioms.map Ref.obj).map (Obj.rename r) := by simp
  rw [hm] at h7
  have hp : ∀ t, (∃ x ∈ s.axioms.map Ref.obj, Occurs (.anon t) x) → o.onto.hasPrimitive (.anon t) = true := by
    rintro t ⟨x, hx, k⟩
    obtain ⟨y, hy, rfl⟩ := List.mem_map.1 hx
    exact C17_held o.onto s hs _ ⟨y, .inl hy, (times_pos _ _).2 k⟩
  refine ⟨o', n', s', h5, h6, by simpa using h7.length_eq, ?_, fun I => renamed_holds has h7 ?_ I⟩
  · intro x hx
    have : x.obj ∈ (s.axioms.map Ref.obj).map (Obj.rename r) := h7.mem_iff.1 (List.mem_map_of_mem hx)
    rw [has, List.map_map] at this
    obtain ⟨a, -, e⟩ := List.mem_map.1 this
    exact ⟨_, (e.symm.trans (ren_axiom a).symm)⟩
  · intro a t ha ht e
    exact h2 hg a t (hp a ha) (hp t ht) e

/-- C111 fails: the ontology with the axiom that two anonymous individuals and one with a name are different, written without an
error, is rejected by the reader. -/
theorem C111_fails : anonBack threeInds List.reverse = (.ok, .rejected, 0) ∧ OntoSpec.Reaches (just threeInds).onto
    ⟨[⟨1, threeInds.toObj⟩], [], []⟩ := by
  refine ⟨C37_fails.1.2, ?_⟩
  refine loaded_reaches (i := []) (a := []) (x := [⟨1, threeInds.toObj⟩]) nofun ?_ ?_
  · intro y hy; rw [List.mem_singleton.1 hy]; exact isAxiom_toObj threeInds
  · intro y hy z hz _; rw [List.mem_singleton.1 hy, List.mem_singleton.1 hz]

/-- The hypotheses of C111_partial can be met: an ontology with an anonymous individual, and names for others that are distinct. -/
example : OntoSpec.Reaches prtOnto.onto
      ⟨[⟨3, prtAxiom.toObj⟩], [⟨2, exAnnot.toObj⟩], [⟨1, .prim (.iri (exIri "i"))⟩]⟩ ∧
    PrtDocOk leb prtOntoNames prtOnto ∧ leb.Lawful ∧ prtOnto.onto.hasPrimitive (.anon (ascii "b")) = true ∧
    ∃ E : Env, E.u = leb ∧ ∀ m n, E.gen m = E.gen n → m = n := by
  refine ⟨prtOnto_reaches, prtOnto_ok, leb_lawful, by decide +kernel, ⟨leb, fun n => List.replicate n 97, false⟩, rfl, ?_⟩
  intro m n h
  simpa using congrArg List.length h

end Cowl
