import Verif.WireJoinProps
/-!
# C129 for documents with removals

Documents in ProtocOWL may say that something is removed. For annotations, imports, the IRI and
the version this is what happens; axioms stay (`C129_fails`).
-/
namespace Cowl
open Prt Ast Wire Change Prefix PrefixSpec FuncSpec FuncTell

/-- What an ontology should hold, but for its axioms. -/
structure Held where
  annots : List Annot := []
  imports : List Iri := []
  iri : Option Iri := none
  version : Option Iri := none

/-- The annotations and imports are added and removed one by one: the first one that is equal is removed. The IRI and the version are set
and unset. -/
def Held.told (h : Held) : Bool × Entry → Held
  | (false, .annot a) => { h with annots := h.annots ++ [a] }
  | (true, .annot a) => { h with annots := h.annots.eraseP fun b => b.toObj.equals a.toObj }
  | (false, .imported i) => { h with imports := h.imports ++ [i] }
  | (true, .imported i) => { h with imports := h.imports.erase i }
  | (false, .iri i) => { h with iri := some i }
  | (true, .iri _) => { h with iri := none }
  | (false, .version i) => { h with version := some i }
  | (true, .version _) => { h with version := none }
  | _ => h

/-- The axioms that are said to be added. -/
def axiomsAdded (fs : List (Bool × Entry)) : List Axiom := axiomsSaid (fs.filter fun f => !f.1)

/-- The ontology holds these axioms, and otherwise what it should. -/
structure Holding (o : OntoSt) (s : OntoSpec.Abs) (axs : List Axiom) (h : Held) : Prop where
  reaches : OntoSpec.Reaches o.onto s
  axioms : s.axioms.map Ref.obj = axs.map Axiom.toObj
  annots : s.annots.map Ref.obj = h.annots.map Annot.toObj
  imports : s.imports.map Ref.obj = h.imports.map fun i => .prim (.iri i)
  iri : o.iri = h.iri
  version : o.version = h.version

theorem prim_iri_equals (i j : Iri) : (Obj.prim (.iri i)).equals (.prim (.iri j)) = (i == j) := by
  simp only [Obj.equals, Obj.eqv]
  rw [Bool.eq_iff_iff, beq_iff_eq, beq_iff_eq, Prim.iri.injEq]

theorem erase_refs {α : Type} (f : α → Obj) (p : Obj → Bool) {l : List Ref} {m : List α} (h : l.map Ref.obj = m.map f) :
    (l.eraseP fun y => p y.obj).map Ref.obj = (m.eraseP fun x => p (f x)).map f := by
  have e1 := List.eraseP_map (f := Ref.obj) (p := p) (l := l)
  have e2 := List.eraseP_map (f := f) (p := p) (l := m)
  rw [h] at e1
  exact e1.symm.trans e2

/-- The IRI and the version after one entry. -/
theorem changed_id {o o' : OntoSt} {n m : Nat} {r : Ret} {f : Bool × Entry} (h : Held) (hi : o.iri = h.iri) (hv : o.version = h.version)
    (h1 : changeHandler (some (o, n)) (f.1, f.2.item) = (some (o', m), r)) :
    o'.iri = (h.told f).iri ∧ o'.version = (h.told f).version := by
  obtain ⟨_ | _, e⟩ := f
  · cases e <;> simp only [changeHandler, Entry.item, itemPart, addPart, Bool.false_eq_true, if_false, _root_.Prod.mk.injEq,
      Option.some.injEq] at h1 <;> obtain ⟨⟨rfl, -⟩, -⟩ := h1
    · exact ⟨hi, hv⟩
    · exact ⟨rfl, hv⟩
    · exact ⟨hi, rfl⟩
    · exact ⟨hi, hv⟩
    · exact ⟨hi, hv⟩
    · exact ⟨hi, hv⟩
  · cases e with
    | ax a =>
      simp only [changeHandler, Entry.item, itemPart, removePart, if_true] at h1
      cases hx : o.onto.removeAxiom ⟨n, a.toObj⟩ with
      | none => rw [hx] at h1; cases h1
      | some x =>
        rw [hx] at h1
        simp only [Option.map_some, _root_.Prod.mk.injEq, Option.some.injEq] at h1
        obtain ⟨⟨rfl, -⟩, -⟩ := h1
        exact ⟨hi, hv⟩
    | pfx p n =>
      simp only [changeHandler, Entry.item, itemPart, removePart, if_true, _root_.Prod.mk.injEq, Option.some.injEq] at h1
      obtain ⟨⟨rfl, -⟩, -⟩ := h1
      exact ⟨hi, hv⟩
    | iri i =>
      simp only [changeHandler, Entry.item, itemPart, removePart, if_true, _root_.Prod.mk.injEq, Option.some.injEq] at h1
      obtain ⟨⟨rfl, -⟩, -⟩ := h1
      exact ⟨rfl, hv⟩
    | version i =>
      simp only [changeHandler, Entry.item, itemPart, removePart, if_true, _root_.Prod.mk.injEq, Option.some.injEq] at h1
      obtain ⟨⟨rfl, -⟩, -⟩ := h1
      exact ⟨hi, rfl⟩
    | imported i =>
      simp only [changeHandler, Entry.item, itemPart, removePart, if_true, _root_.Prod.mk.injEq, Option.some.injEq] at h1
      obtain ⟨⟨rfl, -⟩, -⟩ := h1
      exact ⟨hi, hv⟩
    | annot a =>
      simp only [changeHandler, Entry.item, itemPart, removePart, if_true, _root_.Prod.mk.injEq, Option.some.injEq] at h1
      obtain ⟨⟨rfl, -⟩, -⟩ := h1
      exact ⟨hi, hv⟩

/-- One entry. -/
theorem holding_one {o : OntoSt} {s : OntoSpec.Abs} {n : Nat} {axs : List Axiom} {h : Held} (hh : Holding o s axs h)
    (hn : ∀ x ∈ s.axioms, x.addr < n) (hp : ∃ a, PrefixSpec.Reaches False o.pm a) (f : Bool × Entry) (hc : ItemOk prtSizes f.2.item) :
    ∃ o' s' r, changeHandler (some (o, n)) (f.1, f.2.item) = (some (o', n + 1), r) ∧ r.isErr = false ∧
      Holding o' s' (axs ++ axiomsAdded [f]) (h.told f) ∧ (∀ x ∈ s'.axioms, x.addr < n + 1) ∧ ∃ a, PrefixSpec.Reaches False o'.pm a := by
  obtain ⟨o', r, h1, h2, h3, h4, h5⟩ := change_step hh.reaches hn hp (f.1, f.2.item) hc
  refine ⟨o', _, r, h1, h2, ⟨h3, ?_, ?_, ?_, ?_, ?_⟩, h4, h5⟩
  · rw [List.map_append, ← hh.axioms]
    obtain ⟨_ | _, e⟩ := f
    · cases e <;> simp [Entry.item, changeOps, OntoSpec.Abs.run, OntoSpec.Abs.step, axiomsAdded, axiomsSaid]
    · cases e <;> simp [Entry.item, changeOps, OntoSpec.Abs.run, OntoSpec.Abs.step, axiomsAdded, axiomsSaid]
      rw [List.eraseP_of_forall_not]
      intro x hx e
      have := hn x hx
      simp at e
      omega
  · obtain ⟨_ | _, e⟩ := f
    · cases e <;> simp [Entry.item, changeOps, OntoSpec.Abs.run, OntoSpec.Abs.step, Held.told, hh.annots]
    · cases e <;> simp [Entry.item, changeOps, OntoSpec.Abs.run, OntoSpec.Abs.step, Held.told, hh.annots]
      rename_i a
      exact erase_refs Annot.toObj (fun y => y.equals a.toObj) hh.annots
  · obtain ⟨_ | _, e⟩ := f
    · cases e <;> simp [Entry.item, changeOps, OntoSpec.Abs.run, OntoSpec.Abs.step, Held.told, hh.imports]
    · cases e <;> simp [Entry.item, changeOps, OntoSpec.Abs.run, OntoSpec.Abs.step, Held.told, hh.imports]
      rename_i i
      refine (erase_refs _ (fun y => y.equals (.prim (.iri i))) hh.imports).trans ?_
      simp only [prim_iri_equals, List.erase_eq_eraseP']
  · exact (changed_id h hh.iri hh.version h1).1
  · exact (changed_id h hh.iri hh.version h1).2

theorem axiomsAdded_append (fs gs : List (Bool × Entry)) : axiomsAdded (fs ++ gs) = axiomsAdded fs ++ axiomsAdded gs := by
  rw [axiomsAdded, List.filter_append]
  exact List.filterMap_append

/-- Several entries. -/
theorem holding_feed : ∀ (fs : List (Bool × Entry)) {o : OntoSt} {s : OntoSpec.Abs} {n : Nat} {axs : List Axiom} {h : Held} (x : Ret),
    x.isErr = false → Holding o s axs h → (∀ x ∈ s.axioms, x.addr < n) → (∃ a, PrefixSpec.Reaches False o.pm a) →
    (∀ f ∈ fs, ItemOk prtSizes f.2.item) →
    ∃ o' n' s' r, feedFrom changeHandler x (some (o, n)) (fs.map fun f => (f.1, f.2.item)) = (some (o', n'), r) ∧ r.isErr = false ∧
      Holding o' s' (axs ++ axiomsAdded fs) (fs.foldl Held.told h) ∧ (∀ x ∈ s'.axioms, x.addr < n') ∧
      ∃ a, PrefixSpec.Reaches False o'.pm a
  | [], o, s, n, axs, h, x, hx, hh, hn, hp, _ => ⟨o, n, s, x, rfl, hx, by simpa [axiomsAdded, axiomsSaid] using hh, hn, hp⟩
  | f :: fs, o, s, n, axs, h, x, hx, hh, hn, hp, hf => by
    obtain ⟨o1, s1, r1, h1, h2, h3, h4, h5⟩ := holding_one hh hn hp f (hf f List.mem_cons_self)
    obtain ⟨o2, n2, s2, r2, k1, k2, k3, k4⟩ := holding_feed fs r1 h2 h3 h4 h5 fun f hm => hf f (List.mem_cons_of_mem _ hm)
    refine ⟨o2, n2, s2, r2, ?_, k2, ?_, k4⟩
    · rw [List.map_cons, feedFrom]
      rw [h1]
      dsimp only
      rw [h2]
      exact k1
    · rw [← List.singleton_append, axiomsAdded_append, ← List.append_assoc]
      exact k3

section
variable {E : Env} (hu : E.u.Lawful)
include hu

/-- One document. -/
theorem holding_doc {b : Str} {fs : List (Bool × Entry)} (hd : DocSays E.u.readVarint E.u.readSvarint E.gen mkIri b fs)
    {o : OntoSt} {s : OntoSpec.Abs} {n : Nat} {axs : List Axiom} {h : Held} (hh : Holding o s axs h)
    (hn : ∀ x ∈ s.axioms, x.addr < n) (hp : ∃ a, PrefixSpec.Reaches False o.pm a) :
    ∃ o' n' s' d, prtRead E changeHandler b (some (o, n)) = (some (o', n'), d) ∧ (d = .done ∨ d = .refused .no) ∧
      Holding o' s' (axs ++ axiomsAdded fs) (fs.foldl Held.told h) ∧ (∀ x ∈ s'.axioms, x.addr < n') ∧
      ∃ a, PrefixSpec.Reaches False o'.pm a := by
  have e := go_doc hu hd
  have hok := C92_partial E hu b
  rw [e] at hok
  obtain ⟨o', n', s', r, h1, h2, h3⟩ := holding_feed fs .ok rfl hh hn hp fun f hm => hok _ (List.mem_map.2 ⟨f, hm, rfl⟩)
  obtain ⟨k1, k2, -⟩ := C57_partial E changeHandler b (some (o, n))
  rw [e] at k1 k2
  dsimp only at k1 k2
  unfold feed at k1 k2
  rw [h1] at k1 k2
  refine ⟨o', n', s', _, _root_.Prod.ext k1 rfl, ?_, h3⟩
  rcases k2 h2 with k | ⟨-, -, k⟩
  · exact .inl k
  · exact .inr k

theorem holding_all : ∀ {ds : List (Str × List (Bool × Entry))},
    (∀ d ∈ ds, DocSays E.u.readVarint E.u.readSvarint E.gen mkIri d.1 d.2) →
    ∀ {o : OntoSt} {s : OntoSpec.Abs} {n : Nat} {axs : List Axiom} {h : Held}, Holding o s axs h → (∀ x ∈ s.axioms, x.addr < n) →
    (∃ a, PrefixSpec.Reaches False o.pm a) →
    ∃ o' n' s' l, prtReadAll E (ds.map Prod.fst) (some (o, n)) = (some (o', n'), l) ∧ (∀ x ∈ l, x = .done ∨ x = .refused .no) ∧
      Holding o' s' (axs ++ axiomsAdded (ds.flatMap Prod.snd)) ((ds.flatMap Prod.snd).foldl Held.told h)
  | [], _, o, s, n, axs, h, hh, _, _ => ⟨o, n, s, [], rfl, nofun, by simpa [axiomsAdded, axiomsSaid] using hh⟩
  | d :: ds, hd, o, s, n, axs, h, hh, hn, hp => by
    obtain ⟨o1, n1, s1, x, h1, h2, h3, h4, h5⟩ := holding_doc hu (hd d List.mem_cons_self) hh hn hp
    obtain ⟨o2, n2, s2, l, k1, k2, k3⟩ := holding_all (fun x hx => hd x (List.mem_cons_of_mem _ hx)) h3 h4 h5
    refine ⟨o2, n2, s2, x :: l, ?_, ?_, ?_⟩
    · rw [List.map_cons, prtReadAll, h1]
      dsimp only
      rw [k1]
    · intro y hy
      rcases List.mem_cons.1 hy with rfl | hy
      · exact h2
      · exact k2 y hy
    · rw [List.flatMap_cons, axiomsAdded_append, List.foldl_append, ← List.append_assoc]
      exact k3

/-- C129 for any documents, but for removed axioms (`C129_fails`), prefixes, and the code (a last removal that has an effect leads to
`COWL_NO`, C57): if documents are read into a new ontology, one after another, then no reading ends with an error; the ontology has all the axioms
that were said to be added, in their order, and the annotations, imports, IRI and version that are left after the additions and removals
that the documents say, in their order. -/
theorem C129_updates_partial : ∃ mk : Str → Str → Iri, (∀ n r, (mk n r).ns ++ (mk n r).rem = n ++ r) ∧
    ∀ {ks : List Nat} {dflt : Fwd}, ks.length = 4 → Distinct dflt → ∀ (n : Nat) {ds : List (Str × List (Bool × Entry))},
      (∀ d ∈ ds, DocSays E.u.readVarint E.u.readSvarint E.gen mk d.1 d.2) →
      ∃ o n' s l, prtReadAll E (ds.map Prod.fst) (some (OntoSt.new ks dflt, n)) = (some (o, n'), l) ∧
        (∀ x ∈ l, x = .done ∨ x = .refused .no) ∧ OntoSpec.Reaches o.onto s ∧
        s.axioms.map Ref.obj = (axiomsAdded (ds.flatMap Prod.snd)).map Axiom.toObj ∧
        s.annots.map Ref.obj = ((ds.flatMap Prod.snd).foldl Held.told {}).annots.map Annot.toObj ∧
        s.imports.map Ref.obj = (((ds.flatMap Prod.snd).foldl Held.told {}).imports.map fun i => .prim (.iri i)) ∧
        o.iri = ((ds.flatMap Prod.snd).foldl Held.told {}).iri ∧ o.version = ((ds.flatMap Prod.snd).foldl Held.told {}).version := by
  refine ⟨mkIri, C03_lossless, fun {ks dflt} hk hd n ds hds => ?_⟩
  have hc : PrefixSpec.Reaches False (OntoSt.new ks dflt).pm _ := .create ks dflt hk hd
  obtain ⟨o, n', s, l, h1, h2, h3⟩ := holding_all hu hds (o := OntoSt.new ks dflt) (s := ⟨[], [], []⟩) (n := n) (axs := []) (h := {})
    ⟨⟨[], trivial, rfl, rfl⟩, rfl, rfl, rfl, rfl, rfl⟩ nofun ⟨_, hc⟩
  exact ⟨o, n', s, l, h1, h2, h3.reaches, h3.axioms, h3.annots, h3.imports, h3.iri, h3.version⟩

end

/-! ## Non-vacuity -/

/-- An ontology IRI and two imports of a name, a declaration of it as a class; then the removal of the IRI, one import and the
declaration. -/
def updateDoc : Str := [1, 68, 1, 1, 101, 2, 97, 58, 69, 1, 5, 1, 98, 6, 0, 7, 2, 0, 0, 9, 0, 1, 6, 0, 7, 1, 0, 9, 0, 3]

/-- The document is one, with removals. -/
example : lebEnv.u.Lawful ∧ Distinct ([] : Fwd) ∧ ∃ fs, DocSays lebEnv.u.readVarint lebEnv.u.readSvarint lebEnv.gen mkIri updateDoc fs ∧
    fs.length = 8 ∧ (fs.filter fun f => f.1).length = 3 := by
  have run : (prtChanges lebEnv updateDoc).2 = .done ∧ (prtChanges lebEnv updateDoc).1.length = 8 ∧
      ((prtChanges lebEnv updateDoc).1.filter fun c => c.1).length = 3 := by decide +kernel
  obtain ⟨r1, r2, r3⟩ := run
  obtain ⟨fs, h1, h2⟩ := run_doc leb_lawful (_root_.Prod.ext rfl r1 : prtChanges lebEnv updateDoc = ((prtChanges lebEnv updateDoc).1, .done))
  rw [h2] at r2 r3
  rw [List.length_map] at r2
  rw [List.filter_map, List.length_map] at r3
  exact ⟨leb_lawful, by simp [Distinct], fs, h1, r2, r3⟩

/-- After it was read the ontology has no IRI, one import, and the axiom. -/
example : (prtRead lebEnv changeHandler updateDoc (some (OntoSt.new [1, 2, 3, 4] [], 5))).1.map (fun s =>
    (s.1.iri, (s.1.onto.imports.getD []).length, (axiomsOf s.1.onto).length)) = some (none, 1, 1) := by decide +kernel

end Cowl
