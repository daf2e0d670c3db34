import Verif.WireWriteProps
import Verif.JoinProps
/-!
# C129: documents in ProtocOWL that are read into one ontology are all in it

The counterpart of C120 for ProtocOWL. What is in the documents is judged by
`WireReadSpec.lean`.
-/
namespace Cowl
open Prt Ast Wire Change Prefix PrefixSpec Sem FuncSpec FuncTell

/-! ## What entries say -/

/-- The axioms. -/
def axiomsSaid (fs : List (Bool × Entry)) : List Axiom := fs.filterMap fun f => match f.2 with
  | .ax a => some a
  | _ => none

/-- The annotations. -/
def annotsSaid (fs : List (Bool × Entry)) : List Annot := fs.filterMap fun f => match f.2 with
  | .annot a => some a
  | _ => none

/-- The imports. -/
def importsSaid (fs : List (Bool × Entry)) : List Iri := fs.filterMap fun f => match f.2 with
  | .imported i => some i
  | _ => none

/-- The prefixes with their namespaces. -/
def prefixesSaid (fs : List (Bool × Entry)) : List (Str × Str) := fs.filterMap fun f => match f.2 with
  | .pfx p n => some (p, n)
  | _ => none

/-- The ontology IRI, if there is one: the last one. -/
def iriSaid (fs : List (Bool × Entry)) : Option Iri := lastSome (fs.map fun f => match f.2 with
  | .iri i => some i
  | _ => none)

/-- The version, if there is one: the last one. -/
def versionSaid (fs : List (Bool × Entry)) : Option Iri := lastSome (fs.map fun f => match f.2 with
  | .version i => some i
  | _ => none)

/-- A client that reads documents into one ontology, one after another: `cowl_reader_read`,
`cowl_reader.c:54-56`, with the handler of `cowl_change_handler_to_ontology`,
`cowl_change_handler.c:61-70`. -/
def prtReadAll (E : Env) : List Str → Option (OntoSt × Nat) → Option (OntoSt × Nat) × List End
  | [], s => (s, [])
  | b :: bs, s =>
    let r := prtRead E changeHandler b s
    let q := prtReadAll E bs r.1
    (q.1, r.2 :: q.2)

/-- What an ontology holds after it was told some entries. -/
structure Grown (o : OntoSt) (s : OntoSpec.Abs) (fs : List (Bool × Entry)) (o' : OntoSt) (s' : OntoSpec.Abs) : Prop where
  reaches : OntoSpec.Reaches o'.onto s'
  axioms : s'.axioms.map Ref.obj = s.axioms.map Ref.obj ++ (axiomsSaid fs).map Axiom.toObj
  annots : s'.annots.map Ref.obj = s.annots.map Ref.obj ++ (annotsSaid fs).map Annot.toObj
  imports : s'.imports.map Ref.obj = s.imports.map Ref.obj ++ (importsSaid fs).map fun i => .prim (.iri i)
  iri : o'.iri = (iriSaid fs).or o.iri
  version : o'.version = (versionSaid fs).or o.version
  prefixes : ∀ p, ¬ Standard p → o'.pm.getNs p = (lastNs (prefixesSaid fs) p).or (o.pm.getNs p)

theorem lastSome_append {α : Type} : ∀ xs ys : List (Option α), lastSome (xs ++ ys) = (lastSome ys).or (lastSome xs)
  | [], ys => by simp [lastSome]
  | x :: xs, ys => by simp only [List.cons_append, lastSome, lastSome_append xs ys, Option.or_assoc]

theorem Grown.trans {o o1 o2 : OntoSt} {s s1 s2 : OntoSpec.Abs} {fs gs : List (Bool × Entry)} (h : Grown o s fs o1 s1)
    (k : Grown o1 s1 gs o2 s2) : Grown o s (fs ++ gs) o2 s2 where
  reaches := k.reaches
  axioms := by rw [k.axioms, h.axioms, axiomsSaid, axiomsSaid, axiomsSaid, List.filterMap_append, List.map_append, List.append_assoc]
  annots := by rw [k.annots, h.annots, annotsSaid, annotsSaid, annotsSaid, List.filterMap_append, List.map_append, List.append_assoc]
  imports := by rw [k.imports, h.imports, importsSaid, importsSaid, importsSaid, List.filterMap_append, List.map_append, List.append_assoc]
  iri := by rw [k.iri, h.iri, iriSaid, iriSaid, iriSaid, List.map_append, lastSome_append, Option.or_assoc]
  version := by rw [k.version, h.version, versionSaid, versionSaid, versionSaid, List.map_append, lastSome_append, Option.or_assoc]
  prefixes := fun p hp => by
    rw [k.prefixes p hp, h.prefixes p hp, prefixesSaid, prefixesSaid, prefixesSaid, List.filterMap_append, lastNs_append, Option.or_assoc]

/-- One entry. -/
theorem grown_one {o : OntoSt} {s : OntoSpec.Abs} {n : Nat} (h : OntoSpec.Reaches o.onto s) (hn : ∀ x ∈ s.axioms, x.addr < n)
    (hp : ∃ a, PrefixSpec.Reaches False o.pm a) (e : Entry) (hc : ItemOk prtSizes e.item) :
    ∃ o' s', changeHandler (some (o, n)) (false, e.item) = (some (o', n + 1), .ok) ∧ Grown o s [(false, e)] o' s' ∧
      (∀ x ∈ s'.axioms, x.addr < n + 1) ∧ ∃ a, PrefixSpec.Reaches False o'.pm a := by
  obtain ⟨o', r, h1, -, h2, h3, h4⟩ := change_step h hn hp (false, e.item) hc
  have h5 : changeHandler (some (o, n)) (false, e.item) = (some ((addPart o (itemPart n e.item)).1, n + 1), .ok) :=
    _root_.Prod.ext rfl (change_accepts (some (o, n)) e.item)
  have e6 := h1.symm.trans h5
  injection e6 with e6 e7
  injection e6 with e6
  injection e6 with e6 _
  subst e6
  refine ⟨_, _, h5, ⟨h2, ?_, ?_, ?_, ?_, ?_, fun p hs => ?_⟩, h3, h4⟩
  · cases e <;> simp [Entry.item, changeOps, OntoSpec.Abs.run, OntoSpec.Abs.step, axiomsSaid]
  · cases e <;> simp [Entry.item, changeOps, OntoSpec.Abs.run, OntoSpec.Abs.step, annotsSaid]
  · cases e <;> simp [Entry.item, changeOps, OntoSpec.Abs.run, OntoSpec.Abs.step, importsSaid]
  · cases e <;> rfl
  · cases e <;> rfl
  · obtain ⟨a, ha⟩ := hp
    cases e with
    | pfx q m =>
      have hr : PrefixSpec.Reaches False (addPart o (itemPart n (Entry.pfx q m).item)).1.pm _ :=
        .add ⟨n, q⟩ m true ha (fun c => c.elim)
      rw [C22_get_ns hr p, C22_get_ns ha p]
      simp only [prefixesSaid, List.filterMap_cons, List.filterMap_nil, lastNs, PrefixSpec.Abs.add, true_or, and_true]
      by_cases h : q = p
      · rw [if_pos h, if_pos h.symm, h, Func.std_other hs]; rfl
      · rw [if_neg h, if_neg fun k => h k.symm]; rfl
    | _ => rfl

/-- Several entries. -/
theorem grown_feed : ∀ (fs : List (Bool × Entry)) (o : OntoSt) (s : OntoSpec.Abs) (n : Nat), OntoSpec.Reaches o.onto s →
    (∀ x ∈ s.axioms, x.addr < n) → (∃ a, PrefixSpec.Reaches False o.pm a) → (∀ f ∈ fs, f.1 = false ∧ ItemOk prtSizes f.2.item) →
    ∃ o' n' s', feed changeHandler (some (o, n)) (fs.map fun f => (f.1, f.2.item)) = (some (o', n'), .ok) ∧ Grown o s fs o' s' ∧
      (∀ x ∈ s'.axioms, x.addr < n') ∧ ∃ a, PrefixSpec.Reaches False o'.pm a
  | [], o, s, n, h, hn, hp, _ => ⟨o, n, s, rfl, ⟨h, by simp [axiomsSaid], by simp [annotsSaid], by simp [importsSaid], rfl, rfl,
      fun _ _ => rfl⟩, hn, hp⟩
  | (b, e) :: fs, o, s, n, h, hn, hp, hf => by
    obtain ⟨hb, hi⟩ := hf (b, e) List.mem_cons_self
    dsimp only at hb hi
    subst hb
    obtain ⟨o1, s1, h1, h2, h3, h4⟩ := grown_one h hn hp e hi
    obtain ⟨o2, n2, s2, k1, k2, k3, k4⟩ := grown_feed fs o1 s1 (n + 1) h2.reaches h3 h4 fun f hm => hf f (List.mem_cons_of_mem _ hm)
    refine ⟨o2, n2, s2, ?_, h2.trans k2, k3, k4⟩
    unfold feed at k1 ⊢
    rw [List.map_cons, feedFrom]
    dsimp only
    rw [h1]
    exact k1

section
variable {E : Env} (hu : E.u.Lawful)
include hu

/-- One document. -/
theorem grown_doc {b : Str} {fs : List (Bool × Entry)} (hd : DocSays E.u.readVarint E.u.readSvarint E.gen mkIri b fs)
    (hf : ∀ f ∈ fs, f.1 = false) {o : OntoSt} {s : OntoSpec.Abs} {n : Nat} (h : OntoSpec.Reaches o.onto s)
    (hn : ∀ x ∈ s.axioms, x.addr < n) (hp : ∃ a, PrefixSpec.Reaches False o.pm a) :
    ∃ o' n' s', prtRead E changeHandler b (some (o, n)) = (some (o', n'), .done) ∧ Grown o s fs o' s' ∧
      (∀ x ∈ s'.axioms, x.addr < n') ∧ ∃ a, PrefixSpec.Reaches False o'.pm a := by
  have e := go_doc hu hd
  have hok := C92_partial E hu b
  rw [e] at hok
  obtain ⟨o', n', s', h1, h2⟩ := grown_feed fs o s n h hn hp fun f hm => ⟨hf f hm, hok _ (List.mem_map.2 ⟨f, hm, rfl⟩)⟩
  obtain ⟨k1, k2⟩ := C57_good E changeHandler b (some (o, n)) (by rw [e])
  rw [e] at k1 k2
  dsimp only at k1 k2
  rw [h1] at k1 k2
  refine ⟨o', n', s', _root_.Prod.ext k1 ?_, h2⟩
  rcases k2 with k | ⟨k, -⟩
  · exact k
  · cases k

theorem grown_all : ∀ {ds : List (Str × List (Bool × Entry))},
    (∀ d ∈ ds, DocSays E.u.readVarint E.u.readSvarint E.gen mkIri d.1 d.2 ∧ ∀ f ∈ d.2, f.1 = false) →
    ∀ {o : OntoSt} {s : OntoSpec.Abs} {n : Nat}, OntoSpec.Reaches o.onto s → (∀ x ∈ s.axioms, x.addr < n) →
    (∃ a, PrefixSpec.Reaches False o.pm a) →
    ∃ o' n' s' l, prtReadAll E (ds.map Prod.fst) (some (o, n)) = (some (o', n'), l) ∧ (∀ x ∈ l, x = .done) ∧
      Grown o s (ds.flatMap Prod.snd) o' s'
  | [], _, o, s, n, h, _, _ => ⟨o, n, s, [], rfl, nofun, ⟨h, by simp [axiomsSaid], by simp [annotsSaid], by simp [importsSaid], rfl, rfl,
      fun _ _ => rfl⟩⟩
  | d :: ds, hd, o, s, n, h, hn, hp => by
    obtain ⟨hd1, hd2⟩ := hd d List.mem_cons_self
    obtain ⟨o1, n1, s1, h1, h2, h3, h4⟩ := grown_doc hu hd1 hd2 h hn hp
    obtain ⟨o2, n2, s2, l, k1, k2, k3⟩ := grown_all (fun x hx => hd x (List.mem_cons_of_mem _ hx)) h2.reaches h3 h4
    refine ⟨o2, n2, s2, .done :: l, ?_, ?_, ?_⟩
    · rw [List.map_cons, prtReadAll, h1]
      dsimp only
      rw [k1]
    · intro x hx
      rcases List.mem_cons.1 hx with rfl | hx
      · rfl
      · exact k2 x hx
    · rw [List.flatMap_cons]; exact h2.trans k3

/-- C129 for documents that say additions only (`C129_fails`): if documents are read into a new
ontology, one after another, then it has the axioms, annotations and imports that they say, in
their order; its IRI and version are the last ones that are said; a prefix stands for what it
was last declared to stand for; and it holds in an interpretation exactly if all that the
documents say does. -/
theorem C129_partial : ∃ mk : Str → Str → Iri, (∀ n r, (mk n r).ns ++ (mk n r).rem = n ++ r) ∧
    ∀ {ks : List Nat} {dflt : Fwd}, ks.length = 4 → Distinct dflt → ∀ (n : Nat) {ds : List (Str × List (Bool × Entry))},
      (∀ d ∈ ds, DocSays E.u.readVarint E.u.readSvarint E.gen mk d.1 d.2 ∧ ∀ f ∈ d.2, f.1 = false) →
      ∃ o n' s l, prtReadAll E (ds.map Prod.fst) (some (OntoSt.new ks dflt, n)) = (some (o, n'), l) ∧ (∀ x ∈ l, x = .done) ∧
        OntoSpec.Reaches o.onto s ∧
        s.axioms.map Ref.obj = (axiomsSaid (ds.flatMap Prod.snd)).map Axiom.toObj ∧
        s.annots.map Ref.obj = (annotsSaid (ds.flatMap Prod.snd)).map Annot.toObj ∧
        s.imports.map Ref.obj = ((importsSaid (ds.flatMap Prod.snd)).map fun i => .prim (.iri i)) ∧
        o.iri = iriSaid (ds.flatMap Prod.snd) ∧ o.version = versionSaid (ds.flatMap Prod.snd) ∧
        (∀ p, ¬ Standard p → o.pm.getNs p = (lastNs (prefixesSaid (ds.flatMap Prod.snd)) p).or (initial dflt p)) ∧
        ∀ I : Interp, HoldsIn I (s.axioms.map Ref.obj) ↔ ∀ a ∈ axiomsSaid (ds.flatMap Prod.snd), sat I a.ax := by
  refine ⟨mkIri, C03_lossless, fun {ks dflt} hk hd n ds hds => ?_⟩
  have hc : PrefixSpec.Reaches False (OntoSt.new ks dflt).pm _ := .create ks dflt hk hd
  obtain ⟨o, n', s, l, h1, h2, h3⟩ := grown_all hu hds (o := OntoSt.new ks dflt) (s := ⟨[], [], []⟩) (n := n)
    ⟨[], trivial, rfl, rfl⟩ nofun ⟨_, hc⟩
  have ha : s.axioms.map Ref.obj = (axiomsSaid (ds.flatMap Prod.snd)).map Axiom.toObj := h3.axioms
  refine ⟨o, n', s, l, h1, h2, h3.reaches, ha, h3.annots, h3.imports, h3.iri.trans Option.or_none, h3.version.trans Option.or_none,
    fun p hp => ?_, fun I => ?_⟩
  · rw [h3.prefixes p hp, C22_get_ns hc p]
  · rw [ha, holds_map (in_axioms _)]

end

/-! ## Non-vacuity -/

/-- A prefix and an ontology IRI in its namespace, and a declaration of this name as a class. -/
def addDoc : Str := [1, 68, 1, 1, 101, 2, 97, 58, 69, 1, 5, 1, 98, 6, 0, 9, 0]

/-- Two documents, with additions only. -/
example : lebEnv.u.Lawful ∧ Distinct ([] : Fwd) ∧ ∃ ds : List (Str × List (Bool × Entry)), ds.length = 2 ∧
    ∀ d ∈ ds, d.2.length = 3 ∧ DocSays lebEnv.u.readVarint lebEnv.u.readSvarint lebEnv.gen mkIri d.1 d.2 ∧ ∀ f ∈ d.2, f.1 = false := by
  obtain ⟨fs, h1, h2, h3, h4⟩ := says_items leb_lawful (b := addDoc) (items := (prtChanges lebEnv addDoc).1.map Prod.snd) (by
    have e : (prtChanges lebEnv addDoc).2 = .done ∧ (prtChanges lebEnv addDoc).1.all (fun c => c.1 = false) = true := by decide +kernel
    generalize prtChanges lebEnv addDoc = p at e
    obtain ⟨x, d⟩ := p
    obtain ⟨rfl, e⟩ := e
    refine congrArg (·, End.done) ?_
    dsimp only
    dsimp only at e
    induction x with
    | nil => rfl
    | cons c x ih =>
      simp only [List.all_cons, Bool.and_eq_true, decide_eq_true_eq] at e
      rw [List.map_cons, List.map_cons, ← ih e.2]
      obtain ⟨c1, c2⟩ := c
      obtain ⟨rfl, -⟩ := e
      rfl)
  have hl : fs.length = 3 := by
    have e : (prtChanges lebEnv addDoc).1.length = 3 := by decide +kernel
    have h5 := congrArg List.length h4
    rw [List.length_map, List.length_map] at h5
    exact h5.trans e
  refine ⟨leb_lawful, by simp [Distinct], [(addDoc, fs), (addDoc, fs)], rfl, fun d hd => ?_⟩
  have : d = (addDoc, fs) := by simpa using hd
  subst this
  exact ⟨hl, h1, h3⟩

/-! ## Failure -/

/-- The addition and the removal of the declaration of a class. -/
def takenBack : Str := [1, 69, 1, 3, 5, 84, 104, 105, 110, 103, 9, 0, 1, 9, 0, 3]

/-- An addition and a removal of the same. -/
def backAndForth : List (Bool × Func.Item) → Bool
  | [(false, .ax (.comp t b [.prim p] n)), (true, .ax (.comp t' b' [.prim p'] n'))] => t = t' ∧ b = b' ∧ p = p' ∧ n = n'
  | _ => false

theorem backAndForth_eq {x : List (Bool × Func.Item)} (h : backAndForth x = true) : ∃ o, x = [(false, .ax o), (true, .ax o)] := by
  unfold backAndForth at h
  split at h
  · simp only [decide_eq_true_eq] at h
    obtain ⟨rfl, rfl, rfl, rfl⟩ := h
    exact ⟨_, rfl⟩
  · cases h

/-- A document says that an axiom is added and removed again; after it was read, the ontology
has an axiom. -/
theorem C129_fails : ∃ (b : Str) (a : Axiom),
    DocSays lebEnv.u.readVarint lebEnv.u.readSvarint lebEnv.gen mkIri b [(false, .ax a), (true, .ax a)] ∧
    (prtRead lebEnv changeHandler b (some (OntoSt.new [1, 2, 3, 4] [], 5))).1.map (fun s => (axiomsOf s.1.onto).length) = some 1 := by
  have run : (prtChanges lebEnv takenBack).2 = .done ∧ backAndForth (prtChanges lebEnv takenBack).1 = true := by decide +kernel
  generalize hp : prtChanges lebEnv takenBack = p at run
  obtain ⟨x, d⟩ := p
  obtain ⟨rfl, run⟩ := run
  obtain ⟨o, ho⟩ := backAndForth_eq run
  dsimp only at ho
  subst ho
  obtain ⟨fs, h1, h2⟩ := run_doc leb_lawful hp
  match fs, h2 with
  | [(b1, e1), (b2, e2)], h2 =>
    simp only [List.map_cons, List.map_nil, List.cons.injEq, Prod.mk.injEq, and_true] at h2
    obtain ⟨⟨rfl, h3⟩, rfl, h4⟩ := h2
    cases e1 <;> simp only [Entry.item, reduceCtorEq, Func.Item.ax.injEq] at h3
    cases e2 <;> simp only [Entry.item, reduceCtorEq, Func.Item.ax.injEq] at h4
    rename_i a a'
    obtain rfl : a = a' := Axiom.inj (h3.symm.trans h4)
    refine ⟨takenBack, a, h1, ?_⟩
    decide +kernel
  | [], h2 => cases h2
  | [_], h2 => simp at h2
  | _ :: _ :: _ :: _, h2 => simp at h2

end Cowl
