import Verif.WireJoinProps
/-!
# C130: documents of both formats that are read into one ontology are all in it

The handler of `cowl_change_handler_to_ontology` may be given to a reader of texts in functional
syntax, then to one of ProtocOWL, and so on. What is in the documents is judged by `HeardSpec.lean`
and `WireReadSpec.lean`.
-/
namespace Cowl
open Prt Ast Wire Change Prefix PrefixSpec Sem FuncSpec FuncTell
open Func (ontoHandler)

/-- A document: a text in functional syntax, or bytes in ProtocOWL. -/
inductive Source where
  | text (t : Str)
  | bytes (b : Str)
  deriving DecidableEq

/-- An import or an annotation. -/
def partEntry : Iri ⊕ Annot → Entry
  | .inl i => .imported i
  | .inr a => .annot a

/-- What a document in functional syntax says, entry by entry, in the order of the standard. -/
def looseEntries (d : Says.Loose) : List (Bool × Entry) :=
  d.prefixes.map (fun e => (false, Entry.pfx e.1 e.2)) ++ ((d.id.map Prod.fst).toList.map (fun i => (false, Entry.iri i)) ++
    ((d.id.bind Prod.snd).toList.map (fun i => (false, Entry.version i)) ++ (d.header.map (fun x => (false, partEntry x)) ++
      d.axioms.map fun a => (false, Entry.ax a))))

/-- The document says the entries. `first` is what prefixes stand for without a declaration. -/
def SourceSays (E : Env) (mk : Str → Str → Iri) (first : Str → Option Str) : Source → List (Bool × Entry) → Prop
  | .text t, fs => ∃ d : Says.Loose, d.Ok ∧ Says.Hears first t d ∧ fs = looseEntries d
  | .bytes b, fs => DocSays E.u.readVarint E.u.readSvarint E.gen mk b fs

/-- One reading: `cowl_reader_read`, `cowl_reader.c:54-56`, with the handler of
`cowl_change_handler_to_ontology`, `cowl_change_handler.c:61-70`, and whether the document is
accepted. The state is lost after undefined behaviour, see `changeHandler`. -/
def readSource (E : Env) (ks : List Nat) (dflt : Fwd) (addr : Nat) : Source → Option (OntoSt × Nat) → Option (OntoSt × Nat) × Bool
  | .text _, none => (none, false)
  | .text t, some s =>
    let r := Func.funcRead ontoHandler (create ks dflt) addr t s
    (some r.1, r.2 = .ok)
  | .bytes b, s =>
    let r := prtRead E changeHandler b s
    (r.1, r.2 = .done)

/-- A client that reads documents into one ontology, one after another, each with the reader of
its format: `cowl_reader.c:54-56`. -/
def readSources (E : Env) (ks : List Nat) (dflt : Fwd) (addr : Nat) :
    List Source → Option (OntoSt × Nat) → Option (OntoSt × Nat) × List Bool
  | [], s => (s, [])
  | x :: xs, s =>
    let r := readSource E ks dflt addr x s
    let q := readSources E ks dflt addr xs r.1
    (q.1, r.2 :: q.2)

/-! ## What texts say -/

theorem said_loose (d : Says.Loose) : axiomsSaid (looseEntries d) = d.axioms ∧ annotsSaid (looseEntries d) = d.doc.annots ∧
    importsSaid (looseEntries d) = d.doc.imports ∧ iriSaid (looseEntries d) = d.id.map Prod.fst ∧
    versionSaid (looseEntries d) = d.id.bind Prod.snd ∧ prefixesSaid (looseEntries d) = d.prefixes := by
  obtain ⟨ps, id, hs, as⟩ := d
  have last : ∀ {α β : Type} (f : α → Option β) (l : List α), (∀ x, f x = none) → lastSome (l.map f) = none := by
    intro α β f l h
    induction l with
    | nil => rfl
    | cons x l ih => simp only [List.map_cons, lastSome, ih, h]; rfl
  have all : ∀ {α β : Type} (f : α → Option β) (l : List α), (∀ x, f x = none) → l.filterMap f = [] := by
    intro α β f l h
    induction l with
    | nil => rfl
    | cons x l ih => simp only [List.filterMap_cons, ih, h]
  have each : ∀ {α β : Type} (f g : α → Option β) (l : List α), (∀ x, f x = g x) → l.filterMap f = l.filterMap g := by
    intro α β f g l h
    exact congrArg (List.filterMap · l) (funext h)
  refine ⟨?_, ?_, ?_, ?_, ?_, ?_⟩
  · simp only [looseEntries, axiomsSaid, List.filterMap_append, List.filterMap_map, Function.comp_def]
    rw [all _ ps fun _ => rfl, all _ _ fun _ => rfl, all _ _ fun _ => rfl, all _ hs fun x => by cases x <;> rfl]
    simp
  · simp only [looseEntries, annotsSaid, List.filterMap_append, List.filterMap_map, Function.comp_def, Says.Loose.doc]
    rw [all _ ps fun _ => rfl, all _ _ fun _ => rfl, all _ _ fun _ => rfl, all _ as fun _ => rfl, List.append_nil]
    exact each _ _ _ fun x => by cases x <;> rfl
  · simp only [looseEntries, importsSaid, List.filterMap_append, List.filterMap_map, Function.comp_def, Says.Loose.doc]
    rw [all _ ps fun _ => rfl, all _ _ fun _ => rfl, all _ _ fun _ => rfl, all _ as fun _ => rfl, List.append_nil]
    exact each _ _ _ fun x => by cases x <;> rfl
  · simp only [looseEntries, iriSaid, List.map_append, List.map_map, Function.comp_def, lastSome_append]
    rw [last _ ps fun _ => rfl, last _ as fun _ => rfl, last _ hs fun x => by cases x <;> rfl, last _ (id.bind Prod.snd).toList fun _ => rfl]
    cases id <;> rfl
  · simp only [looseEntries, versionSaid, List.map_append, List.map_map, Function.comp_def, lastSome_append]
    rw [last _ ps fun _ => rfl, last _ as fun _ => rfl, last _ hs fun x => by cases x <;> rfl, last _ (id.map Prod.fst).toList fun _ => rfl]
    rcases id with _ | ⟨i, _ | v⟩ <;> rfl
  · simp only [looseEntries, prefixesSaid, List.filterMap_append, List.filterMap_map, Function.comp_def]
    rw [all _ as fun _ => rfl, all _ hs fun x => by cases x <;> rfl, all _ (id.map Prod.fst).toList fun _ => rfl,
      all _ (id.bind Prod.snd).toList fun _ => rfl]
    simp

/-! ## One reading -/

section
variable {E : Env} (hu : E.u.Lawful)
include hu

theorem mixed_one {ks : List Nat} (hk : ks.length = 4) {dflt : Fwd} (hd : Distinct dflt) {addr : Nat} {x : Source} {o : OntoSt}
    {s : OntoSpec.Abs} {n : Nat} (h : OntoSpec.Reaches o.onto s) (hn : ∀ x ∈ s.axioms, x.addr < n)
    (hp : ∃ a, PrefixSpec.Reaches False o.pm a) (e : (readSource E ks dflt addr x (some (o, n))).2 = true)
    (hf : ∀ fs, SourceSays E mkIri (initial dflt) x fs → ∀ f ∈ fs, f.1 = false) :
    ∃ fs o' n' s', SourceSays E mkIri (initial dflt) x fs ∧ (readSource E ks dflt addr x (some (o, n))).1 = some (o', n') ∧
      Grown o s fs o' s' ∧ (∀ x ∈ s'.axioms, x.addr < n') ∧ ∃ a, PrefixSpec.Reaches False o'.pm a := by
  cases x with
  | text t =>
    obtain ⟨a, ha⟩ := hp
    simp only [readSource, decide_eq_true_eq] at e
    obtain ⟨⟨o', n'⟩, r, e1⟩ : ∃ x r, Func.funcRead ontoHandler (create ks dflt) addr t (o, n) = (x, r) := ⟨_, _, rfl⟩
    rw [e1] at e
    dsimp only at e
    subst e
    obtain ⟨d, s', h1, h2, h3, h4, h5, h6, h7, h8, h9, h10, h11⟩ := read_into hk hd h ha hn e1
    obtain ⟨k1, k2, k3, k4, k5, k6⟩ := said_loose d
    refine ⟨looseEntries d, o', n', s', ⟨d, h1, h2, rfl⟩, ?_, ⟨h3, ?_, ?_, ?_, ?_, ?_, ?_⟩, h4, h10⟩
    · simp only [readSource, e1]
    · rw [k1, h5]
    · rw [k2, h6]
    · rw [k3, h7]
    · rw [k4, h8]
    · rw [k5, h9]
    · rw [k6]; exact h11
  | bytes b =>
    simp only [readSource, decide_eq_true_eq] at e
    obtain ⟨-, h2, h3⟩ := C57_partial E changeHandler b (some (o, n))
    have hdone : (prtChanges E b).2 = .done := by
      cases hx : (feed changeHandler (some (o, n)) (prtChanges E b).1).2.isErr with
      | false =>
        rcases h2 hx with k | ⟨k, -⟩
        · exact k.symm.trans e
        · exact k
      | true =>
        rcases h3 hx with k | ⟨k, -⟩ <;> rw [e] at k <;> cases k
    obtain ⟨fs, k1, -⟩ := run_doc hu (_root_.Prod.ext rfl hdone : prtChanges E b = ((prtChanges E b).1, .done))
    obtain ⟨o', n', s', g1, g2, g3, g4⟩ := grown_doc hu k1 (hf fs k1) h hn hp
    exact ⟨fs, o', n', s', k1, by simp only [readSource, g1], g2, g3, g4⟩

theorem mixed_all {ks : List Nat} (hk : ks.length = 4) {dflt : Fwd} (hd : Distinct dflt) {addr : Nat} :
    ∀ {xs : List Source} {o : OntoSt} {s : OntoSpec.Abs} {n : Nat}, OntoSpec.Reaches o.onto s → (∀ x ∈ s.axioms, x.addr < n) →
    (∃ a, PrefixSpec.Reaches False o.pm a) → (∀ r ∈ (readSources E ks dflt addr xs (some (o, n))).2, r = true) →
    (∀ x ∈ xs, ∀ fs, SourceSays E mkIri (initial dflt) x fs → ∀ f ∈ fs, f.1 = false) →
    ∃ fss o' n' s', fss.length = xs.length ∧ (∀ y ∈ xs.zip fss, SourceSays E mkIri (initial dflt) y.1 y.2) ∧
      (readSources E ks dflt addr xs (some (o, n))).1 = some (o', n') ∧ Grown o s (fss.flatMap id) o' s'
  | [], o, s, n, h, _, _, _, _ => ⟨[], o, n, s, rfl, nofun, rfl, ⟨h, by simp [axiomsSaid], by simp [annotsSaid], by simp [importsSaid], rfl,
      rfl, fun _ _ => rfl⟩⟩
  | x :: xs, o, s, n, h, hn, hp, hr, hf => by
    obtain ⟨fs, o1, n1, s1, h1, h2, h3, h4, h5⟩ := mixed_one hu hk hd h hn hp (addr := addr) (x := x) (hr _ List.mem_cons_self)
      (hf x List.mem_cons_self)
    have hr' : ∀ r ∈ (readSources E ks dflt addr xs (some (o1, n1))).2, r = true := by
      intro r hm
      refine hr r ?_
      rw [readSources]
      dsimp only
      rw [h2]
      exact List.mem_cons_of_mem _ hm
    obtain ⟨fss, o2, n2, s2, k1, k2, k3, k4⟩ := mixed_all hk hd h3.reaches h4 h5 hr' fun x hx => hf x (List.mem_cons_of_mem _ hx)
    refine ⟨fs :: fss, o2, n2, s2, by simp [k1], ?_, ?_, ?_⟩
    · intro y hy
      rcases List.mem_cons.1 hy with rfl | hy
      · exact h1
      · exact k2 y hy
    · rw [readSources]
      dsimp only
      rw [h2]
      exact k3
    · rw [List.flatMap_cons]; exact h3.trans k4

/-- C130 for documents that say additions only (C129), and but for the version (`C130_fails`): if documents of both formats are read into
a new ontology, one after another, and all are accepted, then each of them says something, and the ontology has the axioms, annotations and
imports that they say, in their order; its IRI is the last one that is said, and so is its version; a prefix stands for what it was last
declared to stand for; and it holds in an interpretation exactly if all that the documents say does. -/
theorem C130_partial : ∃ mk : Str → Str → Iri, (∀ n r, (mk n r).ns ++ (mk n r).rem = n ++ r) ∧
    ∀ {ks : List Nat} {dflt : Fwd}, ks.length = 4 → Distinct dflt → ∀ {addr n : Nat} {xs : List Source},
      (∀ r ∈ (readSources E ks dflt addr xs (some (OntoSt.new ks dflt, n))).2, r = true) →
      (∀ x ∈ xs, ∀ fs, SourceSays E mk (initial dflt) x fs → ∀ f ∈ fs, f.1 = false) →
      ∃ fss o n' s, fss.length = xs.length ∧ (∀ y ∈ xs.zip fss, SourceSays E mk (initial dflt) y.1 y.2) ∧
        (readSources E ks dflt addr xs (some (OntoSt.new ks dflt, n))).1 = some (o, n') ∧ OntoSpec.Reaches o.onto s ∧
        s.axioms.map Ref.obj = (axiomsSaid (fss.flatMap id)).map Axiom.toObj ∧
        s.annots.map Ref.obj = (annotsSaid (fss.flatMap id)).map Annot.toObj ∧
        s.imports.map Ref.obj = ((importsSaid (fss.flatMap id)).map fun i => .prim (.iri i)) ∧
        o.iri = iriSaid (fss.flatMap id) ∧ o.version = versionSaid (fss.flatMap id) ∧
        (∀ p, ¬ Standard p → o.pm.getNs p = (lastNs (prefixesSaid (fss.flatMap id)) p).or (initial dflt p)) ∧
        ∀ I : Interp, HoldsIn I (s.axioms.map Ref.obj) ↔ ∀ fs ∈ fss, ∀ a ∈ axiomsSaid fs, sat I a.ax := by
  refine ⟨mkIri, C03_lossless, fun {ks dflt} hk hd {addr n xs} hr hf => ?_⟩
  have hc : PrefixSpec.Reaches False (OntoSt.new ks dflt).pm _ := .create ks dflt hk hd
  obtain ⟨fss, o, n', s, h1, h2, h3, h4⟩ := mixed_all hu hk hd (o := OntoSt.new ks dflt) (s := ⟨[], [], []⟩) (n := n)
    ⟨[], trivial, rfl, rfl⟩ nofun ⟨_, hc⟩ hr hf
  have ha : s.axioms.map Ref.obj = (axiomsSaid (fss.flatMap id)).map Axiom.toObj := h4.axioms
  refine ⟨fss, o, n', s, h1, h2, h3, h4.reaches, ha, h4.annots, h4.imports, h4.iri.trans Option.or_none, h4.version.trans Option.or_none,
    fun p hp => ?_, fun I => ?_⟩
  · rw [h4.prefixes p hp, C22_get_ns hc p]
  · rw [ha, holds_map (in_axioms _)]
    have e : axiomsSaid (fss.flatMap id) = fss.flatMap axiomsSaid := by
      clear h1 h2 h4 ha
      induction fss with
      | nil => rfl
      | cons fs fss ih => rw [List.flatMap_cons, List.flatMap_cons, ← ih]; exact List.filterMap_append
    rw [e]
    constructor
    · intro k fs hx a ha; exact k a (List.mem_flatMap.2 ⟨fs, hx, ha⟩)
    · intro k a ha
      obtain ⟨fs, hx, ha⟩ := List.mem_flatMap.1 ha
      exact k fs hx a ha

end

/-! ## Non-vacuity and failure -/

/-- A text with a version, and a document of ProtocOWL without one. -/
def mixedDocs : List Source :=
  [.text (ascii "Ontology(<http://a.x/o> <http://a.x/v1> Declaration(Class(<a:b>)))"), .bytes addDoc]

/-- What was read from documents. -/
def mixed (xs : List Source) : Option (OntoSt × Nat) × List Bool :=
  readSources lebEnv [0, 1, 2, 3] [] 20 xs (some (OntoSt.new [0, 1, 2, 3] [], 100))

theorem loose_added (d : Says.Loose) : ∀ f ∈ looseEntries d, f.1 = false := by
  intro f hf
  simp only [looseEntries, List.mem_append, List.mem_map] at hf
  rcases hf with ⟨x, -, rfl⟩ | ⟨x, -, rfl⟩ | ⟨x, -, rfl⟩ | ⟨x, -, rfl⟩ | ⟨x, -, rfl⟩ <;> rfl

/-- C130 is false as stated: the ontology has the IRI of the second document and the version of the first. No document has that name. -/
theorem C130_fails : (mixed mixedDocs).2 = [true, true] ∧
    (mixed mixedDocs).1.map (fun s => (s.1.iri, s.1.version)) = some (some ⟨ascii "a:", ascii "b"⟩, some ⟨ascii "http://a.x/", ascii "v1"⟩) ∧
    (mixed [.bytes addDoc]).1.map (fun s => (s.1.iri, s.1.version)) = some (some ⟨ascii "a:", ascii "b"⟩, none) := by
  refine ⟨?_, ?_, ?_⟩ <;> decide +kernel

/-- The conditions of `C130_partial` hold for these documents. -/
example : lebEnv.u.Lawful ∧ Distinct ([] : Fwd) ∧ (∀ r ∈ (mixed mixedDocs).2, r = true) ∧
    ∀ x ∈ mixedDocs, ∀ fs, SourceSays lebEnv mkIri (initial []) x fs → ∀ f ∈ fs, f.1 = false := by
  refine ⟨leb_lawful, by simp [Distinct], ?_, fun x hx fs hs => ?_⟩
  · rw [C130_fails.1]; simp
  · simp only [mixedDocs, List.mem_cons, List.not_mem_nil, or_false] at hx
    rcases hx with rfl | rfl
    · obtain ⟨d, -, -, rfl⟩ := hs
      exact loose_added d
    · have h1 := go_doc leb_lawful hs
      have h2 : (prtChanges lebEnv addDoc).1.all (fun c => c.1 = false) = true := by decide +kernel
      rw [h1] at h2
      intro f hf
      have := List.all_eq_true.1 h2 (f.1, f.2.item) (List.mem_map.2 ⟨f, hf, rfl⟩)
      simpa using this

/-- The declaration that both make is in the ontology twice. -/
example : (mixed mixedDocs).1.map (fun s => (axiomsOf s.1.onto).length) = some 2 := by decide +kernel

end Cowl
