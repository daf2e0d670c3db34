import Verif.SeriesProps
/-! # Properties: several documents read into one ontology

A client may pass the handler of one ontology to `cowl_reader_read` again and again. What is in the texts is judged by the syntax and the
meaning of the standard (`SaysSpec.lean`, `HeardSpec.lean`, `SemSpec.lean`). -/
namespace Cowl
open Says Func FuncSpec FuncTell Ast Change Prefix PrefixSpec Sem OntoSpec Rewrite Prt Convert

/-- A client that reads texts into one ontology, one after another: `cowl_reader_read`, `cowl_reader.c:54-56`, with the handler of
`cowl_change_handler_to_ontology`, `cowl_change_handler.c:61-70`. Each reading has a prefix map of its own. -/
def readAll (ks : List Nat) (dflt : Fwd) (addr : Nat) : List Str → OntoSt × Nat → (OntoSt × Nat) × List Outcome
  | [], s => (s, [])
  | t :: ts, s =>
    let r := funcRead ontoHandler (create ks dflt) addr t s
    let q := readAll ks dflt addr ts r.1
    (q.1, r.2 :: q.2)

/-- What a prefix is last declared to stand for. -/
def lastNs : List (Str × Str) → Str → Option Str
  | [], _ => none
  | e :: ps, p => match lastNs ps p with
    | some n => some n
    | none => if e.1 = p then some e.2 else none

theorem foldAdd_last {p : Str} (hp : ¬ Standard p) : ∀ (f : Fwd) (x : PrefixSpec.Abs),
    f.foldl (fun x e => x.add e.1.txt e.2 true) x p = (lastNs (f.map fun e => (e.1.txt, e.2)) p).or (x p)
  | [], _ => rfl
  | e :: f, x => by
    rw [List.foldl_cons, foldAdd_last hp f]
    simp only [List.map_cons, lastNs]
    cases lastNs (f.map fun e => (e.1.txt, e.2)) p with
    | some n => rfl
    | none =>
      simp only [PrefixSpec.Abs.add, true_or, and_true, Option.none_or]
      by_cases h : e.1.txt = p
      · rw [if_pos h, if_pos h.symm, h, std_other hp]; rfl
      · rw [if_neg h, if_neg fun k => h k.symm]; rfl

theorem give_pm : ∀ (items : List Item) (s : OntoSt × Nat), (∀ i ∈ items, ∀ p n, i ≠ .prefixDecl p n) →
    (give ontoHandler s items).1.pm = s.1.pm
  | [], _, _ => rfl
  | i :: items, s, h => by
    have h1 := h i List.mem_cons_self
    have h2 := give_pm items (ontoHandler s i).1 fun x hx => h x (List.mem_cons_of_mem _ hx)
    refine h2.trans ?_
    cases i with
    | prefixDecl p n => exact absurd rfl (h1 p n)
    | _ => rfl

/-- The IRI, the version and the prefixes after a document was told to an ontology. -/
theorem give_into (d : Loose) (o : OntoSt) (n : Nat) {a : PrefixSpec.Abs} (ha : PrefixSpec.Reaches False o.pm a) :
    (give ontoHandler (o, n) d.items).1.iri = (d.id.map _root_.Prod.fst).or o.iri ∧
    (give ontoHandler (o, n) d.items).1.version = (d.id.bind _root_.Prod.snd).or o.version ∧
    (∃ b, PrefixSpec.Reaches False (give ontoHandler (o, n) d.items).1.pm b) ∧
    ∀ p, ¬ Standard p → (give ontoHandler (o, n) d.items).1.pm.getNs p = (lastNs d.prefixes p).or (o.pm.getNs p) := by
  unfold Loose.items
  rw [give_append]
  have e0 := give_prefixes (d.prefixes.map fun e => (⟨0, e.1⟩, e.2)) o n
  rw [List.map_map] at e0
  have e0' : give ontoHandler (o, n) (d.prefixes.map fun e => Item.prefixDecl e.1 e.2) = _ := e0
  rw [e0', give_append]
  have k1 := fun s => give_id (d.header.map partItem ++ d.axioms.map fun a => .ax a.toObj) s (by
    intro i hi
    rcases List.mem_append.1 hi with hi | hi
    · obtain ⟨e, _, rfl⟩ := List.mem_map.1 hi
      cases e <;> exact ⟨nofun, nofun⟩
    · obtain ⟨e, _, rfl⟩ := List.mem_map.1 hi
      exact ⟨nofun, nofun⟩)
  have k2 := fun s => give_pm (d.header.map partItem ++ d.axioms.map fun a => .ax a.toObj) s (by
    intro i hi
    rcases List.mem_append.1 hi with hi | hi
    · obtain ⟨e, _, rfl⟩ := List.mem_map.1 hi
      cases e <;> exact nofun
    · obtain ⟨e, _, rfl⟩ := List.mem_map.1 hi
      exact nofun)
  have k3 := fun s => give_pm (Says.idItems d.id) s (by
    intro i hi
    unfold Says.idItems at hi
    split at hi
    · cases hi
    · cases List.mem_singleton.1 hi; exact nofun
    · rcases List.mem_cons.1 hi with rfl | hi
      · exact nofun
      · cases List.mem_singleton.1 hi; exact nofun)
  have hr := overlay_reaches (d.prefixes.map fun e => ((⟨0, e.1⟩ : SRef), e.2)) n ha
  rw [(k1 _).1, (k1 _).2, k2, k3]
  refine ⟨?_, ?_, ⟨_, hr⟩, fun p hp => ?_⟩
  · unfold Says.idItems
    rcases d.id with _ | ⟨i, _ | v⟩ <;> rfl
  · unfold Says.idItems
    rcases d.id with _ | ⟨i, _ | v⟩ <;> rfl
  · refine (C22_get_ns hr p).trans ?_
    rw [foldAdd_last hp, List.map_map, C22_get_ns ha p]
    congr 2
    exact List.map_id' _ 

/-- One reading. -/
theorem read_given {ks : List Nat} (hk : ks.length = 4) {dflt : Fwd} (hd : Distinct dflt) {addr n n' : Nat} {text : Str} {o o' : OntoSt}
    {s : OntoSpec.Abs} {a : PrefixSpec.Abs} (ho : OntoSpec.Reaches o.onto s) (ha : PrefixSpec.Reaches False o.pm a)
    (hn : ∀ x ∈ s.axioms, x.addr < n)
    (e : funcRead ontoHandler (create ks dflt) addr text (o, n) = ((o', n'), .ok)) :
    ∃ (d : Loose) (s' : OntoSpec.Abs), d.Ok ∧ Hears (initial dflt) text d ∧
      (funcRead (taking ontoHandler) (create ks dflt) addr text ((o, n), [])).1 = ((o', n'), d.items) ∧ OntoSpec.Reaches o'.onto s' ∧
      (∀ x ∈ s'.axioms, x.addr < n') ∧
      s'.axioms.map Ref.obj = s.axioms.map Ref.obj ++ d.axioms.map Axiom.toObj ∧
      s'.annots.map Ref.obj = s.annots.map Ref.obj ++ d.doc.annots.map Annot.toObj ∧
      s'.imports.map Ref.obj = s.imports.map Ref.obj ++ (d.doc.imports.map fun i => .prim (.iri i)) ∧
      o'.iri = (d.id.map _root_.Prod.fst).or o.iri ∧ o'.version = (d.id.bind _root_.Prod.snd).or o.version ∧
      (∃ b, PrefixSpec.Reaches False o'.pm b) ∧
      ∀ p, ¬ Standard p → o'.pm.getNs p = (lastNs d.prefixes p).or (o.pm.getNs p) := by
  obtain ⟨r1, r2⟩ := funcRead_record ontoHandler (create ks dflt) addr text (o, n)
  rw [e] at r1 r2
  obtain ⟨d, h1, h2, h3⟩ := read_heard (h := taking ontoHandler) hk hd (s := ((o, n), [])) (addr := addr) (text := text)
    (_root_.Prod.ext rfl r2)
  rw [Examples.give_taking, List.nil_append] at h3
  have e4 : (o', n') = give ontoHandler (o, n) d.items := r1.symm.trans (congrArg _root_.Prod.fst h3)
  have e2 : (funcRead (taking ontoHandler) (create ks dflt) addr text ((o, n), [])).1 = ((o', n'), d.items) := by
    rw [e4]; exact h3
  have := funcRead_typed (P := LoadInv s) (h := taking ontoHandler) holds_step (create ks dflt) addr text (s := ((o, n), []))
    ⟨⟨s, ho, hn, by simp [toldAxioms], by simp [toldAnnots], by simp [toldImports]⟩, ⟨a, ha⟩⟩
  rw [e2] at this
  obtain ⟨⟨s', k1, k2, k3, k4, k5⟩, -⟩ := this
  dsimp only at k1 k2 k3 k4 k5
  rw [toldAxioms_loose] at k3
  rw [(told_loose d).1] at k4
  rw [(told_loose d).2] at k5
  have g := give_into d o n ha
  rw [← e4] at g
  exact ⟨d, s', h1, h2, e2, k1, k2, k3, k4, k5, g⟩

theorem read_into {ks : List Nat} (hk : ks.length = 4) {dflt : Fwd} (hd : Distinct dflt) {addr n n' : Nat} {text : Str} {o o' : OntoSt}
    {s : OntoSpec.Abs} {a : PrefixSpec.Abs} (ho : OntoSpec.Reaches o.onto s) (ha : PrefixSpec.Reaches False o.pm a)
    (hn : ∀ x ∈ s.axioms, x.addr < n)
    (e : funcRead ontoHandler (create ks dflt) addr text (o, n) = ((o', n'), .ok)) :
    ∃ (d : Loose) (s' : OntoSpec.Abs), d.Ok ∧ Hears (initial dflt) text d ∧ OntoSpec.Reaches o'.onto s' ∧
      (∀ x ∈ s'.axioms, x.addr < n') ∧
      s'.axioms.map Ref.obj = s.axioms.map Ref.obj ++ d.axioms.map Axiom.toObj ∧
      s'.annots.map Ref.obj = s.annots.map Ref.obj ++ d.doc.annots.map Annot.toObj ∧
      s'.imports.map Ref.obj = s.imports.map Ref.obj ++ (d.doc.imports.map fun i => .prim (.iri i)) ∧
      o'.iri = (d.id.map _root_.Prod.fst).or o.iri ∧ o'.version = (d.id.bind _root_.Prod.snd).or o.version ∧
      (∃ b, PrefixSpec.Reaches False o'.pm b) ∧
      ∀ p, ¬ Standard p → o'.pm.getNs p = (lastNs d.prefixes p).or (o.pm.getNs p) := by
  obtain ⟨d, s', h1, h2, -, h3⟩ := read_given hk hd ho ha hn e
  exact ⟨d, s', h1, h2, h3⟩

/-- C116 again, with the constructs of the standard instead of objects: under the conditions of `C116_partial` the text that is written says
the IRI, version, imports and annotations of the first, and its axioms, each as often, in some order. It declares the prefixes that the
first text declares, as they are last declared there, and the default ones. -/
theorem C116_alike {ks : List Nat} (hk : ks.length = 4) {dflt : Fwd} (hd : Distinct dflt) (hg : GoodDefaults dflt)
    {addr n n' : Nat} {text : Str} {o : OntoSt}
    (e : funcRead ontoHandler (create ks dflt) addr text (OntoSt.new ks dflt, n) = ((o, n'), .ok)) (hw : Rewritable o)
    (hc : Compatible o.pm dflt) :
    ∃ (d : Loose) (text' : Str) (d' : Doc), d.Ok ∧ Hears (initial dflt) text d ∧
      writeDoc o = some text' ∧ Says.Says lax (initial dflt) text' d' ∧ Alike d d' ∧
      ∀ p n, (p, n) ∈ d'.prefixes ↔ ¬ Standard p ∧ (lastNs d.prefixes p).or (initial dflt p) = some n := by
  have hr : PrefixSpec.Reaches False (create ks dflt) (initial dflt) := .create ks dflt hk hd
  obtain ⟨d, s, h1, h2, e3, -, e5, e6, e7, hiri, hver, -, hp⟩ := read_into hk hd (s := ⟨[], [], []⟩) (o := OntoSt.new ks dflt)
    ⟨[], trivial, rfl, rfl⟩ hr nofun e
  have hdoc := (doc_of_read hk hk hd hg addr n text).2.2
  rw [e] at hdoc
  obtain ⟨txt, w1, d', w2, w3⟩ := C114_partial e3 (hdoc hw) hd hc
  refine ⟨d, txt, d', h1, h2, w1, w2, alike_of (hiri.trans (Option.or_none ..)) (hver.trans (Option.or_none ..)) e5 e6 e7 w3 rfl rfl rfl rfl
    (List.Perm.refl _), fun p n => (w3.prefixes p n).trans (and_comm.trans (and_congr_right fun hs => ?_))⟩
  rw [hp p hs, ← C22_get_ns hr p]
  exact Iff.rfl

/-- The last that there is. -/
def lastSome {α : Type} : List (Option α) → Option α
  | [] => none
  | x :: xs => (lastSome xs).or x

theorem lastNs_append (p : Str) : ∀ ps qs : List (Str × Str), lastNs (ps ++ qs) p = (lastNs qs p).or (lastNs ps p)
  | [], qs => by cases h : lastNs qs p <;> simp [lastNs, h]
  | e :: ps, qs => by
    simp only [List.cons_append, lastNs, lastNs_append p ps qs]
    cases lastNs qs p <;> simp

/-- Several readings. -/
theorem read_all {ks : List Nat} (hk : ks.length = 4) {dflt : Fwd} (hd : Distinct dflt) {addr : Nat} :
    ∀ {texts : List Str} {n n' : Nat} {o o' : OntoSt} {l : List Outcome} {s : OntoSpec.Abs} {a : PrefixSpec.Abs},
    OntoSpec.Reaches o.onto s → PrefixSpec.Reaches False o.pm a → (∀ x ∈ s.axioms, x.addr < n) →
    readAll ks dflt addr texts (o, n) = ((o', n'), l) → (∀ x ∈ l, x = .ok) →
    ∃ (ds : List Loose) (s' : OntoSpec.Abs), ds.length = texts.length ∧
      (∀ x ∈ texts.zip ds, x.2.Ok ∧ Hears (initial dflt) x.1 x.2) ∧ OntoSpec.Reaches o'.onto s' ∧
      s'.axioms.map Ref.obj = s.axioms.map Ref.obj ++ (ds.flatMap Loose.axioms).map Axiom.toObj ∧
      s'.annots.map Ref.obj = s.annots.map Ref.obj ++ (ds.flatMap fun d => d.doc.annots).map Annot.toObj ∧
      s'.imports.map Ref.obj = s.imports.map Ref.obj ++ ((ds.flatMap fun d => d.doc.imports).map fun i => .prim (.iri i)) ∧
      o'.iri = (lastSome (ds.map fun d => d.id.map _root_.Prod.fst)).or o.iri ∧
      o'.version = (lastSome (ds.map fun d => d.id.bind _root_.Prod.snd)).or o.version ∧
      ∀ p, ¬ Standard p → o'.pm.getNs p = (lastNs (ds.flatMap Loose.prefixes) p).or (o.pm.getNs p)
  | [], n, n', o, o', l, s, a, ho, ha, hn, e, hl => by
    cases e
    exact ⟨[], s, rfl, nofun, ho, by simp, by simp, by simp, rfl, rfl, fun _ _ => rfl⟩
  | t :: ts, n, n', o, o', l, s, a, ho, ha, hn, e, hl => by
    obtain ⟨⟨o₁, n₁⟩, r, e1⟩ : ∃ x r, funcRead ontoHandler (create ks dflt) addr t (o, n) = (x, r) := ⟨_, _, rfl⟩
    obtain ⟨⟨o₂, n₂⟩, q, e2⟩ : ∃ x q, readAll ks dflt addr ts (o₁, n₁) = (x, q) := ⟨_, _, rfl⟩
    have e0 : readAll ks dflt addr (t :: ts) (o, n) = ((o₂, n₂), r :: q) := by
      rw [readAll, e1]; dsimp only; rw [e2]
    rw [e0] at e
    cases e
    obtain rfl := hl r List.mem_cons_self
    obtain ⟨d, s₁, h1, h2, h3, h4, h5, h6, h7, h8, h9, ⟨b, hb⟩, h10⟩ := read_into hk hd ho ha hn e1
    obtain ⟨ds, s', k1, k2, k3, k4, k5, k6, k7, k8, k9⟩ := read_all hk hd h3 hb h4 e2 fun x hx => hl x (List.mem_cons_of_mem _ hx)
    refine ⟨d :: ds, s', by simp [k1], ?_, k3, ?_, ?_, ?_, ?_, ?_, fun p hp => ?_⟩
    · intro x hx
      rcases List.mem_cons.1 hx with rfl | hx
      · exact ⟨h1, h2⟩
      · exact k2 x hx
    · rw [k4, h5, List.flatMap_cons, List.map_append, List.append_assoc]
    · rw [k5, h6, List.flatMap_cons, List.map_append, List.append_assoc]
    · rw [k6, h7, List.flatMap_cons, List.map_append, List.append_assoc]
    · rw [k7, h8, List.map_cons, lastSome, Option.or_assoc]
    · rw [k8, h9, List.map_cons, lastSome, Option.or_assoc]
    · rw [k9 p hp, h10 p hp, List.flatMap_cons, lastNs_append, Option.or_assoc]

/-- C120, but for the version (`C120_fails`): if texts are read into a new ontology, one after another, and all are accepted, then it has the
axioms, annotations and imports that they say, in their order; its IRI is that of the last document that has one; a prefix stands for what it was last
declared to stand for; and it holds in an interpretation exactly if all that the texts say does. -/
theorem C120_partial {ks : List Nat} (hk : ks.length = 4) {dflt : Fwd} (hd : Distinct dflt) {addr n n' : Nat} {texts : List Str}
    {o : OntoSt} {l : List Outcome} (e : readAll ks dflt addr texts (OntoSt.new ks dflt, n) = ((o, n'), l)) (hl : ∀ x ∈ l, x = .ok) :
    ∃ (ds : List Loose) (s : OntoSpec.Abs), ds.length = texts.length ∧
      (∀ x ∈ texts.zip ds, x.2.Ok ∧ Hears (initial dflt) x.1 x.2) ∧ OntoSpec.Reaches o.onto s ∧
      s.axioms.map Ref.obj = (ds.flatMap Loose.axioms).map Axiom.toObj ∧
      s.annots.map Ref.obj = (ds.flatMap fun d => d.doc.annots).map Annot.toObj ∧
      s.imports.map Ref.obj = ((ds.flatMap fun d => d.doc.imports).map fun i => .prim (.iri i)) ∧
      o.iri = lastSome (ds.map fun d => d.id.map _root_.Prod.fst) ∧
      (∀ p, ¬ Standard p → o.pm.getNs p = (lastNs (ds.flatMap Loose.prefixes) p).or (initial dflt p)) ∧
      ∀ I : Interp, HoldsIn I (s.axioms.map Ref.obj) ↔ ∀ d ∈ ds, ∀ a ∈ d.axioms, sat I a.ax := by
  have hc : PrefixSpec.Reaches False (OntoSt.new ks dflt).pm _ := .create ks dflt hk hd
  obtain ⟨ds, s, k1, k2, k3, k4, k5, k6, k7, k8, k9⟩ := read_all (o := OntoSt.new ks dflt) (s := ⟨[], [], []⟩) hk hd
    ⟨[], trivial, rfl, rfl⟩ hc nofun e hl
  have k4 : s.axioms.map Ref.obj = (ds.flatMap Loose.axioms).map Axiom.toObj := k4
  refine ⟨ds, s, k1, k2, k3, k4, k5, k6, ?_, ?_, fun I => ?_⟩
  · rw [k7]; exact Option.or_none
  · intro p hp
    rw [k9 p hp, C22_get_ns hc p]
  · rw [k4, holds_map (in_axioms _)]
    constructor
    · intro k d hx a ha; exact k a (List.mem_flatMap.2 ⟨d, hx, ha⟩)
    · intro k a ha
      obtain ⟨d, hx, ha⟩ := List.mem_flatMap.1 ha
      exact k d hx a ha

/-- C120 for the IRI and the version, if all documents that have an IRI have a version, or none has: they are those of the last document that
has an IRI. -/
theorem C120_id {ks : List Nat} (hk : ks.length = 4) {dflt : Fwd} (hd : Distinct dflt) {addr n n' : Nat} {texts : List Str}
    {o : OntoSt} {l : List Outcome} (e : readAll ks dflt addr texts (OntoSt.new ks dflt, n) = ((o, n'), l)) (hl : ∀ x ∈ l, x = .ok) :
    ∃ ds : List Loose, ds.length = texts.length ∧ (∀ x ∈ texts.zip ds, x.2.Ok ∧ Hears (initial dflt) x.1 x.2) ∧
      ((∀ d ∈ ds, ∀ i v, d.id = some (i, v) → v.isSome = true) ∨ (∀ d ∈ ds, ∀ i v, d.id = some (i, v) → v = none) →
        o.iri = (lastSome (ds.map Loose.id)).map _root_.Prod.fst ∧ o.version = (lastSome (ds.map Loose.id)).bind _root_.Prod.snd) := by
  have hc : PrefixSpec.Reaches False (OntoSt.new ks dflt).pm _ := .create ks dflt hk hd
  obtain ⟨ds, s, k1, k2, -, -, -, -, j7, j8, -⟩ := read_all (o := OntoSt.new ks dflt) (s := ⟨[], [], []⟩) hk hd
    ⟨[], trivial, rfl, rfl⟩ hc nofun e hl
  have k7 : o.iri = lastSome (ds.map fun d => d.id.map _root_.Prod.fst) := j7.trans Option.or_none
  have k8 : o.version = lastSome (ds.map fun d => d.id.bind _root_.Prod.snd) := j8.trans Option.or_none
  refine ⟨ds, k1, k2, fun h => ?_⟩
  rw [k7, k8]
  clear k1 k2 k7 k8 j7 j8 e
  have first : ∀ ds : List Loose, lastSome (ds.map fun d => d.id.map _root_.Prod.fst) = (lastSome (ds.map Loose.id)).map _root_.Prod.fst := by
    intro ds
    induction ds with
    | nil => rfl
    | cons d ds ih =>
      simp only [List.map_cons, lastSome, ih]
      cases lastSome (ds.map Loose.id) <;> simp
  refine ⟨first ds, ?_⟩
  rcases h with h | h
  · induction ds with
    | nil => rfl
    | cons d ds ih =>
      simp only [List.map_cons, lastSome, ih fun d hd => h d (List.mem_cons_of_mem _ hd)]
      cases hx : lastSome (ds.map Loose.id) with
      | none => simp
      | some x =>
        obtain ⟨i, v⟩ := x
        have : ∀ {ds : List Loose}, lastSome (ds.map Loose.id) = some (i, v) → ∃ d ∈ ds, d.id = some (i, v) := by
          intro ds
          induction ds with
          | nil => intro k; cases k
          | cons d ds ih =>
            intro k
            simp only [List.map_cons, lastSome] at k
            cases hy : lastSome (ds.map Loose.id) with
            | none => rw [hy] at k; exact ⟨d, List.mem_cons_self, k⟩
            | some y =>
              rw [hy] at k
              obtain ⟨d', h1, h2⟩ := ih (hy.trans k)
              exact ⟨d', List.mem_cons_of_mem _ h1, h2⟩
        obtain ⟨d', h1, h2⟩ := this hx
        have := h d' (List.mem_cons_of_mem _ h1) i v h2
        cases v with
        | none => cases this
        | some v => rfl
  · have : ∀ {ds : List Loose}, (∀ d ∈ ds, ∀ i v, d.id = some (i, v) → v = none) →
        lastSome (ds.map fun d => d.id.bind _root_.Prod.snd) = none ∧ (lastSome (ds.map Loose.id)).bind _root_.Prod.snd = none := by
      intro ds
      induction ds with
      | nil => intro _; exact ⟨rfl, rfl⟩
      | cons d ds ih =>
        intro h
        have h0 := ih fun d hd => h d (List.mem_cons_of_mem _ hd)
        have hb : d.id.bind _root_.Prod.snd = none := by
          cases hx : d.id with
          | none => rfl
          | some x => exact h d List.mem_cons_self x.1 x.2 hx
        refine ⟨?_, ?_⟩
        · simp only [List.map_cons, lastSome, h0.1, hb]; rfl
        · simp only [List.map_cons, lastSome]
          cases hx : lastSome (ds.map Loose.id) with
          | none => exact hb
          | some x => rw [hx] at h0; exact h0.2
    rw [(this h).1, (this h).2]

/-! ## Cases -/

/-- Two documents with the same prefix for different namespaces, and two names. -/
def joinTexts : List Str := [
  ascii "Prefix(e:=<http://a.x/>) Ontology(<http://a.x/o> <http://a.x/v1> Import(<http://b.x/o>) SubClassOf(e:A e:B))",
  ascii "Prefix(e:=<http://b.x/>) Ontology(<http://b.x/o> SubClassOf(e:B e:C) Declaration(Class(e:C)))"]

/-- What was read from the texts. -/
def joined (texts : List Str) : (OntoSt × Nat) × List Outcome := readAll [0, 1, 2, 3] [] 20 texts (OntoSt.new [0, 1, 2, 3] [], 100)

/-- The conditions of `C120_partial` hold for the texts, and there are three axioms. -/
example : (joined joinTexts).2 = [.ok, .ok] ∧ (axiomsOf (joined joinTexts).1.1.onto).length = 3 ∧
    (joined joinTexts).1.1.pm.getNs (ascii "e") = some (ascii "http://b.x/") := by decide +kernel

/-- What is written after the texts were read. -/
example : writeDoc (joined joinTexts).1.1 = some (ascii "Prefix(e:=<http://b.x/>)\nOntology(<http://b.x/o> <http://a.x/v1>\nImport(<http://b.x/o>)\nDeclaration(Class(e:C))\nSubClassOf(<http://a.x/A> <http://a.x/B>)\nSubClassOf(e:B e:C)\n)\n") := by
  decide +kernel

/-- The conditions of `C120_id` hold for texts of which none has a version. -/
example : (joined [ascii "Ontology(<http://a.x/o>)", ascii "Ontology()", ascii "Ontology(<http://b.x/o> Declaration(Class(<http://b.x/C>)))"]).2 =
    [.ok, .ok, .ok] := by decide +kernel

/-- C120 is false as stated: the second document has no version, and the ontology has its IRI and the version of the first. No document has
that name. -/
theorem C120_fails : (joined joinTexts).2 = [.ok, .ok] ∧ (joined joinTexts).1.1.iri = some ⟨ascii "http://b.x/", ascii "o"⟩ ∧
    (joined joinTexts).1.1.version = some ⟨ascii "http://a.x/", ascii "v1"⟩ ∧
    (joined [joinTexts.getD 1 []]).1.1.iri = some ⟨ascii "http://b.x/", ascii "o"⟩ ∧ (joined [joinTexts.getD 1 []]).1.1.version = none := by
  refine ⟨?_, ?_, ?_, ?_, ?_⟩ <;> decide +kernel

end Cowl
