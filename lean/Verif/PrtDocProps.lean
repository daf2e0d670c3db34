import Verif.PrtDocSpec
import Verif.PrtLoadLemmas
/-!
# C35, C38, C55: ProtocOWL documents
-/
namespace Cowl.Prt
open Func FuncSpec Ast Change Prefix

/-- Objects that are all of a form. -/
theorem exists_map {α : Type} {f : α → Obj} {P : α → Prop} : ∀ {xs : List Ref}, (∀ x ∈ xs, ∃ a, x.obj = f a ∧ P a) →
    ∃ as : List α, xs.map Ref.obj = as.map f ∧ ∀ a ∈ as, P a
  | [], _ => ⟨[], rfl, nofun⟩
  | x :: xs, h => by
    obtain ⟨as, h1, h2⟩ := exists_map fun y hy => h y (List.mem_cons_of_mem x hy)
    obtain ⟨a, h3, h4⟩ := h x (by simp)
    refine ⟨a :: as, by simp [h1, h3], ?_⟩
    intro b hb
    rcases List.mem_cons.1 hb with rfl | hb
    · exact h4
    · exact h2 b hb

theorem due_init : ({} : Index).ns.due = some [] := by decide +kernel

theorem sane_init : ({} : Index).ns.Sane := by
  intro n hn
  have h : ∀ e ∈ NsMap.init.prefs, e.1 ∈ NsMap.init.pv.vec := by decide +kernel
  obtain ⟨p, hp⟩ := Option.isSome_iff_exists.1 hn
  have : ∀ {l : List (Str × Str)}, l.lookup n = some p → (n, p) ∈ l := by
    intro l
    induction l with
    | nil => simp
    | cons e l ih =>
      obtain ⟨k, v⟩ := e
      rw [List.lookup_cons]
      by_cases hk : n = k
      · subst hk; simp; intro h; exact .inl h.symm
      · have hf : (n == k) = false := by simpa using hk
        simp only [hf]
        intro h; exact List.mem_cons_of_mem _ (ih h)
  exact h _ (this hp)

theorem init_pfx_short {n p : Str} (h : ({} : Index).ns.pfx n = some p) : p.length < 4294967296 := by
  have hs : ∀ e ∈ NsMap.init.prefs, e.2.length < 4294967296 := by decide +kernel
  have : ∀ {l : List (Str × Str)}, l.lookup n = some p → (∀ e ∈ l, e.2.length < 4294967296) → p.length < 4294967296 := by
    intro l
    induction l with
    | nil => simp
    | cons e l ih =>
      obtain ⟨k, v⟩ := e
      rw [List.lookup_cons]
      intro h hl
      split at h
      · cases h; exact hl (k, p) (by simp)
      · exact ih h fun e he => hl e (by simp [he])
  exact this h hs

theorem std_short : ∀ n ∈ stdPrefixes.map (·.2), n.length < 4294967296 := by decide +kernel

theorem idShort_ns {n r : Str} (h : IdShort (.iri ⟨n, r⟩)) : n.length < 4294967296 := h.1

/-- What `populate_index` makes of any ontology: all names are in the index. -/
theorem populate_names {o : OntoSt} {s : OntoSpec.Abs} (hs : OntoSpec.Reaches o.onto s)
    {order : List Prim → List Prim} (hord : ∀ ps, (order ps).Perm ps) :
    ∃ x, populate {} order o = x ∧ Agree x {} ∧
      (∀ i, o.iri = some i ∨ o.version = some i → .iri i ∈ x.ids.vec) ∧
      (∀ r ∈ o.onto.imports.getD [], ∀ p, r.obj = .prim p → idOf p ∈ x.ids.vec) ∧
      ∀ y, y ∈ s.axioms ∨ y ∈ s.annots → ∀ p, IterSpec.Occurs p y.obj → idOf p ∈ x.ids.vec := by
  obtain ⟨x1, e1, a1, -, a3, -, -, -⟩ := addPrefixes_spec (o.pm.fwd.map fun e => (e.1.txt, e.2)) agree_init sane_init due_init
  obtain ⟨x, e2, b1, -, -, b4, -⟩ := addPrims_spec (popPrims order o) a1
  have hm : ∀ p ∈ popPrims order o, idOf p ∈ x.ids.vec := fun p hp => (b4 _).2 (.inr ⟨p, hp, rfl⟩)
  refine ⟨x, by rw [populate_eq, e1, e2], b1, ?_, ?_, ?_⟩
  · intro i hi; exact hm (.iri i) ((mem_popPrims hord o _).2 (.inl ⟨i, hi, rfl⟩))
  · intro r hr p hp; exact hm p ((mem_popPrims hord o p).2 (.inr (.inr ⟨r, hr, hp⟩)))
  · intro y hy p hp
    exact hm p ((mem_popPrims hord o p).2 (.inr (.inl ((reaches_inv hs).keys p y hy ((times_pos p y.obj).2 hp)))))

/-- What `populate_index` makes of an ontology that ProtocOWL can express. -/
theorem populate_ok {R : Req} {names : List Id} {o : OntoSt} {s : OntoSpec.Abs} (hs : OntoSpec.Reaches o.onto s)
    (ho : PrtDocFits R names o) {order : List Prim → List Prim} (hord : ∀ ps, (order ps).Perm ps) :
    ∃ x, populate {} order o = x ∧ Agree x {} ∧ x.Short ∧
      x.ns.due = some (newPfxs (stdPrefixes.map (·.2)) (o.pm.fwd.map fun e => (e.1.txt, e.2))) ∧
      ∃ is as xs, Chunk R x o is as xs := by
  obtain ⟨x1, e1, a1, -, a3, a4, a5, a6⟩ := addPrefixes_spec (o.pm.fwd.map fun e => (e.1.txt, e.2)) agree_init sane_init due_init
  obtain ⟨x, e2, b1, b2, b3, b4, b5⟩ := addPrims_spec (popPrims order o) a1
  have hx : populate {} order o = x := by rw [populate_eq, e1, e2]
  have hinv := reaches_inv hs
  have hids : ∀ i, i ∈ x.ids.vec ↔ ∃ p ∈ popPrims order o, idOf p = i := by
    intro i; rw [b4, a3]; exact ⟨fun h => h.elim nofun id, .inr⟩
  have hkey : ∀ p ∈ o.onto.idx.map Prod.fst, idOf p ∈ names := fun p hp => ho.prims p ((hasPrimitive_iff o.onto p).2 (by
    cases p <;> first | exact hp | exact .inl hp))
  have hnames : ∀ i ∈ x.ids.vec, i ∈ names := by
    intro i hi
    obtain ⟨p, hp, rfl⟩ := (hids i).1 hi
    rcases (mem_popPrims hord o p).1 hp with ⟨i, h | h, rfl⟩ | h | ⟨r, hr, h⟩
    · exact ho.iri i h
    · exact (ho.version i h).2
    · exact hkey p h
    · obtain ⟨i, h1, h2⟩ := ho.imports r hr
      rw [h] at h1; cases h1; exact h2
  have hhas : ∀ p ∈ popPrims order o, x.Has (idOf p) := by
    intro p hp
    have hi : idOf p ∈ x.ids.vec := (hids _).2 ⟨p, hp, rfl⟩
    refine ⟨hi, ?_⟩
    cases hid : idOf p with
    | anon s => rfl
    | iri i => exact readAs_eq (ho.split i (by rw [← hid]; exact hnames _ hi))
  have hocc : ∀ y, y ∈ s.axioms ∨ y ∈ s.annots → ∀ p, IterSpec.Occurs p y.obj → x.Has (idOf p) := by
    intro y hy p hp
    exact hhas p ((mem_popPrims hord o p).2 (.inr (.inl (hinv.keys p y hy ((times_pos p y.obj).2 hp)))))
  obtain ⟨is, i1, i2⟩ := exists_map ho.imports
  obtain ⟨as, n1, n2⟩ := exists_map ho.annots
  obtain ⟨xs, x1', x2'⟩ := exists_map ho.axioms
  refine ⟨x, hx, b1, ⟨?_, ?_, ?_, ?_, ?_, ?_⟩, ?_, is, as, xs, ?_⟩
  · obtain ⟨_, _, _, hi, _⟩ := b1.ids
    have := nodup_length_le hi.nodup hnames
    have := ho.few
    omega
  · obtain ⟨_, _, hi, _⟩ := b1.ns
    have := nodup_length_le (m := stdPrefixes.map (·.2) ++ o.pm.fwd.map (·.2) ++ names.map fun i => match i with
        | .iri i => i.ns
        | .anon s => s) hi.nodup (by
      intro n hn
      rcases (b5 n).1 hn with hn | ⟨p, hp, r, hr⟩
      · rcases (a5 n).1 hn with hn | ⟨e, he, rfl⟩
        · have : n ∈ NsMap.init.pv.vec := hn
          rw [init_vec] at this
          simp only [List.mem_append]
          exact .inl (.inl this)
        · obtain ⟨e', he', rfl⟩ := List.mem_map.1 he
          simp only [List.mem_append]
          exact .inl (.inr (List.mem_map_of_mem he'))
      · have := hnames _ ((hids _).2 ⟨p, hp, rfl⟩)
        rw [hr] at this
        simp only [List.mem_append]
        exact .inr (List.mem_map.2 ⟨_, this, rfl⟩))
    have h5 : (stdPrefixes.map (·.2)).length = 5 := rfl
    rw [List.length_append, List.length_append, h5, List.length_map, List.length_map] at this
    have := ho.few
    omega
  · intro i hi; exact (ho.short _ (hnames _ hi)).2
  · intro t ht; exact ho.short _ (hnames _ ht)
  · intro n hn
    rcases (b5 n).1 hn with hn | ⟨p, hp, r, hr⟩
    · rcases (a5 n).1 hn with hn | ⟨e, he, rfl⟩
      · have : n ∈ NsMap.init.pv.vec := hn
        rw [init_vec] at this
        exact std_short n this
      · obtain ⟨e', he', rfl⟩ := List.mem_map.1 he
        exact (ho.prefixes e' he').2
    · have := ho.short _ (hnames _ ((hids _).2 ⟨p, hp, rfl⟩))
      rw [hr] at this
      exact idShort_ns this
  · intro n p hp
    have hp : x1.ns.pfx n = some p := by
      unfold NsMap.pfx at hp ⊢
      rw [← b2]; exact hp
    rcases a6 n p hp with h | h
    · exact init_pfx_short h
    · obtain ⟨e', he', heq⟩ := List.mem_map.1 h
      have := (ho.prefixes e' he').1
      cases heq
      exact this
  · rw [b3, a4, List.nil_append]
    congr 2
  · constructor
    · exact i1
    · exact n1
    · rw [collect_eq]; exact x1'
    · intro i hi; exact hhas (.iri i) ((mem_popPrims hord o _).2 (.inl ⟨i, .inl hi, rfl⟩))
    · intro i hi; exact hhas (.iri i) ((mem_popPrims hord o _).2 (.inl ⟨i, .inr hi, rfl⟩))
    · intro i hi
      have : Obj.prim (.iri i) ∈ is.map fun i => Obj.prim (.iri i) := List.mem_map_of_mem hi
      rw [← i1] at this
      obtain ⟨r, hr, he⟩ := List.mem_map.1 this
      exact hhas (.iri i) ((mem_popPrims hord o _).2 (.inr (.inr ⟨r, hr, he⟩)))
    · intro a ha p hp
      have : a.toObj ∈ as.map Annot.toObj := List.mem_map_of_mem ha
      rw [← n1, hinv.annot] at this
      obtain ⟨r, hr, he⟩ := List.mem_map.1 this
      exact hocc r (.inr hr) p (by rw [he]; exact hp)
    · intro a ha p hp
      have : a.toObj ∈ xs.map Axiom.toObj := List.mem_map_of_mem ha
      rw [← x1'] at this
      obtain ⟨r, hr, he⟩ := List.mem_map.1 this
      exact hocc r (.inl ((axiomsOf_perm hinv).mem_iff.1 hr)) p (by rw [he]; exact hp)
    · exact n2
    · exact x2'
    · have := congrArg List.length i1
      simp only [List.length_map] at this
      rw [← this]; exact ho.few_imports
    · have := congrArg List.length n1
      simp only [List.length_map] at this
      rw [← this]; exact ho.few_annots

theorem run_nil {σ : Type} (E : Env) (h : Callback σ (Bool × Item)) (ctx : σ) (d : DIndex) (f : Nat) (rm : Bool) :
    run E h ⟨ctx, ⟨[], d, f⟩, rm, .ok⟩ = (ctx, .done) := rfl

/-- The items of a document with given prefixes. -/
def WritesItems (o : OntoSt) (ps : List (Str × Str)) (items : List Item) : Prop :=
  ∃ is : List Iri, (o.onto.imports.getD []).map Ref.obj = is.map (fun i => Obj.prim (.iri i)) ∧
    items = (ps.map fun p => Item.prefixDecl p.1 p.2) ++ ((o.iri.map Item.iri).toList ++
      (o.version.map Item.version).toList) ++ is.map Item.import ++
      (o.onto.annot.getD []).map (fun x => Item.annot x.obj) ++ (axiomsOf o.onto).map fun x => Item.ax x.obj

/-- With one namespace at most once, exactly the new ones are added. -/
theorem newPfxs_filter : ∀ (l : List (Str × Str)) (seen : List Str), l.Pairwise (fun a b => a.2 ≠ b.2) →
    newPfxs seen l = l.filter fun e => !seen.contains e.2
  | [], _, _ => rfl
  | e :: l, seen, h => by
    have h' := List.pairwise_cons.1 h
    rw [newPfxs, List.filter_cons]
    by_cases hm : e.2 ∈ seen
    · simp only [hm, if_true, List.contains_eq_mem, decide_true, Bool.not_true, Bool.false_eq_true, if_false]
      have := newPfxs_filter l seen h'.2
      simpa [List.contains_eq_mem] using this
    · simp only [hm, if_false, List.contains_eq_mem, decide_false, Bool.not_false, if_true]
      rw [newPfxs_filter l _ h'.2]
      congr 1
      apply List.filter_congr
      intro k hk
      have : k.2 ≠ e.2 := fun c => h'.1 k hk c.symm
      simp [List.contains_eq_mem, this]

theorem newPfxs_ns : ∀ (l : List (Str × Str)) (seen : List Str),
    ((newPfxs seen l).map (·.2)).Nodup ∧ ∀ n, n ∈ (newPfxs seen l).map (·.2) ↔ n ∉ seen ∧ ∃ p, (p, n) ∈ l
  | [], seen => by simp [newPfxs]
  | e :: l, seen => by
    obtain ⟨p, m⟩ := e
    rw [newPfxs]
    by_cases hm : m ∈ seen
    · simp only [hm, if_true]
      refine ⟨(newPfxs_ns l seen).1, fun n => ?_⟩
      rw [(newPfxs_ns l seen).2 n]
      grind
    · simp only [hm, if_false]
      obtain ⟨h1, h2⟩ := newPfxs_ns l (m :: seen)
      refine ⟨?_, fun n => ?_⟩
      · rw [List.map_cons, List.nodup_cons]
        exact ⟨fun c => ((h2 m).1 c).1 (by simp), h1⟩
      · rw [List.map_cons, List.mem_cons, h2 n]
        grind

theorem writes_items {R : Req} {x : Index} {o : OntoSt} {is : List Iri} {as : List Annot} {xs : List Axiom}
    (hc : Chunk R x o is as xs) (hv : ∀ v, o.version = some v → o.iri ≠ none) (ps : List (Str × Str)) :
    WritesItems o ps (chunkItems ps o is as xs) := by
  refine ⟨is, hc.imports, ?_⟩
  have e3 : idItems o.iri o.version = (o.iri.map Item.iri).toList ++ (o.version.map Item.version).toList := by
    unfold idItems
    cases h1 : o.iri with
    | some i => rfl
    | none =>
      cases h2 : o.version with
      | none => rfl
      | some v => exact absurd h1 (hv v h2)
  have e1 : (o.onto.annot.getD []).map (fun x => Item.annot x.obj) = as.map fun a => Item.annot a.toObj := by
    have := congrArg (List.map Item.annot) hc.annots
    simpa [Function.comp_def] using this
  have e2 : (axiomsOf o.onto).map (fun x => Item.ax x.obj) = xs.map fun a => Item.ax a.toObj := by
    have := congrArg (List.map Item.ax) hc.axioms
    rw [collect_eq] at this
    simpa [Function.comp_def] using this
  rw [e1, e2, ← e3]
  rfl

theorem tells_of_writes {o : OntoSt} {items : List Item}
    (h : WritesItems o (newPfxs (stdPrefixes.map (·.2)) (o.pm.fwd.map fun e => (e.1.txt, e.2))) items) : PrtTells o items := by
  obtain ⟨is, h2, h4⟩ := h
  have hk : ∀ n, n ∈ stdPrefixes.map (·.2) ↔ n ∈ knownNs := by
    intro n
    simp only [stdPrefixes, knownNs, rdfNs, rdfsNs, xsdNs, owlNs, xmlNs, List.map, List.mem_cons, List.not_mem_nil, or_false]
    grind
  obtain ⟨h5, h6⟩ := newPfxs_ns (o.pm.fwd.map fun e => (e.1.txt, e.2)) (stdPrefixes.map (·.2))
  exact ⟨_, is, newPfxs_sublist _ _, h5, fun n => by rw [h6 n, hk n], h2, h4⟩

/-- The bytes, and what reading them does. -/
theorem written {E : Env} (hu : E.u.Lawful) {names : List Id} {o : OntoSt} {s : OntoSpec.Abs}
    (hs : OntoSpec.Reaches o.onto s) (ho : PrtDocOk E.u names o) {order : List Prim → List Prim}
    (hord : ∀ ps, (order ps).Perm ps) :
    ∃ b items, (∀ cap, b.length ≤ cap → writeOntology E.u true order o cap = (b, .ok)) ∧
      WritesItems o (newPfxs (stdPrefixes.map (·.2)) (o.pm.fwd.map fun e => (e.1.txt, e.2))) items ∧
      ∀ {σ : Type} (h : Callback σ (Bool × Item)), Accepts (fun s i => h s (false, i)) → ∀ ctx,
        prtRead E h b ctx = (give (fun s i => h s (false, i)) ctx items, .done) := by
  obtain ⟨x, e, hA, hS, hdue, is, as, xs, hc⟩ := populate_ok hs ho hord
  obtain ⟨b, ps, h1, h2, h3⟩ := fr_data hu hA hS hc
  have hps : ps = newPfxs (stdPrefixes.map (·.2)) (o.pm.fwd.map fun e => (e.1.txt, e.2)) :=
    Option.some.inj (h2.symm.trans hdue)
  refine ⟨1 :: b, chunkItems ps o is as xs, fun cap hcap => ?_, ?_, fun h hh ctx => ?_⟩
  · unfold writeOntology
    rw [e, h1]
    dsimp only
    rw [if_pos hcap, List.take_of_length_le hcap]
  · rw [← hps]
    exact writes_items hc (fun v h => (ho.version v h).1) ps
  · have := h3 h false hh [] ctx 0
    rw [List.append_nil, run_nil] at this
    unfold prtRead
    exact (if_pos rfl).trans this

end Cowl.Prt

namespace Cowl
open Prt Func FuncSpec Ast Change Prefix

/-- C35 for any handler that accepts everything, under the conditions of `PrtDocOk`: the
ontology is written without an error, and reading the bytes calls the handler on exactly
what the ontology consists of, in order; the bytes do not depend on the handler. -/
theorem C35_events {E : Env} (hu : E.u.Lawful) {names : List Id} {o : OntoSt} {s : OntoSpec.Abs}
    (hs : OntoSpec.Reaches o.onto s) (ho : PrtDocOk E.u names o) {order : List Prim → List Prim}
    (hord : ∀ ps, (order ps).Perm ps) :
    ∃ b items, (∀ cap, b.length ≤ cap → writeOntology E.u true order o cap = (b, .ok)) ∧
      PrtTells o items ∧
      ∀ {σ : Type} (h : Callback σ (Bool × Item)), Accepts (fun s i => h s (false, i)) → ∀ ctx,
        prtRead E h b ctx = (give (fun s i => h s (false, i)) ctx items, .done) := by
  obtain ⟨b, items, h1, h2, h3⟩ := written hu hs ho hord
  exact ⟨b, items, h1, tells_of_writes h2, h3⟩

/-- Reading back into a new ontology, with its prefix map. -/
theorem readBack {E : Env} (hu : E.u.Lawful) {names : List Id} {o : OntoSt} {s : OntoSpec.Abs}
    (hs : OntoSpec.Reaches o.onto s) (ho : PrtDocOk E.u names o) {order : List Prim → List Prim}
    (hord : ∀ ps, (order ps).Perm ps) (ks : List Nat) (dflt : Fwd) (n : Nat) :
    ∃ b o' n', (∀ cap, b.length ≤ cap → writeOntology E.u true order o cap = (b, .ok)) ∧
      prtRead E changeHandler b (some (OntoSt.new ks dflt, n)) = (some (o', n'), .done) ∧
      o'.pm = overlay n (asFwd (newPfxs (stdPrefixes.map (·.2)) (o.pm.fwd.map fun e => (e.1.txt, e.2)))) (create ks dflt) ∧
      o'.iri = o.iri ∧ o'.version = o.version ∧
      (o'.onto.imports.getD []).map Ref.obj = s.imports.map Ref.obj ∧
      (o'.onto.annot.getD []).map Ref.obj = s.annots.map Ref.obj ∧
      (∀ t, ((o'.onto.byType t).getD []).map Ref.obj = ((o.onto.byType t).getD []).map Ref.obj) ∧
      ∃ s', OntoSpec.Reaches o'.onto s' ∧ (s'.axioms.map Ref.obj).Perm (s.axioms.map Ref.obj) ∧
        ∀ p, o'.onto.hasPrimitive p = true → OntoSpec.OrIri (OntoSpec.Mentioned s') p := by
  obtain ⟨b, items, h1, ⟨is, h2, rfl⟩, h3⟩ := written hu hs ho hord
  have hv : o.version ≠ none → o.iri ≠ none := by
    intro h
    obtain ⟨v, hv⟩ := Option.ne_none_iff_exists'.1 h
    exact (ho.version v hv).1
  obtain ⟨o', n', e, r⟩ := load hs hv h2 rfl (axioms_filter hs)
    ((axiomsOf_perm (reaches_inv hs)).map _) (newPfxs (stdPrefixes.map (·.2)) (o.pm.fwd.map fun e => (e.1.txt, e.2)))
    (create ks dflt) n
  refine ⟨b, o', n', h1, ?_, r⟩
  rw [h3 changeHandler change_accepts]
  refine congrArg (·, End.done) ((give_change _ _).trans (congrArg some ?_))
  rw [← e]
  unfold idItems
  simp only [OntoSt.new, List.map_map]
  cases h1 : o.iri with
  | some i => rfl
  | none =>
    cases h2 : o.version with
    | none => rfl
    | some v => exact absurd h1 (ho.version v h2).1

/-- C35 under the conditions of `PrtDocOk`: an ontology that is written and read into a new
one has the same IRI, version, imports, annotations and axioms (of each type in the same
order). The new ontology is consistent (C11 to C21 apply to it). Missing: what `PrtDocOk`
asks for, see `C35_fails`. -/
theorem C35_partial {E : Env} (hu : E.u.Lawful) {names : List Id} {o : OntoSt} {s : OntoSpec.Abs}
    (hs : OntoSpec.Reaches o.onto s) (ho : PrtDocOk E.u names o) {order : List Prim → List Prim}
    (hord : ∀ ps, (order ps).Perm ps) (ks : List Nat) (dflt : Fwd) (n : Nat) :
    ∃ b o' n', (∀ cap, b.length ≤ cap → writeOntology E.u true order o cap = (b, .ok)) ∧
      prtRead E changeHandler b (some (OntoSt.new ks dflt, n)) = (some (o', n'), .done) ∧
      o'.iri = o.iri ∧ o'.version = o.version ∧
      (o'.onto.imports.getD []).map Ref.obj = s.imports.map Ref.obj ∧
      (o'.onto.annot.getD []).map Ref.obj = s.annots.map Ref.obj ∧
      (∀ t, ((o'.onto.byType t).getD []).map Ref.obj = ((o.onto.byType t).getD []).map Ref.obj) ∧
      ∃ s', OntoSpec.Reaches o'.onto s' ∧ (s'.axioms.map Ref.obj).Perm (s.axioms.map Ref.obj) := by
  obtain ⟨b, o', n', h1, h2, -, h3, h4, h5, h6, h7, s', h8, h9, -⟩ := readBack hu hs ho hord ks dflt n
  exact ⟨b, o', n', h1, h2, h3, h4, h5, h6, h7, s', h8, h9⟩

/-! ## Examples -/

/-- An ontology with prefixes, IRI, version, import, annotation and axiom. -/
def prtOnto : OntoSt :=
  ⟨busyMap, some (exIri "o"), some (exIri "v1"),
    loaded [⟨1, .prim (.iri (exIri "i"))⟩] [⟨2, exAnnot.toObj⟩] [⟨3, prtAxiom.toObj⟩]⟩

/-- Its names. -/
def prtOntoNames : List Id :=
  [.iri (exIri "o"), .iri (exIri "v1"), .iri (exIri "i"), .iri (exIri "note"), .iri (exIri "doc")] ++ prtNames

theorem prtOnto_reaches : OntoSpec.Reaches prtOnto.onto
    ⟨[⟨3, prtAxiom.toObj⟩], [⟨2, exAnnot.toObj⟩], [⟨1, .prim (.iri (exIri "i"))⟩]⟩ := by
  refine loaded_reaches ?_ ?_ ?_
  · intro y hy; rw [List.mem_singleton.1 hy]; exact wf_annot exAnnot
  · intro y hy; rw [List.mem_singleton.1 hy]; exact isAxiom_toObj prtAxiom
  · intro y hy z hz _; rw [List.mem_singleton.1 hy, List.mem_singleton.1 hz]

/-- A check of splits. -/
def splitOk : Id → Bool
  | .iri i => iriFromString (i.ns ++ i.rem) == some (i.ns, i.rem)
  | .anon _ => true

theorem splitOk_split {i : Iri} (h : splitOk (.iri i) = true) : XmlSpec.IsSplit (i.ns ++ i.rem) i.ns i.rem := by
  have h1 : iriFromString (i.ns ++ i.rem) = some (i.ns, i.rem) := by simpa [splitOk] using h
  have hne : i.ns ++ i.rem ≠ [] := by
    intro h; rw [h] at h1; simp [iriFromString] at h1
  obtain ⟨a, b, e, hs⟩ := C02_split _ hne
  rw [h1] at e; cases e; exact hs

/-- A check of lengths. -/
def shortOk : Id → Bool
  | .iri i => i.ns.length < 4294967296 && i.rem.length < 4294967296
  | .anon s => s.length < 4294967296

theorem prtOnto_ok : PrtDocOk leb prtOntoNames prtOnto := by
  have hi := reaches_inv prtOnto_reaches
  have hkeys : (prtOnto.onto.idx.map Prod.fst).all (fun p => prtOntoNames.contains (idOf p)) = true := by decide +kernel
  have hk : ∀ p ∈ prtOnto.onto.idx.map Prod.fst, idOf p ∈ prtOntoNames := fun p hp => by
    simpa using List.all_eq_true.1 hkeys p hp
  have hsplit : prtOntoNames.all splitOk = true := by decide +kernel
  have hshort : prtOntoNames.all shortOk = true := by decide +kernel
  have hpfx : prtOnto.pm.fwd.all (fun e => e.1.txt.length < 4294967296 && e.2.length < 4294967296) = true := by decide +kernel
  refine ⟨?_, ?_, ?_, ?_, ?_, ?_, ?_, ?_, ?_, by decide +kernel, by decide +kernel, by decide +kernel⟩
  · intro i h; cases h; simp [prtOntoNames]
  · intro i h; cases h; exact ⟨nofun, by simp [prtOntoNames]⟩
  · intro p hp
    have := (hasPrimitive_iff prtOnto.onto p).1 hp
    cases p with
    | ent k i =>
      rcases this with h | h
      · exact hk _ h
      · exact hk (.iri i) h
    | iri i => exact hk _ this
    | anon s => exact hk _ this
  · intro x hx
    rw [hi.imports] at hx
    rw [List.mem_singleton.1 hx]
    exact ⟨_, rfl, by simp [prtOntoNames]⟩
  · intro x hx
    rw [hi.annot] at hx
    rw [List.mem_singleton.1 hx]
    refine ⟨_, rfl, ?_⟩
    rw [exAnnot, Annot.Meets]
    exact ⟨trivial, trivial, by simp [Annot.AllMeet], show 0 < 4294967296 by decide⟩
  · intro x hx
    have := (axiomsOf_perm hi).mem_iff.1 hx
    rw [List.mem_singleton.1 this]
    exact ⟨_, rfl, prtAxiom_contents⟩
  · intro i h; exact splitOk_split (List.all_eq_true.1 hsplit _ h)
  · intro i h
    have := List.all_eq_true.1 hshort _ h
    cases i <;> simpa [shortOk, IdShort] using this
  · intro e he
    simpa using List.all_eq_true.1 hpfx e he

/-- The conditions of `C35_partial` hold for it. -/
example : OntoSpec.Reaches prtOnto.onto
      ⟨[⟨3, prtAxiom.toObj⟩], [⟨2, exAnnot.toObj⟩], [⟨1, .prim (.iri (exIri "i"))⟩]⟩ ∧
    PrtDocOk lebEnv.u prtOntoNames prtOnto ∧ lebEnv.u.Lawful ∧ ∀ ps, (List.reverse ps : List Prim).Perm ps :=
  ⟨prtOnto_reaches, prtOnto_ok, leb_lawful, fun ps => List.reverse_perm ps⟩

/-! ## Counterexamples -/

/-- The ontology that is read back from the bytes of this one, and how reading ends. -/
def prtBack (o : OntoSt) : Option OntoSt × Ret × End :=
  let w := writeOntology leb true id o 1000000
  let r := prtRead lebEnv changeHandler w.1 (some (OntoSt.new [0, 1, 2, 3] [], 100))
  (r.1.map Prod.fst, w.2, r.2)

/-- An ontology with the declaration of a class. -/
def declares (i : Iri) : OntoSt := ⟨freshMap, none, none, Onto.empty.addAxiom ⟨1, (Axiom.mk (.decl .cls i) []).toObj⟩⟩

/-- C35 is false as stated.
* A version without an IRI is lost.
* An IRI made by `cowl_iri` that is not split as `cowl_iri_from_string` does is read back as
  another IRI. -/
theorem C35_fails :
    ((prtBack versionOnly).1.map (fun o => (o.iri, o.version)) = some (none, none) ∧
      versionOnly.version = some (exIri "v1") ∧ (prtBack versionOnly).2 = (.ok, .done)) ∧
    ((prtBack (declares (mkIri (ascii "a#b") (ascii "1")))).1.map (fun o => o.onto.idx.map Prod.fst) =
        some [.ent .cls ⟨ascii "a#", ascii "b1"⟩] ∧
      (declares (mkIri (ascii "a#b") (ascii "1"))).onto.idx.map Prod.fst = [.ent .cls ⟨ascii "a#b1", []⟩] ∧
      (prtBack (declares (mkIri (ascii "a#b") (ascii "1")))).2 = (.ok, .done)) := by
  refine ⟨⟨?_, ?_, ?_⟩, ?_, ?_, ?_⟩ <;> decide +kernel

/-! ## C38 -/

/-- C38, the part that holds: failures of the stream are reported. If the result is OK,
nothing was left out for lack of room in the stream; otherwise the code is that of the
stream. Missing: failures of the encoder itself, see `C38_fails`. -/
theorem C38_partial (u : Ulib) (anon : Bool) (order : List Prim → List Prim) (o : OntoSt) (cap : Nat) :
    ((writeOntology u anon order o cap).2 = .ok →
      ∀ more, writeOntology u anon order o (cap + more) = writeOntology u anon order o cap) ∧
    ((writeOntology u anon order o cap).2 ≠ .ok → (writeOntology u anon order o cap).2 = .errIo ∧
      (writeOntology u anon order o cap).1.length = cap ∧
      (writeOntology u anon order o (cap + 1)).1.length = cap + 1) := by
  unfold writeOntology
  generalize (1 :: (encData u anon (populate {} order o) o).1.bytes : Str) = b
  dsimp only
  by_cases h : b.length ≤ cap
  · rw [if_pos h]
    refine ⟨fun _ more => ?_, fun h => absurd rfl h⟩
    rw [if_pos (by omega), List.take_of_length_le h, List.take_of_length_le (by omega)]
  · rw [if_neg h]
    refine ⟨nofun, fun _ => ⟨rfl, ?_, ?_⟩⟩ <;> rw [List.length_take] <;> omega

/-- The stream has room for the example, or not. -/
example : (writeOntology leb true id prtOnto 1000).2 = .ok ∧ (writeOntology leb true id prtOnto 100).2 = .errIo := by
  constructor <;> decide +kernel

/-- C38: the encoder itself does not fail on ontologies of the structural specification,
made by any history of additions and removals, whatever the contents. Only allocations can
fail besides the stream. -/
theorem C38_no_error {u : Ulib} {o : OntoSt} {s : OntoSpec.Abs} (hs : OntoSpec.Reaches o.onto s)
    (hi : ∀ x ∈ s.imports, ∃ i, x.obj = .prim (.iri i)) (ha : ∀ x ∈ s.annots, ∃ a : Annot, x.obj = a.toObj)
    (hx : ∀ x ∈ s.axioms, ∃ a : Axiom, x.obj = a.toObj) {order : List Prim → List Prim}
    (hord : ∀ ps, (order ps).Perm ps) (anon : Bool) : (encData u anon (populate {} order o) o).1.ok = true := by
  obtain ⟨x, e, hA, h1, h2, h3⟩ := populate_names hs hord
  have hinv := reaches_inv hs
  obtain ⟨ds, hd, -, -⟩ := hA.flush
  have some_of : ∀ {i : Id}, i ∈ x.ids.vec → (x.sync.ids.idx i).isSome = true := by
    intro i hi
    obtain ⟨k, hk⟩ := List.getElem?_of_mem hi
    obtain ⟨_, a, b, hv, _⟩ := hA.ids
    rw [show x.sync.ids.idx i = some k from (hv.sync.idx_iff i k).2 hk]
    rfl
  have id_ok : ∀ {i : Id} off, i ∈ x.ids.vec → (encId u x.sync.ids.idx off i).ok = true := by
    intro i off hi
    obtain ⟨k, hk⟩ := Option.isSome_iff_exists.1 (some_of hi)
    simp only [encId, hk]; rfl
  rw [e]
  unfold encData
  rw [hd]
  dsimp only
  have hok : ∀ w ∈ [encDecls u anon ds, encIriVersion u x.sync.ids.idx o.iri o.version,
      encImports u x.sync.ids.idx ((o.onto.imports.getD []).map Ref.obj),
      encAnnots u x.sync.ids.idx ((o.onto.annot.getD []).map Ref.obj),
      encAxioms u x.sync.ids.idx ((collectAxioms o.onto).map Ref.obj)], w.ok = true := by
    intro w hw
    simp only [List.mem_cons, List.not_mem_nil, or_false] at hw
    rcases hw with rfl | rfl | rfl | rfl | rfl
    · exact encDecls_ok _ _ _
    · unfold encIriVersion
      cases hi : o.iri with
      | none => rfl
      | some i =>
        have hi := id_ok 0 (h1 i (.inl hi))
        cases hv : o.version with
        | none => simp [hi]
        | some v => simp [hi, id_ok 0 (h1 v (.inr hv))]
    · have hall : ∀ w ∈ ((o.onto.imports.getD []).map Ref.obj).map (encImport u x.sync.ids.idx), w.ok = true := by
        intro w hw
        obtain ⟨y, hy, rfl⟩ := List.mem_map.1 hw
        obtain ⟨r, hr, rfl⟩ := List.mem_map.1 hy
        have hr' : r ∈ s.imports := by rw [← hinv.imports]; exact hr
        obtain ⟨i, hi⟩ := hi r hr'
        rw [hi]
        exact id_ok 0 (h2 r hr _ hi)
      unfold encImports
      split
      · rfl
      · rw [untilErr_eq hall]
        rw [append_ok, append_ok, cat_ok hall]
        rfl
    · refine listFrame_ok fun w hw => ?_
      obtain ⟨y, hy, rfl⟩ := List.mem_map.1 hw
      obtain ⟨r, hr, rfl⟩ := List.mem_map.1 hy
      have hr' : r ∈ s.annots := by rw [← hinv.annot]; exact hr
      obtain ⟨a, e⟩ := ha r hr'
      rw [e]
      exact (fit_annot a).ok fun p hp => some_of (h3 r (.inr hr') p (by rw [e]; exact hp))
    · have hall : ∀ w ∈ ((collectAxioms o.onto).map Ref.obj).map (encObj u x.sync.ids.idx), w.ok = true := by
        intro w hw
        obtain ⟨y, hy, rfl⟩ := List.mem_map.1 hw
        obtain ⟨r, hr, rfl⟩ := List.mem_map.1 hy
        rw [collect_eq] at hr
        have hr' : r ∈ s.axioms := (axiomsOf_perm hinv).mem_iff.1 hr
        obtain ⟨a, e⟩ := hx r hr'
        rw [e]
        exact (fit_axiom a).ok fun p hp => some_of (h3 r (.inl hr') p (by rw [e]; exact hp))
      unfold encAxioms
      rw [untilErr_eq hall]
      exact cat_ok hall
  rw [untilErr_eq hok]
  exact cat_ok hok

/-- The conditions of `C38_no_error` hold for the example. -/
example : OntoSpec.Reaches prtOnto.onto
      ⟨[⟨3, prtAxiom.toObj⟩], [⟨2, exAnnot.toObj⟩], [⟨1, .prim (.iri (exIri "i"))⟩]⟩ ∧
    (encData leb false (populate {} id prtOnto) prtOnto).1.ok = true := by
  refine ⟨prtOnto_reaches, C38_no_error prtOnto_reaches ?_ ?_ ?_ (fun _ => .refl _) _⟩
  · intro x hx; rw [List.mem_singleton.1 hx]; exact ⟨_, rfl⟩
  · intro x hx; rw [List.mem_singleton.1 hx]; exact ⟨exAnnot, rfl⟩
  · intro x hx; rw [List.mem_singleton.1 hx]; exact ⟨prtAxiom, rfl⟩

/-- A class declaration in an ontology as the encoder uses it for itself
(`cowl_ontology_disable_indexing`). -/
def unindexed : OntoSt :=
  ⟨freshMap, none, none, ({ Onto.empty with disabled := true } : Onto).addAxiom ⟨1, declA⟩⟩

/-- C38 is false as stated: whatever step fails, `encoder_reset` overwrites the error.
If `populate_index` fails for lack of memory, or a name is not in the index, then
`write_ontology` returns OK; in the latter case the bytes are rejected by the reader. -/
theorem C38_fails :
    (writeCode [.ok, .errMem, .ok, .ok] .ok .ok = .ok ∧ firstErr [.ok, .errMem, .ok, .ok] = .errMem) ∧
    (∀ steps, writeCode steps .ok .ok = .ok) ∧
    (encData leb true (populate {} id unindexed) unindexed).1.ok = false ∧ (prtBack unindexed).2 = (.ok, .rejected) := by
  refine ⟨⟨by decide, by decide⟩, fun _ => rfl, ?_, ?_⟩ <;> decide +kernel

/-! ## C55 -/

theorem mem_knownNs (n : Str) : n ∈ stdPrefixes.map (·.2) ↔ n ∈ knownNs := by
  simp only [stdPrefixes, knownNs, rdfNs, rdfsNs, xsdNs, owlNs, xmlNs, List.map, List.mem_cons, List.not_mem_nil, or_false]
  grind

/-- What the new ontology makes of the prefixes that are read. -/
theorem overlay_getNs {m : PMap} {a : PrefixSpec.Abs} (hm : PrefixSpec.Reaches False m a)
    {ks : List Nat} (hk : ks.length = 4) {dflt : Fwd} (hd : PrefixSpec.Distinct dflt) (n : Nat)
    {ps : List (Str × Str)} (hps : ps.Sublist (m.fwd.map fun e => (e.1.txt, e.2))) (p : Str) :
    (∀ k, (p, k) ∈ ps → m.getNs p = some k ∧ (overlay n (asFwd ps) (create ks dflt)).getNs p = some k) ∧
    ((∀ k, (p, k) ∉ ps) → (overlay n (asFwd ps) (create ks dflt)).getNs p = (create ks dflt).getNs p) := by
  have hdist := (inv_reaches hm).distinct
  have hmem : ∀ {q k}, (q, k) ∈ ps → m.getNs q = some k := by
    intro q k h
    obtain ⟨e, he, heq⟩ := List.mem_map.1 (hps.subset h)
    cases heq
    rw [getNs_meaning]
    exact meaning_of_mem hdist he
  have hd' : PrefixSpec.Distinct (asFwd ps) := by
    have h0 : (m.fwd.map fun e => (e.1.txt, e.2)).Pairwise fun a b => a.1 ≠ b.1 := by
      rw [List.pairwise_map]; exact hdist
    unfold PrefixSpec.Distinct asFwd
    rw [List.pairwise_map]
    exact h0.sublist hps
  have hr := PrefixSpec.Reaches.create (calm := False) ks dflt hk hd
  rw [C22_get_ns (overlay_reaches (asFwd ps) n hr), C22_get_ns hr, foldAdd_spec _ _ _ hd']
  simp only [PrefixSpec.Abs.merge]
  constructor
  · intro k hk
    have h1 : PrefixSpec.meaning (asFwd ps) p = some k :=
      meaning_of_mem hd' (e := (⟨0, p⟩, k)) (List.mem_map.2 ⟨(p, k), hk, rfl⟩)
    refine ⟨hmem hk, ?_⟩
    rw [h1]
    simp [std_registered hm (hmem hk)]
  · intro h
    have h1 : PrefixSpec.meaning (asFwd ps) p = none := by
      refine meaning_none.2 fun e he hp => ?_
      obtain ⟨⟨q, k⟩, hq, rfl⟩ := List.mem_map.1 he
      cases hp
      exact h k hq
    rw [h1]

/-- C55, soundness, for all ontologies of `PrtDocOk`: what the new ontology registers for a
prefix is what the written one did, or it is registered in every new ontology. -/
theorem C55_sound {E : Env} (hu : E.u.Lawful) {names : List Id} {o : OntoSt} {s : OntoSpec.Abs}
    (hs : OntoSpec.Reaches o.onto s) (ho : PrtDocOk E.u names o) {order : List Prim → List Prim}
    (hord : ∀ ps, (order ps).Perm ps) {a : PrefixSpec.Abs} (hm : PrefixSpec.Reaches False o.pm a)
    {ks : List Nat} (hk : ks.length = 4) {dflt : Fwd} (hd : PrefixSpec.Distinct dflt) (n : Nat) :
    ∃ b o' n', (∀ cap, b.length ≤ cap → writeOntology E.u true order o cap = (b, .ok)) ∧
      prtRead E changeHandler b (some (OntoSt.new ks dflt, n)) = (some (o', n'), .done) ∧
      ∀ p m, o'.pm.getNs p = some m → o.pm.getNs p = some m ∨ (create ks dflt).getNs p = some m := by
  obtain ⟨b, o', n', h3, h4, h5, -⟩ := readBack hu hs ho hord ks dflt n
  refine ⟨b, o', n', h3, h4, fun p m hp => ?_⟩
  obtain ⟨g1, g2⟩ := overlay_getNs hm hk hd n (newPfxs_sublist (o.pm.fwd.map fun e => (e.1.txt, e.2)) (stdPrefixes.map (·.2))) p
  rw [h5] at hp
  by_cases hc : ∃ k, (p, k) ∈ newPfxs (stdPrefixes.map (·.2)) (o.pm.fwd.map fun e => (e.1.txt, e.2))
  · obtain ⟨k, hk⟩ := hc
    obtain ⟨g3, g4⟩ := g1 k hk
    rw [hp] at g4; cases g4
    exact .inl g3
  · rw [g2 fun k hk => hc ⟨k, hk⟩] at hp
    exact .inr hp

/-- C55 for prefixes that are the only ones of their namespace, with the namespaces of the
standard prefixes and of `xml` reserved for standard prefixes: reading the written bytes
into a new ontology registers every prefix for the same namespace, and leaves the other
prefixes of new ontologies alone. Missing: see `C55_fails`. -/
theorem C55_partial {E : Env} (hu : E.u.Lawful) {names : List Id} {o : OntoSt} {s : OntoSpec.Abs}
    (hs : OntoSpec.Reaches o.onto s) (ho : PrtDocOk E.u names o) {order : List Prim → List Prim}
    (hord : ∀ ps, (order ps).Perm ps) {a : PrefixSpec.Abs} (hm : PrefixSpec.Reaches False o.pm a)
    (h1 : ∀ p q n, o.pm.getNs p = some n → o.pm.getNs q = some n → p = q)
    (h2 : ∀ p n, o.pm.getNs p = some n → n ∈ knownNs → Standard p)
    {ks : List Nat} (hk : ks.length = 4) {dflt : Fwd} (hd : PrefixSpec.Distinct dflt) (n : Nat) :
    ∃ b o' n', (∀ cap, b.length ≤ cap → writeOntology E.u true order o cap = (b, .ok)) ∧
      prtRead E changeHandler b (some (OntoSt.new ks dflt, n)) = (some (o', n'), .done) ∧
      (∀ p m, o.pm.getNs p = some m → o'.pm.getNs p = some m) ∧
      (∀ p, o.pm.getNs p = none → o'.pm.getNs p = (create ks dflt).getNs p) := by
  obtain ⟨b, o', n', h3, h4, h5, -⟩ := readBack hu hs ho hord ks dflt n
  have hdist := (inv_reaches hm).distinct
  have hget : ∀ {e}, e ∈ o.pm.fwd → o.pm.getNs e.1.txt = some e.2 := by
    intro e he; rw [getNs_meaning]; exact meaning_of_mem hdist he
  have hpw : (o.pm.fwd.map fun e => (e.1.txt, e.2)).Pairwise fun a b => a.2 ≠ b.2 := by
    rw [List.pairwise_map]
    refine List.Pairwise.imp_of_mem ?_ hdist
    intro e e' he he' hne heq
    have heq : e.2 = e'.2 := heq
    exact hne (h1 _ _ e.2 (hget he) (by rw [heq]; exact hget he'))
  have key := fun p => overlay_getNs hm hk hd n (newPfxs_sublist (o.pm.fwd.map fun e => (e.1.txt, e.2)) (stdPrefixes.map (·.2))) p
  rw [newPfxs_filter _ _ hpw] at key h5
  refine ⟨b, o', n', h3, h4, fun p m hp => ?_, fun p hp => ?_⟩
  · rw [h5]
    have hp' := hp
    rw [getNs_meaning] at hp'
    obtain ⟨k, hk1, hk2⟩ := meaning_some hp'
    by_cases hkn : m ∈ knownNs
    · have hst := h2 p m hp hkn
      rw [(key p).2]
      · rw [C22_get_ns (PrefixSpec.Reaches.create (calm := False) ks dflt hk hd)]
        unfold PrefixSpec.initial
        refine (if_pos hst).trans ?_
        rw [← std_registered hm hp]
        congr 1
        exact std_standard (by simpa [standardPrefixes, Standard] using hst) _ _
      · intro m' hm'
        have hf := List.mem_filter.1 hm'
        have := ((key p).1 m' hm').1
        rw [hp] at this; cases this
        have := hf.2
        simp [(mem_knownNs m).2 hkn] at this
    · refine ((key p).1 m ?_).2
      refine List.mem_filter.2 ⟨List.mem_map.2 ⟨_, hk1, by rw [← hk2]⟩, ?_⟩
      simpa using fun h => hkn ((mem_knownNs m).1 h)
  · rw [h5]
    refine (key p).2 fun k hk => ?_
    have := ((key p).1 k hk).1
    rw [hp] at this; cases this

/-- A map that meets the conditions of `C55_partial`, in an ontology that can be written. -/
example : PrtDocOk leb [] (withPrefix "ex" exNs1) ∧ (∃ a, PrefixSpec.Reaches False (withPrefix "ex" exNs1).pm a) ∧
    (∀ p q n, (withPrefix "ex" exNs1).pm.getNs p = some n → (withPrefix "ex" exNs1).pm.getNs q = some n → p = q) ∧
    ∀ p n, (withPrefix "ex" exNs1).pm.getNs p = some n → n ∈ knownNs → Standard p := by
  have hr : PrefixSpec.Reaches False (withPrefix "ex" exNs1).pm _ := .add (pfx 10 "ex") _ _ (fresh_reaches _) fun f => f.elim
  have hpfx : (withPrefix "ex" exNs1).pm.fwd.all (fun e => e.1.txt.length < 4294967296 && e.2.length < 4294967296) = true := by
    decide +kernel
  have huniq : ∀ e ∈ (withPrefix "ex" exNs1).pm.fwd, ∀ f ∈ (withPrefix "ex" exNs1).pm.fwd, e.2 = f.2 → e.1.txt = f.1.txt := by
    decide +kernel
  have hstd : ∀ e ∈ (withPrefix "ex" exNs1).pm.fwd, e.2 ∈ knownNs →
      (e.1.txt = ascii "owl" ∨ e.1.txt = ascii "rdf" ∨ e.1.txt = ascii "rdfs" ∨ e.1.txt = ascii "xsd") := by
    decide +kernel
  refine ⟨⟨nofun, nofun, ?_, nofun, nofun, ?_, nofun, nofun, ?_, by decide +kernel, by decide, by decide⟩, ⟨_, hr⟩, ?_, ?_⟩
  · intro p hp
    cases p <;> simp [withPrefix, Onto.hasPrimitive, Onto.hasKey, Onto.empty, Prim.entIri?] at hp
  · intro x hx
    have h0 : axiomsOf (withPrefix "ex" exNs1).onto = [] := by decide +kernel
    rw [h0] at hx; cases hx
  · intro e he
    simpa using List.all_eq_true.1 hpfx e he
  · intro p q n h1 h2
    rw [getNs_meaning] at h1 h2
    obtain ⟨k, hk, rfl⟩ := meaning_some h1
    obtain ⟨k', hk', rfl⟩ := meaning_some h2
    exact huniq _ hk _ hk' rfl
  · intro p n h1 h2
    rw [getNs_meaning] at h1
    obtain ⟨k, hk, rfl⟩ := meaning_some h1
    exact hstd _ hk h2

/-- C55 is false as stated.
* Of two prefixes for a namespace one is lost.
* A prefix for the namespace of a standard prefix is lost.
* So is any prefix for the namespace of `xml`, even `xml` itself. -/
theorem C55_fails :
    (let o := { withPrefix "ex" exNs1 with pm := ((withPrefix "ex" exNs1).pm.add (pfx 11 "ey") exNs1 false).1 }
     o.pm.getNs (ascii "ex") = some exNs1 ∧ o.pm.getNs (ascii "ey") = some exNs1 ∧
     (prtBack o).1.map (fun o => (o.pm.getNs (ascii "ex"), o.pm.getNs (ascii "ey"))) = some (some exNs1, none) ∧
     (prtBack o).2 = (.ok, .done)) ∧
    ((withPrefix "o" owlNs).pm.getNs (ascii "o") = some owlNs ∧
     (prtBack (withPrefix "o" owlNs)).1.map (fun o => o.pm.getNs (ascii "o")) = some none ∧
     (prtBack (withPrefix "o" owlNs)).2 = (.ok, .done)) ∧
    ((withPrefix "xml" xmlNs).pm.getNs (ascii "xml") = some xmlNs ∧
     (prtBack (withPrefix "xml" xmlNs)).1.map (fun o => o.pm.getNs (ascii "xml")) = some none ∧
     (prtBack (withPrefix "xml" xmlNs)).2 = (.ok, .done)) := by
  refine ⟨⟨?_, ?_, ?_, ?_⟩, ⟨?_, ?_, ?_⟩, ?_, ?_, ?_⟩ <;> decide +kernel

end Cowl
