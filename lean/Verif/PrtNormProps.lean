import Verif.PrtNormLemmas
import Verif.LiteralProps
import Verif.TypedLemmas
/-!
# C94: what ProtocOWL does to the literals of an ontology
-/
namespace Cowl
open Prt Func FuncSpec Ast Change Prefix

/-- Literals of `cowl_literal` are as `LitMade` says. -/
theorem C94_made {value v : Str} {a : LitArg} {t : LitTag} (h : Cowl.literal value a = .lit v t) : LitMade t :=
  literal_normal h

/-- The result of writing and reading a literal. -/
theorem norm_read {E : Env} (hu : E.u.Lawful) {ids : Id → Option Nat} {ix : DIndex} {v : Str} {t : LitTag} (ht : LitMade t)
    (h : LitFits ids ix v t) : Rt (decLit E) ix (encLit E.u ids v t).bytes (some (.lit (litNorm E.u v t) t)) := by
  refine C34_exact E hu ids ix v _ t t h ?_
  cases t with
  | lang l =>
    simp only [litRead, Cowl.literal, literalLang, litNorm]
    rw [if_neg (by simpa using ht.1), lower_of_none ht.2]
  | dt i =>
    by_cases hi : i = xsdString
    · subst hi; simp only [litRead, if_true, litNorm]; rfl
    · have hb : isLangDatatype i = false := by
        have h1 : i ≠ rdfLangString := ht.1
        have h2 : i ≠ rdfPlainLiteral := ht.2
        simp [isLangDatatype, h1, h2]
      simp only [litRead, litNorm, if_neg hi, Cowl.literal, hb, Bool.false_eq_true, if_false]

/-- C34 as an equivalence, for literals of `cowl_literal`: those of `LitSafe` survive, and no others. -/
theorem C34_iff (E : Env) (hu : E.u.Lawful) (ids : Id → Option Nat) (ix : DIndex) (v : Str) (t : LitTag) (ht : LitMade t)
    (h : LitFits ids ix v t) : LitKept E ids ix v t ↔ LitSafe E.u v t := by
  refine ⟨fun k => ?_, C34_partial E hu ids ix v t h⟩
  have h1 := k [] 0
  rw [norm_read hu ht h [] 0] at h1
  injection h1 with h1 _
  injection h1 with h1
  injection h1 with h1 _
  exact (norm_normal hu v t ht).2 h1

/-- Reading back the ontology into a new one. -/
theorem norm_back {E : Env} (hu : E.u.Lawful) {names : List Id} {o : OntoSt} {s : OntoSpec.Abs}
    (hs : OntoSpec.Reaches o.onto s) (ho : PrtDocFits prtSizes names o) {order : List Prim → List Prim}
    (hord : ∀ ps, (order ps).Perm ps) (ks : List Nat) (dflt : Fwd) (n : Nat) :
    ∃ b o' n', (∀ cap, b.length ≤ cap → writeOntology E.u true order o cap = (b, .ok)) ∧
      prtRead E changeHandler b (some (OntoSt.new ks dflt, n)) = (some (o', n'), .done) ∧
      o'.iri = o.iri ∧ o'.version = o.version ∧
      (o'.onto.imports.getD []).map Ref.obj = s.imports.map Ref.obj ∧
      (o'.onto.annot.getD []).map Ref.obj = s.annots.map (fun x => mapLit (litNorm E.u) x.obj) ∧
      (∀ t, ((o'.onto.byType t).getD []).map Ref.obj =
        ((o.onto.byType t).getD []).map fun x => mapLit (litNorm E.u) x.obj) ∧
      ∃ s', OntoSpec.Reaches o'.onto s' ∧
        (s'.axioms.map Ref.obj).Perm (s.axioms.map fun x => mapLit (litNorm E.u) x.obj) := by
  obtain ⟨x, e, hA, hS, hdue, is, as, xs, hc⟩ := populate_ok hs ho hord
  have hc' := mapOnto_chunk hu hs ho hc
  have hs' := mapOnto_reaches (f := litNorm E.u) hs ho
  obtain ⟨b, ps, h1, h2, h3⟩ := fr_data hu hA hS hc'
  rw [encData_norm hu true x hs ho] at h1
  have hv : (mapOnto (litNorm E.u) o).version ≠ none → (mapOnto (litNorm E.u) o).iri ≠ none := by
    intro h
    obtain ⟨v, hv⟩ := Option.ne_none_iff_exists'.1 h
    exact (ho.version v hv).1
  obtain ⟨o', n', r1, -, r2, r3, r4, r5, r6, s', r7, r8, -⟩ := load hs' hv hc'.imports rfl (axioms_filter hs')
    ((axiomsOf_perm (reaches_inv hs')).map _) ps (create ks dflt) n
  have hmap : ∀ xs : List Ref, (xs.map (mapRef (litNorm E.u))).map Ref.obj = xs.map fun x => mapLit (litNorm E.u) x.obj := by
    intro xs; simp [mapRef, Function.comp_def]
  refine ⟨1 :: b, o', n', fun cap hcap => ?_, ?_, r2, r3, r4, ?_, ?_, s', r7, ?_⟩
  · unfold writeOntology
    rw [e, h1]
    dsimp only
    rw [if_pos hcap, List.take_of_length_le hcap]
  · have h4 := h3 changeHandler false change_accepts [] (some (OntoSt.new ks dflt, n)) 0
    rw [List.append_nil, run_nil] at h4
    unfold prtRead
    refine ((if_pos rfl).trans h4).trans (congrArg (·, End.done) ((give_change _ _).trans (congrArg some ?_)))
    rw [← r1]
    unfold chunkItems
    rw [hc'.annots, ← collect_eq, hc'.axioms]
    simp only [List.map_map]
    rfl
  · rw [r5]; exact hmap _
  · intro t; rw [r6 t, mapOnto_byType hs]; exact hmap _
  · refine r8.trans ?_
    rw [← hmap]
    exact ((axiomsOf_perm (reaches_inv hs)).map _).map _

/-- C94: there is a normal form of literals (`IsNorm`) such that a literal of `cowl_literal`
is read as its normal form, and an ontology that fits (`PrtDocFits`), whatever its literals,
is read as the same ontology with its literals in normal form. -/
theorem C94_normal_form (E : Env) (hu : E.u.Lawful) : ∃ norm, IsNorm E.u norm ∧
    (∀ (ids : Id → Option Nat) (ix : DIndex) (v : Str) (t : LitTag), LitMade t → LitFits ids ix v t →
      Rt (decLit E) ix (encLit E.u ids v t).bytes (some (.lit (norm v t) t))) ∧
    ∀ (names : List Id) (o : OntoSt) (s : OntoSpec.Abs), OntoSpec.Reaches o.onto s → PrtDocFits prtSizes names o →
      ∀ (order : List Prim → List Prim), (∀ ps, (order ps).Perm ps) → ∀ (ks : List Nat) (dflt : Fwd) (n : Nat),
      ∃ b o' n', (∀ cap, b.length ≤ cap → writeOntology E.u true order o cap = (b, .ok)) ∧
        prtRead E changeHandler b (some (OntoSt.new ks dflt, n)) = (some (o', n'), .done) ∧
        o'.iri = o.iri ∧ o'.version = o.version ∧
        (o'.onto.imports.getD []).map Ref.obj = s.imports.map Ref.obj ∧
        (o'.onto.annot.getD []).map Ref.obj = s.annots.map (fun x => mapLit norm x.obj) ∧
        (∀ t, ((o'.onto.byType t).getD []).map Ref.obj = ((o.onto.byType t).getD []).map fun x => mapLit norm x.obj) ∧
        ∃ s', OntoSpec.Reaches o'.onto s' ∧ (s'.axioms.map Ref.obj).Perm (s.axioms.map fun x => mapLit norm x.obj) :=
  ⟨litNorm E.u, litNorm_isNorm hu, fun _ _ _ _ ht h => norm_read hu ht h,
    fun _ _ _ hs ho _ hord ks dflt n => norm_back hu hs ho hord ks dflt n⟩

theorem write_whole {u : Ulib} {order : List Prim → List Prim} {o : OntoSt} {cap : Nat} {b : Str}
    (h : writeOntology u true order o cap = (b, .ok)) : b = 1 :: (encData u true (populate {} order o) o).1.bytes := by
  unfold writeOntology at h
  dsimp only at h
  split at h
  · rename_i hle
    rw [List.take_of_length_le hle] at h
    exact (congrArg Prod.fst h).symm
  · cases congrArg Prod.snd h

/-- C94: the second time nothing changes. An ontology that was read from what the first
was written as, written and read again, has the same contents. -/
theorem C94_stable (E : Env) (hu : E.u.Lawful) {names names' : List Id} {o o1 : OntoSt} {s s1 : OntoSpec.Abs} {b : Str}
    {n n1 cap : Nat} {ks : List Nat} {dflt : Fwd} {order : List Prim → List Prim} (hord : ∀ ps, (order ps).Perm ps)
    (hs : OntoSpec.Reaches o.onto s) (ho : PrtDocFits prtSizes names o)
    (hw : writeOntology E.u true order o cap = (b, .ok))
    (hr : prtRead E changeHandler b (some (OntoSt.new ks dflt, n)) = (some (o1, n1), .done))
    (hs1 : OntoSpec.Reaches o1.onto s1) (ho1 : PrtDocFits prtSizes names' o1) :
    ∃ b' o2 n2, (∀ cap, b'.length ≤ cap → writeOntology E.u true order o1 cap = (b', .ok)) ∧
      prtRead E changeHandler b' (some (OntoSt.new ks dflt, n)) = (some (o2, n2), .done) ∧
      o2.iri = o1.iri ∧ o2.version = o1.version ∧
      (o2.onto.imports.getD []).map Ref.obj = (o1.onto.imports.getD []).map Ref.obj ∧
      (o2.onto.annot.getD []).map Ref.obj = (o1.onto.annot.getD []).map Ref.obj ∧
      ∀ t, ((o2.onto.byType t).getD []).map Ref.obj = ((o1.onto.byType t).getD []).map Ref.obj := by
  obtain ⟨c, p1, m1, e1, e2, -, -, -, e3, e4, -⟩ := norm_back hu hs ho hord ks dflt n
  have hcap : b = c := by
    rw [write_whole hw, write_whole (e1 c.length (Nat.le_refl _))]
  subst hcap
  rw [hr] at e2
  simp only [Prod.mk.injEq, Option.some.injEq, and_true] at e2
  obtain ⟨rfl, rfl⟩ := e2
  obtain ⟨b', o2, n2, f1, f2, f3, f4, f5, f6, f7, -⟩ := norm_back hu hs1 ho1 hord ks dflt n
  have hinv := reaches_inv hs1
  have once : ∀ {xs : List Ref} {ys : List Ref}, xs.map Ref.obj = ys.map (fun x => mapLit (litNorm E.u) x.obj) →
      xs.map (fun x => mapLit (litNorm E.u) x.obj) = xs.map Ref.obj := by
    intro xs ys h
    have : xs.map (fun x => mapLit (litNorm E.u) x.obj) = (xs.map Ref.obj).map (mapLit (litNorm E.u)) := by simp
    rw [this, h]
    simp [mapLit_once (norm_once hu)]
  refine ⟨b', o2, n2, f1, f2, f3, f4, ?_, ?_, fun t => ?_⟩
  · rw [f5, hinv.imports]
  · rw [f6, ← hinv.annot]; exact once e3
  · rw [f7 t]; exact once (e4 t)

/-! ## Example -/

/-- An axiom with a number that is not in normal form. -/
def normAxiom : Axiom := ⟨.dataPropAssert (exIri "p") (.named (exIri "a")) ⟨ascii "007", .dt (xsd "integer")⟩, []⟩

/-- The same with the normal form. -/
def normAxiom7 : Axiom := ⟨.dataPropAssert (exIri "p") (.named (exIri "a")) ⟨ascii "7", .dt (xsd "integer")⟩, []⟩

/-- An ontology with this axiom. -/
def normOnto : OntoSt := ⟨freshMap, some (exIri "o"), none, loaded [] [] [⟨1, normAxiom.toObj⟩]⟩

/-- Its names. -/
def normNames : List Prt.Id := [.iri (exIri "o"), .iri (exIri "p"), .iri (exIri "a"), .iri (xsd "integer")]

theorem normOnto_reaches : OntoSpec.Reaches normOnto.onto ⟨[⟨1, normAxiom.toObj⟩], [], []⟩ := by
  refine loaded_reaches nofun ?_ ?_
  · intro y hy; rw [List.mem_singleton.1 hy]; exact isAxiom_toObj normAxiom
  · intro y hy z hz _; rw [List.mem_singleton.1 hy, List.mem_singleton.1 hz]

theorem normOnto_fits : PrtDocFits prtSizes normNames normOnto := by
  have hi := reaches_inv normOnto_reaches
  have hkeys : (normOnto.onto.idx.map Prod.fst).all (fun p => normNames.contains (idOf p)) = true := by decide +kernel
  have hk : ∀ p ∈ normOnto.onto.idx.map Prod.fst, idOf p ∈ normNames := fun p hp => by
    simpa using List.all_eq_true.1 hkeys p hp
  have hsplit : normNames.all splitOk = true := by decide +kernel
  have hshort : normNames.all shortOk = true := by decide +kernel
  have hpfx : normOnto.pm.fwd.all (fun e => e.1.txt.length < 4294967296 && e.2.length < 4294967296) = true := by decide +kernel
  refine ⟨?_, nofun, ?_, ?_, ?_, ?_, ?_, ?_, ?_, by decide +kernel, by decide +kernel, by decide +kernel⟩
  · intro i h; cases h; simp [normNames]
  · intro p hp
    have := (hasPrimitive_iff normOnto.onto p).1 hp
    cases p with
    | ent k i =>
      rcases this with h | h
      · exact hk _ h
      · exact hk (.iri i) h
    | iri i => exact hk _ this
    | anon s => exact hk _ this
  · intro x hx; rw [hi.imports] at hx; cases hx
  · intro x hx; rw [hi.annot] at hx; cases hx
  · intro x hx
    have := (axiomsOf_perm hi).mem_iff.1 hx
    rw [List.mem_singleton.1 this]
    refine ⟨normAxiom, rfl, ?_, by simp [normAxiom, Annot.AllMeet], show 0 < 4294967296 by decide⟩
    refine ⟨trivial, trivial, ⟨by decide +kernel, by decide +kernel⟩, by decide +kernel, nofun⟩
  · intro i h; exact splitOk_split (List.all_eq_true.1 hsplit _ h)
  · intro i h
    have := List.all_eq_true.1 hshort _ h
    cases i <;> simpa [shortOk, IdShort] using this
  · intro e he
    simpa using List.all_eq_true.1 hpfx e he

/-- The ontology meets the conditions, and its axiom is read as the one with the number 7. -/
example : OntoSpec.Reaches normOnto.onto ⟨[⟨1, normAxiom.toObj⟩], [], []⟩ ∧ PrtDocFits prtSizes normNames normOnto ∧
    ∀ norm, IsNorm lebEnv.u norm → mapLit norm normAxiom.toObj = normAxiom7.toObj := by
  refine ⟨normOnto_reaches, normOnto_fits, fun norm h => ?_⟩
  have e : norm (ascii "007") (.dt (xsd "integer")) = ascii "7" := by
    refine (h.int (ascii "007") 7 (ascii "integer") (by decide +kernel) (by decide +kernel)).trans (by decide +kernel)
  simp [normAxiom, normAxiom7, Axiom.toObj, annotated, Ax.fields, Ax.type, Annot.toObjs, Lit.toObj, Ind.toObj, ent, mapLit,
    mapLits, e]

end Cowl
