import Verif.FuncDocSpec
import Verif.FuncAstLemmas
import Verif.FuncTextProps
import Verif.ChangeLemmas
import Verif.ChangeProps
/-! # Lemmas about documents in functional syntax -/
namespace Cowl.Func
open Cowl.Prefix Cowl.PrefixSpec Cowl.FuncSpec Cowl.Change Cowl.Ast

theorem reserved_iff (p : Str) : isReservedPrefix p = true ↔ Standard p := by
  simp [isReservedPrefix, reserved, Standard]

theorem give_append {σ ι : Type} (h : Callback σ ι) (s : σ) (a b : List ι) :
    give h s (a ++ b) = give h (give h s a) b := List.foldl_append ..

/-! ## Prefixes -/

/-- The entries that are written. -/
def declared (f : Fwd) : Fwd := f.filter fun e => !isReservedPrefix e.1.txt

theorem writePrefixes_eq (m : PMap) :
    writePrefixes m = ((declared m.fwd).map fun e => writePrefix e.1.txt e.2).flatten := by
  unfold writePrefixes declared
  induction m.fwd with
  | nil => rfl
  | cons e f ih =>
    rw [List.map_cons, List.flatten_cons, ih, List.filter_cons]
    cases isReservedPrefix e.1.txt <;> simp

/-- Tokens of a prefix declaration. -/
def prefixToks (e : SRef × Str) : List Tok :=
  [.kw .prefix_, .lpar, .pnameNs e.1.txt, .equals, .iriRef e.2, .rpar]

theorem lex_prefix {e : SRef × Str} (hp : PlainPrefix e.1.txt) (hn : ∀ c ∈ e.2, IriChar c) (rest : Str) :
    lex (writePrefix e.1.txt e.2 ++ rest) = prefixToks e ++ lex rest := by
  have h1 : writePrefix e.1.txt e.2 ++ rest =
      Kw.text .prefix_ ++ 40 :: (e.1.txt ++ 58 :: (61 :: (60 :: (e.2 ++ 62 :: (41 :: (10 :: rest)))))) := by
    simp [writePrefix]
  rw [h1, lex_kw, lex_pnameNs (plain_prefix hp) (by rfl), lex_equals,
    lex_iriRef (fun c h => (isIriChar_iff c).2 (hn c h)), lex_rpar, lex_newline]
  rfl

theorem lex_prefixes : ∀ (f : Fwd), (∀ e ∈ f, PlainPrefix e.1.txt ∧ ∀ c ∈ e.2, IriChar c) → ∀ rest,
    lex ((f.map fun e => writePrefix e.1.txt e.2).flatten ++ rest) = f.flatMap prefixToks ++ lex rest
  | [], _, _ => rfl
  | e :: f, h, rest => by
    rw [List.map_cons, List.flatten_cons, List.append_assoc, lex_prefix (h e (by simp)).1 (h e (by simp)).2,
      lex_prefixes f fun e he => h e (by simp [he])]
    simp

/-- The map of the reader after the declarations. -/
def declare : Nat → Fwd → PMap → PMap
  | _, [], m => m
  | a, e :: f, m => declare (a + 1) f (m.add ⟨a, e.1.txt⟩ e.2 false).1

theorem readPrefixes_eq {σ : Type} {h : Callback σ Item} (hh : Accepts h) : ∀ (f : Fwd) (a : Nat) (s : σ) (m : PMap)
    (ts : List Tok), ts.head? ≠ some (.kw .prefix_) →
    readPrefixes h a s m (f.flatMap prefixToks ++ ts) =
      .go (give h s (f.map fun e => Item.prefixDecl e.1.txt e.2)) (declare a f m) ts
  | [], a, s, m, ts, ht => by
    simp only [List.flatMap_nil, List.nil_append]
    rw [readPrefixes.eq_def]
    split
    · exact absurd rfl ht
    · exact absurd rfl ht
    · rfl
  | e :: f, a, s, m, ts, ht => by
    simp only [List.flatMap_cons, prefixToks, List.cons_append, List.nil_append, List.append_assoc]
    rw [readPrefixes, hh]
    have := readPrefixes_eq hh f (a + 1) (h s (.prefixDecl e.1.txt e.2)).1
      (m.add ⟨a, e.1.txt⟩ e.2 false).1 ts ht
    simp only [Ret.isErr, Bool.false_eq_true, if_false, this]
    rfl

theorem declare_reaches : ∀ (f : Fwd) (a : Nat) {m : PMap} {x : PrefixSpec.Abs}, PrefixSpec.Reaches False m x →
    PrefixSpec.Reaches False (declare a f m) (f.foldl (fun x e => x.add e.1.txt e.2 false) x)
  | [], _, _, _, h => h
  | e :: f, a, _, _, h => declare_reaches f (a + 1) (.add ⟨a, e.1.txt⟩ e.2 false h (fun c => c.elim))

theorem foldAdd_spec (ow : Bool) : ∀ (f : Fwd) (x : PrefixSpec.Abs), Distinct f → ∀ p,
    f.foldl (fun x e => x.add e.1.txt e.2 ow) x p = x.merge f ow p
  | [], x, _, p => rfl
  | e :: f, x, hd, p => by
    have hd' := List.pairwise_cons.1 hd
    rw [List.foldl_cons, foldAdd_spec ow f _ hd'.2]
    simp only [PrefixSpec.Abs.merge, meaning]
    by_cases hp : e.1.txt = p
    · have hn : meaning f p = none := meaning_none.2 fun e' he' h => hd'.1 e' he' (hp.trans h.symm)
      subst hp
      simp [hn, PrefixSpec.Abs.add]
    · have hp' : ¬ p = e.1.txt := fun e => hp e.symm
      simp [hp, hp', PrefixSpec.Abs.add]

theorem declared_distinct {f : Fwd} (h : Distinct f) : Distinct (declared f) := List.Pairwise.filter _ h

theorem meaning_declared {f : Fwd} (h : Distinct f) (p : Str) :
    meaning (declared f) p = if isReservedPrefix p = true then none else meaning f p := by
  induction f with
  | nil => simp [declared, meaning]
  | cons e f ih =>
    have ih := ih (List.pairwise_cons.1 h).2
    unfold declared at ih ⊢
    rw [List.filter_cons]
    by_cases hp : e.1.txt = p
    · subst hp
      by_cases hr : isReservedPrefix e.1.txt = true
      · simp only [hr, Bool.not_true, Bool.false_eq_true, if_false, if_true]
        rw [ih]; simp [hr]
      · simp [hr, meaning]
    · by_cases hr : isReservedPrefix e.1.txt = true
      · simp only [hr, Bool.not_true, Bool.false_eq_true, if_false]
        rw [ih]; simp [meaning, hp]
      · simp only [hr, Bool.not_false, if_true, meaning, hp, if_false]
        exact ih

theorem std_other {p : Str} (h : ¬ Standard p) (n : Str) : std p n = n := by
  simp only [Standard, not_or] at h
  simp [std, h]

/-- The reader ends up with the prefixes of the writer. -/
theorem declare_maps {o : OntoSt} (ho : DocOk o) {ks : List Nat} (hk : ks.length = 4) {dflt : Fwd}
    (hd : Distinct dflt) (hc : Compatible o.pm dflt) (a : Nat) :
    Maps o.pm (declare a (declared o.pm.fwd) (create ks dflt)) := by
  refine ⟨ho.sound, ho.plain, fun p n hp => ?_⟩
  obtain ⟨x, hx⟩ := ho.history
  have hdist := (inv_reaches hx).distinct
  rw [C22_get_ns (declare_reaches _ a (.create ks dflt hk hd)), foldAdd_spec _ _ _ (declared_distinct hdist)]
  simp only [PrefixSpec.Abs.merge]
  rw [meaning_declared hdist]
  by_cases hs : Standard p
  · rw [if_pos ((reserved_iff p).2 hs)]
    show initial dflt p = some n
    have := std_registered hx hp
    unfold initial
    refine (if_pos hs).trans ?_
    rw [← this]
    congr 1
    exact std_standard (by simpa [standardPrefixes, Standard] using hs) _ _
  · rw [if_neg fun h => hs ((reserved_iff p).1 h), ← getNs_meaning, hp]
    have hi : initial dflt p = meaning dflt p := by
      unfold initial
      exact if_neg hs
    simp only [hi, std_other hs]
    cases hm : meaning dflt p with
    | none => simp
    | some n' =>
      rcases hc p n n' hp hm with rfl | h
      · simp
      · exact absurd h hs

/-! ## IRIs in full -/

theorem full_iri {i : Iri} (hi : IriOk (fun _ => none) i) (m : PMap) :
    readIri m (.iriRef (i.ns ++ i.rem)) = some i ∧
      ∀ rest, lex (writeFullIri i ++ rest) = .iriRef (i.ns ++ i.rem) :: lex rest := by
  obtain ⟨hne, hc⟩ := hi.full (.inl rfl)
  constructor
  · obtain ⟨a, b, e, hs⟩ := C02_split _ hne
    obtain ⟨rfl, rfl⟩ := C02_split_unique _ _ _ _ _ hs hi.split
    rw [readIri, e]
    rfl
  · intro rest
    have : writeFullIri i ++ rest = 60 :: ((i.ns ++ i.rem) ++ 62 :: rest) := by simp [writeFullIri]
    rw [this, lex_iriRef fun c h => (isIriChar_iff c).2 (hc c h)]

/-! ## Header and axioms -/

theorem emit_ok {σ : Type} {h : Callback σ Item} (hh : Accepts h) (s : σ) (m : PMap) (i : Item) (ts : List Tok) :
    emit h s m i ts = .go (h s i).1 m ts := by
  simp [emit, hh s i]

/-- Tokens that follow the IRIs of the ontology. -/
def Rest (ts : List Tok) : Prop := ∀ t ∈ ts.head?, t.beginsIri = false

theorem readId_eq {σ : Type} {h : Callback σ Item} (hh : Accepts h) (s : σ) (m : PMap) {iri ver : Option Iri}
    (hi : ∀ i, iri = some i → IriOk (fun _ => none) i)
    (hv : ∀ v, ver = some v → iri ≠ none ∧ IriOk (fun _ => none) v) {rest : Str} (hr : Rest (lex rest)) :
    readId h s m (lex (writeId iri ver ++ 10 :: rest)) =
      .go (give h s ((iri.map Item.iri).toList ++ (ver.map Item.version).toList)) m (lex rest) := by
  cases iri with
  | none =>
    cases ver with
    | some v => exact absurd rfl (hv v rfl).1
    | none =>
      simp only [writeId, List.nil_append, lex_newline]
      cases hl : lex rest with
      | nil => rfl
      | cons t ts =>
        have := hr t (by simp [hl])
        simp [readId, this, give]
  | some i =>
    obtain ⟨h1, h2⟩ := full_iri (hi i rfl) m
    cases ver with
    | none =>
      simp only [writeId, h2, lex_newline]
      cases hl : lex rest with
      | nil => simp [readId, Tok.beginsIri, h1, emit_ok hh, give]
      | cons t ts =>
        have := hr t (by simp [hl])
        have hb : (Tok.iriRef (i.ns ++ i.rem)).beginsIri = true := rfl
        simp [readId, hb, h1, this, emit_ok hh, give]
    | some v =>
      obtain ⟨h3, h4⟩ := full_iri (hv v rfl).2 m
      simp only [writeId, List.append_assoc, List.cons_append, h2, lex_space, h4, lex_newline]
      simp [readId, Tok.beginsIri, h1, h3, hh s, hh _ (.version v), give]

theorem lex_import {i : Iri} (hi : IriOk (fun _ => none) i) (m : PMap) (rest : Str) :
    ∃ ts, lex (writeImport (.prim (.iri i)) ++ rest) = .kw .import_ :: ts ∧
      readImport m ts = some (i, lex rest) := by
  obtain ⟨h1, h2⟩ := full_iri hi m
  have e : writeImport (.prim (.iri i)) ++ rest =
      Kw.text .import_ ++ 40 :: (writeFullIri i ++ 41 :: 10 :: rest) := by simp [writeImport]
  refine ⟨_, by rw [e, lex_kw, h2, lex_rpar, lex_newline], ?_⟩
  simp [readImport, h1]

theorem readHeader_imports {σ : Type} {h : Callback σ Item} (hh : Accepts h) (k n : Nat) (m : PMap) (rest : Str) :
    ∀ (is : List Iri) (s : σ), (∀ i ∈ is, IriOk (fun _ => none) i) →
    readHeader h k (is.length + n) s m
        (lex ((is.map fun i => writeImport (.prim (.iri i))).flatten ++ rest)) =
      readHeader h k n (give h s (is.map Item.import)) m (lex rest)
  | [], s, _ => by simp [give]
  | i :: is, s, hi => by
    rw [List.map_cons, List.flatten_cons, List.append_assoc]
    obtain ⟨ts, h1, h2⟩ := lex_import (hi i (by simp)) m
      ((is.map fun i => writeImport (.prim (.iri i))).flatten ++ rest)
    rw [h1, List.length_cons, Nat.add_right_comm, readHeader]
    simp only [h2, emit_ok hh]
    rw [readHeader_imports hh k n m rest is _ fun i h => hi i (by simp [h])]
    rfl

theorem readHeader_annots {σ : Type} {h : Callback σ Item} (hh : Accepts h) (k n : Nat) {m : PMap}
    {gp : Str → Option Str} (rest : Str) : ∀ (os : List Obj) (s : σ),
    (∀ o ∈ os, RTC m .annotation (writeObj gp o) o ∧ (writeObj gp o).length ≤ k) →
    readHeader h k (os.length + n) s m (lex ((os.map fun o => writeLine gp o).flatten ++ rest)) =
      readHeader h k n (give h s (os.map Item.annot)) m (lex rest)
  | [], s, _ => by simp [give]
  | o :: os, s, ho => by
    rw [List.map_cons, List.flatten_cons, writeLine]
    simp only [List.append_assoc, List.cons_append, List.nil_append]
    obtain ⟨hr, hk⟩ := ho o (by simp)
    obtain ⟨tk, ts, h1, _, h3, h4⟩ := hr.run (10 :: ((os.map fun o => writeLine gp o).flatten ++ rest)) trivial
    have h3 := h3.2 rfl
    subst h3
    rw [h1, List.length_cons, Nat.add_right_comm, readHeader]
    simp only [h4 k hk, emit_ok hh, lex_newline]
    rw [readHeader_annots hh k n rest os _ fun o h => ho o (by simp [h])]
    rfl

/-- Tokens that end the imports and annotations. -/
def EndsHeader (ts : List Tok) : Prop :=
  ∀ t ∈ ts.head?, t ≠ .kw .import_ ∧ t ≠ .kw .annotation ∧ t.beginsIri = false

theorem readHeader_end {σ : Type} (h : Callback σ Item) (k n : Nat) (s : σ) (m : PMap) {ts : List Tok}
    (ht : EndsHeader ts) : readHeader h k (n + 1) s m ts = .go s m ts := by
  rw [readHeader]
  · rintro ts' rfl; exact (ht _ (by simp)).1 rfl
  · rintro ts' rfl; exact (ht _ (by simp)).2.1 rfl

theorem prod_ax {k : Kw} {pr : Prod} (h : prod k = some pr) (hc : pr.cat = .ax) :
    k ≠ .import_ ∧ k ≠ .annotation := by
  constructor
  · rintro rfl; cases h
  · rintro rfl; cases h; cases hc

theorem axiom_head {m : PMap} {txt : Str} {o : Obj} (hr : RTC m .ax txt o) (rest : Str) :
    ∃ k ts, lex (txt ++ rest) = .kw k :: ts ∧ k ≠ .import_ ∧ k ≠ .annotation ∧
      ∀ n, txt.length ≤ n → parseCat m n .ax (.kw k :: ts) = some (o, lex rest) := by
  obtain ⟨tk, ts, h1, _, _, h4⟩ := hr.run rest trivial
  have h5 := h4 (txt.length + 1) (by omega)
  rw [parseCat, parseStep] at h5
  unfold parseConstruct at h5
  split at h5
  · rename_i k ts' e
    split at h5
    · rename_i pr hp
      split at h5
      · rename_i hc
        cases e
        exact ⟨k, _, h1, (prod_ax hp hc).1, (prod_ax hp hc).2, h4⟩
      · cases h5
    · cases h5
  · cases h5

theorem readAxioms_eq {σ : Type} {h : Callback σ Item} (hh : Accepts h) (k n : Nat) {m : PMap}
    {gp : Str → Option Str} (extra : Str) : ∀ (os : List Obj) (s : σ),
    (∀ o ∈ os, RTC m .ax (writeObj gp o) o ∧ (writeObj gp o).length ≤ k) →
    readAxioms h k (os.length + (n + 1)) s m (lex ((os.map fun o => writeLine gp o).flatten ++ 41 :: 10 :: extra)) =
      (give h s (os.map Item.ax), if lex extra = [] then .ok else .rejected)
  | [], s, _ => by
    have : lex (41 :: 10 :: extra) = .rpar :: lex extra := by rw [lex_rpar, lex_newline]
    simp only [List.map_nil, List.flatten_nil, List.nil_append, this, List.length_nil, Nat.zero_add]
    rfl
  | o :: os, s, ho => by
    rw [List.map_cons, List.flatten_cons, writeLine]
    simp only [List.append_assoc, List.cons_append, List.nil_append]
    obtain ⟨hr, hk⟩ := ho o (by simp)
    obtain ⟨kw, ts, h1, _, _, h4⟩ := axiom_head hr (10 :: ((os.map fun o => writeLine gp o).flatten ++ 41 :: 10 :: extra))
    rw [h1, List.length_cons, Nat.add_right_comm, readAxioms]
    simp only [h4 k hk, emit_ok hh, lex_newline]
    rw [readAxioms_eq hh k n extra os _ fun o h => ho o (by simp [h])]
    · rfl
    · exact fun _ => nofun

theorem ends_axioms {m : PMap} {gp : Str → Option Str} (extra : Str) {os : List Obj}
    (ho : ∀ o ∈ os, RTC m .ax (writeObj gp o) o) :
    EndsHeader (lex ((os.map fun o => writeLine gp o).flatten ++ 41 :: 10 :: extra)) := by
  cases os with
  | nil =>
    simp only [List.map_nil, List.flatten_nil, List.nil_append, lex_rpar]
    intro t ht
    cases ht
    exact ⟨nofun, nofun, rfl⟩
  | cons o os =>
    rw [List.map_cons, List.flatten_cons, writeLine]
    simp only [List.append_assoc, List.cons_append, List.nil_append]
    obtain ⟨k, ts, h1, h2, h3, _⟩ := axiom_head (ho o (by simp)) (10 :: ((os.map fun o => writeLine gp o).flatten ++ 41 :: 10 :: extra))
    rw [h1]
    intro t ht
    cases ht
    exact ⟨fun e => h2 (by cases e; rfl), fun e => h3 (by cases e; rfl), rfl⟩

/-! ## Whole documents -/

theorem length_flatten_le {α : Type} {xs : List (List α)} {x : List α} (h : x ∈ xs) :
    x.length ≤ xs.flatten.length := by
  induction xs with
  | nil => cases h
  | cons y ys ih =>
    rw [List.flatten_cons, List.length_append]
    rcases List.mem_cons.1 h with rfl | h
    · omega
    · have := ih h; omega

theorem count_le_flatten {α : Type} {xs : List (List α)} (h : ∀ x ∈ xs, 0 < x.length) :
    xs.length ≤ xs.flatten.length := by
  induction xs with
  | nil => simp
  | cons y ys ih =>
    rw [List.flatten_cons, List.length_append, List.length_cons]
    have := ih fun x hx => h x (by simp [hx])
    have := h y (by simp)
    omega

/-- Text of the ontology after the prefix declarations, and what follows it. -/
def ontoText (gp : Str → Option Str) (iri ver : Option Iri) (is : List Iri) (as xs : List Obj) (extra : Str) :
    Str :=
  Kw.text .ontology ++ 40 :: (writeId iri ver ++ 10 ::
    ((is.map fun i => writeImport (.prim (.iri i))).flatten ++
    ((as.map fun x => writeLine gp x).flatten ++
    ((xs.map fun x => writeLine gp x).flatten ++ 41 :: 10 :: extra))))

theorem writeLine_length (gp : Str → Option Str) (o : Obj) :
    (writeLine gp o).length = (writeObj gp o).length + 1 := by simp [writeLine]

theorem readOntology_eq {σ : Type} {h : Callback σ Item} (hh : Accepts h) {k : Nat} (s : σ) {m : PMap}
    {gp : Str → Option Str} {iri ver : Option Iri} {is : List Iri} {as xs : List Obj} {extra : Str}
    (hi : ∀ i, iri = some i → IriOk (fun _ => none) i)
    (hv : ∀ v, ver = some v → iri ≠ none ∧ IriOk (fun _ => none) v)
    (hm : ∀ i ∈ is, IriOk (fun _ => none) i)
    (ha : ∀ o ∈ as, RTC m .annotation (writeObj gp o) o) (hx : ∀ o ∈ xs, RTC m .ax (writeObj gp o) o)
    (hk : (ontoText gp iri ver is as xs extra).length ≤ k) :
    readOntology h k s m (lex (ontoText gp iri ver is as xs extra)) =
      (give h s ((iri.map Item.iri).toList ++ (ver.map Item.version).toList ++ is.map Item.import ++
        as.map Item.annot ++ xs.map Item.ax), if lex extra = [] then .ok else .rejected) := by
  have hlen : ((is.map fun i => writeImport (.prim (.iri i))).flatten).length +
      ((as.map fun x => writeLine gp x).flatten).length + ((xs.map fun x => writeLine gp x).flatten).length ≤ k := by
    simp only [ontoText, List.length_append, List.length_cons] at hk
    omega
  have h1 : is.length ≤ ((is.map fun i => writeImport (.prim (.iri i))).flatten).length := by
    have := count_le_flatten (xs := is.map fun i => writeImport (.prim (.iri i))) (by
      intro x hx
      obtain ⟨i, _, rfl⟩ := List.mem_map.1 hx
      simp only [writeImport, List.length_append, List.length_cons]; omega)
    simpa using this
  have hcount : ∀ os : List Obj, os.length ≤ ((os.map fun x => writeLine gp x).flatten).length := by
    intro os
    have := count_le_flatten (xs := os.map fun x => writeLine gp x) (by
      intro x hx
      obtain ⟨i, _, rfl⟩ := List.mem_map.1 hx
      rw [writeLine_length]; omega)
    simpa using this
  have hfit : ∀ os : List Obj, ((os.map fun x => writeLine gp x).flatten).length ≤ k →
      ∀ o ∈ os, (writeObj gp o).length ≤ k := by
    intro os h o ho
    have := length_flatten_le (List.mem_map_of_mem (f := fun x => writeLine gp x) ho)
    rw [writeLine_length] at this
    omega
  have h2 := hcount as
  have h3 := hcount xs
  have hends := ends_axioms extra hx
  have hrest : Rest (lex ((is.map fun i => writeImport (.prim (.iri i))).flatten ++
      ((as.map fun x => writeLine gp x).flatten ++
      ((xs.map fun x => writeLine gp x).flatten ++ 41 :: 10 :: extra)))) := by
    cases is with
    | cons i is =>
      rw [List.map_cons, List.flatten_cons, List.append_assoc]
      obtain ⟨ts, e, _⟩ := lex_import (hm i (by simp)) m ((is.map fun i => writeImport (.prim (.iri i))).flatten ++
        ((as.map fun x => writeLine gp x).flatten ++
        ((xs.map fun x => writeLine gp x).flatten ++ 41 :: 10 :: extra)))
      rw [e]
      intro t ht
      cases ht
      rfl
    | nil =>
      cases as with
      | cons a as =>
        simp only [List.map_nil, List.flatten_nil, List.nil_append, List.map_cons, List.flatten_cons, writeLine,
          List.append_assoc]
        obtain ⟨tk, ts, e, _, h3, _⟩ := (ha a (by simp)).run _ trivial
        rw [e]
        have h3 := h3.2 rfl
        subst h3
        intro t ht
        cases ht
        rfl
      | nil => exact fun t ht => (hends t ht).2.2
  obtain ⟨j, hj⟩ : ∃ j, k + 1 = is.length + (as.length + (j + 1)) := ⟨k - is.length - as.length, by omega⟩
  obtain ⟨l, hl⟩ : ∃ l, k + 1 = xs.length + (l + 1) := ⟨k - xs.length, by omega⟩
  rw [ontoText, lex_kw]
  simp only [readOntology]
  rw [readId_eq hh s m hi hv hrest]
  simp only
  rw [show readHeader h k (k + 1) = readHeader h k (is.length + (as.length + (j + 1))) by rw [← hj],
    readHeader_imports hh k _ m _ is _ hm,
    readHeader_annots hh k (j + 1) _ as _ fun o ho => ⟨ha o ho, hfit as (by omega) o ho⟩,
    readHeader_end h k j _ m hends]
  simp only
  rw [show readAxioms h k (k + 1) = readAxioms h k (xs.length + (l + 1)) by rw [← hl],
    readAxioms_eq hh k l extra xs _ fun o ho => ⟨hx o ho, hfit xs (by omega) o ho⟩]
  simp only [give_append]

theorem collect_eq (o : Onto) : collectAxioms o = axiomsOf o := by
  have key : ∀ (l acc : List Ref), (iterList (fun l a => (l ++ [a], Ret.ok)) l acc).1 = acc ++ l := by
    intro l
    induction l with
    | nil => simp [iterList]
    | cons a l ih => intro acc; simp [iterList, Ret.shouldStop, ih]
  rw [collectAxioms, Onto.iterAxioms, iterTypes_eq, key]
  rfl

theorem imports_iris {xs : List Ref}
    (h : ∀ x ∈ xs, ∃ i, x.obj = .prim (.iri i) ∧ IriOk (fun _ => none) i) :
    ∃ is : List Iri, xs.map Ref.obj = is.map (fun i => Obj.prim (.iri i)) ∧ ∀ i ∈ is, IriOk (fun _ => none) i := by
  induction xs with
  | nil => exact ⟨[], rfl, fun _ h => nomatch h⟩
  | cons x xs ih =>
    obtain ⟨is, h1, h2⟩ := ih fun y hy => h y (by simp [hy])
    obtain ⟨i, h3, h4⟩ := h x (by simp)
    refine ⟨i :: is, by simp [h1, h3], fun j hj => ?_⟩
    rcases List.mem_cons.1 hj with hj | hj
    · rw [hj]; exact h4
    · exact h2 j hj

theorem doc_text {o : OntoSt} {is : List Iri}
    (h : (o.onto.imports.getD []).map Ref.obj = is.map (fun i => Obj.prim (.iri i))) (extra : Str) :
    writeDocText o ++ extra = ((declared o.pm.fwd).map fun e => writePrefix e.1.txt e.2).flatten ++
      ontoText (lookup o.pm) o.iri o.version is ((o.onto.annot.getD []).map Ref.obj)
        ((axiomsOf o.onto).map Ref.obj) extra := by
  have : (o.onto.imports.getD []).map (fun x => writeImport x.obj) =
      is.map fun i => writeImport (.prim (.iri i)) := by
    have := congrArg (List.map writeImport) h
    simpa [List.map_map, Function.comp_def] using this
  simp only [writeDocText, writePrefixes_eq, collect_eq, this, ontoText, List.map_map, Function.comp_def,
    List.append_assoc, List.cons_append, List.nil_append]

theorem doc_defined {o : OntoSt} (ho : DocOk o) : writeDoc o = some (writeDocText o) := by
  unfold writeDoc
  rw [if_pos]
  rw [List.all_eq_true, collect_eq]
  intro x hx
  rcases List.mem_append.1 hx with hx | hx
  · obtain ⟨a, e, h⟩ := ho.annots x hx
    rw [e]; exact def_annot a h
  · obtain ⟨a, e, h⟩ := ho.axioms x hx
    rw [e]; exact def_axiom h

theorem declared_ok {o : OntoSt} (ho : DocOk o) :
    ∀ e ∈ declared o.pm.fwd, PlainPrefix e.1.txt ∧ ∀ c ∈ e.2, IriChar c := by
  intro e he
  obtain ⟨x, hx⟩ := ho.history
  have := meaning_of_mem (inv_reaches hx).distinct (List.mem_filter.1 he).1
  rw [← getNs_meaning] at this
  exact ⟨ho.plain _ _ this, ho.chars _ _ this⟩

theorem read_written {o : OntoSt} (ho : DocOk o) {ks : List Nat} (hk : ks.length = 4) {dflt : Fwd}
    (hd : Distinct dflt) (hc : Compatible o.pm dflt) (addr : Nat) :
    ∃ items, Tells o items ∧ ∀ {σ : Type} (h : Callback σ Item), Accepts h → ∀ s extra,
      funcRead h (create ks dflt) addr (writeDocText o ++ extra) s =
        (give h s items, if lex extra = [] then .ok else .rejected) := by
  obtain ⟨is, h1, h2⟩ := imports_iris ho.imports
  refine ⟨_, ⟨declared o.pm.fwd, is, List.filter_sublist, fun e he => ?_, h1, rfl⟩, fun h hh s extra => ?_⟩
  · rw [← reserved_iff]
    simp [declared, he]
  · have ha := (declare_maps ho hk hd hc addr).agree
    have hlex := lex_prefixes _ (declared_ok ho) (ontoText (lookup o.pm) o.iri o.version is
      ((o.onto.annot.getD []).map Ref.obj) ((axiomsOf o.onto).map Ref.obj) extra)
    rw [← doc_text h1 extra] at hlex
    have hlen : (ontoText (lookup o.pm) o.iri o.version is ((o.onto.annot.getD []).map Ref.obj)
        ((axiomsOf o.onto).map Ref.obj) extra).length ≤ (writeDocText o ++ extra).length := by
      rw [doc_text h1 extra, List.length_append]; omega
    rw [funcRead, hlex, readPrefixes_eq hh]
    · simp only
      rw [readOntology_eq hh _ ho.iri ho.version h2 ?_ ?_ hlen]
      · exact congrArg (·, if lex extra = [] then Outcome.ok else .rejected) (give_append ..).symm
      · intro x hx
        obtain ⟨y, hy, rfl⟩ := List.mem_map.1 hx
        obtain ⟨a, e, h⟩ := ho.annots y hy
        rw [e]; exact rt_annot ha a h
      · intro x hx
        obtain ⟨y, hy, rfl⟩ := List.mem_map.1 hx
        obtain ⟨a, e, h⟩ := ho.axioms y hy
        rw [e]; exact rt_axiom ha a h
    · rw [ontoText, lex_kw]
      exact nofun

theorem best_nul (s : Str) : (best (0 :: s)).1 = .any := by
  have hz : ∀ r ∈ Rule.core, r.len (0 :: s) = 0 := by
    intro r hr
    rcases Nat.eq_zero_or_pos (r.len (0 :: s)) with h | h
    · exact h
    · have h1 := len_first h
      have h2 : r ≠ .any := by rintro rfl; revert hr; simp [Rule.core]
      cases r <;> first | exact absurd rfl h2 | exact absurd h1 (by decide) | (simp [Rule.first] at h1; done)
  have hf : ∀ l : List Rule, (∀ r ∈ l, r.len (0 :: s) = 0) → l.foldl (better (0 :: s)) (.any, 0) = (.any, 0) := by
    intro l
    induction l with
    | nil => exact fun _ => rfl
    | cons r l ih =>
      intro h
      rw [List.foldl_cons, better, h r (by simp)]
      exact ih fun r hr => h r (by simp [hr])
  rw [best, all_eq, List.foldl_append, hf _ hz, List.foldl_cons, List.foldl_nil, better]
  split <;> rfl

theorem lex_nul (s : Str) : lex (0 :: s) = [] := by
  rw [lex, List.length_cons, lexN]
  simp only [best_nul]
  rfl

/-! ## The ontology that is read -/

theorem ontoHandler_accepts : Accepts ontoHandler := fun _ _ => addPart_ok _ _

/-- Objects with consecutive addresses. -/
def number : Nat → List Obj → List Ref
  | _, [] => []
  | n, o :: os => ⟨n, o⟩ :: number (n + 1) os

theorem number_obj : ∀ (n : Nat) (os : List Obj), (number n os).map Ref.obj = os
  | _, [] => rfl
  | n, o :: os => by rw [number, List.map_cons, number_obj]

theorem number_ge : ∀ (os : List Obj) (n : Nat), ∀ x ∈ number n os, n ≤ x.addr
  | [], _, _, h => nomatch h
  | o :: os, n, x, h => by
    rcases List.mem_cons.1 h with h | h
    · rw [h]; exact Nat.le_refl n
    · have := number_ge os (n + 1) x h; omega

theorem number_inj : ∀ (os : List Obj) (n : Nat), ∀ x ∈ number n os, ∀ y ∈ number n os, x.addr = y.addr → x = y
  | [], _, _, h, _, _, _ => nomatch h
  | o :: os, n, x, hx, y, hy, e => by
    rcases List.mem_cons.1 hx with hx | hx <;> rcases List.mem_cons.1 hy with hy | hy
    · rw [hx, hy]
    · have := number_ge os (n + 1) y hy; rw [hx] at e; simp only at e; omega
    · have := number_ge os (n + 1) x hx; rw [hy] at e; simp only at e; omega
    · exact number_inj os (n + 1) x hx y hy e

/-- The map of the ontology after the declarations. -/
def overlay : Nat → Fwd → PMap → PMap
  | _, [], m => m
  | a, e :: f, m => overlay (a + 1) f (m.add ⟨a, e.1.txt⟩ e.2 true).1

theorem overlay_reaches : ∀ (f : Fwd) (a : Nat) {m : PMap} {x : PrefixSpec.Abs}, PrefixSpec.Reaches False m x →
    PrefixSpec.Reaches False (overlay a f m) (f.foldl (fun x e => x.add e.1.txt e.2 true) x)
  | [], _, _, _, h => h
  | e :: f, a, _, _, h => overlay_reaches f (a + 1) (.add ⟨a, e.1.txt⟩ e.2 true h (fun c => c.elim))

theorem give_prefixes : ∀ (f : Fwd) (o : OntoSt) (n : Nat),
    give ontoHandler (o, n) (f.map fun e => Item.prefixDecl e.1.txt e.2) =
      ({ o with pm := overlay n f o.pm }, n + f.length)
  | [], _, _ => rfl
  | e :: f, o, n => by
    have := give_prefixes f { o with pm := (o.pm.add ⟨n, e.1.txt⟩ e.2 true).1 } (n + 1)
    simp only [List.length_cons, overlay]
    rw [show n + (f.length + 1) = n + 1 + f.length by omega, ← this]
    rfl

theorem give_imports : ∀ (is : List Iri) (o : OntoSt) (n : Nat),
    give ontoHandler (o, n) (is.map Item.import) =
      ({ o with onto := (number n (is.map fun i => Obj.prim (.iri i))).foldl Onto.addImport o.onto },
        n + is.length)
  | [], _, _ => rfl
  | i :: is, o, n => by
    have := give_imports is { o with onto := o.onto.addImport ⟨n, .prim (.iri i)⟩ } (n + 1)
    simp only [List.length_cons, List.map_cons, number, List.foldl_cons]
    rw [show n + (is.length + 1) = n + 1 + is.length by omega, ← this]
    rfl

theorem give_annots : ∀ (os : List Obj) (o : OntoSt) (n : Nat),
    give ontoHandler (o, n) (os.map Item.annot) =
      ({ o with onto := (number n os).foldl Onto.addAnnot o.onto }, n + os.length)
  | [], _, _ => rfl
  | i :: is, o, n => by
    have := give_annots is { o with onto := o.onto.addAnnot ⟨n, i⟩ } (n + 1)
    simp only [List.length_cons, List.map_cons, number, List.foldl_cons]
    rw [show n + (is.length + 1) = n + 1 + is.length by omega, ← this]
    rfl

theorem give_axioms : ∀ (os : List Obj) (o : OntoSt) (n : Nat),
    give ontoHandler (o, n) (os.map Item.ax) =
      ({ o with onto := (number n os).foldl Onto.addAxiom o.onto }, n + os.length)
  | [], _, _ => rfl
  | i :: is, o, n => by
    have := give_axioms is { o with onto := o.onto.addAxiom ⟨n, i⟩ } (n + 1)
    simp only [List.length_cons, List.map_cons, number, List.foldl_cons]
    rw [show n + (is.length + 1) = n + 1 + is.length by omega, ← this]
    rfl

/-- An ontology built from imports, annotations and axioms, in this order. -/
def loaded (i a x : List Ref) : Onto :=
  x.foldl Onto.addAxiom (a.foldl Onto.addAnnot (i.foldl Onto.addImport Onto.empty))

theorem loaded_reaches {i a x : List Ref} (ha : ∀ y ∈ a, ObjSpec.WellFormed y.obj)
    (hx : ∀ y ∈ x, OntoSpec.IsAxiom y.obj) (hf : ∀ y ∈ x, ∀ z ∈ x, y.addr = z.addr → y = z) :
    OntoSpec.Reaches (loaded i a x) ⟨x, a, i⟩ := by
  refine ⟨i.map .addImport ++ a.map .addAnnot ++ x.map .addAxiom, ?_, ?_, ?_⟩
  · refine legal_append _ _ _ (legal_append _ _ _ (legal_map (f := .addImport) (fun _ _ => trivial) _ _)
      (legal_annots _ _ ha)) (legal_axioms _ _ hx ?_)
    rw [absRun_append', absRun_imports, absRun_annots]
    simpa [OntoSpec.Abs.empty] using hf
  · rw [run_append', run_append', run_map (g := Onto.addImport) (fun _ _ => rfl), Option.bind_some,
      run_map (g := Onto.addAnnot) (fun _ _ => rfl), Option.bind_some,
      run_map (g := Onto.addAxiom) (fun _ _ => rfl)]
    rfl
  · rw [absRun_append', absRun_append', absRun_imports, absRun_annots, absRun_axioms]
    rfl

/-- C17 for an ontology that has only been added to. -/
theorem loaded_prims {i a x : List Ref} (ha : ∀ y ∈ a, ObjSpec.WellFormed y.obj)
    (hx : ∀ y ∈ x, OntoSpec.IsAxiom y.obj) (hf : ∀ y ∈ x, ∀ z ∈ x, y.addr = z.addr → y = z) {p : Prim}
    (hp : (loaded i a x).hasPrimitive p = true) : OntoSpec.OrIri (OntoSpec.Mentioned ⟨x, a, i⟩) p := by
  obtain ⟨o, h1, h2⟩ := C17_partial (i.map .addImport ++ a.map .addAnnot ++ x.map .addAxiom) (by
    refine legal_append _ _ _ (legal_append _ _ _ (legal_map (f := .addImport) (fun _ _ => trivial) _ _)
      (legal_annots _ _ ha)) (legal_axioms _ _ hx ?_)
    rw [absRun_append', absRun_imports, absRun_annots]
    simpa [OntoSpec.Abs.empty] using hf) (by
    intro op hop
    simp only [List.mem_append, List.mem_map] at hop
    rcases hop with (⟨_, _, rfl⟩ | ⟨_, _, rfl⟩) | ⟨_, _, rfl⟩ <;> trivial) p
  rw [run_append', run_append', run_map (g := Onto.addImport) (fun _ _ => rfl), Option.bind_some,
      run_map (g := Onto.addAnnot) (fun _ _ => rfl), Option.bind_some,
      run_map (g := Onto.addAxiom) (fun _ _ => rfl)] at h1
  cases h1
  have := h2.1 hp
  rw [absRun_append', absRun_append', absRun_imports, absRun_annots, absRun_axioms] at this
  exact this

theorem loaded_byType (i a x : List Ref) (t : Nat) :
    ((loaded i a x).byType t).getD [] = x.filter fun a => axType a.obj = t := by
  rw [loaded, foldAxiom_byType, foldAnnot_byType, foldImport_byType]; rfl

theorem filter_obj (t : Nat) (xs : List Ref) :
    (xs.filter fun a => axType a.obj = t).map Ref.obj = (xs.map Ref.obj).filter fun o => axType o = t := by
  rw [List.filter_map]; rfl

end Cowl.Func
