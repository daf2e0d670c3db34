import Verif.RewriteMeets
import Verif.RewriteSpec
import Verif.TypedProps
import Verif.FuncDocProps
/-! # Lemmas: ontologies that were read can be written -/
namespace Cowl.Rewrite
open Cowl.Prefix Cowl.PrefixSpec Cowl.Func Cowl.FuncSpec Cowl.Change Cowl.Ast Cowl.XmlSpec Cowl.FuncTell

/-- Characters of names as they come from texts. -/
def IriLex (i : Iri) : Prop := i.ns ++ i.rem ≠ [] ∧ ∀ c ∈ i.ns ++ i.rem, IriChar c

/-- What texts guarantee for names and literals. -/
def lexReq : Req where
  iri := IriLex
  lit l := match l.tag with
    | .lang _ => True
    | .dt i => i = xsdString ∨ IriLex i
  anon := Label
  sub _ := True
  two _ := True
  one _ := True
  any _ := True
  card _ := True

/-! ## Maps -/

/-- Prefixes and namespaces as they come from texts. -/
def AbsOk (a : PrefixSpec.Abs) : Prop := ∀ p n, a p = some n → PlainPrefix p ∧ ∀ c ∈ n, IriChar c

/-- The map has such prefixes and namespaces. -/
def MapOk (m : PMap) : Prop := ∃ a, PrefixSpec.Reaches False m a ∧ AbsOk a

theorem chars_of {s : Str} (h : s.all isIriChar = true) : ∀ c ∈ s, IriChar c :=
  fun c hc => (isIriChar_iff c).1 (List.all_eq_true.1 h c hc)

theorem std_chars {p n : Str} (h : ∀ c ∈ n, IriChar c) : ∀ c ∈ std p n, IriChar c := by
  unfold std
  split
  · exact chars_of (by decide +kernel)
  · split
    · exact chars_of (by decide +kernel)
    · split
      · exact chars_of (by decide +kernel)
      · split
        · exact chars_of (by decide +kernel)
        · exact h

theorem absOk_add {a : PrefixSpec.Abs} (ha : AbsOk a) {p n : Str} (hp : PlainPrefix p) (hn : ∀ c ∈ n, IriChar c) (ow : Bool) :
    AbsOk (a.add p n ow) := by
  intro q x hq
  unfold PrefixSpec.Abs.add at hq
  split at hq
  · rename_i h
    cases hq
    rw [h.1]
    exact ⟨hp, std_chars hn⟩
  · exact ha q x hq

theorem mapOk_add {m : PMap} (hm : MapOk m) (addr : Nat) {p n : Str} (hp : PlainPrefix p) (hn : ∀ c ∈ n, IriChar c) (ow : Bool) :
    MapOk (m.add ⟨addr, p⟩ n ow).1 := by
  obtain ⟨a, h1, h2⟩ := hm
  exact ⟨_, .add ⟨addr, p⟩ n ow h1 (fun c => c.elim), absOk_add h2 hp hn ow⟩

theorem mapOk_create {ks : List Nat} (hk : ks.length = 4) {dflt : Fwd} (hd : Distinct dflt) (hg : GoodDefaults dflt) : MapOk (create ks dflt) := by
  refine ⟨_, .create ks dflt hk hd, fun p n hp => ?_⟩
  unfold initial at hp
  split at hp
  · rename_i h
    cases hp
    refine ⟨?_, std_chars nofun⟩
    rcases h with rfl | rfl | rfl | rfl <;> exact plain_of (by decide +kernel) (by decide +kernel)
  · obtain ⟨k, hk, rfl⟩ := meaning_some hp
    exact hg _ hk

theorem revPut_mem {k : SRef} {n : Str} : ∀ {r : Rev} {e : Str × SRef}, e ∈ revPut k n r → e = (n, k) ∨ e ∈ r
  | [], e, h => .inl (List.mem_singleton.1 h)
  | x :: r, e, h => by
    rw [revPut] at h
    split at h
    · split at h
      · rcases List.mem_cons.1 h with h | h
        · exact .inl h
        · exact .inr (List.mem_cons_of_mem _ h)
      · exact .inr h
    · rcases List.mem_cons.1 h with h | h
      · exact .inr (h ▸ List.mem_cons_self)
      · rcases revPut_mem h with h | h
        · exact .inl h
        · exact .inr (List.mem_cons_of_mem _ h)

theorem revFold_mem : ∀ (f : Fwd) {r : Rev} {e : Str × SRef}, e ∈ f.foldl (fun r e => revPut e.1 e.2 r) r → (e.2, e.1) ∈ f ∨ e ∈ r
  | [], _, _, h => .inr h
  | x :: f, r, e, h => by
    rcases revFold_mem f (r := revPut x.1 x.2 r) h with h | h
    · exact .inl (List.mem_cons_of_mem _ h)
    · rcases revPut_mem h with h | h
      · subst h; exact .inl List.mem_cons_self
      · exact .inr h

theorem revFind_mem {n : Str} {k : SRef} : ∀ {r : Rev}, revFind n r = some k → (n, k) ∈ r
  | [], h => by cases h
  | x :: r, h => by
    rw [revFind] at h
    split at h
    · rename_i e; cases h; subst e; exact List.mem_cons_self
    · exact List.mem_cons_of_mem _ (revFind_mem h)

/-- A reverse table that has not been built yet is built from what is registered. -/
theorem sound_of_new {m : PMap} {a : PrefixSpec.Abs} (ha : PrefixSpec.Reaches False m a) (hr : m.rev = []) (n p : Str) (h : lookup m n = some p) :
    m.getNs p = some n := by
  unfold lookup PMap.getPrefix PMap.updateReverse at h
  obtain ⟨k, hk, rfl⟩ := Option.map_eq_some_iff.1 h
  have hk := revFind_mem hk
  split at hk
  · rw [hr] at hk; cases hk
  · rcases revFold_mem _ hk with h | h
    · rw [getNs_meaning]; exact meaning_of_mem (inv_reaches ha).distinct h
    · rw [hr] at h; cases h

theorem add_rev (m : PMap) (k : SRef) (n : Str) (ow : Bool) : (m.add k n ow).1.rev = m.rev := by
  unfold PMap.add
  dsimp only
  split
  · split <;> rfl
  · rfl

theorem mergeLoop_rev (ow : Bool) : ∀ (f : Fwd) (m : PMap) (r : Ret), (mergeLoop ow f m r).1.rev = m.rev
  | [], _, _ => rfl
  | e :: f, m, r => by rw [mergeLoop, mergeLoop_rev ow f, add_rev]

theorem create_rev (ks : List Nat) (dflt : Fwd) : (create ks dflt).rev = [] := by
  unfold create PMap.merge
  rw [mergeLoop_rev]
  unfold registerReserved
  have : ∀ (l : List ((Str × Str) × Nat)) (m : PMap), (l.foldl (fun m e => (m.add ⟨e.2, e.1.1⟩ e.1.2 false).1) m).rev = m.rev := by
    intro l
    induction l with
    | nil => intro m; rfl
    | cons e l ih => intro m; rw [List.foldl_cons, ih, add_rev]
  rw [this]

/-! ## Names -/

theorem plain_colon {p : Str} (h : PlainPrefix p) : colon ∉ p := by
  intro hc
  rcases h with rfl | ⟨c, t, rfl, h1, -, h2, -⟩
  · cases hc
  · rcases List.mem_cons.1 hc with h | h
    · subst h; revert h1; unfold NameStart colon; decide
    · have := h2 _ h; revert this; unfold NameChar NameStart colon; decide

theorem readIri_lex {m : PMap} (hm : MapOk m) {t : Tok} {i : Iri} (ht : TokOk t) (h : readIri m t = some i) : IriLex i := by
  unfold readIri at h
  split at h
  · rename_i s
    obtain ⟨x, hx, rfl⟩ := Option.map_eq_some_iff.1 h
    have hne : s ≠ [] := by rintro rfl; cases hx
    obtain ⟨a, b, e, hs⟩ := C02_split s hne
    rw [e] at hx
    cases hx
    show a ++ b ≠ [] ∧ _
    rw [← hs.1]
    exact ⟨hne, ht⟩
  · rename_i s
    obtain ⟨p, l, rfl, hp, hl, hc⟩ := ht
    have hpc := plain_colon hp
    rw [show p ++ 58 :: l = p ++ colon :: l from rfl, parseShort_colon m l hpc] at h
    cases hn : m.getNs p with
    | none => rw [hn] at h; cases h
    | some ns =>
      obtain ⟨a, h1, h2⟩ := hm
      have hns := (h2 p ns ((C22_get_ns h1 p).symm.trans hn)).2
      obtain ⟨-, j, e1, e2⟩ : True ∧ ∃ j, m.parseShortIri (p ++ ascii ":" ++ l) = some (some j) ∧ j.1 ++ j.2 = ns ++ l :=
        ⟨trivial, (C24_partial h1 (p := p) l hpc).1 ns ((C22_get_ns h1 p).symm.trans hn)⟩
      rw [show p ++ ascii ":" ++ l = p ++ colon :: l by simp [show ascii ":" = [colon] by decide +kernel], parseShort_colon m l hpc, hn] at e1
      rw [hn] at h
      have e3 : iriOfParts ns l = j := Option.some.inj (Option.some.inj e1)
      have h : some (Iri.mk (iriOfParts ns l).1 (iriOfParts ns l).2) = some i := h
      rw [e3] at h
      cases h
      show j.1 ++ j.2 ≠ [] ∧ _
      rw [e2]
      refine ⟨?_, fun c hc' => ?_⟩
      · intro e; exact hl (List.append_eq_nil_iff.1 e).2
      · rcases List.mem_append.1 hc' with h | h
        · exact hns c h
        · exact name_iri (hc c h)
  · cases h

theorem gives {m : PMap} (hm : MapOk m) : Rewrite.Gives lexReq m TokOk where
  iri t i ht h := readIri_lex hm ht h
  anon s h := h
  plain v v' t h := by
    have h : literalString v = .lit v' t := h
    cases h
    exact .inl rfl
  lang v l v' t _ h := by
    have h : literalLang v l = .lit v' t := h
    unfold literalLang at h
    split at h
    · cases h; exact .inl rfl
    · cases h; trivial
  typed v i v' t hi h := by
    rw [Cowl.literal] at h
    split at h
    · unfold literalParseLang at h
      dsimp only at h
      split at h
      · cases h
      · cases h; trivial
    · cases h; exact .inr hi

/-! ## Documents -/

/-- What texts guarantee for what is told. -/
def ItemLex : Item → Prop
  | .prefixDecl p n => PlainPrefix p ∧ ∀ c ∈ n, IriChar c
  | .iri i | .version i | .import i => IriLex i
  | .annot o | .ax o => Leafs lexReq o

/-- It is not a version. -/
def NotVersion : Item → Prop
  | .version _ => False
  | _ => True

variable {σ : Type} {P : σ → Prop} {h : Callback σ Item}

/-- The state after a step has the property; what is left is like what was there. -/
def StepQ (P : σ → Prop) : Step σ → Prop
  | .go s m ts => P s ∧ MapOk m ∧ AllQ TokOk ts
  | .stop s _ => P s

theorem emit_lex (hh : ∀ s i, P s → NotVersion i → ItemLex i → P (h s i).1) {s : σ} (hs : P s) {m : PMap} (hm : MapOk m) {i : Item}
    (hv : NotVersion i) (hi : ItemLex i) {ts : List Tok} (hq : AllQ TokOk ts) : StepQ P (emit h s m i ts) := by
  unfold emit
  dsimp only
  split
  · exact ⟨hh s i hs hv hi, hm, hq⟩
  · exact hh s i hs hv hi

theorem readPrefixes_lex (hh : ∀ s i, P s → NotVersion i → ItemLex i → P (h s i).1) (addr : Nat) (s : σ) (m : PMap) (ts : List Tok) (hs : P s)
    (hm : MapOk m) (hq : AllQ TokOk ts) : StepQ P (readPrefixes h addr s m ts) := by
  fun_induction readPrefixes h addr s m ts with
  | case1 => exact hh _ _ hs trivial ⟨hq.tail.tail.head, hq.tail.tail.tail.tail.head⟩
  | case2 _ _ _ _ _ _ _ _ ih =>
    exact ih (hh _ _ hs trivial ⟨hq.tail.tail.head, hq.tail.tail.tail.tail.head⟩)
      (mapOk_add hm _ hq.tail.tail.head hq.tail.tail.tail.tail.head _) hq.tail.tail.tail.tail.tail.tail
  | case3 => exact hs
  | case4 => exact ⟨hs, hm, hq⟩

theorem readId_lex (hh : ∀ s i, P s → NotVersion i → ItemLex i → P (h s i).1)
    (hv : ∀ s i v, P s → IriLex i → IriLex v → P (h (h s (.iri i)).1 (.version v)).1) {s : σ} (hs : P s) {m : PMap} (hm : MapOk m)
    {ts : List Tok} (hq : AllQ TokOk ts) : StepQ P (readId h s m ts) := by
  rw [Func.readId.eq_def]
  split
  · exact ⟨hs, hm, hq⟩
  · split
    · exact ⟨hs, hm, hq⟩
    · split
      · exact hs
      · rename_i hi
        have hi := readIri_lex hm hq.head hi
        split
        · exact emit_lex hh hs hm (i := .iri _) trivial hi nofun
        · split
          · exact emit_lex hh hs hm (i := .iri _) trivial hi hq.tail
          · split
            · exact hs
            · rename_i hv'
              have hv' := readIri_lex hm hq.tail.head hv'
              dsimp only
              split
              · exact hv _ _ _ hs hi hv'
              · split
                · exact hv _ _ _ hs hi hv'
                · exact ⟨hv _ _ _ hs hi hv', hm, hq.tail.tail⟩

theorem readHeader_lex (hh : ∀ s i, P s → NotVersion i → ItemLex i → P (h s i).1) (k : Nat) : ∀ (n : Nat) (s : σ) (m : PMap) (ts : List Tok), P s →
    MapOk m → AllQ TokOk ts → StepQ P (readHeader h k n s m ts)
  | 0, _, _, _, hs, _, _ => hs
  | n + 1, s, m, ts, hs, hm, hq => by
    rw [Func.readHeader.eq_def]
    dsimp only
    split
    · split
      · exact hs
      · rename_i ts0 _ i ts' e
        have key : IriLex i ∧ AllQ TokOk ts' := by
          rw [Func.readImport.eq_def] at e
          split at e
          · obtain ⟨j, hj, e⟩ := Option.map_eq_some_iff.1 e
            cases e
            exact ⟨readIri_lex hm hq.tail.tail.head hj, hq.tail.tail.tail.tail⟩
          · cases e
        have := emit_lex hh hs hm (i := .import i) trivial key.1 key.2
        split
        · rename_i e; rw [e] at this; exact readHeader_lex hh k n _ _ _ this.1 this.2.1 this.2.2
        · rename_i e; rw [e] at this; exact this
    · split
      · exact hs
      · rename_i o ts' e
        obtain ⟨g1, g2⟩ := parseCat_leafs (gives hm) k _ _ _ _ hq e
        have := emit_lex hh hs hm (i := .annot o) trivial g1 g2
        split
        · rename_i e; rw [e] at this; exact readHeader_lex hh k n _ _ _ this.1 this.2.1 this.2.2
        · rename_i e; rw [e] at this; exact this
    · exact ⟨hs, hm, hq⟩

theorem readAxioms_lex (hh : ∀ s i, P s → NotVersion i → ItemLex i → P (h s i).1) (k : Nat) : ∀ (n : Nat) (s : σ) (m : PMap) (ts : List Tok), P s →
    MapOk m → AllQ TokOk ts → P (readAxioms h k n s m ts).1
  | 0, _, _, _, hs, _, _ => hs
  | n + 1, s, m, ts, hs, hm, hq => by
    rw [Func.readAxioms.eq_def]
    dsimp only
    split
    · exact hs
    · split
      · exact hs
      · rename_i o ts' e
        obtain ⟨g1, g2⟩ := parseCat_leafs (gives hm) k _ _ _ _ hq e
        have := emit_lex hh hs hm (i := .ax o) trivial g1 g2
        split
        · rename_i e; rw [e] at this; exact readAxioms_lex hh k n _ _ _ this.1 this.2.1 this.2.2
        · rename_i e; rw [e] at this; exact this

/-- A property of the state that is kept by what texts can tell holds after reading. -/
theorem funcRead_lex (hh : ∀ s i, P s → NotVersion i → ItemLex i → P (h s i).1)
    (hv : ∀ s i v, P s → IriLex i → IriLex v → P (h (h s (.iri i)).1 (.version v)).1) {m : PMap} (hm : MapOk m) (addr : Nat) (text : Str)
    {s : σ} (hs : P s) : P (funcRead h m addr text s).1 := by
  unfold funcRead
  have h1 := readPrefixes_lex hh addr s m (lex text) hs hm (lex_ok text)
  split
  · rename_i e; rw [e] at h1; exact h1
  · rename_i s1 m1 ts1 e
    rw [e] at h1
    obtain ⟨p1, p2, p3⟩ := h1
    rw [Func.readOntology.eq_def]
    split
    · rename_i ts
      have h2 := readId_lex hh hv p1 p2 p3.tail.tail
      split
      · rename_i e; rw [e] at h2; exact h2
      · rename_i s2 m2 ts2 e
        rw [e] at h2
        have h3 := readHeader_lex hh text.length (text.length + 1) s2 m2 ts2 h2.1 h2.2.1 h2.2.2
        split
        · rename_i e; rw [e] at h3; exact h3
        · rename_i e
          rw [e] at h3
          exact readAxioms_lex hh _ _ _ _ _ h3.1 h3.2.1 h3.2.2
    · exact p1

/-! ## Ontologies -/

/-- What holds of an ontology that is being read. -/
structure Held (dflt : Fwd) (x : (OntoSt × Nat) × List Item) : Prop where
  told : ∀ i ∈ x.2, ItemLex i
  pm : MapOk x.1.1.pm
  rev : x.1.1.pm.rev = []
  more : ∀ p, x.1.1.pm.getNs p = none → initial dflt p = none
  iri : ∀ i, x.1.1.iri = some i → IriLex i
  version : ∀ v, x.1.1.version = some v → x.1.1.iri ≠ none ∧ IriLex v

theorem told_snoc {l : List Item} (h : ∀ i ∈ l, ItemLex i) {j : Item} (hj : ItemLex j) : ∀ i ∈ l ++ [j], ItemLex i := by
  intro i hi
  rcases List.mem_append.1 hi with hi | hi
  · exact h i hi
  · rw [List.mem_singleton.1 hi]; exact hj

theorem held_step {dflt : Fwd} (x : (OntoSt × Nat) × List Item) (i : Item) (hx : Held dflt x) (hv : NotVersion i) (hi : ItemLex i) :
    Held dflt (taking ontoHandler x i).1 := by
  obtain ⟨⟨o, n⟩, l⟩ := x
  obtain ⟨h1, h2, h3, h4, h5, h6⟩ := hx
  cases i with
  | prefixDecl p ns =>
    refine ⟨told_snoc h1 hi, mapOk_add h2 n hi.1 hi.2 true, (add_rev ..).trans h3, fun q hq => ?_, h5, h6⟩
    obtain ⟨a, ha, -⟩ := h2
    have hq : (o.pm.add ⟨n, p⟩ ns true).1.getNs q = none := hq
    rw [C22_get_ns (.add ⟨n, p⟩ ns true ha (fun c => c.elim))] at hq
    refine h4 q ?_
    show o.pm.getNs q = none
    rw [C22_get_ns ha]
    unfold PrefixSpec.Abs.add at hq
    split at hq
    · cases hq
    · exact hq
  | iri i => exact ⟨told_snoc h1 hi, h2, h3, h4, fun j hj => by cases hj; exact hi, fun v hv => ⟨nofun, (h6 v hv).2⟩⟩
  | version i => exact hv.elim
  | «import» i => exact ⟨told_snoc h1 hi, h2, h3, h4, h5, h6⟩
  | annot ob => exact ⟨told_snoc h1 hi, h2, h3, h4, h5, h6⟩
  | ax ob => exact ⟨told_snoc h1 hi, h2, h3, h4, h5, h6⟩

theorem held_version {dflt : Fwd} (x : (OntoSt × Nat) × List Item) (i v : Iri) (hx : Held dflt x) (hi : IriLex i) (hv : IriLex v) :
    Held dflt (taking ontoHandler (taking ontoHandler x (.iri i)).1 (.version v)).1 := by
  obtain ⟨⟨o, n⟩, l⟩ := x
  obtain ⟨h1, h2, h3, h4, h5, h6⟩ := hx
  exact ⟨told_snoc (told_snoc h1 (show ItemLex (.iri i) from hi)) (show ItemLex (.version v) from hv), h2, h3, h4,
    fun j hj => by cases hj; exact hi, fun w hw => by cases hw; exact ⟨nofun, hv⟩⟩

theorem mem_toldAxioms : ∀ {l : List Item} {o : Obj}, o ∈ toldAxioms l → Item.ax o ∈ l
  | [], _, h => nomatch h
  | .ax x :: l, o, h => by
    rcases List.mem_cons.1 h with rfl | h
    · exact List.mem_cons_self
    · exact List.mem_cons_of_mem _ (mem_toldAxioms h)
  | .prefixDecl .. :: l, o, h | .iri _ :: l, o, h | .version _ :: l, o, h | .import _ :: l, o, h | .annot _ :: l, o, h =>
    List.mem_cons_of_mem _ (mem_toldAxioms (l := l) h)

theorem mem_toldAnnots : ∀ {l : List Item} {o : Obj}, o ∈ toldAnnots l → Item.annot o ∈ l
  | [], _, h => nomatch h
  | .annot x :: l, o, h => by
    rcases List.mem_cons.1 h with rfl | h
    · exact List.mem_cons_self
    · exact List.mem_cons_of_mem _ (mem_toldAnnots h)
  | .prefixDecl .. :: l, o, h | .iri _ :: l, o, h | .version _ :: l, o, h | .import _ :: l, o, h | .ax _ :: l, o, h =>
    List.mem_cons_of_mem _ (mem_toldAnnots (l := l) h)

theorem mem_toldImports : ∀ {l : List Item} {o : Obj}, o ∈ toldImports l → ∃ i, o = .prim (.iri i) ∧ Item.import i ∈ l
  | [], _, h => nomatch h
  | .import x :: l, o, h => by
    rcases List.mem_cons.1 h with rfl | h
    · exact ⟨x, rfl, List.mem_cons_self⟩
    · obtain ⟨i, h1, h2⟩ := mem_toldImports h
      exact ⟨i, h1, List.mem_cons_of_mem _ h2⟩
  | .prefixDecl .. :: l, o, h | .iri _ :: l, o, h | .version _ :: l, o, h | .annot _ :: l, o, h | .ax _ :: l, o, h => by
    obtain ⟨i, h1, h2⟩ := mem_toldImports (l := l) h
    exact ⟨i, h1, List.mem_cons_of_mem _ h2⟩

theorem suits (gp : Str → Option Str) : Suits owl2 (restReq gp) lexReq (textReq gp) where
  iri i _ b l := ⟨b.1, fun _ => l, b.2⟩
  thing := iriOk_of (by decide +kernel) (by decide +kernel) (by decide +kernel)
  literal := iriOk_of (by decide +kernel) (by decide +kernel) (by decide +kernel)
  lit l a b c := by
    obtain ⟨v, t⟩ := l
    refine ⟨b.1, ?_⟩
    cases t with
    | lang t =>
      refine ⟨b.2, fun c hc h => (a.2 c hc) ?_⟩
      rw [UInt8.le_iff_toNat_le, UInt8.le_iff_toNat_le]
      exact h
    | dt i =>
      refine ⟨a.1, a.2, ?_⟩
      rcases b.2 with h | h
      · exact .inl h
      · rcases c with k | k
        · exact .inl k
        · exact .inr ⟨h.1, fun _ => k, h.2⟩
  anon _ _ _ l := l
  sub _ _ b := b
  two _ a _ := a
  one _ a _ := a
  any _ _ _ := trivial
  card _ _ _ := trivial

theorem iriOk_none {i : Iri} (h : IsSplit (i.ns ++ i.rem) i.ns i.rem) (l : IriLex i) : IriOk (fun _ => none) i :=
  ⟨h, fun _ => l, fun c => absurd rfl c⟩

/-- What is read can be written, under the conditions of `Rewritable`. -/
theorem doc_of_read {ks ks' : List Nat} (hk : ks.length = 4) (hk' : ks'.length = 4) {dflt : Fwd} (hd : Distinct dflt) (hg : GoodDefaults dflt)
    (addr n : Nat) (text : Str) : let o := (funcRead ontoHandler (create ks dflt) addr text (OntoSt.new ks' dflt, n)).1.1
    (∃ s, OntoSpec.Reaches o.onto s) ∧ (∀ p, o.pm.getNs p = none → initial dflt p = none) ∧ (Rewritable o → DocOk o) := by
  intro o
  have held := funcRead_lex (P := Held dflt) (h := taking ontoHandler) held_step held_version (mapOk_create hk hd hg) addr text
    (s := ((OntoSt.new ks' dflt, n), []))
    ⟨nofun, mapOk_create hk' hd hg, create_rev ks' dflt, fun p hp => by
      have hp : (create ks' dflt).getNs p = none := hp
      rwa [C22_get_ns (.create ks' dflt hk' hd)] at hp, nofun, nofun⟩
  obtain ⟨told, s, a, e, ht, hr, hp, h1, h2, h3⟩ := C91_load_partial (o := OntoSt.new ks' dflt) (s := OntoSpec.Abs.empty) (a := initial dflt)
    ⟨[], trivial, rfl, rfl⟩ (.create ks' dflt hk' hd) n nofun (create ks dflt) addr text
  have held : Held dflt ((o, (funcRead ontoHandler (create ks dflt) addr text (OntoSt.new ks' dflt, n)).1.2), told) := by
    have e2 := funcRead_taking ontoHandler (create ks dflt) addr text (OntoSt.new ks' dflt, n)
    have : (funcRead (taking ontoHandler) (create ks dflt) addr text ((OntoSt.new ks' dflt, n), [])).1 =
        ((o, (funcRead ontoHandler (create ks dflt) addr text (OntoSt.new ks' dflt, n)).1.2), told) := by
      rw [e]
      exact _root_.Prod.ext e2 rfl
    rw [← this]; exact held
  have hi := reaches_inv hr
  refine ⟨⟨s, hr⟩, held.more, fun hw => ⟨⟨a, hp⟩, sound_of_new hp held.rev, ?_, ?_, ?_, ?_, ?_, ?_, ?_⟩⟩
  · intro p n h
    obtain ⟨b, hb, hb'⟩ := held.pm
    exact (hb' p n ((C22_get_ns hb p).symm.trans h)).1
  · intro p n h
    obtain ⟨b, hb, hb'⟩ := held.pm
    exact (hb' p n ((C22_get_ns hb p).symm.trans h)).2
  · intro i h
    exact iriOk_none (hw.iri i h) (held.iri i h)
  · intro v h
    exact ⟨(held.version v h).1, iriOk_none (hw.version v h) (held.version v h).2⟩
  · intro x hx
    have hm : x.obj ∈ toldImports told := by
      have : x.obj ∈ s.imports.map Ref.obj := List.mem_map_of_mem (hi.imports ▸ hx)
      rwa [h3] at this
    obtain ⟨i, e1, e2⟩ := mem_toldImports hm
    exact ⟨i, e1, iriOk_none (hw.imports x hx i e1) (held.told _ e2)⟩
  · intro x hx
    have hm : x.obj ∈ toldAnnots told := by
      have : x.obj ∈ s.annots.map Ref.obj := List.mem_map_of_mem (hi.annot ▸ hx)
      rwa [h2] at this
    have hm := mem_toldAnnots hm
    obtain ⟨a, e1, e2⟩ := ht _ hm
    exact ⟨a, e1, annot_suits (suits _) a e2 (hw.annots x hx a e1) (e1 ▸ held.told _ hm)⟩
  · intro x hx
    have hm : x.obj ∈ toldAxioms told := by
      have : x.obj ∈ s.axioms.map Ref.obj := List.mem_map_of_mem ((axiomsOf_perm hi).mem_iff.1 hx)
      rwa [h1] at this
    have hm := mem_toldAxioms hm
    obtain ⟨a, e1, e2⟩ := ht _ hm
    exact ⟨a, e1, axiom_suits (suits _) e2 (hw.axioms x hx a e1) (e1 ▸ held.told _ hm)⟩

end Cowl.Rewrite
