import Verif.ConvertSpec
import Verif.PrtDocProps
/-! # Lemmas: conversions between formats -/
namespace Cowl.Convert
open Prefix PrefixSpec Func FuncSpec Change Ast Prt

/-! ## Weaker requirements -/

/-- What meets `R` meets `S`. -/
structure Le (R S : Req) : Prop where
  iri : ∀ i, R.iri i → S.iri i
  lit : ∀ l, R.lit l → S.lit l
  anon : ∀ s, R.anon s → S.anon s
  sub : ∀ p, R.sub p → S.sub p
  two : ∀ n, R.two n → S.two n
  one : ∀ n, R.one n → S.one n
  any : ∀ n, R.any n → S.any n
  card : ∀ n, R.card n → S.card n

variable {R S : Req}

theorem ind_le (h : Le R S) : ∀ {x : Ind}, x.Meets R → x.Meets S
  | .named _, k => h.iri _ k
  | .anon _, k => h.anon _ k

theorem ope_le (h : Le R S) : ∀ {x : Ope}, x.Meets R → x.Meets S
  | .prop _, k => h.iri _ k
  | .inv _, k => h.iri _ k

mutual
theorem dr_le (h : Le R S) : ∀ x : DR, x.Meets R → x.Meets S
  | .dt _, k => by rw [DR.Meets] at k ⊢; exact h.iri _ k
  | .inter ds, k => by rw [DR.Meets] at k ⊢; exact ⟨h.two _ k.1, drs_le h ds k.2⟩
  | .union ds, k => by rw [DR.Meets] at k ⊢; exact ⟨h.two _ k.1, drs_le h ds k.2⟩
  | .compl d, k => by rw [DR.Meets] at k ⊢; exact dr_le h d k
  | .oneOf ls, k => by rw [DR.Meets] at k ⊢; exact ⟨h.one _ k.1, fun l hl => h.lit _ (k.2 l hl)⟩
  | .restr i fs, k => by
    rw [DR.Meets] at k ⊢
    exact ⟨h.iri _ k.1, h.one _ k.2.1, fun f hf => ⟨h.iri _ (k.2.2 f hf).1, h.lit _ (k.2.2 f hf).2⟩⟩

theorem drs_le (h : Le R S) : ∀ xs : List DR, DR.AllMeet R xs → DR.AllMeet S xs
  | [], _ => by rw [DR.AllMeet]; trivial
  | x :: xs, k => by rw [DR.AllMeet] at k ⊢; exact ⟨dr_le h x k.1, drs_le h xs k.2⟩
end

mutual
theorem ce_le (h : Le R S) : ∀ x : CE, x.Meets R → x.Meets S
  | .cls _, k => by rw [CE.Meets] at k ⊢; exact h.iri _ k
  | .inter ds, k => by rw [CE.Meets] at k ⊢; exact ⟨h.two _ k.1, ces_le h ds k.2⟩
  | .union ds, k => by rw [CE.Meets] at k ⊢; exact ⟨h.two _ k.1, ces_le h ds k.2⟩
  | .compl d, k => by rw [CE.Meets] at k ⊢; exact ce_le h d k
  | .oneOf ls, k => by rw [CE.Meets] at k ⊢; exact ⟨h.one _ k.1, fun l hl => ind_le h (k.2 l hl)⟩
  | .objSome p c, k => by rw [CE.Meets] at k ⊢; exact ⟨ope_le h k.1, ce_le h c k.2⟩
  | .objAll p c, k => by rw [CE.Meets] at k ⊢; exact ⟨ope_le h k.1, ce_le h c k.2⟩
  | .objCardQ _ n p c, k => by rw [CE.Meets] at k ⊢; exact ⟨ope_le h k.1, ce_le h c k.2.1, h.card _ k.2.2⟩
  | .objHasValue p i, k => by rw [CE.Meets] at k ⊢; exact ⟨ope_le h k.1, ind_le h k.2⟩
  | .objHasSelf p, k => by rw [CE.Meets] at k ⊢; exact ope_le h k
  | .objCard _ n p, k => by rw [CE.Meets] at k ⊢; exact ⟨ope_le h k.1, h.card _ k.2⟩
  | .dataSome p d, k => by rw [CE.Meets] at k ⊢; exact ⟨h.iri _ k.1, dr_le h d k.2⟩
  | .dataAll p d, k => by rw [CE.Meets] at k ⊢; exact ⟨h.iri _ k.1, dr_le h d k.2⟩
  | .dataCardQ _ n p d, k => by rw [CE.Meets] at k ⊢; exact ⟨h.iri _ k.1, dr_le h d k.2.1, h.card _ k.2.2⟩
  | .dataHasValue p l, k => by rw [CE.Meets] at k ⊢; exact ⟨h.iri _ k.1, h.lit _ k.2⟩
  | .dataCard _ n p, k => by rw [CE.Meets] at k ⊢; exact ⟨h.iri _ k.1, h.card _ k.2⟩

theorem ces_le (h : Le R S) : ∀ xs : List CE, CE.AllMeet R xs → CE.AllMeet S xs
  | [], _ => by rw [CE.AllMeet]; trivial
  | x :: xs, k => by rw [CE.AllMeet] at k ⊢; exact ⟨ce_le h x k.1, ces_le h xs k.2⟩
end

theorem val_le (h : Le R S) : ∀ {x : AnnotVal}, x.Meets R → x.Meets S
  | .iri _, k => h.iri _ k
  | .anon _, k => h.anon _ k
  | .lit _, k => h.lit _ k

theorem subj_le (h : Le R S) : ∀ {x : AnnotSubj}, x.Meets R → x.Meets S
  | .iri _, k => h.iri _ k
  | .anon _, k => h.anon _ k

mutual
theorem annot_le (h : Le R S) : ∀ x : Annot, x.Meets R → x.Meets S
  | .mk p v as, k => by
    rw [Annot.Meets] at k ⊢
    exact ⟨h.iri _ k.1, val_le h k.2.1, annots_le h as k.2.2.1, h.any _ k.2.2.2⟩

theorem annots_le (h : Le R S) : ∀ xs : List Annot, Annot.AllMeet R xs → Annot.AllMeet S xs
  | [], _ => by rw [Annot.AllMeet]; trivial
  | x :: xs, k => by rw [Annot.AllMeet] at k ⊢; exact ⟨annot_le h x k.1, annots_le h xs k.2⟩
end

theorem subOpe_le (h : Le R S) : ∀ {x : SubOpe}, x.Meets R → x.Meets S
  | .ope _, k => ⟨ope_le h k.1, h.sub _ k.2⟩
  | .chain _, k => ⟨h.two _ k.1, fun p hp => ope_le h (k.2 p hp)⟩

theorem ax_le (h : Le R S) : ∀ x : Ax, x.Meets R → x.Meets S
  | .decl _ i, k => h.iri _ k
  | .subClass c d, k => ⟨ce_le h c k.1, ce_le h d k.2⟩
  | .equivClasses cs, k => ⟨h.two _ k.1, ces_le h cs k.2⟩
  | .disjClasses cs, k => ⟨h.two _ k.1, ces_le h cs k.2⟩
  | .disjUnion c cs, k => ⟨h.iri _ k.1, h.two _ k.2.1, ces_le h cs k.2.2⟩
  | .subObjProp p q, k => ⟨subOpe_le h k.1, ope_le h k.2⟩
  | .equivObjProp ps, k => ⟨h.two _ k.1, fun p hp => ope_le h (k.2 p hp)⟩
  | .disjObjProp ps, k => ⟨h.two _ k.1, fun p hp => ope_le h (k.2 p hp)⟩
  | .invObjProp p q, k => ⟨ope_le h k.1, ope_le h k.2⟩
  | .objPropDomain p c, k => ⟨ope_le h k.1, ce_le h c k.2⟩
  | .objPropRange p c, k => ⟨ope_le h k.1, ce_le h c k.2⟩
  | .objPropChar _ p, k => ope_le h (x := p) k
  | .subDataProp p q, k => ⟨h.iri _ k.1, h.iri _ k.2⟩
  | .equivDataProp ps, k => ⟨h.two _ k.1, fun p hp => h.iri _ (k.2 p hp)⟩
  | .disjDataProp ps, k => ⟨h.two _ k.1, fun p hp => h.iri _ (k.2 p hp)⟩
  | .dataPropDomain p c, k => ⟨h.iri _ k.1, ce_le h c k.2⟩
  | .dataPropRange p d, k => ⟨h.iri _ k.1, dr_le h d k.2⟩
  | .funcDataProp p, k => h.iri _ k
  | .datatypeDef i d, k => ⟨h.iri _ k.1, dr_le h d k.2⟩
  | .hasKey c ps ds, k => ⟨ce_le h c k.1, fun p hp => ope_le h (k.2.1 p hp), fun d hd => h.iri _ (k.2.2.1 d hd),
      h.any _ k.2.2.2.1, h.any _ k.2.2.2.2⟩
  | .sameInd is, k => ⟨h.two _ k.1, fun p hp => ind_le h (k.2 p hp)⟩
  | .diffInd is, k => ⟨h.two _ k.1, fun p hp => ind_le h (k.2 p hp)⟩
  | .classAssert c i, k => ⟨ce_le h c k.1, ind_le h k.2⟩
  | .objPropAssert p i j, k => ⟨ope_le h k.1, ind_le h k.2.1, ind_le h k.2.2⟩
  | .negObjPropAssert p i j, k => ⟨ope_le h k.1, ind_le h k.2.1, ind_le h k.2.2⟩
  | .dataPropAssert p i l, k => ⟨h.iri _ k.1, ind_le h k.2.1, h.lit _ k.2.2⟩
  | .negDataPropAssert p i l, k => ⟨h.iri _ k.1, ind_le h k.2.1, h.lit _ k.2.2⟩
  | .annotAssert p s v, k => ⟨h.iri _ k.1, subj_le h k.2.1, val_le h k.2.2⟩
  | .subAnnotProp p q, k => ⟨h.iri _ k.1, h.iri _ k.2⟩
  | .annotPropDomain p i, k => ⟨h.iri _ k.1, h.iri _ k.2⟩
  | .annotPropRange p i, k => ⟨h.iri _ k.1, h.iri _ k.2⟩

theorem axiom_le (h : Le R S) {x : Axiom} (k : x.Meets R) : x.Meets S :=
  ⟨ax_le h _ k.1, annots_le h _ k.2.1, h.any _ k.2.2⟩

theorem iri_ok {i : Iri} (h : IriPortable i) (gp : Str → Option Str) : IriOk gp i :=
  ⟨h.split, fun _ => ⟨h.some, h.chars⟩, fun _ => h.dot⟩

theorem le_text (u : Ulib) (gp : Str → Option Str) : Le (portable u) (textReq gp) where
  iri i h := iri_ok h gp
  lit l h := by
    refine ⟨h.text, ?_⟩
    cases ht : l.tag with
    | lang t => exact ⟨(h.lang t ht).1, (h.lang t ht).2.2⟩
    | dt i =>
      obtain ⟨h1, h2, h3⟩ := h.dt i ht
      exact ⟨h1, h2, h3.imp id fun h => iri_ok h gp⟩
  anon _ h := h
  sub _ h := h
  two _ h := h.1
  one _ h := h.1
  any _ _ := trivial
  card _ _ := trivial

theorem le_prt (u : Ulib) : Le (portable u) (prtContents u) where
  iri _ _ := trivial
  lit l h := ⟨h.safe, h.short, fun s hs => (h.lang s hs).2.1⟩
  anon _ _ := trivial
  sub _ _ := trivial
  two _ h := h.2
  one _ h := h.2
  any _ h := h
  card _ h := h

/-! ## Prefixes -/

theorem overlay_calm : ∀ (f : Fwd) (a : Nat) {m : PMap} {x : PrefixSpec.Abs}, PrefixSpec.Reaches True m x → Distinct f →
    (∀ e ∈ f, ∀ n, x e.1.txt = some n → n = std e.1.txt e.2) →
    PrefixSpec.Reaches True (overlay a f m) (f.foldl (fun x e => x.add e.1.txt e.2 true) x)
  | [], _, _, _, h, _, _ => h
  | e :: f, a, m, x, h, hd, hc => by
    have hd' := List.pairwise_cons.1 hd
    refine overlay_calm f (a + 1) (.add ⟨a, e.1.txt⟩ e.2 true h fun _ _ n hn => hc e List.mem_cons_self n hn) hd'.2 ?_
    intro e' he' n hn
    have hne : e'.1.txt ≠ e.1.txt := fun k => hd'.1 e' he' k.symm
    simp only [PrefixSpec.Abs.add, hne, false_and, if_false] at hn
    exact hc e' (List.mem_cons_of_mem _ he') n hn

variable {names : List Id} {P : List (Str × Str)} {dflt : Fwd}

theorem initial_mem (hS : Setting names P dflt) {p n : Str} (h : initial dflt p = some n) : (p, n) ∈ P := by
  unfold initial at h
  split at h
  · rename_i hs
    cases h; exact hS.std p hs
  · obtain ⟨k, h1, rfl⟩ := meaning_some h
    exact hS.dflt _ h1

theorem std_mem (hS : Setting names P dflt) {p n : Str} (h : (p, n) ∈ P) : std p n = n := by
  by_cases hs : Standard p
  · rw [hS.one p n _ h (hS.std p hs)]
    exact std_standard (by simpa [standardPrefixes, Standard] using hs) _ _
  · exact std_other hs n

/-- The prefixes of what was read. -/
theorem pm_read (hS : Setting names P dflt) {ks : List Nat} (hk : ks.length = 4) {f : Fwd} (hd : Distinct f)
    (hf : ∀ e ∈ f, (e.1.txt, e.2) ∈ P) (n : Nat) :
    (∃ a, PrefixSpec.Reaches True (overlay n f (create ks dflt)) a) ∧
    ∀ p m, (overlay n f (create ks dflt)).getNs p = some m → (p, m) ∈ P := by
  have hr := overlay_calm f n (.create ks dflt hk hS.distinct) hd (by
    intro e he m hm
    rw [std_mem hS (hf e he)]
    exact hS.one _ _ _ (initial_mem hS hm) (hf e he))
  refine ⟨⟨_, hr⟩, fun p m hm => ?_⟩
  rw [C22_get_ns hr.weaken p, foldAdd_spec _ _ _ hd] at hm
  simp only [PrefixSpec.Abs.merge] at hm
  cases h : meaning f p with
  | none => rw [h] at hm; exact initial_mem hS hm
  | some k =>
    rw [h] at hm
    obtain ⟨q, h1, rfl⟩ := meaning_some h
    have := hf _ h1
    simp only [true_or, if_true, Option.some.injEq] at hm
    rw [std_mem hS this] at hm
    rw [← hm]; exact this

theorem nodup_length_le {α : Type} [DecidableEq α] : ∀ {l m : List α}, l.Nodup → (∀ x ∈ l, x ∈ m) → l.length ≤ m.length
  | [], _, _, _ => Nat.zero_le _
  | x :: l, m, hn, hs => by
    have hn' := List.nodup_cons.1 hn
    have hx := hs x List.mem_cons_self
    have := nodup_length_le (m := m.erase x) hn'.2 fun y hy =>
      (List.mem_erase_of_ne (fun e : y = x => hn'.1 (e ▸ hy))).2 (hs y (List.mem_cons_of_mem _ hy))
    rw [List.length_erase_of_mem hx] at this
    have := List.length_pos_of_mem hx
    simp only [List.length_cons]; omega

/-! ## Portable ontologies in both formats -/

variable {E : Env} {u : Ulib} {o o' : OntoSt}

theorem fwd_mem (h : Portable u names P o) {e : SRef × Str} (he : e ∈ o.pm.fwd) : (e.1.txt, e.2) ∈ P := by
  obtain ⟨a, ha⟩ := h.calm
  refine h.pm _ _ ?_
  rw [getNs_meaning]
  exact meaning_of_mem (inv_reaches ha).distinct he

theorem docOk (hS : Setting names P dflt) (h : Portable u names P o) : DocOk o where
  history := h.calm.imp fun _ h => h.weaken
  sound n p k := h.calm.elim fun _ c => sound_of_calm c n p k
  plain p n k := (hS.prefixes _ (h.pm p n k)).1
  chars p n k := (hS.prefixes _ (h.pm p n k)).2.1
  iri i k := iri_ok (h.iri i k).1 _
  version v k := ⟨(h.version v k).1, iri_ok (h.version v k).2.1 _⟩
  imports x k := by obtain ⟨i, h1, h2, -⟩ := h.imports x k; exact ⟨i, h1, iri_ok h2 _⟩
  annots x k := by obtain ⟨-, a, h1, h2⟩ := h.annots x k; exact ⟨a, h1, annot_le (le_text u _) _ h2⟩
  axioms x k := by obtain ⟨-, a, h1, h2⟩ := h.axioms x k; exact ⟨a, h1, axiom_le (le_text u _) h2⟩

theorem prtDocOk (hS : Setting names P dflt) (h : Portable u names P o) : PrtDocOk u names o where
  iri i k := (h.iri i k).2
  version v k := ⟨(h.version v k).1, (h.version v k).2.2⟩
  prims := h.prims
  imports x k := by obtain ⟨i, h1, -, h2⟩ := h.imports x k; exact ⟨i, h1, h2⟩
  annots x k := by obtain ⟨-, a, h1, h2⟩ := h.annots x k; exact ⟨a, h1, annot_le (le_prt u) _ h2⟩
  axioms x k := by obtain ⟨-, a, h1, h2⟩ := h.axioms x k; exact ⟨a, h1, axiom_le (le_prt u) h2⟩
  split := hS.split
  short := hS.short
  prefixes e k := (hS.prefixes _ (fwd_mem h k)).2.2
  few := by
    obtain ⟨a, ha⟩ := h.calm
    have hd := (inv_reaches ha).distinct
    have : (o.pm.fwd.map fun e => (e.1.txt, e.2)).length ≤ P.length := by
      refine nodup_length_le (List.pairwise_map.2 (hd.imp ?_)) ?_
      · intro x y hne he; exact hne (congrArg (·.1) he)
      · intro x hx
        obtain ⟨e, he, rfl⟩ := List.mem_map.1 hx
        exact fwd_mem h he
    rw [List.length_map] at this
    have := hS.few; omega
  few_imports := h.few_imports
  few_annots := h.few_annots

theorem compatible (hS : Setting names P dflt) (h : Portable u names P o) : Compatible o.pm dflt := by
  intro p n n' h1 h2
  obtain ⟨k, h3, rfl⟩ := meaning_some h2
  exact .inl (hS.one _ _ _ (h.pm _ _ h1) (hS.dflt _ h3))

/-- What is the same as a portable ontology is portable. -/
theorem portable_same (h : Portable u names P o) (hs : Same o o')
    (hr : ∃ s', OntoSpec.Reaches o'.onto s' ∧
      ∀ p, o'.onto.hasPrimitive p = true → OntoSpec.OrIri (OntoSpec.Mentioned s') p)
    (hp : (∃ a, PrefixSpec.Reaches True o'.pm a) ∧ ∀ p m, o'.pm.getNs p = some m → (p, m) ∈ P) :
    Portable u names P o' := by
  have himp : ∀ x ∈ o'.onto.imports.getD [], ∃ y ∈ o.onto.imports.getD [], y.obj = x.obj := fun x hx => by
    have := List.mem_map_of_mem (f := Ref.obj) hx
    rw [hs.imports] at this
    exact List.mem_map.1 this
  have hann : ∀ x ∈ o'.onto.annot.getD [], ∃ y ∈ o.onto.annot.getD [], y.obj = x.obj := fun x hx => by
    have := List.mem_map_of_mem (f := Ref.obj) hx
    rw [hs.annots] at this
    exact List.mem_map.1 this
  have hax : ∀ x ∈ axiomsOf o'.onto, ∃ y ∈ axiomsOf o.onto, y.obj = x.obj := fun x hx => by
    obtain ⟨t, ht, hx⟩ := List.mem_flatMap.1 hx
    have := List.mem_map_of_mem (f := Ref.obj) hx
    rw [hs.axioms] at this
    obtain ⟨y, hy, e⟩ := List.mem_map.1 this
    exact ⟨y, List.mem_flatMap.2 ⟨t, ht, hy⟩, e⟩
  obtain ⟨s', hr, hprim⟩ := hr
  have hi := reaches_inv hr
  have hment : ∀ p, OntoSpec.Mentioned s' p → idOf p ∈ names := by
    rintro p ⟨x, hx, ht⟩
    rcases hx with hx | hx
    · obtain ⟨y, hy, e⟩ := hax x ((axiomsOf_perm hi).mem_iff.2 hx)
      exact (h.axioms y hy).1 p (e ▸ ht)
    · rw [← hi.annot] at hx
      obtain ⟨y, hy, e⟩ := hann x hx
      exact (h.annots y hy).1 p (e ▸ ht)
  refine ⟨⟨s', hr⟩, hp.1, hp.2, fun p k => ?_, fun i k => h.iri i (hs.iri ▸ k), fun i k => ?_, fun x k => ?_, fun x k => ?_, fun x k => ?_, ?_, ?_⟩
  · have := hprim p k
    cases p with
    | ent t i =>
      rcases this with this | this
      · exact hment _ this
      · exact hment (.iri i) this
    | iri i => exact hment _ this
    | anon n => exact hment _ this
  · rw [hs.version] at k
    rw [hs.iri]; exact h.version i k
  · obtain ⟨y, hy, e⟩ := himp x k
    rw [← e]; exact h.imports y hy
  · obtain ⟨y, hy, e⟩ := hann x k
    rw [← e]; exact h.annots y hy
  · obtain ⟨y, hy, e⟩ := hax x k
    rw [← e]; exact h.axioms y hy
  · have := congrArg List.length hs.imports
    simp only [List.length_map] at this
    rw [this]; exact h.few_imports
  · have := congrArg List.length hs.annots
    simp only [List.length_map] at this
    rw [this]; exact h.few_annots

/-- One conversion. -/
theorem step_gives (hu : E.u.Lawful) (hS : Setting names P dflt) (h : Portable E.u names P o) :
    ∀ x : Step, x.Fine → ∃ o', x.Gives E dflt o o' ∧ Same o o' ∧ Portable E.u names P o'
  | .func ks ks' addr n, ⟨hk, hk'⟩ => by
    obtain ⟨s, hs⟩ := h.reaches
    have hi := reaches_inv hs
    obtain ⟨txt, o', n', h1, h2, ⟨ps, g1, g2⟩, h3, h4, h5, h6, h7, -, s', h8, -, h9⟩ :=
      func_back hs (docOk hS h) hk hk' hS.distinct (compatible hS h) addr n
    have hsame : Same o o' := ⟨h3, h4, by rw [h5, hi.imports], by rw [h6, hi.annot], h7⟩
    refine ⟨o', ⟨txt, n', h1, h2⟩, hsame, portable_same h hsame ⟨s', h8, h9⟩ ?_⟩
    rw [g2]
    obtain ⟨a, ha⟩ := h.calm
    exact pm_read hS hk' ((inv_reaches ha).distinct.sublist g1) (fun e he => fwd_mem h (g1.subset he)) n
  | .prt order ks n, ⟨hk, hord⟩ => by
    obtain ⟨s, hs⟩ := h.reaches
    have hi := reaches_inv hs
    obtain ⟨b, o', n', h1, h2, g2, h3, h4, h5, h6, h7, s', h8, -, h9⟩ :=
      readBack hu hs (prtDocOk hS h) hord ks dflt n
    have hsame : Same o o' := ⟨h3, h4, by rw [h5, hi.imports], by rw [h6, hi.annot], h7⟩
    refine ⟨o', ⟨b, n', h1, h2⟩, hsame, portable_same h hsame ⟨s', h8, h9⟩ ?_⟩
    rw [g2]
    obtain ⟨a, ha⟩ := h.calm
    have hsub := newPfxs_sublist (o.pm.fwd.map fun e => (e.1.txt, e.2)) (stdPrefixes.map (·.2))
    refine pm_read hS hk ?_ ?_ n
    · unfold Distinct asFwd
      rw [List.pairwise_map]
      refine List.Pairwise.sublist hsub ?_
      rw [List.pairwise_map]
      exact (inv_reaches ha).distinct
    · intro e he
      obtain ⟨p, hp, rfl⟩ := List.mem_map.1 he
      obtain ⟨e', he', rfl⟩ := List.mem_map.1 (hsub.subset hp)
      exact (fwd_mem h he' : (e'.1.txt, e'.2) ∈ P)

end Cowl.Convert
