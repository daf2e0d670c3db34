import Verif.FuncGramComplete
/-! # Lemmas: whole documents -/
namespace Cowl.Gram
open YOwn (NT Term rules)
open Func (Cat Arg Kw prod Tok Act symAct catAct iriAct run Out Why Phase argSyms)
open Prefix

variable {t : Tok} {u v ts : List Tok} {c : Cat} {h : Nat} {ph : Phase}

/-- Accepted, or not because of a name or a literal. -/
def Fine (o : Out) : Prop := o = .ok ∨ Soft o

/-- The rest of a document is accepted in a phase. -/
def Ends (ph : Phase) (u : List Tok) : Prop := ∀ m a res, Loose res → Fine (run ⟨m, a, res, ph⟩ u)

theorem Ends.calm (ht : Calm t) (h : ∀ m a, Fine (run ⟨m, a, [], ph⟩ (t :: u))) : Ends ph (t :: u) := by
  intro m a res hl
  have := loose_run hl ht m a ph [] u
  rw [List.append_nil] at this
  rw [this]
  exact h m a

theorem Ends.go {st : List FSym} {ph' : Phase} (ht : Calm t) (hs : ∀ m a, Func.phaseAct m a t ph = .go ⟨m, a, st, ph'⟩) (he : Eats st u)
    (h : Ends ph' v) : Ends ph (t :: (u ++ v)) := by
  refine .calm ht fun m a => ?_
  rw [Func.run_go (hs m a)]
  have := he m a ph' [] v [] loose_nil
  rw [List.nil_append, List.append_nil] at this
  rcases this with h1 | ⟨res, hl, e⟩
  · exact .inr h1
  · rw [e, List.append_nil]
    exact h m a res hl

theorem Ends.cat {ph' : Phase} (hu : EatsCat c u) (hs : ∀ m a t v, u = t :: v → Func.phaseAct m a t ph = (catAct m c t).apply m a [] ph')
    (h : Ends ph' v) : Ends ph (u ++ v) := by
  obtain ⟨t, w, rfl, ht⟩ := hu.head
  refine .calm ht.calm fun m a => ?_
  rw [Func.run_cat (hs m a t w rfl)]
  have := hu.eats m a ph' [] v [] loose_nil
  rw [List.nil_append, List.append_nil] at this
  rcases this with h1 | ⟨res, hl, e⟩
  · exact .inr h1
  · have e' : run ⟨m, a, [.cat c], ph'⟩ (t :: (w ++ v)) = _ := e
    show Fine (run ⟨m, a, [.cat c], ph'⟩ (t :: (w ++ v)))
    rw [e', List.append_nil]
    exact h m a res hl

/-- The phases of an ontology. -/
def Inside (ph : Phase) : Prop := ph = .id ∨ ph = .id2 ∨ ph = .header

theorem inside_header {m : PMap} {a : Nat} (hp : Inside ph) (hb : t.beginsIri = false) : Func.phaseAct m a t ph = Func.headerPhase m a t := by
  rcases hp with rfl | rfl | rfl
  · exact if_neg (by rw [hb]; nofun)
  · exact if_neg (by rw [hb]; nofun)
  · rfl

theorem inside_axioms {m : PMap} {a : Nat} (hp : Inside ph ∨ ph = .axioms) (hb : t.beginsIri = false) (h1 : t ≠ .kw .import_) (h2 : t ≠ .kw .annotation) :
    Func.phaseAct m a t ph = Func.axiomsPhase m a t := by
  rcases hp with hp | rfl
  · rw [inside_header hp hb, Func.headerPhase, if_neg h1, if_neg h2]
  · rfl

theorem ends_axioms : ∀ {us : List (List Tok)} {ph : Phase}, (Inside ph ∨ ph = .axioms) → (∀ w ∈ us, EatsCat .ax w) → Ends ph (us.flatten ++ [.rpar])
  | [], ph, hp, _ => by
    refine .calm calm_rpar fun m a => .inl ?_
    rw [Func.run_go (s' := ⟨m, a, [], .done⟩) (by rw [inside_axioms (t := .rpar) hp rfl (by nofun) (by nofun), Func.axiomsPhase, if_pos rfl]), run]
    rfl
  | w :: us, ph, hp, hu => by
    rw [List.flatten_cons, List.append_assoc]
    have hw := hu w (.head _)
    refine .cat hw (fun m a t v e => ?_) (ends_axioms (.inr rfl) fun w hw => hu w (.tail _ hw))
    obtain ⟨t', v', e', hh⟩ := hw.head
    rw [e] at e'
    injection e' with e1 e2
    subst e1
    rw [inside_axioms hp (hh.ax rfl).1 (hh.ax rfl).2 (fun e => by cases hh.annot.1 e), Func.axiomsPhase, if_neg hh.rpar]

/-- An import or an annotation. -/
inductive HeadWord : List Tok → Prop where
  | imp {t : Tok} : IsIri t → HeadWord [.kw .import_, .lpar, t, .rpar]
  | annot {u : List Tok} : EatsCat .annotation u → HeadWord u

theorem ends_header (hv : ∀ ph, Inside ph → Ends ph v) : ∀ {us : List (List Tok)} {ph : Phase}, Inside ph → (∀ w ∈ us, HeadWord w) → Ends ph (us.flatten ++ v)
  | [], ph, hp, _ => hv ph hp
  | w :: us, ph, hp, hu => by
    have ih := ends_header hv (us := us) (ph := .header) (.inr (.inr rfl)) fun w hw => hu w (.tail _ hw)
    rw [List.flatten_cons, List.append_assoc]
    cases hu w (.head _) with
    | imp hi =>
      exact Ends.go (st := [.lpar, .cat .iri, .rpar]) (ph' := .header) (calm_kw _) (fun m a => by rw [inside_header hp rfl, Func.headerPhase, if_pos rfl])
        (.lpar (.iri hi (fun _ => rfl) (.rpar .nil))) ih
    | annot hw =>
      refine .cat hw (fun m a t v e => ?_) ih
      obtain ⟨t', v', e', hh⟩ := hw.head
      rw [e] at e'
      injection e' with e1 e2
      subst e1
      obtain rfl := hh.annot.2 rfl
      rw [inside_header hp rfl]
      rfl

theorem ends_iri {ph' : Phase} (hi : IsIri t) (hp : ph = .id ∧ ph' = .id2 ∨ ph = .id2 ∧ ph' = .header) (h : Ends ph' v) : Ends ph (t :: v) := by
  refine .calm hi.calm fun m a => ?_
  have hb : t.beginsIri = true := by cases hi <;> rfl
  have e : Func.phaseAct m a t ph = (iriAct m t).apply m a [] ph' := by
    rcases hp with ⟨rfl, rfl⟩ | ⟨rfl, rfl⟩
    · exact if_pos hb
    · exact if_pos hb
  rcases hi.act m with e1 | ⟨w, hw, e1⟩
  · rw [Func.run_go (s' := ⟨m, a, [], ph'⟩) (by rw [e, e1]; rfl)]
    exact h m a [] loose_nil
  · exact .inr (.inr ⟨_, w, hw, Func.run_no (by rw [e, e1]; rfl)⟩)

theorem imp_inv (g : GenT h [.n .imp] u) : HeadWord u := by
  obtain ⟨h', e, g⟩ := GenT.only (rhs := [.t (.kw .import_), .t .lpar, .n .iri, .t .rpar]) (by decide +kernel) g
  obtain ⟨v, rfl, g1⟩ := kw_inv g
  obtain ⟨v, rfl, g2⟩ := lpar_inv g1
  obtain ⟨v, w, rfl, g3, g4⟩ := g2.of_n
  obtain ⟨t, rfl, hi⟩ := iri_inv (x := .iri) (by decide) g3
  obtain ⟨w, rfl, g5⟩ := rpar_inv g4
  rw [g5.nil_inv]
  exact .imp hi

theorem header_inv : ∀ {h : Nat} {u : List Tok}, GenT h [.n .importsAndAnnotations] u → ∃ us : List (List Tok), u = us.flatten ∧ ∀ w ∈ us, HeadWord w
  | 0, u, g => by obtain ⟨_, _, e, _⟩ := g.one_inv; omega
  | h + 1, u, g => by
    obtain ⟨h', e, g⟩ := GenT.three (r1 := []) (r2 := [.n .importsAndAnnotations, .n .imp]) (r3 := [.n .importsAndAnnotations, .n .annotation]) (by decide +kernel) g
    obtain rfl : h = h' := by omega
    have snoc : ∀ (us : List (List Tok)) (w : List Tok), (∀ w ∈ us, HeadWord w) → HeadWord w → ∃ us' : List (List Tok), us.flatten ++ w = us'.flatten ∧ ∀ w ∈ us', HeadWord w := by
      intro us w hu hw
      refine ⟨us ++ [w], by simp, fun x hx => ?_⟩
      rcases List.mem_append.1 hx with hx | hx
      · exact hu x hx
      · rw [List.mem_singleton.1 hx]; exact hw
    rcases g with g | g | g
    · rw [g.nil_inv]; exact ⟨[], rfl, by simp⟩
    · obtain ⟨v, w, rfl, g1, g2⟩ := g.of_n
      obtain ⟨us, rfl, hu⟩ := header_inv g1
      exact snoc us w hu (imp_inv g2)
    · obtain ⟨v, w, rfl, g1, g2⟩ := g.of_n
      obtain ⟨us, rfl, hu⟩ := header_inv g1
      exact snoc us w hu (.annot (follows h .annotation .annotation w (.head _) g2))

theorem ontology_ends (g : GenT h [.n .ontology] u) (m : PMap) (a : Nat) : Fine (run ⟨m, a, [], .prefixes⟩ u) := by
  obtain ⟨h', e, g⟩ := GenT.only (rhs := [.t (.kw .ontology), .t .lpar, .n .ontologyId, .n .importsAndAnnotations, .n .axs, .t .rpar]) (by decide +kernel) g
  obtain ⟨v, rfl, g1⟩ := kw_inv g
  obtain ⟨v, rfl, g2⟩ := lpar_inv g1
  obtain ⟨i, w, rfl, gi, g3⟩ := g2.of_n
  obtain ⟨us, w, rfl, gh, g4⟩ := g3.of_n
  obtain ⟨as, w, rfl, ga, g5⟩ := g4.of_n
  obtain ⟨w, rfl, g6⟩ := rpar_inv g5
  rw [g6.nil_inv]
  obtain ⟨us, rfl, hu⟩ := header_inv gh
  obtain ⟨as, rfl, _, ha⟩ := star_inv (y := .ax) (by decide +kernel) ga
  have hax : ∀ ph, Inside ph → Ends ph (as.flatten ++ [.rpar]) := fun ph hp => ends_axioms (.inl hp) fun w hw => follows h' .ax .ax w (.head _) (ha w hw)
  have hin : ∀ ph, Inside ph → Ends ph (us.flatten ++ (as.flatten ++ [.rpar])) := fun ph hp => ends_header hax hp hu
  have hid : Ends .id (i ++ (us.flatten ++ (as.flatten ++ [.rpar]))) := by
    obtain ⟨h'', e, gi⟩ := GenT.three (r1 := []) (r2 := [.n .iri]) (r3 := [.n .iri, .n .iri]) (by decide +kernel) gi
    rcases gi with gi | gi | gi
    · rw [gi.nil_inv]; exact hin .id (.inl rfl)
    · obtain ⟨t, rfl, hi⟩ := iri_inv (x := .iri) (by decide) gi
      exact ends_iri hi (.inl ⟨rfl, rfl⟩) (hin .id2 (.inr (.inl rfl)))
    · obtain ⟨i1, i2, rfl, k1, k2⟩ := gi.of_n
      obtain ⟨t, rfl, hi⟩ := iri_inv (x := .iri) (by decide) k1
      obtain ⟨t', rfl, hi'⟩ := iri_inv (x := .iri) (by decide) k2
      exact ends_iri hi (.inl ⟨rfl, rfl⟩) (ends_iri hi' (.inr ⟨rfl, rfl⟩) (hin .header (.inr (.inr rfl))))
  rw [Func.run_go (s' := ⟨m, a, [.lpar], .id⟩) rfl, Func.run_shift (l := []) rfl]
  exact hid m a [] loose_nil

theorem prefixes_go : ∀ {h : Nat} {u : List Tok}, GenT h [.n .prefixDeclarations] u → ∀ (m : PMap) (a : Nat) (ts : List Tok),
    ∃ m' a', run ⟨m, a, [], .prefixes⟩ (u ++ ts) = run ⟨m', a', [], .prefixes⟩ ts
  | 0, u, g => by obtain ⟨_, _, e, _⟩ := g.one_inv; omega
  | h + 1, u, g => by
    obtain ⟨h', e, g⟩ := GenT.two (r1 := []) (r2 := [.n .prefixDeclarations, .n .prefixDeclaration]) (by decide +kernel) g
    obtain rfl : h = h' := by omega
    intro m a ts
    rcases g with g | g
    · rw [g.nil_inv]; exact ⟨m, a, rfl⟩
    · obtain ⟨v, w, rfl, g1, g2⟩ := g.of_n
      rw [List.append_assoc]
      obtain ⟨m', a', e⟩ := prefixes_go g1 m a (w ++ ts)
      rw [e]
      obtain ⟨h', e, g⟩ := GenT.only (rhs := [.t (.kw .prefix_), .t .lpar, .n .prefix_, .t .equals, .n .ns, .t .rpar]) (by decide +kernel) g2
      obtain ⟨w, rfl, g3⟩ := kw_inv g
      obtain ⟨w, rfl, g4⟩ := lpar_inv g3
      obtain ⟨p, w, rfl, gp, g5⟩ := g4.of_n
      obtain ⟨_, _, gp⟩ := GenT.only (rhs := [.t .pnameNs]) (by decide +kernel) gp
      obtain ⟨tp, p, rfl, hp, gp⟩ := gp.t_inv
      rw [gp.nil_inv]
      obtain ⟨te, w, rfl, he, g6⟩ := g5.t_inv
      obtain ⟨n, w, rfl, gn, g7⟩ := g6.of_n
      obtain ⟨_, _, gn⟩ := GenT.only (rhs := [.t .iriRef]) (by decide +kernel) gn
      obtain ⟨tn, n, rfl, hn, gn⟩ := gn.t_inv
      rw [gn.nil_inv]
      obtain ⟨w, rfl, g8⟩ := rpar_inv g7
      rw [g8.nil_inv]
      cases tp <;> cases hp
      cases te <;> cases he
      cases tn <;> cases hn
      exact ⟨_, _, rfl⟩

/-- Sentences are accepted. -/
theorem sentence_fine (m : PMap) (a : Nat) (hs : Sentence (u.map termOf)) : Fine (run (Func.St.init m a) u) := by
  obtain ⟨h, g⟩ := Gen.height hs
  obtain ⟨h', e, g⟩ := GenT.only (rhs := [.n .prefixDeclarations, .n .ontology]) (by decide +kernel) (show GenT h [.n .ontologyDocument] u from g)
  obtain ⟨v, w, rfl, g1, g2⟩ := g.of_n
  obtain ⟨m', a', e⟩ := prefixes_go g1 m a w
  show Fine (run ⟨m, a, [], .prefixes⟩ (v ++ w))
  rw [e]
  exact ontology_ends g2 m' a'

end Cowl.Gram
