import Verif.FuncGramEats
/-! # Lemmas: the automaton accepts the sentences of the grammar -/
namespace Cowl.Gram
open YOwn (NT Term rules)
open Func (Cat Arg Kw prod Tok Act symAct catAct iriAct run Out Why Phase argSyms)
open Prefix

variable {t : Tok} {u v ts : List Tok} {st : List FSym} {s : FSym} {c : Cat} {h : Nat} {x : NT}

/-! ## Constructs -/

/-- The nonterminals that unit rules lead to from some, without names. -/
def close : Nat → List NT → List NT
  | 0, l => l
  | n + 1, l => close n (l ++ (rules.filterMap fun r => match r.rhs with
    | [.n y] => if l.contains r.lhs && !(l.contains y) && !(iriLike.contains y) then some y else none
    | _ => none))

/-- The nonterminals of a category of constructs. -/
def exps (c : Cat) : List NT := close 3 (catNTs c)

/-- Categories of constructs. -/
def expCats : List Cat := [.ope, .dr, .ce, .annotation, .ax]

/-- Those that names belong to. -/
def named : Cat → Bool
  | .ope | .dr | .ce => true
  | _ => false

/-- A right-hand side of a category of constructs. -/
def expRhs (c : Cat) (l : List NT) : List GSym → Bool
  | [.n y] => l.contains y || (named c && iriLike.contains y)
  | .t (.kw k) :: .t .lpar :: l => (prod k).any fun pr => pr.cat == c && ((argAlts pr.args).map (prodTail pr.annotated)).contains l
  | _ => false

theorem exps_rules : (expCats.all fun c => let l := exps c; (catNTs c).all l.contains && rules.all fun r => !(l.contains r.lhs) || expRhs c l r.rhs) = true := by
  decide +kernel

theorem prod_fine : (Kw.all.all fun k => (prod k).all fun pr => argsFine pr.args && ((pr.cat == .annotation) == (k == .annotation)) && k != .import_) = true := by
  decide +kernel

theorem kw_fine {k : Kw} {pr : Func.Prod} (hp : prod k = some pr) : argsFine pr.args = true ∧ (pr.cat = .annotation ↔ k = .annotation) ∧ k ≠ .import_ := by
  have := List.all_eq_true.1 prod_fine k (Func.Kw.mem_all k)
  rw [hp] at this
  simp only [Option.all_some, Bool.and_eq_true, beq_iff_eq, bne_iff_ne] at this
  refine ⟨this.1.1, ?_, this.2⟩
  have := this.1.2
  rw [Bool.eq_iff_iff, beq_iff_eq, beq_iff_eq] at this
  exact this

theorem annots_inv (hb : Below h) (g : GenT h [.n .annotationStar] u) : ∃ us : List (List Tok), u = us.flatten ∧ ∀ w ∈ us, EatsCat .annotation w := by
  obtain ⟨us, e, _, hu⟩ := star_inv (y := .annotation) (by decide +kernel) g
  exact ⟨us, e, fun w hw => hb .annotation .annotation w (.head _) (hu w hw)⟩

/-- What follows the keyword of a construct. -/
theorem eats_tail (hb : Below h) {k : Kw} {pr : Func.Prod} (hp : prod k = some pr) {l : List GSym} (hl : l ∈ (argAlts pr.args).map (prodTail pr.annotated))
    (g : GenT h l u) : Eats ((if pr.annotated then [.annots] else []) ++ argSyms pr.args) u := by
  obtain ⟨l', hl', rfl⟩ := List.mem_map.1 hl
  unfold prodTail at g
  have hf := (kw_fine hp).1
  have ho := Func.prod_lastOnly hp
  cases ha : pr.annotated with
  | false =>
    rw [ha] at g
    exact (eats_args hb ho hf hl' g).1
  | true =>
    rw [ha] at g
    obtain ⟨v, w, rfl, g1, g2⟩ := GenT.of_n (α := l' ++ [.t .rpar]) g
    obtain ⟨us, rfl, hu⟩ := annots_inv hb g1
    obtain ⟨e, t, w', hw, ht, ha⟩ := eats_args hb ho hf hl' g2
    exact eats_annots hw ht ha e hu

/-- The words of constructs: names, or keywords and arguments. -/
theorem exp_inv (hc : c ∈ expCats) : ∀ {h : Nat} {x : NT} {u : List Tok}, x ∈ exps c → GenT h [.n x] u →
    (named c = true ∧ ∃ t, u = [t] ∧ IsIri t) ∨
    ∃ h' k pr l v, h' < h ∧ prod k = some pr ∧ pr.cat = c ∧ l ∈ (argAlts pr.args).map (prodTail pr.annotated) ∧ u = .kw k :: .lpar :: v ∧ GenT h' l v
  | 0, x, u, _, g => by obtain ⟨_, _, e, _⟩ := g.one_inv; omega
  | h + 1, x, u, hx, g => by
    obtain ⟨h', r, e1, e2, e3, g⟩ := g.one_inv
    obtain rfl : h = h' := by omega
    have ht := List.all_eq_true.1 exps_rules c hc
    dsimp only at ht
    rw [Bool.and_eq_true] at ht
    have ht := List.all_eq_true.1 ht.2 r e2
    rw [e3, List.contains_iff_mem.2 hx, Bool.not_true, Bool.false_or] at ht
    unfold expRhs at ht
    split at ht
    · rename_i y hy
      rw [hy] at g
      rw [Bool.or_eq_true, Bool.and_eq_true] at ht
      rcases ht with ht | ht
      · rcases exp_inv hc (List.contains_iff_mem.1 ht) g with h1 | ⟨h', k, pr, l, v, hl, rest⟩
        · exact .inl h1
        · exact .inr ⟨h', k, pr, l, v, by omega, rest⟩
      · exact .inl ⟨ht.1, iri_inv (List.contains_iff_mem.1 ht.2) g⟩
    · rename_i k l hy
      rw [hy] at g
      cases hp : prod k with
      | none => rw [hp] at ht; cases ht
      | some pr =>
        rw [hp] at ht
        simp only [Option.any_some, Bool.and_eq_true, beq_iff_eq] at ht
        obtain ⟨v, rfl, g1⟩ := kw_inv g
        obtain ⟨v, rfl, g2⟩ := lpar_inv g1
        exact .inr ⟨h, k, pr, l, v, by omega, hp, ht.1, List.contains_iff_mem.1 ht.2, rfl, g2⟩
    · cases ht

theorem head_iri (hi : IsIri t) (h1 : c ≠ .annotation) (h2 : c ≠ .ax) : Head c t := by
  refine ⟨hi.calm, ?_, ⟨fun e => ?_, fun e => absurd e h1⟩, fun e => absurd e h2⟩
  · rintro rfl; cases hi
  · subst e; cases hi

theorem eatsCat_iri (hi : IsIri t) (h1 : c ≠ .annotation) (h2 : c ≠ .ax) (hs : ∀ m, catAct m c t = iriAct m t) : EatsCat c [t] :=
  ⟨.iri hi hs .nil, t, [], rfl, head_iri hi h1 h2⟩

theorem eats_kw {k : Kw} {pr : Func.Prod} (hp : prod k = some pr) (hs : ∀ m, symAct m s (.kw k) = Func.kwAct pr.cat k)
    (h : Eats ((if pr.annotated then [.annots] else []) ++ argSyms pr.args) u) : Eats [s] (.kw k :: .lpar :: u) := by
  refine .step (l := .lpar :: ((if pr.annotated then [.annots] else []) ++ argSyms pr.args)) (calm_kw k) (fun m => ?_) ?_
  · rw [hs, Func.kwAct, hp]
    exact if_pos rfl
  · rw [List.append_nil]
    exact .lpar h

theorem head_kw {k : Kw} {pr : Func.Prod} (hp : prod k = some pr) : Head pr.cat (.kw k) := by
  obtain ⟨-, h1, h2⟩ := kw_fine hp
  refine ⟨calm_kw k, nofun, ⟨fun e => h1.2 ?_, fun e => by rw [h1.1 e]⟩, fun _ => ⟨rfl, ?_⟩⟩
  · injection e
  · intro e; injection e with e; exact h2 e

/-- Constructs are followed, with any symbol that stands for them. -/
theorem eats_exp (hb : ∀ h', h' < h → Below h') (hc : c ∈ expCats) (hx : x ∈ exps c) (g : GenT h [.n x] u)
    (hn : named c = true → ∀ m t, IsIri t → symAct m s t = iriAct m t)
    (hk : ∀ m k pr, prod k = some pr → pr.cat = c → symAct m s (.kw k) = Func.kwAct c k) :
    Eats [s] u ∧ ∃ t v, u = t :: v ∧ Head c t := by
  rcases exp_inv hc hx g with ⟨h1, t, rfl, hi⟩ | ⟨h', k, pr, l, v, hl, hp, rfl, hm, rfl, g'⟩
  · refine ⟨.iri hi (fun m => hn h1 m t hi) .nil, t, [], rfl, head_iri hi ?_ ?_⟩
    · rintro rfl; cases h1
    · rintro rfl; cases h1
  · exact ⟨eats_kw hp (fun m => hk m k pr hp rfl) (eats_tail (hb h' hl) hp hm g'), _, _, rfl, head_kw hp⟩

theorem exps_self (hc : c ∈ expCats) (hx : x ∈ catNTs c) : x ∈ exps c := by
  have ht := List.all_eq_true.1 exps_rules c hc
  dsimp only at ht
  rw [Bool.and_eq_true] at ht
  exact List.contains_iff_mem.1 (List.all_eq_true.1 ht.1 x hx)

theorem eatsCat_exp (hb : ∀ h', h' < h → Below h') (hc : c ∈ expCats) (hx : x ∈ catNTs c) (g : GenT h [.n x] u) : EatsCat c u := by
  obtain ⟨e, hh⟩ := eats_exp (s := .cat c) hb hc (exps_self hc hx) g
    (fun hn m t hi => by cases hi <;> (cases c <;> first | rfl | cases hn))
    (fun m k pr hp hk => by
      have : c = .ope ∨ c = .dr ∨ c = .ce ∨ c = .annotation ∨ c = .ax := by simpa [expCats] using hc
      rcases this with rfl | rfl | rfl | rfl | rfl <;> rfl)
  exact ⟨e, hh⟩

/-! ## The other categories -/

theorem blank_inv (g : GenT h [.n .anonymousIndividual] u) : ∃ b, u = [.blank b] := by
  obtain ⟨h', e, g1⟩ := GenT.only (rhs := [.t .blank]) (by decide +kernel) g
  obtain ⟨t, v, rfl, ht, g2⟩ := g1.t_inv
  rw [g2.nil_inv]
  cases t <;> cases ht
  exact ⟨_, rfl⟩

theorem qstr_inv (g : GenT h [.n .quotedString] u) : ∃ b, u = [.qstr b] := by
  obtain ⟨h', e, g1⟩ := GenT.only (rhs := [.t .qstr]) (by decide +kernel) g
  obtain ⟨t, v, rfl, ht, g2⟩ := g1.t_inv
  rw [g2.nil_inv]
  cases t <;> cases ht
  exact ⟨_, rfl⟩

theorem lit_inv (g : GenT h [.n .literal] u) : LitWord u := by
  obtain ⟨h', e, g1⟩ := GenT.three (r1 := [.n .quotedString, .t .dcaret, .n .datatype]) (r2 := [.n .quotedString, .n .langTag]) (r3 := [.n .quotedString])
    (by decide +kernel) g
  rcases g1 with g1 | g1 | g1
  · obtain ⟨v, w, rfl, g1, g2⟩ := g1.of_n
    obtain ⟨b, rfl⟩ := qstr_inv g1
    obtain ⟨t, w, rfl, ht, g3⟩ := g2.t_inv
    obtain ⟨i, rfl, hi⟩ := iri_inv (x := .datatype) (by decide) g3
    cases t <;> cases ht
    exact .typed b hi
  · obtain ⟨v, w, rfl, g1, g2⟩ := g1.of_n
    obtain ⟨b, rfl⟩ := qstr_inv g1
    obtain ⟨h'', e', g3⟩ := GenT.only (rhs := [.t .lang]) (by decide +kernel) g2
    obtain ⟨t, w, rfl, ht, g4⟩ := g3.t_inv
    rw [g4.nil_inv]
    cases t <;> cases ht
    exact .lang b _
  · obtain ⟨b, rfl⟩ := qstr_inv g1
    exact .plain b

theorem head_blank (b : Str) (h1 : c ≠ .annotation) (h2 : c ≠ .ax) : Head c (.blank b) :=
  ⟨⟨nofun, nofun⟩, nofun, ⟨nofun, fun e => absurd e h1⟩, fun e => absurd e h2⟩

theorem eatsCat_blank (b : Str) (h1 : c ≠ .annotation) (h2 : c ≠ .ax) (hs : ∀ m, catAct m c (.blank b) = .shift []) : EatsCat c [.blank b] :=
  ⟨.step (l := []) ⟨nofun, nofun⟩ hs .nil, _, _, rfl, head_blank b h1 h2⟩

theorem head_lit (hu : LitWord u) (h1 : c ≠ .annotation) (h2 : c ≠ .ax) : ∃ t v, u = t :: v ∧ Head c t := by
  have : ∀ v, Head c (.qstr v) := fun v => ⟨calm_qstr v, nofun, ⟨nofun, fun e => absurd e h1⟩, fun e => absurd e h2⟩
  cases hu <;> exact ⟨_, _, rfl, this _⟩

theorem eatsCat_lit (hu : LitWord u) (h1 : c ≠ .annotation) (h2 : c ≠ .ax) (hs : ∀ m v, catAct m c (.qstr v) = .shift [.litTail v]) : EatsCat c u :=
  ⟨.lit hu hs, head_lit hu h1 h2⟩

theorem entity_rules : (rules.all fun r => !(r.lhs == .entity) || match r.rhs with
    | [.t (.kw k), .t .lpar, .n y, .t .rpar] => (Func.entKw k).isSome && iriLike.contains y && k != .annotation
    | _ => false) = true := by decide +kernel

theorem eatsCat_entity (g : GenT h [.n .entity] u) : EatsCat .entity u := by
  obtain ⟨h', r, e1, e2, e3, g⟩ := g.one_inv
  have ht := List.all_eq_true.1 entity_rules r e2
  rw [e3] at ht
  simp only [BEq.rfl, Bool.not_true, Bool.false_or] at ht
  split at ht
  · rename_i k y hy
    rw [hy] at g
    simp only [Bool.and_eq_true, bne_iff_ne] at ht
    obtain ⟨v, rfl, g1⟩ := kw_inv g
    obtain ⟨v, rfl, g2⟩ := lpar_inv g1
    obtain ⟨v, w, rfl, g3, g4⟩ := g2.of_n
    obtain ⟨t, rfl, hi⟩ := iri_inv (List.contains_iff_mem.1 ht.1.2) g3
    obtain ⟨w, rfl, g5⟩ := rpar_inv g4
    rw [g5.nil_inv]
    refine ⟨.step (l := [.lpar, .cat .iri, .rpar]) (calm_kw k) (fun m => if_pos ht.1.1) (.lpar (.iri hi (fun _ => rfl) (.rpar .nil))), _, _, rfl, ?_⟩
    exact ⟨calm_kw k, nofun, ⟨fun e => absurd (by injection e) ht.2, nofun⟩, nofun⟩
  · cases ht

theorem eatsCat_chain (hb : ∀ h', h' < h → Below h') (g : GenT h [.n .propertyExpressionChain] u) : EatsCat .subOpe u := by
  obtain ⟨h', rfl, g⟩ := GenT.only (rhs := [.t (.kw .objectPropertyChain), .t .lpar, .n .objectPropertyExpression2List, .t .rpar]) (by decide +kernel) g
  obtain ⟨v, rfl, g1⟩ := kw_inv ‹GenT h' _ _›
  obtain ⟨v, rfl, g2⟩ := lpar_inv g1
  obtain ⟨v, w, rfl, g3, g4⟩ := g2.of_n
  obtain ⟨w, rfl, g5⟩ := rpar_inv g4
  rw [g5.nil_inv]
  obtain ⟨us, rfl, hk, hu⟩ := listSym_inv (c := .ope) (k := 2) (hb h' (by omega)) rfl g3
  refine ⟨.step (l := [.lpar, .many .ope 2]) (calm_kw _) (fun m => rfl) (.lpar (eats_many hk hu .nil)), _, _, rfl, ?_⟩
  exact ⟨calm_kw _, nofun, ⟨nofun, nofun⟩, nofun⟩

theorem eatsCat_sub (hb : ∀ h', h' < h → Below h') (g : GenT h [.n .objectPropertyExpression] u) : EatsCat .subOpe u := by
  obtain ⟨e, t, v, hu, hh⟩ := eats_exp (c := .ope) (s := .cat .subOpe) hb (by decide) (exps_self (by decide) (.head _)) g
    (fun hn m t hi => by cases hi <;> rfl)
    (fun m k pr hp hk => by
      cases k <;> first | rfl | cases hp)
  exact ⟨e, t, v, hu, hh.calm, hh.rpar, ⟨fun e => (by cases hh.annot.1 e), nofun⟩, nofun⟩

/-- Every word of a category is followed. -/
theorem follows : ∀ h, Below h := by
  intro h
  induction h using Nat.strongRecOn with
  | ind h hb =>
    intro c x u hx g
    have one : ∀ {y : NT}, catNTs c = [y] → GenT h [.n y] u := fun e => by
      rw [e, List.mem_singleton] at hx
      rw [← hx]; exact g
    cases c with
    | iri =>
      obtain ⟨t, rfl, hi⟩ := iri_inv (by decide) (one rfl)
      exact eatsCat_iri hi nofun nofun fun _ => rfl
    | ent k =>
      have : x ∈ iriLike := by cases k <;> (obtain rfl := List.mem_singleton.1 hx; decide)
      obtain ⟨t, rfl, hi⟩ := iri_inv this g
      exact eatsCat_iri hi nofun nofun fun _ => rfl
    | ind =>
      obtain ⟨h', e, g1⟩ := GenT.two (r1 := [.n .namedIndividual]) (r2 := [.n .anonymousIndividual]) (by decide +kernel) (one rfl)
      rcases g1 with g1 | g1
      · obtain ⟨t, rfl, hi⟩ := iri_inv (by decide) g1
        exact eatsCat_iri hi nofun nofun fun _ => by cases hi <;> rfl
      · obtain ⟨b, rfl⟩ := blank_inv g1
        exact eatsCat_blank b nofun nofun fun _ => rfl
    | lit => exact eatsCat_lit (lit_inv (one rfl)) nofun nofun fun _ _ => rfl
    | ope => exact eatsCat_exp hb (by decide) hx g
    | dr => exact eatsCat_exp hb (by decide) hx g
    | ce => exact eatsCat_exp hb (by decide) hx g
    | annotation => exact eatsCat_exp hb (by decide) hx g
    | ax => exact eatsCat_exp hb (by decide) hx g
    | facet =>
      obtain ⟨h', e, g1⟩ := GenT.only (rhs := [.n .iri, .n .literal]) (by decide +kernel) (one rfl)
      obtain ⟨v, w, rfl, g2, g3⟩ := g1.of_n
      obtain ⟨t, rfl, hi⟩ := iri_inv (by decide) g2
      refine ⟨.name (l := [.cat .lit]) hi (fun _ => rfl) ?_, _, _, rfl, head_iri hi nofun nofun⟩
      exact (eatsCat_lit (c := .lit) (lit_inv g3) nofun nofun fun _ _ => rfl).eats
    | annotVal =>
      obtain ⟨h', e, g1⟩ := GenT.three (r1 := [.n .anonymousIndividual]) (r2 := [.n .iri]) (r3 := [.n .literal]) (by decide +kernel) (one rfl)
      rcases g1 with g1 | g1 | g1
      · obtain ⟨b, rfl⟩ := blank_inv g1
        exact eatsCat_blank b nofun nofun fun _ => rfl
      · obtain ⟨t, rfl, hi⟩ := iri_inv (by decide) g1
        exact eatsCat_iri hi nofun nofun fun _ => by cases hi <;> rfl
      · exact eatsCat_lit (lit_inv g1) nofun nofun fun _ _ => rfl
    | annotSubj =>
      obtain ⟨h', e, g1⟩ := GenT.two (r1 := [.n .iri]) (r2 := [.n .anonymousIndividual]) (by decide +kernel) (one rfl)
      rcases g1 with g1 | g1
      · obtain ⟨t, rfl, hi⟩ := iri_inv (by decide) g1
        exact eatsCat_iri hi nofun nofun fun _ => by cases hi <;> rfl
      · obtain ⟨b, rfl⟩ := blank_inv g1
        exact eatsCat_blank b nofun nofun fun _ => rfl
    | entity => exact eatsCat_entity (one rfl)
    | subOpe =>
      rcases List.mem_cons.1 hx with rfl | hx
      · exact eatsCat_sub hb g
      · obtain rfl := List.mem_singleton.1 hx
        exact eatsCat_chain hb g

end Cowl.Gram
