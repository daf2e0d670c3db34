import Verif.FuncGramInv
import Verif.FuncFaultAt
/-! # Lemmas: the automaton follows the words of the grammar -/
namespace Cowl.Gram
open YOwn (NT Term rules)
open Func (Cat Arg Kw prod Tok Act symAct catAct iriAct run Out Why Phase argSyms)
open Prefix

abbrev FSym := Func.Sym

/-- Rejected for a name, or undefined because of a literal. -/
def Soft (o : Out) : Prop := o = .ub ∨ ∃ rest w, w ≠ .syntax ∧ o = .bad rest w

/-- Nothing must follow. -/
def Loose (l : List FSym) : Prop := l = [] ∨ ∃ v, l = [.litTail v]

/-- Tokens that do not belong to a string. -/
def Calm (t : Tok) : Prop := t ≠ .dcaret ∧ ∀ l, t ≠ .lang l

theorem calm_qstr (v : Str) : Calm (.qstr v) := ⟨nofun, nofun⟩

variable {t : Tok} {u v ts : List Tok} {st : List FSym} {s : FSym} {c : Cat}

theorem loose_nil : Loose [] := .inl rfl

theorem loose_run {res : List FSym} (hl : Loose res) (ht : Calm t) (m : PMap) (a : Nat) (ph : Phase) (st : List FSym) (ts : List Tok) :
    run ⟨m, a, res ++ st, ph⟩ (t :: ts) = run ⟨m, a, st, ph⟩ (t :: ts) := by
  rcases hl with rfl | ⟨v, rfl⟩
  · rfl
  · refine Func.run_skip ?_
    cases t with
    | dcaret => exact absurd rfl ht.1
    | lang l => exact absurd rfl (ht.2 l)
    | _ => rfl

/-- The automaton follows a word. -/
def Eats (st : List FSym) (u : List Tok) : Prop := ∀ (m : PMap) (a : Nat) (ph : Phase) (st' : List FSym) (ts : List Tok) (res : List FSym), Loose res →
  Soft (run ⟨m, a, res ++ (st ++ st'), ph⟩ (u ++ ts)) ∨
  ∃ res', Loose res' ∧ run ⟨m, a, res ++ (st ++ st'), ph⟩ (u ++ ts) = run ⟨m, a, res' ++ st', ph⟩ ts

theorem Eats.nil : Eats [] [] := fun _ _ _ _ _ res hl => .inr ⟨res, hl, rfl⟩

theorem Eats.append {st1 st2 : List FSym} (h1 : Eats st1 u) (h2 : Eats st2 v) : Eats (st1 ++ st2) (u ++ v) := by
  intro m a ph st' ts res hl
  rw [List.append_assoc, List.append_assoc]
  rcases h1 m a ph (st2 ++ st') (v ++ ts) res hl with h | ⟨r1, hl1, e⟩
  · exact .inl h
  · rw [e]
    exact h2 m a ph st' ts r1 hl1

theorem Eats.step {l : List FSym} (ht : Calm t) (hs : ∀ m, symAct m s t = .shift l) (h : Eats (l ++ st) u) : Eats (s :: st) (t :: u) := by
  intro m a ph st' ts res hl
  rw [List.cons_append, List.cons_append, loose_run hl ht, Func.run_shift (hs m), ← List.append_assoc]
  exact h m a ph st' ts [] loose_nil

theorem IsIri.calm (h : IsIri t) : Calm t := by cases h <;> exact ⟨nofun, nofun⟩

theorem IsIri.act (h : IsIri t) (m : PMap) : iriAct m t = .shift [] ∨ ∃ w, w ≠ .syntax ∧ iriAct m t = .bad w := by
  cases h with
  | full s =>
    rw [iriAct]
    split
    · exact .inl rfl
    · exact .inr ⟨.noIri, by nofun, rfl⟩
  | short s =>
    rw [iriAct]
    split
    · exact .inl rfl
    · exact .inr ⟨.unresolved s, by nofun, rfl⟩

theorem Eats.name {l : List FSym} (hi : IsIri t) (hs : ∀ m, symAct m s t = (iriAct m t).andThen l) (h : Eats (l ++ st) u) : Eats (s :: st) (t :: u) := by
  intro m a ph st' ts res hl
  rw [List.cons_append, List.cons_append, loose_run hl hi.calm]
  rcases hi.act m with e | ⟨w, hw, e⟩
  · rw [Func.run_shift (l := l) (by rw [hs, e]; rfl), ← List.append_assoc]
    exact h m a ph st' ts [] loose_nil
  · exact .inl (.inr ⟨_, w, hw, Func.run_bad (by rw [hs, e]; rfl)⟩)

theorem Eats.iri (hi : IsIri t) (hs : ∀ m, symAct m s t = iriAct m t) (h : Eats st u) : Eats (s :: st) (t :: u) := by
  refine Eats.name (l := []) hi (fun m => ?_) h
  rw [hs m]
  rcases hi.act m with e | ⟨w, hw, e⟩ <;> rw [e] <;> rfl

theorem run_unfold {m : PMap} {l' : List FSym} (hs : symAct m s t = (catAct m c t).andThen l') (a : Nat) (ph : Phase) (st : List FSym) (ts : List Tok) :
    run ⟨m, a, s :: st, ph⟩ (t :: ts) = run ⟨m, a, .cat c :: (l' ++ st), ph⟩ (t :: ts) := by
  rcases Func.catAct_cases m c t with ⟨k, hk⟩ | ⟨w, hw⟩
  · rw [Func.run_shift (l := k ++ l') (by rw [hs, hk]; rfl), Func.run_shift (show symAct m (.cat c) t = _ from hk), List.append_assoc]
  · rw [Func.run_bad (w := w) (by rw [hs, hw]; rfl), Func.run_bad (show symAct m (.cat c) t = _ from hw)]

theorem Eats.unfold {l' : List FSym} (ht : Calm t) (hs : ∀ m, symAct m s t = (catAct m c t).andThen l')
    (h : Eats (.cat c :: (l' ++ st)) (t :: u)) : Eats (s :: st) (t :: u) := by
  intro m a ph st' ts res hl
  have h := h m a ph st' ts [] loose_nil
  rw [List.nil_append, List.cons_append, List.cons_append, List.append_assoc] at h
  rw [List.cons_append, List.cons_append, loose_run hl ht, run_unfold (hs m)]
  exact h

/-! ## Literals -/

/-- The words of literals. -/
inductive LitWord : List Tok → Prop where
  | plain (v : Str) : LitWord [.qstr v]
  | lang (v l : Str) : LitWord [.qstr v, .lang l]
  | typed (v : Str) {t : Tok} : IsIri t → LitWord [.qstr v, .dcaret, t]

theorem Eats.lit (hu : LitWord u) (hs : ∀ m v, symAct m s (.qstr v) = .shift [.litTail v]) : Eats [s] u := by
  intro m a ph st' ts res hl
  cases hu with
  | plain v =>
    rw [List.cons_append, List.cons_append, loose_run hl (calm_qstr v), Func.run_shift (hs m v)]
    exact .inr ⟨[.litTail v], .inr ⟨v, rfl⟩, rfl⟩
  | lang v l =>
    rw [List.cons_append, List.cons_append, loose_run hl (calm_qstr v), Func.run_shift (hs m v)]
    obtain ⟨x, y, e⟩ := Func.literal_lang v l
    refine .inr ⟨[], loose_nil, ?_⟩
    rw [List.cons_append, List.cons_append, Func.run_shift (l := []) (by rw [symAct, e])]
    rfl
  | typed v hi =>
    rename_i t
    rw [List.cons_append, List.cons_append, loose_run hl (calm_qstr v), Func.run_shift (hs m v)]
    rw [List.cons_append, List.cons_append, Func.run_shift (l := [.dtIri v]) rfl, List.cons_append, List.cons_append]
    cases hr : Func.readIri m t with
    | none =>
      obtain ⟨w, hw⟩ := Func.iriAct_none hr
      have ew : w ≠ .syntax := by
        rcases hi.act m with e | ⟨w', h', e⟩
        · rw [e] at hw; cases hw
        · rw [e] at hw; cases hw; exact h'
      exact .inl (.inr ⟨_, w, ew, Func.run_bad (by rw [symAct, hr]; exact hw)⟩)
    | some i =>
      cases hx : literal v (.dt i) with
      | ub => exact .inl (.inl (Func.run_ub (by rw [symAct, hr]; show (match literal v (.dt i) with | .ub => Act.ub | .lit _ _ => .shift []) = _; rw [hx])))
      | lit x y =>
        refine .inr ⟨[], loose_nil, ?_⟩
        rw [Func.run_shift (l := []) (by rw [symAct, hr]; show (match literal v (.dt i) with | .ub => Act.ub | .lit _ _ => .shift []) = _; rw [hx])]
        rfl

/-! ## Categories -/

/-- The first token of a word. -/
structure Head (c : Cat) (t : Tok) : Prop where
  calm : Calm t
  rpar : t ≠ .rpar
  annot : t = .kw .annotation ↔ c = .annotation
  ax : c = .ax → t.beginsIri = false ∧ t ≠ .kw .import_

/-- The automaton follows a word of a category. -/
structure EatsCat (c : Cat) (u : List Tok) : Prop where
  eats : Eats [.cat c] u
  head : ∃ t v, u = t :: v ∧ Head c t

theorem calm_rpar : Calm .rpar := ⟨nofun, nofun⟩
theorem calm_lpar : Calm .lpar := ⟨nofun, nofun⟩
theorem calm_kw (k : Kw) : Calm (.kw k) := ⟨nofun, nofun⟩

theorem Eats.rpar (h : Eats st u) : Eats (.rpar :: st) (.rpar :: u) := .step (l := []) calm_rpar (fun _ => rfl) h
theorem Eats.lpar (h : Eats st u) : Eats (.lpar :: st) (.lpar :: u) := .step (l := []) calm_lpar (fun _ => rfl) h

theorem eats_many : ∀ {us : List (List Tok)} {k : Nat}, k ≤ us.length → (∀ w ∈ us, EatsCat c w) → Eats st v →
    Eats (.many c k :: st) (us.flatten ++ .rpar :: v)
  | [], k, hk, _, h => by
    refine .step (l := []) calm_rpar (fun _ => ?_) h
    obtain rfl : k = 0 := by simpa using hk
    rfl
  | w :: us, k, hk, hu, h => by
    obtain ⟨t, w', rfl, ht⟩ := (hu _ (.head _)).head
    have ih := eats_many (us := us) (k := k - 1) (by simp at hk; omega) (fun w hw => hu w (.tail _ hw)) h
    have := (hu _ (.head _)).eats.append ih
    rw [List.flatten_cons, List.append_assoc]
    exact .unfold (l' := [.many c (k - 1)]) ht.calm (fun m => by rw [symAct, if_neg ht.rpar]) this

theorem eats_opt (hu : EatsCat c u) : Eats [.opt c] (u ++ [.rpar]) := by
  obtain ⟨t, w', rfl, ht⟩ := hu.head
  have := hu.eats.append (Eats.rpar Eats.nil)
  exact .unfold (l' := [.rpar]) (c := c) ht.calm (fun m => by rw [symAct, if_neg ht.rpar]) this

theorem eats_annots (hv : v = t :: u) (ht : Calm t) (ha : t ≠ .kw .annotation) (h : Eats st v) : ∀ {us : List (List Tok)}, (∀ w ∈ us, EatsCat .annotation w) →
    Eats (.annots :: st) (us.flatten ++ v)
  | [], _ => by
    intro m a ph st' ts res hl
    subst hv
    show Soft (run ⟨m, a, res ++ (.annots :: (st ++ st')), ph⟩ (t :: (u ++ ts))) ∨ ∃ res', Loose res' ∧ run ⟨m, a, res ++ (.annots :: (st ++ st')), ph⟩ (t :: (u ++ ts)) = _
    rw [loose_run hl ht, Func.run_skip (by rw [symAct, if_neg ha])]
    exact h m a ph st' ts [] loose_nil
  | w :: us, hu => by
    obtain ⟨t, w', rfl, ht⟩ := (hu _ (.head _)).head
    have ih := eats_annots hv ‹_› ha h (us := us) (fun w hw => hu w (.tail _ hw))
    have := (hu _ (.head _)).eats.append ih
    rw [List.flatten_cons, List.append_assoc]
    exact .unfold (l' := [.annots]) ht.calm (fun m => by rw [symAct, if_pos (ht.annot.2 rfl)]) this

/-! ## Arguments -/

/-- No annotation is an argument, and the lists are in the grammar. -/
def argsFine : List Arg → Bool
  | [] => true
  | .one c :: as => c != .annotation && argsFine as
  | .many c k :: as => c != .annotation && (listNT c k).isSome && argsFine as
  | .opt c :: as => c != .annotation && argsFine as
  | .group c :: as => (listNT c 0).isSome && argsFine as
  | .card :: as => argsFine as

/-- Words of height less than `h` are followed. -/
def Below (h : Nat) : Prop := ∀ c x u, x ∈ catNTs c → GenT h [.n x] u → EatsCat c u

theorem card_inv {h : Nat} (g : GenT h [.n .cardinality] u) : ∃ n, u = [.nat n] := by
  obtain ⟨h', rfl, g1⟩ := GenT.only (rhs := [.t .nat]) (by decide +kernel) g
  obtain ⟨t, v, rfl, ht, g2⟩ := g1.t_inv
  rw [g2.nil_inv]
  cases t <;> cases ht
  exact ⟨_, rfl⟩

theorem rpar_inv {h : Nat} {α : List GSym} (g : GenT h (.t .rpar :: α) u) : ∃ v, u = .rpar :: v ∧ GenT h α v := by
  obtain ⟨t, v, rfl, ht, g1⟩ := g.t_inv
  cases t <;> cases ht
  exact ⟨_, rfl, g1⟩

theorem lpar_inv {h : Nat} {α : List GSym} (g : GenT h (.t .lpar :: α) u) : ∃ v, u = .lpar :: v ∧ GenT h α v := by
  obtain ⟨t, v, rfl, ht, g1⟩ := g.t_inv
  cases t <;> cases ht
  exact ⟨_, rfl, g1⟩

theorem kw_inv {h : Nat} {k : Kw} {α : List GSym} (g : GenT h (.t (.kw k) :: α) u) : ∃ v, u = .kw k :: v ∧ GenT h α v := by
  obtain ⟨t, v, rfl, ht, g1⟩ := g.t_inv
  cases t <;> cases ht
  exact ⟨_, rfl, g1⟩

theorem listSym_inv {h : Nat} (hb : Below h) {k : Nat} (hk : (listNT c k).isSome = true) (g : GenT h (listSym c k) u) :
    ∃ us : List (List Tok), u = us.flatten ∧ k ≤ us.length ∧ ∀ v ∈ us, EatsCat c v := by
  obtain ⟨x, hx⟩ := Option.isSome_iff_exists.1 hk
  unfold listSym at g
  rw [hx] at g
  obtain ⟨us, e, hl, hu⟩ := list_inv hx g
  refine ⟨us, e, hl, fun v hv => ?_⟩
  obtain ⟨y, hy, g⟩ := hu v hv
  exact hb c y v hy g

/-- The first token of arguments. -/
def First (u : List Tok) : Prop := ∃ t v, u = t :: v ∧ Calm t ∧ t ≠ .kw .annotation

theorem EatsCat.first (h : EatsCat c u) (hc : c ≠ .annotation) (v : List Tok) : First (u ++ v) := by
  obtain ⟨t, w, rfl, ht⟩ := h.head
  exact ⟨t, w ++ v, rfl, ht.calm, fun e => hc (ht.annot.1 e)⟩

theorem first_rpar (v : List Tok) : First (.rpar :: v) := ⟨_, _, rfl, calm_rpar, nofun⟩

theorem eats_args {h : Nat} (hb : Below h) : ∀ {as : List Arg} {l : List GSym} {u : List Tok}, Func.lastOnly as = true → argsFine as = true →
    l ∈ argAlts as → GenT h (l ++ [.t .rpar]) u → Eats (argSyms as) u ∧ First u
  | [], l, u, _, _, hl, g => by
    rw [argAlts, List.mem_singleton] at hl
    subst hl
    obtain ⟨v, rfl, g1⟩ := rpar_inv (show GenT h (.t .rpar :: []) u from g)
    rw [g1.nil_inv]
    exact ⟨.rpar .nil, first_rpar _⟩
  | .one c :: as, l, u, ho, hf, hl, g => by
    rw [argAlts] at hl
    obtain ⟨x, hx, hl⟩ := List.mem_flatMap.1 hl
    obtain ⟨l, hl', rfl⟩ := List.mem_map.1 hl
    rw [argsFine, Bool.and_eq_true, bne_iff_ne] at hf
    obtain ⟨v, w, rfl, g1, g2⟩ := GenT.of_n (α := l ++ [.t .rpar]) g
    have e1 := hb c x v hx g1
    have e2 := eats_args hb (as := as) ho hf.2 hl' g2
    exact ⟨e1.eats.append e2.1, e1.first hf.1 _⟩
  | .many c k :: as, l, u, ho, hf, hl, g => by
    have ho : as = [] := by simpa [Func.lastOnly] using ho
    subst ho
    rw [argAlts] at hl
    obtain ⟨l, hl', rfl⟩ := List.mem_map.1 hl
    rw [argAlts, List.mem_singleton] at hl'
    subst hl'
    rw [argsFine, Bool.and_eq_true, Bool.and_eq_true, bne_iff_ne] at hf
    rw [List.append_nil] at g
    obtain ⟨v, w, rfl, g1, g2⟩ := append_inv g
    obtain ⟨w, rfl, g3⟩ := rpar_inv g2
    rw [g3.nil_inv]
    obtain ⟨us, rfl, hk, hu⟩ := listSym_inv hb hf.1.2 g1
    refine ⟨eats_many hk hu .nil, ?_⟩
    cases us with
    | nil => exact first_rpar _
    | cons w us =>
      rw [List.flatten_cons, List.append_assoc]
      exact (hu w (.head _)).first hf.1.1 _
  | .opt c :: as, l, u, ho, hf, hl, g => by
    have ho : as = [] := by simpa [Func.lastOnly] using ho
    subst ho
    rw [argsFine, Bool.and_eq_true, bne_iff_ne] at hf
    rw [argAlts] at hl
    rcases List.mem_append.1 hl with hl | hl
    · rw [argAlts, List.mem_singleton] at hl
      subst hl
      obtain ⟨v, rfl, g1⟩ := rpar_inv (show GenT h (.t .rpar :: []) u from g)
      rw [g1.nil_inv]
      exact ⟨.step (l := []) calm_rpar (fun _ => rfl) .nil, first_rpar _⟩
    · obtain ⟨x, hx, hl⟩ := List.mem_flatMap.1 hl
      obtain ⟨l, hl', rfl⟩ := List.mem_map.1 hl
      rw [argAlts, List.mem_singleton] at hl'
      subst hl'
      obtain ⟨v, w, rfl, g1, g2⟩ := GenT.of_n (α := [.t .rpar]) g
      obtain ⟨w, rfl, g3⟩ := rpar_inv g2
      rw [g3.nil_inv]
      have e1 := hb c x v hx g1
      exact ⟨eats_opt e1, e1.first hf.1 _⟩
  | .group c :: as, l, u, ho, hf, hl, g => by
    rw [argAlts] at hl
    obtain ⟨l, hl', rfl⟩ := List.mem_map.1 hl
    rw [argsFine, Bool.and_eq_true] at hf
    rw [List.cons_append] at g
    obtain ⟨u, rfl, g0⟩ := lpar_inv g
    rw [List.append_assoc] at g0
    obtain ⟨v, w, rfl, g1, g3⟩ := append_inv g0
    obtain ⟨w, rfl, g2⟩ := rpar_inv (α := l ++ [.t .rpar]) g3
    obtain ⟨us, rfl, hk, hu⟩ := listSym_inv hb hf.1 g1
    have e2 := eats_args hb (as := as) ho hf.2 hl' g2
    exact ⟨.lpar (eats_many hk hu e2.1), _, _, rfl, calm_lpar, nofun⟩
  | .card :: as, l, u, ho, hf, hl, g => by
    rw [argAlts] at hl
    obtain ⟨l, hl', rfl⟩ := List.mem_map.1 hl
    obtain ⟨v, w, rfl, g1, g2⟩ := GenT.of_n (α := l ++ [.t .rpar]) g
    obtain ⟨n, rfl⟩ := card_inv g1
    have e2 := eats_args hb (as := as) ho hf hl' g2
    exact ⟨.step (l := []) ⟨nofun, nofun⟩ (fun _ => rfl) e2.1, _, _, rfl, ⟨nofun, nofun⟩, nofun⟩

end Cowl.Gram
