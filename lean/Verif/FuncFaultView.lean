import Verif.FuncFaultDoc
/-! # Lemmas: the token that is rejected is the first one that cannot follow -/
namespace Cowl.Func
open Prefix

/-! ## Steps -/

/-- The state after some tokens, all of them accepted. -/
def steps : St → List Tok → Option St
  | s, [] => some s
  | s, t :: ts =>
    match feed s.m s.addr s.phase t s.stack with
    | .go s' => steps s' ts
    | _ => none

theorem run_steps : ∀ {q : List Tok} {s s' : St} (ts : List Tok), steps s q = some s' → run s (q ++ ts) = run s' ts
  | [], s, s', ts, h => by obtain rfl := Option.some.inj h; rfl
  | t :: q, s, s', ts, h => by
    rw [List.cons_append, run]
    rw [steps] at h
    cases hf : feed s.m s.addr s.phase t s.stack with
    | go s1 => rw [hf] at h; exact run_steps ts h
    | bad w => rw [hf] at h; cases h
    | ub => rw [hf] at h; cases h

theorem run_bad_split : ∀ {ts : List Tok} {s : St} {rest : List Tok} {w : Why}, run s ts = .bad rest w →
    ∃ q s', ts = q ++ rest ∧ steps s q = some s' ∧ run s' rest = .bad rest w
  | [], s, rest, w, h => by
    have h0 := h
    rw [run] at h
    split at h
    · cases h
    · cases h; exact ⟨[], s, rfl, rfl, h0⟩
  | t :: ts, s, rest, w, h => by
    have h0 := h
    rw [run] at h
    cases hf : feed s.m s.addr s.phase t s.stack with
    | go s1 =>
      rw [hf] at h
      obtain ⟨q, s', e1, e2, e3⟩ := run_bad_split h
      refine ⟨t :: q, s', by rw [e1]; rfl, ?_, e3⟩
      rw [steps, hf]
      exact e2
    | bad w' =>
      rw [hf] at h
      cases h
      exact ⟨[], s, rfl, rfl, h0⟩
    | ub => rw [hf] at h; cases h

/-- A token that is rejected is rejected whatever comes after it. -/
theorem run_bad_more {s : St} {t : Tok} {r : List Tok} {w : Why} (h : run s (t :: r) = .bad (t :: r) w) (r' : List Tok) :
    run s (t :: r') = .bad (t :: r') w := by
  rw [run] at h ⊢
  cases hf : feed s.m s.addr s.phase t s.stack with
  | go s1 =>
    rw [hf] at h
    obtain ⟨q, s', e, -⟩ := run_bad_split h
    have := congrArg List.length e
    simp at this
    omega
  | bad w' => rw [hf] at h; cases h; rfl
  | ub => rw [hf] at h; cases h

/-! ## What is expected can come -/

/-- What is expected at some time: annotations and axioms are only expected where a list of them
is. -/
def Sym.fine : Sym → Bool
  | .cat .annotation | .cat .ax | .many .annotation _ | .many .ax _ | .opt .annotation | .opt .ax => false
  | _ => true

/-- States that are reached. -/
structure Good (s : St) : Prop where
  fine : ∀ x ∈ s.stack, x.fine = true
  done : s.phase = .done → s.stack = []

/-- Some IRI. -/
def someIri : Tok := .iriRef [97]

/-- Tokens of a nonterminal. -/
def catEnd : Cat → List Tok
  | .lit => [.qstr []]
  | .facet => [someIri, .qstr []]
  | .entity => [.kw .class_, .lpar, someIri, .rpar]
  | _ => [someIri]

/-- Tokens that meet what is expected. -/
def Sym.meet : Sym → List Tok
  | .lpar => [.lpar]
  | .rpar => [.rpar]
  | .equals => [.equals]
  | .card => [.nat 0]
  | .cat c => catEnd c
  | .many c k => (List.replicate k (catEnd c)).flatten ++ [.rpar]
  | .opt _ => [.rpar]
  | .annots => []
  | .litTail _ => []
  | .dtIri _ => [someIri]
  | .prefix_ => [.pnameNs [], .equals, .iriRef [97], .rpar]
  | .ns _ => [.iriRef [97], .rpar]
  | .declEnd _ _ => [.rpar]

/-- Tokens that end a document. -/
def Phase.meet : Phase → List Tok
  | .prefixes => [.kw .ontology, .lpar, .rpar]
  | .done => []
  | _ => [.rpar]

/-- Tokens that end a document from a state on. -/
def St.meet (s : St) : List Tok := (s.stack.map Sym.meet).flatten ++ s.phase.meet

/-- A token that does not belong to what may be missing. -/
def Tok.plain : Tok → Bool
  | .kw .annotation | .dcaret | .lang _ => false
  | _ => true

/-- Tokens that begin in this way. -/
def Starts (ts : List Tok) : Prop := ∃ t us, ts = t :: us ∧ t.plain = true

theorem Starts.cons {t : Tok} {us : List Tok} (h : t.plain = true) : Starts (t :: us) := ⟨t, us, rfl, h⟩

theorem iriAct_some_iri (m : PMap) : iriAct m someIri = .shift [] := rfl

variable {m : PMap} {a : Nat} {ph : Phase} {st : List Sym} {c : List Tok}

theorem run_litTail {v : Str} (hc : Starts c) : run ⟨m, a, .litTail v :: st, ph⟩ c = run ⟨m, a, st, ph⟩ c := by
  obtain ⟨t, us, rfl, ht⟩ := hc
  refine run_skip ?_
  cases t <;> first | rfl | cases ht

theorem run_annots (hc : Starts c) : run ⟨m, a, .annots :: st, ph⟩ c = run ⟨m, a, st, ph⟩ c := by
  obtain ⟨t, us, rfl, ht⟩ := hc
  refine run_skip ?_
  show (if t = .kw .annotation then _ else Act.skip) = .skip
  rw [if_neg]
  rintro rfl
  cases ht

theorem run_catEnd {k : Cat} (hk : (Sym.cat k).fine = true) (hc : Starts c) : run ⟨m, a, .cat k :: st, ph⟩ (catEnd k ++ c) = run ⟨m, a, st, ph⟩ c := by
  have hi : ∀ s, symAct m s someIri = iriAct m someIri → run ⟨m, a, s :: st, ph⟩ ([someIri] ++ c) = run ⟨m, a, st, ph⟩ c := fun s hs => by
    rw [List.singleton_append, run_shift (hs.trans (iriAct_some_iri m))]
    rfl
  cases k with
  | iri | ent _ | ind | ope | dr | ce | annotVal | annotSubj => exact hi _ rfl
  | subOpe => exact hi _ rfl
  | lit =>
    show run _ (.qstr [] :: c) = _
    rw [run_shift (s := .cat .lit) (l := [.litTail []]) rfl]
    exact run_litTail hc
  | facet =>
    show run _ (someIri :: .qstr [] :: c) = _
    rw [run_shift (s := .cat .facet) (l := [.cat .lit]) rfl, List.singleton_append, run_shift (s := .cat .lit) (l := [.litTail []]) rfl]
    exact run_litTail hc
  | entity => rfl
  | annotation => cases hk
  | ax => cases hk

theorem catEnd_plain {k : Cat} (c : List Tok) : Starts (catEnd k ++ c) := by
  cases k <;> exact .cons rfl

theorem many_plain (k : Cat) (n : Nat) (c : List Tok) : Starts ((List.replicate n (catEnd k)).flatten ++ .rpar :: c) := by
  cases n with
  | zero => exact .cons rfl
  | succ n =>
    rw [List.replicate_succ, List.flatten_cons, List.append_assoc]
    exact catEnd_plain _

theorem catEnd_head (k : Cat) : ∃ t us, catEnd k = t :: us ∧ t ≠ .rpar := by
  cases k <;> exact ⟨_, _, rfl, by nofun⟩

theorem run_many {k : Cat} (hk : (Sym.cat k).fine = true) : ∀ (n : Nat),
    run ⟨m, a, .many k n :: st, ph⟩ ((List.replicate n (catEnd k)).flatten ++ .rpar :: c) = run ⟨m, a, st, ph⟩ c
  | 0 => by
    show run _ (.rpar :: c) = _
    rw [run_shift (s := .many k 0) (l := []) rfl]
    rfl
  | n + 1 => by
    rw [List.replicate_succ, List.flatten_cons, List.append_assoc]
    have hr := run_catEnd (m := m) (a := a) (st := .many k n :: st) (ph := ph) hk (many_plain k n c)
    have hr' := hr.trans (run_many hk n)
    generalize (List.replicate n (catEnd k)).flatten ++ .rpar :: c = rest at hr'
    obtain ⟨t, us, e, ht⟩ := catEnd_head k
    rw [e] at hr' ⊢
    have hs : symAct m (.many k (n + 1)) t = (catAct m k t).andThen [.many k n] := by
      show (if t = .rpar then _ else _) = _
      rw [if_neg ht]
      rfl
    refine Eq.trans ?_ hr'
    rcases catAct_cases m k t with ⟨l, hl⟩ | ⟨w, hw⟩
    · rw [hl] at hs
      rw [List.cons_append, run_shift hs, run_shift (s := .cat k) hl, List.append_assoc]
      rfl
    · rw [hw] at hs
      rw [List.cons_append, run_bad hs, run_bad (s := .cat k) hw]


theorem run_meet {s : Sym} (hs : s.fine = true) (hc : Starts c) : ∃ m' a', run ⟨m, a, s :: st, ph⟩ (s.meet ++ c) = run ⟨m', a', st, ph⟩ c := by
  cases s with
  | lpar | rpar | equals | card => exact ⟨m, a, rfl⟩
  | cat k => exact ⟨m, a, run_catEnd hs hc⟩
  | many k n =>
    refine ⟨m, a, ?_⟩
    show run _ (((List.replicate n (catEnd k)).flatten ++ [.rpar]) ++ c) = _
    rw [List.append_assoc]
    exact run_many (by cases k <;> first | rfl | cases hs) n
  | opt k => exact ⟨m, a, rfl⟩
  | annots => exact ⟨m, a, run_annots hc⟩
  | litTail v => exact ⟨m, a, run_litTail hc⟩
  | dtIri v =>
    refine ⟨m, a, ?_⟩
    show run _ (someIri :: c) = _
    rw [run_shift (s := .dtIri v) (l := [])]
    · rfl
    · have hi : readIri m someIri = some ⟨[], [97]⟩ := rfl
      have hl : literal v (.dt ⟨[], [97]⟩) = .lit v (.dt ⟨[], [97]⟩) := by rw [literal, if_neg (by decide)]
      show (match readIri m someIri with | some i => _ | none => iriAct m someIri) = _
      rw [hi]
      show (match literal v (.dt ⟨[], [97]⟩) with | .ub => Act.ub | .lit _ _ => .shift []) = _
      rw [hl]
  | prefix_ => exact ⟨_, _, rfl⟩
  | ns p => exact ⟨_, _, rfl⟩
  | declEnd p n => exact ⟨_, _, rfl⟩

theorem meet_starts {s : Sym} (hc : Starts c) : Starts (s.meet ++ c) := by
  cases s with
  | cat k => exact catEnd_plain _
  | many k n =>
    show Starts (((List.replicate n (catEnd k)).flatten ++ [.rpar]) ++ c)
    rw [List.append_assoc]
    exact many_plain ..
  | annots | litTail _ => exact hc
  | _ => exact .cons rfl

theorem meets_starts (hc : Starts c) : ∀ st : List Sym, Starts ((st.map Sym.meet).flatten ++ c)
  | [] => hc
  | s :: st => by
    rw [List.map_cons, List.flatten_cons, List.append_assoc]
    exact meet_starts (meets_starts hc st)

theorem run_meets (hc : Starts c) : ∀ (st : List Sym) (m : PMap) (a : Nat), (∀ x ∈ st, x.fine = true) →
    ∃ m' a', run ⟨m, a, st, ph⟩ ((st.map Sym.meet).flatten ++ c) = run ⟨m', a', [], ph⟩ c
  | [], m, a, _ => ⟨m, a, rfl⟩
  | s :: st, m, a, h => by
    rw [List.map_cons, List.flatten_cons, List.append_assoc]
    obtain ⟨m1, a1, e1⟩ := run_meet (m := m) (a := a) (st := st) (ph := ph) (h s List.mem_cons_self) (meets_starts hc st)
    obtain ⟨m2, a2, e2⟩ := run_meets hc st m1 a1 fun x hx => h x (List.mem_cons_of_mem _ hx)
    exact ⟨m2, a2, e1.trans e2⟩

/-- From every state that is reached, a document can be ended. -/
theorem run_end {s : St} (h : Good s) : run s s.meet = .ok := by
  obtain ⟨m, a, st, ph⟩ := s
  by_cases hd : ph = .done
  · subst hd
    obtain rfl : st = [] := h.done rfl
    rfl
  · have hc : Starts ph.meet := by cases ph <;> first | exact absurd rfl hd | exact .cons rfl
    obtain ⟨m', a', e⟩ := run_meets (ph := ph) hc st m a h.fine
    refine e.trans ?_
    cases ph <;> first | exact absurd rfl hd | rfl

/-! ## Every state is such -/

theorem argSyms_fine {k : Kw} {pr : Prod} (h : prod k = some pr) :
    ∀ x ∈ Sym.lpar :: ((if pr.annotated then [Sym.annots] else []) ++ argSyms pr.args), x.fine = true := by
  have : ∀ k, ((prod k).all fun pr => (Sym.lpar :: ((if pr.annotated then [Sym.annots] else []) ++ argSyms pr.args)).all Sym.fine) = true := by
    intro k; cases k <;> rfl
  have := this k
  rw [h] at this
  exact List.all_eq_true.1 this

theorem kwAct_fine {k : Cat} {w : Kw} {l : List Sym} (h : kwAct k w = .shift l) : ∀ x ∈ l, x.fine = true := by
  unfold kwAct at h
  split at h
  · rename_i pr hp
    split at h
    · cases h; exact argSyms_fine hp
    · cases h
  · cases h

theorem iriAct_fine {t : Tok} {l : List Sym} (h : iriAct m t = .shift l) : l = [] := by
  rcases iriAct_cases m t with e | ⟨w, e⟩
  · rw [e] at h; cases h; rfl
  · rw [e] at h; cases h

theorem expAct_fine {k : Cat} {t : Tok} {l : List Sym} (h : expAct m k t = .shift l) : ∀ x ∈ l, x.fine = true := by
  have hi : iriAct m t = .shift l → ∀ x ∈ l, x.fine = true := fun h => by rw [iriAct_fine h]; nofun
  cases t with
  | kw w => exact kwAct_fine h
  | _ => exact hi h

theorem catAct_fine {k : Cat} {t : Tok} {l : List Sym} (h : catAct m k t = .shift l) : ∀ x ∈ l, x.fine = true := by
  have hi : iriAct m t = .shift l → ∀ x ∈ l, x.fine = true := fun h => by rw [iriAct_fine h]; nofun
  have nil : Act.shift [] = .shift l → ∀ x ∈ l, x.fine = true := fun h => by cases h; nofun
  have lit : ∀ v, Act.shift [.litTail v] = .shift l → ∀ x ∈ l, x.fine = true := fun v h => by cases h; intro x hx; simp at hx; subst hx; rfl
  cases k with
  | iri | ent _ => exact hi h
  | ind => cases t <;> first | exact nil h | exact hi h
  | lit => cases t <;> first | exact lit _ h | cases h
  | ope => exact expAct_fine h
  | dr => exact expAct_fine h
  | ce => exact expAct_fine h
  | facet =>
    have h : (iriAct m t).andThen [.cat .lit] = .shift l := h
    rcases iriAct_cases m t with e | ⟨w, e⟩
    · rw [e] at h; cases h; intro x hx; simp at hx; subst hx; rfl
    · rw [e] at h; cases h
  | annotVal => cases t <;> first | exact nil h | exact lit _ h | exact hi h
  | annotSubj => cases t <;> first | exact nil h | exact hi h
  | entity =>
    cases t with
    | kw w =>
      rw [catAct] at h
      split at h
      · cases h; intro x hx; simp at hx; rcases hx with rfl | rfl | rfl <;> rfl
      · cases h
    | _ => cases h
  | subOpe =>
    by_cases ht : t = .kw .objectPropertyChain
    · subst ht
      cases h
      intro x hx; simp at hx; rcases hx with rfl | rfl <;> rfl
    · have : catAct m .subOpe t = expAct m .ope t := by rw [catAct]; intro e; exact ht e
      rw [this] at h
      exact expAct_fine h
  | annotation =>
    cases t with
    | kw w => exact kwAct_fine h
    | _ => cases h
  | ax =>
    cases t with
    | kw w => exact kwAct_fine h
    | _ => cases h

theorem andThen_fine {k : Cat} {t : Tok} {l l' : List Sym} (h : (catAct m k t).andThen l' = .shift l) (hl : ∀ x ∈ l', x.fine = true) :
    ∀ x ∈ l, x.fine = true := by
  rcases catAct_cases m k t with ⟨j, e⟩ | ⟨w, e⟩
  · rw [e] at h
    cases h
    intro x hx
    rcases List.mem_append.1 hx with hx | hx
    · exact catAct_fine e x hx
    · exact hl x hx
  · rw [e] at h; cases h

theorem symAct_fine {s : Sym} {t : Tok} {l : List Sym} (hs : s.fine = true) (h : symAct m s t = .shift l) : ∀ x ∈ l, x.fine = true := by
  have nil : Act.shift [] = .shift l → ∀ x ∈ l, x.fine = true := fun h => by cases h; nofun
  have one : ∀ y : Sym, y.fine = true → Act.shift [y] = .shift l → ∀ x ∈ l, x.fine = true := fun y hy h => by
    cases h; intro x hx; simp at hx; subst hx; exact hy
  cases s with
  | lpar | rpar | equals =>
    rw [symAct] at h
    split at h
    · exact nil h
    · cases h
  | card => cases t <;> first | exact nil h | cases h
  | cat k => exact catAct_fine h
  | many k n =>
    rw [symAct] at h
    split at h
    · split at h
      · exact nil h
      · cases h
    · refine andThen_fine h fun x hx => ?_
      simp at hx
      subst hx
      cases k <;> first | rfl | cases hs
  | opt k =>
    rw [symAct] at h
    split at h
    · exact nil h
    · exact andThen_fine h fun x hx => by simp at hx; subst hx; rfl
  | annots =>
    rw [symAct] at h
    split at h
    · exact andThen_fine h fun x hx => by simp at hx; subst hx; rfl
    · cases h
  | litTail v =>
    cases t with
    | dcaret => exact one _ rfl h
    | lang j =>
      rw [symAct] at h
      split at h
      · cases h
      · exact nil h
    | _ => cases h
  | dtIri v =>
    rw [symAct] at h
    split at h
    · split at h
      · cases h
      · exact nil h
    · rw [iriAct_fine h]; nofun
  | prefix_ =>
    cases t <;> first | (cases h; done) | skip
    cases h
    intro x hx; simp at hx; rcases hx with rfl | rfl <;> rfl
  | ns p => cases t <;> first | (cases h; done) | exact one _ rfl h
  | declEnd p n =>
    rw [symAct] at h
    split at h <;> cases h

theorem apply_good {A : Act} {s : St} (hp : ph ≠ .done) (hA : ∀ l, A = .shift l → ∀ x ∈ l, x.fine = true) (hst : ∀ x ∈ st, x.fine = true)
    (h : A.apply m a st ph = .go s) : Good s := by
  cases A with
  | shift l =>
    cases h
    refine ⟨fun x hx => ?_, fun e => absurd e hp⟩
    rcases List.mem_append.1 hx with hx | hx
    · exact hA l rfl x hx
    · exact hst x hx
  | declare p n => cases h; exact ⟨hst, fun e => absurd e hp⟩
  | _ => cases h

theorem axiomsPhase_good {t : Tok} {s : St} (h : axiomsPhase m a t = .go s) : Good s := by
  unfold axiomsPhase at h
  split at h
  · cases h; exact ⟨nofun, fun _ => rfl⟩
  · exact apply_good (by nofun) (fun l e => catAct_fine e) (by nofun) h

theorem headerPhase_good {t : Tok} {s : St} (h : headerPhase m a t = .go s) : Good s := by
  unfold headerPhase at h
  split at h
  · cases h
    exact ⟨fun x hx => by simp at hx; rcases hx with rfl | rfl | rfl <;> rfl, nofun⟩
  · split at h
    · exact apply_good (by nofun) (fun l e => catAct_fine e) (by nofun) h
    · exact axiomsPhase_good h

theorem phaseAct_good {t : Tok} {s : St} (h : phaseAct m a t ph = .go s) : Good s := by
  have hi : ∀ l, iriAct m t = .shift l → ∀ x ∈ l, x.fine = true := fun l h => by rw [iriAct_fine h]; nofun
  cases ph with
  | prefixes =>
    rw [phaseAct] at h
    split at h
    · cases h
      exact ⟨fun x hx => by simp at hx; rcases hx with rfl | rfl <;> rfl, nofun⟩
    · split at h
      · cases h
        exact ⟨fun x hx => by simp at hx; subst hx; rfl, nofun⟩
      · cases h
  | id =>
    rw [phaseAct] at h
    split at h
    · exact apply_good (by nofun) hi (by nofun) h
    · exact headerPhase_good h
  | id2 =>
    rw [phaseAct] at h
    split at h
    · exact apply_good (by nofun) hi (by nofun) h
    · exact headerPhase_good h
  | header => exact headerPhase_good h
  | axioms => exact axiomsPhase_good h
  | done => cases h

theorem feed_good {t : Tok} {s : St} (hd : ph = .done → st = []) (hst : ∀ x ∈ st, x.fine = true) (h : feed m a ph t st = .go s) : Good s := by
  induction st with
  | nil => exact phaseAct_good h
  | cons x st ih =>
    have hp : ph ≠ .done := fun e => by cases hd e
    rw [feed] at h
    cases e : symAct m x t with
    | skip => rw [e] at h; exact ih (fun e => absurd e hp) (fun y hy => hst y (List.mem_cons_of_mem _ hy)) h
    | shift l =>
      rw [e] at h
      exact apply_good hp (fun l' e' => symAct_fine (hst x List.mem_cons_self) (e.trans e')) (fun y hy => hst y (List.mem_cons_of_mem _ hy)) h
    | declare p n =>
      rw [e] at h
      exact apply_good hp (fun l e => by cases e) (fun y hy => hst y (List.mem_cons_of_mem _ hy)) h
    | bad w => rw [e] at h; cases h
    | ub => rw [e] at h; cases h

theorem steps_good : ∀ {q : List Tok} {s s' : St}, Good s → steps s q = some s' → Good s'
  | [], s, s', hg, h => by obtain rfl := Option.some.inj h; exact hg
  | t :: q, s, s', hg, h => by
    rw [steps] at h
    cases hf : feed s.m s.addr s.phase t s.stack with
    | go s1 => rw [hf] at h; exact steps_good (feed_good hg.done hg.fine hf) h
    | bad w => rw [hf] at h; cases h
    | ub => rw [hf] at h; cases h

theorem init_good (m : PMap) (a : Nat) : Good (St.init m a) := ⟨fun x (hx : x ∈ []) => (by cases hx), fun _ => rfl⟩

/-- A document that is rejected: what comes before the token that is rejected can be completed, and
what includes it cannot. -/
theorem rejected_view {ts rest : List Tok} {w : Why} (h : run (St.init m a) ts = .bad rest w) :
    ∃ q s', ts = q ++ rest ∧ steps (St.init m a) q = some s' ∧ Good s' ∧ run (St.init m a) (q ++ s'.meet) = .ok ∧
      ∀ t r, rest = t :: r → ∀ r', run (St.init m a) (q ++ t :: r') = .bad (t :: r') w := by
  obtain ⟨q, s', e, hs, hb⟩ := run_bad_split h
  have hg := steps_good (init_good m a) hs
  refine ⟨q, s', e, hs, hg, (run_steps _ hs).trans (run_end hg), fun t r er r' => ?_⟩
  rw [run_steps _ hs]
  rw [er] at hb
  exact run_bad_more hb r'

end Cowl.Func
