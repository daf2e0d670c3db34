import Verif.FuncGramDoc
/-!
# Property C87: the functional reader accepts the language of its grammar

`Sentence` is defined by the rules of `cowl_functional.y` alone. The reader (`Func.funcRead`) and the
automaton that finds its errors (`Func.run`) are defined by recursion, without reference to the rules.
-/
namespace Cowl
open Cowl.Gram Cowl.Func Cowl.Prefix

/-- C87, one half: what is read without an error is a sentence of the grammar, whatever the handler does. -/
theorem C87_sound {σ : Type} (h : Callback σ Item) (m : PMap) (addr : Nat) (text : Str) (s s' : σ)
    (e : funcRead h m addr text s = (s', .ok)) : Sentence ((lex text).map termOf) :=
  funcRead_sound e

theorem accepted_sentence {m : PMap} {addr : Nat} {text : Str} (h : Accepted m addr text) : Sentence ((lex text).map termOf) :=
  C87_sound FuncCut.noting m addr text [] _ (_root_.Prod.ext rfl h)

/-- A name that the reader cannot use: one that its prefix map does not resolve, or an empty IRI. -/
def NameFault (text : Str) (e : LastErr.Err) : Prop :=
  (∃ n, Tok.pnameLn n ∈ lex text ∧ e.code = .errSyntax ∧ e.msg = ascii "failed to resolve " ++ n) ∨
  (Tok.iriRef [] ∈ lex text ∧ e.code = .errMem ∧ e.msg = [])

theorem soft_name {m : PMap} {addr : Nat} {text : Str} {rest : List Tok} {w : Why} (hw : w ≠ .syntax)
    (h : run (St.init m addr) (lex text) = .bad rest w) : ∃ e, docError m addr text = some e ∧ NameFault text e := by
  unfold docError
  rw [h]
  refine ⟨_, rfl, ?_⟩
  obtain ⟨q, s', e, -, hr⟩ := run_bad_split h
  cases rest with
  | nil =>
    rw [run] at hr
    split at hr
    · cases hr
    · injection hr with _ hr
      exact absurd hr.symm hw
  | cons t r =>
    have hm : t ∈ lex text := by rw [e]; simp
    rcases (feed_name (feed_of_run hr) hw).1 with ⟨n, rfl, rfl⟩ | ⟨rfl, rfl⟩
    · exact .inl ⟨n, hm, rfl, rfl⟩
    · exact .inr ⟨hm, rfl, rfl⟩

/-- C87, the other half: a sentence of the grammar is read without an error by a handler that accepts
everything, unless one of its names cannot be used, or a literal is undefined (C25). -/
theorem C87_complete (m : PMap) (addr : Nat) (text : Str) (h : Sentence ((lex text).map termOf)) :
    Accepted m addr text ∨ (∃ e, docError m addr text = some e ∧ NameFault text e) ∨ run (St.init m addr) (lex text) = .ub := by
  rcases sentence_fine m addr h with h | h | ⟨rest, w, hw, h⟩
  · exact .inl ((accepted_run text).2 h)
  · exact .inr (.inr h)
  · exact .inr (.inl (soft_name hw h))

/-- C87: texts whose IRIs are full and not empty, and whose literals are defined, are accepted if and
only if they are sentences. -/
theorem C87_exact (m : PMap) (addr : Nat) (text : Str) (h1 : ∀ n, Tok.pnameLn n ∉ lex text) (h2 : Tok.iriRef [] ∉ lex text)
    (h3 : run (St.init m addr) (lex text) ≠ .ub) : Accepted m addr text ↔ Sentence ((lex text).map termOf) := by
  constructor
  · intro h
    exact accepted_sentence h
  · intro h
    rcases C87_complete m addr text h with h | ⟨e, -, ⟨n, hn, -⟩ | ⟨hn, -⟩⟩ | h
    · exact h
    · exact absurd hn (h1 n)
    · exact absurd hn h2
    · exact absurd h h3

/-- A token of a terminal. -/
def someTok : YOwn.Term → Tok
  | .kw k => .kw k
  | .nat => .nat 0
  | .qstr => .qstr []
  | .blank => .blank []
  | .pnameNs => .pnameNs []
  | .pnameLn => .pnameLn []
  | .lang => .lang []
  | .iriRef => .iriRef []
  | .lpar => .lpar
  | .rpar => .rpar
  | .equals => .equals
  | .dcaret => .dcaret
  | .other => .char 0

theorem someTok_term (z : List YOwn.Term) : (z.map someTok).map termOf = z := by
  induction z with
  | nil => rfl
  | cons x z ih => rw [List.map_cons, List.map_cons, ih]; cases x <;> rfl

/-- C87, errors: the reader stops at the first token that no sentence can continue with. What it has
read begins a sentence; with the token that it reports as a syntax error, it does not; and if it
reports the end of the text, what it has read is no sentence. -/
theorem C87_first (m : PMap) (addr : Nat) (text : Str) {q rest : List Tok} {w : Why} (h : run (St.init m addr) (lex text) = .bad rest w)
    (e : lex text = q ++ rest) :
    (∃ z, Sentence (q.map termOf ++ z)) ∧
    (w = .syntax → ∀ t r, rest = t :: r → ∀ z, ¬ Sentence (q.map termOf ++ termOf t :: z)) ∧
    (w = .syntax → rest = [] → ¬ Sentence (q.map termOf)) := by
  obtain ⟨q', s', e', hq, hr⟩ := run_bad_split h
  obtain rfl : q = q' := List.append_cancel_right (e.symm.trans e')
  refine ⟨?_, ?_, ?_⟩
  · obtain ⟨seen, tail, -, -, hl, -, -, -⟩ := locate e hq
    have hl := hl [] (List.nil_prefix)
    have hg := steps_good (init_good m addr) hq
    have : Accepted m addr (seen ++ ([] ++ 10 :: lines s'.meet)) := by
      rw [accepted_run, hl, List.nil_append, lex_newline, lex_lines s'.meet_easy, run_steps _ hq]
      exact run_end hg
    have := accepted_sentence this
    rw [hl, List.map_append] at this
    exact ⟨_, this⟩
  · rintro rfl t r rfl z hs
    have : Sentence ((q ++ t :: z.map someTok).map termOf) := by
      rw [List.map_append, List.map_cons, someTok_term]
      exact hs
    have hf := sentence_fine m addr this
    rw [run_steps _ hq, run_bad_more hr] at hf
    rcases hf with hf | hf | ⟨_, _, h1, hf⟩
    · cases hf
    · cases hf
    · injection hf with _ hf
      exact h1 hf.symm
  · rintro rfl rfl hs
    have hf := sentence_fine m addr hs
    rw [← List.append_nil q, run_steps _ hq, hr] at hf
    rcases hf with hf | hf | ⟨_, _, h1, hf⟩
    · cases hf
    · cases hf
    · injection hf with _ hf
      exact h1 hf.symm

/-! ## What the actions make -/

/-- The nonterminals of a right-hand side whose values are fields of an object, with their positions. -/
def fieldPlaces (rhs : List GSym) : List Nat :=
  (rhs.zipIdx 1).filterMap fun (x, i) => match x with
    | .n .annotationStar => none
    | .n .cardinality => none
    | .n _ => some i
    | .t _ => none

/-- The position of the annotations. -/
def annotPlace (rhs : List GSym) : Option Nat :=
  (rhs.zipIdx 1).findSome? fun (x, i) => if x = .n .annotationStar then some i else none

/-- The first statement of an action makes an object of a type of the fields, in order, and of the
annotations. -/
def makes (t : OType) (rhs : List GSym) : Option YOwn.Stmt → Bool
  | some (.make c l o) => c.type == t && match c.form with
    | .annot => l == fieldPlaces rhs && o == annotPlace rhs && o.isSome
    | .plain => l == fieldPlaces rhs && o.isNone && (annotPlace rhs).isNone
    | .opt | .uint => l ++ o.toList == fieldPlaces rhs && (annotPlace rhs).isNone
  | some (.chain a b c) => t == .aSubObjProp && [a, b] == fieldPlaces rhs && annotPlace rhs == some c
  | some (.hasKey a b c d) => t == .aHasKey && [a, b, c] == fieldPlaces rhs && annotPlace rhs == some d
  | _ => false

/-- The actions of the grammar make objects of the types that the reader makes (`Func.prod`), of the
values of their nonterminals in the order of the text. -/
theorem C87_actions (r : YOwn.Rule) (hr : r ∈ YOwn.rules) (k : Kw) (l : List GSym) (e : r.rhs = .t (.kw k) :: .t .lpar :: l)
    (pr : Func.Prod) (hp : prod k = some pr) : makes pr.type r.rhs r.act.head? = true := by
  have table : (YOwn.rules.all fun r => match r.rhs with
      | .t (.kw k) :: .t .lpar :: _ => (prod k).all fun pr => makes pr.type r.rhs r.act.head?
      | _ => true) = true := by decide +kernel
  have := List.all_eq_true.1 table r hr
  rw [e] at this
  simp only [hp, Option.all_some] at this
  rw [e]
  exact this

/-! ## Examples -/

/-- A small document. -/
def smallDoc : Str := ascii "Prefix(:=<u:>) Ontology(<u:o> SubClassOf(:A ObjectSomeValuesFrom(<u:p> <u:B>)))"

/-- It is a sentence. -/
theorem smallDoc_sentence : Sentence ((lex smallDoc).map termOf) := by
  have h : Accepted (create [1, 2, 3, 4] []) 9 smallDoc := by unfold Accepted; decide +kernel
  exact accepted_sentence h

example : Accepted (create [1, 2, 3, 4] []) 9 smallDoc := by unfold Accepted; decide +kernel

/-- Some words are no sentences: one with two versions. -/
example : ¬ Sentence ((lex (ascii "Ontology(<u:o> <u:v> <u:w>)")).map termOf) := by
  intro h
  have : run (St.init (create [1, 2, 3, 4] []) 9) (lex (ascii "Ontology(<u:o> <u:v> <u:w>)")) = .bad [.iriRef (ascii "u:w"), .rpar] .syntax := by decide +kernel
  have := (C87_first (q := [.kw .ontology, .lpar, .iriRef (ascii "u:o"), .iriRef (ascii "u:v")]) _ 9 _ this (by decide +kernel)).2.1 rfl _ _ rfl [.rpar]
  apply this
  have e : lex (ascii "Ontology(<u:o> <u:v> <u:w>)") = [.kw .ontology, .lpar, .iriRef (ascii "u:o"), .iriRef (ascii "u:v"), .iriRef (ascii "u:w"), .rpar] := by decide +kernel
  rw [e] at h
  exact h

end Cowl
