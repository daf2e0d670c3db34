import Verif.FuncReScan
import Verif.FuncGramProps
/-!
# Property C88: the scanner of functional syntax follows its patterns

`Matches`, `Chosen`, `QScan` and `Scan` are defined by the patterns of `cowl_functional.l` and the way
in which flex uses them. The scanner of the model (`Func.lex`) is defined by runs of characters.
-/
namespace Cowl
open Cowl.Re Cowl.Func Cowl.Prefix

/-- C88, patterns: a beginning of a text that is not empty is the longest that the pattern of a rule
matches if and only if its length is the one of the model. -/
theorem C88_lengths (s : Str) (r : Rule) (n : Nat) (hn : 0 < n) :
    (n ≤ s.length ∧ Matches (pattern r) (s.take n) ∧ ∀ k, n < k → k ≤ s.length → ¬ Matches (pattern r) (s.take k)) ↔
      r.len s = n := by
  have l := longest_rule s r
  have key : ∀ k, k ≤ s.length → Matches (pattern r) (s.take k) → k ≤ r.len s := fun k hk h => by
    obtain ⟨e, hl⟩ := take_split hk
    have := l.2 _ _ e h
    omega
  constructor
  · rintro ⟨h1, h2, h3⟩
    have h4 := key n h1 h2
    obtain ⟨u, v, e, hl, hu⟩ := l.1 (by omega)
    obtain ⟨h5, h6⟩ := take_of_split e hl
    rcases Nat.lt_or_eq_of_le h4 with h | h
    · exact absurd (h5.symm ▸ hu) (h3 _ h h6)
    · exact h.symm
  · rintro rfl
    obtain ⟨u, v, e, hl, hu⟩ := l.1 hn
    obtain ⟨h5, h6⟩ := take_of_split e hl
    refine ⟨h6, h5.symm ▸ hu, fun k h1 h2 h => ?_⟩
    have := key k h2 h
    omega

/-- C88, choice: in a text that is not empty, the rule of the model is the one that flex takes, and
there is always one. -/
theorem C88_choice (c : UInt8) (s : Str) (r : Rule) (n : Nat) :
    Chosen Rule.all pattern (c :: s) r n ↔ best (c :: s) = (r, n) := by
  constructor
  · exact best_of
  · intro h
    have := chosen_best c s
    rwa [h] at this

/-- C88, quoted strings: reading by the rules of the start condition gives one result, the one of the
model. -/
theorem C88_qstring (s b : Str) (r : QRes) : QScan s b r ↔ r = lexQ s b :=
  ⟨qscan_unique, fun h => h ▸ qscan_lexQ _ s b (Nat.le_refl _)⟩

/-- C88: the tokens of a text by the rules of the scanner are those of the model. -/
theorem C88_scan (s : Str) (l : List Tok) : Scan s l ↔ l = lex s :=
  ⟨scan_unique, fun h => h ▸ scan_lex _ s (Nat.le_refl _)⟩

/-- C88 with C87: what is read without an error is a text whose tokens, by the rules of the scanner, are
a sentence by the rules of the grammar; and such texts are read, if their names can be used and
their literals are defined. -/
theorem C88_read (m : PMap) (addr : Nat) (text : Str) :
    (Accepted m addr text → ∃ l, Scan text l ∧ Gram.Sentence (l.map Gram.termOf)) ∧
    (∀ l, Scan text l → Gram.Sentence (l.map Gram.termOf) → (∀ n, Tok.pnameLn n ∉ l) → Tok.iriRef [] ∉ l →
      run (St.init m addr) l ≠ .ub → Accepted m addr text) := by
  constructor
  · intro h
    exact ⟨lex text, (C88_scan text _).2 rfl, accepted_sentence h⟩
  · intro l hs hg h1 h2 h3
    obtain rfl := (C88_scan text l).1 hs
    exact (C87_exact m addr text h1 h2 h3).2 hg

/-! ## Examples -/

/-- A text with a comment, a keyword, names, a quoted string with escapes, a language tag and a number. -/
def reText : Str := ascii "# x\nClass(Class:a_1.b. \"p\\\"q\"@en-US 42 <a#b>)"

-- the longest match wins over the order of the rules, and dots at the end are not part of a name
example : Scan reText [.kw .class_, .lpar, .pnameLn (ascii "Class:a_1.b"), .char 46, .qstr (ascii "p\"q"),
    .lang (ascii "en-US"), .nat 42, .iriRef (ascii "a#b"), .rpar] :=
  (C88_scan _ _).2 (by decide +kernel)

-- of rules with matches of the same length the first is taken
example : Chosen Rule.all pattern (ascii "(a") .lpar 1 := (C88_choice 40 [97] _ _).2 (by decide +kernel)
example : Matches (pattern .any) (ascii "(") := .cls (by decide +kernel)

-- a backslash before another character is a token of its own, and a string may be open at the end
example : QScan (ascii "a\\b\"") [] (.bad 92) := (C88_qstring _ _ _).2 (by decide +kernel)
example : QScan (ascii "a\\\"") [] .eof := (C88_qstring _ _ _).2 (by decide +kernel)

-- a name of a prefix that ends in a dot is none
example : ¬ Matches (pattern .pnameNs) (ascii "a.:") := by
  intro h
  have := (longest_rule (ascii "a.:") .pnameNs).2 (ascii "a.:") [] (by simp) h
  exact absurd this (by decide +kernel)

/-- A document with full IRIs. -/
def fullDoc : Str := ascii "Ontology(<u:o> SubClassOf(<u:A> ObjectSomeValuesFrom(<u:p> <u:B>)))"

-- the hypotheses of `C88_read` are met by it
example : ∃ l, Scan fullDoc l ∧ Gram.Sentence (l.map Gram.termOf) ∧ (∀ n, Tok.pnameLn n ∉ l) ∧ Tok.iriRef [] ∉ l ∧
    run (St.init (create [1, 2, 3, 4] []) 9) l ≠ .ub := by
  have h : Accepted (create [1, 2, 3, 4] []) 9 fullDoc := by unfold Accepted; decide +kernel
  have e : lex fullDoc = [.kw .ontology, .lpar, .iriRef (ascii "u:o"), .kw .subClassOf, .lpar, .iriRef (ascii "u:A"),
      .kw .objectSomeValuesFrom, .lpar, .iriRef (ascii "u:p"), .iriRef (ascii "u:B"), .rpar, .rpar, .rpar] := by decide +kernel
  refine ⟨_, (C88_scan _ _).2 rfl, accepted_sentence h, ?_, by decide +kernel, by decide +kernel⟩
  intro n hn
  rw [e] at hn
  simp at hn

end Cowl
