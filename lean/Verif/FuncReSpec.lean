import Verif.FuncLex
/-!
# Specification: the patterns of the scanner of functional syntax

The patterns of `cowl_functional.l` as regular expressions, the texts that they match, and what flex
does with them: of all rules that match at some place it takes the one with the longest match, and of
several of them the first. Nothing here refers to how `Verif/FuncLex.lean` finds matches; rules, their
order and tokens are named as there.
-/
namespace Cowl.Re
open Cowl.Func

/-- Regular expressions over bytes. -/
inductive Re where
  | cls (p : UInt8 → Bool)
  | eps
  | seq (a b : Re)
  | alt (a b : Re)
  | star (a : Re)

/-- The texts that a regular expression matches. -/
inductive Matches : Re → Str → Prop where
  | cls {p : UInt8 → Bool} {c : UInt8} : p c = true → Matches (.cls p) [c]
  | eps : Matches .eps []
  | seq {a b : Re} {u v : Str} : Matches a u → Matches b v → Matches (.seq a b) (u ++ v)
  | altL {a b : Re} {u : Str} : Matches a u → Matches (.alt a b) u
  | altR {a b : Re} {u : Str} : Matches b u → Matches (.alt a b) u
  | starNil {a : Re} : Matches (.star a) []
  | starCons {a : Re} {u v : Str} : Matches a u → Matches (.star a) v → Matches (.star a) (u ++ v)

/-- `r+`. -/
def plus (r : Re) : Re := .seq r (.star r)
/-- `r?`. -/
def opt (r : Re) : Re := .alt r .eps
/-- A character. -/
def ch (c : UInt8) : Re := .cls fun d => d == c
/-- `[a-b]`. -/
def range (a b : UInt8) : Re := .cls fun d => decide (a ≤ d) && decide (d ≤ b)
/-- `[…]` of single characters. -/
def among (l : List UInt8) : Re := .cls fun d => l.contains d
/-- A text between quotes. -/
def text : Str → Re
  | [] => .eps
  | c :: s => .seq (ch c) (text s)

/-- `WHITESPACE`, `cowl_functional.l:57`. -/
def whitespace : Re := plus (among [32, 9, 13, 10])
/-- `COMMENT`, `cowl_functional.l:58`. -/
def comment : Re := .seq (ch 35) (.star (.cls fun d => !(d == 10)))
/-- `DIGIT`, `cowl_functional.l:59`. -/
def digit : Re := range 48 57
/-- `ALPHA`, `cowl_functional.l:60`. -/
def alpha : Re := .cls fun d => (decide (65 ≤ d) && decide (d ≤ 90)) || (decide (97 ≤ d) && decide (d ≤ 122))
/-- `ALNUM`, `cowl_functional.l:61`. -/
def alnum : Re := .alt alpha digit
/-- `PN_CHARS_BASE`, `cowl_functional.l:62`. -/
def pnCharsBase : Re := .alt alpha (range 128 255)
/-- `PN_CHARS_U`, `cowl_functional.l:63`. -/
def pnCharsU : Re := .alt pnCharsBase (ch 95)
/-- `PN_CHARS`, `cowl_functional.l:64`. -/
def pnChars : Re := .alt pnCharsU (.alt (ch 45) digit)
/-- `(({PN_CHARS}|\.)*{PN_CHARS})?`, `cowl_functional.l:65-66`. -/
def pnRest : Re := opt (.seq (.star (.alt pnChars (ch 46))) pnChars)
/-- `PN_PREFIX`, `cowl_functional.l:65`. -/
def pnPrefix : Re := .seq pnCharsBase pnRest
/-- `PN_LOCAL`, `cowl_functional.l:66`. -/
def pnLocal : Re := .seq (.alt pnCharsU digit) pnRest
/-- `PNAME_NS`, `cowl_functional.l:67`. -/
def pnameNs : Re := .seq (opt pnPrefix) (ch 58)
/-- `PNAME_LN`, `cowl_functional.l:68`. -/
def pnameLn : Re := .seq pnameNs pnLocal
/-- `IRI_REF`, `cowl_functional.l:69`. -/
def iriRef : Re := .seq (ch 60) (.seq (.star (.cls fun d =>
  !(decide (d ≤ 32)) && !([60, 62, 34, 123, 125, 124, 94, 96, 92].contains d))) (ch 62))
/-- `BLANK_NODE_LABEL`, `cowl_functional.l:70`. -/
def blankNodeLabel : Re := .seq (ch 95) (.seq (ch 58) pnLocal)
/-- `LANG_TAG`, `cowl_functional.l:71`. -/
def langTag : Re := .seq (ch 64) (.seq (plus alpha) (.star (.seq (ch 45) (plus alnum))))
/-- `QMARK`, `cowl_functional.l:72`. -/
def qmark : Re := ch 34
/-- `{QSTRING_CHAR}*`, `cowl_functional.l:73`, `199`. -/
def qstringChars : Re := .star (.cls fun d => !(d == 34) && !(d == 92))
/-- `QSTRING_ESCAPED_CHAR`, `cowl_functional.l:74`. -/
def qstringEscaped : Re := .alt (text [92, 34]) (text [92, 92])
/-- `NON_NEGATIVE_INTEGER`, `cowl_functional.l:75`. -/
def nonNegativeInteger : Re := plus digit
/-- `.`: all but a newline. -/
def dot : Re := .cls fun d => !(d == 10)

/-- The patterns of the rules, `cowl_functional.l:81-223`. -/
def pattern : Rule → Re
  | .ws => whitespace
  | .kw k => text k.text
  | .nat => nonNegativeInteger
  | .iriRef => iriRef
  | .pnameNs => pnameNs
  | .pnameLn => pnameLn
  | .blank => blankNodeLabel
  | .lang => langTag
  | .qmark => qmark
  | .dcaret => text [94, 94]
  | .lpar => text [40]
  | .rpar => text [41]
  | .equals => text [61]
  | .comment => comment
  | .any => dot

/-- Of the rules that match a beginning of the text, that is not empty, this one has the longest match,
and it is the first of those. -/
def Chosen (rs : List ρ) (pat : ρ → Re) (s : Str) (r : ρ) (n : Nat) : Prop :=
  ∃ before after, rs = before ++ r :: after ∧ 0 < n ∧ n ≤ s.length ∧ Matches (pat r) (s.take n) ∧
    (∀ x ∈ rs, ∀ k, n < k → k ≤ s.length → ¬ Matches (pat x) (s.take k)) ∧
    (∀ x ∈ before, ¬ Matches (pat x) (s.take n))

/-- The value that an action gives to a token, from the text that was matched,
`cowl_functional.l:83-189`, `217-220`. -/
inductive Value : Rule → Str → Tok → Prop where
  | kw (k : Kw) (w : Str) : Value (.kw k) w (.kw k)
  | nat (w : Str) : Value .nat w (.nat (strToUint w))
  | iriRef (v : Str) : Value .iriRef (60 :: v ++ [62]) (.iriRef v)
  | pnameNs (v : Str) : Value .pnameNs (v ++ [58]) (.pnameNs v)
  | pnameLn (w : Str) : Value .pnameLn w (.pnameLn w)
  | blank (v : Str) : Value .blank (95 :: 58 :: v) (.blank v)
  | lang (v : Str) : Value .lang (64 :: v) (.lang v)
  | dcaret (w : Str) : Value .dcaret w .dcaret
  | lpar (w : Str) : Value .lpar w .lpar
  | rpar (w : Str) : Value .rpar w .rpar
  | equals (w : Str) : Value .equals w .equals

/-- Rules of the start condition `QSTRING`. -/
inductive QRule where
  | chars | escaped | qmark | any

/-- In order, `cowl_functional.l:199-215`. -/
def QRule.all : List QRule := [.chars, .escaped, .qmark, .any]

/-- Their patterns, `cowl_functional.l:199-215`. -/
def qpattern : QRule → Re
  | .chars => qstringChars
  | .escaped => qstringEscaped
  | .qmark => qmark
  | .any => dot

/-- What is read of a quoted string, with the text in the buffer before; `cowl_functional.l:199-215`. -/
inductive QScan : Str → Str → QRes → Prop where
  | eof (b : Str) : QScan [] b .eof
  | chars {s b : Str} {n : Nat} {r : QRes} : Chosen QRule.all qpattern s .chars n → QScan (s.drop n) (b ++ s.take n) r → QScan s b r
  | escaped {s b : Str} {n : Nat} {r : QRes} : Chosen QRule.all qpattern s .escaped n → QScan (s.drop n) (b ++ (s.take n).drop 1) r → QScan s b r
  | qmark {s b : Str} {n : Nat} : Chosen QRule.all qpattern s .qmark n → QScan s b (.done b (s.drop n))
  | any {s b : Str} {n : Nat} {c : UInt8} : Chosen QRule.all qpattern s .any n → s.head? = some c → QScan s b (.bad c)

/-- The tokens that the parser gets of a text, up to one that it must reject: a character in a quoted
string is such. The input ends where a character is returned that Bison takes for its end, or where
a quoted string is not closed. -/
inductive Scan : Str → List Tok → Prop where
  | nil : Scan [] []
  | skip {s : Str} {r : Rule} {n : Nat} {l : List Tok} : Chosen Rule.all pattern s r n → r = .ws ∨ r = .comment → Scan (s.drop n) l → Scan s l
  | tok {s : Str} {r : Rule} {n : Nat} {t : Tok} {l : List Tok} : Chosen Rule.all pattern s r n → Value r (s.take n) t → Scan (s.drop n) l → Scan s (t :: l)
  | qstr {s v rest : Str} {n : Nat} {l : List Tok} : Chosen Rule.all pattern s .qmark n → QScan (s.drop n) [] (.done v rest) → Scan rest l →
      Scan s (.qstr v :: l)
  | qbad {s : Str} {n : Nat} {c : UInt8} : Chosen Rule.all pattern s .qmark n → QScan (s.drop n) [] (.bad c) → Scan s [.char c]
  | qeof {s : Str} {n : Nat} : Chosen Rule.all pattern s .qmark n → QScan (s.drop n) [] .eof → Scan s []
  | any {s : Str} {n : Nat} {c : UInt8} {l : List Tok} : Chosen Rule.all pattern s .any n → s.head? = some c → c ≠ 0 → c < 128 → Scan (s.drop n) l →
      Scan s (.char c :: l)
  | ends {s : Str} {n : Nat} {c : UInt8} : Chosen Rule.all pattern s .any n → s.head? = some c → c = 0 ∨ 128 ≤ c → Scan s []

end Cowl.Re
