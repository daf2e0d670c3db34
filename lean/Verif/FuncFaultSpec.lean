import Verif.FuncCutSpec
import Verif.LastErr
/-!
# Specification: errors of the functional reader

A token is known by its text, and a place in a document by whether the text before it can be
completed.
-/
namespace Cowl.Func
open Prefix

/-- The text between the quotes of a string, where quotes and backslashes follow a backslash. -/
inductive Quotes : Str → Str → Prop where
  | nil : Quotes [] []
  | plain {c : UInt8} {v b : Str} : c ≠ 34 → c ≠ 92 → Quotes v b → Quotes (c :: v) (c :: b)
  | escape {c : UInt8} {v b : Str} : c = 34 ∨ c = 92 → Quotes v b → Quotes (c :: v) (92 :: c :: b)

/-- The text of a token. -/
inductive Spells : Tok → Str → Prop where
  | kw (k : Kw) : Spells (.kw k) k.text
  | nat {w : Str} : w ≠ [] → (∀ x ∈ w, 48 ≤ x ∧ x ≤ 57) → Spells (.nat (strToUint w)) w
  | iriRef {s : Str} : 10 ∉ s → Spells (.iriRef s) (60 :: s ++ [62])
  | pnameNs {s : Str} : 10 ∉ s → Spells (.pnameNs s) (s ++ [58])
  | pnameLn {p l : Str} : l ≠ [] → 10 ∉ p ++ l → Spells (.pnameLn (p ++ 58 :: l)) (p ++ 58 :: l)
  | blank {s : Str} : 10 ∉ s → Spells (.blank s) (95 :: 58 :: s)
  | lang {s : Str} : 10 ∉ s → Spells (.lang s) (64 :: s)
  | qstr {v b : Str} : Quotes v b → Spells (.qstr v) (34 :: b ++ [34])
  | dcaret : Spells .dcaret [94, 94]
  | lpar : Spells .lpar [40]
  | rpar : Spells .rpar [41]
  | equals : Spells .equals [61]
  | char {c : UInt8} : c ≠ 10 → Spells (.char c) [c]
  /-- a string up to a backslash that escapes nothing -/
  | broken {v b : Str} : Quotes v b → Spells (.char 92) (34 :: b ++ [92])

/-- The text is read without an error, by a handler that accepts everything. -/
def Accepted (m : PMap) (addr : Nat) (text : Str) : Prop := (funcRead FuncCut.noting m addr text []).2 = .ok

/-- The text can be completed. -/
def Viable (m : PMap) (addr : Nat) (text : Str) : Prop := ∃ c, Accepted m addr (text ++ c)

/-- An IRI can follow the text, in a new line. -/
def TakesIri (m : PMap) (addr : Nat) (text : Str) : Prop := Viable m addr (text ++ ascii "\n<a>")

/-- The empty IRI can follow the text: this is so in declarations of prefixes only. -/
def TakesEmpty (m : PMap) (addr : Nat) (text : Str) : Prop := Viable m addr (text ++ ascii "\n<>")

/-- What the error says about a word that cannot follow the text `seen`. -/
inductive Says (m : PMap) (addr : Nat) (seen : Str) (e : LastErr.Err) : Tok → Prop where
  /-- an IRI can follow, but the prefix of this one is not declared -/
  | unresolved {n : Str} : e.code = .errSyntax → e.msg = ascii "failed to resolve " ++ n → TakesIri m addr seen →
      Says m addr seen e (.pnameLn n)
  /-- an IRI can follow, but this one is empty -/
  | empty : e.code = .errMem → e.msg = [] → TakesIri m addr seen → Says m addr seen e (.iriRef [])
  /-- no IRI can follow, or only one that is not abbreviated -/
  | name {t : Tok} : e.code = .errSyntax → e.msg = [] → (∃ n, t = .pnameLn n) ∨ t = .iriRef [] →
      ¬ TakesIri m addr seen ∨ TakesEmpty m addr seen → Says m addr seen e t
  | other {t : Tok} : e.code = .errSyntax → e.msg = [] → (∀ n, t ≠ .pnameLn n) → t ≠ .iriRef [] → Says m addr seen e t

/-- Where a document is rejected: `first` is the text before the word, `last` that up to its end. -/
inductive Fault (m : PMap) (addr : Nat) (text : Str) (e : LastErr.Err) : Str → Str → Prop where
  /-- at a word: what is before it can be completed, but not if it follows -/
  | word {seen w rest : Str} {t : Tok} : text = seen ++ w ++ rest → w ≠ [] → Spells t w →
      Viable m addr seen → (∀ c, ¬ Accepted m addr (seen ++ w ++ 10 :: c)) → Says m addr seen e t → Fault m addr text e seen (seen ++ w)
  /-- at the end: the text can be completed -/
  | ended : Viable m addr text → ¬ Accepted m addr text → e.code = .errSyntax → e.msg = [] → Fault m addr text e text text
  /-- at a string that is not ended -/
  | unended {seen v b : Str} : text = seen ++ 34 :: b → Quotes v b → Viable m addr seen → ¬ Accepted m addr text →
      e.code = .errSyntax → e.msg = [] → Fault m addr text e seen text
  /-- at a character taken for the end -/
  | stopped {seen rest : Str} {c : UInt8} : text = seen ++ c :: rest → c = 0 ∨ 128 ≤ c → Viable m addr seen → ¬ Accepted m addr text →
      e.code = .errSyntax → e.msg = [] → Fault m addr text e seen seen

end Cowl.Func
