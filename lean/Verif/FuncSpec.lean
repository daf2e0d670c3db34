import Verif.Ast
import Verif.XmlSpec
/-!
# Specification of the functional syntax

The names, IRIs, literals and constructs that the text form of the functional syntax
can express, stated on characters and constructs only.
-/
namespace Cowl.FuncSpec
open Cowl.XmlSpec Cowl.Ast

/-- A letter of the English alphabet. -/
def Letter (c : UInt8) : Prop :=
  ('A'.toNat ≤ c.toNat ∧ c.toNat ≤ 'Z'.toNat) ∨ ('a'.toNat ≤ c.toNat ∧ c.toNat ≤ 'z'.toNat)

/-- A decimal digit. -/
def Digit (c : UInt8) : Prop := '0'.toNat ≤ c.toNat ∧ c.toNat ≤ '9'.toNat

/-- The text does not end with a full stop. -/
def NoFinalDot (s : Str) : Prop := s.getLast? ≠ some 46

/-- Labels of anonymous individuals: a letter, underscore, digit or non-ASCII byte,
then name characters, the last one not a full stop. -/
def Label (s : Str) : Prop :=
  ∃ c t, s = c :: t ∧ (NameStart c ∨ Digit c) ∧ (∀ x ∈ t, NameChar x) ∧ NoFinalDot s

/-- Prefixes: nothing, or a letter or non-ASCII byte, then name characters, the last
one not a full stop. -/
def PlainPrefix (s : Str) : Prop :=
  s = [] ∨ ∃ c t, s = c :: t ∧ NameStart c ∧ c ≠ 95 ∧ (∀ x ∈ t, NameChar x) ∧ NoFinalDot s

/-- Characters of IRIs between angle brackets. -/
def IriChar (c : UInt8) : Prop :=
  32 < c.toNat ∧ ∀ x ∈ ['<', '>', '"', '{', '}', '|', '^', '`', '\\'], c.toNat ≠ x.toNat

/-- Language tags: letters, then groups of letters and digits after hyphens. -/
def LangTag (s : Str) : Prop :=
  ∃ (a : Str) (gs : List Str), s = a ++ (gs.map fun g => 45 :: g).flatten ∧ a ≠ [] ∧
    (∀ c ∈ a, Letter c) ∧ ∀ g ∈ gs, g ≠ [] ∧ ∀ c ∈ g, Letter c ∨ Digit c

/-- IRIs the text can express, given the prefix the writer has for a namespace: not
empty, split in the way of C02, with allowed characters if written in full and
without a full stop at the end if abbreviated. -/
structure IriOk (gp : Str → Option Str) (i : Iri) : Prop where
  split : IsSplit (i.ns ++ i.rem) i.ns i.rem
  full : gp i.ns = none ∨ i.rem = [] → i.ns ++ i.rem ≠ [] ∧ ∀ c ∈ i.ns ++ i.rem, IriChar c
  short : gp i.ns ≠ none → NoFinalDot i.rem

/-- Literals the text can express: no NUL in the value; a language tag in lower case,
or a datatype that is not one of those for text with a language. -/
def LitOk (gp : Str → Option Str) (l : Lit) : Prop :=
  0 ∉ l.value ∧
  match l.tag with
  | .lang t => LangTag t ∧ ∀ c ∈ t, ¬ ('A'.toNat ≤ c.toNat ∧ c.toNat ≤ 'Z'.toNat)
  | .dt i => i ≠ rdfLangString ∧ i ≠ rdfPlainLiteral ∧ (i = xsdString ∨ IriOk gp i)

/-- Not an inverse property. -/
def Named : Ope → Prop
  | .prop _ => True
  | .inv _ => False

/-- What the text requires of constructs. -/
def textReq (gp : Str → Option Str) : Req where
  iri := IriOk gp
  lit := LitOk gp
  anon := Label
  sub := Named
  two := (2 ≤ ·)
  one := (1 ≤ ·)
  any := fun _ => True
  card := fun _ => True

end Cowl.FuncSpec
