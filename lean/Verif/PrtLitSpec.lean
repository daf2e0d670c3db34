import Verif.PrtNum
import Verif.Literal
/-!
# Specification: canonical texts of numbers

After the canonical representations of XML Schema (https://www.w3.org/TR/xmlschema-2),
with the widths of the integers of the program.
-/
namespace Cowl.Prt

/-- Digits without superfluous zeros in front. -/
def CanonNat (ds : Str) : Prop :=
  (∀ c ∈ ds, IsDigit c) ∧ ds ≠ [] ∧ (ds.head? = some 48 → ds = [48])

/-- The canonical text of a 32-bit integer. -/
def CanonInt (s : Str) : Prop :=
  (CanonNat s ∧ decimal s 0 < 2147483648) ∨
  ∃ ds, s = 45 :: ds ∧ CanonNat ds ∧ ds ≠ [48] ∧ decimal ds 0 ≤ 2147483648

/-- Decimals without superfluous zeros at the end, which read backwards are a 32-bit number. -/
def CanonFrac (ds : Str) : Prop := CanonNat ds.reverse ∧ decimal ds.reverse 0 < 4294967296

/-- Canonical texts of decimal and floating point numbers. -/
def CanonDec (s : Str) : Prop :=
  CanonInt s ∨
  (∃ w f, s = w ++ 46 :: f ∧ CanonInt w ∧ CanonFrac f) ∨
  ∃ w f e, s = w ++ 46 :: (f ++ 69 :: e) ∧ CanonInt w ∧ CanonFrac f ∧ CanonInt e

/-- Texts that have the form of a decimal or floating point number: what ulib takes for an
integer (`toInt` gives it and what follows), optionally followed by a dot and digits, and
these by an `E` and what is an integer for ulib. -/
def DecForm (toInt : Str → Int × Str) (s : Str) : Prop :=
  (toInt s).2.length ≠ s.length ∧
  ((toInt s).2 = [] ∨
    ∃ f e, (toInt s).2 = 46 :: (f ++ e) ∧ f ≠ [] ∧ (∀ c ∈ f, IsDigit c) ∧ (∀ c ∈ e.head?, ¬ IsDigit c) ∧
      (e = [] ∨ ∃ t, e = 69 :: t ∧ t ≠ [] ∧ (toInt t).2 = []))

/-- Names of the integer datatypes of XML Schema. -/
def intNames : List Str :=
  ["integer", "int", "unsignedInt", "positiveInteger", "negativeInteger", "nonPositiveInteger",
   "nonNegativeInteger", "long", "unsignedLong", "short", "unsignedShort", "byte",
   "unsignedByte"].map ascii

/-- Names of the other numeric datatypes of XML Schema. -/
def decNames : List Str := ["float", "double", "decimal"].map ascii

end Cowl.Prt
