import Verif.SemSpec
import Verif.PrtNormSpec
/-!
# Specification: texts of numbers and what they stand for

After XML Schema (https://www.w3.org/TR/xmlschema11-2, sections 3.3.3-3.3.5, 3.4.13): the texts of integers, decimals and floating
point numbers, when two of them stand for the same number, and interpretations that respect this.
-/
namespace Cowl.Sem
open Ast Prt

/-- Digits, at least one. -/
def Digits (s : Str) : Prop := s ≠ [] ∧ ∀ c ∈ s, IsDigit c

/-- No sign, a minus, or a plus. -/
def signText : Option Bool → Str
  | none => []
  | some true => [45]
  | some false => [43]

/-- The integer that a sign and digits stand for. -/
def intVal (s : Option Bool) (ds : Str) : Int := if s = some true then -(decimal ds 0 : Int) else decimal ds 0

/-- The text of a number: sign, digits, perhaps a dot and digits, perhaps an exponent: a letter, a sign, digits. -/
structure Numeral where
  sign : Option Bool
  whole : Str
  frac : Option Str
  exp : Option (UInt8 × Option Bool × Str)

/-- The parts are as they should. -/
structure Numeral.Legal (n : Numeral) : Prop where
  whole : Digits n.whole
  frac : ∀ f, n.frac = some f → Digits f
  exp : ∀ c s ds, n.exp = some (c, s, ds) → (c = 69 ∨ c = 101) ∧ Digits ds

/-- The text of the exponent. -/
def Numeral.expText (n : Numeral) : Str :=
  match n.exp with
  | none => []
  | some (c, s, ds) => c :: (signText s ++ ds)

/-- What follows the whole part. -/
def Numeral.tail (n : Numeral) : Str :=
  (match n.frac with
    | none => []
    | some f => 46 :: f) ++ n.expText

/-- The text. -/
def Numeral.text (n : Numeral) : Str := signText n.sign ++ n.whole ++ n.tail

/-- There is a minus. -/
def Numeral.neg (n : Numeral) : Prop := n.sign = some true

/-- Digits without zeros at the end. -/
def trim (f : Str) : Str := (f.reverse.dropWhile (· == 48)).reverse

/-- The digits behind the dot, without zeros at the end. -/
def Numeral.digits (n : Numeral) : Str := trim (n.frac.getD [])

/-- The exponent. -/
def Numeral.expVal (n : Numeral) : Int :=
  match n.exp with
  | none => 0
  | some (_, s, ds) => intVal s ds

/-- The number is zero. -/
def Numeral.Zero (n : Numeral) : Prop := decimal n.whole 0 = 0 ∧ n.digits = []

/-- The same number in two notations: the same digits, zeros in front and at the end apart, the same exponent and the same sign.
`signless` says that there is no negative zero. (Numbers with different exponents may be the same, too. Here it is safe to leave
this out: interpretations are asked to respect less.) -/
structure Numeral.Same (signless : Bool) (n m : Numeral) : Prop where
  whole : decimal n.whole 0 = decimal m.whole 0
  digits : n.digits = m.digits
  exp : n.expVal = m.expVal
  sign : (n.neg ↔ m.neg) ∨ (signless = true ∧ n.Zero)

/-- Datatypes without a negative zero: all but `xsd:float` and `xsd:double`. -/
def Signless (name : Str) : Bool := !(name == ascii "float" || name == ascii "double")

/-- Literals that write the same number stand for the same value. -/
def Interp.Numeric (I : Interp) : Prop :=
  ∀ name ∈ intNames ++ decNames, ∀ n m : Numeral, n.Legal → m.Legal → n.Same (Signless name) m →
    I.lit n.text (.dt ⟨xsdNs, name⟩) = I.lit m.text (.dt ⟨xsdNs, name⟩)

/-- Numbers that ProtocOWL is claimed to keep: integers of 32 bits; decimals and floating point numbers whose whole part and
exponent are integers of 32 bits, whose digits behind the dot, read backwards, are a number of 32 bits, and which are not between
-1 and 0, nor the negative zero. -/
def NumOk (v : Str) (t : LitTag) : Prop :=
  (∃ name ∈ intNames, t = .dt ⟨xsdNs, name⟩ ∧ ∃ n : Numeral, n.Legal ∧ n.frac = none ∧ n.exp = none ∧ v = n.text ∧
    IsInt32 (intVal n.sign n.whole)) ∨
  (∃ name ∈ decNames, t = .dt ⟨xsdNs, name⟩ ∧ ∃ n : Numeral, n.Legal ∧ v = n.text ∧
    IsInt32 (intVal n.sign n.whole) ∧ IsInt32 n.expVal ∧ decimal n.digits.reverse 0 < 4294967296 ∧
    (n.neg → decimal n.whole 0 = 0 → Signless name = true ∧ n.digits = []))

/-- The literals of a construct are as `P` says; nothing else is required. -/
def onlyLits (P : Lit → Prop) : Req where
  iri _ := True
  anon _ := True
  lit := P
  sub _ := True
  two _ := True
  one _ := True
  any _ := True
  card _ := True

/-- The axioms among these objects hold. -/
def HoldsIn (I : Interp) (xs : List Obj) : Prop := ∀ x ∈ xs, ∀ a : Axiom, x = a.toObj → sat I a.ax

end Cowl.Sem

namespace Cowl.Prt
open Sem

/-- More that is assumed of the functions of ulib that read numbers: a sign and digits are read as the integer they stand for, if
it has 32 bits. -/
structure Ulib.Reads (u : Ulib) : Prop where
  to_int : ∀ s ds, Digits ds → IsInt32 (intVal s ds) → u.toInt (signText s ++ ds) = some (intVal s ds)
  str_to_int : ∀ s ds, Digits ds → IsInt32 (intVal s ds) → ∀ r, (∀ c ∈ r.head?, ¬ IsDigit c) →
    u.strToInt (signText s ++ ds ++ r) = (intVal s ds, r)

end Cowl.Prt
