/-!
# Specification of the namespace/remainder split

Character classes are the code's (ASCII approximation of XML names where every
non-ASCII byte counts as a letter; `cowl_xml_utils.c:18-19` says so).
-/
namespace Cowl.XmlSpec

/-- A byte that may start a local name: letter, underscore, or non-ASCII byte. -/
def NameStart (c : UInt8) : Prop :=
  ('A'.toNat ≤ c.toNat ∧ c.toNat ≤ 'Z'.toNat) ∨ ('a'.toNat ≤ c.toNat ∧ c.toNat ≤ 'z'.toNat) ∨
    c.toNat = '_'.toNat ∨ 128 ≤ c.toNat

/-- A byte that may continue a local name. -/
def NameChar (c : UInt8) : Prop :=
  NameStart c ∨ c.toNat = '-'.toNat ∨ c.toNat = '.'.toNat ∨
    ('0'.toNat ≤ c.toNat ∧ c.toNat ≤ '9'.toNat)

/-- A local name: a start byte followed by name bytes. -/
def LocalName (s : List UInt8) : Prop :=
  ∃ c t, s = c :: t ∧ NameStart c ∧ ∀ x ∈ t, NameChar x

/-- `rem` is the longest suffix of `s` that is empty or a local name, and `ns`
is what precedes it. -/
def IsSplit (s ns rem : List UInt8) : Prop :=
  s = ns ++ rem ∧ (rem = [] ∨ LocalName rem) ∧
    ∀ ns' rem', s = ns' ++ rem' → LocalName rem' → rem'.length ≤ rem.length

end Cowl.XmlSpec
