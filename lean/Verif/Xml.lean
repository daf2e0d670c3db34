/-!
# Namespace/remainder split of IRIs

Models `src/cowl_xml_utils.c` and the string part of `src/cowl_iri.c`
(`cowl_iri`, `cowl_iri_from_string`) and `src/cowl_string.c`
(`cowl_string_get_ns_rem`). Strings are byte lists.
-/
namespace Cowl

/-- Contents of a `UString`: bytes, no terminator. -/
abbrev Str := List UInt8

/-- ASCII text as bytes, for examples. -/
def ascii (s : String) : Str := s.toList.map fun c => UInt8.ofNat c.toNat

/-- `IS_NCNAME_START_CHAR`, `cowl_xml_utils.c:12-13`. -/
def isNcNameStart (c : UInt8) : Bool :=
  (decide (c ≥ 0x41) && decide (c ≤ 0x5A)) || c == 0x5F ||
    (decide (c ≥ 0x61) && decide (c ≤ 0x7A)) || decide (c ≥ 0x80)

/-- `IS_NCNAME_NON_START_CHAR`, `cowl_xml_utils.c:15`. -/
def isNcNameNonStart (c : UInt8) : Bool :=
  c == 0x2D || c == 0x2E || (decide (c ≥ 0x30) && decide (c ≤ 0x39))

/-- Loop of `cowl_xml_ns_length`, `cowl_xml_utils.c:23-30`. The first argument is
the part of the string still to be scanned, last byte first, so the loop index
`i` is the length of its tail; the second is `ns_length`. -/
def nsScan : List UInt8 → Nat → Nat
  | [], n => n
  | c :: rest, n =>
    if isNcNameStart c then nsScan rest rest.length
    else if !isNcNameNonStart c then n
    else nsScan rest n

/-- `cowl_xml_ns_length`, `cowl_xml_utils.c:17-33`. -/
def nsLength (s : Str) : Nat := nsScan s.reverse s.length

/-- `cowl_string_get_ns_rem`, `cowl_string.c:120-149`, contents of `out[0]`, `out[1]`. -/
def getNsRem (s : Str) (nsLen : Nat) : Str × Str :=
  if nsLen < s.length then (s.take nsLen, s.drop nsLen) else (s, [])

/-- `cowl_iri_from_string`, `cowl_iri.c:147-158`: namespace and remainder passed
to `cowl_iri_unvalidated`, or `none` (NULL) for an empty string
(`ustring_size` counts the terminator). -/
def iriFromString (s : Str) : Option (Str × Str) :=
  if s.length + 1 ≤ 1 then none else some (getNsRem s (nsLength s))

/-- `cowl_iri`, `cowl_iri.c:91-145`: namespace and remainder passed to
`cowl_iri_unvalidated`. -/
def iriOfParts (pre suf : Str) : Str × Str :=
  let sNs := nsLength suf
  if sNs > 0 then (pre ++ suf.take sNs, suf.drop sNs)
  else
    let pNs := nsLength pre
    if pNs < pre.length then (pre.take pNs, pre.drop pNs ++ suf) else (pre, suf)

end Cowl
