import Verif.Xml
/-!
# Unsigned integers as text

Models `src/cowl_cstring.c`. `ulib_uint` is 32 bits wide.
-/
namespace Cowl

/-- First loop of `cowl_str_from_uint`, `cowl_cstring.c:16-19`: digits, least
significant first. The fuel bounds the number of iterations. -/
def digitsRev : Nat → Nat → Str
  | 0, _ => []
  | fuel + 1, n =>
    UInt8.ofNat (n % 10 + 48) :: if n / 10 = 0 then [] else digitsRev fuel (n / 10)

/-- Second loop of `cowl_str_from_uint`, `cowl_cstring.c:24-28`: swaps the ends of
the part of the buffer between `buf` and `cur`. -/
def swapLoop : Nat → Str → Str
  | 0, l => l
  | _ + 1, [] => []
  | fuel + 1, x :: t =>
    match t.getLast? with
    | none => [x]
    | some y => y :: (swapLoop fuel t.dropLast ++ [x])

/-- `cowl_str_from_uint`, `cowl_cstring.c:13-31`; `cowl_write_uint`,
`cowl_writer.c:187-190`. -/
def uintToStr (n : UInt32) : Str :=
  let ds := digitsRev 10 n.toNat
  swapLoop ds.length ds

/-- Loop of `cowl_str_to_uint`, `cowl_cstring.c:36-39`. -/
def toUintLoop : Str → UInt32 → UInt32
  | [], res => res
  | c :: s, res =>
    if c < 48 ∨ 57 < c then 0xFFFFFFFF
    else toUintLoop s (res * 10 + UInt32.ofNat (c.toNat - 48))

/-- `cowl_str_to_uint`, `cowl_cstring.c:33-42`. Characters above 127 are negative
where `char` is signed and large where it is not; both are rejected. -/
def strToUint (s : Str) : UInt32 := toUintLoop s 0

end Cowl
