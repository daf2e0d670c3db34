import Verif.UintTextProps
/-!
# Numbers in ProtocOWL

The format rests on functions of ulib, whose source is not in the repository. They are
the parameters collected in `Ulib`; what is assumed about them is in `Ulib.Lawful`. The
instance `leb` shows that the assumptions can be met, and serves in examples.
-/
namespace Cowl.Prt

/-- Functions of ulib used by `cowl_prt_encoder.c` and `cowl_prt_decoder.c`. `ulib_uint`
and `ulib_int` are 32 bits wide. -/
structure Ulib where
  /-- `uostream_write_varint`. -/
  varint : Nat → Str
  /-- `uistream_read_varint` followed by the conversion to `ulib_uint`,
  `cowl_prt_decoder.c:97-103`; the value and what is left of the stream. -/
  readVarint : Str → Option (Nat × Str)
  /-- `uostream_write_svarint`. -/
  svarint : Int → Str
  /-- `uistream_read_svarint` followed by the conversion to `ulib_int`,
  `cowl_prt_decoder.c:116-122`. -/
  readSvarint : Str → Option (Int × Str)
  /-- `ustring_to_int` with base 10, called by `cowl_string_to_int`. -/
  toInt : Str → Option Int
  /-- `ulib_str_to_int` with base 10: the value and what is left of the text. Nothing is
  consumed if the text does not begin with a number. -/
  strToInt : Str → Int × Str

/-- Values of `ulib_int`. -/
def IsInt32 (v : Int) : Prop := -2147483648 ≤ v ∧ v < 2147483648

/-- `printf` with `ULIB_UINT_FMT` (`%u`), `cowl_prt_decoder.c:369`, `375`. -/
def fmtUint (n : Nat) : Str := (digitsRev 10 n).reverse

/-- `printf` with `ULIB_INT_FMT` (`%d`), `cowl_prt_decoder.c:363`, `373`, `401`. -/
def fmtInt (v : Int) : Str := if v < 0 then 45 :: fmtUint v.natAbs else fmtUint v.natAbs

/-- What is assumed of the functions of ulib. -/
structure Ulib.Lawful (u : Ulib) : Prop where
  read_varint : ∀ n < 4294967296, ∀ r, u.readVarint (u.varint n ++ r) = some (n, r)
  varint_lt : ∀ {s n r}, u.readVarint s = some (n, r) → n < 4294967296 ∧ r.length < s.length
  read_svarint : ∀ v, IsInt32 v → ∀ r, u.readSvarint (u.svarint v ++ r) = some (v, r)
  svarint_lt : ∀ {s v r}, u.readSvarint s = some (v, r) → IsInt32 v ∧ r.length < s.length
  to_int : ∀ v, IsInt32 v → u.toInt (fmtInt v) = some v
  to_int_range : ∀ {s v}, u.toInt s = some v → IsInt32 v
  str_to_int : ∀ v, IsInt32 v → ∀ r, (∀ c ∈ r.head?, ¬ IsDigit c) → u.strToInt (fmtInt v ++ r) = (v, r)
  str_to_int_range : ∀ s, IsInt32 (u.strToInt s).1

/-! ## An instance -/

/-- Seven bits per byte, least significant first; the first argument bounds the number
of bytes. -/
def lebEnc : Nat → Nat → Str
  | 0, _ => []
  | k + 1, n => if n < 128 then [UInt8.ofNat n] else UInt8.ofNat (n % 128 + 128) :: lebEnc k (n / 128)

/-- Inverse of `lebEnc`. -/
def lebDec : Nat → Str → Option (Nat × Str)
  | 0, _ => none
  | _ + 1, [] => none
  | k + 1, c :: s =>
    if c.toNat < 128 then some (c.toNat, s)
    else (lebDec k s).map fun r => (c.toNat - 128 + 128 * r.1, r.2)

/-- Signed numbers as unsigned ones: 0, -1, 1, -2, ... -/
def zigzag (v : Int) : Nat := if v < 0 then 2 * v.natAbs - 1 else 2 * v.natAbs

/-- Inverse of `zigzag`. -/
def zagzig (n : Nat) : Int := if n % 2 = 0 then (n / 2 : Nat) else -((n / 2 + 1 : Nat) : Int)

/-- The digit test of C. -/
def isDigit (c : UInt8) : Bool := decide (48 ≤ c.toNat) && decide (c.toNat ≤ 57)

/-- Numbers out of range become the nearest one in range, as with `strtol`. -/
def clamp (v : Int) : Int := if v < -2147483648 then -2147483648 else if 2147483648 ≤ v then 2147483647 else v

/-- As `strtol` (white space apart): optional sign and digits. -/
def strtol (s : Str) : Int × Str :=
  let neg := s.head? == some 45
  let t := if neg || s.head? == some 43 then s.drop 1 else s
  let ds := t.takeWhile isDigit
  if ds = [] then (0, s)
  else (clamp (if neg then -(decimal ds 0 : Int) else decimal ds 0), t.drop ds.length)

/-- An instance of the functions of ulib. -/
def leb : Ulib where
  varint n := lebEnc 5 n
  readVarint s := (lebDec 5 s).map fun r => (r.1 % 4294967296, r.2)
  svarint v := lebEnc 5 (zigzag v)
  readSvarint s := (lebDec 5 s).map fun r => (zagzig (r.1 % 4294967296), r.2)
  toInt s := if s ≠ [] ∧ (strtol s).2 = [] then some (strtol s).1 else none
  strToInt := strtol

end Cowl.Prt
