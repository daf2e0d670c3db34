import Verif.PrtRead
import Verif.PrtNumLemmas
/-! # Lemmas: reading what was written; literals -/
namespace Cowl.Prt

/-- Reading `b` gives `a`, consumes exactly `b` and leaves the rest of the state alone. -/
def Rt {α : Type} (d : Dec α) (ix : DIndex) (b : Str) (a : α) : Prop :=
  ∀ rest f, d ⟨b ++ rest, ix, f⟩ = .ok a ⟨rest, ix, f⟩

theorem bind_def {α β : Type} (x : Dec α) (f : α → Dec β) : (x >>= f) = Dec.bind x f := rfl

theorem Rt.bind {α β : Type} {x : Dec α} {k : α → Dec β} {ix : DIndex} {b b' : Str} {a : α} {c : β}
    (h : Rt x ix b a) (h' : Rt (k a) ix b' c) : Rt (x >>= k) ix (b ++ b') c := by
  intro rest f
  simp only [bind_def, Dec.bind, List.append_assoc]
  rw [h (b' ++ rest) f]
  exact h' rest f

theorem Rt.pure {α : Type} {ix : DIndex} (a : α) : Rt (pure a : Dec α) ix [] a := fun _ _ => rfl

theorem Rt.last {α β : Type} {x : Dec α} {k : α → Dec β} {ix : DIndex} {b : Str} {a : α} {c : β}
    (h : Rt x ix b a) (h' : k a = Pure.pure c) : Rt (x >>= k) ix b c := by
  have := h.bind (k := k) (b' := []) (c := c) (by rw [h']; exact Rt.pure c)
  simpa using this

theorem Rt.cast {α : Type} {d : Dec α} {ix : DIndex} {b b' : Str} {a : α} (h : Rt d ix b a) (e : b = b') :
    Rt d ix b' a := e ▸ h

@[simp] theorem append_bytes (a b : Out) : (a ++ b).bytes = a.bytes ++ b.bytes := rfl
@[simp] theorem append_ok (a b : Out) : (a ++ b).ok = (a.ok && b.ok) := rfl
@[simp] theorem raw_bytes (s : Str) : (raw s).bytes = s := rfl
@[simp] theorem raw_ok (s : Str) : (raw s).ok = true := rfl
@[simp] theorem cat_nil : cat [] = {} := rfl
@[simp] theorem cat_cons (x : Out) (xs : List Out) : cat (x :: xs) = x ++ cat xs := rfl

section
variable {E : Env} (hu : E.u.Lawful) {ix : DIndex}
include hu

theorem rt_varint {n : Nat} (h : n < 4294967296) : Rt (varint E) ix (vint E.u n).bytes n := by
  intro rest f
  simp only [varint, vint, raw_bytes, u32, Nat.mod_eq_of_lt h, hu.read_varint n h rest]

theorem rt_rawVarint {n : Nat} (h : n < 4294967296) : Rt (varint E) ix (E.u.varint n) n := by
  intro rest f
  simp only [varint, hu.read_varint n h rest]

theorem rt_svarint {v : Int} (h : IsInt32 v) : Rt (svarint E) ix (E.u.svarint v) v := by
  intro rest f
  simp only [svarint, hu.read_svarint v h rest]

theorem rt_str {s : Str} (h : s.length < 4294967296) : Rt (decStr E) ix (encStr E.u s).bytes s := by
  refine (rt_varint hu h).bind ?_
  intro rest f
  simp [bytes]

omit hu in
theorem rt_byte (c : UInt8) : Rt byte ix [c] c := fun _ _ => rfl

/-! ## Values of literals -/

/-- The text that is read for a format. -/
def Form.text (s : Str) : Form → Str
  | .str => s
  | .bool b => boolText b
  | .int v => fmtInt v
  | .uint n => fmtUint n
  | .fixed w f => fixedText w f
  | .exp w f e => fixedText w f ++ 69 :: fmtInt e

/-- The numbers are in range. -/
def Form.InRange : Form → Prop
  | .str | .bool _ => True
  | .int v => IsInt32 v
  | .uint n => n < 4294967296
  | .fixed w f => IsInt32 w ∧ f < 4294967296
  | .exp w f e => IsInt32 w ∧ f < 4294967296 ∧ IsInt32 e

theorem rt_form {x : Form} (hx : x ≠ .str) (hr : x.InRange) (s : Str) :
    Rt (decValue E x.code) ix (x.bytes E.u) (x.text s) := by
  cases x with
  | str => exact absurd rfl hx
  | bool b => cases b <;> exact fun _ _ => rfl
  | int v => exact (rt_svarint hu hr).last rfl
  | uint n => exact (rt_rawVarint hu hr).last rfl
  | fixed w f => exact (rt_svarint hu hr.1).bind ((rt_rawVarint hu hr.2).last rfl)
  | exp w f e =>
    refine Rt.cast ((rt_svarint hu hr.1).bind ((rt_rawVarint hu hr.2.1).bind ((rt_svarint hu hr.2.2).last rfl))) ?_
    simp [Form.bytes]

omit hu in
theorem intForm_range {v : Int} (h : IsInt32 v) : (intForm v).InRange := by
  unfold intForm
  obtain ⟨h1, h2⟩ := h
  split
  · exact ⟨h1, h2⟩
  · simp only [Form.InRange]; omega

omit hu in
theorem intForm_text {v : Int} (s : Str) : (intForm v).text s = fmtInt v := by
  unfold intForm
  split
  · rfl
  · rename_i h
    simp only [Form.text, fmtInt, if_neg h]
    congr 1; omega

omit hu in
theorem revVal_lt (ds : Str) : revVal ds < 4294967296 := by
  cases ds with
  | nil => simp [revVal]
  | cons c t => simp only [revVal, List.foldr_cons, u32]; omega

theorem maybeInt_range (s : Str) : (maybeInt E.u s).InRange := by
  unfold maybeInt
  split
  · rename_i v h; exact intForm_range (hu.to_int_range h)
  · trivial

theorem formOf_range (g : Group) (s : Str) : (formOf E.u g s).InRange := by
  cases g with
  | str => trivial
  | int => exact maybeInt_range hu s
  | bool =>
    simp only [formOf, maybeBool]
    split
    · trivial
    · split
      · trivial
      · exact maybeInt_range hu s
  | dec =>
    simp only [formOf, maybeDec]
    split
    · trivial
    · have hw := hu.str_to_int_range s
      generalize (E.u.strToInt s).1 = w at hw
      generalize (E.u.strToInt s).2 = r
      unfold fracForm
      split
      · exact intForm_range hw
      · rename_i c t
        dsimp only
        split
        · trivial
        · split
          · trivial
          · unfold expForm
            split
            · exact ⟨hw, revVal_lt _⟩
            · dsimp only
              split
              · trivial
              · split
                · trivial
                · exact ⟨hw, revVal_lt _, hu.str_to_int_range _⟩

omit hu in
theorem header_split {lt c : Nat} (h : lt < 4) (hc : c < 7) :
    (UInt8.ofNat (lt + c * 4)).toNat % 4 = lt ∧ (UInt8.ofNat (lt + c * 4)).toNat % 64 / 4 = c := by
  have : lt + c * 4 < 256 := by omega
  simp only [UInt8.toNat_ofNat', Nat.reducePow, Nat.mod_eq_of_lt this]
  omega

omit hu in
theorem code_lt (x : Form) : x.code < 7 := by cases x <;> simp [Form.code]

/-- What follows the value in `decLit`. -/
def litRest (E : Env) (v : Str) (lt : Nat) : Dec (Option Obj) :=
  match lt with
  | 0 => do
    let o ← ofLitRes E (literal v .none)
    Pure.pure (some o)
  | 1 => do
    let l ← decStr E
    let o ← ofLitRes E (literal v (.lang l))
    Pure.pure (some o)
  | 2 => do
    let i ← decIri E
    let o ← ofLitRes E (literal v (.dt i))
    Pure.pure (some o)
  | _ => Pure.pure none

theorem rt_value {lt : Nat} (hlt : lt < 4) (g : Group) {s b : Str} {o : Option Obj} (hs : s.length < 4294967296)
    (h : Rt (litRest E ((formOf E.u g s).text s) lt) ix b o) :
    Rt (decLit E) ix ((encValue E.u lt g s).bytes ++ b) o := by
  have hr := formOf_range hu g s
  unfold encValue
  generalize formOf E.u g s = x at h hr ⊢
  dsimp only
  split
  · rename_i hx
    subst hx
    have hh := header_split hlt (show 0 < 7 by omega)
    simp only [Nat.zero_mul, Nat.add_zero] at hh
    refine Rt.cast ((rt_byte (UInt8.ofNat lt)).bind (b' := (encStr E.u s).bytes ++ b) ?_) (by simp)
    rw [hh.2, hh.1]
    exact (rt_str hu hs).bind h
  · rename_i hx
    have hh := header_split hlt (code_lt x)
    refine Rt.cast ((rt_byte (UInt8.ofNat (lt + x.code * 4))).bind (b' := x.bytes E.u ++ b) ?_) (by simp)
    rw [hh.2, hh.1]
    exact (rt_form hu hx hr s).bind h

/-! ## Ids -/

/-- The index of the decoder holds what the encoder's index says. -/
def Knows (ids : Id → Option Nat) (ix : DIndex) (i : Id) : Prop :=
  ∃ n, ids i = some n ∧ n < 4294967279 ∧ ix.ids[n]? = some i

theorem rt_id {ids : Id → Option Nat} {i : Id} (h : Knows ids ix i) {off : Nat} (ho : off ≤ 17) :
    ∃ n, ix.ids[n]? = some i ∧ Rt (varint E) ix (encId E.u ids off i).bytes (n + off) := by
  obtain ⟨n, h1, h2, h3⟩ := h
  refine ⟨n, h3, ?_⟩
  simp only [encId, h1]
  exact rt_varint hu (by omega)

omit hu in
theorem rt_getId {n : Nat} {i : Id} (h : ix.ids[n]? = some i) : Rt (getId E n) ix [] i := by
  intro rest f; simp [getId, h]

omit hu in
theorem rt_getIri {n : Nat} {i : Iri} (h : ix.ids[n]? = some (.iri i)) : Rt (getIri E n) ix [] i :=
  (rt_getId h).last rfl

omit hu in
theorem rt_getEnt {n : Nat} {i : Iri} (k : EntKind) (h : ix.ids[n]? = some (.iri i)) :
    Rt (getEnt E k n) ix [] (.prim (.ent k i)) :=
  (rt_getIri h).last rfl

theorem rt_iri {ids : Id → Option Nat} {i : Iri} (h : Knows ids ix (.iri i)) :
    Rt (decIri E) ix (encId E.u ids 0 (.iri i)).bytes i := by
  obtain ⟨n, hn, hr⟩ := rt_id hu h (Nat.zero_le _)
  exact Rt.cast (hr.bind (rt_getIri hn)) (by simp)

theorem rt_ent {ids : Id → Option Nat} {i : Iri} (k : EntKind) (h : Knows ids ix (.iri i)) :
    Rt (decEnt E k) ix (encId E.u ids 0 (.iri i)).bytes (.prim (.ent k i)) := by
  obtain ⟨n, hn, hr⟩ := rt_id hu h (Nat.zero_le _)
  exact Rt.cast (hr.bind (rt_getEnt k hn)) (by simp)

/-- What is read for a literal, as arguments of the constructor. -/
def litRead (u : Ulib) (value : Str) : LitTag → LitRes
  | .lang l => literal value (.lang l)
  | .dt i =>
    if i = xsdString then literal value .none
    else literal ((formOf u (groupOf i) value).text value) (.dt i)

/-- Its strings are not too long, and its datatype is in the index unless it is `xsd:string`. -/
def LitFits (ids : Id → Option Nat) (ix : DIndex) (value : Str) : LitTag → Prop
  | .lang l => value.length < 4294967296 ∧ l.length < 4294967296
  | .dt i => value.length < 4294967296 ∧ (i ≠ xsdString → Knows ids ix (.iri i))

theorem rt_lit {ids : Id → Option Nat} {value v : Str} {tag t : LitTag} (h : LitFits ids ix value tag)
    (hl : litRead E.u value tag = .lit v t) :
    Rt (decLit E) ix (encLit E.u ids value tag).bytes (some (.lit v t)) := by
  cases tag with
  | lang l =>
    simp only [encLit, append_bytes]
    refine rt_value hu (by omega) .str h.1 ?_
    refine (rt_str hu h.2).last ?_
    simp only [formOf, Form.text]
    rw [show literal value (.lang l) = .lit v t from hl]; rfl
  | dt i =>
    by_cases hi : i = xsdString
    · simp only [encLit, if_pos hi]
      simp only [litRead, if_pos hi] at hl
      refine Rt.cast (rt_value hu (lt := 0) (by omega) .str (b := []) h.1 ?_) (by simp)
      simp only [litRest, formOf, Form.text, hl]
      exact Rt.pure _
    · simp only [encLit, if_neg hi, append_bytes]
      simp only [litRead, if_neg hi] at hl
      refine rt_value hu (by omega) (groupOf i) h.1 ?_
      refine (rt_iri hu (h.2 hi)).last ?_
      rw [hl]; rfl

end
end Cowl.Prt
