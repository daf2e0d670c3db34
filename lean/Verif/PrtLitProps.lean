import Verif.PrtLitSpec
import Verif.PrtLitLemmas
/-!
# C34: literals in ProtocOWL
-/
namespace Cowl.Prt

/-! ## Canonical texts -/

theorem decimal_pos : ∀ (ds : Str) (n : Nat), 0 < n → 0 < decimal ds n
  | [], n, h => h
  | c :: ds, n, h => by rw [decimal]; exact decimal_pos ds _ (by omega)

theorem decimal_ne_zero {ds : Str} (hd : ∀ c ∈ ds, IsDigit c) (hne : ds ≠ []) (h0 : ds.head? ≠ some 48) :
    0 < decimal ds 0 := by
  cases ds with
  | nil => exact absurd rfl hne
  | cons c t =>
    rw [decimal]
    refine decimal_pos t _ ?_
    have h1 := (hd c (by simp)).1
    have h2 : c.toNat ≠ 48 := fun e => h0 (by
      have : c = 48 := UInt8.toNat_inj.1 e
      rw [this]; rfl)
    omega

theorem digitsRev_canon : ∀ (fuel : Nat) (rs : Str), (∀ c ∈ rs, IsDigit c) → rs ≠ [] →
    (rs.getLast? = some 48 → rs = [48]) → decimal rs.reverse 0 < 10 ^ fuel → fuel ≠ 0 →
    digitsRev fuel (decimal rs.reverse 0) = rs
  | 0, _, _, _, _, _, h => absurd rfl h
  | fuel + 1, [], _, h, _, _, _ => absurd rfl h
  | fuel + 1, c :: t, hd, _, h0, hlt, _ => by
    have hc := hd c (by simp)
    have e : decimal (c :: t).reverse 0 = decimal t.reverse 0 * 10 + (c.toNat - 48) := by
      rw [List.reverse_cons, decimal_append]; rfl
    rw [e] at hlt ⊢
    have hc1 := hc.1; have hc2 := hc.2
    rw [digitsRev, show (decimal t.reverse 0 * 10 + (c.toNat - 48)) % 10 + 48 = c.toNat by omega,
      show (decimal t.reverse 0 * 10 + (c.toNat - 48)) / 10 = decimal t.reverse 0 by omega, UInt8.ofNat_toNat]
    congr 1
    by_cases ht : t = []
    · subst ht; rfl
    · have hl : t.getLast? ≠ some 48 := by
        intro h
        have := h0 (by rw [List.getLast?_cons_of_ne_nil ht]; exact h)
        simp at this; exact ht this.2
      have hpos : 0 < decimal t.reverse 0 :=
        decimal_ne_zero (fun x hx => hd x (by simp at hx; simp [hx])) (by simpa using ht) (by simpa using hl)
      rw [if_neg (by omega)]
      have hlt' : decimal t.reverse 0 < 10 ^ fuel := by rw [Nat.pow_succ] at hlt; omega
      refine digitsRev_canon fuel t (fun x hx => hd x (by simp [hx])) ht (fun h => absurd h hl) hlt' ?_
      rintro rfl
      simp at hlt'; omega

theorem fmtUint_canon {ds : Str} (h : CanonNat ds) (hv : decimal ds 0 < 10 ^ 10) : fmtUint (decimal ds 0) = ds := by
  obtain ⟨hd, hne, h0⟩ := h
  have := digitsRev_canon 10 ds.reverse (fun c hc => hd c (by simpa using hc)) (by simpa using hne)
    (fun e => by rw [h0 (by simpa using e)]; rfl) (by simpa using hv) (by omega)
  rw [List.reverse_reverse] at this
  rw [fmtUint, this, List.reverse_reverse]

theorem canonInt {s : Str} (h : CanonInt s) : ∃ v, IsInt32 v ∧ s = fmtInt v := by
  rcases h with ⟨h, hv⟩ | ⟨ds, rfl, h, hz, hv⟩
  · refine ⟨decimal s 0, ⟨by omega, by omega⟩, ?_⟩
    rw [fmtInt, if_neg (by omega), Int.natAbs_natCast, fmtUint_canon h (by omega)]
  · have hp : 0 < decimal ds 0 := decimal_ne_zero h.1 h.2.1 (fun e => hz (h.2.2 e))
    refine ⟨-(decimal ds 0 : Int), ⟨by omega, by omega⟩, ?_⟩
    rw [fmtInt, if_pos (by omega), Int.natAbs_neg, Int.natAbs_natCast, fmtUint_canon h (by omega)]

theorem revVal_step (ds : Str) : ∀ acc : Nat,
    ds.foldr (fun c r => u32 (r * 10 + (c.toNat - 48))) (u32 acc) = u32 (decimal ds.reverse acc) := by
  induction ds with
  | nil => intro acc; rfl
  | cons c t ih =>
    intro acc
    rw [List.foldr_cons, ih, List.reverse_cons, decimal_append]
    simp only [decimal, u32]; omega

theorem revVal_eq (ds : Str) : revVal ds = decimal ds.reverse 0 % 4294967296 := revVal_step ds 0

theorem frac_text {f : Str} (h : CanonFrac f) : (fmtUint (revVal f)).reverse = f := by
  rw [revVal_eq, Nat.mod_eq_of_lt h.2, fmtUint_canon h.1 (by have := h.2; omega), List.reverse_reverse]

theorem dot_head (r : Str) : ∀ c ∈ (46 :: r : Str).head?, ¬ IsDigit c := by
  intro c hc; simp at hc; subst hc; intro h; exact absurd h.1 (by decide)

theorem e_head (r : Str) : ∀ c ∈ (69 :: r : Str).head?, ¬ IsDigit c := by
  intro c hc; simp at hc; subst hc; intro h; exact absurd h.2 (by decide)

theorem nil_head : ∀ c ∈ ([] : Str).head?, ¬ IsDigit c := by intro c hc; cases hc

theorem maybeDec_frac {u : Ulib} (hu : u.Lawful) {w : Int} (hw : IsInt32 w) {f r : Str}
    (hf : ∀ c ∈ f, IsDigit c) (hne : f ≠ []) (hr : ∀ c ∈ r.head?, ¬ IsDigit c) :
    maybeDec u (fmtInt w ++ 46 :: (f ++ r)) = expForm u w (revVal f) r := by
  have h1 := hu.str_to_int w hw (46 :: (f ++ r)) (dot_head _)
  have hn : 0 < (fmtInt w).length := List.length_pos_iff.2 (fmtInt_ne_nil w)
  simp only [maybeDec, h1]
  rw [if_neg (by simp only [List.length_append, List.length_cons]; omega)]
  simp only [fracForm, takeWhile_digits hf hr]
  rw [if_neg (by simp [hne]), if_neg hne, List.drop_left]

theorem takeWhile_drop (t : Str) : t.drop (t.takeWhile isDigit).length = t.dropWhile isDigit := by
  induction t with
  | nil => rfl
  | cons c t ih =>
    by_cases h : isDigit c = true
    · simp [List.takeWhile_cons, List.dropWhile_cons, h, ih]
    · simp [List.takeWhile_cons, List.dropWhile_cons, h]

theorem canonDec {u : Ulib} (hu : u.Lawful) {s : Str} (h : CanonDec s) : (formOf u .dec s).text s = s := by
  rcases h with h | ⟨w, f, rfl, hw, hf⟩ | ⟨w, f, e, rfl, hw, hf, he⟩
  · obtain ⟨v, hv, rfl⟩ := canonInt h
    have h1 := hu.str_to_int v hv [] nil_head
    have hn : 0 < (fmtInt v).length := List.length_pos_iff.2 (fmtInt_ne_nil v)
    rw [List.append_nil] at h1
    simp only [formOf, maybeDec, h1]
    rw [if_neg (by simp only [List.length_nil]; omega)]
    exact intForm_text _
  · obtain ⟨v, hv, rfl⟩ := canonInt hw
    have := maybeDec_frac hu hv (f := f) (r := []) (fun c hc => hf.1.1 c (by simpa using hc))
      (by simpa using hf.1.2.1) nil_head
    rw [List.append_nil] at this
    simp only [formOf, this, expForm, Form.text, fixedText, frac_text hf]
  · obtain ⟨v, hv, rfl⟩ := canonInt hw
    obtain ⟨x, hx, rfl⟩ := canonInt he
    have := maybeDec_frac hu hv (f := f) (r := 69 :: fmtInt x) (fun c hc => hf.1.1 c (by simpa using hc))
      (by simpa using hf.1.2.1) (e_head _)
    have h2 := hu.str_to_int x hx [] nil_head
    rw [List.append_nil] at h2
    have hn : 0 < (fmtInt x).length := List.length_pos_iff.2 (fmtInt_ne_nil x)
    simp only [formOf, this, expForm]
    rw [if_neg (by simp [fmtInt_ne_nil]), h2]
    rw [if_neg (by simp only [List.length_nil, ne_eq, not_true_eq_false, or_false]; omega)]
    simp only [Form.text, fixedText, frac_text hf, List.append_assoc, List.cons_append]

/-- A text that has not the form of a number is written as it is. -/
theorem maybeDec_str {u : Ulib} {s : Str} (h : ¬ DecForm u.strToInt s) : maybeDec u s = .str := by
  simp only [maybeDec]
  split
  · rfl
  · rename_i hl
    unfold fracForm
    split
    · rename_i e; exact absurd ⟨hl, .inl e⟩ h
    · rename_i c t e
      dsimp only
      split
      · rfl
      · rename_i hc
        have hc : c = 46 := Classical.byContradiction fun k => hc (.inl k)
        subst hc
        split
        · rfl
        · rename_i hne
          have hd : ∀ x ∈ t.takeWhile isDigit, IsDigit x := fun x hx =>
            (isDigit_iff x).1 (List.all_eq_true.1 (List.all_takeWhile (p := isDigit) (l := t)) x hx)
          have ht : t.takeWhile isDigit ++ t.drop (t.takeWhile isDigit).length = t := by
            rw [takeWhile_drop]; exact List.takeWhile_append_dropWhile
          have hh : ∀ x ∈ (t.drop (t.takeWhile isDigit).length).head?, ¬ IsDigit x := by
            rw [takeWhile_drop]
            intro x hx hdx
            have := List.head?_dropWhile_not isDigit t
            rw [Option.mem_def.1 hx] at this
            simp [(isDigit_iff x).2 hdx] at this
          generalize t.drop (t.takeWhile isDigit).length = r at ht hh
          have no : ¬ (r = [] ∨ ∃ t, r = 69 :: t ∧ t ≠ [] ∧ (u.strToInt t).2 = []) := fun k =>
            h ⟨hl, .inr ⟨_, r, by rw [e, ht], hne, hd, hh, k⟩⟩
          unfold expForm
          split
          · exact absurd (.inl rfl) no
          · rename_i c2 t2
            split
            · rfl
            · rename_i hc2
              have hc2' : c2 = 69 := Classical.byContradiction fun k => hc2 (.inl k)
              subst hc2'
              dsimp only
              split
              · rfl
              · rename_i he
                exact absurd (.inr ⟨t2, rfl, fun k => hc2 (.inr k),
                  Classical.byContradiction fun k => he (.inr k)⟩) no

theorem canonInt_text {u : Ulib} (hu : u.Lawful) {s : Str} (h : CanonInt s ∨ u.toInt s = none) :
    (maybeInt u s).text s = s := by
  rcases h with h | h
  · obtain ⟨v, hv, rfl⟩ := canonInt h
    simp only [maybeInt, hu.to_int v hv]
    exact intForm_text _
  · simp only [maybeInt, h]; rfl

end Cowl.Prt

namespace Cowl
open Prt

/-- The literal, written, is read back as it was. -/
def LitKept (E : Env) (ids : Id → Option Nat) (ix : DIndex) (value : Str) (tag : LitTag) : Prop :=
  Rt (decLit E) ix (encLit E.u ids value tag).bytes (some (.lit value tag))

/-- Literals that survive: language tags as `cowl_literal` makes them; `xsd:string`; other
datatypes than those of language-tagged text, with a canonical text if they are numeric or
boolean, or one that does not have the form of a number. -/
def LitSafe (u : Ulib) (value : Str) : LitTag → Prop
  | .lang l => l ≠ [] ∧ lower l = l
  | .dt i =>
    i = xsdString ∨ (i ≠ rdfLangString ∧ i ≠ rdfPlainLiteral ∧
      (i = xsd "boolean" → value = ascii "true" ∨ value = ascii "false" ∨ CanonInt value ∨ u.toInt value = none) ∧
      (i.ns = xsdNs → i.rem ∈ intNames → CanonInt value ∨ u.toInt value = none) ∧
      (i.ns = xsdNs → i.rem ∈ decNames → CanonDec value ∨ ¬ DecForm u.strToInt value))

/-- The text of a number that survives is that of the number it is taken for. -/
theorem safe_text {u : Ulib} (hu : u.Lawful) {value : Str} {i : Iri}
    (hb : i = xsd "boolean" → value = ascii "true" ∨ value = ascii "false" ∨ CanonInt value ∨ u.toInt value = none)
    (hn : i.ns = xsdNs → i.rem ∈ intNames → CanonInt value ∨ u.toInt value = none)
    (hd : i.ns = xsdNs → i.rem ∈ decNames → CanonDec value ∨ ¬ DecForm u.strToInt value) :
    (formOf u (groupOf i) value).text value = value := by
  unfold groupOf
  split
  · rename_i e
    simp only [formOf, maybeBool]
    rcases hb e with e1 | e1 | e1
    · rw [if_pos (by simpa [boolText] using e1)]; simpa [Form.text, boolText] using e1.symm
    · split
      · rename_i e2; exact e2.symm
      · rw [if_pos (by simpa [boolText] using e1)]; simpa [Form.text, boolText] using e1.symm
    · split
      · rename_i e2; exact e2.symm
      · split
        · rename_i e2; exact e2.symm
        · exact canonInt_text hu e1
  · split
    · rename_i hm
      have : i.ns = xsdNs ∧ i.rem ∈ intNames := by
        simp only [intDts, List.mem_cons, List.not_mem_nil, or_false] at hm
        rcases hm with e | e | e | e | e | e | e | e | e | e | e | e | e <;>
          (rw [e]; simp [xsd, intNames])
      exact canonInt_text hu (hn this.1 this.2)
    · split
      · rename_i hm
        have : i.ns = xsdNs ∧ i.rem ∈ decNames := by
          simp only [decDts, List.mem_cons, List.not_mem_nil, or_false] at hm
          rcases hm with e | e | e <;> (rw [e]; simp [xsd, decNames])
        rcases hd this.1 this.2 with e | e
        · exact canonDec hu e
        · rw [show formOf u .dec value = .str from maybeDec_str e]; rfl
      · rfl

/-- C34, exactly: whatever the literal, it is read as `cowl_literal` makes it from its
datatype or language and the text of the number its value was taken for. -/
theorem C34_exact (E : Env) (hu : E.u.Lawful) (ids : Id → Option Nat) (ix : DIndex) (value v : Str)
    (tag t : LitTag) (h : LitFits ids ix value tag) (hl : litRead E.u value tag = .lit v t) :
    Rt (decLit E) ix (encLit E.u ids value tag).bytes (some (.lit v t)) :=
  rt_lit hu h hl

/-- C34 for the literals of `LitSafe`. Missing: other texts of numbers and booleans, see
`C34_fails`, and literals of `rdf:langString` or `rdf:PlainLiteral` without a language. -/
theorem C34_partial (E : Env) (hu : E.u.Lawful) (ids : Id → Option Nat) (ix : DIndex) (value : Str)
    (tag : LitTag) (h : LitFits ids ix value tag) (hs : LitSafe E.u value tag) : LitKept E ids ix value tag := by
  refine rt_lit hu h ?_
  cases tag with
  | lang l =>
    simp only [litRead, literal, literalLang]
    rw [if_neg (by simpa using hs.1), hs.2]
  | dt i =>
    simp only [litRead]
    split
    · rename_i hi; subst hi; rfl
    · rename_i hi
      rcases hs with hs | ⟨h1, h2, hb, hn, hd⟩
      · exact absurd hs hi
      · have ht := safe_text hu hb hn hd
        rw [ht]
        simp [literal, isLangDatatype, h1, h2]

/-- C34: the bytes determine the literal, up to what C34_exact says. -/
theorem C34_same_bytes (E : Env) (hu : E.u.Lawful) (ids : Id → Option Nat) (ix : DIndex) (v w : Str)
    (s t : LitTag) (hv : LitFits ids ix v s) (hw : LitFits ids ix w t) (sv : LitSafe E.u v s)
    (sw : LitSafe E.u w t) (h : (encLit E.u ids v s).bytes = (encLit E.u ids w t).bytes) : v = w ∧ s = t := by
  have h1 := C34_partial E hu ids ix v s hv sv [] 0
  have h2 := C34_partial E hu ids ix w t hw sw [] 0
  rw [h, h2] at h1
  injection h1 with h1 _
  injection h1 with h1
  injection h1 with h1 h3
  exact ⟨h1.symm, h3.symm⟩

/-- An index for examples: it holds one IRI. -/
def oneId (i : Iri) (j : Id) : Option Nat := if j = .iri i then some 0 else none

theorem oneId_knows (i : Iri) : Knows (oneId i) ⟨[], [.iri i]⟩ (.iri i) := ⟨0, by simp [oneId], by omega, rfl⟩

theorem oneId_fits (i : Iri) {v : Str} (h : v.length < 4294967296) : LitFits (oneId i) ⟨[], [.iri i]⟩ v (.dt i) :=
  ⟨h, fun _ => oneId_knows i⟩

/-- The number that is read for digits after the dot, if the text is `w.f`. -/
theorem dec_text {u : Ulib} (hu : u.Lawful) {w : Int} (hw : IsInt32 w) {f : Str} (hf : ∀ c ∈ f, IsDigit c)
    (hne : f ≠ []) (s : Str) :
    (formOf u .dec (fmtInt w ++ 46 :: f)).text s = fmtInt w ++ 46 :: (fmtUint (revVal f)).reverse := by
  have := maybeDec_frac hu hw hf hne (r := []) nil_head
  rw [List.append_nil] at this
  simp only [formOf, this, expForm, Form.text, fixedText]

theorem groupOf_decimal : groupOf (xsd "decimal") = .dec ∧ groupOf (xsd "double") = .dec ∧
    xsd "decimal" ≠ xsdString ∧ xsd "double" ≠ xsdString ∧
    isLangDatatype (xsd "decimal") = false ∧ isLangDatatype (xsd "double") = false := by decide +kernel

/-- C34 fails, whatever ulib does within its contract: a zero at the end of a decimal is
lost, and digits after the dot that do not fit 32 bits become others, so that
`3.14159265359` is read as another number. -/
theorem C34_fails (E : Env) (hu : E.u.Lawful) :
    (∃ ids ix, LitFits ids ix (ascii "1.10") (.dt (xsd "decimal")) ∧
      Rt (decLit E) ix (encLit E.u ids (ascii "1.10") (.dt (xsd "decimal"))).bytes
        (some (.lit (ascii "1.1") (.dt (xsd "decimal"))))) ∧
    (∃ ids ix, LitFits ids ix (ascii "3.14159265359") (.dt (xsd "double")) ∧
      Rt (decLit E) ix (encLit E.u ids (ascii "3.14159265359") (.dt (xsd "double"))).bytes
        (some (.lit (ascii "3.926410768") (.dt (xsd "double"))))) := by
  obtain ⟨g1, g2, n1, n2, l1, l2⟩ := groupOf_decimal
  refine ⟨⟨oneId _, ⟨[], [.iri (xsd "decimal")]⟩, oneId_fits _ (by decide +kernel), ?_⟩,
    ⟨oneId _, ⟨[], [.iri (xsd "double")]⟩, oneId_fits _ (by decide +kernel), ?_⟩⟩
  · refine rt_lit hu (oneId_fits _ (by decide +kernel)) ?_
    have ht := dec_text hu (w := 1) (by constructor <;> decide) (f := [49, 48])
      (by intro c hc; simp at hc; rcases hc with rfl | rfl <;> (constructor <;> decide)) (by simp) (ascii "1.10")
    have e : fmtInt 1 ++ 46 :: [49, 48] = ascii "1.10" := by decide +kernel
    have e' : fmtInt 1 ++ 46 :: (fmtUint (revVal [49, 48])).reverse = ascii "1.1" := by decide +kernel
    rw [e, e'] at ht
    simp only [litRead, if_neg n1, g1, ht, literal, l1]
    rfl
  · refine rt_lit hu (oneId_fits _ (by decide +kernel)) ?_
    have ht := dec_text hu (w := 3) (by constructor <;> decide) (f := ascii "14159265359")
      (by
        have : ∀ c ∈ ascii "14159265359", 48 ≤ c.toNat ∧ c.toNat ≤ 57 := by decide +kernel
        exact this) (by decide +kernel) (ascii "3.14159265359")
    have e : fmtInt 3 ++ 46 :: ascii "14159265359" = ascii "3.14159265359" := by decide +kernel
    have e' : fmtInt 3 ++ 46 :: (fmtUint (revVal (ascii "14159265359"))).reverse = ascii "3.926410768" := by
      decide +kernel
    rw [e, e'] at ht
    simp only [litRead, if_neg n2, g2, ht, literal, l2]
    rfl

/-- C34 fails further with `leb` for ulib, where numbers are parsed as by `strtol`: the sign
of a number between -1 and 0 is lost, zeros in front and plus signs are, large integers
become 2147483647. -/
theorem C34_leb_fails :
    (formOf leb .dec (ascii "-0.5")).text (ascii "-0.5") = ascii "0.5" ∧
    (formOf leb .int (ascii "007")).text (ascii "007") = ascii "7" ∧
    (formOf leb .int (ascii "+5")).text (ascii "+5") = ascii "5" ∧
    (formOf leb .int (ascii "3000000000")).text (ascii "3000000000") = ascii "2147483647" ∧
    (formOf leb .bool (ascii "01")).text (ascii "01") = ascii "1" := by decide +kernel

/-- The decoder with `leb`. -/
def lebEnv : Env := ⟨leb, fun n => ascii "g" ++ fmtUint n, false⟩

/-- A negative decimal is read as a positive one. -/
theorem C34_sign_fails : Rt (decLit lebEnv) ⟨[], [.iri (xsd "decimal")]⟩
    (encLit leb (oneId (xsd "decimal")) (ascii "-0.5") (.dt (xsd "decimal"))).bytes
    (some (.lit (ascii "0.5") (.dt (xsd "decimal")))) := by
  obtain ⟨g1, -, n1, -, l1, -⟩ := groupOf_decimal
  refine rt_lit (E := lebEnv) leb_lawful (oneId_fits _ (by decide +kernel)) ?_
  simp only [litRead, if_neg n1, g1, literal, l1]
  rw [show (formOf lebEnv.u .dec (ascii "-0.5")).text (ascii "-0.5") = ascii "0.5" from C34_leb_fails.1]
  rfl

/-- C34 fails for a literal that `cowl_literal_typed` made with `rdf:langString`: the decoder
calls `cowl_literal`, which looks for a language in the value. -/
theorem C34_lang_fails (E : Env) (hu : E.u.Lawful) :
    ∃ ids ix, literalTyped (ascii "a@b") rdfLangString = .lit (ascii "a@b") (.dt rdfLangString) ∧
      Rt (decLit E) ix (encLit E.u ids (ascii "a@b") (.dt rdfLangString)).bytes
        (some (.lit (ascii "a") (.lang (ascii "b")))) := by
  refine ⟨oneId _, ⟨[], [.iri rdfLangString]⟩, rfl, rt_lit hu (oneId_fits _ (by decide +kernel)) ?_⟩
  have h1 : rdfLangString ≠ xsdString ∧ groupOf rdfLangString = .str := by decide +kernel
  have h2 : literal (ascii "a@b") (.dt rdfLangString) = .lit (ascii "a") (.lang (ascii "b")) := by decide +kernel
  simp only [litRead, if_neg h1.1, h1.2, formOf, Form.text, h2]

/-! The hypotheses of `C34_partial` can be met: a double in scientific notation, an integer,
text in a language. -/

theorem digits_of {s : Str} (h : ∀ c ∈ s, 48 ≤ c.toNat ∧ c.toNat ≤ 57) : ∀ c ∈ s, IsDigit c := h

theorem canon_example : CanonDec (ascii "-12.305E-7") := by
  have n1 : CanonNat (ascii "12") := ⟨digits_of (by decide +kernel), by decide +kernel, by decide +kernel⟩
  have n2 : CanonNat (ascii "305").reverse := ⟨digits_of (by decide +kernel), by decide +kernel, by decide +kernel⟩
  have n3 : CanonNat (ascii "7") := ⟨digits_of (by decide +kernel), by decide +kernel, by decide +kernel⟩
  refine .inr (.inr ⟨ascii "-12", ascii "305", ascii "-7", by decide +kernel, ?_, ⟨n2, by decide +kernel⟩, ?_⟩)
  · exact .inr ⟨ascii "12", by decide +kernel, n1, by decide +kernel, by decide +kernel⟩
  · exact .inr ⟨ascii "7", by decide +kernel, n3, by decide +kernel, by decide +kernel⟩

example : LitKept lebEnv (oneId (xsd "double")) ⟨[], [.iri (xsd "double")]⟩ (ascii "-12.305E-7") (.dt (xsd "double")) :=
  C34_partial lebEnv leb_lawful _ _ _ _ (oneId_fits _ (by decide +kernel))
    (.inr ⟨by decide +kernel, by decide +kernel, fun h => absurd h (by decide +kernel),
      fun _ h => absurd h (by decide +kernel), fun _ _ => .inl canon_example⟩)

example : LitKept lebEnv (fun _ => none) {} (ascii "ciao") (.lang (ascii "it")) :=
  C34_partial lebEnv leb_lawful _ _ _ _ ⟨by decide +kernel, by decide +kernel⟩ ⟨by decide +kernel, by decide +kernel⟩

end Cowl
