import Verif.PrtNormSpec
import Verif.PrtDocProps
/-! # Lemmas: the normal form of literals in ProtocOWL -/
namespace Cowl.Prt
open Ast IterSpec

theorem lower_of_none {l : Str} (h : ∀ c ∈ l, ¬ (65 ≤ c ∧ c ≤ 90)) : lower l = l := by
  unfold lower
  exact (List.map_congr_left fun c hc => if_neg (h c hc)).trans (List.map_id l)

/-! ## Canonical texts -/

theorem digitsRev_last : ∀ (fuel n : Nat), n < 10 ^ fuel → fuel ≠ 0 → (digitsRev fuel n).getLast? = some 48 →
    digitsRev fuel n = [48]
  | 0, _, _, h, _ => absurd rfl h
  | fuel + 1, n, hn, _, h => by
    rw [digitsRev] at h ⊢
    by_cases h0 : n / 10 = 0
    · rw [if_pos h0] at h ⊢
      simpa using h
    · rw [if_neg h0] at h ⊢
      exfalso
      have hf : fuel ≠ 0 := by rintro rfl; simp at hn; omega
      obtain ⟨k, rfl⟩ : ∃ k, fuel = k + 1 := ⟨fuel - 1, by omega⟩
      rw [List.getLast?_cons_of_ne_nil (digitsRev_ne_nil _ _)] at h
      have hlt : n / 10 < 10 ^ (k + 1) := by rw [Nat.pow_succ] at hn; omega
      have e := digitsRev_last (k + 1) (n / 10) hlt (by omega) h
      have := digitsRev_value (k + 1) (n / 10) hlt 0
      rw [e] at this
      simp [decimal] at this
      omega

theorem canonNat_fmt {n : Nat} (h : n < 10 ^ 10) : CanonNat (fmtUint n) := by
  refine ⟨fmtUint_digits n, fmtUint_ne_nil n, fun e => ?_⟩
  unfold fmtUint at e ⊢
  rw [List.head?_reverse] at e
  rw [digitsRev_last 10 n h (by omega) e]
  rfl

theorem canonInt_fmt {v : Int} (h : IsInt32 v) : CanonInt (fmtInt v) := by
  obtain ⟨h1, h2⟩ := h
  unfold fmtInt
  split
  · rename_i hv
    have hn : v.natAbs < 10 ^ 10 := by omega
    refine .inr ⟨_, rfl, canonNat_fmt hn, fun e => ?_, ?_⟩
    · have := fmtUint_value v.natAbs hn
      rw [e] at this
      simp [decimal] at this
      omega
    · rw [fmtUint_value _ hn]; omega
  · have hn : v.natAbs < 10 ^ 10 := by omega
    exact .inl ⟨canonNat_fmt hn, by rw [fmtUint_value _ hn]; omega⟩

theorem canonFrac_fmt {n : Nat} (h : n < 4294967296) : CanonFrac (fmtUint n).reverse := by
  unfold CanonFrac
  rw [List.reverse_reverse, fmtUint_value n (by omega)]
  exact ⟨canonNat_fmt (by omega), h⟩

theorem revVal_fmt {n : Nat} (h : n < 4294967296) : revVal (fmtUint n).reverse = n := by
  rw [revVal_eq, List.reverse_reverse, fmtUint_value n (by omega), Nat.mod_eq_of_lt h]

/-! ## Forms -/

/-- The forms a decimal may have. -/
theorem maybeDec_cases {u : Ulib} (hu : u.Lawful) (s : Str) :
    maybeDec u s = .str ∨ maybeDec u s = intForm (u.strToInt s).1 ∨
    (∃ f, f < 4294967296 ∧ maybeDec u s = .fixed (u.strToInt s).1 f) ∨
    ∃ f e, f < 4294967296 ∧ IsInt32 e ∧ maybeDec u s = .exp (u.strToInt s).1 f e := by
  simp only [maybeDec]
  split
  · exact .inl rfl
  · generalize (u.strToInt s).1 = w
    generalize (u.strToInt s).2 = r
    unfold fracForm
    split
    · exact .inr (.inl rfl)
    · dsimp only
      split
      · exact .inl rfl
      · split
        · exact .inl rfl
        · unfold expForm
          split
          · exact .inr (.inr (.inl ⟨_, revVal_lt _, rfl⟩))
          · dsimp only
            split
            · exact .inl rfl
            · split
              · exact .inl rfl
              · exact .inr (.inr (.inr ⟨_, _, revVal_lt _, hu.str_to_int_range _, rfl⟩))

theorem maybeDec_int {u : Ulib} (hu : u.Lawful) {w : Int} (hw : IsInt32 w) : maybeDec u (fmtInt w) = intForm w := by
  have h1 := hu.str_to_int w hw [] nil_head
  have hn : 0 < (fmtInt w).length := List.length_pos_iff.2 (fmtInt_ne_nil w)
  rw [List.append_nil] at h1
  simp only [maybeDec, h1]
  rw [if_neg (by simp only [List.length_nil]; omega)]
  rfl

theorem maybeDec_fixed {u : Ulib} (hu : u.Lawful) {w : Int} (hw : IsInt32 w) {f : Nat} (hf : f < 4294967296) :
    maybeDec u (fixedText w f) = .fixed w f := by
  have := maybeDec_frac hu hw (f := (fmtUint f).reverse) (r := [])
    (fun c hc => fmtUint_digits f c (by simpa using hc)) (by simpa using fmtUint_ne_nil f) nil_head
  rw [List.append_nil] at this
  rw [fixedText, this, revVal_fmt hf]
  rfl

theorem maybeDec_exp {u : Ulib} (hu : u.Lawful) {w e : Int} (hw : IsInt32 w) (he : IsInt32 e) {f : Nat}
    (hf : f < 4294967296) : maybeDec u (fixedText w f ++ 69 :: fmtInt e) = .exp w f e := by
  have := maybeDec_frac hu hw (f := (fmtUint f).reverse) (r := 69 :: fmtInt e)
    (fun c hc => fmtUint_digits f c (by simpa using hc)) (by simpa using fmtUint_ne_nil f) (e_head _)
  rw [fixedText, List.append_assoc, List.cons_append, this, revVal_fmt hf]
  have h2 := hu.str_to_int e he [] nil_head
  rw [List.append_nil] at h2
  have hn : 0 < (fmtInt e).length := List.length_pos_iff.2 (fmtInt_ne_nil e)
  simp only [expForm]
  rw [if_neg (by simp [fmtInt_ne_nil]), h2]
  rw [if_neg (by simp only [List.length_nil, ne_eq, not_true_eq_false, or_false]; omega)]

theorem maybeInt_int {u : Ulib} (hu : u.Lawful) {v : Int} (hv : IsInt32 v) : maybeInt u (fmtInt v) = intForm v := by
  simp only [maybeInt, hu.to_int v hv]

theorem maybeInt_cases {u : Ulib} (hu : u.Lawful) (s : Str) :
    (u.toInt s = none ∧ maybeInt u s = .str) ∨ ∃ v, u.toInt s = some v ∧ IsInt32 v ∧ maybeInt u s = intForm v := by
  unfold maybeInt
  cases h : u.toInt s with
  | none => exact .inl ⟨rfl, rfl⟩
  | some v => exact .inr ⟨v, rfl, hu.to_int_range h, rfl⟩

theorem fmtInt_head (v : Int) : ∀ c ∈ (fmtInt v).head?, c = 45 ∨ IsDigit c := by
  intro c hc
  unfold fmtInt at hc
  split at hc
  · simp at hc; exact .inl hc.symm
  · exact .inr (fmtUint_digits _ c (List.mem_of_mem_head? hc))

theorem fmtInt_not_bool (v : Int) (b : Bool) : fmtInt v ≠ boolText b := by
  intro h
  have hh := fmtInt_head v
  rw [h] at hh
  have e : ∀ b, ∃ c, (boolText b).head? = some c ∧ c ≠ 45 ∧ 57 < c.toNat := by
    intro b; cases b
    · exact ⟨102, by decide +kernel, by decide, by decide⟩
    · exact ⟨116, by decide +kernel, by decide, by decide⟩
  obtain ⟨c, h1, h2, h3⟩ := e b
  rcases hh c h1 with k | k
  · exact h2 k
  · exact absurd k.2 (by omega)

theorem maybeBool_int {u : Ulib} (hu : u.Lawful) {v : Int} (hv : IsInt32 v) : maybeBool u (fmtInt v) = intForm v := by
  unfold maybeBool
  rw [if_neg (fmtInt_not_bool v true), if_neg (fmtInt_not_bool v false), maybeInt_int hu hv]

theorem bool_ne : boolText false ≠ boolText true := by decide +kernel

/-- The text of a form has this form. -/
theorem form_stable {u : Ulib} (hu : u.Lawful) (g : Group) (s : Str) :
    formOf u g ((formOf u g s).text s) = formOf u g s := by
  cases g with
  | str => rfl
  | int =>
    show maybeInt u ((maybeInt u s).text s) = maybeInt u s
    rcases maybeInt_cases hu s with ⟨-, h⟩ | ⟨v, -, hv, h⟩
    · rw [h]; exact h
    · rw [h, intForm_text, maybeInt_int hu hv]
  | bool =>
    show maybeBool u ((maybeBool u s).text s) = maybeBool u s
    by_cases h1 : s = boolText true
    · subst h1
      have : maybeBool u (boolText true) = .bool true := by unfold maybeBool; rw [if_pos rfl]
      rw [this]; exact this
    · by_cases h2 : s = boolText false
      · subst h2
        have : maybeBool u (boolText false) = .bool false := by
          unfold maybeBool; rw [if_neg bool_ne, if_pos rfl]
        rw [this]; exact this
      · have e : maybeBool u s = maybeInt u s := by unfold maybeBool; rw [if_neg h1, if_neg h2]
        rw [e]
        rcases maybeInt_cases hu s with ⟨-, h⟩ | ⟨v, -, hv, h⟩
        · rw [h]; exact e.trans h
        · rw [h, intForm_text, maybeBool_int hu hv]
  | dec =>
    show maybeDec u ((maybeDec u s).text s) = maybeDec u s
    have hw := hu.str_to_int_range s
    rcases maybeDec_cases hu s with h | h | ⟨f, hf, h⟩ | ⟨f, e, hf, he, h⟩
    · rw [h]; exact h
    · rw [h, intForm_text, maybeDec_int hu hw]
    · rw [h]; exact maybeDec_fixed hu hw hf
    · rw [h]; exact maybeDec_exp hu hw he hf

/-! ## The normal form -/

/-- The value that is read for a literal. -/
def litNorm (u : Ulib) (v : Str) : LitTag → Str
  | .lang _ => v
  | .dt i => if i = xsdString then v else (formOf u (groupOf i) v).text v

theorem norm_once {u : Ulib} (hu : u.Lawful) (v : Str) (t : LitTag) : litNorm u (litNorm u v t) t = litNorm u v t := by
  cases t with
  | lang l => rfl
  | dt i =>
    by_cases hi : i = xsdString
    · simp only [litNorm, if_pos hi]
    · simp only [litNorm, if_neg hi]
      rw [form_stable hu]
      cases h : formOf u (groupOf i) v <;> rfl

/-- The bytes do not depend on the text of a number. -/
theorem encValue_norm {u : Ulib} (hu : u.Lawful) (lt : Nat) (g : Group) (s : Str) :
    encValue u lt g ((formOf u g s).text s) = encValue u lt g s := by
  unfold encValue
  dsimp only
  rw [form_stable hu]
  split
  · rename_i h; rw [h]; rfl
  · rfl

theorem encLit_norm {u : Ulib} (hu : u.Lawful) (ids : Id → Option Nat) (v : Str) (t : LitTag) :
    encLit u ids (litNorm u v t) t = encLit u ids v t := by
  cases t with
  | lang l => rfl
  | dt i =>
    by_cases hi : i = xsdString
    · simp only [litNorm, encLit, if_pos hi]
    · simp only [litNorm, encLit, if_neg hi, encValue_norm hu]

/-- Texts with the form of a number are not written as they are. -/
theorem maybeDec_form {u : Ulib} {s : Str} (h : DecForm u.strToInt s) : maybeDec u s ≠ .str := by
  have hi : ∀ w : Int, intForm w ≠ .str := fun w => by unfold intForm; split <;> nofun
  simp only [maybeDec]
  rw [if_neg h.1]
  rcases h.2 with e | ⟨f, e, h1, hf, hd, he, h2⟩
  · rw [e]; exact hi _
  · rw [h1]
    simp only [fracForm, takeWhile_digits hd he]
    rw [if_neg (by simp [hf]), if_neg hf, List.drop_left]
    rcases h2 with rfl | ⟨t, rfl, ht, h3⟩
    · exact nofun
    · simp only [expForm]
      rw [if_neg (by simp [ht]), if_neg]
      · exact nofun
      · rw [h3]
        have := List.length_pos_iff.2 ht
        simp only [List.length_nil, ne_eq, not_true_eq_false, or_false]
        omega

theorem intForm_ne (w : Int) : intForm w ≠ .str := by unfold intForm; split <;> nofun

/-- Integers whose text is that of the number they are taken for. -/
theorem int_of_text {u : Ulib} (hu : u.Lawful) {v : Str} (h : (maybeInt u v).text v = v) :
    CanonInt v ∨ u.toInt v = none := by
  rcases maybeInt_cases hu v with ⟨k, -⟩ | ⟨w, -, hw, e⟩
  · exact .inr k
  · rw [e, intForm_text] at h
    rw [← h]; exact .inl (canonInt_fmt hw)

theorem dec_of_text {u : Ulib} (hu : u.Lawful) {v : Str} (h : (maybeDec u v).text v = v) :
    CanonDec v ∨ ¬ DecForm u.strToInt v := by
  have hw := canonInt_fmt (hu.str_to_int_range v)
  rcases maybeDec_cases hu v with e | e | ⟨f, hf, e⟩ | ⟨f, x, hf, hx, e⟩
  · exact .inr fun k => maybeDec_form k e
  · rw [e, intForm_text] at h
    exact .inl (.inl (h ▸ hw))
  · rw [e] at h
    refine .inl (.inr (.inl ⟨_, _, h.symm, hw, canonFrac_fmt hf⟩))
  · rw [e] at h
    refine .inl (.inr (.inr ⟨_, _, _, ?_, hw, canonFrac_fmt hf, canonInt_fmt hx⟩))
    rw [← List.cons_append, ← List.append_assoc]
    exact h.symm

theorem group_int {n : Str} (h : n ∈ intNames) : groupOf ⟨xsdNs, n⟩ = .int ∧ (⟨xsdNs, n⟩ : Iri) ≠ xsdString := by
  have : ∀ n ∈ intNames, groupOf ⟨xsdNs, n⟩ = .int ∧ (⟨xsdNs, n⟩ : Iri) ≠ xsdString := by decide +kernel
  exact this n h

theorem group_dec {n : Str} (h : n ∈ decNames) : groupOf ⟨xsdNs, n⟩ = .dec ∧ (⟨xsdNs, n⟩ : Iri) ≠ xsdString := by
  have : ∀ n ∈ decNames, groupOf ⟨xsdNs, n⟩ = .dec ∧ (⟨xsdNs, n⟩ : Iri) ≠ xsdString := by decide +kernel
  exact this n h

theorem group_bool : groupOf (xsd "boolean") = .bool := by unfold groupOf; rw [if_pos rfl]

theorem group_num {i : Iri} (h : groupOf i ≠ .str) : ∃ n ∈ numNames, i = ⟨xsdNs, n⟩ := by
  unfold groupOf at h
  split at h
  · rename_i e; exact ⟨_, by simp [numNames], e⟩
  · split at h
    · rename_i hm
      simp only [intDts, List.mem_cons, List.not_mem_nil, or_false] at hm
      rcases hm with e | e | e | e | e | e | e | e | e | e | e | e | e <;>
        exact ⟨_, by simp [numNames, intNames], e⟩
    · split at h
      · rename_i hm
        simp only [decDts, List.mem_cons, List.not_mem_nil, or_false] at hm
        rcases hm with e | e | e <;> exact ⟨_, by simp [numNames, decNames], e⟩
      · exact absurd rfl h

/-- Texts that survive are normal, and the other way round. -/
theorem norm_normal {u : Ulib} (hu : u.Lawful) (v : Str) (t : LitTag) (ht : LitMade t) :
    LitSafe u v t ↔ litNorm u v t = v := by
  cases t with
  | lang l => exact ⟨fun _ => rfl, fun _ => ⟨ht.1, lower_of_none ht.2⟩⟩
  | dt i =>
    by_cases hi : i = xsdString
    · simp only [litNorm, if_pos hi, iff_true]; exact .inl hi
    · simp only [litNorm, if_neg hi]
      constructor
      · rintro (h | ⟨-, -, hb, hn, hd⟩)
        · exact absurd h hi
        · exact safe_text hu hb hn hd
      · intro h
        refine .inr ⟨ht.1, ht.2, ?_, ?_, ?_⟩
        · rintro rfl
          rw [group_bool] at h
          simp only [formOf, maybeBool] at h
          by_cases h1 : v = boolText true
          · exact .inl h1
          · by_cases h2 : v = boolText false
            · exact .inr (.inl h2)
            · rw [if_neg h1, if_neg h2] at h
              exact .inr (.inr (int_of_text hu h))
        · intro e1 e2
          obtain ⟨ns, n⟩ := i
          obtain rfl : ns = xsdNs := e1
          rw [(group_int e2).1] at h
          exact int_of_text hu h
        · intro e1 e2
          obtain ⟨ns, n⟩ := i
          obtain rfl : ns = xsdNs := e1
          rw [(group_dec e2).1] at h
          exact dec_of_text hu h

theorem litNorm_isNorm {u : Ulib} (hu : u.Lawful) : IsNorm u (litNorm u) where
  once := norm_once hu
  normal := norm_normal hu
  only v t h := by
    cases t with
    | lang l => exact absurd rfl h
    | dt i =>
      by_cases hi : i = xsdString
      · simp only [litNorm, if_pos hi, ne_eq, not_true_eq_false] at h
      · simp only [litNorm, if_neg hi] at h
        obtain ⟨n, hn, e⟩ := group_num (i := i) fun k => h (by rw [k]; rfl)
        exact ⟨n, hn, by rw [e]⟩
  int v k n hn h := by
    simp only [litNorm, if_neg (group_int hn).2, (group_int hn).1, formOf, maybeInt, h]
    exact intForm_text _
  bool v k h1 h2 h := by
    have hi : xsd "boolean" ≠ xsdString := by decide +kernel
    simp only [litNorm, if_neg hi, group_bool, formOf, maybeBool]
    rw [if_neg (show ¬ v = boolText true from h1), if_neg (show ¬ v = boolText false from h2)]
    simp only [maybeInt, h]
    exact intForm_text _
  dec v n hn h := by
    simp only [litNorm, if_neg (group_dec hn).2, (group_dec hn).1, formOf] at h ⊢
    rcases maybeDec_cases hu v with e | e | ⟨f, -, e⟩ | ⟨f, x, -, -, e⟩
    · rw [e] at h; exact absurd rfl h
    · exact ⟨[], by rw [e, intForm_text, List.append_nil], by simp⟩
    · exact ⟨46 :: (fmtUint f).reverse, by rw [e]; rfl, by simp⟩
    · exact ⟨46 :: (fmtUint f).reverse ++ 69 :: fmtInt x, by rw [e, ← List.append_assoc]; rfl, by simp⟩

/-! ### Lengths -/

theorem text_length {u : Ulib} (hu : u.Lawful) (g : Group) (v : Str) :
    ((formOf u g v).text v).length ≤ max v.length 100 := by
  have I := fun w => fmtInt_length w
  have F := fun w => fmtUint_length w
  have hi : ((maybeInt u v).text v).length ≤ max v.length 100 := by
    rcases maybeInt_cases hu v with ⟨-, e⟩ | ⟨w, -, -, e⟩
    · rw [e]; exact Nat.le_max_left _ _
    · rw [e, intForm_text]; have := I w; omega
  cases g with
  | str => exact Nat.le_max_left _ _
  | int => exact hi
  | bool =>
    simp only [formOf, maybeBool]
    split
    · have : (boolText true).length ≤ 100 := by decide +kernel
      exact Nat.le_trans this (Nat.le_max_right _ _)
    · split
      · have : (boolText false).length ≤ 100 := by decide +kernel
        exact Nat.le_trans this (Nat.le_max_right _ _)
      · exact hi
  | dec =>
    simp only [formOf]
    rcases maybeDec_cases hu v with e | e | ⟨f, -, e⟩ | ⟨f, x, -, -, e⟩
    · rw [e]; exact Nat.le_max_left _ _
    · rw [e, intForm_text]; have := I (u.strToInt v).1; omega
    · rw [e]; have := I (u.strToInt v).1; have := F f
      simp only [Form.text, fixedText, List.length_append, List.length_cons, List.length_reverse]; omega
    · rw [e]; have := I (u.strToInt v).1; have := F f; have := I x
      simp only [Form.text, fixedText, List.length_append, List.length_cons, List.length_reverse]; omega

theorem norm_length {u : Ulib} (hu : u.Lawful) (v : Str) (t : LitTag) : (litNorm u v t).length ≤ max v.length 100 := by
  cases t with
  | lang l => exact Nat.le_max_left _ _
  | dt i =>
    by_cases hi : i = xsdString
    · simp only [litNorm, if_pos hi]; exact Nat.le_max_left _ _
    · simp only [litNorm, if_neg hi]; exact text_length hu _ v

section
variable {u : Ulib} {ids : Id → Option Nat} {f : Str → LitTag → Str}

theorem mapLits_eq : ∀ xs : List Obj, mapLits f xs = xs.map (mapLit f)
  | [] => rfl
  | x :: xs => by rw [mapLits, mapLits_eq xs]; rfl

theorem idObj_mapLit (o : Obj) : idObj (mapLit f o) = idObj o := by cases o <;> simp [mapLit, idObj]

theorem encField_mapLit (off : Nat) (o : Option Obj) : encField u ids off (o.map (mapLit f)) = encField u ids off o := by
  cases o with
  | none => rfl
  | some o => simp [encField, idObj_mapLit]

theorem encAnnotVal_mapLit (o : Option Obj) (w : Out) : encAnnotVal u ids (o.map (mapLit f)) w = encAnnotVal u ids o w := by
  cases o with
  | none => rfl
  | some o =>
    have := encField_mapLit (u := u) (ids := ids) (f := f) 1 (some o)
    cases o <;> first | rfl | exact this

theorem declCode_mapLit (o : Option Obj) : declCode (o.map (mapLit f)) = declCode o := by
  rcases o with _ | o
  · rfl
  · cases o <;> simp [mapLit, declCode]

theorem isChain_mapLit (o : Option Obj) : isChain (o.map (mapLit f)) = isChain o := by
  rcases o with _ | o
  · rfl
  · cases o <;> simp [mapLit, isChain]

theorem assemble_mapLit (t : OType) (bit : Bool) (fs : List Obj) (ws : List Out) (n : Nat) :
    assemble u ids t bit (mapLits f fs) ws n = assemble u ids t bit fs ws n := by
  unfold assemble
  simp only [mapLits_eq, List.getElem?_map, encField_mapLit, encAnnotVal_mapLit, declCode_mapLit, isChain_mapLit]

mutual
theorem encObj_mapLit (hf : ∀ v t, encLit u ids (f v t) t = encLit u ids v t) :
    ∀ o : Obj, encObj u ids (mapLit f o) = encObj u ids o
  | .str _ => by simp only [mapLit]
  | .vec _ xs => by
    simp only [mapLit, encObj, encList_mapLit hf xs]
    rw [mapLits_eq, List.length_map]
  | .lit v t => by simp only [mapLit, encObj, hf]
  | .prim p => by simp only [mapLit]
  | .other _ _ => by simp only [mapLit]
  | .comp t b fs n => by simp only [mapLit, encObj, encList_mapLit hf fs, assemble_mapLit]

theorem encList_mapLit (hf : ∀ v t, encLit u ids (f v t) t = encLit u ids v t) :
    ∀ xs : List Obj, encList u ids (mapLits f xs) = encList u ids xs
  | [] => by simp only [mapLits]
  | x :: xs => by simp only [mapLits, encList, encObj_mapLit hf x, encList_mapLit hf xs]
end

theorem encObj_norm (hu : u.Lawful) (o : Obj) : encObj u ids (mapLit (litNorm u) o) = encObj u ids o :=
  encObj_mapLit (fun v t => encLit_norm hu ids v t) o

mutual
theorem mapLit_once (hf : ∀ v t, f (f v t) t = f v t) : ∀ o : Obj, mapLit f (mapLit f o) = mapLit f o
  | .str _ => by simp only [mapLit]
  | .vec _ xs => by simp only [mapLit, mapLits_once hf xs]
  | .lit v t => by simp only [mapLit, hf]
  | .prim p => by simp only [mapLit]
  | .other _ _ => by simp only [mapLit]
  | .comp t b fs n => by simp only [mapLit, mapLits_once hf fs]

theorem mapLits_once (hf : ∀ v t, f (f v t) t = f v t) : ∀ xs : List Obj, mapLits f (mapLits f xs) = mapLits f xs
  | [] => by simp only [mapLits]
  | x :: xs => by simp only [mapLits, mapLit_once hf x, mapLits_once hf xs]
end

mutual
theorem occurs_mapLit : ∀ (o : Obj) {p : Prim}, Occurs p (mapLit f o) → Occurs p o
  | .str _, _, h => by simp only [mapLit] at h; exact h
  | .vec _ xs, _, h => by
    simp only [mapLit] at h
    cases h with
    | item hx h =>
      obtain ⟨y, hy, h⟩ := occurs_mapLits xs hx h
      exact .item hy h
  | .lit v t, _, h => by
    simp only [mapLit] at h
    cases h with
    | datatype _ i => exact .datatype _ _
    | langString _ l => exact .langString _ _
  | .prim p, _, h => by simp only [mapLit] at h; exact h
  | .other _ _, _, h => by simp only [mapLit] at h; exact h
  | .comp t b fs n, _, h => by
    simp only [mapLit] at h
    cases h with
    | field hx h =>
      obtain ⟨y, hy, h⟩ := occurs_mapLits fs hx h
      exact .field hy h
    | defaultFiller ht => exact .defaultFiller ht
    | defaultRange ht => exact .defaultRange ht

theorem occurs_mapLits : ∀ (xs : List Obj) {p : Prim} {x : Obj}, x ∈ mapLits f xs → Occurs p x →
    ∃ y ∈ xs, Occurs p y
  | [], _, _, hx, _ => by simp only [mapLits] at hx; cases hx
  | y :: ys, _, _, hx, h => by
    simp only [mapLits] at hx
    rcases List.mem_cons.1 hx with e | e
    · subst e; exact ⟨y, by simp, occurs_mapLit y h⟩
    · obtain ⟨z, hz, h⟩ := occurs_mapLits ys e h
      exact ⟨z, by simp [hz], h⟩
end

theorem axType_mapLit (o : Obj) : axType (mapLit f o) = axType o := by
  cases o <;> simp [mapLit, axType, Obj.otype]

end

/-! ## Constructs with other literals -/

section
variable (f : Str → LitTag → Str)

/-- The literal with its value replaced. -/
def onLit (l : Lit) : Lit := ⟨f l.value l.tag, l.tag⟩

mutual
/-- The data range with the values of its literals replaced. -/
def onDR : DR → DR
  | .dt i => .dt i
  | .inter ds => .inter (onDRs ds)
  | .union ds => .union (onDRs ds)
  | .compl d => .compl (onDR d)
  | .oneOf ls => .oneOf (ls.map (onLit f))
  | .restr i fs => .restr i (fs.map fun x => (x.1, onLit f x.2))

/-- Those of a list. -/
def onDRs : List DR → List DR
  | [] => []
  | d :: ds => onDR d :: onDRs ds
end

mutual
/-- The class expression with the values of its literals replaced. -/
def onCE : CE → CE
  | .cls i => .cls i
  | .inter cs => .inter (onCEs cs)
  | .union cs => .union (onCEs cs)
  | .compl c => .compl (onCE c)
  | .oneOf is => .oneOf is
  | .objSome p c => .objSome p (onCE c)
  | .objAll p c => .objAll p (onCE c)
  | .objHasValue p i => .objHasValue p i
  | .objHasSelf p => .objHasSelf p
  | .objCard k n p => .objCard k n p
  | .objCardQ k n p c => .objCardQ k n p (onCE c)
  | .dataSome p d => .dataSome p (onDR f d)
  | .dataAll p d => .dataAll p (onDR f d)
  | .dataHasValue p l => .dataHasValue p (onLit f l)
  | .dataCard k n p => .dataCard k n p
  | .dataCardQ k n p d => .dataCardQ k n p (onDR f d)

/-- Those of a list. -/
def onCEs : List CE → List CE
  | [] => []
  | d :: ds => onCE d :: onCEs ds
end

/-- The value of an annotation, replaced if it is a literal. -/
def onVal : AnnotVal → AnnotVal
  | .lit l => .lit (onLit f l)
  | v => v

mutual
/-- The annotation with the values of its literals replaced. -/
def onAnnot : Annot → Annot
  | .mk p v as => .mk p (onVal f v) (onAnnots as)

/-- Those of a list. -/
def onAnnots : List Annot → List Annot
  | [] => []
  | d :: ds => onAnnot d :: onAnnots ds
end

/-- The axiom with the values of its literals replaced. -/
def onAx : Ax → Ax
  | .decl k i => .decl k i
  | .subClass c d => .subClass (onCE f c) (onCE f d)
  | .equivClasses cs => .equivClasses (onCEs f cs)
  | .disjClasses cs => .disjClasses (onCEs f cs)
  | .disjUnion c cs => .disjUnion c (onCEs f cs)
  | .subObjProp p q => .subObjProp p q
  | .equivObjProp ps => .equivObjProp ps
  | .disjObjProp ps => .disjObjProp ps
  | .invObjProp p q => .invObjProp p q
  | .objPropDomain p c => .objPropDomain p (onCE f c)
  | .objPropRange p c => .objPropRange p (onCE f c)
  | .objPropChar k p => .objPropChar k p
  | .subDataProp p q => .subDataProp p q
  | .equivDataProp ps => .equivDataProp ps
  | .disjDataProp ps => .disjDataProp ps
  | .dataPropDomain p c => .dataPropDomain p (onCE f c)
  | .dataPropRange p d => .dataPropRange p (onDR f d)
  | .funcDataProp p => .funcDataProp p
  | .datatypeDef i d => .datatypeDef i (onDR f d)
  | .hasKey c ps ds => .hasKey (onCE f c) ps ds
  | .sameInd is => .sameInd is
  | .diffInd is => .diffInd is
  | .classAssert c i => .classAssert (onCE f c) i
  | .objPropAssert p i j => .objPropAssert p i j
  | .negObjPropAssert p i j => .negObjPropAssert p i j
  | .dataPropAssert p i l => .dataPropAssert p i (onLit f l)
  | .negDataPropAssert p i l => .negDataPropAssert p i (onLit f l)
  | .annotAssert p s v => .annotAssert p s (onVal f v)
  | .subAnnotProp p q => .subAnnotProp p q
  | .annotPropDomain p i => .annotPropDomain p i
  | .annotPropRange p i => .annotPropRange p i

/-- The annotated axiom with the values of its literals replaced. -/
def onAxiom (a : Axiom) : Axiom := ⟨onAx f a.ax, onAnnots f a.annots⟩

variable {f}

theorem onLit_toObj (l : Lit) : (onLit f l).toObj = mapLit f l.toObj := by simp [onLit, Lit.toObj, mapLit]

theorem facet_toObj (x : Iri × Lit) : facetObj (x.1, onLit f x.2) = mapLit f (facetObj x) := by
  simp [facetObj, mapLit, mapLits, onLit_toObj]

theorem mapLits_map {α : Type} (g : α → Obj) (k : α → α) (h : ∀ x, g (k x) = mapLit f (g x)) (xs : List α) :
    mapLits f (xs.map g) = (xs.map k).map g := by
  rw [mapLits_eq]; simp [h]

theorem mapLits_id {α : Type} (g : α → Obj) (h : ∀ x, g x = mapLit f (g x)) (xs : List α) :
    mapLits f (xs.map g) = xs.map g := by
  rw [mapLits_map g id h]; simp

theorem ind_toObj (i : Ind) : i.toObj = mapLit f i.toObj := by cases i <;> simp [Ind.toObj, ent, mapLit]

theorem ope_toObj (p : Ope) : p.toObj = mapLit f p.toObj := by cases p <;> simp [Ope.toObj, ent, mapLit, mapLits]

theorem ent_toObj (k : EntKind) (i : Iri) : ent k i = mapLit f (ent k i) := by simp [ent, mapLit]

theorem sub_toObj (p : SubOpe) : p.toObj = mapLit f p.toObj := by
  cases p with
  | ope p => exact ope_toObj p
  | chain ps => simp only [SubOpe.toObj, mapLit, mapLits_id Ope.toObj ope_toObj]

theorem subj_toObj (p : AnnotSubj) : p.toObj = mapLit f p.toObj := by cases p <;> simp [AnnotSubj.toObj, mapLit]

theorem val_toObj (v : AnnotVal) : (onVal f v).toObj = mapLit f v.toObj := by
  cases v <;> simp [AnnotVal.toObj, onVal, mapLit, onLit_toObj]

theorem dr_top_on (d : DR) : (onDR f d).isTop = d.isTop := by cases d <;> simp [onDR, DR.isTop]

theorem ce_top_on (d : CE) : (onCE f d).isTop = d.isTop := by cases d <;> simp [onCE, CE.isTop]

mutual
theorem dr_toObj : ∀ d : DR, (onDR f d).toObj = mapLit f d.toObj
  | .dt i => by simp only [onDR, DR.toObj, ← ent_toObj]
  | .inter ds | .union ds => by simp only [onDR, DR.toObj, mapLit, mapLits, drs_toObj ds]
  | .compl d => by simp only [onDR, DR.toObj, mapLit, mapLits, dr_toObj d]
  | .oneOf ls => by simp only [onDR, DR.toObj, mapLit, mapLits, mapLits_map Lit.toObj (onLit f) onLit_toObj]
  | .restr i fs => by
    simp only [onDR, DR.toObj, mapLit, mapLits, ← ent_toObj,
      mapLits_map facetObj (fun x => (x.1, onLit f x.2)) facet_toObj]

theorem drs_toObj : ∀ ds : List DR, DR.toObjs (onDRs f ds) = mapLits f (DR.toObjs ds)
  | [] => by simp only [onDRs, DR.toObjs, mapLits]
  | d :: ds => by simp only [onDRs, DR.toObjs, mapLits, dr_toObj d, drs_toObj ds]
end

mutual
theorem ce_toObj : ∀ d : CE, (onCE f d).toObj = mapLit f d.toObj
  | .cls i => by simp only [onCE, CE.toObj, ← ent_toObj]
  | .inter ds | .union ds => by simp only [onCE, CE.toObj, mapLit, mapLits, ces_toObj ds]
  | .compl d => by simp only [onCE, CE.toObj, mapLit, mapLits, ce_toObj d]
  | .oneOf is => by simp only [onCE, CE.toObj, mapLit, mapLits, mapLits_id Ind.toObj ind_toObj]
  | .objSome p c | .objAll p c => by
    simp only [onCE, CE.toObj, ce_top_on]
    split <;> simp only [mapLit, mapLits, ← ope_toObj, ce_toObj c]
  | .objHasValue p i => by simp only [onCE, CE.toObj, mapLit, mapLits, ← ope_toObj, ← ind_toObj]
  | .objHasSelf p => by simp only [onCE, CE.toObj, mapLit, mapLits, ← ope_toObj]
  | .objCard k n p => by simp only [onCE, CE.toObj, mapLit, mapLits, ← ope_toObj]
  | .objCardQ k n p c => by simp only [onCE, CE.toObj, mapLit, mapLits, ← ope_toObj, ce_toObj c]
  | .dataSome p d | .dataAll p d => by
    simp only [onCE, CE.toObj, dr_top_on]
    split <;> simp only [mapLit, mapLits, ← ent_toObj, dr_toObj d]
  | .dataHasValue p l => by simp only [onCE, CE.toObj, mapLit, mapLits, ← ent_toObj, onLit_toObj]
  | .dataCard k n p => by simp only [onCE, CE.toObj, mapLit, mapLits, ← ent_toObj]
  | .dataCardQ k n p d => by simp only [onCE, CE.toObj, mapLit, mapLits, ← ent_toObj, dr_toObj d]

theorem ces_toObj : ∀ ds : List CE, CE.toObjs (onCEs f ds) = mapLits f (CE.toObjs ds)
  | [] => by simp only [onCEs, CE.toObjs, mapLits]
  | d :: ds => by simp only [onCEs, CE.toObjs, mapLits, ce_toObj d, ces_toObj ds]
end

theorem annotated_mapLit (t : OType) (fs as : List Obj) :
    annotated t (mapLits f fs) (mapLits f as) = mapLit f (annotated t fs as) := by
  cases as with
  | nil => simp only [mapLits, annotated, mapLit]
  | cons a as => simp [mapLits, annotated, mapLit, mapLits_eq]

mutual
theorem annot_toObj : ∀ a : Annot, (onAnnot f a).toObj = mapLit f a.toObj
  | .mk p v as => by
    simp only [onAnnot, Annot.toObj, ← annotated_mapLit, mapLits, annots_toObj as, ← ent_toObj, val_toObj]

theorem annots_toObj : ∀ as : List Annot, Annot.toObjs (onAnnots f as) = mapLits f (Annot.toObjs as)
  | [] => by simp only [onAnnots, Annot.toObjs, mapLits]
  | a :: as => by simp only [onAnnots, Annot.toObjs, mapLits, annot_toObj a, annots_toObj as]
end

theorem iri_mapLit (i : Iri) : mapLit f (.prim (.iri i)) = .prim (.iri i) := by simp only [mapLit]

theorem ax_type (a : Ax) : (onAx f a).type = a.type := by cases a <;> rfl

theorem ax_fields (a : Ax) : (onAx f a).fields = mapLits f a.fields := by
  cases a <;> simp only [onAx, Ax.fields, mapLits, mapLit, ce_toObj, ces_toObj, dr_toObj, onLit_toObj, val_toObj,
    ← ent_toObj, ← ope_toObj, ← ind_toObj, ← sub_toObj, ← subj_toObj, mapLits_id Ope.toObj ope_toObj,
    mapLits_id Ind.toObj ind_toObj, mapLits_id (ent .dataProp) (ent_toObj _)]

theorem axiom_toObj (a : Axiom) : (onAxiom f a).toObj = mapLit f a.toObj := by
  simp only [Axiom.toObj, onAxiom, ax_type, ax_fields, annots_toObj, annotated_mapLit]

/-! ### Requirements -/

section
variable {R R' : Req} (hi : R.iri = R'.iri) (hl : ∀ l, R.lit l → R'.lit (onLit f l)) (ha : R.anon = R'.anon)
  (hs : R.sub = R'.sub) (h2 : R.two = R'.two) (h1 : R.one = R'.one) (h0 : R.any = R'.any) (hc : R.card = R'.card)

theorem length_onDRs (ds : List DR) : (onDRs f ds).length = ds.length := by
  induction ds with
  | nil => rfl
  | cons d ds ih => simp [onDRs, ih]

theorem length_onCEs (ds : List CE) : (onCEs f ds).length = ds.length := by
  induction ds with
  | nil => rfl
  | cons d ds ih => simp [onCEs, ih]

theorem length_onAnnots (ds : List Annot) : (onAnnots f ds).length = ds.length := by
  induction ds with
  | nil => rfl
  | cons d ds ih => simp [onAnnots, ih]

include hi ha in
theorem ind_on {i : Ind} (h : i.Meets R) : i.Meets R' := by
  cases i <;> simp only [Ind.Meets, ← hi, ← ha] at h ⊢ <;> exact h

include hi in
theorem ope_on {p : Ope} (h : p.Meets R) : p.Meets R' := by
  cases p <;> simp only [Ope.Meets, ← hi] at h ⊢ <;> exact h

include hi hl ha in
theorem val_on {v : AnnotVal} (h : v.Meets R) : (onVal f v).Meets R' := by
  cases v <;> simp only [onVal, AnnotVal.Meets, ← hi, ← ha] at h ⊢ <;> first | exact h | exact hl _ h

include hi ha in
theorem subj_on {v : AnnotSubj} (h : v.Meets R) : v.Meets R' := by
  cases v <;> simp only [AnnotSubj.Meets, ← hi, ← ha] at h ⊢ <;> exact h

include hi hs h2 in
theorem subOpe_on {v : SubOpe} (h : v.Meets R) : v.Meets R' := by
  cases v with
  | ope p => simp only [SubOpe.Meets, ← hs] at h ⊢; exact ⟨ope_on hi h.1, h.2⟩
  | chain ps => simp only [SubOpe.Meets, ← h2] at h ⊢; exact ⟨h.1, fun p hp => ope_on hi (h.2 p hp)⟩

mutual
theorem dr_on (hi : R.iri = R'.iri) (hl : ∀ l, R.lit l → R'.lit (onLit f l)) (h2 : R.two = R'.two) (h1 : R.one = R'.one) :
    ∀ d : DR, d.Meets R → (onDR f d).Meets R'
  | .dt i, h => by simp only [onDR, DR.Meets, ← hi] at h ⊢; exact h
  | .inter ds, h => by
    simp only [onDR, DR.Meets, ← h2, length_onDRs] at h ⊢; exact ⟨h.1, drs_on hi hl h2 h1 ds h.2⟩
  | .union ds, h => by
    simp only [onDR, DR.Meets, ← h2, length_onDRs] at h ⊢; exact ⟨h.1, drs_on hi hl h2 h1 ds h.2⟩
  | .compl d, h => by simp only [onDR, DR.Meets] at h ⊢; exact dr_on hi hl h2 h1 d h
  | .oneOf ls, h => by
    simp only [onDR, DR.Meets, ← h1, List.length_map] at h ⊢
    refine ⟨h.1, fun l hm => ?_⟩
    obtain ⟨k, hk, rfl⟩ := List.mem_map.1 hm
    exact hl k (h.2 k hk)
  | .restr i fs, h => by
    simp only [onDR, DR.Meets, ← h1, ← hi, List.length_map] at h ⊢
    refine ⟨h.1, h.2.1, fun l hm => ?_⟩
    obtain ⟨k, hk, rfl⟩ := List.mem_map.1 hm
    exact ⟨(h.2.2 k hk).1, hl k.2 (h.2.2 k hk).2⟩

theorem drs_on (hi : R.iri = R'.iri) (hl : ∀ l, R.lit l → R'.lit (onLit f l)) (h2 : R.two = R'.two) (h1 : R.one = R'.one) :
    ∀ ds : List DR, DR.AllMeet R ds → DR.AllMeet R' (onDRs f ds)
  | [], _ => by simp only [onDRs, DR.AllMeet]
  | d :: ds, h => by
    simp only [onDRs, DR.AllMeet] at h ⊢
    exact ⟨dr_on hi hl h2 h1 d h.1, drs_on hi hl h2 h1 ds h.2⟩
end

mutual
theorem ce_on (hi : R.iri = R'.iri) (hl : ∀ l, R.lit l → R'.lit (onLit f l)) (ha : R.anon = R'.anon)
    (h2 : R.two = R'.two) (h1 : R.one = R'.one) (hc : R.card = R'.card) :
    ∀ d : CE, d.Meets R → (onCE f d).Meets R'
  | .cls i, h => by simp only [onCE, CE.Meets, ← hi] at h ⊢; exact h
  | .inter ds, h => by
    simp only [onCE, CE.Meets, ← h2, length_onCEs] at h ⊢; exact ⟨h.1, ces_on hi hl ha h2 h1 hc ds h.2⟩
  | .union ds, h => by
    simp only [onCE, CE.Meets, ← h2, length_onCEs] at h ⊢; exact ⟨h.1, ces_on hi hl ha h2 h1 hc ds h.2⟩
  | .compl d, h => by simp only [onCE, CE.Meets] at h ⊢; exact ce_on hi hl ha h2 h1 hc d h
  | .oneOf is, h => by
    simp only [onCE, CE.Meets, ← h1] at h ⊢
    exact ⟨h.1, fun i hm => ind_on hi ha (h.2 i hm)⟩
  | .objSome p c, h => by
    simp only [onCE, CE.Meets] at h ⊢; exact ⟨ope_on hi h.1, ce_on hi hl ha h2 h1 hc c h.2⟩
  | .objAll p c, h => by
    simp only [onCE, CE.Meets] at h ⊢; exact ⟨ope_on hi h.1, ce_on hi hl ha h2 h1 hc c h.2⟩
  | .objHasValue p i, h => by simp only [onCE, CE.Meets] at h ⊢; exact ⟨ope_on hi h.1, ind_on hi ha h.2⟩
  | .objHasSelf p, h => by simp only [onCE, CE.Meets] at h ⊢; exact ope_on hi h
  | .objCard k n p, h => by simp only [onCE, CE.Meets, ← hc] at h ⊢; exact ⟨ope_on hi h.1, h.2⟩
  | .objCardQ k n p c, h => by
    simp only [onCE, CE.Meets, ← hc] at h ⊢; exact ⟨ope_on hi h.1, ce_on hi hl ha h2 h1 hc c h.2.1, h.2.2⟩
  | .dataSome p d, h => by simp only [onCE, CE.Meets, ← hi] at h ⊢; exact ⟨h.1, dr_on hi hl h2 h1 d h.2⟩
  | .dataAll p d, h => by simp only [onCE, CE.Meets, ← hi] at h ⊢; exact ⟨h.1, dr_on hi hl h2 h1 d h.2⟩
  | .dataHasValue p l, h => by simp only [onCE, CE.Meets, ← hi] at h ⊢; exact ⟨h.1, hl l h.2⟩
  | .dataCard k n p, h => by simp only [onCE, CE.Meets, ← hi, ← hc] at h ⊢; exact h
  | .dataCardQ k n p d, h => by
    simp only [onCE, CE.Meets, ← hi, ← hc] at h ⊢; exact ⟨h.1, dr_on hi hl h2 h1 d h.2.1, h.2.2⟩

theorem ces_on (hi : R.iri = R'.iri) (hl : ∀ l, R.lit l → R'.lit (onLit f l)) (ha : R.anon = R'.anon)
    (h2 : R.two = R'.two) (h1 : R.one = R'.one) (hc : R.card = R'.card) :
    ∀ ds : List CE, CE.AllMeet R ds → CE.AllMeet R' (onCEs f ds)
  | [], _ => by simp only [onCEs, CE.AllMeet]
  | d :: ds, h => by
    simp only [onCEs, CE.AllMeet] at h ⊢
    exact ⟨ce_on hi hl ha h2 h1 hc d h.1, ces_on hi hl ha h2 h1 hc ds h.2⟩
end

mutual
theorem annot_on (hi : R.iri = R'.iri) (hl : ∀ l, R.lit l → R'.lit (onLit f l)) (ha : R.anon = R'.anon)
    (h0 : R.any = R'.any) : ∀ a : Annot, a.Meets R → (onAnnot f a).Meets R'
  | .mk p v as, h => by
    simp only [onAnnot, Annot.Meets, ← hi, ← h0, length_onAnnots] at h ⊢
    exact ⟨h.1, val_on hi hl ha h.2.1, annots_on hi hl ha h0 as h.2.2.1, h.2.2.2⟩

theorem annots_on (hi : R.iri = R'.iri) (hl : ∀ l, R.lit l → R'.lit (onLit f l)) (ha : R.anon = R'.anon)
    (h0 : R.any = R'.any) : ∀ as : List Annot, Annot.AllMeet R as → Annot.AllMeet R' (onAnnots f as)
  | [], _ => by simp only [onAnnots, Annot.AllMeet]
  | a :: as, h => by
    simp only [onAnnots, Annot.AllMeet] at h ⊢
    exact ⟨annot_on hi hl ha h0 a h.1, annots_on hi hl ha h0 as h.2⟩
end

include hi hl ha hs h2 h1 h0 hc in
theorem axiom_on {a : Axiom} (h : a.Meets R) : (onAxiom f a).Meets R' := by
  obtain ⟨a, as⟩ := a
  refine ⟨?_, annots_on hi hl ha h0 as h.2.1, ?_⟩
  · have h := h.1
    have C := fun c h => ce_on (f := f) hi hl ha h2 h1 hc c h
    have Cs := fun c h => ces_on (f := f) hi hl ha h2 h1 hc c h
    have D := fun c h => dr_on (f := f) hi hl h2 h1 c h
    have P := fun {p : Ope} (h : p.Meets R) => ope_on hi h
    have I := fun {p : Ind} (h : p.Meets R) => ind_on hi ha h
    cases a <;> simp only [onAxiom, onAx, Ax.Meets, ← hi, ← h2, ← h0, length_onCEs] at h ⊢
    case decl | subDataProp | equivDataProp | disjDataProp | funcDataProp | subAnnotProp | annotPropDomain
      | annotPropRange => exact h
    case subClass => exact ⟨C _ h.1, C _ h.2⟩
    case equivClasses | disjClasses => exact ⟨h.1, Cs _ h.2⟩
    case disjUnion => exact ⟨h.1, h.2.1, Cs _ h.2.2⟩
    case subObjProp => exact ⟨subOpe_on hi hs h2 h.1, P h.2⟩
    case equivObjProp | disjObjProp => exact ⟨h.1, fun p hp => P (h.2 p hp)⟩
    case invObjProp => exact ⟨P h.1, P h.2⟩
    case objPropDomain | objPropRange => exact ⟨P h.1, C _ h.2⟩
    case objPropChar => exact P h
    case dataPropDomain => exact ⟨h.1, C _ h.2⟩
    case dataPropRange | datatypeDef => exact ⟨h.1, D _ h.2⟩
    case hasKey => exact ⟨C _ h.1, fun p hp => P (h.2.1 p hp), h.2.2⟩
    case sameInd | diffInd => exact ⟨h.1, fun p hp => I (h.2 p hp)⟩
    case classAssert => exact ⟨C _ h.1, I h.2⟩
    case objPropAssert | negObjPropAssert => exact ⟨P h.1, I h.2.1, I h.2.2⟩
    case dataPropAssert | negDataPropAssert => exact ⟨h.1, I h.2.1, hl _ h.2.2⟩
    case annotAssert => exact ⟨h.1, subj_on hi ha h.2.1, val_on hi hl ha h.2.2⟩
  · have := h.2.2
    simp only [onAxiom, length_onAnnots, ← h0]; exact this

end
end

/-! ## Ontologies with other literals -/

open Func (Item collectAxioms collect_eq loaded loaded_reaches loaded_byType filter_obj)
open Change OntoSpec

/-- The axiom or annotation with the values of its literals replaced. -/
def mapRef (f : Str → LitTag → Str) (r : Ref) : Ref := ⟨r.addr, mapLit f r.obj⟩

/-- The ontology with the values of its literals replaced. -/
def mapOnto (f : Str → LitTag → Str) (o : OntoSt) : OntoSt :=
  ⟨o.pm, o.iri, o.version, loaded (o.onto.imports.getD []) ((o.onto.annot.getD []).map (mapRef f))
    ((axiomsOf o.onto).map (mapRef f))⟩

theorem mapRef_obj (f : Str → LitTag → Str) (xs : List Ref) : (xs.map (mapRef f)).map Ref.obj = (xs.map Ref.obj).map (mapLit f) := by
  simp [mapRef, Function.comp_def]

section
variable {f : Str → LitTag → Str} {R : Req} {names : List Id} {o : OntoSt} {s : Abs}

theorem mapOnto_reaches (hs : Reaches o.onto s) (ho : PrtDocFits R names o) :
    Reaches (mapOnto f o).onto ⟨(axiomsOf o.onto).map (mapRef f), s.annots.map (mapRef f), s.imports⟩ := by
  have hinv := reaches_inv hs
  have hp := axiomsOf_perm hinv
  rw [← hinv.annot, ← hinv.imports]
  refine loaded_reaches ?_ ?_ ?_
  · intro y hy
    obtain ⟨x, hx, rfl⟩ := List.mem_map.1 hy
    obtain ⟨a, e, -⟩ := ho.annots x hx
    show ObjSpec.WellFormed (mapLit f x.obj)
    rw [e, ← annot_toObj]
    exact wf_annot _
  · intro y hy
    obtain ⟨x, hx, rfl⟩ := List.mem_map.1 hy
    obtain ⟨a, e, -⟩ := ho.axioms x hx
    show IsAxiom (mapLit f x.obj)
    rw [e, ← axiom_toObj]
    exact isAxiom_toObj _
  · intro y hy z hz h
    obtain ⟨x, hx, rfl⟩ := List.mem_map.1 hy
    obtain ⟨w, hw, rfl⟩ := List.mem_map.1 hz
    have := hinv.fits w (hp.mem_iff.1 hw) x (hp.mem_iff.1 hx) h
    rw [this]

theorem mapOnto_byType (hs : Reaches o.onto s) (t : Nat) :
    ((mapOnto f o).onto.byType t).getD [] = ((o.onto.byType t).getD []).map (mapRef f) := by
  show ((loaded _ _ _).byType t).getD [] = _
  rw [loaded_byType, List.filter_map]
  have e : ((fun a => decide (axType a.obj = t)) ∘ mapRef f) = fun a : Ref => decide (axType a.obj = t) := by
    funext a
    show decide (axType (mapLit f a.obj) = t) = _
    rw [axType_mapLit]
  rw [e]
  have := rebuilt_byType (reaches_inv hs) [] [] t
  rw [built_byType] at this
  rw [this]

theorem mapOnto_axioms (hs : Reaches o.onto s) : axiomsOf (mapOnto f o).onto = (axiomsOf o.onto).map (mapRef f) := by
  simp only [axiomsOf, mapOnto_byType hs, List.map_flatMap]

theorem mapOnto_annot (hs : Reaches o.onto s) (ho : PrtDocFits R names o) :
    (mapOnto f o).onto.annot.getD [] = (o.onto.annot.getD []).map (mapRef f) := by
  rw [(reaches_inv (mapOnto_reaches (f := f) hs ho)).annot, (reaches_inv hs).annot]

theorem mapOnto_imports (hs : Reaches o.onto s) (ho : PrtDocFits R names o) :
    (mapOnto f o).onto.imports.getD [] = o.onto.imports.getD [] := by
  rw [(reaches_inv (mapOnto_reaches (f := f) hs ho)).imports, (reaches_inv hs).imports]

/-- The bytes are those of the normal form. -/
theorem encData_norm {u : Ulib} (hu : u.Lawful) (anon : Bool) (x : Index) (hs : Reaches o.onto s) (ho : PrtDocFits R names o) :
    encData u anon x (mapOnto (litNorm u) o) = encData u anon x o := by
  have e : ∀ (ids : Id → Option Nat) (xs : List Ref), ((xs.map (mapRef (litNorm u))).map Ref.obj).map (encObj u ids) =
      (xs.map Ref.obj).map (encObj u ids) := by
    intro ids xs
    rw [mapRef_obj, List.map_map]
    exact List.map_congr_left fun a _ => encObj_norm hu a
  unfold encData
  simp only [collect_eq, mapOnto_imports hs ho, mapOnto_annot hs ho, mapOnto_axioms hs, encAnnots, encAxioms, e]
  rfl

theorem mapOnto_chunk {u : Ulib} (hu : u.Lawful) {x : Index} {is : List Iri} {as : List Annot} {xs : List Axiom}
    (hs : Reaches o.onto s) (ho : PrtDocFits R names o) (hc : Chunk prtSizes x o is as xs) :
    Chunk (prtContents u) x (mapOnto (litNorm u) o) is (as.map (onAnnot (litNorm u))) (xs.map (onAxiom (litNorm u))) := by
  have hl : ∀ l, prtSizes.lit l → (prtContents u).lit (onLit (litNorm u) l) := by
    intro l ⟨h1, h2, h3⟩
    refine ⟨(norm_normal hu _ _ h1).2 (norm_once hu _ _), ?_, h3⟩
    have := norm_length hu l.value l.tag
    show (litNorm u l.value l.tag).length < _
    omega
  refine ⟨?_, ?_, ?_, hc.has_iri, hc.has_version, hc.has_import, ?_, ?_, ?_, ?_, hc.few_imports, ?_⟩
  · rw [mapOnto_imports hs ho]; exact hc.imports
  · rw [mapOnto_annot hs ho, mapRef_obj, hc.annots]; simp [annot_toObj]
  · rw [collect_eq, mapOnto_axioms hs, mapRef_obj, ← collect_eq, hc.axioms]; simp [axiom_toObj]
  · intro a ha p hp
    obtain ⟨b, hb, rfl⟩ := List.mem_map.1 ha
    rw [annot_toObj] at hp
    exact hc.has_annot b hb p (occurs_mapLit _ hp)
  · intro a ha p hp
    obtain ⟨b, hb, rfl⟩ := List.mem_map.1 ha
    rw [axiom_toObj] at hp
    exact hc.has_axiom b hb p (occurs_mapLit _ hp)
  · intro a ha
    obtain ⟨b, hb, rfl⟩ := List.mem_map.1 ha
    exact annot_on (R := prtSizes) (R' := prtContents u) rfl hl rfl rfl b (hc.fit_annot b hb)
  · intro a ha
    obtain ⟨b, hb, rfl⟩ := List.mem_map.1 ha
    exact axiom_on (R := prtSizes) (R' := prtContents u) rfl hl rfl rfl rfl rfl rfl rfl (hc.fit_axiom b hb)
  · rw [List.length_map]; exact hc.few_annots

end
end Cowl.Prt
