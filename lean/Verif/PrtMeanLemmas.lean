import Verif.PrtMeanSpec
import Verif.PrtNormLemmas
import Verif.SemLemmas
/-! # Lemmas: what the normal form of literals means -/
namespace Cowl.Sem
open Ast Prt

/-! ## Constructs with other literals -/

section
variable {I : Interp} {f : Str → LitTag → Str} {P : Lit → Prop}
  (hf : ∀ l, P l → I.lit (f l.value l.tag) l.tag = I.lit l.value l.tag)

include hf in
theorem lits_on (ls : List Lit) (h : ∀ l ∈ ls, P l) : (ls.map (onLit f)).map (lit I) = ls.map (lit I) := by
  rw [List.map_map]
  exact List.map_congr_left fun l hl => hf l (h l hl)

include hf in
theorem facets_on (fs : List (Iri × Lit)) (h : ∀ x ∈ fs, P x.2) :
    (fs.map fun x => (x.1, onLit f x.2)).map (fun f => (f.1, lit I f.2)) = fs.map fun f => (f.1, lit I f.2) := by
  rw [List.map_map]
  refine List.map_congr_left fun l hl => ?_
  show (l.1, I.lit (f l.2.value l.2.tag) l.2.tag) = (l.1, I.lit l.2.value l.2.tag)
  rw [hf l.2 (h l hl)]

mutual
theorem dr_same (hf : ∀ l, P l → I.lit (f l.value l.tag) l.tag = I.lit l.value l.tag) :
    ∀ d : DR, d.Meets (onlyLits P) → dr I (onDR f d) = dr I d
  | .dt i, _ => by simp only [onDR]
  | .inter ds, h => by simp only [DR.Meets] at h; simp only [onDR, dr, drs_same hf ds h.2]
  | .union ds, h => by simp only [DR.Meets] at h; simp only [onDR, dr, drs_same hf ds h.2]
  | .compl d, h => by simp only [DR.Meets] at h; simp only [onDR, dr, dr_same hf d h]
  | .oneOf ls, h => by simp only [DR.Meets] at h; simp only [onDR, dr, lits_on hf ls h.2]
  | .restr i fs, h => by
    simp only [DR.Meets] at h
    simp only [onDR, dr, facets_on hf fs fun x hx => (h.2.2 x hx).2]

theorem drs_same (hf : ∀ l, P l → I.lit (f l.value l.tag) l.tag = I.lit l.value l.tag) :
    ∀ ds : List DR, DR.AllMeet (onlyLits P) ds → drs I (onDRs f ds) = drs I ds
  | [], _ => by simp only [onDRs]
  | d :: ds, h => by simp only [DR.AllMeet] at h; simp only [onDRs, drs, dr_same hf d h.1, drs_same hf ds h.2]
end

mutual
theorem ce_same (hf : ∀ l, P l → I.lit (f l.value l.tag) l.tag = I.lit l.value l.tag) :
    ∀ c : CE, c.Meets (onlyLits P) → ce I (onCE f c) = ce I c
  | .cls i, _ => by simp only [onCE]
  | .inter cs, h => by simp only [CE.Meets] at h; simp only [onCE, ce, ces_same hf cs h.2]
  | .union cs, h => by simp only [CE.Meets] at h; simp only [onCE, ce, ces_same hf cs h.2]
  | .compl c, h => by simp only [CE.Meets] at h; simp only [onCE, ce, ce_same hf c h]
  | .oneOf is, _ => by simp only [onCE]
  | .objSome p c, h => by simp only [CE.Meets] at h; simp only [onCE, ce, ce_same hf c h.2]
  | .objAll p c, h => by simp only [CE.Meets] at h; simp only [onCE, ce, ce_same hf c h.2]
  | .objHasValue p i, _ => by simp only [onCE]
  | .objHasSelf p, _ => by simp only [onCE]
  | .objCard k n p, _ => by simp only [onCE]
  | .objCardQ k n p c, h => by simp only [CE.Meets] at h; simp only [onCE, ce, ce_same hf c h.2.1]
  | .dataSome p d, h => by simp only [CE.Meets] at h; simp only [onCE, ce, dr_same hf d h.2]
  | .dataAll p d, h => by simp only [CE.Meets] at h; simp only [onCE, ce, dr_same hf d h.2]
  | .dataHasValue p l, h => by
    simp only [CE.Meets] at h
    have : lit I (onLit f l) = lit I l := hf l h.2
    simp only [onCE, ce, this]
  | .dataCard k n p, _ => by simp only [onCE]
  | .dataCardQ k n p d, h => by simp only [CE.Meets] at h; simp only [onCE, ce, dr_same hf d h.2.1]

theorem ces_same (hf : ∀ l, P l → I.lit (f l.value l.tag) l.tag = I.lit l.value l.tag) :
    ∀ cs : List CE, CE.AllMeet (onlyLits P) cs → ces I (onCEs f cs) = ces I cs
  | [], _ => by simp only [onCEs]
  | c :: cs, h => by simp only [CE.AllMeet] at h; simp only [onCEs, ces, ce_same hf c h.1, ces_same hf cs h.2]
end

include hf in
/-- An axiom means the same if its literals do. -/
theorem sat_on (a : Ax) (h : a.Meets (onlyLits P)) : sat I (onAx f a) ↔ sat I a := by
  have C := ce_same hf
  have Cs := ces_same hf
  have D := dr_same hf
  have L : ∀ l, P l → lit I (onLit f l) = lit I l := hf
  cases a <;> simp only [Ax.Meets] at h <;> simp only [onAx, sat]
  case subClass => rw [C _ h.1, C _ h.2]
  case equivClasses | disjClasses => rw [Cs _ h.2]
  case disjUnion => rw [Cs _ h.2.2]
  case objPropDomain | objPropRange => rw [C _ h.2]
  case dataPropDomain => rw [C _ h.2]
  case dataPropRange | datatypeDef => rw [D _ h.2]
  case hasKey => rw [C _ h.1]
  case classAssert => rw [C _ h.1]
  case dataPropAssert | negDataPropAssert => rw [L _ h.2.2]
end

/-! ## Numbers -/

theorem trim_digits {f : Str} (h : ∀ c ∈ f, IsDigit c) : ∀ c ∈ trim f, IsDigit c := by
  intro c hc
  refine h c ?_
  have : c ∈ f.reverse.dropWhile (· == 48) := by simpa [trim] using hc
  have := (List.dropWhile_sublist (· == 48)).mem this
  simpa using this

theorem trim_trim (f : Str) : trim (trim f) = trim f := by
  unfold trim
  rw [List.reverse_reverse]
  congr 1
  generalize f.reverse = g
  induction g with
  | nil => rfl
  | cons c g ih =>
    by_cases h : (c == 48) = true
    · rw [List.dropWhile_cons (x := c), if_pos h]; exact ih
    · rw [List.dropWhile_cons (x := c), if_neg h, List.dropWhile_cons (x := c), if_neg h]

theorem decimal_dropZeros (g : Str) : decimal (g.dropWhile (· == 48)) 0 = decimal g 0 := by
  induction g with
  | nil => rfl
  | cons c g ih =>
    by_cases h : (c == 48) = true
    · rw [List.dropWhile_cons (x := c), if_pos h, ih]
      have : c = 48 := by simpa using h
      subst this; rfl
    · rw [List.dropWhile_cons (x := c), if_neg h]

theorem trim_value (f : Str) : decimal (trim f).reverse 0 = decimal f.reverse 0 := by
  unfold trim; rw [List.reverse_reverse, decimal_dropZeros]

theorem trim_head (f : Str) : (trim f).reverse.head? ≠ some 48 := by
  unfold trim; rw [List.reverse_reverse]
  generalize f.reverse = g
  induction g with
  | nil => nofun
  | cons c g ih =>
    by_cases h : (c == 48) = true
    · rw [List.dropWhile_cons (x := c), if_pos h]; exact ih
    · rw [List.dropWhile_cons (x := c), if_neg h]
      intro e; exact h (by simpa using e)

/-- The digits behind the dot that are read are those written, zeros at the end apart. -/
theorem frac_trim {f : Str} (hd : ∀ c ∈ f, IsDigit c) (hv : decimal (trim f).reverse 0 < 4294967296) :
    Digits (fmtUint (revVal f)).reverse ∧ trim (fmtUint (revVal f)).reverse = trim f := by
  refine ⟨⟨by simpa using fmtUint_ne_nil _, fun c hc => fmtUint_digits _ c (by simpa using hc)⟩, ?_⟩
  rw [trim_value] at hv
  rw [revVal_eq, Nat.mod_eq_of_lt hv, ← trim_value]
  by_cases h : trim f = []
  · rw [h]; decide +kernel
  · rw [fmtUint_canon ⟨fun c hc => trim_digits hd c (by simpa using hc), by simpa using h,
      fun e => absurd e (trim_head f)⟩ (by rw [trim_value]; omega), List.reverse_reverse, trim_trim]

/-- The numeral of an integer as it is printed. -/
theorem fmtInt_parts (v : Int) : ∃ s, fmtInt v = signText s ++ fmtUint v.natAbs ∧ (s = some true ↔ v < 0) := by
  unfold fmtInt
  by_cases h : v < 0
  · exact ⟨some true, by rw [if_pos h]; rfl, by simp [h]⟩
  · exact ⟨none, by rw [if_neg h]; rfl, by simp [h]⟩

theorem digits_fmtUint (n : Nat) : Digits (fmtUint n) := ⟨fmtUint_ne_nil n, fmtUint_digits n⟩

theorem intVal_abs (s : Option Bool) (ds : Str) : (intVal s ds).natAbs = decimal ds 0 := by
  unfold intVal; split <;> omega

theorem intVal_neg (s : Option Bool) (ds : Str) : intVal s ds < 0 ↔ s = some true ∧ decimal ds 0 ≠ 0 := by
  unfold intVal; split
  · rename_i h; simp only [h, true_and]; omega
  · rename_i h; simp only [h, false_and, iff_false]; omega

theorem int32_abs {v : Int} (h : IsInt32 v) : v.natAbs < 10 ^ 10 := by obtain ⟨h1, h2⟩ := h; omega

theorem intVal_fmt {v : Int} (h : IsInt32 v) {s : Option Bool} (hs : s = some true ↔ v < 0) : intVal s (fmtUint v.natAbs) = v := by
  unfold intVal
  rw [fmtUint_value _ (int32_abs h)]
  by_cases k : v < 0
  · rw [if_pos (hs.2 k)]; omega
  · rw [if_neg (fun e => k (hs.1 e))]; omega

/-- Integers are read as the same number. -/
theorem int_kept {u : Ulib} (hr : u.Reads) {n : Numeral} (hn : n.Legal) (h1 : n.frac = none) (h2 : n.exp = none)
    (hv : IsInt32 (intVal n.sign n.whole)) :
    ∃ m : Numeral, m.Legal ∧ (maybeInt u n.text).text n.text = m.text ∧ n.Same true m := by
  have ht : n.text = signText n.sign ++ n.whole := by simp [Numeral.text, Numeral.tail, Numeral.expText, h1, h2]
  obtain ⟨s, e, hs⟩ := fmtInt_parts (intVal n.sign n.whole)
  refine ⟨⟨s, fmtUint (decimal n.whole 0), none, none⟩, ⟨digits_fmtUint _, nofun, nofun⟩, ?_, ?_, ?_, ?_, ?_⟩
  · rw [ht]
    simp only [maybeInt, hr.to_int _ _ hn.whole hv]
    rw [intForm_text, e, intVal_abs]
    simp [Numeral.text, Numeral.tail, Numeral.expText]
  · have := int32_abs hv
    rw [intVal_abs] at this
    exact (fmtUint_value _ this).symm
  · simp [Numeral.digits, h1]
  · simp [Numeral.expVal, h2]
  · by_cases hz : decimal n.whole 0 = 0
    · exact .inr ⟨rfl, hz, by simp [Numeral.digits, h1, trim]⟩
    · left
      simp only [Numeral.neg, hs, intVal_neg]
      simp [hz]

theorem sign_head {s : Option Bool} {ds r : Str} (hd : Digits ds) : ∀ c ∈ (signText s ++ ds ++ r).head?, c = 45 ∨ c = 43 ∨ IsDigit c := by
  obtain ⟨d, t, rfl⟩ := List.exists_cons_of_ne_nil hd.1
  intro c hc
  rcases s with _ | _ | _ <;> simp [signText] at hc
  · exact .inr (.inr (hc ▸ hd.2 d (by simp)))
  · exact .inr (.inl hc.symm)
  · exact .inl hc.symm

theorem exp_head {n : Numeral} (hn : n.Legal) : ∀ c ∈ n.expText.head?, ¬ IsDigit c := by
  intro c hc
  unfold Numeral.expText at hc
  split at hc
  · cases hc
  · rename_i x s ds he
    simp at hc; subst hc
    rcases (hn.exp _ _ _ he).1 with rfl | rfl <;> (intro k; exact absurd k.2 (by decide))

theorem tail_head {n : Numeral} (hn : n.Legal) : ∀ c ∈ n.tail.head?, ¬ IsDigit c := by
  unfold Numeral.tail
  cases hf : n.frac with
  | none => simpa using exp_head hn
  | some f => exact dot_head _

/-- Decimals and floating point numbers are read as the same number. -/
theorem dec_kept {u : Ulib} (hr : u.Reads) {signless : Bool} {n : Numeral} (hn : n.Legal) (hv : IsInt32 (intVal n.sign n.whole))
    (he : IsInt32 n.expVal) (hf : decimal n.digits.reverse 0 < 4294967296)
    (hz : n.neg → decimal n.whole 0 = 0 → signless = true ∧ n.digits = []) :
    ∃ m : Numeral, m.Legal ∧ (maybeDec u n.text).text n.text = m.text ∧ n.Same signless m := by
  have same : ∃ m : Numeral, m.Legal ∧ n.text = m.text ∧ n.Same signless m := ⟨n, hn, rfl, rfl, rfl, rfl, .inl .rfl⟩
  have h1 := hr.str_to_int _ _ hn.whole hv n.tail (tail_head hn)
  have hw : decimal n.whole 0 = decimal (fmtUint (decimal n.whole 0)) 0 := by
    have := int32_abs hv
    rw [intVal_abs] at this
    exact (fmtUint_value _ this).symm
  obtain ⟨s, e, hs⟩ := fmtInt_parts (intVal n.sign n.whole)
  rw [intVal_abs] at e
  have hsign : ∀ m : Numeral, m.sign = s → ((n.neg ↔ m.neg) ∨ (signless = true ∧ n.Zero)) := by
    intro m hm
    by_cases k : n.neg ∧ decimal n.whole 0 = 0
    · obtain ⟨a, b⟩ := hz k.1 k.2
      exact .inr ⟨a, k.2, b⟩
    · left
      simp only [Numeral.neg, hm, hs, intVal_neg] at k ⊢
      exact ⟨fun a => ⟨a, fun b => k ⟨a, b⟩⟩, fun a => a.1⟩
  have hlen : n.tail.length ≠ n.text.length := by
    have := List.length_pos_iff.2 hn.whole.1
    simp only [Numeral.text, List.length_append]; omega
  have hm : maybeDec u n.text = fracForm u (intVal n.sign n.whole) n.tail := by
    unfold maybeDec
    rw [show u.strToInt n.text = _ from h1]
    dsimp only
    rw [if_neg hlen]
  rw [hm]
  cases hfr : n.frac with
  | none =>
    cases hex : n.exp with
    | none =>
      have ht : n.tail = [] := by simp [Numeral.tail, Numeral.expText, hfr, hex]
      rw [ht]
      refine ⟨⟨s, fmtUint (decimal n.whole 0), none, none⟩, ⟨digits_fmtUint _, nofun, nofun⟩, ?_, hw, ?_, ?_, hsign _ rfl⟩
      · show (intForm _).text _ = _
        rw [intForm_text, e]
        simp [Numeral.text, Numeral.tail, Numeral.expText]
      · simp [Numeral.digits, hfr]
      · simp [Numeral.expVal, hex]
    | some x =>
      obtain ⟨c, sx, ds⟩ := x
      have ht : n.tail = c :: (signText sx ++ ds) := by simp [Numeral.tail, Numeral.expText, hfr, hex]
      have hc : c ≠ 46 := by rcases (hn.exp _ _ _ hex).1 with rfl | rfl <;> decide
      rw [ht]
      simp only [fracForm, if_pos (Or.inl hc : c ≠ 46 ∨ _)]
      exact same
  | some f =>
    have hfd := hn.frac f hfr
    have hdg : n.digits = trim f := by simp [Numeral.digits, hfr]
    rw [hdg] at hf
    obtain ⟨f1, f2⟩ := frac_trim hfd.2 hf
    have step : ∀ r, (∀ c ∈ r.head?, ¬ IsDigit c) →
        fracForm u (intVal n.sign n.whole) (46 :: (f ++ r)) = expForm u (intVal n.sign n.whole) (revVal f) r := by
      intro r hr
      simp only [fracForm, takeWhile_digits hfd.2 hr]
      rw [if_neg (by simp [hfd.1]), if_neg hfd.1, List.drop_left]
    cases hex : n.exp with
    | none =>
      have ht : n.tail = 46 :: (f ++ []) := by simp [Numeral.tail, Numeral.expText, hfr, hex]
      rw [ht, step [] nil_head]
      refine ⟨⟨s, fmtUint (decimal n.whole 0), some (fmtUint (revVal f)).reverse, none⟩, ⟨digits_fmtUint _, ?_, nofun⟩, ?_, hw, ?_,
        ?_, hsign _ rfl⟩
      · intro g hg; cases hg; exact f1
      · show fixedText _ _ = _
        rw [fixedText, e]
        simp [Numeral.text, Numeral.tail, Numeral.expText]
      · rw [hdg, ← f2]; simp [Numeral.digits]
      · simp [Numeral.expVal, hex]
    | some x =>
      obtain ⟨c, sx, ds⟩ := x
      obtain ⟨hc, hds⟩ := hn.exp _ _ _ hex
      have ht : n.tail = 46 :: (f ++ c :: (signText sx ++ ds)) := by simp [Numeral.tail, Numeral.expText, hfr, hex]
      have hx : n.expVal = intVal sx ds := by simp [Numeral.expVal, hex]
      rw [hx] at he
      have hh : ∀ d ∈ (c :: (signText sx ++ ds)).head?, ¬ IsDigit d := by
        have := exp_head hn; rw [Numeral.expText, hex] at this; exact this
      rw [ht, step _ hh]
      by_cases h69 : c = 69
      · subst h69
        have hne : signText sx ++ ds ≠ [] := by simp [hds.1]
        have h2 := hr.str_to_int sx ds hds he [] nil_head
        rw [List.append_nil] at h2
        simp only [expForm, h2]
        rw [if_neg (by simp [hds.1]), if_neg]
        rotate_left
        · have := List.length_pos_iff.2 hne
          simp only [List.length_nil, ne_eq, not_true_eq_false, or_false]
          omega
        obtain ⟨t, e2, ht2⟩ := fmtInt_parts (intVal sx ds)
        refine ⟨⟨s, fmtUint (decimal n.whole 0), some (fmtUint (revVal f)).reverse, some (69, t, fmtUint (intVal sx ds).natAbs)⟩,
          ⟨digits_fmtUint _, ?_, ?_⟩, ?_, hw, ?_, ?_, hsign _ rfl⟩
        · intro g hg; cases hg; exact f1
        · intro c s ds hg; cases hg; exact ⟨.inl rfl, digits_fmtUint _⟩
        · show fixedText _ _ ++ _ = _
          rw [fixedText, e, e2]
          simp [Numeral.text, Numeral.tail, Numeral.expText]
        · rw [hdg, ← f2]; simp [Numeral.digits]
        · rw [hx]
          exact (intVal_fmt he ht2).symm
      · simp only [expForm, if_pos (Or.inl h69 : c ≠ 69 ∨ _)]
        exact same

/-- The normal form of a literal means the same. -/
theorem norm_means {u : Ulib} (hu : u.Lawful) (hr : u.Reads) {I : Interp} (hI : I.Numeric) {v : Str} {t : LitTag} (ht : LitMade t)
    (h : LitSafe u v t ∨ NumOk v t) : I.lit (litNorm u v t) t = I.lit v t := by
  rcases h with h | ⟨name, hm, rfl, n, hn, h1, h2, rfl, hv⟩ | ⟨name, hm, rfl, n, hn, rfl, hv, he, hf, hz⟩
  · rw [(norm_normal hu v t ht).1 h]
  · obtain ⟨m, hm', e, hs⟩ := int_kept hr hn h1 h2 hv
    have hsl : Signless name = true := by
      have : ∀ n ∈ intNames, Signless n = true := by decide +kernel
      exact this name hm
    simp only [litNorm, if_neg (group_int hm).2, (group_int hm).1, formOf]
    rw [e]
    exact (hI name (List.mem_append_left _ hm) n m hn hm' (hsl ▸ hs)).symm
  · obtain ⟨m, hm', e, hs⟩ := dec_kept hr hn hv he hf hz
    simp only [litNorm, if_neg (group_dec hm).2, (group_dec hm).1, formOf]
    rw [e]
    exact (hI name (List.mem_append_right _ hm) n m hn hm' hs).symm

end Cowl.Sem

namespace Cowl.Prt
open Sem

theorem strtol_reads (s : Option Bool) (ds : Str) (hd : Digits ds) (hv : IsInt32 (intVal s ds)) (r : Str)
    (hr : ∀ c ∈ r.head?, ¬ IsDigit c) : strtol (signText s ++ ds ++ r) = (intVal s ds, r) := by
  have htw := takeWhile_digits hd.2 hr
  rcases s with _ | _ | _
  · obtain ⟨c, t, e⟩ := List.exists_cons_of_ne_nil hd.1
    have hc : IsDigit c := hd.2 c (by rw [e]; simp)
    have n1 : c ≠ 45 := by rintro rfl; simp [IsDigit] at hc
    have n2 : c ≠ 43 := by rintro rfl; simp [IsDigit] at hc
    have hhead : (signText none ++ ds ++ r).head? = some c := by rw [e]; rfl
    have b1 : (some c == some (45 : UInt8)) = false := by simpa using n1
    have b2 : (some c == some (43 : UInt8)) = false := by simpa using n2
    simp only [strtol, hhead, b1, b2, Bool.or_self, Bool.false_eq_true, if_false]
    simp only [signText, List.nil_append, htw, if_neg hd.1, List.drop_left]
    have : intVal none ds = decimal ds 0 := rfl
    rw [this] at hv ⊢
    rw [clamp_id hv]
  · have : intVal (some false) ds = decimal ds 0 := rfl
    rw [this] at hv ⊢
    simp only [strtol, signText, List.cons_append, List.nil_append, List.head?_cons, List.drop_succ_cons, List.drop_zero]
    simp only [show (some (43 : UInt8) == some 45) = false from rfl, show (some (43 : UInt8) == some 43) = true from rfl, Bool.or_true,
      if_true, Bool.false_eq_true, if_false, htw, if_neg hd.1, List.drop_left, clamp_id hv]
  · have : intVal (some true) ds = -(decimal ds 0 : Int) := rfl
    rw [this] at hv ⊢
    simp only [strtol, signText, List.cons_append, List.nil_append, List.head?_cons, List.drop_succ_cons, List.drop_zero,
      beq_self_eq_true, Bool.true_or, if_true, htw, if_neg hd.1, List.drop_left, clamp_id hv]

/-- The further assumptions about ulib can be met. -/
theorem leb_reads : leb.Reads where
  to_int s ds hd hv := by
    have := strtol_reads s ds hd hv [] nil_head
    simp only [List.append_nil] at this
    simp only [leb, this]
    rw [if_pos ⟨by simp [hd.1], trivial⟩]
  str_to_int s ds hd hv r hr := strtol_reads s ds hd hv r hr

end Cowl.Prt
