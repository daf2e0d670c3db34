import Verif.FuncLexLemmas
import Verif.FuncWrite
import Verif.FuncParse
import Verif.FuncSpec
import Verif.XmlProps
import Verif.PrefixMapProps
/-! # Lemmas on the text of IRIs and literals -/
namespace Cowl.Func
open Cowl.FuncSpec

/-! ## Characters -/

theorem isU_iff (c : UInt8) : isU c = true ↔ XmlSpec.NameStart c := by
  simp only [isU, isBase, isAlpha, Bool.or_eq_true, Bool.and_eq_true, decide_eq_true_eq, beq_iff_eq,
    UInt8.le_iff_toNat_le, ← UInt8.toNat_inj, XmlSpec.NameStart]
  show (_ ∨ _) ↔ (65 ≤ c.toNat ∧ c.toNat ≤ 90) ∨ (97 ≤ c.toNat ∧ c.toNat ≤ 122) ∨ c.toNat = 95 ∨ 128 ≤ c.toNat
  simp only [show UInt8.toNat 65 = 65 from rfl, show UInt8.toNat 90 = 90 from rfl,
    show UInt8.toNat 97 = 97 from rfl, show UInt8.toNat 122 = 122 from rfl,
    show UInt8.toNat 128 = 128 from rfl, show UInt8.toNat 95 = 95 from rfl]
  omega

theorem isDig_spec (c : UInt8) : isDig c = true ↔ FuncSpec.Digit c := isDig_iff c

theorem isPnDot_iff (c : UInt8) : isPnDot c = true ↔ XmlSpec.NameChar c := by
  simp only [isPnDot, isPn, Bool.or_eq_true, isU_iff, isDig_spec, beq_iff_eq, ← UInt8.toNat_inj,
    XmlSpec.NameChar]
  constructor
  · rintro (((h | h) | h) | h)
    · exact .inl h
    · exact .inr (.inl h)
    · exact .inr (.inr (.inr h))
    · exact .inr (.inr (.inl h))
  · rintro (h | h | h | h)
    · exact .inl (.inl (.inl h))
    · exact .inl (.inl (.inr h))
    · exact .inr h
    · exact .inl (.inr h)

theorem isAlpha_iff (c : UInt8) : isAlpha c = true ↔ Letter c := by
  simp only [isAlpha, Bool.or_eq_true, Bool.and_eq_true, decide_eq_true_eq, UInt8.le_iff_toNat_le]
  exact Iff.rfl

theorem isIriChar_iff (c : UInt8) : isIriChar c = true ↔ IriChar c := by
  simp only [isIriChar, IriChar, Bool.and_eq_true, decide_eq_true_eq, UInt8.lt_iff_toNat_lt,
    List.contains_eq_mem, Bool.not_eq_true', decide_eq_false_iff_not, List.mem_cons,
    List.not_mem_nil, or_false, ← UInt8.toNat_inj, forall_eq_or_imp, forall_eq]
  show 32 < c.toNat ∧ ¬ (c.toNat = 60 ∨ c.toNat = 62 ∨ c.toNat = 34 ∨ c.toNat = 123 ∨ c.toNat = 125 ∨
    c.toNat = 124 ∨ c.toNat = 94 ∨ c.toNat = 96 ∨ c.toNat = 92) ↔ 32 < c.toNat ∧ c.toNat ≠ 60 ∧
    c.toNat ≠ 62 ∧ c.toNat ≠ 34 ∧ c.toNat ≠ 123 ∧ c.toNat ≠ 125 ∧ c.toNat ≠ 124 ∧ c.toNat ≠ 94 ∧
    c.toNat ≠ 96 ∧ c.toNat ≠ 92
  omega

theorem label_local {w : Str} (h : Label w) : LocalName w := by
  obtain ⟨c, t, rfl, hc, ht, hd⟩ := h
  refine ⟨⟨c, t, rfl, ?_⟩, ?_, hd⟩
  · rw [Bool.or_eq_true, isU_iff, isDig_spec]; exact hc
  · intro x hx
    rw [isPnDot_iff]
    rcases List.mem_cons.1 hx with rfl | hx
    · rcases hc with h | h
      · exact .inl h
      · exact .inr (.inr (.inr h))
    · exact ht x hx

theorem plain_prefix {p : Str} (h : PlainPrefix p) : PrefixName p := by
  rcases h with rfl | ⟨c, t, rfl, hc, h95, ht, hd⟩
  · exact ⟨(fun _ h => nomatch h), rfl⟩
  · refine ⟨?_, ?_⟩
    · intro x hx
      rw [isPnDot_iff]
      rcases List.mem_cons.1 hx with rfl | hx
      · exact .inl hc
      · exact ht x hx
    · have h1 : isBase c = true := by
        have := (isU_iff c).2 hc
        simp only [isU, Bool.or_eq_true, beq_iff_eq] at this
        exact this.resolve_right h95
      simp only [prefixOk, h1, Bool.true_and, bne_iff_ne]
      exact hd

/-- Converse of `plain_prefix`, for checks by evaluation. -/
theorem plain_of {p : Str} (h1 : p.all isPnDot = true) (h2 : prefixOk p = true) : PlainPrefix p := by
  cases p with
  | nil => exact .inl rfl
  | cons c t =>
    simp only [prefixOk, Bool.and_eq_true, bne_iff_ne] at h2
    rw [List.all_eq_true] at h1
    refine .inr ⟨c, t, rfl, (isU_iff c).1 (by simp [isU, h2.1]), ?_, fun x hx => ?_, h2.2⟩
    · rintro rfl; exact absurd h2.1 (by decide)
    · exact (isPnDot_iff x).1 (h1 x (List.mem_cons_of_mem _ hx))

theorem fwdFind_mem {p : Str} {e : Prefix.SRef × Str} : ∀ {f : Prefix.Fwd}, Prefix.fwdFind p f = some e →
    e ∈ f ∧ e.1.txt = p
  | [], h => by cases h
  | x :: f, h => by
    rw [Prefix.fwdFind] at h
    split at h
    · cases h; exact ⟨List.mem_cons_self .., by assumption⟩
    · exact ⟨List.mem_cons_of_mem _ (fwdFind_mem h).1, (fwdFind_mem h).2⟩

theorem plain_of_check {m : Prefix.PMap}
    (h : (m.fwd.all fun e => e.1.txt.all isPnDot && prefixOk e.1.txt) = true) :
    ∀ p n, m.getNs p = some n → PlainPrefix p := by
  intro p n hp
  unfold Prefix.PMap.getNs at hp
  cases hf : Prefix.fwdFind p m.fwd with
  | none => simp [hf] at hp
  | some e =>
    obtain ⟨h1, rfl⟩ := fwdFind_mem hf
    have := List.all_eq_true.1 h e h1
    rw [Bool.and_eq_true] at this
    exact plain_of this.1 this.2

theorem prefix_no_colon {p : Str} (h : PrefixName p) : Prefix.colon ∉ p := by
  intro hc; exact absurd (h.1 _ hc) (by decide)

theorem langTail_of : ∀ gs : List Str, (∀ g ∈ gs, g ≠ [] ∧ ∀ c ∈ g, Letter c ∨ FuncSpec.Digit c) →
    LangTail (gs.map fun g => 45 :: g).flatten
  | [], _ => .nil
  | g :: gs, h => by
    rw [List.map_cons, List.flatten_cons, List.cons_append]
    have hg := h g (List.mem_cons_self ..)
    refine .cons hg.1 (fun c hc => ?_) (langTail_of gs fun g' hg' => h g' (List.mem_cons_of_mem _ hg'))
    rw [isAlnum, Bool.or_eq_true, isAlpha_iff, isDig_spec]; exact hg.2 c hc

theorem lang_tag {l : Str} (h : FuncSpec.LangTag l) : LangTag l := by
  obtain ⟨a, gs, rfl, hne, ha, hg⟩ := h
  exact ⟨a, _, rfl, hne, fun c hc => (isAlpha_iff c).2 (ha c hc), langTail_of gs hg⟩

/-! ## Quoted strings -/

theorem lexQ_end (rest acc : Str) : lexQ (34 :: rest) acc = .done acc rest := by
  rw [lexQ.eq_def]; rfl

/-- A string up to its first NUL. -/
theorem lexQ_escape (rest : Str) : ∀ (v acc : Str),
    lexQ (escape v ++ 34 :: rest) acc = .done (acc ++ v.takeWhile (· != 0)) rest
  | [], acc => by rw [escape, List.nil_append, lexQ_end]; simp
  | c :: v, acc => by
    rw [escape]
    by_cases h0 : c = 0
    · subst h0; rw [if_pos rfl, List.nil_append, lexQ_end]; simp
    rw [if_neg h0, List.takeWhile_cons_of_pos (by simpa using h0)]
    by_cases h1 : c = 34 ∨ c = 92
    · rw [if_pos h1, List.cons_append, List.cons_append, lexQ, if_neg (by decide), if_pos rfl]
      rw [if_pos h1, lexQ_escape rest v]; simp
    · rw [if_neg h1, List.cons_append, lexQ.eq_def]
      dsimp only
      rw [if_neg fun e => h1 (.inl e), if_neg fun e => h1 (.inr e), lexQ_escape rest v]; simp

theorem lex_escaped (v rest : Str) :
    lex (34 :: (escape v ++ 34 :: rest)) = .qstr (v.takeWhile (· != 0)) :: lex rest := by
  rw [lex_quote (lexQ_escape rest v [])]; rfl

theorem takeWhile_no_nul : ∀ {v : Str}, 0 ∉ v → v.takeWhile (· != 0) = v
  | [], _ => rfl
  | c :: v, h => by
    simp only [List.mem_cons, not_or] at h
    rw [List.takeWhile_cons_of_pos (by simpa using Ne.symm h.1), takeWhile_no_nul h.2]

/-! ## IRIs -/

/-- The reader understands the prefixes of the writer. -/
structure Agree (gp : Str → Option Str) (m : Prefix.PMap) : Prop where
  name : ∀ {n p}, gp n = some p → PrefixName p
  same : ∀ {n p}, gp n = some p → m.getNs p = some n

theorem split_local {i : Iri} (h : XmlSpec.IsSplit (i.ns ++ i.rem) i.ns i.rem) (hne : i.rem ≠ [])
    (hd : NoFinalDot i.rem) : LocalName i.rem := by
  rcases h.2.1 with h | ⟨c, t, e, hc, ht⟩
  · exact absurd h hne
  · refine label_local ⟨c, t, e, .inl hc, ht, hd⟩

theorem iri_of_string {i : Iri} (h : XmlSpec.IsSplit (i.ns ++ i.rem) i.ns i.rem)
    (hne : i.ns ++ i.rem ≠ []) : iriFromString (i.ns ++ i.rem) = some (i.ns, i.rem) := by
  obtain ⟨a, b, e, hs⟩ := C02_split _ hne
  obtain ⟨rfl, rfl⟩ := C02_split_unique _ _ _ _ _ hs h
  exact e

/-- For checks by evaluation. -/
theorem iriOk_of {gp : Str → Option Str} {i : Iri} (h1 : iriFromString (i.ns ++ i.rem) = some (i.ns, i.rem))
    (h2 : (i.ns ++ i.rem).all isIriChar = true) (h3 : i.rem.getLast? ≠ some 46) : IriOk gp i := by
  have hne : i.ns ++ i.rem ≠ [] := by
    intro h; rw [h] at h1; simp [iriFromString] at h1
  refine ⟨?_, fun _ => ⟨hne, fun c hc => (isIriChar_iff c).1 (List.all_eq_true.1 h2 c hc)⟩, fun _ => h3⟩
  obtain ⟨a, b, e, hs⟩ := C02_split _ hne
  rw [h1] at e; cases e; exact hs

/-- Tokens of IRIs. -/
def Tok.isIri : Tok → Bool
  | .iriRef _ | .pnameLn _ => true
  | _ => false

theorem iri_text {gp : Str → Option Str} {m : Prefix.PMap} (ha : Agree gp m) {i : Iri} (hi : IriOk gp i) :
    ∃ tk : Tok, tk.isIri = true ∧ readIri m tk = some i ∧
      ∀ rest, Delim rest → lex (writeIri gp i ++ rest) = tk :: lex rest := by
  have full : (gp i.ns = none ∨ i.rem = []) → ∃ tk : Tok, tk.isIri = true ∧ readIri m tk = some i ∧
      ∀ rest, Delim rest → lex (writeFullIri i ++ rest) = tk :: lex rest := by
    intro h
    obtain ⟨hne, hc⟩ := hi.full h
    refine ⟨.iriRef (i.ns ++ i.rem), rfl, ?_, fun rest _ => ?_⟩
    · rw [readIri, iri_of_string hi.split hne]; rfl
    · have : writeFullIri i ++ rest = 60 :: ((i.ns ++ i.rem) ++ 62 :: rest) := by
        simp [writeFullIri]
      rw [this, lex_iriRef fun c h => (isIriChar_iff c).2 (hc c h)]
  by_cases hr : i.rem = []
  · have : writeIri gp i = writeFullIri i := by simp [writeIri, hr]
    rw [this]; exact full (.inr hr)
  · cases hg : gp i.ns with
    | none =>
      have : writeIri gp i = writeFullIri i := by simp [writeIri, hg]
      rw [this]; exact full (.inl hg)
    | some p =>
      have hpos : 0 < i.rem.length := List.length_pos_iff.2 hr
      have e : writeIri gp i = p ++ 58 :: i.rem := by simp [writeIri, hg, hpos]
      have hl := split_local hi.split hr (hi.short (by simp [hg]))
      have hp := ha.name hg
      refine ⟨.pnameLn (p ++ 58 :: i.rem), rfl, ?_, fun rest hd => ?_⟩
      · rw [readIri, show (58 : UInt8) = Prefix.colon from rfl,
          parseShort_colon m i.rem (prefix_no_colon hp), ha.same hg]
        have h3 : some (iriOfParts i.ns i.rem) = iriFromString (i.ns ++ i.rem) :=
          C03_partial _ _ (by simp [hr]) (.inr (hi.split.2.1.resolve_left hr))
        rw [iri_of_string hi.split (by simp [hr])] at h3
        simp only [Option.map_some, Option.some.inj h3]
      · rw [e, List.append_assoc, List.cons_append, lex_pnameLn hp hl hd]

theorem iri_length {gp : Str → Option Str} {i : Iri} : 2 ≤ (writeIri gp i).length := by
  unfold writeIri
  split
  · split
    · simp only [List.length_append, List.length_cons]; omega
    · simp only [writeFullIri, List.length_append, List.length_cons]; omega
  · simp only [writeFullIri, List.length_append, List.length_cons]; omega

end Cowl.Func
