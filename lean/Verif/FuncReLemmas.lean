import Verif.FuncReSpec
import Verif.FuncLexLemmas
/-!
# Lemmas: longest matches of the patterns of the scanner of functional syntax
-/
namespace Cowl.Re
open Cowl.Func

/-- A length is that of the longest beginning with some property, or 0 if there is none but the
empty one. -/
def Longest (P : Str → Prop) (s : Str) (n : Nat) : Prop :=
  (0 < n → ∃ u v, s = u ++ v ∧ u.length = n ∧ P u) ∧ ∀ u v, s = u ++ v → P u → u.length ≤ n

theorem Longest.congr {P Q : Str → Prop} {s : Str} {n : Nat} (h : ∀ u, P u ↔ Q u) (l : Longest P s n) :
    Longest Q s n := by
  have e : P = Q := funext fun u => propext (h u)
  exact e ▸ l

/-! ## What the expressions match -/

theorem cls_iff {p : UInt8 → Bool} {u : Str} : Matches (.cls p) u ↔ ∃ c, u = [c] ∧ p c = true := by
  constructor
  · intro h; cases h with | cls h => exact ⟨_, rfl, h⟩
  · rintro ⟨c, rfl, h⟩; exact .cls h

theorem eps_iff {u : Str} : Matches .eps u ↔ u = [] := by
  constructor
  · intro h; cases h; rfl
  · rintro rfl; exact .eps

theorem seq_iff {a b : Re} {u : Str} : Matches (.seq a b) u ↔ ∃ x y, u = x ++ y ∧ Matches a x ∧ Matches b y := by
  constructor
  · intro h; cases h with | seq h g => exact ⟨_, _, rfl, h, g⟩
  · rintro ⟨x, y, rfl, h, g⟩; exact .seq h g

theorem alt_iff {a b : Re} {u : Str} : Matches (.alt a b) u ↔ Matches a u ∨ Matches b u := by
  constructor
  · intro h; cases h with
    | altL h => exact .inl h
    | altR h => exact .inr h
  · rintro (h | h)
    · exact .altL h
    · exact .altR h

/-- An expression that matches single characters. -/
def One (r : Re) (p : UInt8 → Bool) : Prop := ∀ u, Matches r u ↔ ∃ c, u = [c] ∧ p c = true

theorem One.cls {p q : UInt8 → Bool} (h : ∀ c, p c = q c) : One (.cls p) q := by
  intro u; rw [cls_iff]; simp only [h]

theorem One.alt {a b : Re} {p q f : UInt8 → Bool} (ha : One a p) (hb : One b q) (h : ∀ c, (p c || q c) = f c) :
    One (.alt a b) f := by
  intro u
  rw [alt_iff, ha u, hb u]
  constructor
  · rintro (⟨c, rfl, g⟩ | ⟨c, rfl, g⟩)
    · exact ⟨c, rfl, by rw [← h, g]; rfl⟩
    · exact ⟨c, rfl, by rw [← h, g, Bool.or_true]⟩
  · rintro ⟨c, rfl, g⟩
    rw [← h, Bool.or_eq_true] at g
    exact g.imp (fun g => ⟨c, rfl, g⟩) (fun g => ⟨c, rfl, g⟩)

theorem one_ch (c : UInt8) : One (ch c) (· == c) := One.cls fun _ => rfl

theorem star_all {r : Re} {u : Str} (h : Matches r u) : ∀ {a : Re} {p : UInt8 → Bool}, r = .star a → One a p →
    ∀ c ∈ u, p c = true := by
  induction h with
  | cls => intro a p e; cases e
  | eps => intro a p e; cases e
  | seq => intro a p e; cases e
  | altL => intro a p e; cases e
  | altR => intro a p e; cases e
  | starNil => intro a p _ _ c hc; cases hc
  | starCons h _ _ ih =>
    intro a p e o c hc
    cases e
    obtain ⟨d, rfl, hd⟩ := (o _).1 h
    rcases List.mem_append.1 hc with hc | hc
    · rcases List.mem_singleton.1 hc with rfl; exact hd
    · exact ih rfl o c hc

theorem star_iff {a : Re} {p : UInt8 → Bool} (o : One a p) {u : Str} :
    Matches (.star a) u ↔ ∀ c ∈ u, p c = true := by
  constructor
  · intro h; exact star_all h rfl o
  · intro h
    induction u with
    | nil => exact .starNil
    | cons c u ih =>
      have h1 : Matches a [c] := (o _).2 ⟨c, rfl, h c (List.mem_cons_self ..)⟩
      exact Matches.starCons (u := [c]) h1 (ih fun d hd => h d (List.mem_cons_of_mem _ hd))

theorem plus_iff {a : Re} {p : UInt8 → Bool} (o : One a p) {u : Str} :
    Matches (plus a) u ↔ u ≠ [] ∧ ∀ c ∈ u, p c = true := by
  unfold plus
  rw [seq_iff]
  constructor
  · rintro ⟨x, y, rfl, h, g⟩
    obtain ⟨d, rfl, hd⟩ := (o _).1 h
    refine ⟨by simp, fun c hc => ?_⟩
    rcases List.mem_append.1 hc with hc | hc
    · rcases List.mem_singleton.1 hc with rfl; exact hd
    · exact (star_iff o).1 g c hc
  · rintro ⟨hn, h⟩
    cases u with
    | nil => exact absurd rfl hn
    | cons c u =>
      exact ⟨[c], u, rfl, (o _).2 ⟨c, rfl, h c (List.mem_cons_self ..)⟩,
        (star_iff o).2 fun d hd => h d (List.mem_cons_of_mem _ hd)⟩

theorem ch_seq_iff {c : UInt8} {r : Re} {u : Str} : Matches (.seq (ch c) r) u ↔ ∃ v, u = c :: v ∧ Matches r v := by
  rw [seq_iff]
  constructor
  · rintro ⟨x, y, rfl, h, g⟩
    obtain ⟨d, rfl, hd⟩ := (one_ch c _).1 h
    exact ⟨y, by rw [eq_of_beq hd]; rfl, g⟩
  · rintro ⟨v, rfl, g⟩
    exact ⟨[c], v, rfl, (one_ch c _).2 ⟨c, rfl, beq_self_eq_true c⟩, g⟩

theorem seq_ch_iff {c : UInt8} {r : Re} {u : Str} : Matches (.seq r (ch c)) u ↔ ∃ v, u = v ++ [c] ∧ Matches r v := by
  rw [seq_iff]
  constructor
  · rintro ⟨x, y, rfl, h, g⟩
    obtain ⟨d, rfl, hd⟩ := (one_ch c _).1 g
    exact ⟨x, by rw [eq_of_beq hd], h⟩
  · rintro ⟨v, rfl, g⟩
    exact ⟨v, [c], rfl, g, (one_ch c _).2 ⟨c, rfl, beq_self_eq_true c⟩⟩

theorem text_iff : ∀ {w u : Str}, Matches (text w) u ↔ u = w
  | [], u => eps_iff
  | c :: w, u => by
    show Matches (.seq (ch c) (text w)) u ↔ _
    rw [ch_seq_iff]
    constructor
    · rintro ⟨v, rfl, h⟩; rw [text_iff.1 h]
    · rintro rfl; exact ⟨w, rfl, text_iff.2 rfl⟩

/-! ## Character classes -/

theorem one_digit : One digit isDig := One.cls fun _ => rfl
theorem one_alpha : One alpha isAlpha := One.cls fun _ => rfl
theorem one_alnum : One alnum isAlnum := One.alt one_alpha one_digit fun _ => rfl
theorem le_255 (c : UInt8) : c ≤ 255 := by
  rw [UInt8.le_iff_toNat_le]; have := c.toNat_lt; show c.toNat ≤ 255; omega
theorem one_base : One pnCharsBase isBase :=
  One.alt one_alpha (One.cls (q := fun c => decide (128 ≤ c)) fun c => by
    rw [decide_eq_true (le_255 c), Bool.and_true]) fun _ => rfl
theorem one_u : One pnCharsU isU := One.alt one_base (one_ch 95) fun _ => rfl
theorem one_pn : One pnChars isPn :=
  One.alt one_u (One.alt (one_ch 45) one_digit fun _ => rfl) fun c => (Bool.or_assoc ..).symm
theorem one_pnDot : One (.alt pnChars (ch 46)) isPnDot := One.alt one_pn (one_ch 46) fun _ => rfl
theorem one_ws : One (among [32, 9, 13, 10]) isWs := One.cls fun c => by
  show List.elem c [32, 9, 13, 10] = _
  simp only [List.elem_cons, List.elem_nil, Bool.or_false, isWs]
  cases c == 32 <;> cases c == 9 <;> cases c == 13 <;> cases c == 10 <;> rfl
theorem one_iri : One (.cls fun d => !(decide (d ≤ 32)) && !([60, 62, 34, 123, 125, 124, 94, 96, 92].contains d)) isIriChar :=
  One.cls fun c => by
    unfold isIriChar
    congr 1
    by_cases h : c ≤ 32
    · rw [decide_eq_true h, decide_eq_false (fun g => absurd h (UInt8.not_le.2 g))]; rfl
    · rw [decide_eq_false h, decide_eq_true (UInt8.not_le.1 h)]; rfl

/-! ## Names -/

theorem pnRest_iff {u : Str} : Matches pnRest u ↔ (∀ c ∈ u, isPnDot c = true) ∧ u.getLast? ≠ some 46 := by
  unfold pnRest opt
  rw [alt_iff, seq_iff, eps_iff]
  constructor
  · rintro (⟨x, y, rfl, h, g⟩ | rfl)
    · obtain ⟨d, rfl, hd⟩ := (one_pn _).1 g
      refine ⟨fun c hc => ?_, ?_⟩
      · rcases List.mem_append.1 hc with hc | hc
        · exact (star_iff one_pnDot).1 h c hc
        · rcases List.mem_singleton.1 hc with rfl
          unfold isPnDot; rw [hd]; rfl
      · rw [List.getLast?_concat]
        intro e; cases e; exact absurd hd (by decide)
    · exact ⟨nofun, nofun⟩
  · rintro ⟨h, g⟩
    rcases List.eq_nil_or_concat u with rfl | ⟨t, d, rfl⟩
    · exact .inr rfl
    · rw [List.concat_eq_append] at h g ⊢
      rw [List.getLast?_concat] at g
      have hd := h d (by simp)
      refine .inl ⟨t, [d], rfl, (star_iff one_pnDot).2 fun c hc => h c (by simp [hc]), (one_pn _).2 ⟨d, rfl, ?_⟩⟩
      unfold isPnDot at hd
      rw [Bool.or_eq_true] at hd
      rcases hd with hd | hd
      · exact hd
      · exact absurd (congrArg some (eq_of_beq hd)) g

/-- A first character, then names and dots, not a dot at the end. -/
theorem name_iff {a : Re} {f : UInt8 → Bool} (o : One a f) (hf : ∀ c, f c = true → isPn c = true) {u : Str} :
    Matches (.seq a pnRest) u ↔ (∃ c t, u = c :: t ∧ f c = true) ∧ (∀ c ∈ u, isPnDot c = true) ∧ u.getLast? ≠ some 46 := by
  rw [seq_iff]
  constructor
  · rintro ⟨x, y, rfl, h, g⟩
    obtain ⟨c, rfl, hc⟩ := (o _).1 h
    obtain ⟨g1, g2⟩ := pnRest_iff.1 g
    refine ⟨⟨c, y, rfl, hc⟩, ?_, ?_⟩
    · intro d hd
      rcases List.mem_append.1 hd with hd | hd
      · rcases List.mem_singleton.1 hd with rfl
        unfold isPnDot; rw [hf _ hc]; rfl
      · exact g1 d hd
    · cases y with
      | nil =>
        intro e
        have e : c = 46 := by simpa using e
        subst e; exact absurd (hf _ hc) (by decide)
      | cons d y => rw [show [c] ++ d :: y = c :: d :: y from rfl, List.getLast?_cons_cons]; exact g2
  · rintro ⟨⟨c, t, rfl, hc⟩, h, g⟩
    refine ⟨[c], t, rfl, (o _).2 ⟨c, rfl, hc⟩, pnRest_iff.2 ⟨fun d hd => h d (List.mem_cons_of_mem _ hd), ?_⟩⟩
    cases t with
    | nil => nofun
    | cons d t => rwa [List.getLast?_cons_cons] at g

theorem one_first : One (.alt pnCharsU digit) fun c => isU c || isDig c := One.alt one_u one_digit fun _ => rfl

theorem first_pn {c : UInt8} (h : (isU c || isDig c) = true) : isPn c = true := by
  unfold isPn
  rcases Bool.or_eq_true .. |>.mp h with h | h <;> rw [h] <;> simp

theorem base_pn {c : UInt8} (h : isBase c = true) : isPn c = true := by unfold isPn isU; rw [h]; rfl

theorem pnLocal_iff {u : Str} : Matches pnLocal u ↔ (∃ c t, u = c :: t ∧ (isU c || isDig c) = true) ∧
    (∀ c ∈ u, isPnDot c = true) ∧ u.getLast? ≠ some 46 := name_iff one_first fun _ => first_pn

theorem prefix_iff {u : Str} : Matches (opt pnPrefix) u ↔ (∀ c ∈ u, isPnDot c = true) ∧ prefixOk u = true := by
  unfold opt pnPrefix
  rw [alt_iff, name_iff one_base fun _ => base_pn, eps_iff]
  constructor
  · rintro (⟨⟨c, t, rfl, hc⟩, h, g⟩ | rfl)
    · exact ⟨h, by show (isBase c && (c :: t).getLast? != some 46) = true; rw [hc, Bool.true_and]; simpa using g⟩
    · exact ⟨nofun, rfl⟩
  · rintro ⟨h, g⟩
    cases u with
    | nil => exact .inr rfl
    | cons c t =>
      obtain ⟨g1, g2⟩ := Bool.and_eq_true .. |>.mp (show (isBase c && (c :: t).getLast? != some 46) = true from g)
      exact .inl ⟨⟨c, t, rfl, g1⟩, h, by simpa using g2⟩

/-! ## Longest matches -/

theorem takeWhile_run {p : UInt8 → Bool} : ∀ (s : Str), ∀ c ∈ s.takeWhile p, p c = true
  | [], _, h => nomatch h
  | d :: s, c, h => by
    rw [List.takeWhile_cons] at h
    split at h
    · rename_i hd
      rcases List.mem_cons.1 h with rfl | h
      · exact hd
      · exact takeWhile_run s c h
    · cases h

/-- A beginning of characters of a class is within the run of them. -/
theorem run_le {p : UInt8 → Bool} : ∀ {u v : Str}, (∀ c ∈ u, p c = true) → ∃ w, (u ++ v).takeWhile p = u ++ w
  | [], v, _ => ⟨v.takeWhile p, rfl⟩
  | c :: u, v, h => by
    obtain ⟨w, hw⟩ := run_le (v := v) fun d hd => h d (List.mem_cons_of_mem c hd)
    exact ⟨w, by rw [List.cons_append, List.takeWhile_cons, if_pos (h c (List.mem_cons_self ..)), hw]; rfl⟩

theorem takeWhile_split (p : UInt8 → Bool) (s : Str) : s = s.takeWhile p ++ s.dropWhile p :=
  List.takeWhile_append_dropWhile.symm

theorem longest_run {p : UInt8 → Bool} (s : Str) :
    Longest (fun u => u ≠ [] ∧ ∀ c ∈ u, p c = true) s (s.takeWhile p).length := by
  refine ⟨fun h => ⟨_, _, takeWhile_split p s, rfl, ?_, takeWhile_run s⟩, ?_⟩
  · intro e; rw [e] at h; exact absurd h (by decide)
  · rintro u v rfl ⟨_, h⟩
    obtain ⟨w, hw⟩ := run_le (v := v) h
    rw [hw, List.length_append]; omega

theorem longest_text (w s : Str) : Longest (fun u => u = w) s (textLen w s) := by
  unfold textLen
  by_cases h : w.isPrefixOf s = true
  · rw [if_pos h]
    obtain ⟨v, hv⟩ := List.isPrefixOf_iff_prefix.1 h
    exact ⟨fun _ => ⟨w, v, hv.symm, rfl, rfl⟩, fun u v _ e => by rw [e]; exact Nat.le_refl _⟩
  · rw [if_neg h]
    refine ⟨nofun, fun u v e g => ?_⟩
    subst g
    exact absurd (List.isPrefixOf_iff_prefix.2 ⟨v, e.symm⟩) h

theorem dropWhile_dots : ∀ s : Str, ∃ d, s = d ++ s.dropWhile (· == 46) ∧ (∀ c ∈ d, c = 46) ∧
    (s.dropWhile (· == 46)).head? ≠ some 46
  | [] => ⟨[], rfl, nofun, nofun⟩
  | c :: s => by
    by_cases h : c = 46
    · obtain ⟨d, h1, h2, h3⟩ := dropWhile_dots s
      subst h
      refine ⟨46 :: d, ?_, ?_, ?_⟩
      · rw [List.dropWhile_cons_of_pos (by rfl)]
        exact congrArg _ h1
      · intro c hc; rcases List.mem_cons.1 hc with rfl | hc
        · rfl
        · exact h2 c hc
      · rwa [List.dropWhile_cons_of_pos (by rfl)]
    · have e : ((c :: s).dropWhile (· == 46)) = c :: s := List.dropWhile_cons_of_neg (by simpa using h)
      exact ⟨[], by rw [e]; rfl, nofun, by rw [e]; intro g; exact h (Option.some.inj g)⟩

theorem trimDots_split (w : Str) : ∃ d, w = trimDots w ++ d ∧ (∀ c ∈ d, c = 46) ∧ (trimDots w).getLast? ≠ some 46 := by
  obtain ⟨d, h1, h2, h3⟩ := dropWhile_dots w.reverse
  refine ⟨d.reverse, ?_, fun c hc => h2 c (List.mem_reverse.1 hc), ?_⟩
  · unfold trimDots
    rw [← List.reverse_append, ← h1, List.reverse_reverse]
  · unfold trimDots
    rwa [List.getLast?_reverse]

theorem getLast?_mem {u : Str} {c : UInt8} (h : u.getLast? = some c) : c ∈ u := List.mem_of_getLast? h

/-- Beginnings without a dot at the end are within what `trimDots` leaves. -/
theorem trimDots_le {u w : Str} (h : u.getLast? ≠ some 46) : u.length ≤ (trimDots (u ++ w)).length := by
  obtain ⟨d, h1, h2, _⟩ := trimDots_split (u ++ w)
  rcases List.append_eq_append_iff.1 h1 with ⟨x, hx, _⟩ | ⟨x, hx, hd⟩
  · rw [hx, List.length_append]; omega
  · cases x with
    | nil =>
      have := congrArg List.length hx
      rw [List.append_nil] at this
      exact Nat.le_of_eq this
    | cons c x =>
      exfalso; apply h
      rcases List.eq_nil_or_concat (c :: x) with e | ⟨t, b, e⟩
      · cases e
      · rw [List.concat_eq_append] at e
        rw [hx, e, ← List.append_assoc, List.getLast?_concat]
        congr 1
        apply h2
        rw [hd, e]; simp

theorem longest_local (s : Str) : Longest (Matches pnLocal) s (pnLocalLen s) := by
  refine Longest.congr (fun u => pnLocal_iff.symm) ?_
  cases s with
  | nil =>
    refine ⟨nofun, ?_⟩
    intro u v e _
    have := congrArg List.length e
    rw [List.length_append] at this
    simp only [List.length_nil] at this; omega
  | cons c t =>
    by_cases hc : (isU c || isDig c) = true
    · have e : pnLocalLen (c :: t) = (trimDots ((c :: t).takeWhile isPnDot)).length := if_pos hc
      rw [e]
      constructor
      · intro hp
        obtain ⟨d, h1, h2, h3⟩ := trimDots_split ((c :: t).takeWhile isPnDot)
        have hall := takeWhile_run (p := isPnDot) (c :: t)
        have hs := takeWhile_split isPnDot (c :: t)
        rw [h1] at hs hall
        refine ⟨_, d ++ (c :: t).dropWhile isPnDot, ?_, rfl, ?_, fun x hx => hall x (List.mem_append_left _ hx), h3⟩
        · rw [← List.append_assoc]; exact hs
        · cases hq : trimDots ((c :: t).takeWhile isPnDot) with
          | nil => rw [hq] at hp; exact absurd hp (by decide)
          | cons x y =>
            rw [hq] at hs
            have : c = x := (List.cons.inj hs).1
            subst this
            exact ⟨c, y, rfl, hc⟩
      · rintro u v e ⟨_, h, g⟩
        rw [e]
        obtain ⟨w, hw⟩ := run_le (v := v) h
        rw [hw]
        exact trimDots_le g
    · have e : pnLocalLen (c :: t) = 0 := if_neg hc
      rw [e]
      refine ⟨nofun, ?_⟩
      rintro u v e ⟨⟨x, y, rfl, hx⟩, _⟩
      have : c = x := (List.cons.inj e).1
      exact absurd (this ▸ hx) hc

theorem head_drop_run {p : UInt8 → Bool} {c : UInt8} (hc : p c = false) {u v : Str} (h : ∀ x ∈ u, p x = true) :
    (u ++ c :: v).takeWhile p = u := takeWhile_stop h (by simpa using hc)

theorem ns_iff {u : Str} : Matches pnameNs u ↔ ∃ q, u = q ++ [58] ∧ (∀ c ∈ q, isPnDot c = true) ∧ prefixOk q = true := by
  unfold pnameNs
  rw [seq_ch_iff]
  constructor
  · rintro ⟨v, rfl, h⟩; exact ⟨v, rfl, prefix_iff.1 h⟩
  · rintro ⟨v, rfl, h⟩; exact ⟨v, rfl, prefix_iff.2 h⟩

theorem nsLen_of {q v : Str} (h : ∀ c ∈ q, isPnDot c = true) (g : prefixOk q = true) :
    pnameNsLen (q ++ 58 :: v) = q.length + 1 := by
  unfold pnameNsLen
  rw [head_drop_run (by decide) h]
  rw [if_pos ⟨by rw [drop_left]; rfl, g⟩]

theorem nsLen_pos {s : Str} (h : 0 < pnameNsLen s) : ∃ q v, s = q ++ 58 :: v ∧ pnameNsLen s = q.length + 1 ∧
    (∀ c ∈ q, isPnDot c = true) ∧ prefixOk q = true := by
  unfold pnameNsLen at h ⊢
  by_cases hc : (s.drop (s.takeWhile isPnDot).length).head? = some 58 ∧ prefixOk (s.takeWhile isPnDot) = true
  · rw [if_pos hc]
    have hs := takeWhile_split isPnDot s
    have hd := hc.1
    rw [drop_takeWhile] at hd
    cases hv : s.dropWhile isPnDot with
    | nil => rw [hv] at hd; cases hd
    | cons x v =>
      rw [hv] at hd hs
      cases hd
      exact ⟨_, v, hs, rfl, takeWhile_run s, hc.2⟩
  · rw [if_neg hc] at h; exact absurd h (by decide)

theorem longest_ns (s : Str) : Longest (Matches pnameNs) s (pnameNsLen s) := by
  refine Longest.congr (fun u => ns_iff.symm) ⟨fun h => ?_, ?_⟩
  · obtain ⟨q, v, hs, hl, h1, h2⟩ := nsLen_pos h
    exact ⟨q ++ [58], v, by rw [hs, List.append_assoc]; rfl, by rw [hl, List.length_append]; rfl, q, rfl, h1, h2⟩
  · rintro u v rfl ⟨q, rfl, h1, h2⟩
    rw [List.append_assoc, show [58] ++ v = 58 :: v from rfl, nsLen_of h1 h2, List.length_append]
    exact Nat.le_refl _

theorem longest_ln (s : Str) : Longest (Matches pnameLn) s (pnameLnLen s) := by
  have key : ∀ u, Matches pnameLn u ↔ ∃ q w, u = q ++ 58 :: w ∧ ((∀ c ∈ q, isPnDot c = true) ∧ prefixOk q = true) ∧
      Matches pnLocal w := by
    intro u
    unfold pnameLn
    rw [seq_iff]
    constructor
    · rintro ⟨x, y, rfl, h, g⟩
      obtain ⟨q, rfl, hq⟩ := ns_iff.1 h
      exact ⟨q, y, by rw [List.append_assoc]; rfl, hq, g⟩
    · rintro ⟨q, w, rfl, hq, g⟩
      exact ⟨q ++ [58], w, by rw [List.append_assoc]; rfl, ns_iff.2 ⟨q, rfl, hq⟩, g⟩
  refine Longest.congr (fun u => (key u).symm) ⟨fun h => ?_, ?_⟩
  · unfold pnameLnLen at h ⊢
    dsimp only at h ⊢
    split at h
    · exact absurd h (by decide)
    · rename_i hn
      rw [if_neg hn]
      obtain ⟨q, v, hs, hl, h1, h2⟩ := nsLen_pos (s := s) (by omega)
      have hd : s.drop (pnameNsLen s) = v := by
        rw [hl, hs, show q ++ 58 :: v = (q ++ [58]) ++ v by rw [List.append_assoc]; rfl,
          show q.length + 1 = (q ++ [58]).length by rw [List.length_append]; rfl, drop_left]
      rw [hd] at hn ⊢
      obtain ⟨w, r, e, lw, hw⟩ := (longest_local v).1 (by omega)
      exact ⟨q ++ 58 :: w, r, by rw [hs, e, List.append_assoc]; rfl,
        by rw [List.length_append, hl, List.length_cons, lw]; omega, q, w, rfl, ⟨h1, h2⟩, hw⟩
  · rintro u v rfl ⟨q, w, rfl, ⟨h1, h2⟩, hw⟩
    have e : (q ++ 58 :: w) ++ v = q ++ 58 :: (w ++ v) := by rw [List.append_assoc]; rfl
    have hl := (longest_local (w ++ v)).2 w v rfl hw
    have hpos : w ≠ [] := by
      obtain ⟨⟨c, t, rfl, _⟩, _⟩ := pnLocal_iff.1 hw; nofun
    have hp : 0 < w.length := List.length_pos_iff.2 hpos
    unfold pnameLnLen
    dsimp only
    rw [e, nsLen_of h1 h2]
    have hd : (q ++ 58 :: (w ++ v)).drop (q.length + 1) = w ++ v := by
      rw [show q ++ 58 :: (w ++ v) = (q ++ [58]) ++ (w ++ v) by rw [List.append_assoc]; rfl,
        show q.length + 1 = (q ++ [58]).length by rw [List.length_append]; rfl, drop_left]
    rw [hd, if_neg (by omega), List.length_append, List.length_cons]
    omega

theorem longest_iri (s : Str) : Longest (Matches iriRef) s (iriRefLen s) := by
  have key : ∀ u, Matches iriRef u ↔ ∃ w, u = 60 :: (w ++ [62]) ∧ ∀ c ∈ w, isIriChar c = true := by
    intro u
    unfold iriRef
    rw [ch_seq_iff]
    constructor
    · rintro ⟨v, rfl, h⟩
      obtain ⟨w, rfl, g⟩ := seq_ch_iff.1 h
      exact ⟨w, rfl, (star_iff one_iri).1 g⟩
    · rintro ⟨w, rfl, g⟩
      exact ⟨_, rfl, seq_ch_iff.2 ⟨w, rfl, (star_iff one_iri).2 g⟩⟩
  refine Longest.congr (fun u => (key u).symm) ⟨fun h => ?_, ?_⟩
  · unfold iriRefLen at h ⊢
    split at h
    · rename_i t
      dsimp only at h ⊢
      split at h
      · rename_i hd
        rw [if_pos hd]
        rw [drop_takeWhile] at hd
        have hs := takeWhile_split isIriChar t
        cases hv : t.dropWhile isIriChar with
        | nil => rw [hv] at hd; cases hd
        | cons x v =>
          rw [hv] at hd hs
          cases hd
          refine ⟨60 :: (t.takeWhile isIriChar ++ [62]), v, ?_, by simp, _, rfl, takeWhile_run t⟩
          rw [List.cons_append, List.append_assoc]
          exact congrArg _ hs
      · exact absurd h (by decide)
    · exact absurd h (by decide)
  · rintro u v rfl ⟨w, rfl, hw⟩
    have e : (60 :: (w ++ [62])) ++ v = 60 :: (w ++ 62 :: v) := by rw [List.cons_append, List.append_assoc]; rfl
    rw [e, show iriRefLen (60 :: (w ++ 62 :: v)) = if ((w ++ 62 :: v).drop ((w ++ 62 :: v).takeWhile isIriChar).length).head? = some 62
      then ((w ++ 62 :: v).takeWhile isIriChar).length + 2 else 0 from rfl,
      head_drop_run (c := 62) (by decide) hw, drop_left, if_pos (by rfl)]
    simp

theorem longest_blank (s : Str) : Longest (Matches blankNodeLabel) s (blankLen s) := by
  have key : ∀ u, Matches blankNodeLabel u ↔ ∃ w, u = 95 :: 58 :: w ∧ Matches pnLocal w := by
    intro u
    unfold blankNodeLabel
    rw [ch_seq_iff]
    constructor
    · rintro ⟨v, rfl, h⟩
      obtain ⟨w, rfl, g⟩ := ch_seq_iff.1 h
      exact ⟨w, rfl, g⟩
    · rintro ⟨w, rfl, g⟩
      exact ⟨_, rfl, ch_seq_iff.2 ⟨w, rfl, g⟩⟩
  refine Longest.congr (fun u => (key u).symm) ⟨fun h => ?_, ?_⟩
  · unfold blankLen at h ⊢
    split at h
    · rename_i t
      dsimp only at h ⊢
      split at h
      · exact absurd h (by decide)
      · rename_i hn
        rw [if_neg hn]
        obtain ⟨w, r, e, lw, hw⟩ := (longest_local t).1 (by omega)
        exact ⟨95 :: 58 :: w, r, by rw [e]; rfl, by rw [List.length_cons, List.length_cons, lw], w, rfl, hw⟩
    · exact absurd h (by decide)
  · rintro u v rfl ⟨w, rfl, hw⟩
    have hl := (longest_local (w ++ v)).2 w v rfl hw
    have hpos : w ≠ [] := by
      obtain ⟨⟨c, t, rfl, _⟩, _⟩ := pnLocal_iff.1 hw; nofun
    have hp : 0 < w.length := List.length_pos_iff.2 hpos
    show _ ≤ if pnLocalLen (w ++ v) = 0 then 0 else pnLocalLen (w ++ v) + 2
    rw [if_neg (by omega)]
    simp only [List.length_cons]; omega

/-- A piece of the rest of a language tag. -/
def Piece (u : Str) : Prop := ∃ a, u = 45 :: a ∧ a ≠ [] ∧ ∀ c ∈ a, isAlnum c = true

theorem piece_iff {u : Str} : Matches (.seq (ch 45) (plus alnum)) u ↔ Piece u := by
  rw [ch_seq_iff]
  exact ⟨fun ⟨v, e, h⟩ => ⟨v, e, (plus_iff one_alnum).1 h⟩, fun ⟨v, e, h⟩ => ⟨v, e, (plus_iff one_alnum).2 h⟩⟩

abbrev langRest : Re := .star (.seq (ch 45) (plus alnum))

theorem rest_inv {r : Re} {u : Str} (h : Matches r u) : ∀ {a : Re}, r = .star a →
    u = [] ∨ ∃ x y, u = x ++ y ∧ Matches a x ∧ Matches (.star a) y := by
  intro a e
  cases h with
  | starNil => exact .inl rfl
  | starCons h g => cases e; exact .inr ⟨_, _, rfl, h, g⟩
  | cls => cases e
  | eps => cases e
  | seq => cases e
  | altL => cases e
  | altR => cases e

theorem rest_head {u : Str} (h : Matches langRest u) : u = [] ∨ ∃ t, u = 45 :: t := by
  rcases rest_inv h rfl with e | ⟨x, y, e, hx, _⟩
  · exact .inl e
  · obtain ⟨a, rfl, _⟩ := piece_iff.1 hx
    exact .inr ⟨a ++ y, e⟩

theorem tail_pos : ∀ (n : Nat) (s : Str), ∃ u v, s = u ++ v ∧ u.length = langTailLen n s ∧ Matches langRest u
  | 0, s => ⟨[], s, rfl, by simp [langTailLen], .starNil⟩
  | n + 1, s => by
    rw [langTailLen.eq_def]
    split
    · rename_i m t heq
      cases heq
      dsimp only
      split
      · exact ⟨[], _, rfl, rfl, .starNil⟩
      · rename_i ha
        obtain ⟨u, v, e, l, hm⟩ := tail_pos n (t.drop (t.takeWhile isAlnum).length)
        have hs : t = t.takeWhile isAlnum ++ (u ++ v) := by
          rw [← e, drop_takeWhile]; exact takeWhile_split isAlnum t
        refine ⟨(45 :: t.takeWhile isAlnum) ++ u, v, ?_, ?_, ?_⟩
        · rw [List.append_assoc]; exact congrArg _ hs
        · rw [List.length_append, List.length_cons, l]; omega
        · refine .starCons (piece_iff.2 ⟨_, rfl, ?_, takeWhile_run t⟩) hm
          intro e0; exact ha (by rw [e0]; rfl)
    · exact ⟨[], _, rfl, rfl, .starNil⟩

/-- After a run of a class comes what begins with a character that is not of it: the run is all of it. -/
theorem run_all {p : UInt8 → Bool} (hp : p 45 = false) {a y v : Str} (ha : ∀ c ∈ a, p c = true)
    (hy : Matches langRest y) : (y = [] → ∃ w, ((a ++ y) ++ v).takeWhile p = a ++ w) ∧
      (y ≠ [] → ((a ++ y) ++ v).takeWhile p = a) := by
  constructor
  · rintro rfl; rw [List.append_nil]; exact run_le ha
  · intro hn
    rcases rest_head hy with e | ⟨t, rfl⟩
    · exact absurd e hn
    · rw [List.append_assoc, List.cons_append]; exact head_drop_run hp ha

theorem tail_max : ∀ (n : Nat) (u v : Str), u.length ≤ n → Matches langRest u → u.length ≤ langTailLen n (u ++ v)
  | 0, u, v, h, _ => Nat.le_trans h (Nat.zero_le _)
  | n + 1, u, v, h, hm => by
    rcases rest_inv hm rfl with rfl | ⟨x, y, rfl, hx, hy⟩
    · exact Nat.zero_le _
    · obtain ⟨a, rfl, ha0, ha⟩ := piece_iff.1 hx
      have hpos : 0 < a.length := List.length_pos_iff.2 ha0
      have key := run_all (p := isAlnum) (v := v) (by decide) ha hy
      simp only [List.length_append, List.length_cons] at h ⊢
      show _ ≤ (let b := (((a ++ y) ++ v).takeWhile isAlnum).length
        if b = 0 then 0 else 1 + b + langTailLen n (((a ++ y) ++ v).drop b))
      dsimp only
      by_cases hy0 : y = []
      · obtain ⟨w, hw⟩ := key.1 hy0
        rw [hw, List.length_append, if_neg (by omega), hy0]
        simp only [List.length_nil]; omega
      · rw [key.2 hy0, if_neg (by omega), List.append_assoc, drop_left]
        have := tail_max n y v (by omega) hy
        omega

theorem longest_lang (s : Str) : Longest (Matches langTag) s (langLen s) := by
  have key : ∀ u, Matches langTag u ↔ ∃ a y, u = 64 :: (a ++ y) ∧ (a ≠ [] ∧ ∀ c ∈ a, isAlpha c = true) ∧ Matches langRest y := by
    intro u
    unfold langTag
    rw [ch_seq_iff]
    constructor
    · rintro ⟨v, rfl, h⟩
      obtain ⟨a, y, rfl, g, k⟩ := seq_iff.1 h
      exact ⟨a, y, rfl, (plus_iff one_alpha).1 g, k⟩
    · rintro ⟨a, y, rfl, g, k⟩
      exact ⟨_, rfl, seq_iff.2 ⟨a, y, rfl, (plus_iff one_alpha).2 g, k⟩⟩
  refine Longest.congr (fun u => (key u).symm) ⟨fun h => ?_, ?_⟩
  · unfold langLen at h ⊢
    split at h
    · rename_i t
      dsimp only at h ⊢
      split at h
      · exact absurd h (by decide)
      · rename_i ha
        rw [if_neg ha]
        obtain ⟨u, v, e, l, hm⟩ := tail_pos t.length (t.drop (t.takeWhile isAlpha).length)
        have hs : t = t.takeWhile isAlpha ++ (u ++ v) := by
          rw [← e, drop_takeWhile]; exact takeWhile_split isAlpha t
        refine ⟨64 :: (t.takeWhile isAlpha ++ u), v, ?_, ?_, _, u, rfl, ⟨?_, takeWhile_run t⟩, hm⟩
        · rw [List.cons_append, List.append_assoc]; exact congrArg _ hs
        · rw [List.length_cons, List.length_append, l]; omega
        · intro e0; exact ha (by rw [e0]; rfl)
    · exact absurd h (by decide)
  · rintro u v rfl ⟨a, y, rfl, ⟨ha0, ha⟩, hy⟩
    have hpos : 0 < a.length := List.length_pos_iff.2 ha0
    have key := run_all (p := isAlpha) (v := v) (by decide) ha hy
    show _ ≤ (let b := (((a ++ y) ++ v).takeWhile isAlpha).length
        if b = 0 then 0 else 1 + b + langTailLen ((a ++ y) ++ v).length (((a ++ y) ++ v).drop b))
    dsimp only
    simp only [List.length_cons, List.length_append]
    by_cases hy0 : y = []
    · obtain ⟨w, hw⟩ := key.1 hy0
      rw [hw, List.length_append, if_neg (by omega), hy0]
      simp only [List.length_nil]; omega
    · rw [key.2 hy0, if_neg (by omega), List.append_assoc, drop_left]
      have := tail_max (a.length + y.length + v.length) y v (by omega) hy
      omega

theorem comment_len (s : Str) : Rule.len s .comment =
    match s with | 35 :: t => (t.takeWhile (· != 10)).length + 1 | _ => 0 := rfl

theorem longest_comment (s : Str) : Longest (Matches comment) s (Rule.len s .comment) := by
  have o : One (.cls fun d => !(d == 10)) (fun d => d != 10) := One.cls fun _ => rfl
  have key : ∀ u, Matches comment u ↔ ∃ w, u = 35 :: w ∧ ∀ c ∈ w, (c != 10) = true := by
    intro u
    unfold comment
    rw [ch_seq_iff]
    exact ⟨fun ⟨w, e, h⟩ => ⟨w, e, (star_iff o).1 h⟩, fun ⟨w, e, h⟩ => ⟨w, e, (star_iff o).2 h⟩⟩
  refine Longest.congr (fun u => (key u).symm) ⟨fun h => ?_, ?_⟩
  · rw [comment_len] at h ⊢
    split at h
    · rename_i t
      dsimp only
      exact ⟨35 :: t.takeWhile (· != 10), t.dropWhile (· != 10), congrArg (35 :: ·) (takeWhile_split _ t), rfl, _, rfl,
        takeWhile_run t⟩
    · exact absurd h (by decide)
  · rintro u v rfl ⟨w, rfl, hw⟩
    show _ ≤ ((w ++ v).takeWhile (· != 10)).length + 1
    obtain ⟨x, hx⟩ := run_le (v := v) hw
    rw [hx, List.length_cons, List.length_append]; omega

theorem longest_any (s : Str) : Longest (Matches dot) s (Rule.len s .any) := by
  refine Longest.congr (fun u => cls_iff.symm) ⟨fun h => ?_, ?_⟩
  · cases s with
    | nil => exact absurd h (by decide)
    | cons c t =>
      have e : Rule.len (c :: t) .any = if c = 10 then 0 else 1 := rfl
      rw [e] at h ⊢
      split at h
      · exact absurd h (by decide)
      · rename_i hc
        rw [if_neg hc]
        exact ⟨[c], t, rfl, rfl, c, rfl, by simpa using hc⟩
  · rintro u v rfl ⟨c, rfl, hc⟩
    show _ ≤ if c = 10 then 0 else 1
    rw [if_neg (by simpa using hc)]
    exact Nat.le_refl _

/-- The lengths of the model are those of the longest matches of the patterns. -/
theorem longest_rule (s : Str) : ∀ r, Longest (Matches (pattern r)) s (r.len s)
  | .ws => (longest_run s).congr fun _ => (plus_iff one_ws).symm
  | .kw k => (longest_text k.text s).congr fun _ => text_iff.symm
  | .nat => (longest_run s).congr fun _ => (plus_iff one_digit).symm
  | .iriRef => longest_iri s
  | .pnameNs => longest_ns s
  | .pnameLn => longest_ln s
  | .blank => longest_blank s
  | .lang => longest_lang s
  | .qmark => (longest_text [34] s).congr fun u => (text_iff (w := [34])).symm.trans (by
      show Matches (.seq (ch 34) .eps) u ↔ Matches (ch 34) u
      rw [ch_seq_iff, one_ch 34 u]
      constructor
      · rintro ⟨v, rfl, h⟩; rw [eps_iff.1 h]; exact ⟨34, rfl, rfl⟩
      · rintro ⟨c, rfl, h⟩; exact ⟨[], by rw [eq_of_beq h], .eps⟩)
  | .dcaret => (longest_text [94, 94] s).congr fun _ => text_iff.symm
  | .lpar => (longest_text [40] s).congr fun _ => text_iff.symm
  | .rpar => (longest_text [41] s).congr fun _ => text_iff.symm
  | .equals => (longest_text [61] s).congr fun _ => text_iff.symm
  | .comment => longest_comment s
  | .any => longest_any s

end Cowl.Re
