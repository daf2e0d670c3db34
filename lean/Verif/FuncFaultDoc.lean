import Verif.FuncFaultLemmas
/-! # Lemmas: the automaton accepts the documents that the reader accepts -/
namespace Cowl.Func
open Prefix Change FuncCut

theorem lexN_le : ∀ (n : Nat) (s : Str), (lexN n s).length ≤ n
  | 0, _ => by simp [lexN]
  | n + 1, [] => by simp [lexN]
  | n + 1, c :: s => by
    have h := lexN_le n
    unfold lexN
    dsimp only
    split
    · exact Nat.le_succ_of_le (h _)
    · exact Nat.le_succ_of_le (h _)
    · split
      · simpa using h _
      · simp
      · simp
    · split
      · simp
      · simpa using h _
    · simpa using h _

theorem lex_le (s : Str) : (lex s).length ≤ s.length := lexN_le _ _

variable {m : PMap} {a : Nat} {ph : Phase} {t : Tok} {ts : List Tok}

theorem run_go {s' : St} (h : phaseAct m a t ph = .go s') : run ⟨m, a, [], ph⟩ (t :: ts) = run s' ts := by
  rw [run]
  show (match phaseAct m a t ph with | .go s' => run s' ts | .bad w => .bad (t :: ts) w | .ub => .ub) = _
  rw [h]

theorem run_no {w : Why} (h : phaseAct m a t ph = .bad w) : run ⟨m, a, [], ph⟩ (t :: ts) = .bad (t :: ts) w := by
  rw [run]
  show (match phaseAct m a t ph with | .go s' => run s' ts | .bad w => .bad (t :: ts) w | .ub => .ub) = _
  rw [h]

theorem run_same {ph' : Phase} (h : phaseAct m a t ph = phaseAct m a t ph') : run ⟨m, a, [], ph⟩ (t :: ts) = run ⟨m, a, [], ph'⟩ (t :: ts) := by
  rw [run, run]
  show (match phaseAct m a t ph with | .go s' => run s' ts | .bad w => .bad (t :: ts) w | .ub => .ub) = _
  rw [h]
  rfl

/-- A phase that begins with a nonterminal. -/
theorem run_cat {c : Cat} {ph' : Phase} (h : phaseAct m a t ph = (catAct m c t).apply m a [] ph') :
    run ⟨m, a, [], ph⟩ (t :: ts) = run ⟨m, a, [.cat c], ph'⟩ (t :: ts) := by
  rcases catAct_cases m c t with ⟨l, hl⟩ | ⟨w, hw⟩
  · rw [hl] at h
    rw [run_go h, run_shift (show symAct m (.cat c) t = _ from hl)]
  · rw [hw] at h
    rw [run_no h, run_bad (show symAct m (.cat c) t = _ from hw)]

theorem Fol.iff {α : Type} {d : Nat} {res : Option (α × List Tok)} {l : List Sym} (h : Fol m d res l ts) (hp : ph ≠ .done) :
    run ⟨m, a, l, ph⟩ ts = .ok ↔ ∃ x r, res = some (x, r) ∧ run ⟨m, a, [], ph⟩ r = .ok := by
  have e : l ++ [] = l := List.append_nil l
  constructor
  · intro k
    cases hr : res with
    | none => have := h.fails hr a [] ph hp; rw [e] at this; exact absurd k this
    | some y =>
      refine ⟨y.1, y.2, rfl, ?_⟩
      have := (h.done y.1 y.2 hr).2 a [] ph hp
      rw [e, k] at this
      exact this.symm
  · rintro ⟨x, r, hr, k⟩
    have := (h.done x r hr).2 a [] ph hp
    rw [e] at this
    rw [this, k]

theorem axioms_run {k : Nat} : ∀ (n : Nat) (ts : List Tok), ts.length < k → ts.length < n → ∀ l,
    ((readAxioms noting k n l m ts).2 = .ok ↔ run ⟨m, a, [], .axioms⟩ ts = .ok)
  | 0, _, _, h, _ => by omega
  | n + 1, ts, hk, hn, l => by
    by_cases hr : ts.head? = some .rpar
    · cases ts with
      | nil => cases hr
      | cons t us =>
        obtain rfl := Option.some.inj hr
        rw [run_go (s' := ⟨m, a, [], .done⟩) rfl]
        show (if us = [] then Outcome.ok else .rejected) = .ok ↔ _
        cases us with
        | nil => simp [run]
        | cons u us => rw [run_no (w := .syntax) rfl]; simp
    · have hf := fol_cat m k .ax ts (by simpa [need] using hk)
      have key : run ⟨m, a, [], .axioms⟩ ts = .ok ↔ run ⟨m, a, [.cat .ax], .axioms⟩ ts = .ok := by
        cases ts with
        | nil => rw [run_nil (by nofun), run_nil (by nofun)]
        | cons t us =>
          have ht : t ≠ .rpar := fun e => hr (by rw [e]; rfl)
          rw [run_cat (c := .ax) (ph' := .axioms)]
          show axiomsPhase m a t = _
          rw [axiomsPhase, if_neg ht]
      rw [key, hf.iff (by nofun)]
      cases ho : parseCat m k .ax ts with
      | none => rw [axioms_bad hr ho]; simp
      | some y =>
        obtain ⟨o, r⟩ := y
        have hl := (hf.done o r ho).1
        rw [axioms_one hr ho, if_pos (noting_ok _ _), axioms_run n r (by omega) (by omega)]
        constructor
        · exact fun h => ⟨o, r, rfl, h⟩
        · rintro ⟨i, r', e, h⟩; cases e; exact h

theorem import_fol (m : PMap) (ts : List Tok) : Fol m 1 (readImport m ts) [.lpar, .cat .iri, .rpar] ts := by
  have bad : (¬ ∃ t us, ts = .lpar :: t :: .rpar :: us) → readImport m ts = none := by
    intro h
    cases e : readImport m ts with
    | none => rfl
    | some x =>
      obtain ⟨t, e, -⟩ := import_some e
      exact absurd ⟨t, _, e⟩ h
  cases ts with
  | nil => exact .empty rfl
  | cons t us =>
    by_cases h1 : t = .lpar
    · subst h1
      refine Fol.mono (d := 0 + 1) (.shift (l' := []) rfl ?_) (by omega)
      cases us with
      | nil => exact .empty rfl
      | cons t2 us =>
        cases hi : readIri m t2 with
        | none =>
          obtain ⟨w, hw⟩ := iriAct_none hi
          refine .bad (w := w) hw ?_
          cases e : readImport m (.lpar :: t2 :: us) with
          | none => rfl
          | some x =>
            obtain ⟨t, e, hi'⟩ := import_some e
            simp at e
            obtain ⟨rfl, -⟩ := e
            rw [hi] at hi'
            cases hi'
        | some i =>
          refine Fol.mono (d := 0 + 1) (.shift (l' := []) (iriAct_some hi) ?_) (by omega)
          cases us with
          | nil => exact .empty (bad (by simp))
          | cons t3 us =>
            by_cases h3 : t3 = .rpar
            · subst h3
              refine Fol.mono (d := 0 + 1) (.shift (l' := []) rfl ?_) (by omega)
              have : readImport m (.lpar :: t2 :: .rpar :: us) = some (i, us) := by
                show (readIri m t2).map _ = _
                rw [hi]; rfl
              rw [this]
              exact .nil _
            · exact .bad (w := .syntax) (if_neg h3) (bad (by rintro ⟨t', us', e'⟩; simp at e'; exact h3 e'.2.1))
    · exact .bad (w := .syntax) (if_neg h1) (bad (by rintro ⟨t', us', e'⟩; simp at e'; exact h1 e'.1))

theorem body_run {k : Nat} : ∀ (n : Nat) (ts : List Tok), ts.length < k → ts.length < n → ∀ l,
    ((body k n l m ts).2 = .ok ↔ run ⟨m, a, [], .header⟩ ts = .ok)
  | 0, _, _, h, _ => by omega
  | n + 1, ts, hk, hn, l => by
    by_cases h1 : ts.head? = some (.kw .import_)
    · cases ts with
      | nil => cases h1
      | cons t us =>
        obtain rfl := Option.some.inj h1
        rw [run_go (s' := ⟨m, a, [.lpar, .cat .iri, .rpar], .header⟩) rfl, (import_fol m us).iff (by nofun)]
        cases hi : readImport m us with
        | none =>
          unfold body
          rw [header_import_bad hi]
          simp
        | some x =>
          have hl := ((import_fol m us).done x.1 x.2 hi).1
          obtain ⟨t, e, hi'⟩ := import_some hi
          simp only [List.length_cons] at hk hn
          have : body k (n + 1) l m (.kw .import_ :: us) = body k n (noting l (.import x.1)).1 m x.2 := by
            unfold body
            rw [e, header_import hi', if_pos (noting_ok _ _)]
          rw [this, body_run n x.2 (by omega) (by omega)]
          constructor
          · exact fun h => ⟨x.1, x.2, rfl, h⟩
          · rintro ⟨i, r, e, h⟩; cases e; exact h
    · by_cases h2 : ts.head? = some (.kw .annotation)
      · have hf := fol_cat m k .annotation ts (by simpa [need] using hk)
        have key : run ⟨m, a, [], .header⟩ ts = run ⟨m, a, [.cat .annotation], .header⟩ ts := by
          cases ts with
          | nil => cases h2
          | cons t us =>
            obtain rfl := Option.some.inj h2
            exact run_cat rfl
        rw [key, hf.iff (by nofun)]
        cases ho : parseCat m k .annotation ts with
        | none =>
          unfold body
          rw [header_annot_bad h2 ho]
          simp
        | some y =>
          obtain ⟨o, r⟩ := y
          have hl := (hf.done o r ho).1
          have : body k (n + 1) l m ts = body k n (noting l (.annot o)).1 m r := by
            unfold body
            rw [header_annot h2 ho, if_pos (noting_ok _ _)]
          rw [this, body_run n r (by omega) (by omega)]
          constructor
          · exact fun h => ⟨o, r, rfl, h⟩
          · rintro ⟨i, r', e, h⟩; cases e; exact h
      · have : body k (n + 1) l m ts = readAxioms noting k (k + 1) l m ts := by
          unfold body
          rw [header_end h1 h2]
        rw [this, axioms_run (a := a) (k + 1) ts hk (by omega)]
        cases ts with
        | nil => rw [run_nil (by nofun), run_nil (by nofun)]
        | cons t us =>
          rw [run_same (ph := .header) (ph' := .axioms)]
          show headerPhase m a t = axiomsPhase m a t
          rw [headerPhase, if_neg fun e => h1 (by rw [e]; rfl), if_neg fun e => h2 (by rw [e]; rfl)]

theorem id_same (hb : ∀ t, ts.head? = some t → t.beginsIri = false) (hp : ph = .id ∨ ph = .id2) :
    run ⟨m, a, [], ph⟩ ts = run ⟨m, a, [], .header⟩ ts := by
  have hd : ph ≠ .done := by rcases hp with rfl | rfl <;> nofun
  cases ts with
  | nil => rw [run_nil hd, run_nil (by nofun)]
  | cons t us =>
    refine run_same ?_
    have := hb t rfl
    rcases hp with rfl | rfl
    · show (if t.beginsIri then _ else _) = headerPhase m a t
      rw [if_neg (by simp [this])]
    · show (if t.beginsIri then _ else _) = headerPhase m a t
      rw [if_neg (by simp [this])]

theorem id_iri {ph' : Phase} (hb : t.beginsIri = true) (hp : ph = .id ∧ ph' = .id2 ∨ ph = .id2 ∧ ph' = .header) :
    (readIri m t = none → run ⟨m, a, [], ph⟩ (t :: ts) ≠ .ok) ∧ (∀ i, readIri m t = some i → run ⟨m, a, [], ph⟩ (t :: ts) = run ⟨m, a, [], ph'⟩ ts) := by
  have e : phaseAct m a t ph = (iriAct m t).apply m a [] ph' := by
    rcases hp with ⟨rfl, rfl⟩ | ⟨rfl, rfl⟩
    · exact if_pos hb
    · exact if_pos hb
  constructor
  · intro h
    obtain ⟨w, hw⟩ := iriAct_none h
    rw [hw] at e
    rw [run_no e]
    nofun
  · intro i h
    rw [iriAct_some h] at e
    rw [run_go e]
    rfl

theorem id_run {k : Nat} (ts : List Tok) (hk : ts.length < k) (l : List Item) :
    (afterId k (readId noting l m ts)).2 = .ok ↔ run ⟨m, a, [], .id⟩ ts = .ok := by
  by_cases hb : ∀ t, ts.head? = some t → t.beginsIri = false
  · rw [id_other hb, id_same hb (.inl rfl)]
    exact body_run (k + 1) ts hk (by omega) l
  · obtain ⟨t, us, rfl, ht⟩ : ∃ t us, ts = t :: us ∧ t.beginsIri = true := by
      cases ts with
      | nil => exact absurd (fun t h => by cases h) hb
      | cons t us =>
        refine ⟨t, us, rfl, ?_⟩
        cases h : t.beginsIri with
        | true => rfl
        | false => exact absurd (fun t' h' => by obtain rfl := Option.some.inj h'; exact h) hb
    simp only [List.length_cons] at hk
    have h1 := id_iri (m := m) (a := a) (ts := us) ht (.inl ⟨rfl, rfl⟩)
    cases hi : readIri m t with
    | none =>
      rw [id_bad ht hi]
      have := h1.1 hi
      simp [afterId, this]
    | some i =>
      rw [h1.2 i hi]
      by_cases hb2 : ∀ t, us.head? = some t → t.beginsIri = false
      · rw [id_one ht hi hb2, id_same hb2 (.inr rfl)]
        exact body_run (k + 1) us (by omega) (by omega) _
      · obtain ⟨u, vs, rfl, hu⟩ : ∃ u vs, us = u :: vs ∧ u.beginsIri = true := by
          cases us with
          | nil => exact absurd (fun t h => by cases h) hb2
          | cons t us =>
            refine ⟨t, us, rfl, ?_⟩
            cases h : t.beginsIri with
            | true => rfl
            | false => exact absurd (fun t' h' => by obtain rfl := Option.some.inj h'; exact h) hb2
        simp only [List.length_cons] at hk
        have h2 := id_iri (m := m) (a := a) (ts := vs) hu (.inr ⟨rfl, rfl⟩)
        cases hv : readIri m u with
        | none =>
          rw [id_bad2 ht hi hu hv]
          have := h2.1 hv
          simp [afterId, this]
        | some v =>
          rw [h2.2 v hv, id_two ht hi hu hv]
          exact body_run (k + 1) vs (by omega) (by omega) _

theorem ontology_run {k : Nat} (ts : List Tok) (hk : ts.length ≤ k) (hh : ts.head? ≠ some (.kw .prefix_)) (l : List Item) :
    (readOntology noting k l m ts).2 = .ok ↔ run ⟨m, a, [], .prefixes⟩ ts = .ok := by
  by_cases ho : ∃ us, ts = .kw .ontology :: .lpar :: us
  · obtain ⟨us, rfl⟩ := ho
    simp only [List.length_cons] at hk
    rw [ontology_eq, run_go (s' := ⟨m, a, [.lpar], .id⟩) rfl, run_shift (s := .lpar) (l := []) (if_pos rfl)]
    exact id_run us (by omega) l
  · rw [ontology_bad ho]
    refine ⟨nofun, fun h => ?_⟩
    exfalso
    cases ts with
    | nil => rw [run_nil (by nofun)] at h; cases h
    | cons t us =>
      by_cases h1 : t = .kw .ontology
      · subst h1
        rw [run_go (s' := ⟨m, a, [.lpar], .id⟩) rfl] at h
        cases us with
        | nil => rw [run_nil (by nofun)] at h; cases h
        | cons u us =>
          by_cases h2 : u = .lpar
          · subst h2; exact ho ⟨us, rfl⟩
          · rw [run_bad (s := .lpar) (w := .syntax) (if_neg h2)] at h; cases h
      · rw [run_no (w := .syntax)] at h
        · cases h
        · show (if t = .kw .prefix_ then _ else if t = .kw .ontology then _ else _) = _
          rw [if_neg fun e => hh (by rw [e]; rfl), if_neg h1]

theorem declare_run {p n : Str} {st : List Sym} :
    run ⟨m, a, .declEnd p n :: st, ph⟩ (.rpar :: ts) = run ⟨(m.add ⟨a, p⟩ n false).1, a + 1, st, ph⟩ ts := rfl

theorem prefixes_run {k : Nat} : ∀ (n : Nat) (ts : List Tok), ts.length ≤ n → ts.length ≤ k → ∀ (a : Nat) (m : PMap) (l : List Item),
    ((afterPrefixes k (readPrefixes noting a l m ts)).2 = .ok ↔ run ⟨m, a, [], .prefixes⟩ ts = .ok)
  | n, ts, hn, hk, a, m, l => by
    by_cases hh : ts.head? = some (.kw .prefix_)
    · by_cases hx : ∃ p n us, ts = .kw .prefix_ :: .lpar :: .pnameNs p :: .equals :: .iriRef n :: .rpar :: us
      · obtain ⟨p, ns, us, rfl⟩ := hx
        simp only [List.length_cons] at hn hk
        have e : readPrefixes noting a l m (.kw .prefix_ :: .lpar :: .pnameNs p :: .equals :: .iriRef ns :: .rpar :: us) =
            readPrefixes noting (a + 1) (noting l (.prefixDecl p ns)).1 (m.add ⟨a, p⟩ ns false).1 us := by
          rw [readPrefixes, noting_ok]
          rfl
        match n, hn with
        | n + 1, hn =>
          rw [e, prefixes_run n us (by omega) (by omega)]
          have : run ⟨m, a, [], .prefixes⟩ (.kw .prefix_ :: .lpar :: .pnameNs p :: .equals :: .iriRef ns :: .rpar :: us) =
              run ⟨(m.add ⟨a, p⟩ ns false).1, a + 1, [], .prefixes⟩ us := by
            rw [run_go (s' := ⟨m, a, [.lpar, .prefix_], .prefixes⟩) rfl, run_shift (s := .lpar) (l := []) (if_pos rfl), List.nil_append,
              run_shift (s := .prefix_) (l := [.equals, .ns p]) rfl]
            show run ⟨m, a, [.equals, .ns p], _⟩ _ = _
            rw [run_shift (s := .equals) (l := []) (if_pos rfl), List.nil_append, run_shift (s := .ns p) (l := [.declEnd p ns]) rfl]
            exact declare_run
          rw [this]
      · rw [prefixes_bad hh hx]
        refine ⟨nofun, fun h => ?_⟩
        exfalso
        cases ts with
        | nil => cases hh
        | cons t us =>
          obtain rfl := Option.some.inj hh
          rw [run_go (s' := ⟨m, a, [.lpar, .prefix_], .prefixes⟩) rfl] at h
          cases us with
          | nil => rw [run_nil (by nofun)] at h; cases h
          | cons u us =>
            by_cases h1 : u = .lpar
            rotate_left
            · rw [run_bad (s := .lpar) (w := .syntax) (if_neg h1)] at h; cases h
            subst h1
            rw [run_shift (s := .lpar) (l := []) (if_pos rfl), List.nil_append] at h
            cases us with
            | nil => rw [run_nil (by nofun)] at h; cases h
            | cons u us =>
              by_cases h2 : ∃ p, u = .pnameNs p
              rotate_left
              · rw [run_bad (s := .prefix_) (w := .syntax) (by cases u <;> first | rfl | exact absurd ⟨_, rfl⟩ h2)] at h; cases h
              obtain ⟨p, rfl⟩ := h2
              rw [run_shift (s := .prefix_) (l := [.equals, .ns p]) rfl] at h
              cases us with
              | nil => rw [run_nil (by nofun)] at h; cases h
              | cons u us =>
                by_cases h3 : u = .equals
                rotate_left
                · rw [show [Sym.equals, .ns p] ++ [] = [.equals, .ns p] from rfl, run_bad (s := .equals) (w := .syntax) (if_neg h3)] at h; cases h
                subst h3
                rw [show [Sym.equals, .ns p] ++ [] = [.equals, .ns p] from rfl, run_shift (s := .equals) (l := []) (if_pos rfl), List.nil_append] at h
                cases us with
                | nil => rw [run_nil (by nofun)] at h; cases h
                | cons u us =>
                  by_cases h4 : ∃ n, u = .iriRef n
                  rotate_left
                  · rw [run_bad (s := .ns p) (w := .syntax) (by cases u <;> first | rfl | exact absurd ⟨_, rfl⟩ h4)] at h; cases h
                  obtain ⟨ns, rfl⟩ := h4
                  rw [run_shift (s := .ns p) (l := [.declEnd p ns]) rfl] at h
                  cases us with
                  | nil => rw [run_nil (by nofun)] at h; cases h
                  | cons u us =>
                    by_cases h5 : u = .rpar
                    · subst h5; exact hx ⟨p, ns, us, rfl⟩
                    · rw [show [Sym.declEnd p ns] ++ [] = [.declEnd p ns] from rfl, run_bad (s := .declEnd p ns) (w := .syntax) (if_neg h5)] at h; cases h
    · rw [prefixes_end hh]
      exact ontology_run ts hk hh l

/-- The automaton accepts what the reader accepts. -/
theorem funcRead_run (m : PMap) (a : Nat) (text : Str) :
    (funcRead noting m a text []).2 = .ok ↔ run (St.init m a) (lex text) = .ok := by
  have e : funcRead noting m a text [] = afterPrefixes text.length (readPrefixes noting a [] m (lex text)) := by
    unfold funcRead afterPrefixes
    cases readPrefixes noting a [] m (lex text) <;> rfl
  rw [e]
  exact prefixes_run _ _ (Nat.le_refl _) (lex_le _) a m []

end Cowl.Func
