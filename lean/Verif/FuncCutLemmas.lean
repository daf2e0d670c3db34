import Verif.FuncCutParse
import Verif.FuncTellLemmas
import Verif.FuncCutSpec
/-! # Lemmas: documents in functional syntax that are cut short -/
namespace Cowl.Func
open Prefix Change FuncCut

/-! ## Equations of the reader -/

theorem header_import {σ : Type} {h : Callback σ Item} {k n : Nat} {s : σ} {m : PMap} {t : Tok} {ts : List Tok} {i : Iri} (hi : readIri m t = some i) :
    readHeader h k (n + 1) s m (.kw .import_ :: .lpar :: t :: .rpar :: ts) =
      if (h s (.import i)).2 = .ok then readHeader h k n (h s (.import i)).1 m ts
      else .stop (h s (.import i)).1 (.refused (stopCode (h s (.import i)).2)) := by
  have e : readImport m (.lpar :: t :: .rpar :: ts) = some (i, ts) := by
    show (readIri m t).map _ = _
    rw [hi]; rfl
  rw [readHeader, e]
  unfold emit
  by_cases hr : (h s (.import i)).2 = .ok
  · simp only [hr, if_true]
  · simp only [hr, if_false]

theorem header_import_bad {σ : Type} {h : Callback σ Item} {k n : Nat} {s : σ} {m : PMap} {ts : List Tok} (hb : readImport m ts = none) :
    readHeader h k (n + 1) s m (.kw .import_ :: ts) = .stop s .rejected := by
  rw [readHeader, hb]

theorem import_some {m : PMap} {ts : List Tok} {x : Iri × List Tok} (h : readImport m ts = some x) :
    ∃ t, ts = .lpar :: t :: .rpar :: x.2 ∧ readIri m t = some x.1 := by
  unfold readImport at h
  split at h
  · rename_i t us
    cases hi : readIri m t with
    | none => rw [hi] at h; cases h
    | some i =>
      rw [hi] at h
      obtain rfl := Option.some.inj h
      exact ⟨t, rfl, hi⟩
  · cases h

theorem header_annot {σ : Type} {h : Callback σ Item} {k n : Nat} {s : σ} {m : PMap} {ts us : List Tok} {o : Obj}
    (ht : ts.head? = some (.kw .annotation)) (ho : parseCat m k .annotation ts = some (o, us)) :
    readHeader h k (n + 1) s m ts =
      if (h s (.annot o)).2 = .ok then readHeader h k n (h s (.annot o)).1 m us
      else .stop (h s (.annot o)).1 (.refused (stopCode (h s (.annot o)).2)) := by
  cases ts with
  | nil => cases ht
  | cons t ts =>
    obtain rfl := Option.some.inj ht
    rw [readHeader, ho]
    unfold emit
    by_cases hr : (h s (.annot o)).2 = .ok
    · simp only [hr, if_true]
    · simp only [hr, if_false]

theorem header_annot_bad {σ : Type} {h : Callback σ Item} {k n : Nat} {s : σ} {m : PMap} {ts : List Tok}
    (ht : ts.head? = some (.kw .annotation)) (ho : parseCat m k .annotation ts = none) : readHeader h k (n + 1) s m ts = .stop s .rejected := by
  cases ts with
  | nil => cases ht
  | cons t ts =>
    obtain rfl := Option.some.inj ht
    rw [readHeader, ho]

theorem header_end {σ : Type} {h : Callback σ Item} {k n : Nat} {s : σ} {m : PMap} {ts : List Tok}
    (h1 : ts.head? ≠ some (.kw .import_)) (h2 : ts.head? ≠ some (.kw .annotation)) : readHeader h k (n + 1) s m ts = .go s m ts := by
  rw [readHeader]
  · rintro us rfl; exact h1 rfl
  · rintro us rfl; exact h2 rfl

theorem axioms_one {σ : Type} {h : Callback σ Item} {k n : Nat} {s : σ} {m : PMap} {ts us : List Tok} {o : Obj}
    (ht : ts.head? ≠ some .rpar) (ho : parseCat m k .ax ts = some (o, us)) :
    readAxioms h k (n + 1) s m ts =
      if (h s (.ax o)).2 = .ok then readAxioms h k n (h s (.ax o)).1 m us
      else ((h s (.ax o)).1, .refused (stopCode (h s (.ax o)).2)) := by
  rw [readAxioms]
  · rw [ho]
    unfold emit
    by_cases hr : (h s (.ax o)).2 = .ok
    · simp only [hr, if_true]
    · simp only [hr, if_false]
  · rintro us rfl; exact ht rfl

theorem axioms_bad {σ : Type} {h : Callback σ Item} {k n : Nat} {s : σ} {m : PMap} {ts : List Tok}
    (ht : ts.head? ≠ some .rpar) (ho : parseCat m k .ax ts = none) : readAxioms h k (n + 1) s m ts = (s, .rejected) := by
  rw [readAxioms]
  · rw [ho]
  · rintro us rfl; exact ht rfl

theorem prefixes_end {σ : Type} {h : Callback σ Item} {a : Nat} {s : σ} {m : PMap} {ts : List Tok} (ht : ts.head? ≠ some (.kw .prefix_)) :
    readPrefixes h a s m ts = .go s m ts := by
  rw [readPrefixes]
  · rintro p n us rfl; exact ht rfl
  · rintro us rfl; exact ht rfl

theorem prefixes_bad {σ : Type} {h : Callback σ Item} {a : Nat} {s : σ} {m : PMap} {ts : List Tok} (ht : ts.head? = some (.kw .prefix_))
    (hb : ¬ ∃ p n us, ts = .kw .prefix_ :: .lpar :: .pnameNs p :: .equals :: .iriRef n :: .rpar :: us) :
    readPrefixes h a s m ts = .stop s .rejected := by
  cases ts with
  | nil => cases ht
  | cons t ts =>
    obtain rfl := Option.some.inj ht
    rw [readPrefixes]
    rintro p n us rfl
    exact hb ⟨p, n, us, rfl⟩

/-! ## Accepted documents -/

theorem axioms_ok {σ : Type} {h : Callback σ Item} {k k' : Nat} (hk : k ≤ k') {m : PMap} : ∀ (n n' : Nat), n ≤ n' → ∀ {s s' : σ} {ts : List Tok},
    readAxioms h k n s m ts = (s', .ok) →
    ∃ q, ts = q ++ [.rpar] ∧ NoChar q ∧ ∀ y, readAxioms h k' n' s m (ts ++ y) = (s', if y = [] then .ok else .rejected)
  | 0, _, _, _, _, _, e => by cases e
  | n + 1, 0, hn, _, _, _, _ => by omega
  | n + 1, n' + 1, hn, s, s', ts, e => by
    by_cases hr : ts.head? = some .rpar
    · cases ts with
      | nil => cases hr
      | cons t ts =>
        obtain rfl := Option.some.inj hr
        have e : (s, if ts = [] then Outcome.ok else .rejected) = (s', .ok) := e
        by_cases ht : ts = []
        · subst ht
          obtain ⟨rfl, -⟩ := _root_.Prod.mk.inj e
          exact ⟨[], rfl, .nil, fun y => rfl⟩
        · rw [if_neg ht] at e; cases e
    · cases ho : parseCat m k .ax ts with
      | none => rw [axioms_bad hr ho] at e; cases e
      | some x =>
        obtain ⟨o, us⟩ := x
        rw [axioms_one hr ho] at e
        by_cases hc : (h s (.ax o)).2 = .ok
        · rw [if_pos hc] at e
          obtain ⟨q1, rfl, c1, g1⟩ := closes_parse m hk (.inl rfl) ho
          obtain ⟨q, rfl, c2, g⟩ := axioms_ok hk n n' (by omega) e
          refine ⟨q1 ++ .rpar :: q, by simp, c1.append (.cons (by nofun) c2), fun y => ?_⟩
          have e1 : q1 ++ .rpar :: (q ++ [.rpar]) ++ y = q1 ++ .rpar :: (q ++ [.rpar] ++ y) := by simp
          rw [e1, axioms_one (h := h) (s := s) (n := n') (us := q ++ [Tok.rpar] ++ y) (o := o) ?_ (g1 (q ++ [Tok.rpar] ++ y)), if_pos hc]
          · exact g y
          · rw [show (q1 ++ Tok.rpar :: (q ++ [Tok.rpar] ++ y)).head? = (q1 ++ Tok.rpar :: (q ++ [Tok.rpar])).head? from head_app rfl]
            exact hr
        · rw [if_neg hc] at e; cases e

theorem header_ok {σ : Type} {h : Callback σ Item} {k k' : Nat} (hk : k ≤ k') {m : PMap} : ∀ (n n' : Nat), n ≤ n' → ∀ {s s' : σ} {m' : PMap} {ts r : List Tok},
    readHeader h k n s m ts = .go s' m' r →
    m' = m ∧ ∃ q, ts = q ++ r ∧ NoChar q ∧ ∀ r', r'.head? = r.head? → readHeader h k' n' s m (q ++ r') = .go s' m r'
  | 0, _, _, _, _, _, _, _, e => by cases e
  | n + 1, 0, hn, _, _, _, _, _, _ => by omega
  | n + 1, n' + 1, hn, s, s', m', ts, r, e => by
    by_cases h1 : ts.head? = some (.kw .import_)
    · cases ts with
      | nil => cases h1
      | cons t ts =>
        obtain rfl := Option.some.inj h1
        cases hi : readImport m ts with
        | none => rw [header_import_bad hi] at e; cases e
        | some x =>
          obtain ⟨i, us⟩ := x
          obtain ⟨t, rfl, hj⟩ := import_some hi
          rw [header_import hj] at e
          by_cases hc : (h s (.import i)).2 = .ok
          · rw [if_pos hc] at e
            obtain ⟨rfl, q, e2, c2, g⟩ := header_ok hk n n' (by omega) e
            obtain rfl : us = q ++ r := e2
            refine ⟨rfl, .kw .import_ :: .lpar :: t :: .rpar :: q, rfl,
              .cons (by nofun) (.cons (by nofun) (.cons (readIri_char hj) (.cons (by nofun) c2))), fun r' hr' => ?_⟩
            show readHeader h k' (n' + 1) s m' (.kw .import_ :: .lpar :: t :: .rpar :: (q ++ r')) = _
            rw [header_import hj, if_pos hc]
            exact g r' hr'
          · rw [if_neg hc] at e; cases e
    · by_cases h2 : ts.head? = some (.kw .annotation)
      · cases ho : parseCat m k .annotation ts with
        | none => rw [header_annot_bad h2 ho] at e; cases e
        | some x =>
          obtain ⟨o, us⟩ := x
          rw [header_annot h2 ho] at e
          by_cases hc : (h s (.annot o)).2 = .ok
          · rw [if_pos hc] at e
            obtain ⟨q1, rfl, c1, g1⟩ := closes_parse m hk (.inr rfl) ho
            obtain ⟨rfl, q, rfl, c2, g⟩ := header_ok hk n n' (by omega) e
            refine ⟨rfl, q1 ++ .rpar :: q, by simp, c1.append (.cons (by nofun) c2), fun r' hr' => ?_⟩
            have e1 : q1 ++ .rpar :: q ++ r' = q1 ++ .rpar :: (q ++ r') := by simp
            rw [e1, header_annot (us := q ++ r') (o := o) ?_ (g1 _), if_pos hc]
            · exact g r' hr'
            · rw [show (q1 ++ Tok.rpar :: (q ++ r')).head? = (q1 ++ Tok.rpar :: (q ++ r)).head? from head_app rfl]
              exact h2
          · rw [if_neg hc] at e; cases e
      · rw [header_end h1 h2] at e
        injection e with e1 e2 e3
        subst e1; subst e2; subst e3
        refine ⟨rfl, [], rfl, .nil, fun r' hr' => ?_⟩
        exact header_end (ts := r') (by rw [hr']; exact h1) (by rw [hr']; exact h2)

theorem id_other {σ : Type} {h : Callback σ Item} {s : σ} {m : PMap} {ts : List Tok} (ht : ∀ t, ts.head? = some t → t.beginsIri = false) :
    readId h s m ts = .go s m ts := by
  cases ts with
  | nil => rfl
  | cons t ts =>
    have := ht t rfl
    simp only [readId, this]
    rfl

theorem id_bad {σ : Type} {h : Callback σ Item} {s : σ} {m : PMap} {t : Tok} {ts : List Tok} (hb : t.beginsIri = true) (hi : readIri m t = none) :
    readId h s m (t :: ts) = .stop s .rejected := by
  simp only [readId, hb, hi]
  rfl

theorem id_one {σ : Type} {h : Callback σ Item} {s : σ} {m : PMap} {t : Tok} {ts : List Tok} {i : Iri} (hb : t.beginsIri = true) (hi : readIri m t = some i)
    (ht : ∀ t, ts.head? = some t → t.beginsIri = false) : readId h s m (t :: ts) = emit h s m (.iri i) ts := by
  cases ts with
  | nil => simp only [readId, hb, hi]; rfl
  | cons u ts =>
    have := ht u rfl
    simp only [readId, hb, hi, this]
    rfl

theorem id_bad2 {σ : Type} {h : Callback σ Item} {s : σ} {m : PMap} {t u : Tok} {ts : List Tok} {i : Iri} (hb : t.beginsIri = true) (hi : readIri m t = some i)
    (hu : u.beginsIri = true) (hv : readIri m u = none) : readId h s m (t :: u :: ts) = .stop s .rejected := by
  simp only [readId, hb, hi, hu, hv]
  rfl

/-- Both calls. -/
def both {σ : Type} (h : Callback σ Item) (s : σ) (m : PMap) (i v : Iri) (ts : List Tok) : Step σ :=
  let r1 := h s (.iri i)
  let r2 := h r1.1 (.version v)
  if r1.2 ≠ .ok then .stop r2.1 (.refused (stopCode r1.2))
  else if r2.2 ≠ .ok then .stop r2.1 (.refused (stopCode r2.2))
  else .go r2.1 m ts

theorem id_two {σ : Type} {h : Callback σ Item} {s : σ} {m : PMap} {t u : Tok} {ts : List Tok} {i v : Iri} (hb : t.beginsIri = true) (hi : readIri m t = some i)
    (hu : u.beginsIri = true) (hv : readIri m u = some v) : readId h s m (t :: u :: ts) = both h s m i v ts := by
  simp only [readId, hb, hi, hu, hv]
  rfl

theorem emit_go {σ : Type} {h : Callback σ Item} {s s' : σ} {m m' : PMap} {i : Item} {ts r : List Tok} (e : emit h s m i ts = .go s' m' r) :
    m' = m ∧ ts = r ∧ ∀ r', emit h s m i r' = .go s' m r' := by
  unfold emit at e ⊢
  by_cases hr : (h s i).2 = .ok
  · simp only [hr, if_true] at e ⊢
    injection e with e1 e2 e3
    exact ⟨e2.symm, e3, fun r' => by rw [e1]⟩
  · simp only [hr, if_false] at e
    cases e

theorem both_ok {σ : Type} {h : Callback σ Item} {s s' : σ} {m m' : PMap} {i v : Iri} {ts r : List Tok} (e : both h s m i v ts = .go s' m' r) :
    m' = m ∧ ts = r ∧ ∀ r', both h s m i v r' = .go s' m r' := by
  unfold both at e ⊢
  by_cases h1 : (h s (.iri i)).2 = .ok
  · by_cases h2 : (h (h s (.iri i)).1 (.version v)).2 = .ok
    · simp only [h1, h2, ne_eq, not_true, if_false] at e ⊢
      injection e with e1 e2 e3
      exact ⟨e2.symm, e3, fun r' => by rw [e1]⟩
    · simp only [h1, h2, ne_eq, not_true, not_false_eq_true, if_false, if_true] at e
      cases e
  · simp only [h1, ne_eq, not_false_eq_true, if_true] at e
    cases e

theorem id_ok {σ : Type} {h : Callback σ Item} {s s' : σ} {m m' : PMap} {ts r : List Tok} (e : readId h s m ts = .go s' m' r) :
    m' = m ∧ ∃ q, ts = q ++ r ∧ NoChar q ∧ ∀ r', r'.head? = r.head? → readId h s m (q ++ r') = .go s' m r' := by
  by_cases ht : ∀ t, ts.head? = some t → t.beginsIri = false
  · rw [id_other ht] at e
    injection e with e1 e2 e3
    subst e1; subst e2; subst e3
    exact ⟨rfl, [], rfl, .nil, fun r' hr' => id_other (ts := r') (by rw [hr']; exact ht)⟩
  · cases ts with
    | nil => exact absurd (by nofun) ht
    | cons t ts =>
      have hb : t.beginsIri = true := by
        cases hb : t.beginsIri with
        | true => rfl
        | false => exact absurd (fun t' h' => by obtain rfl := Option.some.inj h'; exact hb) ht
      cases hi : readIri m t with
      | none => rw [id_bad hb hi] at e; cases e
      | some i =>
        by_cases hu : ∀ t, ts.head? = some t → t.beginsIri = false
        · rw [id_one hb hi hu] at e
          obtain ⟨rfl, rfl, g⟩ := emit_go e
          refine ⟨rfl, [t], rfl, .cons (readIri_char hi) .nil, fun r' hr' => ?_⟩
          show readId h s m' (t :: r') = _
          rw [id_one hb hi (by rw [hr']; exact hu)]
          exact g r'
        · cases ts with
          | nil => exact absurd (by nofun) hu
          | cons u ts =>
            have hbu : u.beginsIri = true := by
              cases hb : u.beginsIri with
              | true => rfl
              | false => exact absurd (fun t' h' => by obtain rfl := Option.some.inj h'; exact hb) hu
            cases hv : readIri m u with
            | none => rw [id_bad2 hb hi hbu hv] at e; cases e
            | some v =>
              rw [id_two hb hi hbu hv] at e
              obtain ⟨rfl, rfl, g⟩ := both_ok e
              refine ⟨rfl, [t, u], rfl, .cons (readIri_char hi) (.cons (readIri_char hv) .nil), fun r' hr' => ?_⟩
              show readId h s m' (t :: u :: r') = _
              rw [id_two hb hi hbu hv]
              exact g r'

theorem prefixes_ok {σ : Type} {h : Callback σ Item} : ∀ (n : Nat) {a : Nat} {s s' : σ} {m m' : PMap} {ts r : List Tok}, ts.length ≤ n →
    readPrefixes h a s m ts = .go s' m' r →
    ∃ q, ts = q ++ r ∧ NoChar q ∧ ∀ r', r'.head? = r.head? → readPrefixes h a s m (q ++ r') = .go s' m' r'
  | n, a, s, s', m, m', ts, r, hn, e => by
    by_cases hp : ts.head? = some (.kw .prefix_)
    · by_cases hd : ∃ p n us, ts = .kw .prefix_ :: .lpar :: .pnameNs p :: .equals :: .iriRef n :: .rpar :: us
      · obtain ⟨p, ns, us, rfl⟩ := hd
        cases n with
        | zero => cases hn
        | succ n =>
          rw [readPrefixes] at e
          by_cases hr : (h s (.prefixDecl p ns)).2.isErr = true
          · simp only [hr, if_true] at e; cases e
          · simp only [hr] at e
            obtain ⟨q, rfl, c1, g⟩ := prefixes_ok n (by simp only [List.length_cons] at hn; omega) e
            refine ⟨.kw .prefix_ :: .lpar :: .pnameNs p :: .equals :: .iriRef ns :: .rpar :: q, rfl,
              .cons (by nofun) (.cons (by nofun) (.cons (by nofun) (.cons (by nofun) (.cons (by nofun) (.cons (by nofun) c1))))), fun r' hr' => ?_⟩
            show readPrefixes h a s m (.kw .prefix_ :: .lpar :: .pnameNs p :: .equals :: .iriRef ns :: .rpar :: (q ++ r')) = _
            rw [readPrefixes]
            simp only [hr]
            exact g r' hr'
      · rw [prefixes_bad hp hd] at e; cases e
    · rw [prefixes_end hp] at e
      injection e with e1 e2 e3
      subst e1; subst e2; subst e3
      exact ⟨[], rfl, .nil, fun r' hr' => prefixes_end (ts := r') (by rw [hr']; exact hp)⟩

theorem head_more {a y : List Tok} (h : a ≠ []) : (a ++ y).head? = a.head? := by
  cases a with
  | nil => exact absurd rfl h
  | cons _ _ => rfl

theorem ontology_ok {σ : Type} {h : Callback σ Item} {k k' : Nat} (hk : k ≤ k') {m : PMap} {s s' : σ} {ts : List Tok}
    (e : readOntology h k s m ts = (s', .ok)) :
    ∃ q, ts = q ++ [.rpar] ∧ NoChar q ∧ ∀ y, readOntology h k' s m (ts ++ y) = (s', if y = [] then .ok else .rejected) := by
  by_cases ho : ∃ us, ts = .kw .ontology :: .lpar :: us
  · obtain ⟨us, rfl⟩ := ho
    rw [readOntology] at e
    cases e1 : readId h s m us with
    | stop s1 r =>
      rw [e1] at e
      obtain ⟨rfl, rfl⟩ := _root_.Prod.mk.inj e
      exfalso
      obtain ⟨i, v, fin, hf⟩ := FuncTell.readId_tells m us
      rw [hf] at e1
      unfold FuncTell.after at e1
      split at e1 <;> cases e1
    | go s1 m1 ts1 =>
      rw [e1] at e
      obtain ⟨rfl, q1, rfl, c1, g1⟩ := id_ok e1
      have e : (match readHeader h k (k + 1) s1 m1 ts1 with
        | .stop s r => (s, r)
        | .go s m ts => readAxioms h k (k + 1) s m ts) = (s', .ok) := e
      cases e2 : readHeader h k (k + 1) s1 m1 ts1 with
      | stop s2 r =>
        rw [e2] at e
        obtain ⟨rfl, rfl⟩ := _root_.Prod.mk.inj e
        exfalso
        obtain ⟨i, fin, -, hf⟩ := FuncTell.readHeader_tells k (k + 1) m1 ts1
        rw [hf] at e2
        unfold FuncTell.after at e2
        split at e2 <;> cases e2
      | go s2 m2 ts2 =>
        rw [e2] at e
        have e3 : readAxioms h k (k + 1) s2 m2 ts2 = (s', .ok) := e
        obtain ⟨rfl, q2, rfl, c2, g2⟩ := header_ok hk (k + 1) (k' + 1) (by omega) e2
        obtain ⟨q3, rfl, c3, g3⟩ := axioms_ok hk (k + 1) (k' + 1) (by omega) e3
        refine ⟨.kw .ontology :: .lpar :: (q1 ++ (q2 ++ q3)), by simp, .cons (by nofun) (.cons (by nofun) (c1.append (c2.append c3))), fun y => ?_⟩
        have e0 : Tok.kw .ontology :: .lpar :: (q1 ++ (q2 ++ (q3 ++ [.rpar]))) ++ y =
            .kw .ontology :: .lpar :: (q1 ++ (q2 ++ (q3 ++ [.rpar] ++ y))) := by simp
        have hne : q3 ++ [Tok.rpar] ≠ [] := by simp
        rw [e0, readOntology, g1 _ (head_app (head_more hne))]
        show (match readHeader h k' (k' + 1) s1 m2 (q2 ++ (q3 ++ [.rpar] ++ y)) with
          | .stop s r => (s, r)
          | .go s m ts => readAxioms h k' (k' + 1) s m ts) = _
        rw [g2 _ (head_more hne)]
        exact g3 y
  · rw [readOntology] at e
    · cases e
    · rintro us rfl
      exact ho ⟨us, rfl⟩

/-- After an accepted document there may be nothing but blanks and comments; anything else is an
error, after the same has been told. -/
theorem funcRead_more {σ : Type} {h : Callback σ Item} {m : PMap} {a : Nat} {t u : Str} {s s' : σ} (e : funcRead h m a t s = (s', .ok)) :
    ∃ Y, lex (t ++ u) = lex t ++ Y ∧ funcRead h m a (t ++ u) s = (s', if Y = [] then .ok else .rejected) := by
  unfold funcRead at e
  cases e1 : readPrefixes h a s m (lex t) with
  | stop s1 r =>
    rw [e1] at e
    obtain ⟨rfl, rfl⟩ := _root_.Prod.mk.inj e
    exfalso
    obtain ⟨i, fin, -, hf⟩ := FuncTell.readPrefixes_tells _ (lex t) (Nat.le_refl _) a m
    rw [hf] at e1
    unfold FuncTell.after at e1
    split at e1 <;> cases e1
  | go s1 m1 ts1 =>
    rw [e1] at e
    have hk : t.length ≤ (t ++ u).length := by simp
    obtain ⟨q1, h1, c1, g1⟩ := prefixes_ok _ (Nat.le_refl _) e1
    obtain ⟨q2, rfl, c2, g2⟩ := ontology_ok hk (show readOntology h t.length s1 m1 ts1 = (s', .ok) from e)
    obtain ⟨P, X, Y, hX, hY, hd⟩ := lex_cut _ t u (Nat.le_refl _)
    have hx : X = [] := by
      have e2 : P ++ X = q1 ++ (q2 ++ [.rpar]) := hX.symm.trans h1
      rcases List.eq_nil_or_concat X with hn | ⟨L, b, hc⟩
      · exact hn
      · exfalso
        rw [List.concat_eq_append] at hc
        subst hc
        have e3 : (P ++ L) ++ [b] = (q1 ++ q2) ++ [.rpar] := by simpa using e2
        have hb : b = .rpar := by
          have := congrArg List.getLast? e3
          simpa using this
        have hL : P ++ L = q1 ++ q2 := by
          have := congrArg List.dropLast e3
          simpa using this
        rcases hd with hd | ⟨c, X', hc⟩
        · exact hd (by rw [hb]; simp)
        · cases L with
          | nil =>
            obtain ⟨hc, -⟩ := List.cons.inj (show b :: [] = .char c :: X' from hc)
            rw [hb] at hc
            cases hc
          | cons x L =>
            obtain ⟨rfl, -⟩ := List.cons.inj (show x :: (L ++ [b]) = .char c :: X' from hc)
            refine (c1.append c2) c ?_
            rw [← hL]; simp
    subst hx
    have hP : lex t = P := by simpa using hX
    refine ⟨Y, by rw [hY, hP], ?_⟩
    unfold funcRead
    have e4 : lex (t ++ u) = q1 ++ (q2 ++ [.rpar] ++ Y) := by rw [hY, ← hP, h1]; simp
    rw [e4, g1 _ (head_more (by simp))]
    exact g2 Y

/-! ## Cut documents -/

theorem noting_ok (l : List Item) (i : Item) : (noting l i).2 = .ok := rfl

theorem tell_noting : ∀ (n : Nat) (l : List Item), l.length ≤ n → ∀ s, FuncTell.tell noting l s = (s ++ l, none) := by
  intro n
  induction n with
  | zero => intro l hl s; cases l with
    | nil => simp [FuncTell.tell]
    | cons => simp at hl
  | succ n ih =>
    intro l hl s
    cases l with
    | nil => simp [FuncTell.tell]
    | cons x l =>
      have hl' : l.length ≤ n := Nat.le_of_succ_le_succ hl
      by_cases hp : ∃ p ns, x = .prefixDecl p ns
      · obtain ⟨p, ns, rfl⟩ := hp
        rw [FuncTell.tell]
        have : (noting s (.prefixDecl p ns)).2.isErr = false := rfl
        simp only [this]
        refine Eq.trans (ih l hl' _) ?_
        simp [noting]
      · by_cases hv : ∃ y v l', x = .iri y ∧ l = .version v :: l'
        · obtain ⟨y, v, l', rfl, rfl⟩ := hv
          rw [FuncTell.tell, if_pos ⟨rfl, rfl⟩]
          refine Eq.trans (ih l' (by simp only [List.length_cons] at hl; omega) _) ?_
          simp [noting]
        · rw [FuncTell.tell, if_pos (noting_ok _ _)]
          · refine Eq.trans (ih l hl' _) ?_
            simp [noting]
          · intro p ns e; exact hp ⟨p, ns, e⟩
          · intro y v l' e1 e2; exact hv ⟨y, v, l', e1, e2⟩

/-- The rest of a document, after the name of the ontology. -/
def body (k n : Nat) (l : List Item) (m : PMap) (ts : List Tok) : List Item × Outcome :=
  match readHeader noting k n l m ts with
  | .stop s r => (s, r)
  | .go s m ts => readAxioms noting k (k + 1) s m ts

/-- A document, after the prefixes. -/
def afterPrefixes (k : Nat) : Step (List Item) → List Item × Outcome
  | .stop s r => (s, r)
  | .go s m ts => readOntology noting k s m ts

/-- A document, after the name. -/
def afterId (k : Nat) : Step (List Item) → List Item × Outcome
  | .stop s r => (s, r)
  | .go s m ts => body k (k + 1) s m ts

theorem axioms_mono (k n : Nat) (l : List Item) (m : PMap) (ts : List Tok) : l <+: (readAxioms noting k n l m ts).1 := by
  obtain ⟨items, acc, -, hf⟩ := FuncTell.readAxioms_tells k n m ts
  rw [hf, tell_noting _ _ (Nat.le_refl _)]
  exact List.prefix_append ..

theorem body_mono (k n : Nat) (l : List Item) (m : PMap) (ts : List Tok) : l <+: (body k n l m ts).1 := by
  obtain ⟨items, fin, -, hf⟩ := FuncTell.readHeader_tells k n m ts
  unfold body
  rw [hf, tell_noting _ _ (Nat.le_refl _)]
  cases fin with
  | none => exact List.prefix_append ..
  | some x => exact (List.prefix_append ..).trans (axioms_mono ..)

theorem afterId_mono (k : Nat) (l : List Item) (m : PMap) (ts : List Tok) : l <+: (afterId k (readId noting l m ts)).1 := by
  obtain ⟨i, v, fin, hf⟩ := FuncTell.readId_tells m ts
  rw [hf, tell_noting _ _ (Nat.le_refl _)]
  cases fin with
  | none => exact List.prefix_append ..
  | some x => exact (List.prefix_append ..).trans (body_mono ..)

theorem ontology_eq (k : Nat) (l : List Item) (m : PMap) (ts : List Tok) :
    readOntology noting k l m (.kw .ontology :: .lpar :: ts) = afterId k (readId noting l m ts) := by
  rw [readOntology]
  cases readId noting l m ts with
  | stop s r => rfl
  | go s m ts =>
    dsimp only [afterId, body]
    cases readHeader noting k (k + 1) s m ts <;> rfl

theorem ontology_bad {σ : Type} {h : Callback σ Item} {k : Nat} {l : σ} {m : PMap} {ts : List Tok} (ho : ¬ ∃ us, ts = .kw .ontology :: .lpar :: us) :
    readOntology h k l m ts = (l, .rejected) := by
  rw [readOntology]
  rintro us rfl
  exact ho ⟨us, rfl⟩

theorem ontology_mono (k : Nat) (l : List Item) (m : PMap) (ts : List Tok) : l <+: (readOntology noting k l m ts).1 := by
  by_cases ho : ∃ us, ts = .kw .ontology :: .lpar :: us
  · obtain ⟨us, rfl⟩ := ho
    rw [ontology_eq]
    exact afterId_mono ..
  · rw [ontology_bad ho]
    exact List.prefix_refl _

theorem prefixes_mono (k a : Nat) (l : List Item) (m : PMap) (ts : List Tok) : l <+: (afterPrefixes k (readPrefixes noting a l m ts)).1 := by
  obtain ⟨items, fin, -, hf⟩ := FuncTell.readPrefixes_tells _ ts (Nat.le_refl _) a m
  rw [hf, tell_noting _ _ (Nat.le_refl _)]
  cases fin with
  | none => exact List.prefix_append ..
  | some x => exact (List.prefix_append ..).trans (ontology_mono ..)

theorem Dead.head {X : List Tok} (h : Dead X) : X.head? ≠ some .rpar := by
  rcases h with h | ⟨c, X', rfl⟩
  · cases X with
    | nil => nofun
    | cons t X =>
      intro e
      obtain rfl := Option.some.inj e
      exact h List.mem_cons_self
  · nofun

/-- A parenthesis that ends something is not in the dead part. -/
theorem Dead.split {P X q r : List Tok} (hd : Dead X) (hq : NoChar q) (e : P ++ X = q ++ .rpar :: r) : ∃ P', P = q ++ .rpar :: P' ∧ r = P' ++ X := by
  have key : ∀ (P q : List Tok), NoChar q → P ++ X = q ++ .rpar :: r → ∃ P', P = q ++ .rpar :: P' ∧ r = P' ++ X := by
    intro P
    induction P with
    | nil =>
      intro q hq e
      exfalso
      have e : X = q ++ .rpar :: r := e
      rcases hd with hd | ⟨c, X', hX⟩
      · exact hd (by rw [e]; simp)
      · rw [hX] at e
        cases q with
        | nil => cases e
        | cons x q =>
          obtain ⟨rfl, -⟩ := List.cons.inj e
          exact hq c List.mem_cons_self
    | cons p P ih =>
      intro q hq e
      cases q with
      | nil =>
        obtain ⟨rfl, e'⟩ := List.cons.inj e
        exact ⟨P, rfl, e'.symm⟩
      | cons x q =>
        obtain ⟨rfl, e'⟩ := List.cons.inj e
        obtain ⟨P', rfl, h2⟩ := ih q (fun c hc => hq c (List.mem_cons_of_mem _ hc)) e'
        exact ⟨P', rfl, h2⟩
  exact key P q hq e

theorem parse_cut {P X : List Tok} (hd : Dead X) (m : PMap) {k k' : Nat} (hk : k ≤ k') {c : Cat} (hc : c = .ax ∨ c = .annotation) {o : Obj} {r : List Tok}
    (h : parseCat m k c (P ++ X) = some (o, r)) :
    P ≠ [] ∧ ∃ P', P'.length < P.length ∧ r = P' ++ X ∧ ∀ Y, parseCat m k' c (P ++ Y) = some (o, P' ++ Y) := by
  obtain ⟨q, e, hq, g⟩ := closes_parse m hk hc h
  obtain ⟨P', rfl, e2⟩ := hd.split hq e
  refine ⟨by simp, P', by simp; omega, e2, fun Y => ?_⟩
  have := g (P' ++ Y)
  rw [← List.cons_append, ← List.append_assoc] at this
  exact this

theorem axioms_cut {X Y : List Tok} (hd : Dead X) {m : PMap} {k k' : Nat} (hk : k ≤ k') : ∀ (n n' : Nat), n ≤ n' → ∀ (P : List Tok) (l : List Item),
    (readAxioms noting k n l m (P ++ X)).1 <+: (readAxioms noting k' n' l m (P ++ Y)).1
  | 0, _, _, P, l => axioms_mono ..
  | n + 1, 0, hn, _, _ => by omega
  | n + 1, n' + 1, hn, P, l => by
    by_cases hr : (P ++ X).head? = some .rpar
    · cases P with
      | nil => exact absurd hr hd.head
      | cons t P =>
        obtain rfl := Option.some.inj hr
        exact List.prefix_refl _
    · cases ho : parseCat m k .ax (P ++ X) with
      | none =>
        rw [axioms_bad hr ho]
        exact axioms_mono ..
      | some x =>
        obtain ⟨o, us⟩ := x
        obtain ⟨hP, P', -, rfl, g⟩ := parse_cut hd m hk (.inl rfl) ho
        rw [axioms_one hr ho, axioms_one (us := P' ++ Y) (o := o) ?_ (g Y), if_pos (noting_ok _ _), if_pos (noting_ok _ _)]
        · exact axioms_cut hd hk n n' (by omega) P' _
        · rw [head_more hP]
          rw [head_more hP] at hr
          exact hr

theorem import_cut {P X : List Tok} (hd : Dead X) {m : PMap} {i : Iri} {t : Tok} {us : List Tok} (hi : readIri m t = some i)
    (e : P ++ X = .kw .import_ :: .lpar :: t :: .rpar :: us) : ∃ P', P = .kw .import_ :: .lpar :: t :: .rpar :: P' ∧ us = P' ++ X :=
  hd.split (q := [.kw .import_, .lpar, t]) (.cons (by nofun) (.cons (by nofun) (.cons (readIri_char hi) .nil))) e

theorem body_cut {X Y : List Tok} (hd : Dead X) {m : PMap} {k k' : Nat} (hk : k ≤ k') : ∀ (n n' : Nat), n ≤ n' → ∀ (P : List Tok) (l : List Item),
    (body k n l m (P ++ X)).1 <+: (body k' n' l m (P ++ Y)).1
  | 0, _, _, P, l => body_mono ..
  | n + 1, 0, hn, _, _ => by omega
  | n + 1, n' + 1, hn, P, l => by
    by_cases h1 : (P ++ X).head? = some (.kw .import_)
    · cases hi : readImport m (P ++ X).tail with
      | none =>
        have e : P ++ X = .kw .import_ :: (P ++ X).tail := by
          cases e : P ++ X with
          | nil => rw [e] at h1; cases h1
          | cons t ts => rw [e] at h1; obtain rfl := Option.some.inj h1; rfl
        have e2 : body k (n + 1) l m (P ++ X) = (l, .rejected) := by
          unfold body
          rw [e, header_import_bad hi]
        rw [e2]
        exact body_mono ..
      | some x =>
        obtain ⟨i, us⟩ := x
        obtain ⟨t, e, hj⟩ := import_some hi
        have e : P ++ X = .kw .import_ :: .lpar :: t :: .rpar :: us := by
          cases e' : P ++ X with
          | nil => rw [e'] at h1; cases h1
          | cons x ts =>
            rw [e'] at h1 e
            obtain rfl := Option.some.inj h1
            exact congrArg _ e
        obtain ⟨P', rfl, rfl⟩ := import_cut hd hj e
        have e2 : ∀ Z k n, body k (n + 1) l m (.kw .import_ :: .lpar :: t :: .rpar :: P' ++ Z) = body k n (noting l (.import i)).1 m (P' ++ Z) := by
          intro Z k n
          show body k (n + 1) l m (.kw .import_ :: .lpar :: t :: .rpar :: (P' ++ Z)) = _
          unfold body
          rw [header_import hj, if_pos (noting_ok _ _)]
        rw [e2, e2]
        exact body_cut hd hk n n' (by omega) P' _
    · by_cases h2 : (P ++ X).head? = some (.kw .annotation)
      · cases ho : parseCat m k .annotation (P ++ X) with
        | none =>
          have e2 : body k (n + 1) l m (P ++ X) = (l, .rejected) := by
            unfold body
            rw [header_annot_bad h2 ho]
          rw [e2]
          exact body_mono ..
        | some x =>
          obtain ⟨o, us⟩ := x
          obtain ⟨hP, P', -, rfl, g⟩ := parse_cut hd m hk (.inr rfl) ho
          have h3 : (P ++ Y).head? = some (.kw .annotation) := by
            rw [head_more hP]
            rw [head_more hP] at h2
            exact h2
          have e2 : body k (n + 1) l m (P ++ X) = body k n (noting l (.annot o)).1 m (P' ++ X) := by
            unfold body
            rw [header_annot h2 ho, if_pos (noting_ok _ _)]
          have e3 : body k' (n' + 1) l m (P ++ Y) = body k' n' (noting l (.annot o)).1 m (P' ++ Y) := by
            unfold body
            rw [header_annot h3 (g Y), if_pos (noting_ok _ _)]
          rw [e2, e3]
          exact body_cut hd hk n n' (by omega) P' _
      · have e2 : body k (n + 1) l m (P ++ X) = readAxioms noting k (k + 1) l m (P ++ X) := by
          unfold body
          rw [header_end h1 h2]
        rw [e2]
        by_cases hP : P = []
        · subst hP
          have hb : parseCat m k .ax ([] ++ X) = none := by
            cases ho : parseCat m k .ax ([] ++ X) with
            | none => rfl
            | some x => exact absurd rfl (parse_cut hd m hk (.inl rfl) ho).1
          rw [axioms_bad (ts := [] ++ X) hd.head hb]
          exact body_mono ..
        · rw [head_more hP] at h1 h2
          have e3 : body k' (n' + 1) l m (P ++ Y) = readAxioms noting k' (k' + 1) l m (P ++ Y) := by
            unfold body
            rw [header_end (by rw [head_more hP]; exact h1) (by rw [head_more hP]; exact h2)]
          rw [e3]
          exact axioms_cut hd hk _ _ (by omega) P l

theorem body_dead {X : List Tok} (hd : Dead X) {m : PMap} {k n : Nat} {l : List Item} : body k n l m X = (l, .rejected) := by
  have no : ∀ {c o r}, (c = Cat.ax ∨ c = Cat.annotation) → parseCat m k c X ≠ some (o, r) := by
    intro c o r hc h
    exact (parse_cut (P := []) hd m (Nat.le_refl k) hc h).1 rfl
  have none_of : ∀ {c}, (c = Cat.ax ∨ c = Cat.annotation) → parseCat m k c X = none := by
    intro c hc
    cases h : parseCat m k c X with
    | none => rfl
    | some x => exact absurd h (no hc)
  cases n with
  | zero => rfl
  | succ n =>
    by_cases h1 : X.head? = some (.kw .import_)
    · cases X with
      | nil => cases h1
      | cons t X =>
        obtain rfl := Option.some.inj h1
        cases hi : readImport m X with
        | none =>
          unfold body
          rw [header_import_bad hi]
        | some x =>
          obtain ⟨t, rfl, hj⟩ := import_some hi
          obtain ⟨P', h, -⟩ := import_cut (P := []) hd hj rfl
          cases h
    · by_cases h2 : X.head? = some (.kw .annotation)
      · unfold body
        rw [header_annot_bad h2 (none_of (.inr rfl))]
      · unfold body
        rw [header_end h1 h2]
        exact axioms_bad hd.head (none_of (.inl rfl))

theorem _root_.Cowl.FuncCut.CutOf.of_prefix {a b : List Item × Outcome} (h : a.1 <+: b.1) : CutOf a b := ⟨a.1, [], by simp, h, by nofun, .inl rfl⟩

/-- The end of a document that is dead after its first tokens. -/
theorem id_dead {k : Nat} {l : List Item} {m : PMap} {t : Tok} {X : List Tok} (hd : Dead X) (h1 : t.beginsIri = true) :
    ∃ ids, afterId k (readId noting l m (t :: X)) = (l ++ ids, .rejected) ∧ ∀ x ∈ ids, IsName x := by
  cases hi : readIri m t with
  | none => exact ⟨[], by rw [id_bad h1 hi]; simp [afterId], by nofun⟩
  | some i =>
    by_cases hu : ∃ u us, X = u :: us ∧ u.beginsIri = true
    · obtain ⟨u, us, rfl, hu⟩ := hu
      cases hv : readIri m u with
      | none => exact ⟨[], by rw [id_bad2 h1 hi hu hv]; simp [afterId], by nofun⟩
      | some v =>
        have hd' : Dead us := by
          rcases hd with hd | ⟨c, X', hX⟩
          · exact .inl fun h => hd (List.mem_cons_of_mem _ h)
          · obtain ⟨rfl, -⟩ := List.cons.inj hX
            cases hu
        refine ⟨[.iri i, .version v], ?_, ?_⟩
        · rw [id_two h1 hi hu hv]
          show body k (k + 1) (l ++ [.iri i] ++ [.version v]) m us = _
          rw [body_dead hd']
          simp
        · intro x hx
          rcases List.mem_cons.1 hx with rfl | hx
          · trivial
          · obtain rfl := List.mem_singleton.1 hx
            trivial
    · refine ⟨[.iri i], ?_, ?_⟩
      · rw [id_one h1 hi]
        · show body k (k + 1) (l ++ [.iri i]) m X = _
          rw [body_dead hd]
        · intro u hu'
          cases X with
          | nil => cases hu'
          | cons x X =>
            obtain rfl := Option.some.inj hu'
            cases hb : x.beginsIri with
            | false => rfl
            | true => exact absurd ⟨x, X, rfl, hb⟩ hu
      · intro x hx
        obtain rfl := List.mem_singleton.1 hx
        trivial

theorem id_dead' {k : Nat} {l : List Item} {m : PMap} {X : List Tok} (hd : Dead X) :
    ∃ ids, afterId k (readId noting l m X) = (l ++ ids, .rejected) ∧ ∀ x ∈ ids, IsName x := by
  by_cases ht : ∃ t X', X = t :: X' ∧ t.beginsIri = true
  · obtain ⟨t, X', rfl, ht⟩ := ht
    refine id_dead ?_ ht
    rcases hd with hd | ⟨c, X'', hX⟩
    · exact .inl fun h => hd (List.mem_cons_of_mem _ h)
    · obtain ⟨rfl, -⟩ := List.cons.inj hX
      cases ht
  · refine ⟨[], ?_, by nofun⟩
    rw [id_other]
    · show body k (k + 1) l m X = _
      rw [body_dead hd]
      simp
    · intro u hu'
      cases X with
      | nil => cases hu'
      | cons x X =>
        obtain rfl := Option.some.inj hu'
        cases hb : x.beginsIri with
        | false => rfl
        | true => exact absurd ⟨x, X, rfl, hb⟩ ht

theorem id_cut {X Y : List Tok} (hd : Dead X) {m : PMap} {k k' : Nat} (hk : k ≤ k') (P : List Tok) (l : List Item) :
    CutOf (afterId k (readId noting l m (P ++ X))) (afterId k' (readId noting l m (P ++ Y))) := by
  have short : (∃ ids, afterId k (readId noting l m (P ++ X)) = (l ++ ids, .rejected) ∧ ∀ x ∈ ids, IsName x) →
      CutOf (afterId k (readId noting l m (P ++ X))) (afterId k' (readId noting l m (P ++ Y))) := by
    rintro ⟨ids, e, h⟩
    rw [e]
    exact ⟨l, ids, rfl, afterId_mono .., h, .inr rfl⟩
  cases P with
  | nil => exact short (id_dead' hd)
  | cons t P =>
    by_cases ht : t.beginsIri = true
    · cases P with
      | nil => exact short (id_dead hd ht)
      | cons u P =>
        cases hi : readIri m t with
        | none =>
          refine .of_prefix ?_
          show (afterId k (readId noting l m (t :: (u :: P ++ X)))).1 <+: _
          rw [id_bad ht hi]
          exact afterId_mono ..
        | some i =>
          by_cases hu : u.beginsIri = true
          · cases hv : readIri m u with
            | none =>
              refine .of_prefix ?_
              show (afterId k (readId noting l m (t :: u :: (P ++ X)))).1 <+: _
              rw [id_bad2 ht hi hu hv]
              exact afterId_mono ..
            | some v =>
              refine .of_prefix ?_
              show (afterId k (readId noting l m (t :: u :: (P ++ X)))).1 <+: (afterId k' (readId noting l m (t :: u :: (P ++ Y)))).1
              rw [id_two ht hi hu hv, id_two ht hi hu hv]
              exact body_cut hd hk (k + 1) (k' + 1) (by omega) P _
          · refine .of_prefix ?_
            have hu' : ∀ Z t, (u :: P ++ Z).head? = some t → t.beginsIri = false := by
              intro Z x hx
              obtain rfl := Option.some.inj hx
              exact Bool.eq_false_iff.2 hu
            show (afterId k (readId noting l m (t :: (u :: P ++ X)))).1 <+: (afterId k' (readId noting l m (t :: (u :: P ++ Y)))).1
            rw [id_one ht hi (hu' X), id_one ht hi (hu' Y)]
            exact body_cut hd hk (k + 1) (k' + 1) (by omega) (u :: P) _
    · refine .of_prefix ?_
      have ht' : ∀ Z x, (t :: P ++ Z).head? = some x → x.beginsIri = false := by
        intro Z x hx
        obtain rfl := Option.some.inj hx
        exact Bool.eq_false_iff.2 ht
      rw [id_other (ht' X), id_other (ht' Y)]
      exact body_cut hd hk (k + 1) (k' + 1) (by omega) (t :: P) _

theorem ontology_cut {X Y : List Tok} (hd : Dead X) {m : PMap} {k k' : Nat} (hk : k ≤ k') (P : List Tok) (l : List Item) (b : List Item × Outcome)
    (hb : 2 ≤ P.length → b = readOntology noting k' l m (P ++ Y)) (hb' : l <+: b.1) :
    CutOf (readOntology noting k l m (P ++ X)) b := by
  by_cases ho : ∃ us, P ++ X = .kw .ontology :: .lpar :: us
  · obtain ⟨us, e⟩ := ho
    match P, e, hb with
    | [], e, _ =>
      have e : X = .kw .ontology :: .lpar :: us := e
      subst e
      have hd' : Dead us := by
        rcases hd with hd | ⟨c, X', hX⟩
        · exact .inl fun h => hd (List.mem_cons_of_mem _ (List.mem_cons_of_mem _ h))
        · cases hX
      obtain ⟨ids, e, h⟩ := id_dead' (k := k) (l := l) (m := m) hd'
      show CutOf (readOntology noting k l m (.kw .ontology :: .lpar :: us)) b
      rw [ontology_eq, e]
      exact ⟨l, ids, rfl, hb', h, .inr rfl⟩
    | [t], e, _ =>
      obtain ⟨rfl, e2⟩ := List.cons.inj e
      obtain rfl : X = .lpar :: us := e2
      have hd' : Dead us := by
        rcases hd with hd | ⟨c, X', hX⟩
        · exact .inl fun h => hd (List.mem_cons_of_mem _ h)
        · cases hX
      obtain ⟨ids, e, h⟩ := id_dead' (k := k) (l := l) (m := m) hd'
      show CutOf (readOntology noting k l m (.kw .ontology :: .lpar :: us)) b
      rw [ontology_eq, e]
      exact ⟨l, ids, rfl, hb', h, .inr rfl⟩
    | t :: u :: P, e, hb =>
      obtain ⟨rfl, e2⟩ := List.cons.inj e
      obtain ⟨rfl, -⟩ := List.cons.inj e2
      rw [hb (by simp)]
      show CutOf (readOntology noting k l m (.kw .ontology :: .lpar :: (P ++ X))) (readOntology noting k' l m (.kw .ontology :: .lpar :: (P ++ Y)))
      rw [ontology_eq, ontology_eq]
      exact id_cut hd hk P l
  · rw [ontology_bad ho]
    exact .of_prefix hb'

theorem prefixes_cut {X Y : List Tok} (hd : Dead X) {k k' : Nat} (hk : k ≤ k') : ∀ (n : Nat) (P : List Tok), P.length ≤ n → ∀ (a : Nat) (m : PMap) (l : List Item),
    CutOf (afterPrefixes k (readPrefixes noting a l m (P ++ X))) (afterPrefixes k' (readPrefixes noting a l m (P ++ Y)))
  | n, P, hn, a, m, l => by
    by_cases hp : (P ++ X).head? = some (.kw .prefix_)
    · by_cases hx : ∃ p n us, P ++ X = .kw .prefix_ :: .lpar :: .pnameNs p :: .equals :: .iriRef n :: .rpar :: us
      · obtain ⟨p, ns, us, e⟩ := hx
        obtain ⟨P', rfl, -⟩ := hd.split (q := [.kw .prefix_, .lpar, .pnameNs p, .equals, .iriRef ns])
          (.cons (by nofun) (.cons (by nofun) (.cons (by nofun) (.cons (by nofun) (.cons (by nofun) .nil))))) e
        cases n with
        | zero => cases hn
        | succ n =>
          have e2 : ∀ Z, readPrefixes noting a l m ([.kw .prefix_, .lpar, .pnameNs p, .equals, .iriRef ns] ++ .rpar :: P' ++ Z) =
              readPrefixes noting (a + 1) (noting l (.prefixDecl p ns)).1 (m.add ⟨a, p⟩ ns false).1 (P' ++ Z) := by
            intro Z
            show readPrefixes noting a l m (.kw .prefix_ :: .lpar :: .pnameNs p :: .equals :: .iriRef ns :: .rpar :: (P' ++ Z)) = _
            rw [readPrefixes]
            rfl
          rw [e2, e2]
          refine prefixes_cut hd hk n P' ?_ _ _ _
          simp only [List.length_append, List.length_cons] at hn
          omega
      · rw [prefixes_bad hp hx]
        exact .of_prefix (prefixes_mono ..)
    · rw [prefixes_end hp]
      refine ontology_cut (Y := Y) hd hk P l _ (fun hl => ?_) (prefixes_mono ..)
      have hP : P ≠ [] := by rintro rfl; simp at hl
      rw [prefixes_end (by rw [head_more hP]; rw [head_more hP] at hp; exact hp)]
      rfl

theorem funcRead_cut (m : PMap) (a : Nat) (t u : Str) : CutOf (funcRead noting m a t []) (funcRead noting m a (t ++ u) []) := by
  obtain ⟨P, X, Y, hX, hY, hd⟩ := lex_cut _ t u (Nat.le_refl _)
  have := prefixes_cut (Y := Y) hd (show t.length ≤ (t ++ u).length by simp) _ P (Nat.le_refl _) a m []
  rw [← hX, ← hY] at this
  have e : ∀ t, funcRead noting m a t [] = afterPrefixes t.length (readPrefixes noting a [] m (lex t)) := by
    intro t
    unfold funcRead
    cases readPrefixes noting a [] m (lex t) <;> rfl
  rw [e, e]
  exact this

end Cowl.Func
