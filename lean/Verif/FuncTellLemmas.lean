import Verif.FuncTellSpec
/-! # Lemmas: what a reader of functional syntax tells its handler -/
namespace Cowl.FuncTell
open Change Func Prefix

/-- Neither a prefix nor the IRI or version of the ontology. -/
def Plain : Item → Prop
  | .import _ => True
  | .annot _ => True
  | .ax _ => True
  | _ => False

/-- A prefix. -/
def IsPrefix : Item → Prop
  | .prefixDecl _ _ => True
  | _ => False

/-- How reading goes on after items were told: with `fin`, or the text is rejected. -/
def after {σ : Type} (x : σ × Option Ret) (fin : Option (PMap × List Tok)) : Step σ :=
  match x.2, fin with
  | some c, _ => .stop x.1 (.refused c)
  | none, some (m, ts) => .go x.1 m ts
  | none, none => .stop x.1 .rejected

theorem tell_plain {σ : Type} (h : Callback σ Item) {i : Item} (hi : Plain i) (l : List Item) (s : σ) :
    tell h (i :: l) s = if (h s i).2 = .ok then tell h l (h s i).1 else ((h s i).1, some .errSyntax) := by
  cases i with
  | «import» _ => rw [tell] <;> first | rfl | nofun
  | annot _ => rw [tell] <;> first | rfl | nofun
  | ax _ => rw [tell] <;> first | rfl | nofun
  | _ => exact hi.elim

theorem tell_iri {σ : Type} (h : Callback σ Item) (i : Iri) {l : List Item} (hl : ∀ x ∈ l, Plain x) (s : σ) :
    tell h (.iri i :: l) s = if (h s (.iri i)).2 = .ok then tell h l (h s (.iri i)).1 else ((h s (.iri i)).1, some .errSyntax) := by
  cases l with
  | nil => rw [tell] <;> first | rfl | nofun
  | cons x l =>
    have := hl x List.mem_cons_self
    cases x with
    | version v => exact this.elim
    | _ => rw [tell] <;> first | rfl | nofun

theorem tell_prefixes {σ : Type} (h : Callback σ Item) {a : List Item} (ha : ∀ x ∈ a, IsPrefix x) (b : List Item) (s : σ) :
    tell h (a ++ b) s = if (tell h a s).2 = none then tell h b (tell h a s).1 else tell h a s := by
  induction a generalizing s with
  | nil => rfl
  | cons x a ih =>
    have hx := ha x List.mem_cons_self
    cases x with
    | prefixDecl p n =>
      show tell h (.prefixDecl p n :: (a ++ b)) s = _
      rw [tell, tell]
      split
      · rfl
      · exact ih (fun x hx => ha x (List.mem_cons_of_mem _ hx)) _
    | _ => exact hx.elim

theorem tell_plains {σ : Type} (h : Callback σ Item) {a : List Item} (ha : ∀ x ∈ a, Plain x) (b : List Item) (s : σ) :
    tell h (a ++ b) s = if (tell h a s).2 = none then tell h b (tell h a s).1 else tell h a s := by
  induction a generalizing s with
  | nil => rfl
  | cons x a ih =>
    have hx := ha x List.mem_cons_self
    show tell h (x :: (a ++ b)) s = _
    rw [tell_plain h hx, tell_plain h hx]
    split
    · exact ih (fun x hx => ha x (List.mem_cons_of_mem _ hx)) _
    · rfl

/-- Items of `ontology_id`. -/
def idItems : Option Iri → Option Iri → List Item
  | none, _ => []
  | some i, none => [.iri i]
  | some i, some v => [.iri i, .version v]

theorem tell_id {σ : Type} (h : Callback σ Item) (i v : Option Iri) {b : List Item} (hb : ∀ x ∈ b, Plain x) (s : σ) :
    tell h (idItems i v ++ b) s =
      if (tell h (idItems i v) s).2 = none then tell h b (tell h (idItems i v) s).1 else tell h (idItems i v) s := by
  cases i with
  | none => rfl
  | some i =>
    cases v with
    | none =>
      show tell h (.iri i :: b) s = if (tell h [.iri i] s).2 = none then tell h b (tell h [.iri i] s).1 else tell h [.iri i] s
      rw [tell_iri h i hb, tell_iri h i (by nofun)]
      split <;> rfl
    | some v =>
      show tell h (.iri i :: .version v :: b) s = if (tell h [.iri i, .version v] s).2 = none then
        tell h b (tell h [.iri i, .version v] s).1 else tell h [.iri i, .version v] s
      rw [tell, tell]
      split <;> rfl

theorem emit_tells {σ : Type} (h : Callback σ Item) (s : σ) (m : PMap) {i : Item} (hi : Plain i ∨ ∃ x, i = .iri x) (ts : List Tok) :
    emit h s m i ts = after (tell h [i] s) (some (m, ts)) := by
  have e : tell h [i] s = if (h s i).2 = .ok then ((h s i).1, none) else ((h s i).1, some .errSyntax) := by
    rcases hi with hi | ⟨x, rfl⟩
    · exact tell_plain h hi [] s
    · exact tell_iri h x (by nofun) s
  rw [e]
  show (if (h s i).2 = .ok then _ else _) = _
  by_cases hr : (h s i).2 = .ok
  · rw [if_pos hr, if_pos hr]; rfl
  · rw [if_neg hr, if_neg hr]; rfl

theorem readPrefixes_tells : ∀ (n : Nat) (ts : List Tok), ts.length ≤ n → ∀ (a : Nat) (m : PMap),
    ∃ items fin, (∀ x ∈ items, IsPrefix x) ∧ ∀ {σ : Type} (h : Callback σ Item) (s : σ),
      readPrefixes h a s m ts = after (tell h items s) fin
  | 0, [], _, a, m => ⟨[], some (m, []), by nofun, fun h s => by rw [readPrefixes] <;> first | rfl | nofun⟩
  | n + 1, ts, hn, a, m => by
    by_cases hp : ∃ p ns us, ts = .kw .prefix_ :: .lpar :: .pnameNs p :: .equals :: .iriRef ns :: .rpar :: us
    · obtain ⟨p, ns, us, rfl⟩ := hp
      obtain ⟨items, fin, h1, h2⟩ := readPrefixes_tells n us (by simp only [List.length_cons] at hn; omega) (a + 1)
        (m.add ⟨a, p⟩ ns false).1
      refine ⟨.prefixDecl p ns :: items, fin, ?_, fun h s => ?_⟩
      · intro x hx
        cases hx with
        | head => trivial
        | tail _ hx => exact h1 x hx
      · rw [readPrefixes, tell]
        by_cases hr : (h s (.prefixDecl p ns)).2.isErr = true
        · simp only [hr, if_true]; rfl
        · simp only [hr]; exact h2 h _
    · by_cases hq : ∃ us, ts = .kw .prefix_ :: us
      · obtain ⟨us, rfl⟩ := hq
        refine ⟨[], none, by nofun, fun h s => ?_⟩
        rw [readPrefixes]
        · rfl
        · intro p ns us' e; exact hp ⟨p, ns, us', by rw [e]⟩
      · refine ⟨[], some (m, ts), by nofun, fun h s => ?_⟩
        rw [readPrefixes]
        · rfl
        · intro p ns us' e; exact hp ⟨p, ns, us', e⟩
        · intro us' e; exact hq ⟨us', e⟩

theorem readId_tells (m : PMap) (ts : List Tok) :
    ∃ i v fin, ∀ {σ : Type} (h : Callback σ Item) (s : σ), readId h s m ts = after (tell h (idItems i v) s) fin := by
  cases ts with
  | nil => exact ⟨none, none, some (m, []), fun h s => by rw [readId]; rfl⟩
  | cons t ts =>
    by_cases hb : t.beginsIri = true
    · cases hi : readIri m t with
      | none => exact ⟨none, none, none, fun h s => by simp only [readId, hb, hi]; rfl⟩
      | some i =>
        cases ts with
        | nil =>
          refine ⟨some i, none, some (m, []), fun h s => ?_⟩
          refine Eq.trans ?_ (emit_tells h s m (.inr ⟨i, rfl⟩) [])
          simp only [readId, hb, hi]
          rfl
        | cons u us =>
          by_cases hu : u.beginsIri = true
          · cases hv : readIri m u with
            | none => exact ⟨none, none, none, fun h s => by simp only [readId, hb, hi, hu, hv]; rfl⟩
            | some v =>
              refine ⟨some i, some v, some (m, us), fun h s => ?_⟩
              show _ = after (tell h [.iri i, .version v] s) _
              simp only [readId, hb, hi, hu, hv, tell]
              by_cases h1 : (h s (.iri i)).2 = .ok
              · by_cases h2 : (h (h s (.iri i)).1 (.version v)).2 = .ok
                · simp [h1, h2, after]
                · simp [h1, h2, after, stopCode]
              · simp [h1, after, stopCode]
          · refine ⟨some i, none, some (m, u :: us), fun h s => ?_⟩
            refine Eq.trans ?_ (emit_tells h s m (.inr ⟨i, rfl⟩) (u :: us))
            simp only [readId, hb, hi, hu]
            rfl
    · exact ⟨none, none, some (m, t :: ts), fun h s => by simp only [readId, hb]; rfl⟩

theorem readHeader_tells (k : Nat) : ∀ (n : Nat) (m : PMap) (ts : List Tok),
    ∃ items fin, (∀ x ∈ items, Plain x) ∧ ∀ {σ : Type} (h : Callback σ Item) (s : σ),
      readHeader h k n s m ts = after (tell h items s) fin
  | 0, m, ts => ⟨[], none, by nofun, fun h s => rfl⟩
  | n + 1, m, ts => by
    have step : ∀ {σ : Type} (h : Callback σ Item) (s : σ) {i : Item}, Plain i → ∀ {us items fin},
        (∀ s, readHeader h k n s m us = after (tell h items s) fin) →
        (match emit h s m i us with
          | .go s m ts => readHeader h k n s m ts
          | .stop s r => .stop s r) = after (tell h (i :: items) s) fin := by
      intro σ h s i hi us items fin hrec
      rw [tell_plain h hi]
      unfold emit
      by_cases hr : (h s i).2 = .ok
      · simp only [hr, if_true]; exact hrec _
      · simp only [hr, if_false]; rfl
    have more : ∀ {i : Item} {items : List Item}, Plain i → (∀ x ∈ items, Plain x) → ∀ x ∈ i :: items, Plain x := by
      intro i items hi h x hx
      cases hx with
      | head => exact hi
      | tail _ hx => exact h x hx
    by_cases h1 : ∃ us, ts = .kw .import_ :: us
    · obtain ⟨us, rfl⟩ := h1
      cases e : readImport m us with
      | none => exact ⟨[], none, by nofun, fun h s => by rw [readHeader, e]; rfl⟩
      | some x =>
        obtain ⟨i, vs⟩ := x
        obtain ⟨items, fin, g1, g2⟩ := readHeader_tells k n m vs
        refine ⟨.import i :: items, fin, more trivial g1, fun h s => ?_⟩
        rw [readHeader, e]
        exact step h s (i := .import i) trivial (g2 h)
    · by_cases h2 : ∃ us, ts = .kw .annotation :: us
      · obtain ⟨us, rfl⟩ := h2
        cases e : parseCat m k .annotation (.kw .annotation :: us) with
        | none => exact ⟨[], none, by nofun, fun h s => by rw [readHeader, e]; rfl⟩
        | some x =>
          obtain ⟨o, vs⟩ := x
          obtain ⟨items, fin, g1, g2⟩ := readHeader_tells k n m vs
          refine ⟨.annot o :: items, fin, more trivial g1, fun h s => ?_⟩
          rw [readHeader, e]
          exact step h s (i := .annot o) trivial (g2 h)
      · refine ⟨[], some (m, ts), by nofun, fun h s => ?_⟩
        rw [readHeader]
        · rfl
        · intro us e; exact h1 ⟨us, e⟩
        · intro us e; exact h2 ⟨us, e⟩

theorem readAxioms_tells (k : Nat) : ∀ (n : Nat) (m : PMap) (ts : List Tok),
    ∃ items acc, (∀ x ∈ items, Plain x) ∧ ∀ {σ : Type} (h : Callback σ Item) (s : σ),
      readAxioms h k n s m ts = ((tell h items s).1, conclude acc (tell h items s).2)
  | 0, m, ts => ⟨[], false, by nofun, fun h s => rfl⟩
  | n + 1, m, ts => by
    by_cases h1 : ∃ us, ts = .rpar :: us
    · obtain ⟨us, rfl⟩ := h1
      refine ⟨[], decide (us = []), by nofun, fun h s => ?_⟩
      rw [readAxioms]
      show _ = (s, if decide (us = []) = true then Outcome.ok else .rejected)
      by_cases hu : us = [] <;> simp [hu]
    · cases e : parseCat m k .ax ts with
      | none =>
        refine ⟨[], false, by nofun, fun h s => ?_⟩
        rw [readAxioms]
        · rw [e]; rfl
        · intro us e; exact h1 ⟨us, e⟩
      | some x =>
        obtain ⟨o, vs⟩ := x
        obtain ⟨items, acc, g1, g2⟩ := readAxioms_tells k n m vs
        refine ⟨.ax o :: items, acc, ?_, fun h s => ?_⟩
        · intro x hx
          cases hx with
          | head => trivial
          | tail _ hx => exact g1 x hx
        · rw [readAxioms]
          · rw [e, tell_plain h (i := .ax o) trivial]
            unfold emit
            by_cases hr : (h s (.ax o)).2 = .ok
            · simp only [hr, if_true]; exact g2 h _
            · simp only [hr, if_false]; rfl
          · intro us e; exact h1 ⟨us, e⟩

/-- The whole reader. -/
theorem funcRead_tells (m : PMap) (addr : Nat) (text : Str) :
    ∃ items acc, ∀ {σ : Type} (h : Callback σ Item) (s : σ),
      funcRead h m addr text s = ((tell h items s).1, conclude acc (tell h items s).2) := by
  obtain ⟨ps, fin1, a1, b1⟩ := readPrefixes_tells _ (lex text) (Nat.le_refl _) addr m
  -- A phase whose end leads nowhere.
  have dead : ∀ (items : List Item), ∀ {σ : Type} (h : Callback σ Item) (s : σ),
      (match after (tell h items s) none with
        | .stop s r => (s, r)
        | .go s m ts => Func.readOntology h text.length s m ts) = ((tell h items s).1, conclude false (tell h items s).2) := by
    intro items σ h s
    unfold after
    cases (tell h items s).2 <;> rfl
  cases fin1 with
  | none => exact ⟨ps, false, fun h s => by unfold funcRead; rw [b1 h s]; exact dead ps h s⟩
  | some x =>
    obtain ⟨m1, ts1⟩ := x
    have go1 : ∀ (rest : List Item) (acc : Bool), (∀ {σ : Type} (h : Callback σ Item) (s : σ),
        Func.readOntology h text.length s m1 ts1 = ((tell h rest s).1, conclude acc (tell h rest s).2)) →
        ∀ {σ : Type} (h : Callback σ Item) (s : σ),
          funcRead h m addr text s = ((tell h (ps ++ rest) s).1, conclude acc (tell h (ps ++ rest) s).2) := by
      intro rest acc hr σ h s
      unfold funcRead
      rw [b1 h s, tell_prefixes h a1]
      unfold after
      cases e : (tell h ps s).2 with
      | none => simp only [if_true]; exact hr h _
      | some c => simp only [reduceCtorEq, if_false, e]; rfl
    by_cases ho : ∃ us, ts1 = .kw .ontology :: .lpar :: us
    · obtain ⟨us, rfl⟩ := ho
      obtain ⟨i, v, fin2, b2⟩ := readId_tells m1 us
      cases fin2 with
      | none =>
        refine ⟨ps ++ idItems i v, false, go1 _ false fun h s => ?_⟩
        rw [Func.readOntology, b2 h s]
        unfold after
        cases (tell h (idItems i v) s).2 <;> rfl
      | some x =>
        obtain ⟨m2, ts2⟩ := x
        obtain ⟨hs, fin3, a3, b3⟩ := readHeader_tells text.length (text.length + 1) m2 ts2
        cases fin3 with
        | none =>
          refine ⟨ps ++ (idItems i v ++ hs), false, go1 _ false fun h s => ?_⟩
          rw [Func.readOntology, b2 h s, tell_id h i v a3]
          unfold after
          cases e : (tell h (idItems i v) s).2 with
          | some c => simp only [reduceCtorEq, if_false, e]; rfl
          | none =>
            simp only [if_true]
            rw [b3 h]
            unfold after
            cases (tell h hs (tell h (idItems i v) s).1).2 <;> rfl
        | some x =>
          obtain ⟨m3, ts3⟩ := x
          obtain ⟨as, acc, a4, b4⟩ := readAxioms_tells text.length (text.length + 1) m3 ts3
          refine ⟨ps ++ (idItems i v ++ (hs ++ as)), acc, go1 _ acc fun h s => ?_⟩
          have a34 : ∀ x ∈ hs ++ as, Plain x := fun x hx => (List.mem_append.1 hx).elim (a3 x) (a4 x)
          rw [Func.readOntology, b2 h s, tell_id h i v a34]
          unfold after
          cases e : (tell h (idItems i v) s).2 with
          | some c => simp only [reduceCtorEq, if_false, e]; rfl
          | none =>
            simp only [if_true]
            rw [b3 h, tell_plains h a3]
            unfold after
            cases e3 : (tell h hs (tell h (idItems i v) s).1).2 with
            | some c => simp only [reduceCtorEq, if_false, e3]; rfl
            | none => simp only [if_true]; exact b4 h _
    · refine ⟨ps ++ [], false, go1 [] false fun h s => ?_⟩
      rw [Func.readOntology]
      · rfl
      · intro us e; exact ho ⟨us, e⟩

end Cowl.FuncTell
