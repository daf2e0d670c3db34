import Verif.HeapOps
import Verif.XmlProps
/-! # C04, C44: instance tables -/
namespace Cowl.Heap

/-- What every legal operation does. -/
theorem step_spec {s : St} (h : Inv s) {op : Op} (hl : Legal s op) :
    ∃ s' r, step s op = some (s', r) ∧ Inv s' ∧ s'.ext = ownedAfter s.ext op r ∧
      s'.empty = s.empty ∧
      ((∀ x, op ≠ .release x) → Le s s' ∧ ∃ v, Returns s op v ∧ Denotes s' r v) ∧
      ((∃ x, op = .release x) → Sub s s') := by
  have dead : ∀ {a}, ¬ Live s a → s.cellOf a = none := fun h => Classical.byContradiction h
  have fin : ∀ {op : Op} {s' r v}, step s op = some (s', r) → Done s s' r v → Returns s op v →
      (∀ x, op ≠ .release x) → (∀ x, op ≠ .intern x) →
      ∃ s' r, step s op = some (s', r) ∧ Inv s' ∧ s'.ext = ownedAfter s.ext op r ∧
      s'.empty = s.empty ∧
      ((∀ x, op ≠ .release x) → Le s s' ∧ ∃ v, Returns s op v ∧ Denotes s' r v) ∧
      ((∃ x, op = .release x) → Sub s s') := by
    intro op s' r v e D hv hr hi
    refine ⟨s', r, e, D.inv, ?_, D.emp, fun _ => ⟨D.le, v, hv, D.den⟩, ?_⟩
    · rw [D.ext]
      cases op with
      | release x => exact absurd rfl (hr x)
      | intern x => exact absurd rfl (hi x)
      | _ =>
        funext b
        simp only [ownedAfter, upd]
        by_cases hb : b = r <;> simp [hb]
    · rintro ⟨x, e⟩; exact absurd e (hr x)
  cases op with
  | newString a c =>
    obtain ⟨s', r, e, M⟩ := newString_spec h (dead hl) c
    exact fin e M.done (.newString _ _) (by intros; simp) (by intros; simp)
  | newIntern a c =>
    obtain ⟨s', r, e, M, _⟩ := newIntern_spec h (dead hl) c
    exact fin e M.done (.newIntern _ _) (by intros; simp) (by intros; simp)
  | intern x =>
    obtain ⟨c, hc⟩ := hl
    obtain ⟨s', r, e, I⟩ := intern_spec h hc
    refine ⟨s', r, e, I.inv, I.ext, I.emp, fun _ => ⟨I.le, _, .intern hc, I.den⟩, ?_⟩
    rintro ⟨x, e⟩; cases e
  | iriUnvalidated a n r =>
    obtain ⟨ha, ⟨cn, hn⟩, cr, hr⟩ := hl
    obtain ⟨s', r, e, M⟩ := iriUnvalidated_spec h (dead ha) hn hr
    exact fin e M.done (.iriUnvalidated hn hr) (by intros; simp) (by intros; simp)
  | iri a1 a2 a3 p q =>
    obtain ⟨h1, h2, h3, h12, h13, h23, ⟨cp, hp⟩, cq, hq⟩ := hl
    obtain ⟨s', r, e, D⟩ := iri_spec h (dead h1) (dead h2) (dead h3) h12 h13 h23 hp hq
    exact fin e D (.iri hp hq (C03_lossless cp cq)) (by intros; simp) (by intros; simp)
  | iriFromStr a1 a2 a3 c =>
    obtain ⟨h1, h2, h3, h12, h13, h23, hc⟩ := hl
    obtain ⟨s', r, e, D⟩ := iriFromStr_spec h (dead h1) (dead h2) (dead h3) h12 h13 h23 (c := c)
    refine fin e D (.iriFromStr ?_) (by intros; simp) (by intros; simp)
    obtain ⟨n, m, e1, hsp⟩ := C02_split c hc
    unfold iriFromString at e1
    split at e1
    · cases e1
    · simp only [Option.some.injEq] at e1
      rw [e1]; exact hsp
  | entity a k i =>
    obtain ⟨ha, x, hx⟩ := hl
    obtain ⟨s', r, e, M⟩ := entity_spec h (dead ha) k hx
    exact fin e M.done (.entity hx) (by intros; simp) (by intros; simp)
  | anonInd a id =>
    obtain ⟨ha, x, hx⟩ := hl
    obtain ⟨s', r, e, M⟩ := anonInd_spec h (dead ha) hx
    exact fin e M.done (.anonInd hx) (by intros; simp) (by intros; simp)
  | anonFromString a1 a c =>
    obtain ⟨h1, h2, h3⟩ := hl
    obtain ⟨s', r, e, D⟩ := anonFromString_spec h (dead h1) (dead h2) h3 c
    exact fin e D (.anonFromString _ _ _) (by intros; simp) (by intros; simp)
  | retain x =>
    have hl' : ∃ c, s.cellOf x = some c := by
      cases e : s.cellOf x with
      | none => exact absurd e hl
      | some c => exact ⟨c, rfl⟩
    obtain ⟨c, hc⟩ := hl'
    obtain ⟨v, hv⟩ := h.denotes hc
    obtain ⟨s', e, M⟩ := made_retain h 0 hv
    exact fin (by show (retain s x).map _ = _; rw [e]; rfl) M.done (.retain hv)
      (by intros; simp) (by intros; simp)
  | release x =>
    obtain ⟨s', e, R⟩ := release_spec h hl
    refine ⟨s', x, by show (release s x).map _ = _; rw [e]; rfl, R.inv, ?_, R.emp, ?_, fun _ => R.sub⟩
    · rw [R.ext]
      funext b
      simp only [ownedAfter, upd]
      by_cases hb : b = x <;> simp [hb]
    · intro hn; exact absurd rfl (hn x)

theorem reachable_inv {s : St} (h : Reachable s) : Inv s := by
  induction h with
  | init e => exact inv_init e
  | step h hl hs ih =>
    obtain ⟨s', r, e, hi, _⟩ := step_spec ih hl
    rw [hs] at e; cases e; exact hi

/-- A legal step, with everything known about it. -/
theorem reachable_step {s s' : St} {op : Op} {r : Nat} (h : Reachable s) (hl : Legal s op)
    (hs : step s op = some (s', r)) : Inv s' ∧ s'.ext = ownedAfter s.ext op r ∧
      s'.empty = s.empty ∧
      ((∀ x, op ≠ .release x) → Le s s' ∧ ∃ v, Returns s op v ∧ Denotes s' r v) ∧
      ((∃ x, op = .release x) → Sub s s') := by
  obtain ⟨s'', r', e, hh⟩ := step_spec (reachable_inv h) hl
  rw [hs] at e; cases e; exact hh

theorem live_iff {s : St} {a : Nat} : Live s a ↔ ∃ c, s.cellOf a = some c := by
  unfold Live
  cases s.cellOf a <;> simp

/-- C04, no undefined behaviour: after any history, a legal operation succeeds
without touching freed memory. -/
theorem C04_no_ub {s : St} (h : Reachable s) {op : Op} (hl : Legal s op) :
    ∃ s' r, step s op = some (s', r) := by
  obtain ⟨s', r, e, _⟩ := step_spec (reachable_inv h) hl
  exact ⟨s', r, e⟩

/-- C04, canonical: distinct live objects have distinct contents (IRIs, entities,
anonymous individuals). -/
theorem C04_canonical {s : St} (h : Reachable s) {a b : Nat} {p : Prim}
    (ha : Denotes s a (.prim p)) (hb : Denotes s b (.prim p)) : a = b :=
  canon_prim (reachable_inv h) ha hb

/-- C04, canonical: distinct live interned strings have distinct contents. -/
theorem C04_canonical_strings {s : St} (h : Reachable s) {a b : Nat} {c : Str}
    (ha : Denotes s a (.str c)) (hb : Denotes s b (.str c)) (hia : IsInterned s a)
    (hib : IsInterned s b) : a = b := by
  obtain ⟨i, ha⟩ := denotes_str_iff.1 ha
  obtain ⟨j, hb⟩ := denotes_str_iff.1 hb
  obtain ⟨x, hia⟩ := hia
  obtain ⟨y, hib⟩ := hib
  rw [ha] at hia; cases hia
  rw [hb] at hib; cases hib
  exact (reachable_inv h).strU _ _ _ ha hb

/-- C04, constructors: an operation that returns an object returns one with the
contents asked for. -/
theorem C04_result {s s' : St} {op : Op} {r : Nat} (h : Reachable s) (hl : Legal s op)
    (hs : step s op = some (s', r)) (hop : ∀ x, op ≠ .release x) :
    ∃ v, Returns s op v ∧ Denotes s' r v :=
  ((reachable_step h hl hs).2.2.2.1 hop).2

/-- C04, reuse: constructing an IRI, entity or anonymous individual whose contents
are those of a live one returns that same object. -/
theorem C04_reuse {s s' : St} {op : Op} {r b : Nat} {p : Prim} (h : Reachable s) (hl : Legal s op)
    (hs : step s op = some (s', r)) (hop : ∀ x, op ≠ .release x)
    (hr : Denotes s' r (.prim p)) (hb : Denotes s b (.prim p)) : r = b := by
  obtain ⟨hi, _, _, h1, _⟩ := reachable_step h hl hs
  exact canon_prim hi hr ((h1 hop).1.den _ _ hb)

/-- C04, reuse of interned strings, by both ways of interning; the empty string is
always the shared one. -/
theorem C04_reuse_strings {s s' : St} {op : Op} {r : Nat} {c : Str} (h : Reachable s)
    (hl : Legal s op) (hs : step s op = some (s', r))
    (hop : (∃ a, op = .newIntern a c) ∨ ∃ x, op = .intern x ∧ Denotes s x (.str c)) :
    (c = [] ∧ r = s.empty ∨ c ≠ [] ∧ IsInterned s' r) ∧
      ∀ b, IsInterned s b → Denotes s b (.str c) → r = b := by
  have hi := reachable_inv h
  have key : Inv s' ∧ Le s s' ∧ Denotes s' r (.str c) ∧
      (s'.cellOf r = some (.str c true) ∨ (c = [] ∧ r = s.empty)) := by
    rcases hop with ⟨a, rfl⟩ | ⟨x, rfl, hx⟩
    · have ha : s.cellOf a = none := Classical.byContradiction hl
      obtain ⟨s'', r', e, M, h2⟩ := newIntern_spec hi ha c
      have hs : newIntern s a c = some (s', r) := hs
      rw [hs] at e; cases e
      exact ⟨M.inv, M.le, M.den, h2⟩
    · obtain ⟨s'', r', e, I⟩ := intern_spec hi hx
      have hs : intern s x = some (s', r) := hs
      rw [hs] at e; cases e
      exact ⟨I.inv, I.le, I.den, I.res⟩
  obtain ⟨hi', hle, hden, hres⟩ := key
  have hres' : c = [] ∧ r = s.empty ∨ c ≠ [] ∧ IsInterned s' r := by
    rcases hres with h1 | h1
    · right
      refine ⟨?_, c, h1⟩
      rintro rfl; exact hi'.strNe _ h1
    · exact .inl h1
  refine ⟨hres', ?_⟩
  rintro b ⟨t, hb⟩ hbc
  obtain ⟨i, hbc⟩ := denotes_str_iff.1 hbc
  rw [hb] at hbc; cases hbc
  have hb' : s'.cellOf b = some (.str c true) := by
    rcases hle b _ hb with h1 | ⟨t, e, h1⟩
    · exact h1
    · cases e
  rcases hres with h1 | ⟨h1, _⟩
  · exact hi'.strU _ _ _ h1 hb'
  · subst h1; exact absurd hb' (hi'.strNe _)

/-- C04, tables: each instance table lists exactly the live objects of its kind,
once. -/
theorem C04_tables {s : St} (h : Reachable s) :
    (∀ a, a ∈ s.strT ↔ IsInterned s a) ∧
    (∀ a, a ∈ s.iriT ↔ ∃ x, Denotes s a (.prim (.iri x))) ∧
    (∀ a, a ∈ s.entT ↔ ∃ k x, Denotes s a (.prim (.ent k x))) ∧
    (∀ a, a ∈ s.anonT ↔ ∃ c, Denotes s a (.prim (.anon c))) ∧
    s.strT.Nodup ∧ s.iriT.Nodup ∧ s.entT.Nodup ∧ s.anonT.Nodup := by
  have hi := reachable_inv h
  refine ⟨hi.strT, ?_, ?_, ?_, hi.strN, hi.iriN, hi.entN, hi.anonN⟩
  · intro a
    rw [hi.iriT a]
    constructor
    · rintro ⟨n, r, ha⟩
      obtain ⟨v, hv⟩ := hi.denotes ha
      cases hv with
      | str h' => rw [ha] at h'; cases h'
      | iri h1 h2 h3 => exact ⟨_, .iri h1 h2 h3⟩
      | ent h' => rw [ha] at h'; cases h'
      | anon h' => rw [ha] at h'; cases h'
    · rintro ⟨x, hx⟩; cases hx with | iri h _ _ => exact ⟨_, _, h⟩
  · intro a
    rw [hi.entT a]
    constructor
    · rintro ⟨n, r, ha⟩
      obtain ⟨v, hv⟩ := hi.denotes ha
      cases hv with
      | str h' => rw [ha] at h'; cases h'
      | iri h' => rw [ha] at h'; cases h'
      | ent h1 h2 => exact ⟨_, _, .ent h1 h2⟩
      | anon h' => rw [ha] at h'; cases h'
    · rintro ⟨k, x, hx⟩; cases hx with | ent h _ => exact ⟨_, _, h⟩
  · intro a
    rw [hi.anonT a]
    constructor
    · rintro ⟨r, ha⟩
      obtain ⟨v, hv⟩ := hi.denotes ha
      cases hv with
      | str h' => rw [ha] at h'; cases h'
      | iri h' => rw [ha] at h'; cases h'
      | ent h' => rw [ha] at h'; cases h'
      | anon h1 h2 => exact ⟨_, .anon h1 h2⟩
    · rintro ⟨x, hx⟩; cases hx with | anon h _ => exact ⟨_, h⟩

/-- C04, ownership: the references the client owns change as documented. -/
theorem C04_ownership {s s' : St} {op : Op} {r : Nat} (h : Reachable s) (hl : Legal s op)
    (hs : step s op = some (s', r)) : s'.ext = ownedAfter s.ext op r :=
  (reachable_step h hl hs).2.1

theorem held_live {s : St} (hi : Inv s) {a : Nat} (h : Held s a) : ∃ c, s.cellOf a = some c := by
  induction h with
  | empty => exact ⟨_, hi.emptyC⟩
  | owned h => exact hi.extLive _ h
  | field _ h _ =>
    cases h with
    | ns h => exact hi.fieldLive h (by simp [Cell.fields])
    | rem h => exact hi.fieldLive h (by simp [Cell.fields])
    | ent h => exact hi.fieldLive h (by simp [Cell.fields])
    | anon h => exact hi.fieldLive h (by simp [Cell.fields])

theorem refers_of_field {s : St} {a b : Nat} {c : Cell} (h : s.cellOf b = some c)
    (ha : a ∈ c.fields) : Refers s b a := by
  cases c with
  | str _ _ => simp [Cell.fields] at ha
  | iri n r =>
    simp only [Cell.fields, List.mem_cons, List.not_mem_nil, or_false] at ha
    rcases ha with rfl | rfl
    · exact .ns h
    · exact .rem h
  | ent k i =>
    simp only [Cell.fields, List.mem_cons, List.not_mem_nil, or_false] at ha
    subst ha; exact .ent h
  | anon i =>
    simp only [Cell.fields, List.mem_cons, List.not_mem_nil, or_false] at ha
    subst ha; exact .anon h

/-- C04, neither leaks nor dangling references: after any history the live objects
are exactly those reachable from references the client owns (and the library's empty
string), and each has well-defined contents. -/
theorem C04_live {s : St} (h : Reachable s) (a : Nat) :
    (Live s a ↔ Held s a) ∧ (Live s a ↔ ∃ v, Denotes s a v) := by
  have hi := reachable_inv h
  refine ⟨⟨?_, fun hh => live_iff.2 (held_live hi hh)⟩,
    ⟨?_, fun ⟨v, hv⟩ => live_iff.2 hv.live⟩⟩
  · intro hl
    obtain ⟨c, hc⟩ := live_iff.1 hl
    -- what refers to what: entity to IRI to string, anonymous individual to string
    have rank : ∀ b d a c, s.cellOf b = some d → a ∈ d.fields → s.cellOf a = some c →
        (∃ t i, c = .str t i) ∨ ((∃ n r, c = .iri n r) ∧ ∃ k i, d = .ent k i) := by
      intro b d a c hd ha hc
      cases d with
      | str _ _ => simp [Cell.fields] at ha
      | iri n r =>
        left
        obtain ⟨h3, t, i, h4⟩ := hi.iriF b n r hd
        simp only [Cell.fields, List.mem_cons, List.not_mem_nil, or_false] at ha
        rcases ha with rfl | rfl
        · rcases h3 with ⟨t, h3⟩ | h3
          · rw [hc] at h3; cases h3; exact ⟨_, _, rfl⟩
          · rw [h3, hi.emptyC] at hc; cases hc; exact ⟨_, _, rfl⟩
        · rw [hc] at h4; cases h4; exact ⟨_, _, rfl⟩
      | ent k i =>
        right
        simp only [Cell.fields, List.mem_cons, List.not_mem_nil, or_false] at ha
        subst ha
        obtain ⟨n, r, h3⟩ := hi.entF b k a hd
        rw [hc] at h3; cases h3
        exact ⟨⟨_, _, rfl⟩, _, _, rfl⟩
      | anon i =>
        left
        simp only [Cell.fields, List.mem_cons, List.not_mem_nil, or_false] at ha
        subst ha
        obtain ⟨n, r, h3⟩ := hi.anonF b a hd
        rw [hc] at h3; cases h3
        exact ⟨_, _, rfl⟩
    have top : ∀ a c, s.cellOf a = some c → (∀ t i, c ≠ .str t i) → (∀ n r, c ≠ .iri n r) →
        Held s a := by
      intro a c hc hn1 hn2
      rcases hi.why hc with rfl | h3 | ⟨b, d, hd, ha⟩
      · exact .empty
      · exact .owned h3
      · rcases rank b d a c hd ha hc with ⟨t, i, e⟩ | ⟨⟨n, r, e⟩, _⟩
        · exact absurd e (hn1 _ _)
        · exact absurd e (hn2 _ _)
    have mid : ∀ a c, s.cellOf a = some c → (∀ t i, c ≠ .str t i) → Held s a := by
      intro a c hc hn1
      rcases hi.why hc with rfl | h3 | ⟨b, d, hd, ha⟩
      · exact .empty
      · exact .owned h3
      · rcases rank b d a c hd ha hc with ⟨t, i, e⟩ | ⟨_, k, i, e⟩
        · exact absurd e (hn1 _ _)
        · subst e
          exact .field (top b _ hd (by intros; simp) (by intros; simp)) (refers_of_field hd ha)
    rcases hi.why hc with rfl | h3 | ⟨b, d, hd, ha⟩
    · exact .empty
    · exact .owned h3
    · refine .field (mid b d hd ?_) (refers_of_field hd ha)
      rintro t i rfl
      simp [Cell.fields] at ha
  · intro hl
    obtain ⟨c, hc⟩ := live_iff.1 hl
    exact hi.denotes hc

/-- C04, stability: an object that is still held after an operation has the contents
it had before, and only a release can make an object disappear. -/
theorem C04_stable {s s' : St} {op : Op} {r b : Nat} {v : Val} (h : Reachable s) (hl : Legal s op)
    (hs : step s op = some (s', r)) (hb : Denotes s b v) :
    (Held s' b → Denotes s' b v) ∧ ((∀ x, op ≠ .release x) → Held s' b) := by
  have hr' : Reachable s' := .step h hl hs
  obtain ⟨hi, _, _, h1, h2⟩ := reachable_step h hl hs
  by_cases hop : ∀ x, op ≠ .release x
  · have hd := (h1 hop).1.den _ _ hb
    exact ⟨fun _ => hd, fun _ => ((C04_live hr' b).1).1 (live_iff.2 hd.live)⟩
  · have hop' : ∃ x, op = .release x := by
      cases op with
      | release x => exact ⟨x, rfl⟩
      | _ => exact absurd (by intros; simp) hop
    exact ⟨fun hh => (h2 hop').denotes hi hb (held_live hi hh), fun hn => absurd hn hop⟩

/-- C04: a client that has given everything back leaves nothing behind. -/
theorem C04_no_leak {s : St} (h : Reachable s) (h0 : ∀ a, s.ext a = 0) (a : Nat) :
    Live s a ↔ a = s.empty := by
  rw [(C04_live h a).1]
  constructor
  · intro hh
    induction hh with
    | empty => rfl
    | owned hx => rw [h0] at hx; omega
    | field hb hr ih =>
      have he := (reachable_inv h).emptyC
      subst ih
      cases hr with
      | ns h' => rw [he] at h'; cases h'
      | rem h' => rw [he] at h'; cases h'
      | ent h' => rw [he] at h'; cases h'
      | anon h' => rw [he] at h'; cases h'
  · rintro rfl; exact .empty

/-! ## Entities -/

/-- C44. Entities are the same object iff they have the same kind and the same IRI. -/
theorem C44_entities {s : St} (h : Reachable s) {a b : Nat} {k k' : EntKind} {x x' : Iri}
    (ha : Denotes s a (.prim (.ent k x))) (hb : Denotes s b (.prim (.ent k' x'))) :
    a = b ↔ k = k' ∧ x = x' := by
  constructor
  · rintro rfl
    have := denotes_det ha hb
    cases this; exact ⟨rfl, rfl⟩
  · rintro ⟨rfl, rfl⟩; exact C04_canonical h ha hb

/-- C44. The IRI of an entity is the very object it was constructed from. -/
theorem C44_get_iri {s s' : St} {a i r : Nat} {k : EntKind} (h : Reachable s)
    (hl : Legal s (.entity a k i)) (hs : step s (.entity a k i) = some (s', r)) :
    entityGetIri s' r = some i := by
  obtain ⟨hi, _, _, h1, _⟩ := reachable_step h hl hs
  obtain ⟨hle, v, hv, hd⟩ := h1 (by intros; simp)
  cases hv with
  | entity hx =>
    cases hd with
    | ent hc hj =>
      simp only [entityGetIri, hc, Option.some.injEq]
      exact canon_iri hi hj (hle.den _ _ hx)

/-! ## Examples -/

/-- A history: an IRI from its text, a class and a datatype with that IRI, and the
IRI released. All of the hypotheses above hold in it; the two entities are punned. -/
example : ∃ s s' a b i x, Reachable s ∧ Reachable s' ∧ Denotes s i (.prim (.iri x)) ∧
    Denotes s a (.prim (.ent .cls x)) ∧ Denotes s b (.prim (.ent .datatype x)) ∧ a ≠ b ∧
    step s (.release i) = some (s', i) ∧ Denotes s' a (.prim (.ent .cls x)) ∧ 0 < s'.ext a ∧
    s'.ext i = 0 ∧ Live s' i := by
  have h0 : Reachable (init 0) := .init 0
  have hinit : ∀ a, a ≠ 0 → ¬ Live (init 0) a := by
    intro a ha hl
    have hf : (a == 0) = false := by simpa using ha
    simp [Live, init, St.cellOf, List.lookup_cons, hf] at hl
  have l1 : Legal (init 0) (.iriFromStr 1 2 3 (ascii "http://a#b")) :=
    ⟨hinit 1 (by simp), hinit 2 (by simp), hinit 3 (by simp), by simp, by simp, by simp,
      by decide⟩
  obtain ⟨s1, i, e1⟩ := C04_no_ub h0 l1
  have h1 := Reachable.step h0 l1 e1
  obtain ⟨v, hv, hi⟩ := C04_result h0 l1 e1 (by intros; simp)
  cases hv with
  | iriFromStr hsp =>
    rename_i n m
    -- an unused address always exists
    have fresh : ∀ s : St, ∃ a, ¬ Live s a := by
      intro s
      refine ⟨(s.cells.map Prod.fst).foldr Nat.max 0 + 1, fun hl => ?_⟩
      obtain ⟨c, hc⟩ := live_iff.1 hl
      have hm := lookup_mem hc
      have : ∀ (l : List Nat) x, x ∈ l → x ≤ l.foldr Nat.max 0 := by
        intro l
        induction l with
        | nil => intro x hx; cases hx
        | cons y ys ih =>
          intro x hx
          rw [List.foldr_cons]
          rcases List.mem_cons.1 hx with rfl | hx
          · exact Nat.le_max_left _ _
          · exact Nat.le_trans (ih x hx) (Nat.le_max_right _ _)
      have := this (s.cells.map Prod.fst) _ (List.mem_map.2 ⟨_, hm, rfl⟩)
      simp only at this
      omega
    obtain ⟨f2, hf2⟩ := fresh s1
    have l2 : Legal s1 (.entity f2 .cls i) := ⟨hf2, _, hi⟩
    obtain ⟨s2, a, e2⟩ := C04_no_ub h1 l2
    have h2 := Reachable.step h1 l2 e2
    obtain ⟨v, hv, ha⟩ := C04_result h1 l2 e2 (by intros; simp)
    cases hv with
    | entity hx =>
      have := denotes_det hx hi
      cases this
      have hi2 := (C04_stable h1 l2 e2 hi).1 ((C04_stable h1 l2 e2 hi).2 (by intros; simp))
      obtain ⟨f3, hf3⟩ := fresh s2
      have l3 : Legal s2 (.entity f3 .datatype i) := ⟨hf3, _, hi2⟩
      obtain ⟨s3, b, e3⟩ := C04_no_ub h2 l3
      have h3 := Reachable.step h2 l3 e3
      obtain ⟨v, hv, hb⟩ := C04_result h2 l3 e3 (by intros; simp)
      cases hv with
      | entity hx' =>
        have := denotes_det hx' hi2
        cases this
        have hi3 := (C04_stable h2 l3 e3 hi2).1 ((C04_stable h2 l3 e3 hi2).2 (by intros; simp))
        have ha3 := (C04_stable h2 l3 e3 ha).1 ((C04_stable h2 l3 e3 ha).2 (by intros; simp))
        have hab : a ≠ b := by
          intro e
          have := (C44_entities h3 ha3 hb).1 e
          simp at this
        have o1 := C04_ownership h0 l1 e1
        have o2 := C04_ownership h1 l2 e2
        have o3 := C04_ownership h2 l3 e3
        have hia : i ≠ a := by
          rintro rfl
          have := denotes_det hi3 ha3; cases this
        have hib : i ≠ b := by
          rintro rfl
          have := denotes_det hi3 hb; cases this
        have hx3 : s3.ext i = 1 := by
          rw [o3]; simp only [ownedAfter, if_neg hib]
          rw [o2]; simp only [ownedAfter, if_neg hia]
          rw [o1]; simp [ownedAfter, init]
        have l4 : Legal s3 (.release i) := by
          show 0 < s3.ext i
          omega
        obtain ⟨s4, j, e4⟩ := C04_no_ub h3 l4
        have hj : j = i := by
          have e4 : (release s3 i).map _ = some (s4, j) := e4
          rw [Option.map_eq_some_iff] at e4
          obtain ⟨t, _, e⟩ := e4
          cases e; rfl
        subst hj
        have h4 := Reachable.step h3 l4 e4
        have o4 := C04_ownership h3 l4 e4
        have hxa : 0 < s4.ext a := by
          rw [o4]; simp only [ownedAfter, if_neg (Ne.symm hia)]
          rw [o3]; simp only [ownedAfter, if_neg hab]
          rw [o2]; simp [ownedAfter]
        have ha4 := (C04_stable h3 l4 e4 ha3).1 (.owned hxa)
        refine ⟨s3, s4, a, b, j, _, h3, h4, hi3, ha3, hb, hab, e4, ha4, hxa, ?_, ?_⟩
        · rw [o4]; simp [ownedAfter, hx3]
        · rw [(C04_live h4 j).1]
          refine .field (.owned hxa) ?_
          have hi4 : Inv s4 := reachable_inv h4
          cases ha4 with
          | ent hc hk =>
            have hsub := (reachable_step h3 l4 e4).2.2.2.2 ⟨_, rfl⟩
            cases ha3 with
            | ent hc3 hk3 =>
              have := hsub _ _ hc
              rw [hc3] at this; cases this
              have := C04_canonical h3 hk3 hi3
              subst this
              exact .ent hc

end Cowl.Heap
