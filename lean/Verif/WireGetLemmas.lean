import Verif.WireDocLemmas
/-!
# Lemmas: what bytes in ProtocOWL say is read
-/
namespace Cowl.Wire
open Ast Prt

/-- The state of the decoder with other bytes, names and number of individuals. -/
def put (s : DSt) (t : Src) : DSt := { s with inp := t.inp, ix := { s.ix with ids := t.ids }, fresh := t.fresh }

theorem put_put (s : DSt) (t u : Src) : put (put s t) u = put s u := rfl
theorem put_src (s : DSt) : put s (src s) = s := rfl
theorem src_put (s : DSt) (t : Src) : src (put s t) = t := rfl

/-- Less than `N` bytes that say something are read with this result. -/
def Gets (E : Env) (N : Nat) {α : Type} (x : Dec α) (a : α) (L : Lang) : Prop :=
  ∀ cs s t, s.inp.length < N → L cs → Does E.u.readVarint E.u.readSvarint E.gen cs (src s) t → x s = .ok a (put s t)

theorem does_split {un : Str → Option (Nat × Str)} {sn : Str → Option (Int × Str)} {gen : Nat → Str} :
    ∀ {a b : List Act} {s t : Src}, Does un sn gen (a ++ b) s t → ∃ m, Does un sn gen a s m ∧ Does un sn gen b m t
  | [], _, s, _, h => ⟨s, rfl, h⟩
  | _ :: _, _, _, _, ⟨m, h1, h2⟩ => by
    obtain ⟨m', h3, h4⟩ := does_split h2
    exact ⟨m', ⟨m, h1, h3⟩, h4⟩

section
variable {E : Env} {α β : Type} {N : Nat}

/-- Nothing is put back. -/
theorem does_le (hu : E.u.Lawful) : ∀ {cs : List Act} {s t : Src},
    Does E.u.readVarint E.u.readSvarint E.gen cs s t → t.inp.length ≤ s.inp.length
  | [], s, t, h => by cases h; exact Nat.le_refl _
  | c :: cs, s, t, ⟨m, h1, h2⟩ => by
    have ih := does_le hu h2
    cases c with
    | num n =>
      obtain ⟨r, e, rfl⟩ := h1
      have := (hu.varint_lt e).2
      dsimp only at *; omega
    | int v =>
      obtain ⟨r, e, rfl⟩ := h1
      have := hu.svarint_lt e
      dsimp only at *; omega
    | byte b =>
      obtain ⟨r, e, rfl⟩ := h1
      rw [e]
      simp only [List.length_cons] at *; omega
    | raw x =>
      obtain ⟨r, e, rfl⟩ := h1
      rw [e]
      simp only [List.length_append] at *; omega
    | look k i =>
      rcases h1 with ⟨-, rfl⟩ | ⟨-, -, rfl⟩ <;> exact ih

theorem Gets.none {x : Dec α} {a : α} {L : Lang} : Gets E 0 x a L := fun _ _ _ h => absurd h (Nat.not_lt_zero _)

theorem Gets.pure {a : α} : Gets E N (pure a : Dec α) a fun cs => cs = [] := by
  intro cs s t _ e h
  subst e
  cases h
  rfl

theorem Gets.bind (hu : E.u.Lawful) {x : Dec α} {f : α → Dec β} {a : α} {b : β} {P Q : Lang} (h : Gets E N x a P)
    (hf : Gets E N (f a) b Q) : Gets E N (x >>= f) b (seq P Q) := by
  intro cs s t hn ⟨c1, c2, e, h1, h2⟩ hd
  subst e
  obtain ⟨m, h3, h4⟩ := does_split hd
  simp only [bind_def, Dec.bind]
  rw [h _ _ _ hn h1 h3]
  exact hf c2 (put s m) t (Nat.lt_of_le_of_lt (does_le hu h3) hn) h2 h4

theorem Gets.last {x : Dec α} {f : α → β} {a : α} {b : β} {P : Lang} (h : Gets E N x a P) (e : f a = b) :
    Gets E N (x >>= fun a => Pure.pure (f a)) b P := by
  intro cs s t hn h1 hd
  simp only [bind_def, Dec.bind]
  rw [h _ _ _ hn h1 hd]
  subst e
  rfl

theorem Gets.imp {x : Dec α} {a : α} {P Q : Lang} (h : Gets E N x a P) (hi : ∀ cs, Q cs → P cs) : Gets E N x a Q :=
  fun cs s t hn h1 hd => h cs s t hn (hi cs h1) hd

/-- A number takes a byte. -/
theorem Gets.num (hu : E.u.Lawful) {f : Nat → Dec β} {k : Nat} {b : β} {Q : Lang} (hf : Gets E N (f k) b Q) :
    Gets E (N + 1) (varint E >>= f) b (seq (Wire.num k) Q) := by
  intro cs s t hn ⟨c1, c2, e, h1, h2⟩ hd
  subst e
  cases h1
  obtain ⟨m, h3, h4⟩ := hd
  obtain ⟨r, h5, rfl⟩ := h3
  have := (hu.varint_lt h5).2
  have e : varint E s = .ok k { s with inp := r } := by
    unfold varint
    rw [show E.u.readVarint s.inp = some (k, r) from h5]
  simp only [bind_def, Dec.bind]
  rw [e]
  refine hf c2 { s with inp := r } t ?_ h2 h4
  have : r.length < s.inp.length := this
  dsimp only; omega

theorem Gets.name (hu : E.u.Lawful) {f : Nat → Dec β} {off : Nat} {i : Id} {b : β}
    (hf : ∀ k, Gets E N (f (k + off)) b fun cs => cs = [.look k i]) : Gets E (N + 1) (varint E >>= f) b (Wire.name off i) := by
  intro cs s t hn ⟨k, e⟩ hd
  subst e
  exact Gets.num hu (hf k) _ s t hn ⟨[.num (k + off)], [.look k i], rfl, rfl, rfl⟩ hd

theorem Gets.mono {M : Nat} {x : Dec α} {a : α} {L : Lang} (h : Gets E M x a L) (hn : N ≤ M) : Gets E N x a L :=
  fun cs s t hl => h cs s t (Nat.lt_of_lt_of_le hl hn)

end

section
variable {E : Env} {N : Nat}

theorem gets_varint (n : Nat) : Gets E N (varint E) n (num n) := by
  intro cs s t _ e hd
  cases e
  obtain ⟨m, ⟨r, h1, rfl⟩, rfl⟩ := hd
  unfold varint
  rw [show E.u.readVarint s.inp = some (n, r) from h1]
  rfl

theorem gets_svarint (v : Int) : Gets E N (svarint E) v fun cs => cs = [.int v] := by
  intro cs s t _ e hd
  cases e
  obtain ⟨m, ⟨r, h1, rfl⟩, rfl⟩ := hd
  unfold svarint
  rw [show E.u.readSvarint s.inp = some (v, r) from h1]
  rfl

theorem gets_byte (c : UInt8) : Gets E N byte c fun cs => cs = [.byte c] := by
  intro cs s t _ e hd
  cases e
  obtain ⟨m, ⟨r, h1, rfl⟩, rfl⟩ := hd
  unfold byte
  rw [show s.inp = c :: r from h1]
  rfl

theorem gets_bytes (x : Str) : Gets E N (Prt.bytes x.length) x fun cs => cs = [.raw x] := by
  intro cs s t _ e hd
  cases e
  obtain ⟨m, ⟨r, h1, rfl⟩, rfl⟩ := hd
  unfold Prt.bytes
  have h1 : s.inp = x ++ r := h1
  rw [if_pos (by rw [h1, List.length_append]; omega), h1, List.take_left, List.drop_left]
  rfl

theorem gets_look (k : Nat) (i : Id) : Gets E N (getId E k) i fun cs => cs = [.look k i] := by
  intro cs s t _ e hd
  cases e
  obtain ⟨m, h1, rfl⟩ := hd
  unfold getId
  rcases h1 with ⟨h1, rfl⟩ | ⟨h1, rfl, rfl⟩
  · rw [show s.ix.ids[k]? = some i from h1]
    rfl
  · have h1 : k = s.ix.ids.length := h1
    rw [List.getElem?_eq_none (by omega)]
    dsimp only
    rw [if_pos h1]
    rfl

theorem gets_getIri (k : Nat) (i : Iri) : Gets E N (getIri E k) i fun cs => cs = [.look k (.iri i)] := by
  intro cs s t hn h hd
  unfold getIri
  simp only [bind_def, Dec.bind]
  rw [gets_look k (.iri i) cs s t hn h hd]
  rfl

theorem gets_getEnt (e : EntKind) (k : Nat) (i : Iri) : Gets E N (getEnt E e k) (ent e i) fun cs => cs = [.look k (.iri i)] :=
  (gets_getIri k i).last rfl

theorem gets_decIri (hu : E.u.Lawful) (i : Iri) : Gets E N (decIri E) i (name 0 (.iri i)) := by
  cases N with
  | zero => exact .none
  | succ N => exact .name hu fun k => gets_getIri k i

theorem gets_decEnt (hu : E.u.Lawful) (e : EntKind) (i : Iri) : Gets E N (decEnt E e) (ent e i) (name 0 (.iri i)) := by
  cases N with
  | zero => exact .none
  | succ N => exact .name hu fun k => gets_getEnt e k i

theorem gets_getInd (k : Nat) (i : Ind) : Gets E N (getInd E k) i.toObj fun cs =>
    cs = [.look k (match i with | .named i => .iri i | .anon s => .anon s)] := by
  intro cs s t hn h hd
  unfold getInd
  simp only [bind_def, Dec.bind]
  rw [gets_look k _ cs s t hn h hd]
  cases i <;> rfl

theorem gets_decInd (hu : E.u.Lawful) (i : Ind) : Gets E N (decInd E) i.toObj (indSays i) := by
  cases N with
  | zero => exact .none
  | succ N => cases i with
    | named i => exact .name hu fun k => gets_getInd k (.named i)
    | anon i => exact .name hu fun k => gets_getInd k (.anon i)

theorem gets_getIriOrAnon (k : Nat) (i : AnnotSubj) : Gets E N (getIriOrAnon E k) i.toObj fun cs =>
    cs = [.look k (match i with | .iri i => .iri i | .anon s => .anon s)] := by
  intro cs s t hn h hd
  unfold getIriOrAnon
  simp only [bind_def, Dec.bind]
  rw [gets_look k _ cs s t hn h hd]
  cases i <;> rfl

theorem gets_decIriOrAnon (hu : E.u.Lawful) (i : AnnotSubj) : Gets E N (decIriOrAnon E) i.toObj (subjSays i) := by
  cases N with
  | zero => exact .none
  | succ N => cases i with
    | iri i => exact .name hu fun k => gets_getIriOrAnon k (.iri i)
    | anon i => exact .name hu fun k => gets_getIriOrAnon k (.anon i)

theorem gets_decOpe (hu : E.u.Lawful) (p : Ope) : Gets E N (decOpe E) p.toObj (opeSays p) := by
  cases N with
  | zero => exact .none
  | succ N => cases p with
    | prop i =>
      refine .name hu fun k => ?_
      rw [if_neg (Nat.succ_ne_zero k)]
      exact gets_getEnt .objProp k i
    | inv i =>
      refine .num hu ?_
      rw [if_pos rfl]
      exact (gets_decEnt hu .objProp i).last rfl

theorem gets_decStr (hu : E.u.Lawful) (x : Str) : Gets E N (decStr E) x (text x) :=
  (Gets.bind hu (gets_varint x.length) (gets_bytes x)).imp fun cs h => ⟨[.num x.length], [.raw x], h, rfl, rfl⟩

theorem gets_decValue (hu : E.u.Lawful) (fmt : Nat) (v : Str) : Gets E N (decValue E fmt) v (value fmt v) := by
  intro cs s t hn h hd
  unfold decValue
  split
  · exact gets_decStr hu v cs s t hn h hd
  · rcases h with ⟨rfl, rfl⟩ | ⟨rfl, rfl⟩
    · have := gets_byte (E := E) 0 _ s t hn rfl hd
      simp only [bind_def, Dec.bind]
      rw [this]; rfl
    · have := gets_byte (E := E) 1 _ s t hn rfl hd
      simp only [bind_def, Dec.bind]
      rw [this]; rfl
  · obtain ⟨w, rfl, rfl⟩ := h
    exact (gets_svarint w).last rfl _ s t hn rfl hd
  · obtain ⟨w, rfl, rfl⟩ := h
    exact (gets_varint w).last rfl _ s t hn rfl hd
  · obtain ⟨w, f, rfl, rfl⟩ := h
    have h : Gets E N (do
        let w ← svarint E
        let f ← varint E
        pure (fixedText w f)) (fixedText w f) (seq (fun cs => cs = [.int w]) (num f)) :=
      Gets.bind hu (gets_svarint w) ((gets_varint f).last rfl)
    refine (h _ s t hn ⟨[.int w], [.num f], rfl, rfl, rfl⟩ hd).trans ?_
    rw [fixedText, List.append_assoc]; rfl
  · obtain ⟨w, f, e, rfl, rfl⟩ := h
    have h : Gets E N (do
        let w ← svarint E
        let f ← varint E
        let e ← svarint E
        pure (fixedText w f ++ 69 :: fmtInt e)) (fixedText w f ++ 69 :: fmtInt e)
          (seq (fun cs => cs = [.int w]) (seq (num f) fun cs => cs = [.int e])) :=
      Gets.bind hu (gets_svarint w) (Gets.bind hu (gets_varint f) ((gets_svarint e).last rfl))
    refine (h _ s t hn ⟨[.int w], [.num f, .int e], rfl, rfl, [.num f], [.int e], rfl, rfl, rfl⟩ hd).trans ?_
    simp only [fixedText, List.append_assoc]; rfl
  · simp only [value] at h

theorem gets_lit {v : Str} {a : LitArg} {l : Lit} (h : literal v a = .lit l.value l.tag) :
    Gets E N (ofLitRes E (literal v a)) l.toObj fun cs => cs = [] := by
  rw [h]; exact .pure

theorem gets_decLit (hu : E.u.Lawful) (l : Lit) : Gets E N (decLit E) (some l.toObj) (literalSays l) := by
  intro cs s t hn ⟨c, v, a, ds, e, hl, d1, d2, e', h1, h2⟩ hd
  subst e; subst e'
  refine Gets.bind hu (gets_byte c) (Gets.bind (Q := fun cs => cs = d2) hu (gets_decValue hu _ v) ?_) _ s t hn
    ⟨[.byte c], d1 ++ d2, rfl, rfl, d1, d2, rfl, h1, rfl⟩ hd
  unfold tail at h2
  split
  · rename_i e
    rw [e] at h2
    obtain ⟨rfl, rfl⟩ := h2
    exact (gets_lit hl).last rfl
  · rename_i e
    rw [e] at h2
    obtain ⟨x, hx, rfl⟩ := h2
    have h : Gets E N (do
        let l ← decStr E
        let o ← ofLitRes E (literal v (.lang l))
        pure (some o)) (some l.toObj) (seq (text x) fun cs => cs = []) :=
      Gets.bind hu (gets_decStr hu x) ((gets_lit hl).last rfl)
    exact h.imp fun cs e => ⟨d2, [], by rw [e, List.append_nil], hx, rfl⟩
  · rename_i e
    rw [e] at h2
    obtain ⟨x, hx, rfl⟩ := h2
    have h : Gets E N (do
        let l ← decIri E
        let o ← ofLitRes E (literal v (.dt l))
        pure (some o)) (some l.toObj) (seq (name 0 (.iri x)) fun cs => cs = []) :=
      Gets.bind hu (gets_decIri hu x) ((gets_lit hl).last rfl)
    exact h.imp fun cs e => ⟨d2, [], by rw [e, List.append_nil], hx, rfl⟩
  · rename_i h0 h1 h2'
    generalize c.toNat % 4 = q at *
    match q with
    | 0 => exact absurd rfl h0
    | 1 => exact absurd rfl h1
    | 2 => exact absurd rfl h2'
    | q + 3 => exact h2.elim

theorem gets_decAnnotVal (hu : E.u.Lawful) (v : AnnotVal) : Gets E N (decAnnotVal E) (some v.toObj) (valSays v) := by
  cases N with
  | zero => exact .none
  | succ N => cases v with
    | iri i =>
      refine .name hu fun k => ?_
      rw [if_neg (Nat.succ_ne_zero k)]
      exact (gets_getIriOrAnon k (.iri i)).last rfl
    | anon i =>
      refine .name hu fun k => ?_
      rw [if_neg (Nat.succ_ne_zero k)]
      exact (gets_getIriOrAnon k (.anon i)).last rfl
    | lit l =>
      refine .num hu ?_
      rw [if_pos rfl]
      exact gets_decLit hu l

theorem gets_notNull {x : Dec (Option Obj)} {o : Obj} {L : Lang} (h : Gets E N x (some o) L) : Gets E N (notNull x) o L := by
  intro cs s t hn h1 hd
  unfold notNull
  simp only [bind_def, Dec.bind]
  rw [h cs s t hn h1 hd]
  rfl

theorem gets_decMany (hu : E.u.Lawful) {α : Type} {g : α → Obj} {L : α → Lang} {item : Dec Obj} : ∀ {xs : List α},
    (∀ x ∈ xs, Gets E N item (g x) (L x)) → Gets E N (decMany item xs.length) (xs.map g) (many L xs)
  | [], _ => .pure
  | x :: xs, h => Gets.bind hu (h x (List.mem_cons_self ..))
      ((gets_decMany hu fun y hy => h y (List.mem_cons_of_mem _ hy)).last rfl)

theorem gets_items (hu : E.u.Lawful) {item : Dec Obj} {n : Nat} {os : List Obj} {L : Lang} (h : Gets E N (decMany item n) os L) :
    Gets E N (decItems E item) os (seq (num n) L) := Gets.bind hu (gets_varint n) h

theorem gets_vec (hu : E.u.Lawful) {item : Dec Obj} {n : Nat} {os : List Obj} {L : Lang} (h : Gets E N (decMany item n) os L) :
    Gets E N (decVec E item) (.vec false os) (seq (num n) L) := (gets_items hu h).last rfl

theorem gets_decFacet (hu : E.u.Lawful) (f : Iri × Lit) : Gets E N (decFacet E) (facetObj f) (facetSays f) :=
  Gets.bind hu (gets_decIri hu f.1) ((gets_notNull (gets_decLit hu f.2)).last rfl)

/-! ## Annotations -/

theorem dr_length : ∀ ds : List DR, (DR.toObjs ds).length = ds.length := fun ds => by rw [← map_dr, List.length_map]

theorem gets_decAnnots (hu : E.u.Lawful) {item : Dec Obj} {ds : List Annot}
    (h : Gets E N (decMany item ds.length) (Annot.toObjs ds) (annotsSay ds)) :
    Gets E N (decAnnots E item true) (some (false, Annot.toObjs ds)) (seq (num ds.length) (annotsSay ds)) :=
  (gets_items hu h).last rfl

mutual
theorem gets_annot (hu : E.u.Lawful) : ∀ (a : Annot) (N n : Nat), N ≤ n → Gets E N (decAnnot E n) a.toObj (annotSays a)
  | _, 0, _, _ => .none
  | _, _ + 1, 0, h => absurd h (Nat.not_succ_le_zero _)
  | .mk p v as, N + 1, n + 1, h => by
    intro cs s t hn hs hd
    rw [annotSays] at hs
    rcases hs with ⟨rfl, d1, d2, rfl, ⟨k, rfl⟩, hv⟩ | hs
    · have h1 : Gets E N (annotIri E (k + 1)) p fun cs => cs = [.look k (.iri p)] := by
        unfold annotIri
        rw [if_neg (Nat.succ_ne_zero k)]
        exact gets_getIri k p
      have h2 : Gets E N (decAnnots E (decAnnot E n) (k + 1 = 0)) none fun cs => cs = [] := by
        rw [decide_eq_false (Nat.succ_ne_zero k)]
        exact .pure
      have h3 := Gets.num hu (f := fun k => annotIri E k >>= fun i => notNull (decAnnotVal E) >>= fun v =>
          decAnnots E (decAnnot E n) (k = 0) >>= fun as => pure (getImplAnnot .annotation [.prim (.ent .annotProp i), v] as))
        (Gets.bind hu h1 (Gets.bind hu (gets_notNull (gets_decAnnotVal hu v)) (h2.last rfl)))
      rw [Annot.toObj]
      exact h3 _ s t hn ⟨[.num (k + 1)], _, rfl, rfl, [.look k (.iri p)], _, rfl, rfl, d2, [], (List.append_nil _).symm, hv, rfl⟩ hd
    · have h1 : Gets E N (annotIri E 0) p (name 0 (.iri p)) := gets_decIri hu p
      have h2 := gets_decAnnots hu (gets_annots hu as N n (Nat.le_of_succ_le_succ h))
      have h3 := Gets.num hu (f := fun k => annotIri E k >>= fun i => notNull (decAnnotVal E) >>= fun v =>
          decAnnots E (decAnnot E n) (k = 0) >>= fun as => pure (getImplAnnot .annotation [.prim (.ent .annotProp i), v] as))
        (Gets.bind hu h1 (Gets.bind hu (gets_notNull (gets_decAnnotVal hu v)) (h2.last rfl)))
      refine (h3 _ s t hn hs hd).trans ?_
      rw [implAnnots, Annot.toObj]; rfl

theorem gets_annots (hu : E.u.Lawful) : ∀ (as : List Annot) (N n : Nat), N ≤ n →
    Gets E N (decMany (decAnnot E n) as.length) (Annot.toObjs as) (annotsSay as)
  | [], _, _, _ => by rw [Annot.toObjs, annotsSay]; exact .pure
  | a :: as, N, n, h => by
    rw [Annot.toObjs, annotsSay]
    exact Gets.bind hu (gets_annot hu a N n h) ((gets_annots hu as N n h).last rfl)
end

/-! ## Data ranges -/

mutual
theorem gets_dr (hu : E.u.Lawful) : ∀ (d : DR) (N n : Nat), N ≤ n → Gets E N (decDR E n) d.toObj (drSays d)
  | _, 0, _, _ => .none
  | _, _ + 1, 0, h => absurd h (Nat.not_succ_le_zero _)
  | .dt i, N + 1, n + 1, h => by
    rw [DR.toObj, drSays]
    refine .name hu fun k => ?_
    rw [if_pos (Nat.le_add_left 5 k), Nat.add_sub_cancel]
    exact gets_getEnt .datatype k i
  | .inter ds, N + 1, n + 1, h => by
    rw [DR.toObj, drSays]
    exact .num hu ((gets_vec hu (gets_drs hu ds N n (Nat.le_of_succ_le_succ h))).last rfl)
  | .union ds, N + 1, n + 1, h => by
    rw [DR.toObj, drSays]
    exact .num hu ((gets_vec hu (gets_drs hu ds N n (Nat.le_of_succ_le_succ h))).last rfl)
  | .compl d, N + 1, n + 1, h => by
    rw [DR.toObj, drSays]
    exact .num hu ((gets_dr hu d N n (Nat.le_of_succ_le_succ h)).last rfl)
  | .oneOf ls, N + 1, n + 1, h => by
    rw [DR.toObj, drSays]
    exact .num hu ((gets_vec hu (gets_decMany hu fun l _ => gets_notNull (gets_decLit hu l))).last rfl)
  | .restr i fs, N + 1, n + 1, h => by
    rw [DR.toObj, drSays]
    exact .num hu (Gets.bind hu (gets_decEnt hu .datatype i)
      ((gets_vec hu (gets_decMany hu fun f _ => gets_decFacet hu f)).last rfl))

theorem gets_drs (hu : E.u.Lawful) : ∀ (ds : List DR) (N n : Nat), N ≤ n →
    Gets E N (decMany (decDR E n) ds.length) (DR.toObjs ds) (drsSay ds)
  | [], _, _, _ => by rw [DR.toObjs, drsSay]; exact .pure
  | d :: ds, N, n, h => by
    rw [DR.toObjs, drsSay]
    exact Gets.bind hu (gets_dr hu d N n h) ((gets_drs hu ds N n h).last rfl)
end

/-! ## Class expressions -/

theorem Gets.ofOpt {α : Type} {x : Dec α} {f : α → Option Obj} {a : α} {b : Obj} {P : Lang} (h : Gets E N x a P)
    (e : f a = some b) : Gets E N (x >>= fun a => Prt.ofOpt (f a)) b P := by
  intro cs s t hn h1 hd
  simp only [bind_def, Dec.bind]
  rw [h _ _ _ hn h1 hd]
  dsimp only
  rw [e]
  rfl

theorem gets_decIf {x : Dec Obj} {o : Obj} {L : Lang} (h : Gets E N x o L) (b : Bool) (hb : b = true) :
    Gets E N (decIf b x) (some o) L := by
  subst hb
  exact h.last rfl

theorem gets_decIf_none {x : Dec Obj} (b : Bool) (hb : b = false) : Gets E N (decIf b x) none fun cs => cs = [] := by
  subst hb
  exact .pure

theorem gets_objQuant (hu : E.u.Lawful) {ce : Dec Obj} (p : Ope) (c : CE) (h : Gets E N ce c.toObj (ceSays c)) (qt : Nat) (o : Obj)
    (ho : objQuant qt p.toObj (some c.toObj) = some o) : Gets E N (decObjQuant E ce qt) o (seq (opeSays p) (ceSays c)) :=
  Gets.bind hu (gets_decOpe hu p) (h.ofOpt ho)

theorem gets_dataQuant (hu : E.u.Lawful) {dr : Dec Obj} (p : Iri) (c : DR) (h : Gets E N dr c.toObj (drSays c)) (qt : Nat) (o : Obj)
    (ho : dataQuant qt (ent .dataProp p) (some c.toObj) = some o) :
    Gets E N (decDataQuant E dr qt) o (seq (name 0 (.iri p)) (drSays c)) :=
  Gets.bind hu (gets_decEnt hu .dataProp p) (h.ofOpt ho)

theorem gets_objCard (hu : E.u.Lawful) {ce : Dec Obj} (u : UInt32) (p : Ope) (ct : Nat) (o : Obj)
    (ho : Cowl.objCard ct p.toObj none u.toNat = some o) :
    Gets E N (decObjCard E ce ct) o (seq (num (2 * u.toNat)) (opeSays p)) := by
  have h : Gets E N (decObjCard E ce ct) o (seq (num (2 * u.toNat)) (seq (opeSays p) fun cs => cs = [])) :=
    Gets.bind hu (gets_varint _) (Gets.bind hu (gets_decOpe hu p) (Gets.ofOpt
      (gets_decIf_none _ (by simp)) (by rw [Nat.mul_div_cancel_left _ (by decide)]; exact ho)))
  exact h.imp fun cs ⟨a, b, e, h1, h2⟩ => ⟨a, b, e, h1, b, [], (List.append_nil _).symm, h2, rfl⟩

theorem gets_objCardQ (hu : E.u.Lawful) {ce : Dec Obj} (u : UInt32) (p : Ope) (c : CE) (h : Gets E N ce c.toObj (ceSays c))
    (ct : Nat) (o : Obj) (ho : Cowl.objCard ct p.toObj (some c.toObj) u.toNat = some o) :
    Gets E N (decObjCard E ce ct) o (seq (num (2 * u.toNat + 1)) (seq (opeSays p) (ceSays c))) :=
  Gets.bind hu (gets_varint _) (Gets.bind hu (gets_decOpe hu p) (Gets.ofOpt
    (gets_decIf h _ (decide_eq_true (by omega))) (by rw [show (2 * u.toNat + 1) / 2 = u.toNat by omega]; exact ho)))

theorem gets_dataCard (hu : E.u.Lawful) {dr : Dec Obj} (u : UInt32) (p : Iri) (ct : Nat) (o : Obj)
    (ho : Prt.dataCard ct (ent .dataProp p) none u.toNat = some o) :
    Gets E N (decDataCard E dr ct) o (seq (num (2 * u.toNat)) (name 0 (.iri p))) := by
  have h : Gets E N (decDataCard E dr ct) o (seq (num (2 * u.toNat)) (seq (name 0 (.iri p)) fun cs => cs = [])) :=
    Gets.bind hu (gets_varint _) (Gets.bind hu (gets_decEnt hu .dataProp p) (Gets.ofOpt
      (gets_decIf_none _ (by simp)) (by rw [Nat.mul_div_cancel_left _ (by decide)]; exact ho)))
  exact h.imp fun cs ⟨a, b, e, h1, h2⟩ => ⟨a, b, e, h1, b, [], (List.append_nil _).symm, h2, rfl⟩

theorem gets_dataCardQ (hu : E.u.Lawful) {dr : Dec Obj} (u : UInt32) (p : Iri) (c : DR) (h : Gets E N dr c.toObj (drSays c))
    (ct : Nat) (o : Obj) (ho : Prt.dataCard ct (ent .dataProp p) (some c.toObj) u.toNat = some o) :
    Gets E N (decDataCard E dr ct) o (seq (num (2 * u.toNat + 1)) (seq (name 0 (.iri p)) (drSays c))) :=
  Gets.bind hu (gets_varint _) (Gets.bind hu (gets_decEnt hu .dataProp p) (Gets.ofOpt
    (gets_decIf h _ (decide_eq_true (by omega))) (by rw [show (2 * u.toNat + 1) / 2 = u.toNat by omega]; exact ho)))

mutual
theorem gets_ce (hu : E.u.Lawful) : ∀ (d : CE) (N n : Nat), N ≤ n → Gets E N (decCE E n) d.toObj (ceSays d)
  | _, 0, _, _ => .none
  | _, _ + 1, 0, h => absurd h (Nat.not_succ_le_zero _)
  | .cls i, N + 1, n + 1, h => by
    rw [CE.toObj, ceSays]
    refine .name hu fun k => ?_
    rw [if_pos (Nat.le_add_left 17 k), Nat.add_sub_cancel]
    exact gets_getEnt .cls k i
  | .inter ds, N + 1, n + 1, h => by
    rw [CE.toObj, ceSays]
    exact .num hu ((gets_vec hu (gets_ces hu ds N n (Nat.le_of_succ_le_succ h))).last rfl)
  | .union ds, N + 1, n + 1, h => by
    rw [CE.toObj, ceSays]
    exact .num hu ((gets_vec hu (gets_ces hu ds N n (Nat.le_of_succ_le_succ h))).last rfl)
  | .compl d, N + 1, n + 1, h => by
    rw [CE.toObj, ceSays]
    exact .num hu ((gets_ce hu d N n (Nat.le_of_succ_le_succ h)).last rfl)
  | .oneOf is, N + 1, n + 1, h => by
    rw [CE.toObj, ceSays]
    exact .num hu ((gets_vec hu (gets_decMany hu fun i _ => gets_decInd hu i)).last rfl)
  | .objSome p c, N + 1, n + 1, h => by
    rw [CE.toObj, ceSays]
    exact .num hu (gets_objQuant hu p c (gets_ce hu c N n (Nat.le_of_succ_le_succ h)) 0 _ (by rw [← quant_obj]; rfl))
  | .objAll p c, N + 1, n + 1, h => by
    rw [CE.toObj, ceSays]
    exact .num hu (gets_objQuant hu p c (gets_ce hu c N n (Nat.le_of_succ_le_succ h)) 1 _ (by rw [← quant_obj]; rfl))
  | .objHasValue p i, N + 1, n + 1, h => by
    rw [CE.toObj, ceSays]
    exact .num hu (Gets.bind hu (gets_decOpe hu p) ((gets_decInd hu i).last rfl))
  | .objHasSelf p, N + 1, n + 1, h => by
    rw [CE.toObj, ceSays]
    exact .num hu ((gets_decOpe hu p).last rfl)
  | .objCard .min u p, N + 1, n + 1, h => by
    rw [CE.toObj, ceSays]
    exact .num hu (gets_objCard hu u p 0 _ rfl)
  | .objCardQ .min u p c, N + 1, n + 1, h => by
    rw [CE.toObj, ceSays]
    exact .num hu (gets_objCardQ hu u p c (gets_ce hu c N n (Nat.le_of_succ_le_succ h)) 0 _ rfl)
  | .objCard .max u p, N + 1, n + 1, h => by
    rw [CE.toObj, ceSays]
    exact .num hu (gets_objCard hu u p 1 _ rfl)
  | .objCardQ .max u p c, N + 1, n + 1, h => by
    rw [CE.toObj, ceSays]
    exact .num hu (gets_objCardQ hu u p c (gets_ce hu c N n (Nat.le_of_succ_le_succ h)) 1 _ rfl)
  | .objCard .exact u p, N + 1, n + 1, h => by
    rw [CE.toObj, ceSays]
    exact .num hu (gets_objCard hu u p 2 _ rfl)
  | .objCardQ .exact u p c, N + 1, n + 1, h => by
    rw [CE.toObj, ceSays]
    exact .num hu (gets_objCardQ hu u p c (gets_ce hu c N n (Nat.le_of_succ_le_succ h)) 2 _ rfl)
  | .dataSome p c, N + 1, n + 1, h => by
    rw [CE.toObj, ceSays]
    exact .num hu (gets_dataQuant hu p c (gets_dr hu c N (n + 1) (Nat.le_succ_of_le (Nat.le_of_succ_le_succ h))) 0 _ (by rw [← quant_data]; rfl))
  | .dataAll p c, N + 1, n + 1, h => by
    rw [CE.toObj, ceSays]
    exact .num hu (gets_dataQuant hu p c (gets_dr hu c N (n + 1) (Nat.le_succ_of_le (Nat.le_of_succ_le_succ h))) 1 _ (by rw [← quant_data]; rfl))
  | .dataHasValue p l, N + 1, n + 1, h => by
    rw [CE.toObj, ceSays]
    refine .num hu (Gets.bind hu (gets_decEnt hu .dataProp p) fun cs s t hn h1 hd => ?_)
    simp only [bind_def, Dec.bind]
    rw [gets_decLit hu l cs s t hn h1 hd]
    rfl
  | .dataCard .min u p, N + 1, n + 1, h => by
    rw [CE.toObj, ceSays]
    exact .num hu (gets_dataCard hu u p 0 _ rfl)
  | .dataCardQ .min u p c, N + 1, n + 1, h => by
    rw [CE.toObj, ceSays]
    exact .num hu (gets_dataCardQ hu u p c (gets_dr hu c N (n + 1) (Nat.le_succ_of_le (Nat.le_of_succ_le_succ h))) 0 _ rfl)
  | .dataCard .max u p, N + 1, n + 1, h => by
    rw [CE.toObj, ceSays]
    exact .num hu (gets_dataCard hu u p 1 _ rfl)
  | .dataCardQ .max u p c, N + 1, n + 1, h => by
    rw [CE.toObj, ceSays]
    exact .num hu (gets_dataCardQ hu u p c (gets_dr hu c N (n + 1) (Nat.le_succ_of_le (Nat.le_of_succ_le_succ h))) 1 _ rfl)
  | .dataCard .exact u p, N + 1, n + 1, h => by
    rw [CE.toObj, ceSays]
    exact .num hu (gets_dataCard hu u p 2 _ rfl)
  | .dataCardQ .exact u p c, N + 1, n + 1, h => by
    rw [CE.toObj, ceSays]
    exact .num hu (gets_dataCardQ hu u p c (gets_dr hu c N (n + 1) (Nat.le_succ_of_le (Nat.le_of_succ_le_succ h))) 2 _ rfl)

theorem gets_ces (hu : E.u.Lawful) : ∀ (ds : List CE) (N n : Nat), N ≤ n →
    Gets E N (decMany (decCE E n) ds.length) (CE.toObjs ds) (cesSay ds)
  | [], _, _, _ => by rw [CE.toObjs, cesSay]; exact .pure
  | d :: ds, N, n, h => by
    rw [CE.toObjs, cesSay]
    exact Gets.bind hu (gets_ce hu d N n h) ((gets_ces hu ds N n h).last rfl)
end

/-! ## Axioms -/

theorem gets_vecCE (hu : E.u.Lawful) (xs : List CE) {n : Nat} (hN : N ≤ n) :
    Gets E N (decVec E (decCE E n)) (.vec false (CE.toObjs xs)) (counted ceSays xs) := by
  unfold counted
  rw [many_ce]
  exact gets_vec hu (gets_ces hu xs N n hN)

theorem gets_whole {x : Dec Obj} {o : Obj} {L : Lang} (h : Gets E N x o L) : Gets E N (whole x) (some o) L := h.last rfl

theorem gets_fields_one {n : Nat} {k : FK} {o : Obj} {L : Lang} (h : Gets E N (decField E n k) (some o) L) :
    Gets E N (decFields E n [k]) [some o] L := by
  intro cs s t hn h1 hd
  simp only [decFields, bind_def, Dec.bind]
  rw [h cs s t hn h1 hd]
  rfl

theorem gets_fields_cons (hu : E.u.Lawful) {n : Nat} {k : FK} {ks : List FK} {o : Obj} {os : List (Option Obj)} {L L' : Lang}
    (h : Gets E N (decField E n k) (some o) L) (h' : Gets E N (decFields E n ks) os L') :
    Gets E N (decFields E n (k :: ks)) (some o :: os) (seq L L') := Gets.bind hu h (h'.last rfl)

theorem whole_map : ∀ fs : List Obj, (fs.map some).mapM id = some fs
  | [] => rfl
  | f :: fs => by rw [List.map_cons, List.mapM_cons, whole_map fs]; rfl

theorem gets_allWhole (fs : List Obj) : Gets E N (allWhole E (fs.map some)) fs fun cs => cs = [] := by
  unfold allWhole
  rw [whole_map]
  exact .pure

theorem gets_annBit (hu : E.u.Lawful) (n : Nat) (hN : N ≤ n) (bit : Bool) (as : List Annot) (h : bit = false → as = []) :
    ∃ o, Gets E N (decAnnots E (decAnnot E n) bit) o (if bit = true then seq (num as.length) (annotsSay as) else fun cs => cs = []) ∧
      ∀ t fs, getImplAnnot t fs o = annotated t fs (Annot.toObjs as) := by
  cases bit with
  | true => exact ⟨_, gets_decAnnots hu (gets_annots hu as N n hN), fun t fs => implAnnots as⟩
  | false => exact ⟨_, .pure, fun t fs => by rw [h rfl]; rfl⟩

theorem parts_split {bit : Bool} {a : Ax} {as : List Annot} {cs : List Act} (h : partsSay bit a as cs) :
    (bit = false → as = []) ∧ seq (bodySays a) (if bit = true then seq (num as.length) (annotsSay as) else fun cs => cs = []) cs := by
  cases bit with
  | true => exact ⟨nofun, h⟩
  | false => exact ⟨fun _ => h.1, cs, [], (List.append_nil _).symm, h.2, rfl⟩

theorem gets_plain (hu : E.u.Lawful) (n : Nat) (hN : N ≤ n) (bit : Bool) (a : Ax) (as : List Annot) {ks : List FK}
    (hf : Gets E N (decFields E n ks) (a.fields.map some) (bodySays a)) :
    Gets E N (decPlain E n a.type ks bit) (Axiom.mk a as).toObj (partsSay bit a as) := by
  intro cs s t hn h hd
  obtain ⟨h1, h2⟩ := parts_split h
  obtain ⟨o, h3, h4⟩ := gets_annBit hu n hN bit as h1
  have h5 : Gets E N (decPlain E n a.type ks bit) (getImplAnnot a.type a.fields o)
      (seq (bodySays a) (seq (if bit = true then seq (num as.length) (annotsSay as) else fun cs => cs = []) fun cs => cs = [])) :=
    Gets.bind hu hf (Gets.bind hu h3 ((gets_allWhole a.fields).last rfl))
  obtain ⟨c1, c2, e, h6, h7⟩ := h2
  rw [h5 cs s t hn ⟨c1, c2, e, h6, c2, [], (List.append_nil _).symm, h7, rfl⟩ hd, h4]
  rfl

theorem gets_decl (hu : E.u.Lawful) (n : Nat) (hN : N ≤ n) (bit : Bool) (k : EntKind) (i : Iri) (as : List Annot) :
    Gets E N (do
      let e ← decEnt E k
      let as ← decAnnots E (decAnnot E n) bit
      pure (getImplAnnot .aDecl [e] as)) (Axiom.mk (.decl k i) as).toObj (partsSay bit (.decl k i) as) := by
  intro cs s t hn h hd
  obtain ⟨h1, h2⟩ := parts_split h
  obtain ⟨o, h3, h4⟩ := gets_annBit hu n hN bit as h1
  have h5 : Gets E N (do
      let e ← decEnt E k
      let as ← decAnnots E (decAnnot E n) bit
      pure (getImplAnnot .aDecl [e] as)) (getImplAnnot .aDecl [ent k i] o)
      (seq (name 0 (.iri i)) (if bit = true then seq (num as.length) (annotsSay as) else fun cs => cs = [])) :=
    Gets.bind hu (gets_decEnt hu k i) (h3.last rfl)
  rw [h5 cs s t hn h2 hd, h4]
  rfl

theorem gets_subSup (hu : E.u.Lawful) (x : SubOpe) (q : Ope) :
    Gets E N (decSubSup E (isChain (.subObjProp x q))) (x.toObj, q.toObj) (bodySays (.subObjProp x q)) := by
  cases x with
  | ope p => exact Gets.bind hu (gets_decOpe hu p) ((gets_decOpe hu q).last rfl)
  | chain ps => exact Gets.bind hu ((gets_items hu (gets_decMany hu fun p _ => gets_decOpe hu p)).last rfl) ((gets_decOpe hu q).last rfl)

theorem gets_sub (hu : E.u.Lawful) (n : Nat) (hN : N ≤ n) (bit : Bool) (x : SubOpe) (q : Ope) (as : List Annot) :
    Gets E N (decSubObjProp E n (isChain (.subObjProp x q)) bit) ((Axiom.mk (.subObjProp x q) as).toObj, true)
      (partsSay bit (.subObjProp x q) as) := by
  intro cs s t hn h hd
  obtain ⟨h1, c1, c2, e, h5, h6⟩ := parts_split h
  obtain ⟨o, h3, h4⟩ := gets_annBit hu n hN bit as h1
  subst e
  obtain ⟨m, h7, h8⟩ := does_split hd
  unfold decSubObjProp
  rw [gets_subSup hu x q c1 s m hn h5 h7]
  dsimp only
  rw [h3 c2 (put s m) t (Nat.lt_of_le_of_lt (does_le hu h7) hn) h6 h8]
  dsimp only
  rw [h4]
  rfl

theorem decAxiom_plain {n : Nat} {c : UInt8} {t : OType} {ks : List FK} (hc : 15 ≤ c.toNat % 64)
    (ht : axTypes[c.toNat % 64 - 9 - 6 + 1]? = some t) (hk : axFields t = some ks) :
    decAxiom E n c = noLate (decPlain E n t ks (c.toNat / 64 % 2 = 1)) := by
  unfold decAxiom
  dsimp only
  rw [show entTypes[c.toNat % 64 - 9]? = none from List.getElem?_eq_none (by show 6 ≤ _; omega), ht]
  dsimp only
  split
  · rename_i e; cases e; cases hk
  · rename_i e; cases e; rw [hk]
  · rename_i e; cases e

theorem decAxiom_decl {n : Nat} {c : UInt8} {k : EntKind} (h : entTypes[c.toNat % 64 - 9]? = some k) :
    decAxiom E n c = noLate (do
      let e ← decEnt E k
      let as ← decAnnots E (decAnnot E n) (c.toNat / 64 % 2 = 1)
      pure (getImplAnnot .aDecl [e] as)) := by
  unfold decAxiom
  dsimp only
  rw [h]

theorem decAxiom_sub {n : Nat} {c : UInt8} (h : c.toNat % 64 = 19) :
    decAxiom E n c = decSubObjProp E n (c.toNat / 128 = 1) (c.toNat / 64 % 2 = 1) := by
  unfold decAxiom
  dsimp only
  rw [h]
  rfl

theorem gets_axiom (hu : E.u.Lawful) (a : Axiom) (c : UInt8) (n : Nat) (hN : N ≤ n) :
    Gets E N (decAxiom E n c) (a.toObj, true) (axSays a c) := by
  intro cs s t hn ⟨h1, h2, h3⟩ hd
  obtain ⟨x, as⟩ := a
  have h3 : partsSay (decide (c.toNat / 64 % 2 = 1)) x as cs := by simpa [partsSay] using h3
  have key : ∀ {ty : OType} {ks : List FK}, axFields ty = some ks → axTypes[c.toNat % 64 - 9 - 6 + 1]? = some ty →
      15 ≤ c.toNat % 64 → x.type = ty → Gets E N (decFields E n ks) (x.fields.map some) (bodySays x) →
      decAxiom E n c s = .ok ((Axiom.mk x as).toObj, true) (put s t) := by
    intro ty ks h4 h5 h6 h7 h8
    subst h7
    rw [decAxiom_plain h6 h5 h4]
    exact (gets_plain hu n hN _ x as h8).last rfl cs s t hn h3 hd
  cases x with
  | decl k i =>
    have h4 : entTypes[c.toNat % 64 - 9]? = some k := by
      cases k <;> simp only [head] at h1 <;> rw [h1] <;> rfl
    rw [decAxiom_decl h4]
    exact (gets_decl hu n hN _ k i as).last rfl cs s t hn h3 hd
  | subObjProp p q =>
    rw [head_sub] at h1
    have h4 : decide (c.toNat / 128 = 1) = isChain (.subObjProp p q) := by
      have := h2 rfl
      by_cases hb : c.toNat / 128 = 1
      · rw [this.1 hb]; exact decide_eq_true hb
      · rw [decide_eq_false hb]
        cases hq : isChain (.subObjProp p q) with
        | false => rfl
        | true => exact absurd (this.2 hq) hb
    rw [decAxiom_sub h1, h4]
    exact gets_sub hu n hN _ p q as cs s t hn h3 hd
  | subClass x1 x2 =>
    simp only [head] at h1
    exact key (ty := .aSubClass) rfl (by rw [h1]; rfl) (by omega) rfl (gets_fields_cons hu (gets_whole (gets_ce hu x1 N n hN)) (gets_fields_one (gets_whole (gets_ce hu x2 N n hN))))
  | equivClasses x1 =>
    simp only [head] at h1
    exact key (ty := .aEquivClasses) rfl (by rw [h1]; rfl) (by omega) rfl (gets_fields_one (gets_whole (gets_vecCE hu x1 hN)))
  | disjClasses x1 =>
    simp only [head] at h1
    exact key (ty := .aDisjClasses) rfl (by rw [h1]; rfl) (by omega) rfl (gets_fields_one (gets_whole (gets_vecCE hu x1 hN)))
  | disjUnion x1 x2 =>
    simp only [head] at h1
    exact key (ty := .aDisjUnion) rfl (by rw [h1]; rfl) (by omega) rfl (gets_fields_cons hu (gets_whole (gets_decEnt hu .cls x1)) (gets_fields_one (gets_whole (gets_vecCE hu x2 hN))))
  | equivObjProp x1 =>
    simp only [head] at h1
    exact key (ty := .aEquivObjProp) rfl (by rw [h1]; rfl) (by omega) rfl (gets_fields_one (gets_whole (gets_vec hu (gets_decMany hu fun i _ => gets_decOpe hu i))))
  | disjObjProp x1 =>
    simp only [head] at h1
    exact key (ty := .aDisjObjProp) rfl (by rw [h1]; rfl) (by omega) rfl (gets_fields_one (gets_whole (gets_vec hu (gets_decMany hu fun i _ => gets_decOpe hu i))))
  | invObjProp x1 x2 =>
    simp only [head] at h1
    exact key (ty := .aInvObjProp) rfl (by rw [h1]; rfl) (by omega) rfl (gets_fields_cons hu (gets_whole (gets_decOpe hu x1)) (gets_fields_one (gets_whole (gets_decOpe hu x2))))
  | objPropDomain x1 x2 =>
    simp only [head] at h1
    exact key (ty := .aObjPropDomain) rfl (by rw [h1]; rfl) (by omega) rfl (gets_fields_cons hu (gets_whole (gets_decOpe hu x1)) (gets_fields_one (gets_whole (gets_ce hu x2 N n hN))))
  | objPropRange x1 x2 =>
    simp only [head] at h1
    exact key (ty := .aObjPropRange) rfl (by rw [h1]; rfl) (by omega) rfl (gets_fields_cons hu (gets_whole (gets_decOpe hu x1)) (gets_fields_one (gets_whole (gets_ce hu x2 N n hN))))
  | objPropChar k x1 =>
    cases k <;> simp only [head] at h1
    case func => exact key (ty := .aFuncObjProp) rfl (by rw [h1]; rfl) (by omega) rfl (gets_fields_one (gets_whole (gets_decOpe hu x1)))
    case invFunc => exact key (ty := .aInvFuncObjProp) rfl (by rw [h1]; rfl) (by omega) rfl (gets_fields_one (gets_whole (gets_decOpe hu x1)))
    case refl => exact key (ty := .aReflObjProp) rfl (by rw [h1]; rfl) (by omega) rfl (gets_fields_one (gets_whole (gets_decOpe hu x1)))
    case irrefl => exact key (ty := .aIrreflObjProp) rfl (by rw [h1]; rfl) (by omega) rfl (gets_fields_one (gets_whole (gets_decOpe hu x1)))
    case symm => exact key (ty := .aSymmObjProp) rfl (by rw [h1]; rfl) (by omega) rfl (gets_fields_one (gets_whole (gets_decOpe hu x1)))
    case asymm => exact key (ty := .aAsymmObjProp) rfl (by rw [h1]; rfl) (by omega) rfl (gets_fields_one (gets_whole (gets_decOpe hu x1)))
    case trans => exact key (ty := .aTransObjProp) rfl (by rw [h1]; rfl) (by omega) rfl (gets_fields_one (gets_whole (gets_decOpe hu x1)))
  | subDataProp x1 x2 =>
    simp only [head] at h1
    exact key (ty := .aSubDataProp) rfl (by rw [h1]; rfl) (by omega) rfl (gets_fields_cons hu (gets_whole (gets_decEnt hu .dataProp x1)) (gets_fields_one (gets_whole (gets_decEnt hu .dataProp x2))))
  | equivDataProp x1 =>
    simp only [head] at h1
    exact key (ty := .aEquivDataProp) rfl (by rw [h1]; rfl) (by omega) rfl (gets_fields_one (gets_whole (gets_vec hu (gets_decMany hu fun i _ => gets_decEnt hu .dataProp i))))
  | disjDataProp x1 =>
    simp only [head] at h1
    exact key (ty := .aDisjDataProp) rfl (by rw [h1]; rfl) (by omega) rfl (gets_fields_one (gets_whole (gets_vec hu (gets_decMany hu fun i _ => gets_decEnt hu .dataProp i))))
  | dataPropDomain x1 x2 =>
    simp only [head] at h1
    exact key (ty := .aDataPropDomain) rfl (by rw [h1]; rfl) (by omega) rfl (gets_fields_cons hu (gets_whole (gets_decEnt hu .dataProp x1)) (gets_fields_one (gets_whole (gets_ce hu x2 N n hN))))
  | dataPropRange x1 x2 =>
    simp only [head] at h1
    exact key (ty := .aDataPropRange) rfl (by rw [h1]; rfl) (by omega) rfl (gets_fields_cons hu (gets_whole (gets_decEnt hu .dataProp x1)) (gets_fields_one (gets_whole (gets_dr hu x2 N n hN))))
  | funcDataProp x1 =>
    simp only [head] at h1
    exact key (ty := .aFuncDataProp) rfl (by rw [h1]; rfl) (by omega) rfl (gets_fields_one (gets_whole (gets_decEnt hu .dataProp x1)))
  | datatypeDef x1 x2 =>
    simp only [head] at h1
    exact key (ty := .aDatatypeDef) rfl (by rw [h1]; rfl) (by omega) rfl (gets_fields_cons hu (gets_whole (gets_decEnt hu .datatype x1)) (gets_fields_one (gets_whole (gets_dr hu x2 N n hN))))
  | hasKey x1 x2 x3 =>
    simp only [head] at h1
    exact key (ty := .aHasKey) rfl (by rw [h1]; rfl) (by omega) rfl (gets_fields_cons hu (gets_whole (gets_ce hu x1 N n hN)) (gets_fields_cons hu (gets_whole (gets_vec hu (gets_decMany hu fun i _ => gets_decOpe hu i))) (gets_fields_one (gets_whole (gets_vec hu (gets_decMany hu fun i _ => gets_decEnt hu .dataProp i))))))
  | sameInd x1 =>
    simp only [head] at h1
    exact key (ty := .aSameInd) rfl (by rw [h1]; rfl) (by omega) rfl (gets_fields_one (gets_whole (gets_vec hu (gets_decMany hu fun i _ => gets_decInd hu i))))
  | diffInd x1 =>
    simp only [head] at h1
    exact key (ty := .aDiffInd) rfl (by rw [h1]; rfl) (by omega) rfl (gets_fields_one (gets_whole (gets_vec hu (gets_decMany hu fun i _ => gets_decInd hu i))))
  | classAssert x1 x2 =>
    simp only [head] at h1
    exact key (ty := .aClassAssert) rfl (by rw [h1]; rfl) (by omega) rfl (gets_fields_cons hu (gets_whole (gets_ce hu x1 N n hN)) (gets_fields_one (gets_whole (gets_decInd hu x2))))
  | objPropAssert x1 x2 x3 =>
    simp only [head] at h1
    exact key (ty := .aObjPropAssert) rfl (by rw [h1]; rfl) (by omega) rfl (gets_fields_cons hu (gets_whole (gets_decOpe hu x1)) (gets_fields_cons hu (gets_whole (gets_decInd hu x2)) (gets_fields_one (gets_whole (gets_decInd hu x3)))))
  | negObjPropAssert x1 x2 x3 =>
    simp only [head] at h1
    exact key (ty := .aNegObjPropAssert) rfl (by rw [h1]; rfl) (by omega) rfl (gets_fields_cons hu (gets_whole (gets_decOpe hu x1)) (gets_fields_cons hu (gets_whole (gets_decInd hu x2)) (gets_fields_one (gets_whole (gets_decInd hu x3)))))
  | dataPropAssert x1 x2 x3 =>
    simp only [head] at h1
    exact key (ty := .aDataPropAssert) rfl (by rw [h1]; rfl) (by omega) rfl (gets_fields_cons hu (gets_whole (gets_decEnt hu .dataProp x1)) (gets_fields_cons hu (gets_whole (gets_decInd hu x2)) (gets_fields_one (gets_decLit hu x3))))
  | negDataPropAssert x1 x2 x3 =>
    simp only [head] at h1
    exact key (ty := .aNegDataPropAssert) rfl (by rw [h1]; rfl) (by omega) rfl (gets_fields_cons hu (gets_whole (gets_decEnt hu .dataProp x1)) (gets_fields_cons hu (gets_whole (gets_decInd hu x2)) (gets_fields_one (gets_decLit hu x3))))
  | annotAssert x1 x2 x3 =>
    simp only [head] at h1
    exact key (ty := .aAnnotAssert) rfl (by rw [h1]; rfl) (by omega) rfl (gets_fields_cons hu (gets_whole (gets_decEnt hu .annotProp x1)) (gets_fields_cons hu (gets_whole (gets_decIriOrAnon hu x2)) (gets_fields_one (gets_decAnnotVal hu x3))))
  | subAnnotProp x1 x2 =>
    simp only [head] at h1
    exact key (ty := .aSubAnnotProp) rfl (by rw [h1]; rfl) (by omega) rfl (gets_fields_cons hu (gets_whole (gets_decEnt hu .annotProp x1)) (gets_fields_one (gets_whole (gets_decEnt hu .annotProp x2))))
  | annotPropDomain x1 x2 =>
    simp only [head] at h1
    exact key (ty := .aAnnotPropDomain) rfl (by rw [h1]; rfl) (by omega) rfl (gets_fields_cons hu (gets_whole (gets_decEnt hu .annotProp x1)) (gets_fields_one ((gets_decIri hu x2).last rfl)))
  | annotPropRange x1 x2 =>
    simp only [head] at h1
    exact key (ty := .aAnnotPropRange) rfl (by rw [h1]; rfl) (by omega) rfl (gets_fields_cons hu (gets_whole (gets_decEnt hu .annotProp x1)) (gets_fields_one ((gets_decIri hu x2).last rfl)))

/-! ## Documents -/

/-- The state of the decoder in a situation. -/
def decOf (t : Sit) : DSt := ⟨t.src.inp, ⟨t.nss, t.src.ids⟩, t.src.fresh⟩

theorem decOf_sit (s : FSt Log) : decOf (sit s) = s.dec := rfl

/-- The state after some entries. -/
def after (s : FSt Log) (es : List Entry) (t : Sit) : FSt Log :=
  ⟨s.ctx ++ es.map fun e => (s.remove, e.item), decOf t, t.remove, .ok⟩

theorem sit_after (s : FSt Log) (es : List Entry) (t : Sit) : sit (after s es t) = t := rfl

/-- Parts are read, and what they say is noted. -/
def Goes (f : FSt Log → FRes Log) (P : Part) : Prop :=
  ∀ s es t, s.code = .ok → P (sit s) es t → t.remove = s.remove ∧ t.src.inp.length ≤ s.dec.inp.length ∧ f s = .go (after s es t)

theorem Gets.acts (hu : E.u.Lawful) {α : Type} {x : Dec α} {a : α} {L : Lang} (h : ∀ N, Gets E N x a L) {s m : Sit}
    (ha : Acts E.u.readVarint E.u.readSvarint E.gen L s m) :
    x (decOf s) = .ok a (decOf m) ∧ m.remove = s.remove ∧ m.nss = s.nss ∧ m.src.inp.length ≤ s.src.inp.length := by
  obtain ⟨h1, h2, cs, h3, h4⟩ := ha
  refine ⟨?_, h2, h1, does_le hu h4⟩
  rw [h (s.src.inp.length + 1) cs (decOf s) m.src (Nat.lt_succ_self _) h3 h4]
  obtain ⟨m1, m2, m3⟩ := m
  dsimp only at h1
  subst h1
  rfl

/-- Something is read and noted. -/
theorem Goes.note (hu : E.u.Lawful) {α : Type} {x : Dec α} {i : α → Func.Item} {P : Part}
    (hP : ∀ s es t, P s es t → ∃ a e L, (∀ N, Gets E N x a L) ∧ Acts E.u.readVarint E.u.readSvarint E.gen L s t ∧ es = [e] ∧
      i a = e.item) : Goes (fun s => s.get x fun a s => deliver noteAll (i a) s) P := by
  intro s es t hc h
  obtain ⟨a, e, L, h1, h2, rfl, h3⟩ := hP _ _ _ h
  obtain ⟨h4, h5, h6, h7⟩ := Gets.acts hu h1 h2
  refine ⟨h5, h7, ?_⟩
  have h4 : x s.dec = .ok a (decOf t) := h4
  have h5 : t.remove = s.remove := h5
  unfold FSt.get
  dsimp only
  rw [h4]
  dsimp only
  rw [deliver_note, h3, after, h5]
  rfl

theorem Goes.times {f : FSt Log → FRes Log} {P : Part} (h : Goes f P) : ∀ n, Goes (Prt.times f n) (Times P n)
  | 0 => fun s es t hc h => by
    obtain ⟨rfl, rfl⟩ := h
    refine ⟨rfl, Nat.le_refl _, ?_⟩
    rw [Prt.times, after]
    obtain ⟨c, d, r, cd⟩ := s
    dsimp only at hc
    subst hc
    simp only [List.map_nil, List.append_nil]
    rfl
  | n + 1 => fun s es t hc h0 => by
    obtain ⟨m, es1, es2, rfl, h1, h2⟩ := h0
    obtain ⟨h3, h4, h5⟩ := h s es1 m hc h1
    obtain ⟨h6, h7, h8⟩ := Goes.times h n (after s es1 m) es2 t rfl h2
    refine ⟨h6.trans h3, Nat.le_trans h7 h4, ?_⟩
    rw [Prt.times, h5]
    show Prt.times f n _ = _
    rw [h8]
    unfold after
    dsimp only
    rw [h3, List.map_append, List.append_assoc]

theorem Goes.counted (hu : E.u.Lawful) {f : FSt Log → FRes Log} {P : Part} (h : Goes f P) :
    Goes (Prt.counted E f) (Listed E.u.readVarint E.u.readSvarint E.gen P) := by
  intro s es t hc ⟨n, m, h1, h2⟩
  obtain ⟨h3, h4, h5, h6⟩ := Gets.acts hu (fun _ => gets_varint n) h1
  obtain ⟨h7, h8, h9⟩ := Goes.times h n { s with dec := decOf m } es t hc (by
    have : sit { s with dec := decOf m } = m := by
      obtain ⟨m1, m2, m3⟩ := m
      dsimp only at h4
      subst h4; rfl
    rw [this]; exact h2)
  refine ⟨h7, Nat.le_trans h8 h6, ?_⟩
  unfold Prt.counted FSt.get
  have h3 : varint E s.dec = .ok n (decOf m) := h3
  rw [h3]
  exact h9

/-- Something is read without an entry. -/
theorem goes_read {α : Type} {x : Dec α} {P : Part} {k : α → FSt Log → FRes Log}
    (hx : ∀ s es t, P s es t → t.remove = s.remove ∧ t.src.inp.length ≤ s.src.inp.length ∧ ∃ a, x (decOf s) = .ok a (decOf t) ∧
      ∀ f : FSt Log, f.code = .ok → k a f = .go { f with ctx := f.ctx ++ es.map fun e => (f.remove, e.item), code := .ok }) :
    Goes (fun s => s.get x k) P := by
  intro s es t hc h
  obtain ⟨h1, h2, a, h3, h4⟩ := hx _ _ _ h
  refine ⟨h1, h2, ?_⟩
  have h3 : x s.dec = .ok a (decOf t) := h3
  unfold FSt.get
  dsimp only
  rw [h3]
  dsimp only
  rw [h4 { s with dec := decOf t } hc, after, h1]
  rfl

theorem acts_split (hu : E.u.Lawful) {P Q : Lang} {s t : Sit} (h : Acts E.u.readVarint E.u.readSvarint E.gen (seq P Q) s t) :
    ∃ m, Acts E.u.readVarint E.u.readSvarint E.gen P s m ∧ Acts E.u.readVarint E.u.readSvarint E.gen Q m t := by
  obtain ⟨h1, h2, _, ⟨a, b, rfl, h3, h4⟩, h5⟩ := h
  obtain ⟨m, h6, h7⟩ := does_split h5
  exact ⟨⟨m, s.nss, s.remove⟩, ⟨rfl, rfl, a, h3, h6⟩, h1, h2, b, h4, h7⟩

theorem goes_prefix (hu : E.u.Lawful) :
    Goes (prefixDecl E noteAll) (pfxDecl E.u.readVarint E.u.readSvarint E.gen) := by
  refine goes_read fun s es t ⟨p, n, m, h1, h2, h3⟩ => ?_
  subst h1; subst h3
  obtain ⟨m1, h4, h5⟩ := acts_split hu h2
  obtain ⟨h6, h7, _, h8⟩ := Gets.acts hu (fun _ => gets_decStr hu p) h4
  obtain ⟨h9, h10, _, h11⟩ := Gets.acts hu (fun _ => gets_decStr hu n) h5
  refine ⟨h10.trans h7, Nat.le_trans h11 h8, (p, n), ?_, fun f hf => deliver_note _ _⟩
  unfold decPfx
  simp only [bind_def, Dec.bind]
  rw [h6]
  dsimp only
  rw [h9]
  rfl

theorem goes_ns (hu : E.u.Lawful) : Goes (Prt.nsDecl E) (nsDecl E.u.readVarint E.u.readSvarint E.gen) := by
  refine goes_read fun s es t ⟨n, m, h1, h2, h3⟩ => ?_
  subst h1; subst h3
  obtain ⟨h6, h7, _, h8⟩ := Gets.acts hu (fun _ => gets_decStr hu n) h2
  refine ⟨h7, h8, (), ?_, fun f hf => by simp⟩
  unfold decNs
  simp only [bind_def, Dec.bind]
  rw [h6]
  rfl

theorem goes_iri (hu : E.u.Lawful) :
    Goes (quiet (decIriDecl E)) (iriDecl E.u.readVarint E.u.readSvarint E.gen mkIri) := by
  refine goes_read fun s es t ⟨k, n, r, m, h1, h2, h3, h4⟩ => ?_
  subst h1; subst h4
  obtain ⟨m1, h4, h5⟩ := acts_split hu h2
  obtain ⟨h6, h7, _, h8⟩ := Gets.acts hu (fun _ => gets_varint k) h4
  obtain ⟨h9, h10, _, h11⟩ := Gets.acts hu (fun _ => gets_decStr hu r) h5
  refine ⟨h10.trans h7, Nat.le_trans h11 h8, (), ?_, fun f hf => by
    obtain ⟨c, d, r, cd⟩ := f
    dsimp only at hf
    subst hf
    simp⟩
  unfold decIriDecl
  simp only [bind_def, Dec.bind]
  rw [h6]
  dsimp only
  rw [h9]
  dsimp only
  unfold getNs
  rw [show (decOf m).ix.nss[k]? = some n from h3]
  rfl

theorem goes_anon (hu : E.u.Lawful) :
    Goes (quiet (decAnonDecl E)) (anonDecl E.u.readVarint E.u.readSvarint E.gen) := by
  refine goes_read fun s es t ⟨n, m, h1, h2, h3⟩ => ?_
  subst h1; subst h3
  obtain ⟨h6, h7, _, h8⟩ := Gets.acts hu (fun _ => gets_decStr hu n) h2
  refine ⟨h7, h8, (), ?_, fun f hf => by
    obtain ⟨c, d, r, cd⟩ := f
    dsimp only at hf
    subst hf
    simp⟩
  unfold decAnonDecl
  simp only [bind_def, Dec.bind]
  rw [h6]
  rfl

theorem goes_import (hu : E.u.Lawful) : Goes (importItem E noteAll) fun s es t =>
    ∃ i, es = [.imported i] ∧ Acts E.u.readVarint E.u.readSvarint E.gen (name 0 (.iri i)) s t :=
  Goes.note hu fun _ _ _ ⟨i, h1, h2⟩ => ⟨i, .imported i, _, fun _ => gets_decIri hu i, h2, h1, rfl⟩

theorem Gets.within {α : Type} {x : Dec α} {a : α} {L : Lang} {s m : Sit} (hu : E.u.Lawful)
    (h : Gets E (s.src.inp.length + 1) x a L) (ha : Acts E.u.readVarint E.u.readSvarint E.gen L s m) :
    x (decOf s) = .ok a (decOf m) ∧ m.remove = s.remove ∧ m.src.inp.length ≤ s.src.inp.length := by
  obtain ⟨h1, h2, cs, h3, h4⟩ := ha
  refine ⟨?_, h2, does_le hu h4⟩
  rw [h cs (decOf s) m.src (Nat.lt_succ_self _) h3 h4]
  obtain ⟨m1, m2, m3⟩ := m
  dsimp only at h1
  subst h1
  rfl

theorem goes_annot (hu : E.u.Lawful) : Goes (annotItem E noteAll) fun s es t =>
    ∃ a, es = [.annot a] ∧ Acts E.u.readVarint E.u.readSvarint E.gen (annotSays a) s t := by
  intro s es t hc ⟨a, h1, h2⟩
  subst h1
  obtain ⟨h3, h4, h5⟩ := Gets.within hu (gets_annot hu a _ _ (Nat.le_refl _)) h2
  refine ⟨h4, h5, ?_⟩
  have h3 : decAnnot E (s.dec.inp.length + 1) s.dec = .ok a.toObj (decOf t) := h3
  unfold annotItem FSt.get
  rw [h3]
  dsimp only
  rw [deliver_note, after, h4]
  rfl

theorem goes_axiom (hu : E.u.Lawful) (c : UInt8) : Goes (axiomFrame E noteAll c) fun s es t =>
    ∃ a, es = [.ax a] ∧ Acts E.u.readVarint E.u.readSvarint E.gen (axSays a c) s t := by
  intro s es t hc ⟨a, h1, h2⟩
  subst h1
  obtain ⟨h3, h4, h5⟩ := Gets.within hu (gets_axiom hu a c _ (Nat.le_refl _)) h2
  refine ⟨h4, h5, ?_⟩
  have h3 : decAxiom E (s.dec.inp.length + 1) c s.dec = .ok (a.toObj, true) (decOf t) := h3
  unfold axiomFrame FSt.get
  rw [h3]
  dsimp only
  rw [if_pos rfl, deliver_note, after, h4]
  rfl

theorem goes_names (hu : E.u.Lawful) (b : Bool) : Goes (iriVersion E noteAll b) fun s es t =>
    ∃ i m, Acts E.u.readVarint E.u.readSvarint E.gen (name 0 (.iri i)) s m ∧
      if b = true then ∃ v, es = [.iri i, .version v] ∧ Acts E.u.readVarint E.u.readSvarint E.gen (name 0 (.iri v)) m t
      else es = [.iri i] ∧ t = m := by
  intro s es t hc ⟨i, m, h1, h2⟩
  have g1 := Goes.note hu (x := decIri E) (i := .iri) (P := fun s es t =>
    ∃ i, es = [.iri i] ∧ Acts E.u.readVarint E.u.readSvarint E.gen (name 0 (.iri i)) s t)
    fun _ _ _ ⟨i, h1, h2⟩ => ⟨i, .iri i, _, fun _ => gets_decIri hu i, h2, h1, rfl⟩
  have g2 := Goes.note hu (x := decIri E) (i := .version) (P := fun s es t =>
    ∃ i, es = [.version i] ∧ Acts E.u.readVarint E.u.readSvarint E.gen (name 0 (.iri i)) s t)
    fun _ _ _ ⟨i, h1, h2⟩ => ⟨i, .version i, _, fun _ => gets_decIri hu i, h2, h1, rfl⟩
  obtain ⟨h3, h4, h5⟩ := g1 s [.iri i] m hc ⟨i, rfl, h1⟩
  dsimp only at h5
  unfold iriVersion
  cases b with
  | false =>
    obtain ⟨rfl, rfl⟩ := h2
    refine ⟨h3, h4, ?_⟩
    rw [h5]; rfl
  | true =>
    obtain ⟨v, rfl, h2⟩ := h2
    obtain ⟨h6, h7, h8⟩ := g2 (after s [.iri i] m) [.version v] t rfl ⟨v, rfl, h2⟩
    refine ⟨h6.trans h3, Nat.le_trans h7 h4, ?_⟩
    rw [h5]
    refine Eq.trans h8 ?_
    unfold after
    dsimp only
    rw [h3, List.append_assoc]; rfl

theorem go_frame (hu : E.u.Lawful) (c : UInt8) {s : FSt Log} {es : List Entry} {t : Sit} (hc : s.code = .ok)
    (h : Frame E.u.readVarint E.u.readSvarint E.gen mkIri c (sit s) es t) :
    t.src.inp.length ≤ s.dec.inp.length ∧ frameOf E noteAll c s = .go (after s es t) := by
  have self : after s [] (sit s) = s := by
    unfold after
    rw [← hc]
    simp only [List.map_nil, List.append_nil]
    rfl
  unfold frameOf
  unfold Frame at h
  generalize hq : c.toNat % 64 = q at *
  match q with
  | 0 =>
    obtain ⟨rfl, rfl⟩ := h
    refine ⟨Nat.le_refl _, ?_⟩
    unfold after
    rw [← hc]
    simp only [List.map_nil, List.append_nil]
    rfl
  | 1 =>
    obtain ⟨rfl, rfl⟩ := h
    refine ⟨Nat.le_refl _, ?_⟩
    unfold after
    rw [← hc]
    simp only [List.map_nil, List.append_nil]
    rfl
  | 2 =>
    obtain ⟨rfl, rfl⟩ := h
    refine ⟨Nat.le_refl _, ?_⟩
    have e : (if bit6 c || bit7 c then Ret.ok else s.code) = .ok := by rw [hc]; split <;> rfl
    dsimp only
    rw [e]
    simp only [after, decOf, sit, src, DIndex.reset, bit6, bit7, decide_eq_true_eq, List.map_nil, List.append_nil]
    rfl
  | 3 => exact h.elim
  | 4 =>
    have g1 := Goes.counted hu (goes_prefix hu) s es t hc
    have g2 := Goes.counted hu (goes_ns hu) s es t hc
    dsimp only [bit6] at h ⊢
    by_cases hb : c.toNat / 64 % 2 = 1
    · simp only [hb, decide_true, if_true] at h ⊢; exact (g1 h).2
    · simp only [hb, decide_false, if_false] at h ⊢; exact (g2 h).2
  | 5 =>
    have g1 := Goes.counted hu (goes_iri hu) s es t hc
    have g2 := Goes.counted hu (goes_anon hu) s es t hc
    dsimp only [bit6] at h ⊢
    by_cases hb : c.toNat / 64 % 2 = 1
    · simp only [hb, decide_true, if_true] at h ⊢; exact (g1 h).2
    · simp only [hb, decide_false, if_false] at h ⊢; exact (g2 h).2
  | 6 =>
    refine (goes_names hu (bit7 c) s es t hc ?_).2
    simpa only [bit7, decide_eq_true_eq] using h
  | 7 => exact (Goes.counted hu (goes_import hu) s es t hc h).2
  | 8 => exact (Goes.counted hu (goes_annot hu) s es t hc h).2
  | q + 9 => exact (goes_axiom hu c s es t hc h).2

theorem go_frames (hu : E.u.Lawful) {x : Sit} {fs : List (Bool × Entry)}
    (h : Frames E.u.readVarint E.u.readSvarint E.gen mkIri x fs) : ∀ (n : Nat) (s : FSt Log), s.code = .ok → sit s = x →
      s.dec.inp.length < n → frames E noteAll n s = (s.ctx ++ fs.map fun f => (f.1, f.2.item), .done) := by
  induction h with
  | eof hi =>
    intro n s hc hs hn
    subst hs
    obtain ⟨n, rfl⟩ : ∃ m, n = m + 1 := ⟨n - 1, by omega⟩
    unfold frames Prt.frame
    rw [show s.dec.inp = [] from hi]
    dsimp only
    rw [hc, List.map_nil, List.append_nil]
    rfl
  | last hi hl =>
    intro n s hc hs hn
    subst hs
    obtain ⟨n, rfl⟩ : ∃ m, n = m + 1 := ⟨n - 1, by omega⟩
    unfold frames Prt.frame
    rw [show s.dec.inp = _ :: _ from hi]
    dsimp only
    unfold frameOf
    rw [hl]
    dsimp only
    rw [hc, List.map_nil, List.append_nil]
    rfl
  | @more s0 t c r es fs hi hf _ ih =>
    intro n s hc hs hn
    subst hs
    obtain ⟨n, rfl⟩ : ∃ m, n = m + 1 := ⟨n - 1, by omega⟩
    have hi : s.dec.inp = c :: r := hi
    obtain ⟨h1, h2⟩ := go_frame hu c (s := { s with dec := { s.dec with inp := r } }) hc hf
    unfold frames Prt.frame
    rw [hi]
    dsimp only
    rw [h2]
    dsimp only
    rw [ih n (after { s with dec := { s.dec with inp := r } } es t) rfl rfl (by
      rw [hi, List.length_cons] at hn
      have h1 : t.src.inp.length ≤ r.length := h1
      show t.src.inp.length < n
      omega)]
    rw [after, List.map_append, List.map_map, List.append_assoc]
    rfl

theorem go_doc (hu : E.u.Lawful) {b : Str} {fs : List (Bool × Entry)}
    (h : DocSays E.u.readVarint E.u.readSvarint E.gen mkIri b fs) :
    prtChanges E b = (fs.map fun f => (f.1, f.2.item), .done) := by
  obtain ⟨r, rfl, h⟩ := h
  unfold prtChanges prtRead
  dsimp only
  rw [if_pos rfl]
  exact go_frames hu h _ _ rfl rfl (Nat.lt_succ_self _)

end

end Cowl.Wire
