import Verif.WireReadSpec
import Verif.PrtTyped
/-!
# Lemmas: what bytes in ProtocOWL say
-/
namespace Cowl.Wire
open Ast Prt

/-- The state of the decoder, without its namespaces. -/
def src (s : DSt) : Src := ⟨s.inp, s.ix.ids, s.fresh⟩

/-- Results of the function, with what it does; it leaves the namespaces alone. -/
def Takes (E : Env) {α : Type} (x : Dec α) (Q : α → Lang) : Prop :=
  ∀ s a s', x s = .ok a s' → s'.ix.nss = s.ix.nss ∧
    ∃ cs, Q a cs ∧ Does E.u.readVarint E.u.readSvarint E.gen cs (src s) (src s')

/-- The object stands for something that is said. -/
def says {α : Type} (g : α → Obj) (L : α → Lang) (o : Obj) : Lang := fun cs => ∃ x, o = g x ∧ L x cs

/-- The same of an object that may be NULL. -/
def opt (Q : Obj → Lang) (o : Option Obj) : Lang := fun cs => ∀ x, o = some x → Q x cs

section
variable {E : Env} {α β : Type}

theorem does_append {un : Str → Option (Nat × Str)} {sn : Str → Option (Int × Str)} {gen : Nat → Str} {a b : List Act}
    {s m t : Src} (h : Does un sn gen a s m) (h' : Does un sn gen b m t) : Does un sn gen (a ++ b) s t := by
  induction a generalizing s with
  | nil => cases h; exact h'
  | cons c cs ih =>
    obtain ⟨x, h1, h2⟩ := h
    exact ⟨x, h1, ih h2⟩

theorem does_one {un : Str → Option (Nat × Str)} {sn : Str → Option (Int × Str)} {gen : Nat → Str} {c : Act} {s t : Src}
    (h : c.Does un sn gen s t) : Does un sn gen [c] s t := ⟨t, h, rfl⟩

theorem Takes.pure {a : α} {Q : α → Lang} (h : Q a []) : Takes E (pure a : Dec α) Q := by
  intro s b s' e; cases e; exact ⟨rfl, [], h, rfl⟩

theorem Takes.fail {Q : α → Lang} : Takes E (fail : Dec α) Q := fun _ _ _ e => by cases e

theorem Takes.unchecked {Q : α → Lang} : Takes E (unchecked E : Dec α) Q := by
  intro s a s' h
  unfold Prt.unchecked at h
  split at h <;> cases h

theorem Takes.bind {x : Dec α} {f : α → Dec β} {P : α → Lang} {Q : β → Lang} (h : Takes E x P)
    (hf : ∀ a cs, P a cs → Takes E (f a) fun b ds => Q b (cs ++ ds)) : Takes E (x >>= f) Q := by
  intro s b s' e
  simp only [bind_def, Dec.bind] at e
  cases hx : x s with
  | ok a s1 =>
    rw [hx] at e
    obtain ⟨h5, cs, h1, h2⟩ := h s a s1 hx
    obtain ⟨h6, ds, h3, h4⟩ := hf a cs h1 s1 b s' e
    exact ⟨h6.trans h5, cs ++ ds, h3, does_append h2 h4⟩
  | err => rw [hx] at e; cases e
  | ub => rw [hx] at e; cases e

theorem Takes.imp {x : Dec α} {P Q : α → Lang} (h : Takes E x P) (hi : ∀ a cs, P a cs → Q a cs) : Takes E x Q := by
  intro s a s' e
  obtain ⟨h3, cs, h1, h2⟩ := h s a s' e
  exact ⟨h3, cs, hi a cs h1, h2⟩

/-- The last step only makes an object. -/
theorem Takes.last {x : Dec α} {f : α → β} {P : α → Lang} {Q : β → Lang} (h : Takes E x P)
    (hf : ∀ a cs, P a cs → Q (f a) cs) : Takes E (x >>= fun a => Pure.pure (f a)) Q :=
  h.bind fun a cs ha => .pure (by rw [List.append_nil]; exact hf a cs ha)

theorem seq_mk {P Q : Lang} {a b : List Act} (h : P a) (h' : Q b) : seq P Q (a ++ b) := ⟨a, b, rfl, h, h'⟩

end

section
variable {E : Env}

theorem takes_varint (hu : E.u.Lawful) : Takes E (varint E) fun n cs => cs = [.num n] ∧ n < 4294967296 := by
  intro s n s' h
  unfold varint at h
  split at h
  · rename_i m r e
    cases h
    exact ⟨rfl, _, ⟨rfl, (hu.varint_lt e).1⟩, does_one ⟨r, e, rfl⟩⟩
  · cases h

theorem takes_svarint : Takes E (svarint E) fun n cs => cs = [.int n] := by
  intro s n s' h
  unfold svarint at h
  split at h
  · rename_i m r e
    cases h
    exact ⟨rfl, _, rfl, does_one ⟨r, e, rfl⟩⟩
  · cases h

theorem takes_byte : Takes E byte fun c cs => cs = [.byte c] := by
  intro s n s' h
  unfold byte at h
  split at h
  · rename_i c r e
    cases h
    exact ⟨rfl, _, rfl, does_one ⟨r, e, rfl⟩⟩
  · cases h

theorem takes_bytes (n : Nat) : Takes E (Prt.bytes n) fun v cs => cs = [.raw v] ∧ v.length = n := by
  intro s v s' h
  unfold Prt.bytes at h
  split at h
  · rename_i hn
    cases h
    exact ⟨rfl, [.raw _], ⟨rfl, by rw [List.length_take]; omega⟩, does_one ⟨_, (List.take_append_drop n s.inp).symm, rfl⟩⟩
  · cases h

theorem takes_decStr (hu : E.u.Lawful) : Takes E (decStr E) text :=
  (takes_varint hu).bind fun n cs ⟨e, _⟩ => (takes_bytes n).imp fun v ds ⟨e', hl⟩ => by
    subst e; subst e'; rw [← hl]; rfl

theorem takes_getId (k : Nat) : Takes E (getId E k) fun i cs => cs = [.look k i] := by
  intro s i s' h
  unfold getId at h
  split at h
  · rename_i i e
    cases h
    exact ⟨rfl, _, rfl, does_one (.inl ⟨e, rfl⟩)⟩
  · split at h
    · rename_i hk
      cases h
      exact ⟨rfl, _, rfl, does_one (.inr ⟨hk, rfl, rfl⟩)⟩
    · cases h

theorem takes_getIri (k : Nat) : Takes E (getIri E k) fun i cs => cs = [.look k (.iri i)] :=
  (takes_getId k).bind fun i cs e => by
    subst e
    cases i with
    | iri i => exact .pure rfl
    | anon s => exact .fail

theorem takes_getEnt (t : EntKind) (k : Nat) : Takes E (getEnt E t k) (says (ent t) fun i cs => cs = [.look k (.iri i)]) :=
  (takes_getIri k).last fun i _ e => ⟨i, rfl, e⟩

theorem takes_decIri (hu : E.u.Lawful) : Takes E (decIri E) fun i => name 0 (.iri i) :=
  (takes_varint hu).bind fun k cs ⟨e, _⟩ => (takes_getIri k).imp fun i ds e' => by subst e; subst e'; exact ⟨k, rfl⟩

theorem takes_decEnt (hu : E.u.Lawful) (t : EntKind) : Takes E (decEnt E t) (says (ent t) fun i => name 0 (.iri i)) :=
  (takes_varint hu).bind fun k cs ⟨e, _⟩ => (takes_getEnt t k).imp fun o ds ⟨i, h, e'⟩ => by
    subst e; subst e'; exact ⟨i, h, k, rfl⟩

theorem takes_decInd (hu : E.u.Lawful) : Takes E (decInd E) (says Ind.toObj indSays) :=
  (takes_varint hu).bind fun k cs ⟨e, _⟩ => (takes_getId k).bind fun i ds e' => by
    subst e; subst e'
    cases i with
    | iri i => exact .pure ⟨.named i, rfl, k, rfl⟩
    | anon s => exact .pure ⟨.anon s, rfl, k, rfl⟩

theorem takes_getIriOrAnon (k : Nat) : Takes E (getIriOrAnon E k) fun o cs =>
    (∃ i, o = .prim (.iri i) ∧ cs = [.look k (.iri i)]) ∨ ∃ s, o = .prim (.anon s) ∧ cs = [.look k (.anon s)] :=
  (takes_getId k).bind fun i ds e' => by
    subst e'
    cases i with
    | iri i => exact .pure (.inl ⟨i, rfl, rfl⟩)
    | anon s => exact .pure (.inr ⟨s, rfl, rfl⟩)

theorem takes_decIriOrAnon (hu : E.u.Lawful) : Takes E (decIriOrAnon E) (says AnnotSubj.toObj subjSays) :=
  (takes_varint hu).bind fun k cs ⟨e, _⟩ => (takes_getIriOrAnon k).imp fun o ds h => by
    subst e
    rcases h with ⟨i, h, e⟩ | ⟨i, h, e⟩
    · subst e; exact ⟨.iri i, h, k, rfl⟩
    · subst e; exact ⟨.anon i, h, k, rfl⟩

theorem takes_decOpe (hu : E.u.Lawful) : Takes E (decOpe E) (says Ope.toObj opeSays) :=
  (takes_varint hu).bind fun k cs ⟨e, _⟩ => by
    subst e
    split
    · rename_i hk
      subst hk
      exact (takes_decEnt hu .objProp).last fun o ds ⟨i, h, h'⟩ => by
        subst h; exact ⟨.inv i, rfl, seq_mk rfl h'⟩
    · rename_i hk
      refine (takes_getEnt .objProp (k - 1)).imp fun o ds ⟨i, h, e'⟩ => ?_
      subst h; subst e'
      refine ⟨.prop i, rfl, k - 1, ?_⟩
      rw [Nat.sub_add_cancel (Nat.pos_of_ne_zero hk)]; rfl

theorem takes_decValue (hu : E.u.Lawful) (fmt : Nat) : Takes E (decValue E fmt) (value fmt) := by
  unfold decValue
  split
  · exact takes_decStr hu
  · refine takes_byte.bind fun b cs e => ?_
    subst e
    split
    · rename_i h; subst h; exact .pure (.inl ⟨rfl, rfl⟩)
    · split
      · rename_i h; subst h; exact .pure (.inr ⟨rfl, rfl⟩)
      · exact .fail
  · exact takes_svarint.last fun v cs e => ⟨v, e, rfl⟩
  · exact (takes_varint hu).last fun v cs e => ⟨v, e.1, rfl⟩
  · refine takes_svarint.bind fun w cs e => (takes_varint hu).last fun f ds e' => ?_
    subst e
    refine ⟨w, f, by rw [e'.1]; rfl, ?_⟩
    rw [List.append_assoc]; rfl
  · refine takes_svarint.bind fun w cs e => (takes_varint hu).bind fun f ds e' => takes_svarint.last fun g es e'' => ?_
    subst e; subst e''
    refine ⟨w, f, g, by rw [e'.1]; rfl, ?_⟩
    simp only [fixedText, List.append_assoc]; rfl
  · exact .fail

theorem takes_lit {v : Str} {a : LitArg} : Takes E (ofLitRes E (literal v a)) fun o cs =>
    cs = [] ∧ ∃ l : Lit, o = l.toObj ∧ literal v a = .lit l.value l.tag := by
  cases e : literal v a with
  | lit v' t => exact .pure ⟨rfl, ⟨v', t⟩, rfl, rfl⟩
  | ub => exact .unchecked

theorem takes_decLit (hu : E.u.Lawful) : Takes E (decLit E) (opt (says Lit.toObj literalSays)) := by
  refine takes_byte.bind fun c cs e => (takes_decValue hu _).bind fun v ds hv => ?_
  subst e
  split
  · rename_i h
    refine takes_lit.last fun o es ⟨e, l, hl, hl'⟩ => ?_
    subst e; subst hl
    intro x ex; cases ex
    exact ⟨l, rfl, c, v, .none, ds ++ [], rfl, hl', seq_mk hv (by simp [tail, h])⟩
  · rename_i h
    refine (takes_decStr hu).bind fun t fs ht => takes_lit.last fun o es ⟨e, l, hl, hl'⟩ => ?_
    subst e; subst hl
    intro x ex; cases ex
    refine ⟨l, rfl, c, v, .lang t, ds ++ (fs ++ []), rfl, hl', seq_mk hv ?_⟩
    rw [List.append_nil, h]
    exact ⟨t, ht, rfl⟩
  · rename_i h
    refine (takes_decIri hu).bind fun t fs ht => takes_lit.last fun o es ⟨e, l, hl, hl'⟩ => ?_
    subst e; subst hl
    intro x ex; cases ex
    refine ⟨l, rfl, c, v, .dt t, ds ++ (fs ++ []), rfl, hl', seq_mk hv ?_⟩
    rw [List.append_nil, h]
    exact ⟨t, ht, rfl⟩
  · exact .pure nofun

theorem takes_decAnnotVal (hu : E.u.Lawful) : Takes E (decAnnotVal E) (opt (says AnnotVal.toObj valSays)) :=
  (takes_varint hu).bind fun k cs ⟨e, _⟩ => by
    subst e
    split
    · rename_i hk
      subst hk
      refine (takes_decLit hu).imp fun o ds h x e => ?_
      obtain ⟨l, h1, h2⟩ := h x e
      exact ⟨.lit l, h1, seq_mk rfl h2⟩
    · rename_i hk
      have e : k = k - 1 + 1 := (Nat.sub_add_cancel (Nat.pos_of_ne_zero hk)).symm
      refine (takes_getIriOrAnon (k - 1)).last fun o ds h x ex => ?_
      cases ex
      rcases h with ⟨i, rfl, rfl⟩ | ⟨i, rfl, rfl⟩
      · exact ⟨.iri i, rfl, k - 1, by rw [← e]; rfl⟩
      · exact ⟨.anon i, rfl, k - 1, by rw [← e]; rfl⟩

theorem takes_notNull {x : Dec (Option Obj)} {Q : Obj → Lang} (h : Takes E x (opt Q)) : Takes E (notNull x) Q :=
  h.bind fun o cs ho => by
    cases o with
    | none => exact .fail
    | some o => exact .pure (by rw [List.append_nil]; exact ho o rfl)

theorem takes_decMany {α : Type} {g : α → Obj} {L : α → Lang} {item : Dec Obj} (h : Takes E item (says g L)) :
    ∀ n, Takes E (decMany item n) fun os cs => ∃ xs, os = xs.map g ∧ xs.length = n ∧ many L xs cs
  | 0 => .pure ⟨[], rfl, rfl, rfl⟩
  | n + 1 => h.bind fun o cs ⟨x, hx, hl⟩ => (takes_decMany h n).last fun os ds ⟨xs, hxs, hn, hls⟩ => by
    subst hx; subst hxs
    exact ⟨x :: xs, rfl, by simp [hn], seq_mk hl hls⟩

theorem takes_decItems (hu : E.u.Lawful) {α : Type} {g : α → Obj} {L : α → Lang} {item : Dec Obj} (h : Takes E item (says g L)) :
    Takes E (decItems E item) fun os cs => ∃ xs, os = xs.map g ∧ counted L xs cs :=
  (takes_varint hu).bind fun n cs ⟨e, _⟩ => (takes_decMany h n).imp fun os ds ⟨xs, h1, h2, h3⟩ => by
    subst e; subst h2
    exact ⟨xs, h1, seq_mk rfl h3⟩

theorem takes_decVec (hu : E.u.Lawful) {α : Type} {g : α → Obj} {L : α → Lang} {item : Dec Obj} (h : Takes E item (says g L)) :
    Takes E (decVec E item) (says (fun xs => .vec false (xs.map g)) (counted L)) :=
  (takes_decItems hu h).last fun os cs ⟨xs, h1, h2⟩ => ⟨xs, by rw [h1], h2⟩

theorem takes_decFacet (hu : E.u.Lawful) : Takes E (decFacet E) (says facetObj facetSays) :=
  (takes_decIri hu).bind fun i cs hi => (takes_notNull (takes_decLit hu)).last fun o ds ⟨l, h, hl⟩ => by
    subst h
    exact ⟨(i, l), rfl, seq_mk hi hl⟩

end

theorem map_dr : ∀ ds : List DR, ds.map DR.toObj = DR.toObjs ds
  | [] => rfl
  | d :: ds => by rw [List.map_cons, map_dr ds, DR.toObjs]

theorem map_ce : ∀ ds : List CE, ds.map CE.toObj = CE.toObjs ds
  | [] => rfl
  | d :: ds => by rw [List.map_cons, map_ce ds, CE.toObjs]

theorem map_annot : ∀ ds : List Annot, ds.map Annot.toObj = Annot.toObjs ds
  | [] => rfl
  | d :: ds => by rw [List.map_cons, map_annot ds, Annot.toObjs]

theorem many_dr : ∀ ds : List DR, many drSays ds = drsSay ds
  | [] => by rw [drsSay]; rfl
  | d :: ds => by rw [many, many_dr ds, drsSay]

theorem many_ce : ∀ ds : List CE, many ceSays ds = cesSay ds
  | [] => by rw [cesSay]; rfl
  | d :: ds => by rw [many, many_ce ds, cesSay]

theorem many_annot : ∀ ds : List Annot, many annotSays ds = annotsSay ds
  | [] => by rw [annotsSay]; rfl
  | d :: ds => by rw [many, many_annot ds, annotsSay]

section
variable {E : Env}

/-- Annotations, if the bit is set. -/
def annLang (bit : Bool) (as : Option (Bool × List Obj)) : Lang := fun cs =>
  (bit = false ∧ as = none ∧ cs = []) ∨
  (bit = true ∧ ∃ ds, as = some (false, Annot.toObjs ds) ∧ seq (num ds.length) (annotsSay ds) cs)

theorem takes_decAnnots (hu : E.u.Lawful) {item : Dec Obj} (h : Takes E item (says Annot.toObj annotSays)) (b : Bool) :
    Takes E (decAnnots E item b) (annLang b) := by
  cases b with
  | false => exact .pure (.inl ⟨rfl, rfl, rfl⟩)
  | true => exact (takes_decItems hu h).last fun os cs ⟨xs, h1, h2⟩ => .inr ⟨rfl, xs, by rw [h1, map_annot], by
      rw [← many_annot]; exact h2⟩

theorem implAnnots {t : OType} {fs : List Obj} (ds : List Annot) :
    getImplAnnot t fs (some (false, Annot.toObjs ds)) = annotated t fs (Annot.toObjs ds) := by
  cases Annot.toObjs ds <;> rfl

theorem takes_annotIri (hu : E.u.Lawful) (k : Nat) : Takes E (annotIri E k) fun i cs =>
    if k = 0 then name 0 (.iri i) cs else cs = [.look (k - 1) (.iri i)] := by
  unfold annotIri
  split
  · exact takes_decIri hu
  · exact takes_getIri _

theorem takes_decAnnot (hu : E.u.Lawful) : ∀ n, Takes E (decAnnot E n) (says Annot.toObj annotSays)
  | 0 => .fail
  | n + 1 => (takes_varint hu).bind fun k cs ⟨e, _⟩ => (takes_annotIri hu k).bind fun i ds hi =>
    (takes_notNull (takes_decAnnotVal hu)).bind fun v es ⟨v', ev, hv⟩ =>
    (takes_decAnnots hu (takes_decAnnot hu n) _).last fun as fs has => by
      subst e; subst ev
      rcases has with ⟨hk, rfl, rfl⟩ | ⟨hk, xs, rfl, h⟩
      · have hk' : k ≠ 0 := by simpa using hk
        rw [if_neg hk'] at hi
        subst hi
        refine ⟨.mk i v' [], by rw [Annot.toObj]; rfl, ?_⟩
        rw [annotSays]
        refine .inl ⟨rfl, ?_⟩
        rw [List.append_nil, ← List.append_assoc]
        refine seq_mk ⟨k - 1, ?_⟩ hv
        rw [Nat.sub_add_cancel (Nat.pos_of_ne_zero hk')]; rfl
      · have hk' : k = 0 := by simpa using hk
        rw [if_pos hk'] at hi
        subst hk'
        refine ⟨.mk i v' xs, by rw [implAnnots, Annot.toObj]; rfl, ?_⟩
        rw [annotSays]
        exact .inr (seq_mk rfl (seq_mk hi (seq_mk hv h)))

/-! ## Data ranges -/

/-- The position of a data range in the list of types. -/
def drPos : OType → Nat
  | .drDataUnion => 1
  | .drDataCompl => 2
  | .drDataOneOf => 3
  | .drDatatypeRestr => 4
  | _ => 0

theorem dr_at : ∀ {t : Nat} {o : OType}, drTypes[t + 1]? = some o → t = drPos o
  | 0, _, h | 1, _, h | 2, _, h | 3, _, h | 4, _, h => by cases h; rfl
  | _ + 5, _, h => by cases h

theorem vec_dr {o : Obj} {cs : List Act} (h : says (fun xs => .vec false (xs.map DR.toObj)) (counted drSays) o cs) :
    ∃ ds, o = .vec false (DR.toObjs ds) ∧ seq (num ds.length) (drsSay ds) cs := by
  obtain ⟨ds, rfl, h⟩ := h
  exact ⟨ds, by dsimp only; rw [map_dr], by rw [← many_dr]; exact h⟩

theorem vec_ce {o : Obj} {cs : List Act} (h : says (fun xs => .vec false (xs.map CE.toObj)) (counted ceSays) o cs) :
    ∃ ds, o = .vec false (CE.toObjs ds) ∧ seq (num ds.length) (cesSay ds) cs := by
  obtain ⟨ds, rfl, h⟩ := h
  exact ⟨ds, by dsimp only; rw [map_ce], by rw [← many_ce]; exact h⟩

theorem takes_drStep (hu : E.u.Lawful) {rec : Dec Obj} (h : Takes E rec (says DR.toObj drSays)) :
    Takes E (drStep E rec) (says DR.toObj drSays) := (takes_varint hu).bind fun t cs ⟨e, _⟩ => by
  subst e
  split
  · rename_i ht
    refine (takes_getEnt .datatype (t - 5)).imp fun o ds ⟨i, h, e⟩ => ?_
    subst e; subst h
    refine ⟨.dt i, by rw [DR.toObj], ?_⟩
    rw [drSays]
    refine ⟨t - 5, ?_⟩
    rw [Nat.sub_add_cancel ht]; rfl
  split
  · rename_i ht
    cases dr_at ht
    exact (takes_decEnt hu .datatype).bind fun d ds ⟨i, e, hi⟩ => (takes_decVec hu (takes_decFacet hu)).last fun fs es ⟨xs, e', hl⟩ => by
      subst e; subst e'
      exact ⟨.restr i xs, by rw [DR.toObj]; rfl, by rw [drSays]; exact seq_mk rfl (seq_mk hi hl)⟩
  · rename_i ht
    cases dr_at ht
    exact (takes_decVec hu h).last fun fs es hv => by
      obtain ⟨ds, rfl, hd⟩ := vec_dr hv
      exact ⟨.inter ds, by rw [DR.toObj]; rfl, by rw [drSays]; exact seq_mk rfl hd⟩
  · rename_i ht
    cases dr_at ht
    exact (takes_decVec hu h).last fun fs es hv => by
      obtain ⟨ds, rfl, hd⟩ := vec_dr hv
      exact ⟨.union ds, by rw [DR.toObj]; rfl, by rw [drSays]; exact seq_mk rfl hd⟩
  · rename_i ht
    cases dr_at ht
    exact h.last fun o es ⟨d, e, hd⟩ => by
      subst e
      exact ⟨.compl d, by rw [DR.toObj]; rfl, by rw [drSays]; exact seq_mk rfl hd⟩
  · rename_i ht
    cases dr_at ht
    exact (takes_decVec hu (takes_notNull (takes_decLit hu))).last fun o es ⟨ls, e, hd⟩ => by
      subst e
      exact ⟨.oneOf ls, by rw [DR.toObj]; rfl, by rw [drSays]; exact seq_mk rfl hd⟩
  · exact .fail

theorem takes_decDR (hu : E.u.Lawful) : ∀ n, Takes E (decDR E n) (says DR.toObj drSays)
  | 0 => .fail
  | n + 1 => takes_drStep hu (takes_decDR hu n)

/-! ## Class expressions -/

/-- The position of a class expression in the list of types. -/
def cePos : OType → Nat
  | .ceObjUnion => 1
  | .ceObjCompl => 2
  | .ceObjOneOf => 3
  | .ceObjSome => 4
  | .ceObjAll => 5
  | .ceObjHasValue => 6
  | .ceObjHasSelf => 7
  | .ceObjMinCard => 8
  | .ceObjMaxCard => 9
  | .ceObjExactCard => 10
  | .ceDataSome => 11
  | .ceDataAll => 12
  | .ceDataHasValue => 13
  | .ceDataMinCard => 14
  | .ceDataMaxCard => 15
  | .ceDataExactCard => 16
  | _ => 0

theorem ce_at : ∀ {t : Nat} {o : OType}, ceTypes[t + 1]? = some o → t = cePos o
  | 0, _, h | 1, _, h | 2, _, h | 3, _, h | 4, _, h | 5, _, h | 6, _, h | 7, _, h | 8, _, h | 9, _, h | 10, _, h
  | 11, _, h | 12, _, h | 13, _, h | 14, _, h | 15, _, h | 16, _, h => by cases h; rfl
  | _ + 17, _, h => by cases h

theorem Takes.ofOpt {α : Type} {x : Dec α} {f : α → Option Obj} {P : α → Lang} {Q : Obj → Lang} (h : Takes E x P)
    (hf : ∀ a cs, P a cs → ∀ b, f a = some b → Q b cs) : Takes E (x >>= fun a => Prt.ofOpt (f a)) Q :=
  h.bind fun a cs ha => by
    cases e : f a with
    | none => exact .fail
    | some b => exact .pure (by rw [List.append_nil]; exact hf a cs ha b e)

theorem takes_objQuant (hu : E.u.Lawful) {ce : Dec Obj} (h : Takes E ce (says CE.toObj ceSays)) (qt : Nat) :
    Takes E (decObjQuant E ce qt) fun o cs => ∃ p c, seq (opeSays p) (ceSays c) cs ∧
      ((qt = 0 ∧ o = (CE.objSome p c).toObj) ∨ (qt ≠ 0 ∧ o = (CE.objAll p c).toObj)) :=
  (takes_decOpe hu).bind fun p cs ⟨p', e, hp⟩ => h.ofOpt fun c ds ⟨c', e', hc⟩ b hb => by
    subst e; subst e'
    refine ⟨p', c', seq_mk hp hc, ?_⟩
    unfold objQuant at hb
    split at hb
    · cases hb
    · cases hb
      rw [quant_obj]
      by_cases hq : qt = 0
      · exact .inl ⟨hq, by rw [CE.toObj, if_pos hq]⟩
      · exact .inr ⟨hq, by rw [CE.toObj, if_neg hq]⟩

theorem takes_dataQuant (hu : E.u.Lawful) {dr : Dec Obj} (h : Takes E dr (says DR.toObj drSays)) (qt : Nat) :
    Takes E (decDataQuant E dr qt) fun o cs => ∃ p c, seq (name 0 (.iri p)) (drSays c) cs ∧
      ((qt = 0 ∧ o = (CE.dataSome p c).toObj) ∨ (qt ≠ 0 ∧ o = (CE.dataAll p c).toObj)) :=
  (takes_decEnt hu .dataProp).bind fun p cs ⟨p', e, hp⟩ => h.ofOpt fun c ds ⟨c', e', hc⟩ b hb => by
    subst e; subst e'
    refine ⟨p', c', seq_mk hp hc, ?_⟩
    unfold dataQuant at hb
    split at hb
    · cases hb
    · cases hb
      rw [quant_data]
      by_cases hq : qt = 0
      · exact .inl ⟨hq, by rw [CE.toObj, if_pos hq]⟩
      · exact .inr ⟨hq, by rw [CE.toObj, if_neg hq]⟩

theorem takes_decIf {x : Dec Obj} {Q : Obj → Lang} (h : Takes E x Q) (b : Bool) :
    Takes E (decIf b x) fun o cs => (b = false ∧ o = none ∧ cs = []) ∨ (b = true ∧ ∃ y, o = some y ∧ Q y cs) := by
  cases b with
  | false => exact .pure (.inl ⟨rfl, rfl, rfl⟩)
  | true => exact h.last fun o cs ho => .inr ⟨rfl, o, rfl, ho⟩

/-- The kinds of restrictions by number. -/
def kindOf : Nat → CardKind
  | 0 => .min
  | 1 => .max
  | _ => .exact

theorem takes_objCard (hu : E.u.Lawful) {ce : Dec Obj} (h : Takes E ce (says CE.toObj ceSays)) (ct : Nat) :
    Takes E (decObjCard E ce ct) fun o cs => ∃ (u : UInt32) (p : Ope),
      (o = (CE.objCard (kindOf ct) u p).toObj ∧ seq (num (2 * u.toNat)) (opeSays p) cs) ∨
      ∃ c, o = (CE.objCardQ (kindOf ct) u p c).toObj ∧ seq (num (2 * u.toNat + 1)) (seq (opeSays p) (ceSays c)) cs :=
  (takes_varint hu).bind fun n cs ⟨e, hn⟩ => (takes_decOpe hu).bind fun p ds ⟨p', ep, hp⟩ =>
    (takes_decIf h _).ofOpt fun c es hc b hb => by
      subst e; subst ep
      obtain ⟨u, hu, -⟩ := half n hn
      rw [hu] at hb
      refine ⟨u, p', ?_⟩
      rcases hc with ⟨h1, rfl, rfl⟩ | ⟨h1, _, rfl, c', rfl, hc⟩
      · have h1 : n % 2 ≠ 1 := by simpa using h1
        refine .inl ⟨?_, ?_⟩
        · rcases ct with _ | _ | _ | ct <;> cases hb <;> (rw [CE.toObj]; rfl)
        · have e : n = 2 * u.toNat := by omega
          rw [← e, List.append_nil]
          exact seq_mk rfl hp
      · have h1 : n % 2 = 1 := by simpa using h1
        refine .inr ⟨c', ?_, ?_⟩
        · rcases ct with _ | _ | _ | ct <;> cases hb <;> (rw [CE.toObj]; rfl)
        · have e : n = 2 * u.toNat + 1 := by omega
          rw [← e]
          exact seq_mk rfl (seq_mk hp hc)

theorem takes_dataCard (hu : E.u.Lawful) {dr : Dec Obj} (h : Takes E dr (says DR.toObj drSays)) (ct : Nat) :
    Takes E (decDataCard E dr ct) fun o cs => ∃ (u : UInt32) (p : Iri),
      (o = (CE.dataCard (kindOf ct) u p).toObj ∧ seq (num (2 * u.toNat)) (name 0 (.iri p)) cs) ∨
      ∃ c, o = (CE.dataCardQ (kindOf ct) u p c).toObj ∧ seq (num (2 * u.toNat + 1)) (seq (name 0 (.iri p)) (drSays c)) cs :=
  (takes_varint hu).bind fun n cs ⟨e, hn⟩ => (takes_decEnt hu .dataProp).bind fun p ds ⟨p', ep, hp⟩ =>
    (takes_decIf h _).ofOpt fun c es hc b hb => by
      subst e; subst ep
      obtain ⟨u, hu, -⟩ := half n hn
      rw [hu] at hb
      refine ⟨u, p', ?_⟩
      rcases hc with ⟨h1, rfl, rfl⟩ | ⟨h1, _, rfl, c', rfl, hc⟩
      · have h1 : n % 2 ≠ 1 := by simpa using h1
        refine .inl ⟨?_, ?_⟩
        · rcases ct with _ | _ | _ | ct <;> cases hb <;> (rw [CE.toObj]; rfl)
        · have e : n = 2 * u.toNat := by omega
          rw [← e, List.append_nil]
          exact seq_mk rfl hp
      · have h1 : n % 2 = 1 := by simpa using h1
        refine .inr ⟨c', ?_, ?_⟩
        · rcases ct with _ | _ | _ | ct <;> cases hb <;> (rw [CE.toObj]; rfl)
        · have e : n = 2 * u.toNat + 1 := by omega
          rw [← e]
          exact seq_mk rfl (seq_mk hp hc)

theorem takes_ceStep (hu : E.u.Lawful) {dr rec : Dec Obj} (hd : Takes E dr (says DR.toObj drSays))
    (h : Takes E rec (says CE.toObj ceSays)) : Takes E (ceStep E dr rec) (says CE.toObj ceSays) :=
  (takes_varint hu).bind fun t cs ⟨e, _⟩ => by
  subst e
  split
  · rename_i ht
    refine (takes_getEnt .cls (t - 17)).imp fun o ds ⟨i, h, e⟩ => ?_
    subst e; subst h
    refine ⟨.cls i, by rw [CE.toObj], ?_⟩
    rw [ceSays]
    refine ⟨t - 17, ?_⟩
    rw [Nat.sub_add_cancel ht]; rfl
  split
  · rename_i ht
    cases ce_at ht
    refine (takes_objQuant hu h _).imp fun o ds ⟨p, c, hs, ho⟩ => ?_
    rcases ho with ⟨h0, rfl⟩ | ⟨h0, rfl⟩
    · exact ⟨_, rfl, by rw [ceSays]; exact seq_mk rfl hs⟩
    · exact absurd rfl h0
  · rename_i ht
    cases ce_at ht
    refine (takes_objQuant hu h _).imp fun o ds ⟨p, c, hs, ho⟩ => ?_
    rcases ho with ⟨h0, rfl⟩ | ⟨h0, rfl⟩
    · cases h0
    · exact ⟨_, rfl, by rw [ceSays]; exact seq_mk rfl hs⟩
  · rename_i ht
    cases ce_at ht
    refine (takes_objCard hu h _).imp fun o ds ⟨u, p, ho⟩ => ?_
    rcases ho with ⟨rfl, hs⟩ | ⟨c, rfl, hs⟩
    · exact ⟨_, rfl, by rw [ceSays]; exact seq_mk rfl hs⟩
    · exact ⟨_, rfl, by rw [ceSays]; exact seq_mk rfl hs⟩
  · rename_i ht
    cases ce_at ht
    refine (takes_objCard hu h _).imp fun o ds ⟨u, p, ho⟩ => ?_
    rcases ho with ⟨rfl, hs⟩ | ⟨c, rfl, hs⟩
    · exact ⟨_, rfl, by rw [ceSays]; exact seq_mk rfl hs⟩
    · exact ⟨_, rfl, by rw [ceSays]; exact seq_mk rfl hs⟩
  · rename_i ht
    cases ce_at ht
    refine (takes_objCard hu h _).imp fun o ds ⟨u, p, ho⟩ => ?_
    rcases ho with ⟨rfl, hs⟩ | ⟨c, rfl, hs⟩
    · exact ⟨_, rfl, by rw [ceSays]; exact seq_mk rfl hs⟩
    · exact ⟨_, rfl, by rw [ceSays]; exact seq_mk rfl hs⟩
  · rename_i ht
    cases ce_at ht
    exact (takes_decOpe hu).bind fun p ds ⟨p', e, hp⟩ => (takes_decInd hu).last fun i es ⟨i', e', hi⟩ => by
      subst e; subst e'
      exact ⟨.objHasValue p' i', by rw [CE.toObj]; rfl, by rw [ceSays]; exact seq_mk rfl (seq_mk hp hi)⟩
  · rename_i ht
    cases ce_at ht
    exact (takes_decOpe hu).last fun p ds ⟨p', e, hp⟩ => by
      subst e
      exact ⟨.objHasSelf p', by rw [CE.toObj]; rfl, by rw [ceSays]; exact seq_mk rfl hp⟩
  · rename_i ht
    cases ce_at ht
    refine (takes_dataQuant hu hd _).imp fun o ds ⟨p, c, hs, ho⟩ => ?_
    rcases ho with ⟨h0, rfl⟩ | ⟨h0, rfl⟩
    · exact ⟨_, rfl, by rw [ceSays]; exact seq_mk rfl hs⟩
    · exact absurd rfl h0
  · rename_i ht
    cases ce_at ht
    refine (takes_dataQuant hu hd _).imp fun o ds ⟨p, c, hs, ho⟩ => ?_
    rcases ho with ⟨h0, rfl⟩ | ⟨h0, rfl⟩
    · cases h0
    · exact ⟨_, rfl, by rw [ceSays]; exact seq_mk rfl hs⟩
  · rename_i ht
    cases ce_at ht
    refine (takes_dataCard hu hd _).imp fun o ds ⟨u, p, ho⟩ => ?_
    rcases ho with ⟨rfl, hs⟩ | ⟨c, rfl, hs⟩
    · exact ⟨_, rfl, by rw [ceSays]; exact seq_mk rfl hs⟩
    · exact ⟨_, rfl, by rw [ceSays]; exact seq_mk rfl hs⟩
  · rename_i ht
    cases ce_at ht
    refine (takes_dataCard hu hd _).imp fun o ds ⟨u, p, ho⟩ => ?_
    rcases ho with ⟨rfl, hs⟩ | ⟨c, rfl, hs⟩
    · exact ⟨_, rfl, by rw [ceSays]; exact seq_mk rfl hs⟩
    · exact ⟨_, rfl, by rw [ceSays]; exact seq_mk rfl hs⟩
  · rename_i ht
    cases ce_at ht
    refine (takes_dataCard hu hd _).imp fun o ds ⟨u, p, ho⟩ => ?_
    rcases ho with ⟨rfl, hs⟩ | ⟨c, rfl, hs⟩
    · exact ⟨_, rfl, by rw [ceSays]; exact seq_mk rfl hs⟩
    · exact ⟨_, rfl, by rw [ceSays]; exact seq_mk rfl hs⟩
  · rename_i ht
    cases ce_at ht
    refine (takes_decEnt hu .dataProp).bind fun p ds ⟨p', e, hp⟩ => (takes_decLit hu).bind fun l es hl => ?_
    subst e
    cases l with
    | none => exact .bind (P := fun _ _ => False) .unchecked fun _ _ h => h.elim
    | some l =>
      obtain ⟨l', rfl, hl'⟩ := hl l rfl
      refine .last (P := fun y cs => y = l'.toObj ∧ cs = []) (.pure ⟨rfl, rfl⟩) fun y fs ⟨hy, e⟩ => ?_
      subst hy; subst e
      refine ⟨.dataHasValue p' l', by rw [CE.toObj]; rfl, ?_⟩
      rw [ceSays, List.append_nil]; exact seq_mk rfl (seq_mk hp hl')
  · rename_i ht
    cases ce_at ht
    exact (takes_decVec hu h).last fun fs es hv => by
      obtain ⟨ds, rfl, hd⟩ := vec_ce hv
      exact ⟨.inter ds, by rw [CE.toObj]; rfl, by rw [ceSays]; exact seq_mk rfl hd⟩
  · rename_i ht
    cases ce_at ht
    exact (takes_decVec hu h).last fun fs es hv => by
      obtain ⟨ds, rfl, hd⟩ := vec_ce hv
      exact ⟨.union ds, by rw [CE.toObj]; rfl, by rw [ceSays]; exact seq_mk rfl hd⟩
  · rename_i ht
    cases ce_at ht
    exact h.last fun o es ⟨d, e, hd⟩ => by
      subst e
      exact ⟨.compl d, by rw [CE.toObj]; rfl, by rw [ceSays]; exact seq_mk rfl hd⟩
  · rename_i ht
    cases ce_at ht
    exact (takes_decVec hu (takes_decInd hu)).last fun o es ⟨ls, e, hd⟩ => by
      subst e
      exact ⟨.oneOf ls, by rw [CE.toObj]; rfl, by rw [ceSays]; exact seq_mk rfl hd⟩
  · exact .fail

theorem takes_decCE (hu : E.u.Lawful) : ∀ n, Takes E (decCE E n) (says CE.toObj ceSays)
  | 0 => .fail
  | n + 1 => takes_ceStep hu (takes_decDR hu (n + 1)) (takes_decCE hu n)

/-! ## Axioms -/

/-- What the bytes of a field say. -/
def fkSays : FK → Obj → Lang
  | .ce => says CE.toObj ceSays
  | .dr => says DR.toObj drSays
  | .ind => says Ind.toObj indSays
  | .ope => says Ope.toObj opeSays
  | .iri => says (fun i => .prim (.iri i)) fun i => name 0 (.iri i)
  | .iriOrAnon => says AnnotSubj.toObj subjSays
  | .lit => says Lit.toObj literalSays
  | .aval => says AnnotVal.toObj valSays
  | .ent k => says (ent k) fun i => name 0 (.iri i)
  | .vecCE => says (fun xs => .vec false (CE.toObjs xs)) (counted ceSays)
  | .vecInd => says (fun xs => .vec false (xs.map Ind.toObj)) (counted indSays)
  | .vecOpe => says (fun xs => .vec false (xs.map Ope.toObj)) (counted opeSays)
  | .vecDpe => says (fun xs => .vec false (xs.map (ent .dataProp))) (counted fun i => name 0 (.iri i))

theorem takes_whole {x : Dec Obj} {Q : Obj → Lang} (h : Takes E x Q) : Takes E (whole x) (opt Q) :=
  h.last fun o cs ho y e => by cases e; exact ho

theorem takes_decField (hu : E.u.Lawful) (n : Nat) : ∀ k, Takes E (decField E n k) (opt (fkSays k))
  | .ce => takes_whole (takes_decCE hu n)
  | .dr => takes_whole (takes_decDR hu n)
  | .ind => takes_whole (takes_decInd hu)
  | .ope => takes_whole (takes_decOpe hu)
  | .iri => (takes_decIri hu).last fun i cs h y e => by cases e; exact ⟨i, rfl, h⟩
  | .iriOrAnon => takes_whole (takes_decIriOrAnon hu)
  | .lit => takes_decLit hu
  | .aval => takes_decAnnotVal hu
  | .ent k => takes_whole (takes_decEnt hu k)
  | .vecCE => takes_whole ((takes_decVec hu (takes_decCE hu n)).imp fun o cs ⟨xs, e, h⟩ =>
      ⟨xs, by rw [e]; dsimp only; rw [map_ce], h⟩)
  | .vecInd => takes_whole (takes_decVec hu (takes_decInd hu))
  | .vecOpe => takes_whole (takes_decVec hu (takes_decOpe hu))
  | .vecDpe => takes_whole (takes_decVec hu (takes_decEnt hu _))

/-- What the bytes of several fields say. -/
def fsSay : List FK → List Obj → Lang
  | [], fs => fun cs => fs = [] ∧ cs = []
  | k :: ks, fs => fun cs => ∃ x fs', fs = x :: fs' ∧ ∃ a b, cs = a ++ b ∧ fkSays k x a ∧ fsSay ks fs' b

theorem takes_decFields (hu : E.u.Lawful) (n : Nat) : ∀ ks, Takes E (decFields E n ks) fun os cs =>
    ∀ fs, os.mapM id = some fs → fsSay ks fs cs
  | [] => .pure fun fs e => by cases e; exact ⟨rfl, rfl⟩
  | k :: ks => (takes_decField hu n k).bind fun o cs ho => (takes_decFields hu n ks).last fun os ds hos fs e => by
    rw [List.mapM_cons] at e
    obtain ⟨x, h1, e⟩ := Option.bind_eq_some_iff.1 e
    obtain ⟨fs', h2, e⟩ := Option.bind_eq_some_iff.1 e
    cases e
    exact ⟨x, fs', rfl, cs, ds, rfl, ho x h1, hos fs' h2⟩

theorem takes_allWhole (os : List (Option Obj)) : Takes E (allWhole E os) fun fs cs => cs = [] ∧ os.mapM id = some fs := by
  unfold allWhole
  split
  · rename_i e; exact .pure ⟨rfl, e⟩
  · exact .unchecked

/-- An axiom of this type with these fields is what is said. -/
def plainSays (t : OType) (fs : List Obj) : Lang := fun cs =>
  ∃ a : Ax, a.type = t ∧ a.fields = fs ∧ isSub a = false ∧ head a = axTypes.idxOf t + 14 ∧ bodySays a cs

theorem plain_says {t : OType} {ks : List FK} (hk : axFields t = some ks) {fs : List Obj} {cs : List Act}
    (hf : fsSay ks fs cs) : plainSays t fs cs := by
  cases t <;> first | (cases hk; done) | skip
  case aSubClass =>
    cases hk
    obtain ⟨_, _, rfl, a1, _, rfl, ⟨x1, rfl, h1⟩, _, _, rfl, a2, _, rfl, ⟨x2, rfl, h2⟩, rfl, rfl⟩ := hf
    exact ⟨.subClass x1 x2, rfl, rfl, rfl, rfl, by rw [List.append_nil]; exact seq_mk h1 h2⟩
  case aEquivClasses =>
    cases hk
    obtain ⟨_, _, rfl, a1, _, rfl, ⟨x1, rfl, h1⟩, rfl, rfl⟩ := hf
    exact ⟨.equivClasses x1, rfl, rfl, rfl, rfl, by rw [List.append_nil]; exact h1⟩
  case aDisjClasses =>
    cases hk
    obtain ⟨_, _, rfl, a1, _, rfl, ⟨x1, rfl, h1⟩, rfl, rfl⟩ := hf
    exact ⟨.disjClasses x1, rfl, rfl, rfl, rfl, by rw [List.append_nil]; exact h1⟩
  case aDisjUnion =>
    cases hk
    obtain ⟨_, _, rfl, a1, _, rfl, ⟨x1, rfl, h1⟩, _, _, rfl, a2, _, rfl, ⟨x2, rfl, h2⟩, rfl, rfl⟩ := hf
    exact ⟨.disjUnion x1 x2, rfl, rfl, rfl, rfl, by rw [List.append_nil]; exact seq_mk h1 h2⟩
  case aEquivObjProp =>
    cases hk
    obtain ⟨_, _, rfl, a1, _, rfl, ⟨x1, rfl, h1⟩, rfl, rfl⟩ := hf
    exact ⟨.equivObjProp x1, rfl, rfl, rfl, rfl, by rw [List.append_nil]; exact h1⟩
  case aDisjObjProp =>
    cases hk
    obtain ⟨_, _, rfl, a1, _, rfl, ⟨x1, rfl, h1⟩, rfl, rfl⟩ := hf
    exact ⟨.disjObjProp x1, rfl, rfl, rfl, rfl, by rw [List.append_nil]; exact h1⟩
  case aInvObjProp =>
    cases hk
    obtain ⟨_, _, rfl, a1, _, rfl, ⟨x1, rfl, h1⟩, _, _, rfl, a2, _, rfl, ⟨x2, rfl, h2⟩, rfl, rfl⟩ := hf
    exact ⟨.invObjProp x1 x2, rfl, rfl, rfl, rfl, by rw [List.append_nil]; exact seq_mk h1 h2⟩
  case aObjPropDomain =>
    cases hk
    obtain ⟨_, _, rfl, a1, _, rfl, ⟨x1, rfl, h1⟩, _, _, rfl, a2, _, rfl, ⟨x2, rfl, h2⟩, rfl, rfl⟩ := hf
    exact ⟨.objPropDomain x1 x2, rfl, rfl, rfl, rfl, by rw [List.append_nil]; exact seq_mk h1 h2⟩
  case aObjPropRange =>
    cases hk
    obtain ⟨_, _, rfl, a1, _, rfl, ⟨x1, rfl, h1⟩, _, _, rfl, a2, _, rfl, ⟨x2, rfl, h2⟩, rfl, rfl⟩ := hf
    exact ⟨.objPropRange x1 x2, rfl, rfl, rfl, rfl, by rw [List.append_nil]; exact seq_mk h1 h2⟩
  case aFuncObjProp =>
    cases hk
    obtain ⟨_, _, rfl, a1, _, rfl, ⟨x1, rfl, h1⟩, rfl, rfl⟩ := hf
    exact ⟨.objPropChar .func x1, rfl, rfl, rfl, rfl, by rw [List.append_nil]; exact h1⟩
  case aInvFuncObjProp =>
    cases hk
    obtain ⟨_, _, rfl, a1, _, rfl, ⟨x1, rfl, h1⟩, rfl, rfl⟩ := hf
    exact ⟨.objPropChar .invFunc x1, rfl, rfl, rfl, rfl, by rw [List.append_nil]; exact h1⟩
  case aReflObjProp =>
    cases hk
    obtain ⟨_, _, rfl, a1, _, rfl, ⟨x1, rfl, h1⟩, rfl, rfl⟩ := hf
    exact ⟨.objPropChar .refl x1, rfl, rfl, rfl, rfl, by rw [List.append_nil]; exact h1⟩
  case aIrreflObjProp =>
    cases hk
    obtain ⟨_, _, rfl, a1, _, rfl, ⟨x1, rfl, h1⟩, rfl, rfl⟩ := hf
    exact ⟨.objPropChar .irrefl x1, rfl, rfl, rfl, rfl, by rw [List.append_nil]; exact h1⟩
  case aSymmObjProp =>
    cases hk
    obtain ⟨_, _, rfl, a1, _, rfl, ⟨x1, rfl, h1⟩, rfl, rfl⟩ := hf
    exact ⟨.objPropChar .symm x1, rfl, rfl, rfl, rfl, by rw [List.append_nil]; exact h1⟩
  case aAsymmObjProp =>
    cases hk
    obtain ⟨_, _, rfl, a1, _, rfl, ⟨x1, rfl, h1⟩, rfl, rfl⟩ := hf
    exact ⟨.objPropChar .asymm x1, rfl, rfl, rfl, rfl, by rw [List.append_nil]; exact h1⟩
  case aTransObjProp =>
    cases hk
    obtain ⟨_, _, rfl, a1, _, rfl, ⟨x1, rfl, h1⟩, rfl, rfl⟩ := hf
    exact ⟨.objPropChar .trans x1, rfl, rfl, rfl, rfl, by rw [List.append_nil]; exact h1⟩
  case aSubDataProp =>
    cases hk
    obtain ⟨_, _, rfl, a1, _, rfl, ⟨x1, rfl, h1⟩, _, _, rfl, a2, _, rfl, ⟨x2, rfl, h2⟩, rfl, rfl⟩ := hf
    exact ⟨.subDataProp x1 x2, rfl, rfl, rfl, rfl, by rw [List.append_nil]; exact seq_mk h1 h2⟩
  case aEquivDataProp =>
    cases hk
    obtain ⟨_, _, rfl, a1, _, rfl, ⟨x1, rfl, h1⟩, rfl, rfl⟩ := hf
    exact ⟨.equivDataProp x1, rfl, rfl, rfl, rfl, by rw [List.append_nil]; exact h1⟩
  case aDisjDataProp =>
    cases hk
    obtain ⟨_, _, rfl, a1, _, rfl, ⟨x1, rfl, h1⟩, rfl, rfl⟩ := hf
    exact ⟨.disjDataProp x1, rfl, rfl, rfl, rfl, by rw [List.append_nil]; exact h1⟩
  case aDataPropDomain =>
    cases hk
    obtain ⟨_, _, rfl, a1, _, rfl, ⟨x1, rfl, h1⟩, _, _, rfl, a2, _, rfl, ⟨x2, rfl, h2⟩, rfl, rfl⟩ := hf
    exact ⟨.dataPropDomain x1 x2, rfl, rfl, rfl, rfl, by rw [List.append_nil]; exact seq_mk h1 h2⟩
  case aDataPropRange =>
    cases hk
    obtain ⟨_, _, rfl, a1, _, rfl, ⟨x1, rfl, h1⟩, _, _, rfl, a2, _, rfl, ⟨x2, rfl, h2⟩, rfl, rfl⟩ := hf
    exact ⟨.dataPropRange x1 x2, rfl, rfl, rfl, rfl, by rw [List.append_nil]; exact seq_mk h1 h2⟩
  case aFuncDataProp =>
    cases hk
    obtain ⟨_, _, rfl, a1, _, rfl, ⟨x1, rfl, h1⟩, rfl, rfl⟩ := hf
    exact ⟨.funcDataProp x1, rfl, rfl, rfl, rfl, by rw [List.append_nil]; exact h1⟩
  case aDatatypeDef =>
    cases hk
    obtain ⟨_, _, rfl, a1, _, rfl, ⟨x1, rfl, h1⟩, _, _, rfl, a2, _, rfl, ⟨x2, rfl, h2⟩, rfl, rfl⟩ := hf
    exact ⟨.datatypeDef x1 x2, rfl, rfl, rfl, rfl, by rw [List.append_nil]; exact seq_mk h1 h2⟩
  case aHasKey =>
    cases hk
    obtain ⟨_, _, rfl, a1, _, rfl, ⟨x1, rfl, h1⟩, _, _, rfl, a2, _, rfl, ⟨x2, rfl, h2⟩, _, _, rfl, a3, _, rfl, ⟨x3, rfl, h3⟩, rfl, rfl⟩ := hf
    exact ⟨.hasKey x1 x2 x3, rfl, rfl, rfl, rfl, by rw [List.append_nil]; exact seq_mk h1 (seq_mk h2 h3)⟩
  case aSameInd =>
    cases hk
    obtain ⟨_, _, rfl, a1, _, rfl, ⟨x1, rfl, h1⟩, rfl, rfl⟩ := hf
    exact ⟨.sameInd x1, rfl, rfl, rfl, rfl, by rw [List.append_nil]; exact h1⟩
  case aDiffInd =>
    cases hk
    obtain ⟨_, _, rfl, a1, _, rfl, ⟨x1, rfl, h1⟩, rfl, rfl⟩ := hf
    exact ⟨.diffInd x1, rfl, rfl, rfl, rfl, by rw [List.append_nil]; exact h1⟩
  case aClassAssert =>
    cases hk
    obtain ⟨_, _, rfl, a1, _, rfl, ⟨x1, rfl, h1⟩, _, _, rfl, a2, _, rfl, ⟨x2, rfl, h2⟩, rfl, rfl⟩ := hf
    exact ⟨.classAssert x1 x2, rfl, rfl, rfl, rfl, by rw [List.append_nil]; exact seq_mk h1 h2⟩
  case aObjPropAssert =>
    cases hk
    obtain ⟨_, _, rfl, a1, _, rfl, ⟨x1, rfl, h1⟩, _, _, rfl, a2, _, rfl, ⟨x2, rfl, h2⟩, _, _, rfl, a3, _, rfl, ⟨x3, rfl, h3⟩, rfl, rfl⟩ := hf
    exact ⟨.objPropAssert x1 x2 x3, rfl, rfl, rfl, rfl, by rw [List.append_nil]; exact seq_mk h1 (seq_mk h2 h3)⟩
  case aNegObjPropAssert =>
    cases hk
    obtain ⟨_, _, rfl, a1, _, rfl, ⟨x1, rfl, h1⟩, _, _, rfl, a2, _, rfl, ⟨x2, rfl, h2⟩, _, _, rfl, a3, _, rfl, ⟨x3, rfl, h3⟩, rfl, rfl⟩ := hf
    exact ⟨.negObjPropAssert x1 x2 x3, rfl, rfl, rfl, rfl, by rw [List.append_nil]; exact seq_mk h1 (seq_mk h2 h3)⟩
  case aDataPropAssert =>
    cases hk
    obtain ⟨_, _, rfl, a1, _, rfl, ⟨x1, rfl, h1⟩, _, _, rfl, a2, _, rfl, ⟨x2, rfl, h2⟩, _, _, rfl, a3, _, rfl, ⟨x3, rfl, h3⟩, rfl, rfl⟩ := hf
    exact ⟨.dataPropAssert x1 x2 x3, rfl, rfl, rfl, rfl, by rw [List.append_nil]; exact seq_mk h1 (seq_mk h2 h3)⟩
  case aNegDataPropAssert =>
    cases hk
    obtain ⟨_, _, rfl, a1, _, rfl, ⟨x1, rfl, h1⟩, _, _, rfl, a2, _, rfl, ⟨x2, rfl, h2⟩, _, _, rfl, a3, _, rfl, ⟨x3, rfl, h3⟩, rfl, rfl⟩ := hf
    exact ⟨.negDataPropAssert x1 x2 x3, rfl, rfl, rfl, rfl, by rw [List.append_nil]; exact seq_mk h1 (seq_mk h2 h3)⟩
  case aAnnotAssert =>
    cases hk
    obtain ⟨_, _, rfl, a1, _, rfl, ⟨x1, rfl, h1⟩, _, _, rfl, a2, _, rfl, ⟨x2, rfl, h2⟩, _, _, rfl, a3, _, rfl, ⟨x3, rfl, h3⟩, rfl, rfl⟩ := hf
    exact ⟨.annotAssert x1 x2 x3, rfl, rfl, rfl, rfl, by rw [List.append_nil]; exact seq_mk h1 (seq_mk h2 h3)⟩
  case aSubAnnotProp =>
    cases hk
    obtain ⟨_, _, rfl, a1, _, rfl, ⟨x1, rfl, h1⟩, _, _, rfl, a2, _, rfl, ⟨x2, rfl, h2⟩, rfl, rfl⟩ := hf
    exact ⟨.subAnnotProp x1 x2, rfl, rfl, rfl, rfl, by rw [List.append_nil]; exact seq_mk h1 h2⟩
  case aAnnotPropDomain =>
    cases hk
    obtain ⟨_, _, rfl, a1, _, rfl, ⟨x1, rfl, h1⟩, _, _, rfl, a2, _, rfl, ⟨x2, rfl, h2⟩, rfl, rfl⟩ := hf
    exact ⟨.annotPropDomain x1 x2, rfl, rfl, rfl, rfl, by rw [List.append_nil]; exact seq_mk h1 h2⟩
  case aAnnotPropRange =>
    cases hk
    obtain ⟨_, _, rfl, a1, _, rfl, ⟨x1, rfl, h1⟩, _, _, rfl, a2, _, rfl, ⟨x2, rfl, h2⟩, rfl, rfl⟩ := hf
    exact ⟨.annotPropRange x1 x2, rfl, rfl, rfl, rfl, by rw [List.append_nil]; exact seq_mk h1 h2⟩

/-- What the annotations of an axiom say. -/
def partsSay (bit : Bool) (a : Ax) (as : List Annot) : Lang := fun cs =>
  if bit = true then seq (bodySays a) (seq (num as.length) (annotsSay as)) cs else as = [] ∧ bodySays a cs

theorem parts_mk {a : Ax} {bit : Bool} {as : Option (Bool × List Obj)} {bs es : List Act} (hb : bodySays a bs)
    (he : annLang bit as es) : ∃ ds, getImplAnnot a.type a.fields as = (Axiom.mk a ds).toObj ∧ partsSay bit a ds (bs ++ es) := by
  rcases he with ⟨rfl, rfl, rfl⟩ | ⟨rfl, ds, rfl, h⟩
  · exact ⟨[], rfl, rfl, by rw [List.append_nil]; exact hb⟩
  · exact ⟨ds, implAnnots ds, seq_mk hb h⟩

theorem takes_decPlain (hu : E.u.Lawful) (n : Nat) {t : OType} {ks : List FK} (hk : axFields t = some ks) (bit : Bool) :
    Takes E (decPlain E n t ks bit) fun o cs => ∃ a : Axiom, o = a.toObj ∧ isSub a.ax = false ∧
      head a.ax = axTypes.idxOf t + 14 ∧ partsSay bit a.ax a.annots cs :=
  (takes_decFields hu n ks).bind fun os cs hos => (takes_decAnnots hu (takes_decAnnot hu n) bit).bind fun as ds has =>
    (takes_allWhole os).last fun fs es ⟨e, hfs⟩ => by
      subst e
      obtain ⟨a, rfl, rfl, h1, h2, h3⟩ := plain_says hk (hos fs hfs)
      obtain ⟨xs, h4, h5⟩ := parts_mk h3 has
      exact ⟨⟨a, xs⟩, h4, h1, h2, by rw [List.append_nil]; exact h5⟩

theorem takes_decSubOpe (hu : E.u.Lawful) (chain : Bool) : Takes E (decSubOpe E chain) fun o cs =>
    (chain = true ∧ ∃ ps, o = (SubOpe.chain ps).toObj ∧ counted opeSays ps cs) ∨
    (chain = false ∧ ∃ p, o = (SubOpe.ope p).toObj ∧ opeSays p cs) := by
  cases chain with
  | false => exact (takes_decOpe hu).imp fun o cs ⟨p, e, h⟩ => .inr ⟨rfl, p, e, h⟩
  | true => exact (takes_decItems hu (takes_decOpe hu)).last fun os cs ⟨ps, e, h⟩ => .inl ⟨rfl, ps, by rw [e]; rfl, h⟩

theorem takes_decSubSup (hu : E.u.Lawful) (chain : Bool) : Takes E (decSubSup E chain) fun o cs =>
    ∃ x q, o = (x.toObj, Ope.toObj q) ∧ isChain (.subObjProp x q) = chain ∧ bodySays (.subObjProp x q) cs :=
  (takes_decSubOpe hu chain).bind fun o cs ho => (takes_decOpe hu).last fun q ds ⟨q', e, hq⟩ => by
    subst e
    rcases ho with ⟨rfl, ps, rfl, h⟩ | ⟨rfl, p, rfl, h⟩
    · exact ⟨.chain ps, q', rfl, rfl, seq_mk h hq⟩
    · exact ⟨.ope p, q', rfl, rfl, seq_mk h hq⟩

theorem takes_decSubObjProp (hu : E.u.Lawful) (n : Nat) (chain bit : Bool) :
    Takes E (decSubObjProp E n chain bit) fun o cs => o.2 = true → ∃ a : Axiom, o.1 = a.toObj ∧ isSub a.ax = true ∧
      isChain a.ax = chain ∧ partsSay bit a.ax a.annots cs := by
  intro s a s' e
  unfold decSubObjProp at e
  split at e
  · cases e
  · split at e <;> cases e
  · rename_i p q s1 e1
    obtain ⟨hn1, cs, ⟨x, y, h3, h4, h5⟩, h6⟩ := takes_decSubSup hu chain _ _ _ e1
    cases h3
    split at e
    · cases e
    · split at e
      · cases e
      · cases e; exact ⟨hn1, cs, nofun, h6⟩
    · rename_i as s2 e2
      cases e
      obtain ⟨hn2, ds, h7, h8⟩ := takes_decAnnots hu (takes_decAnnot hu n) bit _ _ _ e2
      obtain ⟨xs, h9, h10⟩ := parts_mk h5 h7
      exact ⟨hn2.trans hn1, cs ++ ds, fun _ => ⟨⟨_, xs⟩, h9, rfl, h4, h10⟩, does_append h6 h8⟩

theorem head_sub (x : SubOpe) (q : Ope) : head (.subObjProp x q) % 64 = 19 := by cases x <;> simp [head]

theorem head_decl : ∀ {t : Nat} {k : EntKind} (i : Iri), entTypes[t]? = some k → head (.decl k i) = t + 9
  | 0, _, _, h | 1, _, _, h | 2, _, _, h | 3, _, _, h | 4, _, _, h | 5, _, _, h => by cases h; rfl
  | _ + 6, _, _, h => by cases h

theorem ent_none : ∀ {t : Nat}, entTypes[t]? = none → 6 ≤ t
  | 0, h | 1, h | 2, h | 3, h | 4, h | 5, h => by cases h
  | _ + 6, _ => by omega

theorem ax_at {t : Nat} {o : OType} (h : axTypes[t]? = some o) : axTypes.idxOf o = t ∧ t < 37 := by
  have ht : t < 37 := (List.getElem?_eq_some_iff.1 h).1
  refine ⟨?_, ht⟩
  have key : ∀ t : Fin 37, ∀ o, axTypes[t.val]? = some o → axTypes.idxOf o = t.val := by
    intro t o h
    have : ∀ t : Fin 37, (axTypes[t.val]?).map axTypes.idxOf = some t.val := by decide
    have h' := this t
    rw [h] at h'
    exact Option.some.inj h'
  exact key ⟨t, ht⟩ o h

theorem takes_noLate {x : Dec Obj} {Q : Obj → Lang} (h : Takes E x Q) : Takes E (noLate x) fun o cs => Q o.1 cs :=
  h.last fun _ _ ho => ho

theorem takes_decAxiom (hu : E.u.Lawful) (n : Nat) (c : UInt8) (hc : 9 ≤ c.toNat % 64) :
    Takes E (decAxiom E n c) fun o cs => o.2 = true → ∃ a : Axiom, o.1 = a.toObj ∧ axSays a c cs := by
  unfold decAxiom
  dsimp only
  split
  · rename_i k hk
    have h : Takes E (noLate (do
        let e ← decEnt E k
        let as ← decAnnots E (decAnnot E n) (decide (c.toNat / 64 % 2 = 1))
        pure (getImplAnnot .aDecl [e] as))) fun o cs => ∃ i xs, o.1 = (Axiom.mk (.decl k i) xs).toObj ∧
          partsSay (decide (c.toNat / 64 % 2 = 1)) (.decl k i) xs cs :=
      takes_noLate (Q := fun o cs => ∃ i xs, o = (Axiom.mk (.decl k i) xs).toObj ∧
          partsSay (decide (c.toNat / 64 % 2 = 1)) (.decl k i) xs cs)
        ((takes_decEnt hu k).bind fun e ds ⟨i, he, hi⟩ =>
          (takes_decAnnots hu (takes_decAnnot hu n) _).last fun as es has => by
            subst he
            obtain ⟨xs, h1, h2⟩ := parts_mk (a := .decl k i) hi has
            exact ⟨i, xs, h1, h2⟩)
    refine h.imp fun o cs ⟨i, xs, h1, h2⟩ _ => ⟨_, h1, ?_, nofun, ?_⟩
    · have := head_decl i hk
      rw [this]
      omega
    · simpa [partsSay] using h2
  · rename_i hn
    have hn := ent_none hn
    split
    · rename_i ht
      refine (takes_decSubObjProp hu n _ _).imp fun o cs h h' => ?_
      obtain ⟨a, h1, h2, h3, h4⟩ := h h'
      obtain ⟨⟨⟩, as⟩ := a <;> first | (cases h2; done) | skip
      refine ⟨_, h1, ?_, ?_, ?_⟩
      · have := (ax_at ht).1
        have e : axTypes.idxOf .aSubObjProp = 5 := by decide
        rw [head_sub]
        omega
      · intro _; rw [h3]; simp
      · simpa [partsSay] using h4
    · rename_i ty hty ht
      split
      · rename_i ks hk
        refine (takes_noLate (takes_decPlain hu n hk _)).imp fun o cs ⟨a, h1, h2, h3, h4⟩ _ => ⟨a, h1, ?_, ?_, ?_⟩
        · have := ax_at ht
          rw [h3]
          omega
        · intro h; rw [h2] at h; cases h
        · simpa [partsSay] using h4
      · exact .fail
    · exact .fail

end

end Cowl.Wire
