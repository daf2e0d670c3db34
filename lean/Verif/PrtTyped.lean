import Verif.TypedLemmas
import Verif.PrtDoc
import Verif.PrtFuelLemmas
import Verif.PrtNormSpec
/-! # Lemmas: what the ProtocOWL reader hands over -/
namespace Cowl.Ast
open Prt

/-- Results of the function have the property. -/
def Gives {α : Type} (x : Dec α) (Q : α → Prop) : Prop := ∀ s a s', x s = .ok a s' → Q a

section
variable {α β : Type}

theorem Gives.pure {a : α} {Q : α → Prop} (h : Q a) : Gives (pure a : Dec α) Q := by
  intro s b s' e; cases e; exact h

theorem Gives.fail {Q : α → Prop} : Gives (fail : Dec α) Q := fun _ _ _ e => by cases e

theorem Gives.unchecked {E : Env} {Q : α → Prop} : Gives (unchecked E : Dec α) Q := by
  intro s a s' h
  unfold Prt.unchecked at h
  split at h <;> cases h

theorem Gives.bind {x : Dec α} {f : α → Dec β} {P : α → Prop} {Q : β → Prop} (h : Gives x P) (hf : ∀ a, P a → Gives (f a) Q) :
    Gives (x >>= f) Q := by
  intro s b s' e
  simp only [bind_def, Dec.bind] at e
  cases hx : x s with
  | ok a s1 => rw [hx] at e; exact hf a (h s a s1 hx) s1 b s' e
  | err => rw [hx] at e; cases e
  | ub => rw [hx] at e; cases e

theorem Gives.any {x : Dec α} : Gives x fun _ => True := fun _ _ _ _ => trivial

theorem Gives.then {x : Dec α} {f : α → Dec β} {Q : β → Prop} (hf : ∀ a, Gives (f a) Q) : Gives (x >>= f) Q :=
  Gives.any.bind fun a _ => hf a

theorem Gives.ite {c : Prop} [Decidable c] {x y : Dec α} {Q : α → Prop} (h : Gives x Q) (h' : Gives y Q) : Gives (if c then x else y) Q := by
  split <;> assumption

end

/-- A class expression. -/
def IsCE (R : Req) (o : Obj) : Prop := ∃ c : CE, o = c.toObj ∧ c.Meets R
/-- A data range. -/
def IsDR (R : Req) (o : Obj) : Prop := ∃ c : DR, o = c.toObj ∧ c.Meets R
/-- A literal in normal form. -/
def IsLit (o : Obj) : Prop := ∃ l : Lit, o = l.toObj ∧ prtSizes.lit l
/-- An entity of a kind. -/
def IsEnt (k : EntKind) (o : Obj) : Prop := ∃ i, o = ent k i
/-- An individual. -/
def IsInd (o : Obj) : Prop := ∃ i : Ind, o = i.toObj
/-- An object property expression. -/
def IsOpe (o : Obj) : Prop := ∃ i : Ope, o = i.toObj
/-- An annotation value. -/
def IsVal (o : Obj) : Prop := ∃ v : AnnotVal, o = v.toObj ∧ v.Meets prtSizes
/-- An annotation subject. -/
def IsSubj (o : Obj) : Prop := ∃ v : AnnotSubj, o = v.toObj

theorem loose_ind (x : Ind) : x.Meets prtSizes := by cases x <;> trivial
theorem loose_ope (x : Ope) : x.Meets prtSizes := by cases x <;> trivial
theorem loose_subj (x : AnnotSubj) : x.Meets prtSizes := by cases x <;> trivial

theorem list_dr : ∀ {xs : List Obj}, (∀ x ∈ xs, IsDR prtSizes x) → ∃ ds : List DR, xs = DR.toObjs ds ∧ DR.AllMeet prtSizes ds ∧ ds.length = xs.length
  | [], _ => ⟨[], rfl, trivial, rfl⟩
  | x :: xs, h => by
    obtain ⟨d, rfl, hd⟩ := h x (.head _)
    obtain ⟨ds, e, h1, h2⟩ := list_dr fun x hx => h x (.tail _ hx)
    exact ⟨d :: ds, by rw [DR.toObjs, ← e], ⟨hd, h1⟩, by simp [h2]⟩

theorem list_ce : ∀ {xs : List Obj}, (∀ x ∈ xs, IsCE prtSizes x) → ∃ ds : List CE, xs = CE.toObjs ds ∧ CE.AllMeet prtSizes ds ∧ ds.length = xs.length
  | [], _ => ⟨[], rfl, trivial, rfl⟩
  | x :: xs, h => by
    obtain ⟨d, rfl, hd⟩ := h x (.head _)
    obtain ⟨ds, e, h1, h2⟩ := list_ce fun x hx => h x (.tail _ hx)
    exact ⟨d :: ds, by rw [CE.toObjs, ← e], ⟨hd, h1⟩, by simp [h2]⟩

theorem list_annot : ∀ {xs : List Obj}, (∀ x ∈ xs, IsAnnot prtSizes x) → ∃ ds : List Annot, xs = Annot.toObjs ds ∧ Annot.AllMeet prtSizes ds ∧ ds.length = xs.length
  | [], _ => ⟨[], rfl, trivial, rfl⟩
  | x :: xs, h => by
    obtain ⟨d, rfl, hd⟩ := h x (.head _)
    obtain ⟨ds, e, h1, h2⟩ := list_annot fun x hx => h x (.tail _ hx)
    exact ⟨d :: ds, by rw [Annot.toObjs, ← e], ⟨hd, h1⟩, by simp [h2]⟩

section
variable {E : Env}

theorem gives_getEnt (t : EntKind) (k : Nat) : Gives (getEnt E t k) (IsEnt t) := .then fun i => .pure ⟨i, rfl⟩

theorem gives_getInd (k : Nat) : Gives (getInd E k) IsInd := .then fun i => by
  cases i with
  | iri i => exact .pure ⟨.named i, rfl⟩
  | anon s => exact .pure ⟨.anon s, rfl⟩

theorem gives_getIriOrAnon (k : Nat) : Gives (getIriOrAnon E k) IsSubj := .then fun i => by
  cases i with
  | iri i => exact .pure ⟨.iri i, rfl⟩
  | anon s => exact .pure ⟨.anon s, rfl⟩

theorem gives_decEnt (t : EntKind) : Gives (decEnt E t) (IsEnt t) := .then fun k => gives_getEnt t k
theorem gives_decInd : Gives (decInd E) IsInd := .then fun k => gives_getInd k
theorem gives_decIriOrAnon : Gives (decIriOrAnon E) IsSubj := .then fun k => gives_getIriOrAnon k

theorem gives_decOpe : Gives (decOpe E) IsOpe := .then fun k => .ite
  ((gives_decEnt .objProp).bind fun p ⟨i, e⟩ => by subst e; exact .pure ⟨.inv i, rfl⟩)
  fun s a s' h => by
    obtain ⟨i, rfl⟩ := gives_getEnt .objProp (k - 1) s a s' h
    exact ⟨.prop i, rfl⟩

theorem gives_varint (hu : E.u.Lawful) : Gives (varint E) fun n => n < 4294967296 := by
  intro s n s' h
  unfold varint at h
  split at h
  · rename_i e; cases h; exact (hu.varint_lt e).1
  · cases h

theorem gives_bytes (n : Nat) : Gives (bytes n) fun v => v.length ≤ n := by
  intro s v s' h
  unfold bytes at h
  split at h
  · cases h; exact (List.length_take_le _ _)
  · cases h

theorem gives_imp {α : Type} {x : Dec α} {P Q : α → Prop} (h : Gives x P) (hi : ∀ a, P a → Q a) : Gives x Q :=
  fun s a s' e => hi a (h s a s' e)

theorem gives_decStr (hu : E.u.Lawful) : Gives (decStr E) fun v => v.length < 4294967296 :=
  (gives_varint hu).bind fun n hn => gives_imp (gives_bytes n) fun _ h => Nat.lt_of_le_of_lt h hn

theorem gives_decValue (hu : E.u.Lawful) (k : Nat) : Gives (decValue E k) fun v => v.length < 4294967296 := by
  have hb : ∀ b, (boolText b).length < 4294967296 := by decide
  have hi : ∀ v, (fmtInt v).length < 4294967296 := fun v => Nat.lt_of_le_of_lt (fmtInt_length v) (by decide)
  have hn : ∀ v, (fmtUint v).length < 4294967296 := fun v => Nat.lt_of_le_of_lt (fmtUint_length v) (by decide)
  have hf : ∀ w f, (fixedText w f).length ≤ 22 := fun w f => by
    unfold fixedText
    have := fmtInt_length w
    have := fmtUint_length f
    simp only [List.length_append, List.length_cons, List.length_reverse]
    omega
  unfold decValue
  split
  · exact gives_decStr hu
  · exact .then fun b => .ite (.pure (hb _)) (.ite (.pure (hb _)) .fail)
  · exact .then fun v => .pure (hi _)
  · exact .then fun v => .pure (hn _)
  · exact .then fun w => .then fun f => .pure (Nat.lt_of_le_of_lt (hf w f) (by decide))
  · refine .then fun w => .then fun f => .then fun e => .pure ?_
    have := hf w f
    have := fmtInt_length e
    simp only [List.length_append, List.length_cons]
    omega
  · exact .fail

theorem literal_short {v : Str} {a : LitArg} {v' : Str} {t : LitTag} (h : literal v a = .lit v' t) (hv : v.length < 4294967296)
    (ha : ∀ l, a = .lang l → l.length < 4294967296) : LitShort ⟨v', t⟩ := by
  have hl : ∀ l : Str, (lower l).length = l.length := fun l => by simp [lower]
  have hs : literalString v = .lit v' t → LitShort ⟨v', t⟩ := by
    intro h
    unfold literalString at h
    injection h with h1 h2
    subst h1; subst h2
    exact ⟨hv, nofun⟩
  cases a with
  | none => exact hs h
  | lang l =>
    unfold literal literalLang at h
    dsimp only at h
    split at h
    · exact hs h
    · injection h with h1 h2
      subst h1; subst h2
      exact ⟨hv, fun s e => by cases e; rw [hl]; exact ha l rfl⟩
  | dt i =>
    unfold literal at h
    dsimp only at h
    split at h
    · unfold literalParseLang at h
      dsimp only at h
      split at h
      · cases h
      · injection h with h1 h2
        subst h1; subst h2
        refine ⟨Nat.lt_of_le_of_lt (List.length_take_le' _ _) hv, fun s e => ?_⟩
        cases e
        rw [hl, List.length_drop]
        omega
    · injection h with h1 h2
      subst h1; subst h2
      exact ⟨hv, nofun⟩

theorem gives_lit {v : Str} (hv : v.length < 4294967296) {a : LitArg} (ha : ∀ l, a = .lang l → l.length < 4294967296) :
    Gives (ofLitRes E (literal v a)) IsLit := by
  cases e : literal v a with
  | lit v' t => exact .pure ⟨⟨v', t⟩, rfl, literal_normal e, literal_short e hv ha⟩
  | ub => exact .unchecked

theorem gives_decLit (hu : E.u.Lawful) : Gives (decLit E) fun o => ∀ x, o = some x → IsLit x := .then fun h =>
  (gives_decValue hu _).bind fun v hv => by
  split
  · exact (gives_lit hv (fun _ e => by cases e)).bind fun o ho => .pure fun x e => by cases e; exact ho
  · exact (gives_decStr hu).bind fun l hl => (gives_lit hv fun l e => by cases e; exact hl).bind fun o ho =>
      .pure fun x e => by cases e; exact ho
  · exact .then fun i => (gives_lit hv (fun _ e => by cases e)).bind fun o ho => .pure fun x e => by cases e; exact ho
  · exact .pure nofun

theorem gives_decAnnotVal (hu : E.u.Lawful) : Gives (decAnnotVal E) fun o => ∀ x, o = some x → IsVal x := .then fun k => .ite
  (fun s a s' h x e => by
    obtain ⟨l, rfl, hl⟩ := gives_decLit hu s a s' h x e
    exact ⟨.lit l, rfl, hl⟩)
  ((gives_getIriOrAnon _).bind fun o ⟨v, e⟩ => .pure fun x e' => by
    cases e'; subst e
    cases v with
    | iri i => exact ⟨.iri i, rfl, trivial⟩
    | anon s => exact ⟨.anon s, rfl, trivial⟩)

theorem gives_notNull {x : Dec (Option Obj)} {Q : Obj → Prop} (h : Gives x fun o => ∀ y, o = some y → Q y) : Gives (notNull x) Q :=
  h.bind fun o ho => by
    cases o with
    | none => exact .fail
    | some o => exact .pure (ho o rfl)

theorem gives_decMany {item : Dec Obj} {Q : Obj → Prop} (h : Gives item Q) : ∀ n, Gives (decMany item n) fun xs => xs.length = n ∧ ∀ x ∈ xs, Q x
  | 0 => .pure ⟨rfl, nofun⟩
  | n + 1 => h.bind fun x hx => (gives_decMany h n).bind fun xs hxs => .pure ⟨by simp [hxs.1], fun y hy =>
      (List.mem_cons.1 hy).elim (fun e => e ▸ hx) (hxs.2 y)⟩

theorem gives_decItems (hu : E.u.Lawful) {item : Dec Obj} {Q : Obj → Prop} (h : Gives item Q) : Gives (decItems E item) fun xs => xs.length < 4294967296 ∧ ∀ x ∈ xs, Q x :=
  (gives_varint hu).bind fun n hn => gives_imp (gives_decMany h n) fun _ h => ⟨h.1 ▸ hn, h.2⟩

theorem gives_decVec (hu : E.u.Lawful) {item : Dec Obj} {Q : Obj → Prop} (h : Gives item Q) :
    Gives (decVec E item) fun o => ∃ xs, o = .vec false xs ∧ xs.length < 4294967296 ∧ ∀ x ∈ xs, Q x :=
  (gives_decItems hu h).bind fun xs hx => .pure ⟨xs, rfl, hx⟩

theorem gives_decFacet (hu : E.u.Lawful) : Gives (decFacet E) fun o => ∃ f : Iri × Lit, o = facetObj f ∧ prtSizes.lit f.2 :=
  .then fun i => (gives_notNull (gives_decLit hu)).bind fun l ⟨l', e, hl⟩ => by subst e; exact .pure ⟨(i, l'), rfl, hl⟩

theorem gives_decAnnots (hu : E.u.Lawful) {item : Dec Obj} {Q : Obj → Prop} (h : Gives item Q) (b : Bool) :
    Gives (decAnnots E item b) fun as => as = none ∨ ∃ xs, as = some (false, xs) ∧ xs.length < 4294967296 ∧ ∀ x ∈ xs, Q x :=
  .ite ((gives_decItems hu h).bind fun xs hx => .pure (.inr ⟨xs, rfl, hx⟩)) (.pure (.inl rfl))

theorem implAnnotT {t : OType} {fs : List Obj} {as : Option (Bool × List Obj)}
    (h : as = none ∨ ∃ xs, as = some (false, xs) ∧ xs.length < 4294967296 ∧ ∀ x ∈ xs, IsAnnot prtSizes x) :
    ∃ ds, getImplAnnot t fs as = annotated t fs (Annot.toObjs ds) ∧ Annot.AllMeet prtSizes ds ∧ ds.length < 4294967296 := by
  rcases h with rfl | ⟨xs, rfl, hl, h⟩
  · exact ⟨[], rfl, trivial, by decide⟩
  · obtain ⟨ds, rfl, hd, e⟩ := list_annot h
    refine ⟨ds, ?_, hd, e ▸ hl⟩
    cases Annot.toObjs ds <;> rfl

theorem gives_decAnnot (hu : E.u.Lawful) : ∀ n, Gives (decAnnot E n) (IsAnnot prtSizes)
  | 0 => .fail
  | n + 1 => .then fun k => .then fun i => (gives_notNull (gives_decAnnotVal hu)).bind fun v ⟨v', e, hv⟩ =>
    (gives_decAnnots hu (gives_decAnnot hu n) _).bind fun as has => by
      subst e
      obtain ⟨ds, e, hd, hl⟩ := implAnnotT (t := .annotation) (fs := [.prim (.ent .annotProp i), v'.toObj]) has
      refine .pure ⟨.mk i v' ds, ?_, trivial, hv, hd, hl⟩
      rw [e, Annot.toObj]; rfl

theorem gives_drStep (hu : E.u.Lawful) {rec : Dec Obj} (h : Gives rec (IsDR prtSizes)) : Gives (drStep E rec) (IsDR prtSizes) := .then fun t => by
  refine .ite (fun s a s' h => ?_) ?_
  · obtain ⟨i, rfl⟩ := gives_getEnt _ _ s a s' h
    exact ⟨.dt i, rfl, trivial⟩
  split
  · exact (gives_decEnt _).bind fun d ⟨i, e⟩ => (gives_decVec hu (gives_decFacet hu)).bind fun fs ⟨xs, e', hl, hx⟩ => by
      subst e; subst e'
      obtain ⟨gs, rfl, hg⟩ := all_map hx
      exact .pure ⟨.restr i gs, rfl, trivial, List.length_map (as := gs) facetObj ▸ hl, fun f hf => ⟨trivial, hg f hf⟩⟩
  · exact (gives_decVec hu h).bind fun v ⟨xs, e, hl, hx⟩ => by
      subst e; obtain ⟨ds, rfl, hd, e⟩ := list_dr hx; exact .pure ⟨.inter ds, rfl, e ▸ hl, hd⟩
  · exact (gives_decVec hu h).bind fun v ⟨xs, e, hl, hx⟩ => by
      subst e; obtain ⟨ds, rfl, hd, e⟩ := list_dr hx; exact .pure ⟨.union ds, rfl, e ▸ hl, hd⟩
  · exact h.bind fun d ⟨x, e, hx⟩ => by subst e; exact .pure ⟨.compl x, rfl, hx⟩
  · exact (gives_decVec hu (gives_notNull (gives_decLit hu))).bind fun v ⟨xs, e, hn, hx⟩ => by
      subst e; obtain ⟨ls, rfl, hl⟩ := all_map hx; exact .pure ⟨.oneOf ls, rfl, List.length_map (as := ls) Lit.toObj ▸ hn, hl⟩
  · exact .fail

theorem gives_decDR (hu : E.u.Lawful) : ∀ n, Gives (decDR E n) (IsDR prtSizes)
  | 0 => .fail
  | n + 1 => gives_drStep hu (gives_decDR hu n)

theorem gives_decIf {x : Dec Obj} {Q : Obj → Prop} (h : Gives x Q) (b : Bool) : Gives (decIf b x) fun o => o = none ∨ ∃ y, o = some y ∧ Q y :=
  .ite (h.bind fun o ho => .pure (.inr ⟨o, rfl, ho⟩)) (.pure (.inl rfl))

theorem gives_objQuant {ce : Dec Obj} (h : Gives ce (IsCE prtSizes)) (qt : Nat) : Gives (decObjQuant E ce qt) (IsCE prtSizes) :=
  gives_decOpe.bind fun p ⟨p', e⟩ => h.bind fun c ⟨c', e', hc⟩ => by
    subst e; subst e'
    unfold objQuant
    split
    · exact .fail
    · refine .pure ?_
      rw [quant_obj]
      by_cases hq : qt = 0
      · exact ⟨.objSome p' c', by rw [CE.toObj, if_pos hq], loose_ope _, hc⟩
      · exact ⟨.objAll p' c', by rw [CE.toObj, if_neg hq], loose_ope _, hc⟩

theorem gives_dataQuant {dr : Dec Obj} (h : Gives dr (IsDR prtSizes)) (qt : Nat) : Gives (decDataQuant E dr qt) (IsCE prtSizes) :=
  (gives_decEnt _).bind fun p ⟨p', e⟩ => h.bind fun c ⟨c', e', hc⟩ => by
    subst e; subst e'
    unfold dataQuant
    split
    · exact .fail
    · refine .pure ?_
      rw [quant_data]
      by_cases hq : qt = 0
      · exact ⟨.dataSome p' c', by rw [CE.toObj, if_pos hq], trivial, hc⟩
      · exact ⟨.dataAll p' c', by rw [CE.toObj, if_neg hq], trivial, hc⟩

theorem half (n : Nat) (h : n < 4294967296) : ∃ u : UInt32, n / 2 = u.toNat ∧ u.toNat < 2147483648 := by
  have e : (UInt32.ofNat (n / 2)).toNat = n / 2 := by rw [UInt32.toNat_ofNat', Nat.mod_eq_of_lt (by omega)]
  exact ⟨UInt32.ofNat (n / 2), e.symm, by rw [e]; omega⟩

theorem gives_objCard (hu : E.u.Lawful) {ce : Dec Obj} (h : Gives ce (IsCE prtSizes)) (ct : Nat) : Gives (decObjCard E ce ct) (IsCE prtSizes) :=
  (gives_varint hu).bind fun n hn => gives_decOpe.bind fun p ⟨p', e⟩ => (gives_decIf h _).bind fun c hc => by
    subst e
    obtain ⟨u, hu, hc'⟩ := half n hn
    rw [hu]
    rcases hc with rfl | ⟨_, rfl, c', rfl, hc⟩
    · match ct with
      | 0 => exact .pure ⟨.objCard .min u p', rfl, loose_ope _, hc'⟩
      | 1 => exact .pure ⟨.objCard .max u p', rfl, loose_ope _, hc'⟩
      | 2 => exact .pure ⟨.objCard .exact u p', rfl, loose_ope _, hc'⟩
      | _ + 3 => exact .fail
    · match ct with
      | 0 => exact .pure ⟨.objCardQ .min u p' c', rfl, loose_ope _, hc, hc'⟩
      | 1 => exact .pure ⟨.objCardQ .max u p' c', rfl, loose_ope _, hc, hc'⟩
      | 2 => exact .pure ⟨.objCardQ .exact u p' c', rfl, loose_ope _, hc, hc'⟩
      | _ + 3 => exact .fail

theorem gives_dataCard (hu : E.u.Lawful) {dr : Dec Obj} (h : Gives dr (IsDR prtSizes)) (ct : Nat) : Gives (decDataCard E dr ct) (IsCE prtSizes) :=
  (gives_varint hu).bind fun n hn => (gives_decEnt _).bind fun p ⟨p', e⟩ => (gives_decIf h _).bind fun c hc => by
    subst e
    obtain ⟨u, hu, hc'⟩ := half n hn
    rw [hu]
    rcases hc with rfl | ⟨_, rfl, c', rfl, hc⟩
    · match ct with
      | 0 => exact .pure ⟨.dataCard .min u p', rfl, trivial, hc'⟩
      | 1 => exact .pure ⟨.dataCard .max u p', rfl, trivial, hc'⟩
      | 2 => exact .pure ⟨.dataCard .exact u p', rfl, trivial, hc'⟩
      | _ + 3 => exact .fail
    · match ct with
      | 0 => exact .pure ⟨.dataCardQ .min u p' c', rfl, trivial, hc, hc'⟩
      | 1 => exact .pure ⟨.dataCardQ .max u p' c', rfl, trivial, hc, hc'⟩
      | 2 => exact .pure ⟨.dataCardQ .exact u p' c', rfl, trivial, hc, hc'⟩
      | _ + 3 => exact .fail

theorem gives_ceStep (hu : E.u.Lawful) {dr rec : Dec Obj} (hd : Gives dr (IsDR prtSizes)) (h : Gives rec (IsCE prtSizes)) :
    Gives (ceStep E dr rec) (IsCE prtSizes) := .then fun t => by
  refine .ite (fun s a s' h => ?_) ?_
  · obtain ⟨i, rfl⟩ := gives_getEnt _ _ s a s' h
    exact ⟨.cls i, rfl, trivial⟩
  split
  · exact gives_objQuant h _
  · exact gives_objQuant h _
  · exact gives_objCard hu h _
  · exact gives_objCard hu h _
  · exact gives_objCard hu h _
  · exact gives_decOpe.bind fun p ⟨p', e⟩ => gives_decInd.bind fun i ⟨i', e'⟩ => by
      subst e; subst e'; exact .pure ⟨.objHasValue p' i', rfl, loose_ope _, loose_ind _⟩
  · exact gives_decOpe.bind fun p ⟨p', e⟩ => by subst e; exact .pure ⟨.objHasSelf p', rfl, loose_ope _⟩
  · exact gives_dataQuant hd _
  · exact gives_dataQuant hd _
  · exact gives_dataCard hu hd _
  · exact gives_dataCard hu hd _
  · exact gives_dataCard hu hd _
  · refine (gives_decEnt _).bind fun p ⟨p', e⟩ => (gives_decLit hu).bind fun l hl => ?_
    subst e
    cases l with
    | none => exact .bind (P := fun _ => False) .unchecked fun _ h => h.elim
    | some l =>
      obtain ⟨l', rfl, hl'⟩ := hl l rfl
      exact .bind (P := fun y => y = l'.toObj) (.pure rfl) fun y hy => by
        subst hy; exact .pure ⟨.dataHasValue p' l', rfl, trivial, hl'⟩
  · exact (gives_decVec hu h).bind fun v ⟨xs, e, hl, hx⟩ => by
      subst e; obtain ⟨ds, rfl, hd, e⟩ := list_ce hx; exact .pure ⟨.inter ds, rfl, e ▸ hl, hd⟩
  · exact (gives_decVec hu h).bind fun v ⟨xs, e, hl, hx⟩ => by
      subst e; obtain ⟨ds, rfl, hd, e⟩ := list_ce hx; exact .pure ⟨.union ds, rfl, e ▸ hl, hd⟩
  · exact h.bind fun d ⟨x, e, hx⟩ => by subst e; exact .pure ⟨.compl x, rfl, hx⟩
  · exact (gives_decVec hu gives_decInd).bind fun v ⟨xs, e, hn, hx⟩ => by
      subst e; obtain ⟨is, rfl⟩ := all_plain hx; exact .pure ⟨.oneOf is, rfl, List.length_map (as := is) Ind.toObj ▸ hn, fun i _ => loose_ind i⟩
  · exact .fail

theorem gives_decCE (hu : E.u.Lawful) : ∀ n, Gives (decCE E n) (IsCE prtSizes)
  | 0 => .fail
  | n + 1 => gives_ceStep hu (gives_decDR hu (n + 1)) (gives_decCE hu n)

/-! ## Axioms -/

/-- What a field is. -/
def FkOk : FK → Obj → Prop
  | .ce, o => IsCE prtSizes o
  | .dr, o => IsDR prtSizes o
  | .ind, o => IsInd o
  | .ope, o => IsOpe o
  | .iri, o => ∃ i, o = .prim (.iri i)
  | .iriOrAnon, o => IsSubj o
  | .lit, o => IsLit o
  | .aval, o => IsVal o
  | .ent k, o => IsEnt k o
  | .vecCE, o => ∃ xs : List CE, o = .vec false (CE.toObjs xs) ∧ CE.AllMeet prtSizes xs ∧ xs.length < 4294967296
  | .vecInd, o => ∃ xs : List Ind, o = .vec false (xs.map Ind.toObj) ∧ xs.length < 4294967296
  | .vecOpe, o => ∃ xs : List Ope, o = .vec false (xs.map Ope.toObj) ∧ xs.length < 4294967296
  | .vecDpe, o => ∃ xs : List Iri, o = .vec false (xs.map (ent .dataProp)) ∧ xs.length < 4294967296

theorem gives_whole {x : Dec Obj} {Q : Obj → Prop} (h : Gives x Q) : Gives (whole x) fun o => ∀ y, o = some y → Q y :=
  h.bind fun o ho => .pure fun y e => by cases e; exact ho

theorem gives_decField (hu : E.u.Lawful) (n : Nat) : ∀ k, Gives (decField E n k) fun o => ∀ y, o = some y → FkOk k y
  | .ce => gives_whole (gives_decCE hu n)
  | .dr => gives_whole (gives_decDR hu n)
  | .ind => gives_whole gives_decInd
  | .ope => gives_whole gives_decOpe
  | .iri => .then fun i => .pure fun y e => by cases e; exact ⟨i, rfl⟩
  | .iriOrAnon => gives_whole gives_decIriOrAnon
  | .lit => gives_decLit hu
  | .aval => gives_decAnnotVal hu
  | .ent k => gives_whole (gives_decEnt k)
  | .vecCE => gives_whole (gives_imp (gives_decVec hu (gives_decCE hu n)) fun o ⟨xs, e, hl, hx⟩ => by
      obtain ⟨cs, rfl, hc, e'⟩ := list_ce hx; exact ⟨cs, e, hc, e' ▸ hl⟩)
  | .vecInd => gives_whole (gives_imp (gives_decVec hu gives_decInd) fun o ⟨xs, e, hl, hx⟩ => by
      obtain ⟨cs, rfl⟩ := all_plain hx; exact ⟨cs, e, by simpa using hl⟩)
  | .vecOpe => gives_whole (gives_imp (gives_decVec hu gives_decOpe) fun o ⟨xs, e, hl, hx⟩ => by
      obtain ⟨cs, rfl⟩ := all_plain hx; exact ⟨cs, e, by simpa using hl⟩)
  | .vecDpe => gives_whole (gives_imp (gives_decVec hu (gives_decEnt _)) fun o ⟨xs, e, hl, hx⟩ => by
      obtain ⟨cs, rfl⟩ := all_plain hx; exact ⟨cs, e, by simpa using hl⟩)

/-- Fields, none of which may be NULL. -/
def FsOk : List FK → List Obj → Prop
  | [], fs => fs = []
  | k :: ks, fs => ∃ x fs', fs = x :: fs' ∧ FkOk k x ∧ FsOk ks fs'

theorem gives_decFields (hu : E.u.Lawful) (n : Nat) : ∀ ks, Gives (decFields E n ks) fun os => ∀ fs, os.mapM id = some fs → FsOk ks fs
  | [] => .pure fun fs e => by cases e; rfl
  | k :: ks => (gives_decField hu n k).bind fun o ho => (gives_decFields hu n ks).bind fun os hos => .pure fun fs e => by
    rw [List.mapM_cons] at e
    obtain ⟨x, h1, e⟩ := Option.bind_eq_some_iff.1 e
    obtain ⟨fs', h2, e⟩ := Option.bind_eq_some_iff.1 e
    cases e
    exact ⟨x, fs', rfl, ho x h1, hos fs' h2⟩

theorem gives_allWhole (os : List (Option Obj)) : Gives (allWhole E os) fun fs => os.mapM id = some fs := by
  unfold allWhole
  split
  · rename_i e; exact .pure e
  · exact .unchecked

theorem ax_loose (a : Ax) (m : a.Meets prtSizes) {as : Option (Bool × List Obj)}
    (h : as = none ∨ ∃ xs, as = some (false, xs) ∧ xs.length < 4294967296 ∧ ∀ x ∈ xs, IsAnnot prtSizes x) : IsAx prtSizes (getImplAnnot a.type a.fields as) := by
  obtain ⟨ds, e, hd, hl⟩ := implAnnotT (t := a.type) (fs := a.fields) h
  exact ⟨⟨a, ds⟩, e, m, hd, hl⟩

theorem plain_ok {t : OType} {ks : List FK} (hk : axFields t = some ks) {fs : List Obj} (hf : FsOk ks fs) {as : Option (Bool × List Obj)}
    (h : as = none ∨ ∃ xs, as = some (false, xs) ∧ xs.length < 4294967296 ∧ ∀ x ∈ xs, IsAnnot prtSizes x) : IsAx prtSizes (getImplAnnot t fs as) := by
  cases t <;> first | (cases hk; done) | skip
  case aSubClass =>
    cases hk
    obtain ⟨_, _, rfl, ⟨x1, rfl, h1⟩, _, _, rfl, ⟨x2, rfl, h2⟩, rfl⟩ := hf
    exact ax_loose (.subClass x1 x2) ⟨h1, h2⟩ h
  case aEquivClasses =>
    cases hk
    obtain ⟨_, _, rfl, ⟨x1, rfl, h1, l1⟩, rfl⟩ := hf
    exact ax_loose (.equivClasses x1) ⟨l1, h1⟩ h
  case aDisjClasses =>
    cases hk
    obtain ⟨_, _, rfl, ⟨x1, rfl, h1, l1⟩, rfl⟩ := hf
    exact ax_loose (.disjClasses x1) ⟨l1, h1⟩ h
  case aDisjUnion =>
    cases hk
    obtain ⟨_, _, rfl, ⟨x1, rfl⟩, _, _, rfl, ⟨x2, rfl, h2, l2⟩, rfl⟩ := hf
    exact ax_loose (.disjUnion x1 x2) ⟨trivial, l2, h2⟩ h
  case aEquivObjProp =>
    cases hk
    obtain ⟨_, _, rfl, ⟨x1, rfl, l1⟩, rfl⟩ := hf
    exact ax_loose (.equivObjProp x1) ⟨l1, fun i _ => loose_ope i⟩ h
  case aDisjObjProp =>
    cases hk
    obtain ⟨_, _, rfl, ⟨x1, rfl, l1⟩, rfl⟩ := hf
    exact ax_loose (.disjObjProp x1) ⟨l1, fun i _ => loose_ope i⟩ h
  case aInvObjProp =>
    cases hk
    obtain ⟨_, _, rfl, ⟨x1, rfl⟩, _, _, rfl, ⟨x2, rfl⟩, rfl⟩ := hf
    exact ax_loose (.invObjProp x1 x2) ⟨loose_ope _, loose_ope _⟩ h
  case aObjPropDomain =>
    cases hk
    obtain ⟨_, _, rfl, ⟨x1, rfl⟩, _, _, rfl, ⟨x2, rfl, h2⟩, rfl⟩ := hf
    exact ax_loose (.objPropDomain x1 x2) ⟨loose_ope _, h2⟩ h
  case aObjPropRange =>
    cases hk
    obtain ⟨_, _, rfl, ⟨x1, rfl⟩, _, _, rfl, ⟨x2, rfl, h2⟩, rfl⟩ := hf
    exact ax_loose (.objPropRange x1 x2) ⟨loose_ope _, h2⟩ h
  case aFuncObjProp =>
    cases hk
    obtain ⟨_, _, rfl, ⟨x1, rfl⟩, rfl⟩ := hf
    exact ax_loose (.objPropChar .func x1) (loose_ope _) h
  case aInvFuncObjProp =>
    cases hk
    obtain ⟨_, _, rfl, ⟨x1, rfl⟩, rfl⟩ := hf
    exact ax_loose (.objPropChar .invFunc x1) (loose_ope _) h
  case aReflObjProp =>
    cases hk
    obtain ⟨_, _, rfl, ⟨x1, rfl⟩, rfl⟩ := hf
    exact ax_loose (.objPropChar .refl x1) (loose_ope _) h
  case aIrreflObjProp =>
    cases hk
    obtain ⟨_, _, rfl, ⟨x1, rfl⟩, rfl⟩ := hf
    exact ax_loose (.objPropChar .irrefl x1) (loose_ope _) h
  case aSymmObjProp =>
    cases hk
    obtain ⟨_, _, rfl, ⟨x1, rfl⟩, rfl⟩ := hf
    exact ax_loose (.objPropChar .symm x1) (loose_ope _) h
  case aAsymmObjProp =>
    cases hk
    obtain ⟨_, _, rfl, ⟨x1, rfl⟩, rfl⟩ := hf
    exact ax_loose (.objPropChar .asymm x1) (loose_ope _) h
  case aTransObjProp =>
    cases hk
    obtain ⟨_, _, rfl, ⟨x1, rfl⟩, rfl⟩ := hf
    exact ax_loose (.objPropChar .trans x1) (loose_ope _) h
  case aSubDataProp =>
    cases hk
    obtain ⟨_, _, rfl, ⟨x1, rfl⟩, _, _, rfl, ⟨x2, rfl⟩, rfl⟩ := hf
    exact ax_loose (.subDataProp x1 x2) ⟨trivial, trivial⟩ h
  case aEquivDataProp =>
    cases hk
    obtain ⟨_, _, rfl, ⟨x1, rfl, l1⟩, rfl⟩ := hf
    exact ax_loose (.equivDataProp x1) ⟨l1, fun _ _ => trivial⟩ h
  case aDisjDataProp =>
    cases hk
    obtain ⟨_, _, rfl, ⟨x1, rfl, l1⟩, rfl⟩ := hf
    exact ax_loose (.disjDataProp x1) ⟨l1, fun _ _ => trivial⟩ h
  case aDataPropDomain =>
    cases hk
    obtain ⟨_, _, rfl, ⟨x1, rfl⟩, _, _, rfl, ⟨x2, rfl, h2⟩, rfl⟩ := hf
    exact ax_loose (.dataPropDomain x1 x2) ⟨trivial, h2⟩ h
  case aDataPropRange =>
    cases hk
    obtain ⟨_, _, rfl, ⟨x1, rfl⟩, _, _, rfl, ⟨x2, rfl, h2⟩, rfl⟩ := hf
    exact ax_loose (.dataPropRange x1 x2) ⟨trivial, h2⟩ h
  case aFuncDataProp =>
    cases hk
    obtain ⟨_, _, rfl, ⟨x1, rfl⟩, rfl⟩ := hf
    exact ax_loose (.funcDataProp x1) (trivial) h
  case aDatatypeDef =>
    cases hk
    obtain ⟨_, _, rfl, ⟨x1, rfl⟩, _, _, rfl, ⟨x2, rfl, h2⟩, rfl⟩ := hf
    exact ax_loose (.datatypeDef x1 x2) ⟨trivial, h2⟩ h
  case aHasKey =>
    cases hk
    obtain ⟨_, _, rfl, ⟨x1, rfl, h1⟩, _, _, rfl, ⟨x2, rfl, l2⟩, _, _, rfl, ⟨x3, rfl, l3⟩, rfl⟩ := hf
    exact ax_loose (.hasKey x1 x2 x3) ⟨h1, fun i _ => loose_ope i, fun _ _ => trivial, l2, l3⟩ h
  case aSameInd =>
    cases hk
    obtain ⟨_, _, rfl, ⟨x1, rfl, l1⟩, rfl⟩ := hf
    exact ax_loose (.sameInd x1) ⟨l1, fun i _ => loose_ind i⟩ h
  case aDiffInd =>
    cases hk
    obtain ⟨_, _, rfl, ⟨x1, rfl, l1⟩, rfl⟩ := hf
    exact ax_loose (.diffInd x1) ⟨l1, fun i _ => loose_ind i⟩ h
  case aClassAssert =>
    cases hk
    obtain ⟨_, _, rfl, ⟨x1, rfl, h1⟩, _, _, rfl, ⟨x2, rfl⟩, rfl⟩ := hf
    exact ax_loose (.classAssert x1 x2) ⟨h1, loose_ind _⟩ h
  case aObjPropAssert =>
    cases hk
    obtain ⟨_, _, rfl, ⟨x1, rfl⟩, _, _, rfl, ⟨x2, rfl⟩, _, _, rfl, ⟨x3, rfl⟩, rfl⟩ := hf
    exact ax_loose (.objPropAssert x1 x2 x3) ⟨loose_ope _, loose_ind _, loose_ind _⟩ h
  case aNegObjPropAssert =>
    cases hk
    obtain ⟨_, _, rfl, ⟨x1, rfl⟩, _, _, rfl, ⟨x2, rfl⟩, _, _, rfl, ⟨x3, rfl⟩, rfl⟩ := hf
    exact ax_loose (.negObjPropAssert x1 x2 x3) ⟨loose_ope _, loose_ind _, loose_ind _⟩ h
  case aDataPropAssert =>
    cases hk
    obtain ⟨_, _, rfl, ⟨x1, rfl⟩, _, _, rfl, ⟨x2, rfl⟩, _, _, rfl, ⟨x3, rfl, h3⟩, rfl⟩ := hf
    exact ax_loose (.dataPropAssert x1 x2 x3) ⟨trivial, loose_ind _, h3⟩ h
  case aNegDataPropAssert =>
    cases hk
    obtain ⟨_, _, rfl, ⟨x1, rfl⟩, _, _, rfl, ⟨x2, rfl⟩, _, _, rfl, ⟨x3, rfl, h3⟩, rfl⟩ := hf
    exact ax_loose (.negDataPropAssert x1 x2 x3) ⟨trivial, loose_ind _, h3⟩ h
  case aAnnotAssert =>
    cases hk
    obtain ⟨_, _, rfl, ⟨x1, rfl⟩, _, _, rfl, ⟨x2, rfl⟩, _, _, rfl, ⟨x3, rfl, h3⟩, rfl⟩ := hf
    exact ax_loose (.annotAssert x1 x2 x3) ⟨trivial, loose_subj _, h3⟩ h
  case aSubAnnotProp =>
    cases hk
    obtain ⟨_, _, rfl, ⟨x1, rfl⟩, _, _, rfl, ⟨x2, rfl⟩, rfl⟩ := hf
    exact ax_loose (.subAnnotProp x1 x2) ⟨trivial, trivial⟩ h
  case aAnnotPropDomain =>
    cases hk
    obtain ⟨_, _, rfl, ⟨x1, rfl⟩, _, _, rfl, ⟨x2, rfl⟩, rfl⟩ := hf
    exact ax_loose (.annotPropDomain x1 x2) ⟨trivial, trivial⟩ h
  case aAnnotPropRange =>
    cases hk
    obtain ⟨_, _, rfl, ⟨x1, rfl⟩, _, _, rfl, ⟨x2, rfl⟩, rfl⟩ := hf
    exact ax_loose (.annotPropRange x1 x2) ⟨trivial, trivial⟩ h

theorem gives_decSubObjProp (hu : E.u.Lawful) (n : Nat) (chain bit : Bool) : Gives (decSubObjProp E n chain bit) fun o => IsAx prtSizes o.1 := by
  have hs : Gives (decSubOpe E chain) fun o => ∃ x : SubOpe, o = x.toObj ∧ x.Meets prtSizes := by
    unfold decSubOpe
    refine .ite ((gives_decItems hu gives_decOpe).bind fun xs hx => ?_) (gives_imp gives_decOpe fun o ⟨p, e⟩ => ⟨.ope p, e, loose_ope p, trivial⟩)
    obtain ⟨ps, rfl⟩ := all_plain hx.2
    exact .pure ⟨.chain ps, rfl, List.length_map (as := ps) Ope.toObj ▸ hx.1, fun p _ => loose_ope p⟩
  have h2 : Gives (decSubSup E chain) fun o => (∃ x : SubOpe, o.1 = x.toObj ∧ x.Meets prtSizes) ∧ IsOpe o.2 :=
    hs.bind fun p hp => gives_decOpe.bind fun q hq => .pure ⟨hp, hq⟩
  intro s a s' e
  unfold decSubObjProp at e
  split at e
  · cases e
  · split at e <;> cases e
  · rename_i p q s1 e1
    obtain ⟨⟨x, h3, hx⟩, ⟨y, h4⟩⟩ := h2 _ _ _ e1
    dsimp only at h3 h4
    subst h3; subst h4
    split at e
    · cases e
    · split at e
      · cases e
      · cases e
        exact ax_loose (.subObjProp x y) ⟨hx, loose_ope y⟩ (.inl rfl)
    · rename_i as s2 e2
      cases e
      exact ax_loose (.subObjProp x y) ⟨hx, loose_ope y⟩ (gives_decAnnots hu (gives_decAnnot hu n) bit _ _ _ e2)

theorem gives_noLate {x : Dec Obj} {Q : Obj → Prop} (h : Gives x Q) : Gives (noLate x) fun o => Q o.1 :=
  h.bind fun _ ho => .pure ho

theorem gives_decAxiom (hu : E.u.Lawful) (n : Nat) (c : UInt8) : Gives (decAxiom E n c) fun o => IsAx prtSizes o.1 := by
  unfold decAxiom
  dsimp only
  split
  · rename_i k _
    exact gives_noLate ((gives_decEnt k).bind fun e ⟨i, h⟩ => (gives_decAnnots hu (gives_decAnnot hu n) _).bind fun as has => by
      subst h; exact .pure (ax_loose (.decl k i) trivial has))
  · split
    · exact gives_decSubObjProp hu n _ _
    · split
      · rename_i hk
        exact gives_noLate ((gives_decFields hu n _).bind fun os hos => (gives_decAnnots hu (gives_decAnnot hu n) _).bind fun as has =>
          (gives_allWhole os).bind fun fs hfs => .pure (plain_ok hk (hos fs hfs) has))
      · exact .fail
    · exact .fail

end

/-! ## Documents -/

section
variable {σ : Type} {P : σ → Prop} {E : Env} {h : Callback σ (Bool × Func.Item)}

/-- The context of the handler has the property after a part of a frame. -/
def FResP (P : σ → Prop) : FRes σ → Prop
  | .go s => P s.ctx
  | .stop c _ => P c

/-- Typed changes keep the property. -/
def Keeps (h : Callback σ (Bool × Func.Item)) (P : σ → Prop) : Prop := ∀ c b i, P c → ItemOk prtSizes i → P (h c (b, i)).1

theorem deliver_ok (hh : Keeps h P) {i : Func.Item} (hi : ItemOk prtSizes i) {s : FSt σ} (hs : P s.ctx) : FResP P (deliver h i s) := by
  unfold deliver
  dsimp only
  split
  · exact hh _ _ _ hs hi
  · exact hh _ _ _ hs hi

theorem get_ok {α : Type} {x : Dec α} {Q : α → Prop} (hx : Gives x Q) {k : α → FSt σ → FRes σ}
    (hk : ∀ a s, Q a → P s.ctx → FResP P (k a s)) {s : FSt σ} (hs : P s.ctx) : FResP P (s.get x k) := by
  unfold FSt.get
  split
  · rename_i e; exact hk _ _ (hx _ _ _ e) hs
  · exact hs
  · exact hs

theorem andThen_ok {r : FRes σ} {k : FSt σ → FRes σ} (hr : FResP P r) (hk : ∀ s, P s.ctx → FResP P (k s)) : FResP P (r.andThen k) := by
  cases r with
  | go s => exact hk s hr
  | stop c e => exact hr

theorem times_ok {body : FSt σ → FRes σ} (hb : ∀ s, P s.ctx → FResP P (body s)) : ∀ n s, P s.ctx → FResP P (Prt.times body n s)
  | 0, _, hs => hs
  | n + 1, s, hs => andThen_ok (hb s hs) (times_ok hb n)

theorem counted_ok {body : FSt σ → FRes σ} (hb : ∀ s, P s.ctx → FResP P (body s)) {s : FSt σ} (hs : P s.ctx) : FResP P (counted E body s) :=
  get_ok .any (fun n s _ hs => times_ok hb n s hs) hs

theorem afterError_ok {r : FRes σ} (hr : FResP P r) : FResP P (afterError r) := by cases r <;> exact hr

theorem frameOf_ok (hu : E.u.Lawful) (hh : Keeps h P) (c : UInt8) {s : FSt σ} (hs : P s.ctx) : FResP P (frameOf E h c s) := by
  unfold frameOf
  split
  · exact hs
  · exact hs
  · exact hs
  · exact hs
  · split
    · exact counted_ok (fun s hs => get_ok .any (fun d s _ hs => deliver_ok hh (show ItemOk prtSizes (.prefixDecl _ _) from trivial) hs) hs) hs
    · exact counted_ok (fun s hs => get_ok .any (fun d s _ hs => hs) hs) hs
  · split
    · exact counted_ok (fun s hs => get_ok .any (fun d s _ hs => hs) hs) hs
    · exact counted_ok (fun s hs => get_ok .any (fun d s _ hs => hs) hs) hs
  · refine andThen_ok (get_ok .any (fun d s _ hs => deliver_ok hh (show ItemOk prtSizes (.iri _) from trivial) hs) hs) fun s hs => ?_
    split
    · exact get_ok .any (fun d s _ hs => deliver_ok hh (show ItemOk prtSizes (.version _) from trivial) hs) hs
    · exact hs
  · exact counted_ok (fun s hs => get_ok .any (fun d s _ hs => deliver_ok hh (show ItemOk prtSizes (.import _) from trivial) hs) hs) hs
  · exact counted_ok (fun s hs => get_ok (gives_decAnnot hu _) (fun d s hd hs => deliver_ok hh (show ItemOk prtSizes (.annot d) from hd) hs) hs) hs
  · refine get_ok (gives_decAxiom hu _ _) (fun d s hd hs => ?_) hs
    split
    · exact deliver_ok hh (show ItemOk prtSizes (.ax d.1) from hd) hs
    · exact afterError_ok (deliver_ok hh (show ItemOk prtSizes (.ax d.1) from hd) hs)

theorem frames_ok (hu : E.u.Lawful) (hh : Keeps h P) : ∀ n (s : FSt σ), P s.ctx → P (frames E h n s).1
  | 0, _, hs => hs
  | n + 1, s, hs => by
    have h1 : FResP P (frame E h s) := by
      unfold frame
      split
      · exact hs
      · exact frameOf_ok hu hh _ hs
    unfold frames
    split
    · rename_i e; rw [e] at h1; exact frames_ok hu hh n _ h1
    · rename_i e; rw [e] at h1; exact h1

/-- A property of the context that typed changes keep holds after reading. -/
theorem prtRead_typed (hu : E.u.Lawful) (hh : Keeps h P) (text : Str) {c : σ} (hc : P c) : P (prtRead E h text c).1 := by
  unfold prtRead
  split
  · exact hc
  · split
    · exact frames_ok hu hh _ _ hc
    · exact hc

end

end Cowl.Ast
