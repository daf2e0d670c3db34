import Verif.PrtAnonSpec
import Verif.PrtDocLemmas
/-!
# Lemmas: the decoder without the declarations of anonymous individuals
-/
namespace Cowl
open Prt

theorem renameAll_eq (r : Str → Str) : ∀ xs : List Obj, Obj.renameAll r xs = xs.map (Obj.rename r)
  | [] => by rw [Obj.renameAll]; rfl
  | x :: xs => by rw [Obj.renameAll, renameAll_eq r xs]; rfl

theorem rename_anon (r : Str → Str) (s : Str) : (Obj.prim (.anon s)).rename r = .prim (.anon (r s)) := by rw [Obj.rename]
theorem rename_iri (r : Str → Str) (i : Iri) : (Obj.prim (.iri i)).rename r = .prim (.iri i) := by
  rw [Obj.rename]; all_goals nofun
theorem rename_ent (r : Str → Str) (k : EntKind) (i : Iri) : (Obj.prim (.ent k i)).rename r = .prim (.ent k i) := by
  rw [Obj.rename]; all_goals nofun
theorem rename_lit (r : Str → Str) (v : Str) (t : LitTag) : (Obj.lit v t).rename r = .lit v t := by
  rw [Obj.rename]; all_goals nofun
theorem rename_vec (r : Str → Str) (b : Bool) (xs : List Obj) : (Obj.vec b xs).rename r = .vec b (xs.map (Obj.rename r)) := by
  rw [Obj.rename, renameAll_eq]
theorem rename_comp (r : Str → Str) (t : OType) (b : Bool) (fs : List Obj) (n : Nat) :
    (Obj.comp t b fs n).rename r = .comp t b (fs.map (Obj.rename r)) n := by
  rw [Obj.rename, renameAll_eq]

theorem rename_getImpl (r : Str → Str) (t : OType) (fs : List Obj) (o : Option Obj) :
    (getImpl t fs o).rename r = getImpl t (fs.map (Obj.rename r)) (o.map (Obj.rename r)) := by
  cases o <;> simp [getImpl, rename_comp]

theorem rename_getImplUint (r : Str → Str) (t : OType) (fs : List Obj) (n : Nat) (o : Option Obj) :
    (getImplUint t fs n o).rename r = getImplUint t (fs.map (Obj.rename r)) n (o.map (Obj.rename r)) := by
  cases o <;> simp [getImplUint, rename_comp]

/-- Annotations renamed. -/
def renameAnnots (r : Str → Str) (as : Option (Bool × List Obj)) : Option (Bool × List Obj) :=
  as.map fun a => (a.1, a.2.map (Obj.rename r))

theorem rename_getImplAnnot (r : Str → Str) (t : OType) (fs : List Obj) (as : Option (Bool × List Obj)) :
    (getImplAnnot t fs as).rename r = getImplAnnot t (fs.map (Obj.rename r)) (renameAnnots r as) := by
  cases as with
  | none => simp [getImplAnnot, renameAnnots, rename_getImpl]
  | some a =>
    obtain ⟨b, xs⟩ := a
    simp only [getImplAnnot, renameAnnots, Option.map_some, List.length_map]
    split <;> simp [rename_getImpl, rename_vec]

theorem rename_dropDefault (r : Str → Str) (k : EntKind) (i : Iri) (o : Option Obj) :
    (dropDefault (.ent k i) o).map (Obj.rename r) = dropDefault (.ent k i) (o.map (Obj.rename r)) := by
  cases o with
  | none => rfl
  | some o =>
    cases o with
    | prim p =>
      cases p with
      | anon s => simp [dropDefault, rename_anon]
      | iri j => simp [dropDefault, rename_iri]
      | ent l j =>
        simp only [dropDefault, Option.map_some, rename_ent]
        split <;> simp [rename_ent]
    | lit v t => simp [dropDefault, rename_lit]
    | vec b xs => simp [dropDefault, rename_vec]
    | comp t b fs n => simp [dropDefault, rename_comp]
    | str s =>
      have e : (Obj.str s).rename r = .str s := by rw [Obj.rename]; all_goals nofun
      simp [dropDefault, e]
    | other t n =>
      have e : (Obj.other t n).rename r = .other t n := by rw [Obj.rename]; all_goals nofun
      simp [dropDefault, e]

end Cowl

namespace Cowl.Prt
open Func (Item)
open Ast

/-- What an index looks like with and without the declarations of anonymous individuals,
and what they are called in the second case. -/
structure Cut (E : Env) where
  nss : List Str
  iris : List Iri
  anons : List Str
  start : Nat
  name : Str → Str
  named : ∀ k s, anons[k]? = some s → name s = E.gen (start + k)

section
variable {E : Env} (C : Cut E)

/-- The index with the declarations. -/
def Cut.full : DIndex := ⟨C.nss, C.iris.map .iri ++ C.anons.map .anon⟩

/-- The state without the declarations, once `j` anonymous individuals were generated. -/
def Cut.lazy (j : Nat) (inp : Str) : DSt :=
  ⟨inp, ⟨C.nss, C.iris.map .iri ++ (List.range j).map fun k => .anon (E.gen (C.start + k))⟩, C.start + j⟩

/-- A name renamed. -/
def Cut.id : Id → Id
  | .iri i => .iri i
  | .anon s => .anon (C.name s)

/-- An object renamed. -/
abbrev Cut.obj (o : Obj) : Obj := o.rename C.name

/-- What the first function reads with the declarations, the second one reads without them,
renamed; or that is an error, and `B` holds. Cases where the first function generates
individuals do not matter. -/
def Lz {α : Type} (B : Prop) (x y : Dec α) (r : α → α) : Prop :=
  (∀ s a s', x s = .ok a s' → s.fresh ≤ s'.fresh) ∧
  ∀ inp f j a s', j ≤ C.anons.length → x ⟨inp, C.full, f⟩ = .ok a s' → s'.fresh = f →
    (∃ j' inp', j' ≤ C.anons.length ∧ s' = ⟨inp', C.full, f⟩ ∧ y (C.lazy j inp) = .ok (r a) (C.lazy j' inp')) ∨
      (B ∧ y (C.lazy j inp) = .err)

variable {C} {α β : Type} {B : Prop}

theorem Lz.pure {r : α → α} {a b : α} (e : b = r a) : Lz C B (pure a : Dec α) (Pure.pure b) r := by
  subst e
  refine ⟨fun s a s' e => by cases e; exact Nat.le_refl _, fun inp f j a s' hj e _ => ?_⟩
  cases e
  exact .inl ⟨j, inp, hj, rfl, rfl⟩

theorem Lz.fail {r : α → α} {y : Dec α} : Lz C B fail y r := ⟨nofun, nofun⟩

theorem Lz.bind {x y : Dec α} {f g : α → Dec β} {r : α → α} {q : β → β} (h : Lz C B x y r)
    (hf : ∀ a, Lz C B (f a) (g (r a)) q) : Lz C B (x >>= f) (y >>= g) q := by
  simp only [bind_def]
  refine ⟨fun s b s' e => ?_, fun inp fr j b s' hj e hfr => ?_⟩
  · unfold Dec.bind at e
    cases hx : x s with
    | ok a s1 =>
      rw [hx] at e
      exact Nat.le_trans (h.1 s a s1 hx) ((hf a).1 s1 b s' e)
    | err => rw [hx] at e; cases e
    | ub => rw [hx] at e; cases e
  · unfold Dec.bind at e ⊢
    cases hx : x ⟨inp, C.full, fr⟩ with
    | ok a s1 =>
      rw [hx] at e
      have h1 := h.1 _ a s1 hx
      have h2 := (hf a).1 s1 b s' e
      rcases h.2 inp fr j a s1 hj hx (by simp only at h1; omega) with ⟨j', inp', hj', rfl, e'⟩ | ⟨hB, e'⟩
      · rw [e']
        exact (hf a).2 inp' fr j' b s' hj' e hfr
      · rw [e']; exact .inr ⟨hB, rfl⟩
    | err => rw [hx] at e; cases e
    | ub => rw [hx] at e; cases e

theorem Lz.ite {c : Prop} [Decidable c] {x y x' y' : Dec α} {r : α → α} (h : Lz C B x x' r) (h' : Lz C B y y' r) :
    Lz C B (if c then x else y) (if c then x' else y') r := by split <;> assumption

/-- Functions that only read. -/
theorem Lz.reads {x : Dec α} (h : ∀ s a s', x s = .ok a s' → s' = ⟨s'.inp, s.ix, s.fresh⟩ ∧ ∀ ix f, x ⟨s.inp, ix, f⟩ = .ok a ⟨s'.inp, ix, f⟩) :
    Lz C B x x (fun a => a) := by
  refine ⟨fun s a s' e => by rw [(h s a s' e).1]; exact Nat.le_refl _, fun inp f j a s' hj e _ => ?_⟩
  obtain ⟨h1, h2⟩ := h _ a s' e
  exact .inl ⟨j, s'.inp, hj, h1, h2 _ _⟩

theorem lz_varint : Lz C B (varint E) (varint E) (fun a => a) := by
  refine Lz.reads fun s a s' e => ?_
  unfold varint at e ⊢
  cases h : E.u.readVarint s.inp with
  | none => rw [h] at e; cases e
  | some p => rw [h] at e; cases e; exact ⟨rfl, fun ix f => by simp only [h]⟩

theorem lz_svarint : Lz C B (svarint E) (svarint E) (fun a => a) := by
  refine Lz.reads fun s a s' e => ?_
  unfold svarint at e ⊢
  cases h : E.u.readSvarint s.inp with
  | none => rw [h] at e; cases e
  | some p => rw [h] at e; cases e; exact ⟨rfl, fun ix f => by simp only [h]⟩

theorem lz_byte : Lz C B byte byte (fun a => a) := by
  refine Lz.reads fun s a s' e => ?_
  unfold byte at e ⊢
  cases h : s.inp with
  | nil => rw [h] at e; cases e
  | cons c r => rw [h] at e; cases e; exact ⟨rfl, fun ix f => rfl⟩

theorem lz_bytes (n : Nat) : Lz C B (bytes n) (bytes n) (fun a => a) := by
  refine Lz.reads fun s a s' e => ?_
  unfold bytes at e ⊢
  by_cases h : n ≤ s.inp.length
  · rw [if_pos h] at e; cases e; exact ⟨rfl, fun ix f => if_pos h⟩
  · rw [if_neg h] at e; cases e

theorem lz_decStr : Lz C B (decStr E) (decStr E) (fun a => a) := lz_varint.bind fun n => lz_bytes n

theorem getId_full (k : Nat) (inp : Str) (f : Nat) (a : Id) (s' : DSt) (e : getId E k ⟨inp, C.full, f⟩ = .ok a s')
    (hf : s'.fresh = f) : s' = ⟨inp, C.full, f⟩ ∧ C.full.ids[k]? = some a := by
  unfold getId at e
  dsimp only at e
  cases h : C.full.ids[k]? with
  | some i => rw [h] at e; cases e; exact ⟨rfl, rfl⟩
  | none =>
    rw [h] at e
    dsimp only at e
    split at e
    · cases e; dsimp only at hf; omega
    · cases e

theorem getId_mono (k : Nat) (s : DSt) (a : Id) (s' : DSt) (e : getId E k s = .ok a s') : s.fresh ≤ s'.fresh := by
  unfold getId at e
  split at e
  · cases e; exact Nat.le_refl _
  · split at e
    · cases e; exact Nat.le_succ _
    · cases e

theorem lazy_iri {j k : Nat} {i : Iri} (h : C.iris[k]? = some i) (inp : Str) :
    getId E k (C.lazy j inp) = .ok (.iri i) (C.lazy j inp) := by
  unfold getId
  have : (C.lazy j inp).ix.ids[k]? = some (.iri i) := by
    have hk := (List.getElem?_eq_some_iff.1 h).1
    show (C.iris.map Id.iri ++ _)[k]? = _
    rw [List.getElem?_append_left (by simpa using hk), List.getElem?_map, h]; rfl
  rw [this]

theorem lazy_anon {j k : Nat} {s : Str} (hj : j ≤ C.anons.length) (h : C.anons[k]? = some s) (inp : Str) :
    (∃ j', j' ≤ C.anons.length ∧
      getId E (C.iris.length + k) (C.lazy j inp) = .ok (.anon (C.name s)) (C.lazy j' inp)) ∨
    (2 ≤ C.anons.length ∧ getId E (C.iris.length + k) (C.lazy j inp) = .err) := by
  have hk := (List.getElem?_eq_some_iff.1 h).1
  have hn := C.named k s h
  have hids : (C.lazy j inp).ix.ids[C.iris.length + k]? =
      if k < j then some (.anon (C.name s)) else none := by
    show (C.iris.map Id.iri ++ (List.range j).map fun k => Id.anon (E.gen (C.start + k)))[C.iris.length + k]? = _
    rw [List.getElem?_append_right (by simp)]
    simp only [List.length_map, Nat.add_sub_cancel_left, List.getElem?_map, List.getElem?_range', hn]
    split
    · rename_i h; rw [List.getElem?_range h]; rfl
    · rename_i h; rw [List.getElem?_eq_none (by simpa using h)]; rfl
  have hlen : (C.lazy j inp).ix.ids.length = C.iris.length + j := by simp [Cut.lazy]
  unfold getId
  rw [hids]
  by_cases h1 : k < j
  · rw [if_pos h1]; exact .inl ⟨j, hj, rfl⟩
  · rw [if_neg h1]
    dsimp only
    rw [hlen]
    by_cases h2 : k = j
    · subst h2
      rw [if_pos rfl]
      refine .inl ⟨k + 1, hk, ?_⟩
      simp only [Cut.lazy, hn, List.range_succ, List.map_append, List.map_cons, List.map_nil, List.append_assoc, Nat.add_assoc]
    · rw [if_neg (by omega)]; exact .inr ⟨by omega, rfl⟩

theorem full_ids {k : Nat} {a : Id} (h : C.full.ids[k]? = some a) :
    (∃ i, C.iris[k]? = some i ∧ a = .iri i) ∨ ∃ n s, k = C.iris.length + n ∧ C.anons[n]? = some s ∧ a = .anon s := by
  change (C.iris.map Id.iri ++ C.anons.map Id.anon)[k]? = some a at h
  rw [List.getElem?_append] at h
  split at h
  · rename_i hk
    rw [List.getElem?_map, Option.map_eq_some_iff] at h
    obtain ⟨i, h1, rfl⟩ := h
    exact .inl ⟨i, h1, rfl⟩
  · rename_i hk
    rw [List.getElem?_map, Option.map_eq_some_iff] at h
    obtain ⟨i, h1, rfl⟩ := h
    rw [List.length_map] at h1 hk
    exact .inr ⟨_, i, by omega, h1, rfl⟩

theorem lz_getId (hB : 2 ≤ C.anons.length → B) (k : Nat) : Lz C B (getId E k) (getId E k) C.id := by
  refine ⟨getId_mono k, fun inp f j a s' hj e hf => ?_⟩
  obtain ⟨rfl, h⟩ := getId_full k inp f a s' e hf
  rcases full_ids h with ⟨i, h1, rfl⟩ | ⟨n, s, rfl, h1, rfl⟩
  · exact .inl ⟨j, inp, hj, rfl, lazy_iri h1 inp⟩
  · rcases lazy_anon hj h1 inp with ⟨j', h2, h3⟩ | ⟨h2, h3⟩
    · exact .inl ⟨j', inp, h2, rfl, h3⟩
    · exact .inr ⟨hB h2, h3⟩

theorem lz_getIri (k : Nat) : Lz C B (getIri E k) (getIri E k) (fun a => a) := by
  refine ⟨fun s a s' e => ?_, fun inp f j a s' hj e hf => ?_⟩
  · unfold getIri at e
    simp only [bind_def, Dec.bind] at e
    cases h : getId E k s with
    | ok i s1 =>
      rw [h] at e
      cases i with
      | iri i => cases e; exact getId_mono k _ _ _ h
      | anon s => cases e
    | err => rw [h] at e; cases e
    | ub => rw [h] at e; cases e
  · unfold getIri at e ⊢
    simp only [bind_def, Dec.bind] at e ⊢
    cases h : getId E k ⟨inp, C.full, f⟩ with
    | ok i s1 =>
      rw [h] at e
      cases i with
      | iri i =>
        cases e
        obtain ⟨rfl, h'⟩ := getId_full k inp f _ _ h hf
        rcases full_ids h' with ⟨i', h1, h2⟩ | ⟨n, s, -, -, h2⟩
        · cases h2
          exact .inl ⟨j, inp, hj, rfl, by rw [lazy_iri h1]; rfl⟩
        · cases h2
      | anon s => cases e
    | err => rw [h] at e; cases e
    | ub => rw [h] at e; cases e

theorem lz_getEnt (t : EntKind) (k : Nat) : Lz C B (getEnt E t k) (getEnt E t k) C.obj :=
  (lz_getIri k).bind fun i => Lz.pure (rename_ent _ _ _).symm

theorem lz_getInd (hB : 2 ≤ C.anons.length → B) (k : Nat) : Lz C B (getInd E k) (getInd E k) C.obj :=
  (lz_getId hB k).bind fun i => by
    cases i
    · exact Lz.pure (rename_ent _ _ _).symm
    · exact Lz.pure (rename_anon _ _).symm

theorem lz_getIriOrAnon (hB : 2 ≤ C.anons.length → B) (k : Nat) : Lz C B (getIriOrAnon E k) (getIriOrAnon E k) C.obj :=
  (lz_getId hB k).bind fun i => by
    cases i
    · exact Lz.pure (rename_iri _ _).symm
    · exact Lz.pure (rename_anon _ _).symm

theorem lz_unchecked {r : α → α} : Lz C B (unchecked E) (unchecked E) r := by
  constructor
  · intro s a s' e; unfold unchecked at e; split at e <;> cases e
  · intro inp f j a s' _ e; unfold unchecked at e; split at e <;> cases e

theorem lz_ofLitRes (r : LitRes) : Lz C B (ofLitRes E r) (ofLitRes E r) C.obj := by
  cases r
  · exact Lz.pure (rename_lit _ _ _).symm
  · exact lz_unchecked

theorem lz_ofOpt {o o' : Option Obj} (e : o' = o.map C.obj) : Lz C B (ofOpt o) (ofOpt o') C.obj := by
  subst e
  cases o
  · exact Lz.fail
  · exact Lz.pure rfl

theorem lz_orUnchecked (o : Option Obj) : Lz C B (orUnchecked E o) (orUnchecked E (o.map C.obj)) C.obj := by
  cases o
  · exact lz_unchecked
  · exact Lz.pure rfl

theorem lz_notNull {x : Dec (Option Obj)} (h : Lz C B x x (Option.map C.obj)) : Lz C B (notNull x) (notNull x) C.obj :=
  h.bind fun o => by
    cases o
    · exact Lz.fail
    · exact Lz.pure rfl

theorem lz_decMany {x : Dec Obj} (h : Lz C B x x C.obj) : ∀ n, Lz C B (decMany x n) (decMany x n) (List.map C.obj)
  | 0 => Lz.pure rfl
  | n + 1 => h.bind fun _ => (lz_decMany h n).bind fun _ => Lz.pure rfl

theorem lz_decIf {x : Dec Obj} (h : Lz C B x x C.obj) (b : Bool) : Lz C B (decIf b x) (decIf b x) (Option.map C.obj) :=
  Lz.ite (h.bind fun _ => Lz.pure rfl) (Lz.pure rfl)

theorem lz_whole {x : Dec Obj} (h : Lz C B x x C.obj) : Lz C B (whole x) (whole x) (Option.map C.obj) :=
  h.bind fun _ => Lz.pure rfl

theorem lz_decIri : Lz C B (decIri E) (decIri E) (fun a => a) := lz_varint.bind fun n => lz_getIri n
theorem lz_decEnt (t : EntKind) : Lz C B (decEnt E t) (decEnt E t) C.obj := lz_varint.bind fun n => lz_getEnt t n
theorem lz_decInd (hB : 2 ≤ C.anons.length → B) : Lz C B (decInd E) (decInd E) C.obj := lz_varint.bind fun n => lz_getInd hB n
theorem lz_decIriOrAnon (hB : 2 ≤ C.anons.length → B) : Lz C B (decIriOrAnon E) (decIriOrAnon E) C.obj :=
  lz_varint.bind fun n => lz_getIriOrAnon hB n

/-- The last step of most functions. -/
theorem lz_made {t : OType} {fs gs : List Obj} (e : gs = fs.map C.obj) :
    Lz C B (pure (getImpl t fs none) : Dec Obj) (pure (getImpl t gs none)) C.obj :=
  Lz.pure (by rw [e, Cut.obj, rename_getImpl]; rfl)

theorem lz_madeA {t : OType} {fs gs : List Obj} {as : Option (Bool × List Obj)} (e : gs = fs.map C.obj) :
    Lz C B (pure (getImplAnnot t fs as) : Dec Obj) (pure (getImplAnnot t gs (renameAnnots C.name as))) C.obj :=
  Lz.pure (by rw [e, Cut.obj, rename_getImplAnnot])

theorem lz_decOpe : Lz C B (decOpe E) (decOpe E) C.obj :=
  lz_varint.bind fun _ => Lz.ite ((lz_decEnt .objProp).bind fun _ => lz_made rfl) (lz_getEnt _ _)

theorem lz_decValue (f : Nat) : Lz C B (decValue E f) (decValue E f) (fun a => a) := by
  unfold decValue
  split
  · exact lz_decStr
  · exact lz_byte.bind fun _ => Lz.ite (Lz.pure rfl) (Lz.ite (Lz.pure rfl) Lz.fail)
  · exact lz_svarint.bind fun _ => Lz.pure rfl
  · exact lz_varint.bind fun _ => Lz.pure rfl
  · exact lz_svarint.bind fun _ => lz_varint.bind fun _ => Lz.pure rfl
  · exact lz_svarint.bind fun _ => lz_varint.bind fun _ => lz_svarint.bind fun _ => Lz.pure rfl
  · exact Lz.fail

theorem lz_decLit : Lz C B (decLit E) (decLit E) (Option.map C.obj) := by
  refine lz_byte.bind fun h => (lz_decValue _).bind fun v => ?_
  split
  · exact (lz_ofLitRes _).bind fun _ => Lz.pure rfl
  · exact lz_decStr.bind fun _ => (lz_ofLitRes _).bind fun _ => Lz.pure rfl
  · exact lz_decIri.bind fun _ => (lz_ofLitRes _).bind fun _ => Lz.pure rfl
  · exact Lz.pure rfl

theorem lz_decAnnotVal (hB : 2 ≤ C.anons.length → B) : Lz C B (decAnnotVal E) (decAnnotVal E) (Option.map C.obj) :=
  lz_varint.bind fun _ => Lz.ite lz_decLit ((lz_getIriOrAnon hB _).bind fun _ => Lz.pure rfl)

theorem lz_decItems {x : Dec Obj} (h : Lz C B x x C.obj) : Lz C B (decItems E x) (decItems E x) (List.map C.obj) :=
  lz_varint.bind fun n => lz_decMany h n

theorem lz_decVec {x : Dec Obj} (h : Lz C B x x C.obj) : Lz C B (decVec E x) (decVec E x) C.obj :=
  (lz_decItems h).bind fun _ => Lz.pure (rename_vec _ _ _).symm

theorem lz_decFacet : Lz C B (decFacet E) (decFacet E) C.obj :=
  lz_decIri.bind fun _ => (lz_notNull lz_decLit).bind fun _ => Lz.pure (by
    simp [Cut.obj, rename_getImpl, rename_iri])

theorem lz_decAnnots {x : Dec Obj} (h : Lz C B x x C.obj) (b : Bool) :
    Lz C B (decAnnots E x b) (decAnnots E x b) (renameAnnots C.name) :=
  Lz.ite ((lz_decItems h).bind fun _ => Lz.pure rfl) (Lz.pure rfl)

theorem lz_annotIri (k : Nat) : Lz C B (annotIri E k) (annotIri E k) (fun a => a) := Lz.ite lz_decIri (lz_getIri _)

theorem lz_decObjQuant {x : Dec Obj} (h : Lz C B x x C.obj) (q : Nat) : Lz C B (decObjQuant E x q) (decObjQuant E x q) C.obj :=
  lz_decOpe.bind fun _ => h.bind fun _ => lz_ofOpt (by
    unfold objQuant
    split
    · rfl
    · simp [Cut.obj, rename_getImpl, rename_dropDefault])

theorem lz_decDataQuant {x : Dec Obj} (h : Lz C B x x C.obj) (q : Nat) : Lz C B (decDataQuant E x q) (decDataQuant E x q) C.obj :=
  (lz_decEnt _).bind fun _ => h.bind fun _ => lz_ofOpt (by
    unfold dataQuant
    split
    · rfl
    · simp [Cut.obj, rename_getImpl, rename_dropDefault])

theorem lz_decObjCard {x : Dec Obj} (h : Lz C B x x C.obj) (q : Nat) : Lz C B (decObjCard E x q) (decObjCard E x q) C.obj :=
  lz_varint.bind fun _ => lz_decOpe.bind fun _ => (lz_decIf h _).bind fun _ => lz_ofOpt (by
    unfold objCard
    split <;> simp [Cut.obj, rename_getImplUint])

theorem lz_decDataCard {x : Dec Obj} (h : Lz C B x x C.obj) (q : Nat) : Lz C B (decDataCard E x q) (decDataCard E x q) C.obj :=
  lz_varint.bind fun _ => (lz_decEnt _).bind fun _ => (lz_decIf h _).bind fun _ => lz_ofOpt (by
    unfold dataCard
    split <;> simp [Cut.obj, rename_getImplUint])

theorem lz_drStep {x : Dec Obj} (h : Lz C B x x C.obj) : Lz C B (drStep E x) (drStep E x) C.obj := by
  refine lz_varint.bind fun t => Lz.ite (lz_getEnt _ _) ?_
  split
  · exact (lz_decEnt _).bind fun _ => (lz_decVec lz_decFacet).bind fun _ => lz_made rfl
  · exact (lz_decVec h).bind fun _ => lz_made rfl
  · exact (lz_decVec h).bind fun _ => lz_made rfl
  · exact h.bind fun _ => lz_made rfl
  · exact (lz_decVec (lz_notNull lz_decLit)).bind fun _ => lz_made rfl
  · exact Lz.fail

theorem lz_decDR : ∀ n, Lz C B (decDR E n) (decDR E n) C.obj
  | 0 => Lz.fail
  | n + 1 => lz_drStep (lz_decDR n)

theorem lz_ceStep (hB : 2 ≤ C.anons.length → B) {x y : Dec Obj} (hd : Lz C B x x C.obj) (h : Lz C B y y C.obj) :
    Lz C B (ceStep E x y) (ceStep E x y) C.obj := by
  refine lz_varint.bind fun t => Lz.ite (lz_getEnt _ _) ?_
  split
  · exact lz_decObjQuant h _
  · exact lz_decObjQuant h _
  · exact lz_decObjCard h _
  · exact lz_decObjCard h _
  · exact lz_decObjCard h _
  · exact lz_decOpe.bind fun _ => (lz_decInd hB).bind fun _ => lz_made rfl
  · exact lz_decOpe.bind fun _ => lz_made rfl
  · exact lz_decDataQuant hd _
  · exact lz_decDataQuant hd _
  · exact lz_decDataCard hd _
  · exact lz_decDataCard hd _
  · exact lz_decDataCard hd _
  · exact (lz_decEnt _).bind fun _ => lz_decLit.bind fun _ => (lz_orUnchecked _).bind fun _ => lz_made rfl
  · exact (lz_decVec h).bind fun _ => lz_made rfl
  · exact (lz_decVec h).bind fun _ => lz_made rfl
  · exact h.bind fun _ => lz_made rfl
  · exact (lz_decVec (lz_decInd hB)).bind fun _ => lz_made rfl
  · exact Lz.fail

theorem lz_decCE (hB : 2 ≤ C.anons.length → B) : ∀ n, Lz C B (decCE E n) (decCE E n) C.obj
  | 0 => Lz.fail
  | n + 1 => lz_ceStep hB (lz_decDR (n + 1)) (lz_decCE hB n)

theorem lz_decAnnot (hB : 2 ≤ C.anons.length → B) : ∀ n, Lz C B (decAnnot E n) (decAnnot E n) C.obj
  | 0 => Lz.fail
  | n + 1 => lz_varint.bind fun _ => (lz_annotIri _).bind fun _ => (lz_notNull (lz_decAnnotVal hB)).bind fun _ =>
      (lz_decAnnots (lz_decAnnot hB n) _).bind fun _ => Lz.pure (by
        simp [Cut.obj, rename_getImplAnnot, rename_ent])

theorem lz_decField (hB : 2 ≤ C.anons.length → B) (n : Nat) (f : FK) :
    Lz C B (decField E n f) (decField E n f) (Option.map C.obj) := by
  cases f with
  | ce => exact lz_whole (lz_decCE hB n)
  | dr => exact lz_whole (lz_decDR n)
  | ind => exact lz_whole (lz_decInd hB)
  | ope => exact lz_whole lz_decOpe
  | iri => exact lz_decIri.bind fun _ => Lz.pure (by simp [Cut.obj, rename_iri])
  | iriOrAnon => exact lz_whole (lz_decIriOrAnon hB)
  | lit => exact lz_decLit
  | aval => exact lz_decAnnotVal hB
  | ent k => exact lz_whole (lz_decEnt k)
  | vecCE => exact lz_whole (lz_decVec (lz_decCE hB n))
  | vecInd => exact lz_whole (lz_decVec (lz_decInd hB))
  | vecOpe => exact lz_whole (lz_decVec lz_decOpe)
  | vecDpe => exact lz_whole (lz_decVec (lz_decEnt _))

theorem lz_decFields (hB : 2 ≤ C.anons.length → B) (n : Nat) :
    ∀ fs, Lz C B (decFields E n fs) (decFields E n fs) (List.map (Option.map C.obj))
  | [] => Lz.pure rfl
  | f :: fs => (lz_decField hB n f).bind fun _ => (lz_decFields hB n fs).bind fun _ => Lz.pure rfl

theorem mapM_renamed (r : Obj → Obj) : ∀ os : List (Option Obj),
    (os.map (Option.map r)).mapM id = (os.mapM id).map (List.map r)
  | [] => rfl
  | none :: os => by simp
  | some o :: os => by
    have := mapM_renamed r os
    simp only [List.map_cons, List.mapM_cons, this]
    cases os.mapM id <;> simp

theorem lz_allWhole (os : List (Option Obj)) :
    Lz C B (allWhole E os) (allWhole E (os.map (Option.map C.obj))) (List.map C.obj) := by
  unfold allWhole
  rw [mapM_renamed]
  cases os.mapM id with
  | none => exact lz_unchecked
  | some fs => exact Lz.pure rfl

theorem lz_decPlain (hB : 2 ≤ C.anons.length → B) (n : Nat) (t : OType) (fs : List FK) (b : Bool) :
    Lz C B (decPlain E n t fs b) (decPlain E n t fs b) C.obj :=
  (lz_decFields hB n fs).bind fun _ => (lz_decAnnots (lz_decAnnot hB n) b).bind fun _ =>
    (lz_allWhole _).bind fun _ => Lz.pure (rename_getImplAnnot _ _ _ _).symm

theorem lz_decSubSup (c : Bool) : Lz C B (decSubSup E c) (decSubSup E c) (Prod.map C.obj C.obj) := by
  have : Lz C B (decSubOpe E c) (decSubOpe E c) C.obj :=
    Lz.ite ((lz_decItems lz_decOpe).bind fun _ => Lz.pure (rename_vec _ _ _).symm) lz_decOpe
  exact this.bind fun _ => lz_decOpe.bind fun _ => Lz.pure rfl

/-- The same for axioms that come without an error. -/
def LzA (C : Cut E) (B : Prop) (x : Dec (Obj × Bool)) : Prop :=
  (∀ s a s', x s = .ok a s' → s.fresh ≤ s'.fresh) ∧
  ∀ inp f j o s', j ≤ C.anons.length → x ⟨inp, C.full, f⟩ = .ok (o, true) s' → s'.fresh = f →
    (∃ j' inp', j' ≤ C.anons.length ∧ s' = ⟨inp', C.full, f⟩ ∧ x (C.lazy j inp) = .ok (C.obj o, true) (C.lazy j' inp')) ∨
      (B ∧ (x (C.lazy j inp) = .err ∨ ∃ o' s'', x (C.lazy j inp) = .ok (o', false) s''))

theorem Lz.noLate {x : Dec Obj} (h : Lz C B x x C.obj) : LzA C B (noLate x) := by
  have hb : Lz C B (Prt.noLate x) (Prt.noLate x) (Prod.map C.obj (fun b => b)) := h.bind fun _ => Lz.pure rfl
  refine ⟨hb.1, fun inp f j o s' hj e hf => ?_⟩
  rcases hb.2 inp f j _ s' hj e hf with h | ⟨h1, h2⟩
  · exact .inl h
  · exact .inr ⟨h1, .inl h2⟩

theorem lzA_fail : LzA C B fail := ⟨nofun, nofun⟩

theorem lz_decSubObjProp (hB : 2 ≤ C.anons.length → B) (n : Nat) (c b : Bool) : LzA C B (decSubObjProp E n c b) := by
  have h1 := lz_decSubSup (C := C) (B := False) c
  have h2 := lz_decAnnots (lz_decAnnot hB n) b
  refine ⟨fun s a s' e => ?_, fun inp f j o s' hj e hf => ?_⟩
  · unfold decSubObjProp at e
    cases h3 : decSubSup E c s with
    | ub => rw [h3] at e; cases e
    | err => rw [h3] at e; dsimp only at e; split at e <;> cases e
    | ok p s1 =>
      have h5 := h1.1 s p s1 h3
      rw [h3] at e
      dsimp only at e
      cases h4 : decAnnots E (decAnnot E n) b s1 with
      | ub => rw [h4] at e; cases e
      | err =>
        rw [h4] at e
        dsimp only at e
        split at e
        · cases e
        · cases e; exact h5
      | ok as s2 => rw [h4] at e; cases e; exact Nat.le_trans h5 (h2.1 s1 as s' h4)
  · unfold decSubObjProp at e ⊢
    cases h3 : decSubSup E c ⟨inp, C.full, f⟩ with
    | ub => rw [h3] at e; cases e
    | err => rw [h3] at e; dsimp only at e; split at e <;> cases e
    | ok p s1 =>
      have h5 := h1.1 _ p s1 h3
      rw [h3] at e
      dsimp only at e h5
      cases h4 : decAnnots E (decAnnot E n) b s1 with
      | ub => rw [h4] at e; cases e
      | err =>
        rw [h4] at e
        dsimp only at e
        split at e <;> cases e
      | ok as s2 =>
        rw [h4] at e
        cases e
        have h6 := h2.1 s1 as s' h4
        rcases h1.2 inp f j p s1 hj h3 (by omega) with ⟨j', inp', hj', rfl, e1⟩ | h
        · rcases h2.2 inp' f j' as s' hj' h4 hf with ⟨j2, inp2, hj2, rfl, e2⟩ | ⟨h, e2⟩
          · refine .inl ⟨j2, inp2, hj2, rfl, ?_⟩
            rw [e1]
            simp only [Prod.map, e2, Cut.obj, rename_getImplAnnot, List.map_cons, List.map_nil]
          · refine .inr ⟨h, ?_⟩
            rw [e1]
            simp only [Prod.map, e2]
            cases E.checked
            · exact .inr ⟨_, _, rfl⟩
            · exact .inl rfl
        · exact h.1.elim

theorem lz_decAxiom (hB : 2 ≤ C.anons.length → B) (n : Nat) (c : UInt8) : LzA C B (decAxiom E n c) := by
  unfold decAxiom
  dsimp only
  split
  · exact ((lz_decEnt _).bind fun _ => (lz_decAnnots (lz_decAnnot hB n) _).bind fun _ =>
      lz_madeA rfl).noLate
  · split
    · exact lz_decSubObjProp hB n _ _
    · split
      · exact (lz_decPlain hB n _ _ _).noLate
      · exact lzA_fail
    · exact lzA_fail

end

/-! ## Frames -/

/-- Changes that are noted, renamed. -/
def renamed (r : Str → Str) (l : List (Bool × Item)) : List (Bool × Item) := l.map fun e => (e.1, renameItem r e.2)

section
variable {E : Env} {C : Cut E} {B : Prop}

/-- The same for parts of frames, with changes that are noted. -/
def LF (C : Cut E) (B : Prop) (x y : FSt (List (Bool × Item)) → FRes (List (Bool × Item))) : Prop :=
  (∀ s s', x s = .go s' → s.dec.fresh ≤ s'.dec.fresh) ∧
  ∀ l inp f j s', j ≤ C.anons.length → x ⟨l, ⟨inp, C.full, f⟩, false, .ok⟩ = .go s' → s'.dec.fresh = f →
    (∃ l' j' inp', j' ≤ C.anons.length ∧ s' = ⟨l', ⟨inp', C.full, f⟩, false, .ok⟩ ∧
      y ⟨renamed C.name l, C.lazy j inp, false, .ok⟩ = .go ⟨renamed C.name l', C.lazy j' inp', false, .ok⟩) ∨
    (B ∧ ∃ l', y ⟨renamed C.name l, C.lazy j inp, false, .ok⟩ = .stop l' .rejected)

theorem LF.go : LF C B .go .go := by
  refine ⟨fun s s' e => by cases e; exact Nat.le_refl _, fun l inp f j s' hj e _ => ?_⟩
  cases e
  exact .inl ⟨l, j, inp, hj, rfl, rfl⟩

theorem lf_deliver {i i' : Item} (e : i' = renameItem C.name i) : LF C B (deliver noteAll i) (deliver noteAll i') := by
  subst e
  refine ⟨fun s s' e => by cases e; exact Nat.le_refl _, fun l inp f j s' hj e _ => ?_⟩
  cases e
  refine .inl ⟨l ++ [(false, i)], j, inp, hj, rfl, ?_⟩
  simp [deliver, noteAll, renamed, Ret.isErr]

theorem LF.get {α : Type} {x y : Dec α} {r : α → α} {k m : α → FSt (List (Bool × Item)) → FRes (List (Bool × Item))}
    (hx : Lz C B x y r) (hk : ∀ a, LF C B (k a) (m (r a))) : LF C B (fun s => s.get x k) (fun s => s.get y m) := by
  refine ⟨fun s s' e => ?_, fun l inp f j s' hj e hf => ?_⟩
  · unfold FSt.get at e
    dsimp only at e
    cases h : x s.dec with
    | ok a d => rw [h] at e; exact Nat.le_trans (hx.1 _ a d h) ((hk a).1 _ s' e)
    | err => rw [h] at e; cases e
    | ub => rw [h] at e; cases e
  · unfold FSt.get at e ⊢
    dsimp only at e ⊢
    cases h : x ⟨inp, C.full, f⟩ with
    | ok a d =>
      rw [h] at e
      dsimp only at e
      have h1 := hx.1 _ a d h
      have h2 := (hk a).1 _ s' e
      dsimp only at h1 h2
      rcases hx.2 inp f j a d hj h (by omega) with ⟨j', inp', hj', rfl, e'⟩ | ⟨hb, e'⟩
      · rw [e']
        exact (hk a).2 l inp' f j' s' hj' e hf
      · rw [e']; exact .inr ⟨hb, _, rfl⟩
    | err => rw [h] at e; cases e
    | ub => rw [h] at e; cases e

theorem LF.andThen {x y k m : FSt (List (Bool × Item)) → FRes (List (Bool × Item))} (hx : LF C B x y) (hk : LF C B k m) :
    LF C B (fun s => (x s).andThen k) (fun s => (y s).andThen m) := by
  refine ⟨fun s s' e => ?_, fun l inp f j s' hj e hf => ?_⟩
  · dsimp only at e
    cases h : x s with
    | go s1 => rw [h] at e; exact Nat.le_trans (hx.1 _ _ h) (hk.1 _ _ e)
    | stop c r => rw [h] at e; cases e
  · dsimp only at e ⊢
    cases h : x ⟨l, ⟨inp, C.full, f⟩, false, .ok⟩ with
    | go s1 =>
      rw [h] at e
      have h1 := hx.1 _ _ h
      have h2 := hk.1 _ _ e
      dsimp only at h1
      rcases hx.2 l inp f j s1 hj h (by omega) with ⟨l', j', inp', hj', rfl, e'⟩ | ⟨hb, l', e'⟩
      · rw [e']
        exact hk.2 l' inp' f j' s' hj' e hf
      · rw [e']; exact .inr ⟨hb, l', rfl⟩
    | stop c r => rw [h] at e; cases e

theorem lf_times {x y : FSt (List (Bool × Item)) → FRes (List (Bool × Item))} (hx : LF C B x y) : ∀ n, LF C B (times x n) (times y n)
  | 0 => LF.go
  | n + 1 => hx.andThen (lf_times hx n)

theorem lf_counted {x y : FSt (List (Bool × Item)) → FRes (List (Bool × Item))} (hx : LF C B x y) :
    LF C B (counted E x) (counted E y) := LF.get lz_varint fun n => lf_times hx n

/-- A bound on the depth that is taken from the input. -/
theorem LF.bound {x : Nat → FSt (List (Bool × Item)) → FRes (List (Bool × Item))} (hx : ∀ n, LF C B (x n) (x n)) :
    LF C B (fun s => x (s.dec.inp.length + 1) s) (fun s => x (s.dec.inp.length + 1) s) :=
  ⟨fun s s' e => (hx _).1 s s' e, fun l inp f j s' hj e hf => (hx _).2 l inp f j s' hj e hf⟩

theorem lf_axiom (hB : 2 ≤ C.anons.length → B) (c : UInt8) : LF C B (axiomFrame E noteAll c) (axiomFrame E noteAll c) := by
  refine LF.bound (x := fun n s => s.get (decAxiom E n c) fun a s =>
    if a.2 then deliver noteAll (.ax a.1) s else afterError (deliver noteAll (.ax a.1) s)) fun n => ?_
  have hx := lz_decAxiom hB n c
  refine ⟨fun s s' e => ?_, fun l inp f j s' hj e hf => ?_⟩
  · unfold FSt.get at e
    dsimp only at e
    cases h : decAxiom E n c s.dec with
    | ok a d =>
      rw [h] at e
      dsimp only at e
      split at e
      · cases e; exact hx.1 _ a d h
      · cases e
    | err => rw [h] at e; cases e
    | ub => rw [h] at e; cases e
  · unfold FSt.get at e ⊢
    dsimp only at e ⊢
    cases h : decAxiom E n c ⟨inp, C.full, f⟩ with
    | ok a d =>
      rw [h] at e
      obtain ⟨o, b⟩ := a
      cases b with
      | false => cases e
      | true =>
        cases e
        rcases hx.2 inp f j o d hj h hf with ⟨j', inp', hj', rfl, e'⟩ | ⟨hb, e' | ⟨o', s'', e'⟩⟩
        · rw [e']
          refine .inl ⟨l ++ [(false, .ax o)], j', inp', hj', rfl, ?_⟩
          simp [deliver, noteAll, renamed, renameItem, Ret.isErr]
        · rw [e']; exact .inr ⟨hb, _, rfl⟩
        · rw [e']; exact .inr ⟨hb, _, rfl⟩
    | err => rw [h] at e; cases e
    | ub => rw [h] at e; cases e

theorem lf_frameOf (hB : 2 ≤ C.anons.length → B) {c : UInt8} (hc : 6 ≤ c.toNat % 64) :
    LF C B (frameOf E noteAll c) (frameOf E noteAll c) := by
  have e1 : (frameOf E noteAll c : FSt (List (Bool × Item)) → FRes (List (Bool × Item))) =
      if c.toNat % 64 = 6 then iriVersion E noteAll (bit7 c)
      else if c.toNat % 64 = 7 then counted E (importItem E noteAll)
      else if c.toNat % 64 = 8 then counted E (annotItem E noteAll)
      else axiomFrame E noteAll c := by
    funext s
    unfold frameOf
    split <;> first | omega | (simp only [*]; rfl) | skip
    rename_i h6 h7 h8
    rw [if_neg h6, if_neg h7, if_neg h8]
  rw [e1]
  split
  · refine LF.andThen (LF.get lz_decIri fun i => lf_deliver rfl) ?_
    cases bit7 c
    · exact LF.go
    · exact LF.get lz_decIri fun i => lf_deliver rfl
  · split
    · exact lf_counted (LF.get lz_decIri fun i => lf_deliver rfl)
    · split
      · refine lf_counted (LF.bound (x := fun n s => s.get (decAnnot E n) fun a s => deliver noteAll (.annot a) s) fun n => ?_)
        exact LF.get (lz_decAnnot hB n) fun i => lf_deliver rfl
      · exact lf_axiom hB c

end

end Cowl.Prt
