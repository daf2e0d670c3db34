import Verif.SemSpec
import Verif.ObjLemmas
/-! # Objects that are the same mean the same -/
namespace Cowl.Sem
open Ast ObjSpec

/-! ## Taking `Same` apart -/

theorem same_prim {p q : Prim} : Same (.prim p) (.prim q) ↔ p = q :=
  ⟨fun h => by cases h; rfl, fun h => h ▸ .prim p⟩

theorem same_prim_comp {p : Prim} {t : OType} {b : Bool} {fs : List Obj} {u : Nat} : ¬ Same (.prim p) (.comp t b fs u) := nofun

theorem same_comp_prim {p : Prim} {t : OType} {b : Bool} {fs : List Obj} {u : Nat} : ¬ Same (.comp t b fs u) (.prim p) := nofun

theorem same_comp {t t' : OType} {b b' : Bool} {fs gs : List Obj} {u v : Nat} :
    Same (.comp t b fs u) (.comp t' b' gs v) ↔ t = t' ∧ b = b' ∧ SameAll fs gs ∧ (t.flags.card = true → u = v) :=
  ⟨fun h => by cases h with | comp h hu => exact ⟨rfl, rfl, h, hu⟩,
   fun ⟨h1, h2, h3, h4⟩ => by subst h1 h2; exact .comp h3 h4⟩

theorem same_vec {xs ys : List Obj} : Same (.vec false xs) (.vec false ys) ↔ ∃ zs, SameAll xs zs ∧ zs.Perm ys :=
  ⟨fun h => by cases h with | unordered h hp => exact ⟨_, h, hp⟩, fun ⟨_, h, hp⟩ => .unordered h hp⟩

theorem same_vec_ord {xs ys : List Obj} : Same (.vec true xs) (.vec true ys) ↔ SameAll xs ys :=
  ⟨fun h => by cases h with | ordered h => exact h, .ordered⟩

theorem sameAll_cons {x y : Obj} {xs ys : List Obj} : SameAll (x :: xs) (y :: ys) ↔ Same x y ∧ SameAll xs ys :=
  ⟨fun h => by cases h with | cons h hs => exact ⟨h, hs⟩, fun ⟨h, hs⟩ => .cons h hs⟩

theorem sameAll_nil : SameAll [] [] ↔ True := ⟨fun _ => trivial, fun _ => .nil⟩

theorem sameAll_nil_cons {y : Obj} {ys : List Obj} : ¬ SameAll [] (y :: ys) := nofun

theorem sameAll_cons_nil {y : Obj} {ys : List Obj} : ¬ SameAll (y :: ys) [] := nofun

/-- A list that is a reordering of images is the images of a reordering. -/
theorem perm_map_inv {α β : Type} {f : α → β} {zs ys : List β} (h : zs.Perm ys) : ∀ l, ys = l.map f →
    ∃ l' : List α, l'.Perm l ∧ zs = l'.map f := by
  induction h with
  | nil => intro l e; exact ⟨l, .refl _, e⟩
  | cons a _ ih =>
    intro l e
    cases l with
    | nil => cases e
    | cons b l =>
      simp only [List.map_cons, List.cons.injEq] at e
      obtain ⟨l', h1, h2⟩ := ih l e.2
      exact ⟨b :: l', h1.cons _, by rw [h2, e.1]; rfl⟩
  | swap a b l0 =>
    intro l e
    match l, e with
    | c :: d :: l, e =>
      simp only [List.map_cons, List.cons.injEq] at e
      exact ⟨d :: c :: l, .swap _ _ _, by simp [e.1, e.2.1, e.2.2]⟩
  | trans _ _ ih1 ih2 =>
    intro l e
    obtain ⟨l1, p1, e1⟩ := ih2 l e
    obtain ⟨l2, p2, e2⟩ := ih1 l1 e1
    exact ⟨l2, p2.trans p1, e2⟩

theorem ces_map (I : Interp) : ∀ cs : List CE, ces I cs = cs.map (ce I)
  | [] => rfl
  | c :: cs => by rw [ces, ces_map I cs]; rfl

theorem drs_map (I : Interp) : ∀ cs : List DR, drs I cs = cs.map (dr I)
  | [] => rfl
  | c :: cs => by rw [drs, drs_map I cs]; rfl

theorem toObjs_map : ∀ cs : List CE, CE.toObjs cs = cs.map CE.toObj
  | [] => rfl
  | c :: cs => by rw [CE.toObjs, toObjs_map cs]; rfl

theorem dtoObjs_map : ∀ cs : List DR, DR.toObjs cs = cs.map DR.toObj
  | [] => rfl
  | c :: cs => by rw [DR.toObjs, dtoObjs_map cs]; rfl

/-- The meanings of the items of vectors that are the same. -/
theorem items_perm {α β : Type} {f : α → Obj} {g : α → β} : ∀ (xs : List α), (∀ x ∈ xs, ∀ y, Same (f x) (f y) → g x = g y) →
    ∀ ys : List α, Same (.vec false (xs.map f)) (.vec false (ys.map f)) → (xs.map g).Perm (ys.map g) := by
  intro xs hx ys h
  obtain ⟨zs, h1, h2⟩ := same_vec.1 h
  obtain ⟨l, hp, rfl⟩ := perm_map_inv h2 ys rfl
  have : xs.map g = l.map g := by
    clear h h2 hp
    induction xs generalizing l with
    | nil => cases l with
      | nil => rfl
      | cons => cases h1
    | cons x xs ih => cases l with
      | nil => cases h1
      | cons y l =>
        obtain ⟨a, b⟩ := sameAll_cons.1 h1
        simp only [List.map_cons]
        rw [hx x (by simp) y a, ih (fun z hz => hx z (List.mem_cons_of_mem _ hz)) l b]
  rw [this]
  exact hp.map g

theorem items_eq {α β : Type} {f : α → Obj} {g : α → β} : ∀ (xs : List α), (∀ x ∈ xs, ∀ y, Same (f x) (f y) → g x = g y) →
    ∀ ys : List α, Same (.vec true (xs.map f)) (.vec true (ys.map f)) → xs.map g = ys.map g := by
  intro xs hx ys h
  have h1 := same_vec_ord.1 h
  clear h
  induction xs generalizing ys with
  | nil => cases ys with
    | nil => rfl
    | cons => cases h1
  | cons x xs ih => cases ys with
    | nil => cases h1
    | cons y l =>
      obtain ⟨a, b⟩ := sameAll_cons.1 h1
      simp only [List.map_cons]
      rw [hx x (by simp) y a, ih (fun z hz => hx z (List.mem_cons_of_mem _ hz)) l b]

/-! ## Leaves -/

variable {I : Interp}

theorem same_ent {k : EntKind} {i j : Iri} (h : Same (ent k i) (ent k j)) : i = j := by
  have := same_prim.1 h; cases this; rfl

theorem same_ind {i j : Ind} (h : Same i.toObj j.toObj) : i = j := by
  cases i <;> cases j <;> have := same_prim.1 h <;> cases this <;> rfl

theorem same_lit {i j : Lit} (h : Same i.toObj j.toObj) : i = j := by
  cases i; cases j; cases h; rfl

theorem same_ope {p q : Ope} (h : Same p.toObj q.toObj) : p = q := by
  cases p <;> cases q
  · rw [same_ent h]
  · exact absurd h same_prim_comp
  · exact absurd h same_comp_prim
  · obtain ⟨_, _, h, _⟩ := same_comp.1 h
    rw [same_ent (sameAll_cons.1 h).1]

theorem same_facet {f g : Iri × Lit} (h : Same (facetObj f) (facetObj g)) : f = g := by
  obtain ⟨_, _, h, _⟩ := same_comp.1 h
  obtain ⟨h1, h2⟩ := sameAll_cons.1 h
  have e1 := same_prim.1 h1
  have e2 := same_lit (sameAll_cons.1 h2).1
  cases f; cases g; cases e1; cases e2; rfl

theorem mem_perm {α : Type} {l l' : List (α → Prop)} (h : l.Perm l') :
    (fun v => ∀ p ∈ l, p v) = (fun v => ∀ p ∈ l', p v) ∧ (fun v => ∃ p ∈ l, p v) = (fun v => ∃ p ∈ l', p v) :=
  ⟨funext fun v => propext ⟨fun k p hp => k p (h.mem_iff.2 hp), fun k p hp => k p (h.mem_iff.1 hp)⟩,
   funext fun v => propext ⟨fun ⟨p, hp, hv⟩ => ⟨p, h.mem_iff.1 hp, hv⟩, fun ⟨p, hp, hv⟩ => ⟨p, h.mem_iff.2 hp, hv⟩⟩⟩

/-! ## Data ranges -/

mutual
theorem same_dr : ∀ (d e : DR), Same d.toObj e.toObj → dr I d = dr I e
  | .dt i, e, h => by
    cases e <;> simp only [DR.toObj, ent] at h <;> first | exact absurd h same_prim_comp | (cases same_prim.1 h; rfl)
  | .inter ds, e, h => by
    cases e <;> simp only [DR.toObj, ent, same_comp_prim, same_comp, reduceCtorEq, false_and] at h
    exact (mem_perm (same_drs ds _ (sameAll_cons.1 h.2.2.1).1)).1
  | .union ds, e, h => by
    cases e <;> simp only [DR.toObj, ent, same_comp_prim, same_comp, reduceCtorEq, false_and] at h
    exact (mem_perm (same_drs ds _ (sameAll_cons.1 h.2.2.1).1)).2
  | .compl d, e, h => by
    cases e <;> simp only [DR.toObj, ent, same_comp_prim, same_comp, reduceCtorEq, false_and] at h
    rename_i e
    simp only [dr]
    rw [same_dr d e (sameAll_cons.1 h.2.2.1).1]
  | .oneOf ls, e, h => by
    cases e <;> simp only [DR.toObj, ent, same_comp_prim, same_comp, reduceCtorEq, false_and] at h
    have hp := items_perm (f := Lit.toObj) (g := lit I) ls (fun x _ y k => by rw [same_lit k]) _ (sameAll_cons.1 h.2.2.1).1
    funext v
    simp only [dr]
    exact propext ⟨fun ⟨l, hl, e⟩ => ⟨l, hp.mem_iff.1 hl, e⟩, fun ⟨l, hl, e⟩ => ⟨l, hp.mem_iff.2 hl, e⟩⟩
  | .restr i fs, e, h => by
    cases e <;> simp only [DR.toObj, ent, same_comp_prim, same_comp, reduceCtorEq, false_and] at h
    obtain ⟨h1, h2⟩ := sameAll_cons.1 h.2.2.1
    cases same_prim.1 h1
    have hp := items_perm (f := facetObj) (g := fun f => (f.1, lit I f.2)) fs (fun x _ y k => by rw [same_facet k]) _
      (sameAll_cons.1 h2).1
    funext v
    simp only [dr]
    exact propext ⟨fun ⟨a, b⟩ => ⟨a, fun f hf => b f (hp.mem_iff.2 hf)⟩, fun ⟨a, b⟩ => ⟨a, fun f hf => b f (hp.mem_iff.1 hf)⟩⟩

theorem same_drs : ∀ (ds es : List DR), Same (.vec false (DR.toObjs ds)) (.vec false (DR.toObjs es)) → (drs I ds).Perm (drs I es)
  | ds, es, h => by
    rw [dtoObjs_map, dtoObjs_map] at h
    rw [drs_map, drs_map]
    exact items_perm ds (same_each ds) es h

theorem same_each : ∀ (ds : List DR), ∀ x ∈ ds, ∀ y, Same x.toObj y.toObj → dr I x = dr I y
  | [], x, hx => by cases hx
  | d :: ds, x, hx => by
    intro y h
    rcases List.mem_cons.1 hx with e | hx
    · rw [e] at h ⊢; exact same_dr d y h
    · exact same_each ds x hx y h
end

/-! ## Class expressions -/

theorem card_inj {k k' : CardKind} (h : k.objType = k'.objType) : k = k' := by cases k <;> cases k' <;> first | rfl | cases h

theorem dcard_inj {k k' : CardKind} (h : k.dataType = k'.dataType) : k = k' := by cases k <;> cases k' <;> first | rfl | cases h

/-- What it takes for two class expressions to be the same. -/
def Alike (R : CE → CE → Prop) : CE → CE → Prop
  | .cls i, .cls j => i = j
  | .inter cs, .inter ds => Same (.vec false (CE.toObjs cs)) (.vec false (CE.toObjs ds))
  | .union cs, .union ds => Same (.vec false (CE.toObjs cs)) (.vec false (CE.toObjs ds))
  | .compl c, .compl d => R c d
  | .oneOf is, .oneOf js => Same (.vec false (is.map Ind.toObj)) (.vec false (js.map Ind.toObj))
  | .objSome p c, .objSome q d => p = q ∧ R c d
  | .objAll p c, .objAll q d => p = q ∧ R c d
  | .objHasValue p i, .objHasValue q j => p = q ∧ i = j
  | .objHasSelf p, .objHasSelf q => p = q
  | .objCard k n p, .objCard l m q => k = l ∧ n = m ∧ p = q
  | .objCardQ k n p c, .objCardQ l m q d => k = l ∧ n = m ∧ p = q ∧ R c d
  | .dataSome p c, .dataSome q d => p = q ∧ Same c.toObj d.toObj
  | .dataAll p c, .dataAll q d => p = q ∧ Same c.toObj d.toObj
  | .dataHasValue p i, .dataHasValue q j => p = q ∧ i = j
  | .dataCard k n p, .dataCard l m q => k = l ∧ n = m ∧ p = q
  | .dataCardQ k n p c, .dataCardQ l m q d => k = l ∧ n = m ∧ p = q ∧ Same c.toObj d.toObj
  | _, _ => False

theorem objType_card (k : CardKind) : k.objType.flags.card = true := by cases k <;> rfl

theorem dataType_card (k : CardKind) : k.dataType.flags.card = true := by cases k <;> rfl

theorem same_top {c d : CE} (h : c.isTop = true) (h' : d.isTop = true) : Same c.toObj d.toObj := by
  cases c <;> simp only [CE.isTop, Bool.false_eq_true] at h
  cases d <;> simp only [CE.isTop, Bool.false_eq_true] at h'
  rw [eq_of_beq h, eq_of_beq h']
  exact Same.refl _

theorem dsame_top {c d : DR} (h : c.isTop = true) (h' : d.isTop = true) : Same c.toObj d.toObj := by
  cases c <;> simp only [DR.isTop, Bool.false_eq_true] at h
  cases d <;> simp only [DR.isTop, Bool.false_eq_true] at h'
  rw [eq_of_beq h, eq_of_beq h']
  exact Same.refl _

theorem same_otype : ∀ {a b : Obj}, Same a b → a.otype = b.otype
  | _, _, .str _ | _, _, .lit _ _ | _, _, .prim _ | _, _, .other _ _ | _, _, .ordered _ | _, _, .unordered _ _ | _, _, .comp _ _ => rfl

/-- The type of the object of a class expression. -/
def ceType : CE → OType
  | .cls _ => .ceClass
  | .inter _ => .ceObjIntersect
  | .union _ => .ceObjUnion
  | .compl _ => .ceObjCompl
  | .oneOf _ => .ceObjOneOf
  | .objSome _ _ => .ceObjSome
  | .objAll _ _ => .ceObjAll
  | .objHasValue _ _ => .ceObjHasValue
  | .objHasSelf _ => .ceObjHasSelf
  | .objCard k _ _ | .objCardQ k _ _ _ => k.objType
  | .dataSome _ _ => .ceDataSome
  | .dataAll _ _ => .ceDataAll
  | .dataHasValue _ _ => .ceDataHasValue
  | .dataCard k _ _ | .dataCardQ k _ _ _ => k.dataType

theorem ceType_eq (c : CE) : c.toObj.otype = ceType c := by
  cases c <;> simp only [CE.toObj, ent] <;> (try split) <;> rfl

theorem alike (c e : CE) (h : Same c.toObj e.toObj) : Alike (fun c d => Same c.toObj d.toObj) c e := by
  have ht := same_otype h
  rw [ceType_eq, ceType_eq] at ht
  cases c with
  | cls i =>
    cases e <;> first | (rename_i k _ _ _; cases k <;> cases ht; done) | (rename_i k _ _; cases k <;> cases ht; done) | (cases ht; done) | skip
    exact same_ent h
  | inter cs =>
    cases e <;> first | (rename_i k _ _ _; cases k <;> cases ht; done) | (rename_i k _ _; cases k <;> cases ht; done) | (cases ht; done) | skip
    exact (sameAll_cons.1 (same_comp.1 h).2.2.1).1
  | union cs =>
    cases e <;> first | (rename_i k _ _ _; cases k <;> cases ht; done) | (rename_i k _ _; cases k <;> cases ht; done) | (cases ht; done) | skip
    exact (sameAll_cons.1 (same_comp.1 h).2.2.1).1
  | compl c =>
    cases e <;> first | (rename_i k _ _ _; cases k <;> cases ht; done) | (rename_i k _ _; cases k <;> cases ht; done) | (cases ht; done) | skip
    exact (sameAll_cons.1 (same_comp.1 h).2.2.1).1
  | oneOf is =>
    cases e <;> first | (rename_i k _ _ _; cases k <;> cases ht; done) | (rename_i k _ _; cases k <;> cases ht; done) | (cases ht; done) | skip
    exact (sameAll_cons.1 (same_comp.1 h).2.2.1).1
  | objSome p c =>
    cases e <;> first | (rename_i k _ _ _; cases k <;> cases ht; done) | (rename_i k _ _; cases k <;> cases ht; done) | (cases ht; done) | skip
    rename_i q d
    simp only [CE.toObj] at h
    by_cases hc : c.isTop = true <;> by_cases hd : d.isTop = true
    · rw [if_pos hc, if_pos hd] at h
      exact ⟨same_ope (sameAll_cons.1 (same_comp.1 h).2.2.1).1, same_top hc hd⟩
    · rw [if_pos hc, if_neg hd] at h; cases (same_comp.1 h).2.1
    · rw [if_neg hc, if_pos hd] at h; cases (same_comp.1 h).2.1
    · rw [if_neg hc, if_neg hd] at h
      obtain ⟨h1, h2⟩ := sameAll_cons.1 (same_comp.1 h).2.2.1
      exact ⟨same_ope h1, (sameAll_cons.1 h2).1⟩
  | objAll p c =>
    cases e <;> first | (rename_i k _ _ _; cases k <;> cases ht; done) | (rename_i k _ _; cases k <;> cases ht; done) | (cases ht; done) | skip
    rename_i q d
    simp only [CE.toObj] at h
    by_cases hc : c.isTop = true <;> by_cases hd : d.isTop = true
    · rw [if_pos hc, if_pos hd] at h
      exact ⟨same_ope (sameAll_cons.1 (same_comp.1 h).2.2.1).1, same_top hc hd⟩
    · rw [if_pos hc, if_neg hd] at h; cases (same_comp.1 h).2.1
    · rw [if_neg hc, if_pos hd] at h; cases (same_comp.1 h).2.1
    · rw [if_neg hc, if_neg hd] at h
      obtain ⟨h1, h2⟩ := sameAll_cons.1 (same_comp.1 h).2.2.1
      exact ⟨same_ope h1, (sameAll_cons.1 h2).1⟩
  | objHasValue p i =>
    cases e <;> first | (rename_i k _ _ _; cases k <;> cases ht; done) | (rename_i k _ _; cases k <;> cases ht; done) | (cases ht; done) | skip
    obtain ⟨h1, h2⟩ := sameAll_cons.1 (same_comp.1 h).2.2.1
    exact ⟨same_ope h1, same_ind (sameAll_cons.1 h2).1⟩
  | objHasSelf p =>
    cases e <;> first | (rename_i k _ _ _; cases k <;> cases ht; done) | (rename_i k _ _; cases k <;> cases ht; done) | (cases ht; done) | skip
    exact same_ope (sameAll_cons.1 (same_comp.1 h).2.2.1).1
  | objCard k n p =>
    cases e <;> first | (cases k <;> cases ht; done) | (rename_i l _ _ _; cases k <;> cases l <;> cases ht; done) | (rename_i l _ _; cases k <;> cases l <;> cases ht; done) | (cases (same_comp.1 h).2.1; done) | skip
    rename_i l m q
    simp only [CE.toObj] at h
    obtain ⟨h1, _, h3, h4⟩ := same_comp.1 h
    obtain ⟨h5, _⟩ := sameAll_cons.1 h3
    exact ⟨card_inj h1, UInt32.toNat_inj.1 (h4 (objType_card k)), same_ope h5⟩
  | objCardQ k n p c =>
    cases e <;> first | (cases k <;> cases ht; done) | (rename_i l _ _ _; cases k <;> cases l <;> cases ht; done) | (rename_i l _ _; cases k <;> cases l <;> cases ht; done) | (cases (same_comp.1 h).2.1; done) | skip
    rename_i l m q d
    simp only [CE.toObj] at h
    obtain ⟨h1, _, h3, h4⟩ := same_comp.1 h
    obtain ⟨h5, h6⟩ := sameAll_cons.1 h3
    exact ⟨card_inj h1, UInt32.toNat_inj.1 (h4 (objType_card k)), same_ope h5, (sameAll_cons.1 h6).1⟩
  | dataSome p c =>
    cases e <;> first | (rename_i k _ _ _; cases k <;> cases ht; done) | (rename_i k _ _; cases k <;> cases ht; done) | (cases ht; done) | skip
    rename_i q d
    simp only [CE.toObj] at h
    by_cases hc : c.isTop = true <;> by_cases hd : d.isTop = true
    · rw [if_pos hc, if_pos hd] at h
      exact ⟨same_ent (sameAll_cons.1 (same_comp.1 h).2.2.1).1, dsame_top hc hd⟩
    · rw [if_pos hc, if_neg hd] at h; cases (same_comp.1 h).2.1
    · rw [if_neg hc, if_pos hd] at h; cases (same_comp.1 h).2.1
    · rw [if_neg hc, if_neg hd] at h
      obtain ⟨h1, h2⟩ := sameAll_cons.1 (same_comp.1 h).2.2.1
      exact ⟨same_ent h1, (sameAll_cons.1 h2).1⟩
  | dataAll p c =>
    cases e <;> first | (rename_i k _ _ _; cases k <;> cases ht; done) | (rename_i k _ _; cases k <;> cases ht; done) | (cases ht; done) | skip
    rename_i q d
    simp only [CE.toObj] at h
    by_cases hc : c.isTop = true <;> by_cases hd : d.isTop = true
    · rw [if_pos hc, if_pos hd] at h
      exact ⟨same_ent (sameAll_cons.1 (same_comp.1 h).2.2.1).1, dsame_top hc hd⟩
    · rw [if_pos hc, if_neg hd] at h; cases (same_comp.1 h).2.1
    · rw [if_neg hc, if_pos hd] at h; cases (same_comp.1 h).2.1
    · rw [if_neg hc, if_neg hd] at h
      obtain ⟨h1, h2⟩ := sameAll_cons.1 (same_comp.1 h).2.2.1
      exact ⟨same_ent h1, (sameAll_cons.1 h2).1⟩
  | dataHasValue p i =>
    cases e <;> first | (rename_i k _ _ _; cases k <;> cases ht; done) | (rename_i k _ _; cases k <;> cases ht; done) | (cases ht; done) | skip
    obtain ⟨h1, h2⟩ := sameAll_cons.1 (same_comp.1 h).2.2.1
    exact ⟨same_ent h1, same_lit (sameAll_cons.1 h2).1⟩
  | dataCard k n p =>
    cases e <;> first | (cases k <;> cases ht; done) | (rename_i l _ _ _; cases k <;> cases l <;> cases ht; done) | (rename_i l _ _; cases k <;> cases l <;> cases ht; done) | (cases (same_comp.1 h).2.1; done) | skip
    rename_i l m q
    simp only [CE.toObj] at h
    obtain ⟨h1, _, h3, h4⟩ := same_comp.1 h
    obtain ⟨h5, _⟩ := sameAll_cons.1 h3
    exact ⟨dcard_inj h1, UInt32.toNat_inj.1 (h4 (dataType_card k)), same_ent h5⟩
  | dataCardQ k n p c =>
    cases e <;> first | (cases k <;> cases ht; done) | (rename_i l _ _ _; cases k <;> cases l <;> cases ht; done) | (rename_i l _ _; cases k <;> cases l <;> cases ht; done) | (cases (same_comp.1 h).2.1; done) | skip
    rename_i l m q d
    simp only [CE.toObj] at h
    obtain ⟨h1, _, h3, h4⟩ := same_comp.1 h
    obtain ⟨h5, h6⟩ := sameAll_cons.1 h3
    exact ⟨dcard_inj h1, UInt32.toNat_inj.1 (h4 (dataType_card k)), same_ent h5, (sameAll_cons.1 h6).1⟩

mutual
theorem same_ce : ∀ (c e : CE), Same c.toObj e.toObj → ce I c = ce I e
  | .cls i, e, h => by
    have k := alike _ _ h
    cases e <;> simp only [Alike] at k
    rw [k]
  | .inter cs, e, h => by
    have k := alike _ _ h
    cases e <;> simp only [Alike] at k
    exact (mem_perm (same_ces cs _ k)).1
  | .union cs, e, h => by
    have k := alike _ _ h
    cases e <;> simp only [Alike] at k
    exact (mem_perm (same_ces cs _ k)).2
  | .compl c, e, h => by
    have k := alike _ _ h
    cases e <;> simp only [Alike] at k
    simp only [ce]
    rw [same_ce c _ k]
  | .oneOf is, e, h => by
    have k := alike _ _ h
    cases e <;> simp only [Alike] at k
    have hp := items_perm (f := Ind.toObj) (g := ind I) is (fun x _ y k => by rw [same_ind k]) _ k
    funext v
    simp only [ce]
    exact propext ⟨fun ⟨l, hl, e⟩ => ⟨l, hp.mem_iff.1 hl, e⟩, fun ⟨l, hl, e⟩ => ⟨l, hp.mem_iff.2 hl, e⟩⟩
  | .objSome p c, e, h => by
    have k := alike _ _ h
    cases e <;> simp only [Alike] at k
    simp only [ce]
    rw [same_ce c _ k.2, k.1]
  | .objAll p c, e, h => by
    have k := alike _ _ h
    cases e <;> simp only [Alike] at k
    simp only [ce]
    rw [same_ce c _ k.2, k.1]
  | .objHasValue p i, e, h => by
    have k := alike _ _ h
    cases e <;> simp only [Alike] at k
    rw [k.1, k.2]
  | .objHasSelf p, e, h => by
    have k := alike _ _ h
    cases e <;> simp only [Alike] at k
    rw [k]
  | .objCard _ n p, e, h => by
    have k := alike _ _ h
    cases e <;> simp only [Alike] at k
    rw [k.1, k.2.1, k.2.2]
  | .objCardQ _ n p c, e, h => by
    have k := alike _ _ h
    cases e <;> simp only [Alike] at k
    simp only [ce]
    rw [same_ce c _ k.2.2.2, k.1, k.2.1, k.2.2.1]
  | .dataSome p c, e, h => by
    have k := alike _ _ h
    cases e <;> simp only [Alike] at k
    simp only [ce]
    rw [same_dr c _ k.2, k.1]
  | .dataAll p c, e, h => by
    have k := alike _ _ h
    cases e <;> simp only [Alike] at k
    simp only [ce]
    rw [same_dr c _ k.2, k.1]
  | .dataHasValue p i, e, h => by
    have k := alike _ _ h
    cases e <;> simp only [Alike] at k
    rw [k.1, k.2]
  | .dataCard _ n p, e, h => by
    have k := alike _ _ h
    cases e <;> simp only [Alike] at k
    rw [k.1, k.2.1, k.2.2]
  | .dataCardQ _ n p c, e, h => by
    have k := alike _ _ h
    cases e <;> simp only [Alike] at k
    simp only [ce]
    rw [same_dr c _ k.2.2.2, k.1, k.2.1, k.2.2.1]

theorem same_ces : ∀ (ds es : List CE), Same (.vec false (CE.toObjs ds)) (.vec false (CE.toObjs es)) → (ces I ds).Perm (ces I es)
  | ds, es, h => by
    rw [toObjs_map, toObjs_map] at h
    rw [ces_map, ces_map]
    exact items_perm ds (same_ceach ds) es h

theorem same_ceach : ∀ (ds : List CE), ∀ x ∈ ds, ∀ y, Same x.toObj y.toObj → ce I x = ce I y
  | [], x, hx => by cases hx
  | d :: ds, x, hx => by
    intro y h
    rcases List.mem_cons.1 hx with e | hx
    · rw [e] at h ⊢; exact same_ce d y h
    · exact same_ceach ds x hx y h
end

/-! ## Axioms -/

theorem same_ent_map {β : Type} {k : EntKind} {g : Iri → β} {ps qs : List Iri}
    (h : Same (.vec false (ps.map (ent k))) (.vec false (qs.map (ent k)))) : (ps.map g).Perm (qs.map g) :=
  items_perm (f := ent k) ps (fun _ _ _ h => by rw [same_ent h]) qs h

theorem same_ope_map {ps qs : List Ope} (h : Same (.vec false (ps.map Ope.toObj)) (.vec false (qs.map Ope.toObj))) :
    (ps.map (ope I)).Perm (qs.map (ope I)) := items_perm ps (fun _ _ _ h => by rw [same_ope h]) qs h

theorem same_ind_map {ps qs : List Ind} (h : Same (.vec false (ps.map Ind.toObj)) (.vec false (qs.map Ind.toObj))) :
    (ps.map (ind I)).Perm (qs.map (ind I)) := items_perm ps (fun _ _ _ h => by rw [same_ind h]) qs h

theorem same_subOpe {p q : SubOpe} (h : Same p.toObj q.toObj) : subOpe I p = subOpe I q := by
  cases p with
  | ope p =>
    cases q with
    | ope q => rw [same_ope h]
    | chain qs => cases p <;> cases h
  | chain ps =>
    cases q with
    | ope q => cases q <;> cases h
    | chain qs =>
      simp only [subOpe]
      rw [items_eq (f := Ope.toObj) (g := ope I) ps (fun _ _ _ h => by rw [same_ope h]) qs h]

theorem char_inj {k k' : OpeChar} (h : k.type = k'.type) : k = k' := by cases k <;> cases k' <;> first | rfl | cases h

theorem eq_symm {α : Type} {x y : α} (h : x = y) : y = x := h.symm
theorem ne_symm {α : Type} {x y : α} (h : x ≠ y) : y ≠ x := h.symm
theorem disj_symm {α : Type} {x y : α → Prop} (h : Disj x y) : Disj y x := fun z k => h z k.symm
theorem disj2_symm {α β : Type} {x y : α → β → Prop} (h : Disj2 x y) : Disj2 y x := fun z w k => h z w k.symm

theorem same_sat (a b : Ax) (ht : a.type = b.type) (h : SameAll a.fields b.fields) : sat I a ↔ sat I b := by
  cases a with
  | subClass c d =>
    cases b <;> first | (cases ht; done) | (rename_i k _; cases k <;> cases ht; done) | skip
    simp only [sat]
    rw [same_ce _ _ (sameAll_cons.1 h).1, same_ce _ _ (sameAll_cons.1 (sameAll_cons.1 h).2).1]
  | equivClasses cs =>
    cases b <;> first | (cases ht; done) | (rename_i k _; cases k <;> cases ht; done) | skip
    exact (same_ces _ _ (sameAll_cons.1 h).1).pairwise_iff eq_symm
  | disjClasses cs =>
    cases b <;> first | (cases ht; done) | (rename_i k _; cases k <;> cases ht; done) | skip
    exact (same_ces _ _ (sameAll_cons.1 h).1).pairwise_iff disj_symm
  | disjUnion c cs =>
    cases b <;> first | (cases ht; done) | (rename_i k _; cases k <;> cases ht; done) | skip
    simp only [sat]
    have hp := same_ces (I := I) _ _ (sameAll_cons.1 (sameAll_cons.1 h).2).1
    rw [same_ent (sameAll_cons.1 h).1, hp.pairwise_iff disj_symm]
    refine and_congr_left fun _ => forall_congr' fun x => ?_
    have e := congrFun (mem_perm hp).2 x
    rw [e]
  | subObjProp p q =>
    cases b <;> first | (cases ht; done) | (rename_i k _; cases k <;> cases ht; done) | skip
    simp only [sat]
    rw [same_subOpe (sameAll_cons.1 h).1, same_ope (sameAll_cons.1 (sameAll_cons.1 h).2).1]
  | equivObjProp ps =>
    cases b <;> first | (cases ht; done) | (rename_i k _; cases k <;> cases ht; done) | skip
    exact (same_ope_map (sameAll_cons.1 h).1).pairwise_iff eq_symm
  | disjObjProp ps =>
    cases b <;> first | (cases ht; done) | (rename_i k _; cases k <;> cases ht; done) | skip
    exact (same_ope_map (sameAll_cons.1 h).1).pairwise_iff disj2_symm
  | invObjProp p q =>
    cases b <;> first | (cases ht; done) | (rename_i k _; cases k <;> cases ht; done) | skip
    simp only [sat]
    rw [same_ope (sameAll_cons.1 h).1, same_ope (sameAll_cons.1 (sameAll_cons.1 h).2).1]
  | objPropDomain p c =>
    cases b <;> first | (cases ht; done) | (rename_i k _; cases k <;> cases ht; done) | skip
    simp only [sat]
    rw [same_ope (sameAll_cons.1 h).1, same_ce _ _ (sameAll_cons.1 (sameAll_cons.1 h).2).1]
  | objPropRange p c =>
    cases b <;> first | (cases ht; done) | (rename_i k _; cases k <;> cases ht; done) | skip
    simp only [sat]
    rw [same_ope (sameAll_cons.1 h).1, same_ce _ _ (sameAll_cons.1 (sameAll_cons.1 h).2).1]
  | subDataProp p q =>
    cases b <;> first | (cases ht; done) | (rename_i k _; cases k <;> cases ht; done) | skip
    simp only [sat]
    rw [same_ent (sameAll_cons.1 h).1, same_ent (sameAll_cons.1 (sameAll_cons.1 h).2).1]
  | equivDataProp ps =>
    cases b <;> first | (cases ht; done) | (rename_i k _; cases k <;> cases ht; done) | skip
    exact (same_ent_map (sameAll_cons.1 h).1).pairwise_iff eq_symm
  | disjDataProp ps =>
    cases b <;> first | (cases ht; done) | (rename_i k _; cases k <;> cases ht; done) | skip
    exact (same_ent_map (sameAll_cons.1 h).1).pairwise_iff disj2_symm
  | dataPropDomain p c =>
    cases b <;> first | (cases ht; done) | (rename_i k _; cases k <;> cases ht; done) | skip
    simp only [sat]
    rw [same_ent (sameAll_cons.1 h).1, same_ce _ _ (sameAll_cons.1 (sameAll_cons.1 h).2).1]
  | dataPropRange p c =>
    cases b <;> first | (cases ht; done) | (rename_i k _; cases k <;> cases ht; done) | skip
    simp only [sat]
    rw [same_ent (sameAll_cons.1 h).1, same_dr _ _ (sameAll_cons.1 (sameAll_cons.1 h).2).1]
  | funcDataProp p =>
    cases b <;> first | (cases ht; done) | (rename_i k _; cases k <;> cases ht; done) | skip
    simp only [sat]
    rw [same_ent (sameAll_cons.1 h).1]
  | datatypeDef i d =>
    cases b <;> first | (cases ht; done) | (rename_i k _; cases k <;> cases ht; done) | skip
    simp only [sat]
    rw [same_ent (sameAll_cons.1 h).1, same_dr _ _ (sameAll_cons.1 (sameAll_cons.1 h).2).1]
  | hasKey c ps ds =>
    cases b <;> first | (cases ht; done) | (rename_i k _; cases k <;> cases ht; done) | skip
    simp only [sat]
    have h2 := same_ope_map (I := I) (sameAll_cons.1 (sameAll_cons.1 h).2).1
    have h3 := same_ent_map (g := I.dataProp) (sameAll_cons.1 (sameAll_cons.1 (sameAll_cons.1 h).2).2).1
    rw [same_ce _ _ (sameAll_cons.1 h).1]
    refine forall_congr' fun x => forall_congr' fun y => ?_
    refine imp_congr_right fun _ => imp_congr_right fun _ => imp_congr_right fun _ => imp_congr_right fun _ => ?_
    refine imp_congr (forall_congr' fun r => ?_) (imp_congr (forall_congr' fun r => ?_) Iff.rfl)
    · rw [h2.mem_iff]
    · rw [h3.mem_iff]
  | sameInd is =>
    cases b <;> first | (cases ht; done) | (rename_i k _; cases k <;> cases ht; done) | skip
    exact (same_ind_map (sameAll_cons.1 h).1).pairwise_iff eq_symm
  | diffInd is =>
    cases b <;> first | (cases ht; done) | (rename_i k _; cases k <;> cases ht; done) | skip
    exact (same_ind_map (sameAll_cons.1 h).1).pairwise_iff ne_symm
  | classAssert c i =>
    cases b <;> first | (cases ht; done) | (rename_i k _; cases k <;> cases ht; done) | skip
    simp only [sat]
    rw [same_ce _ _ (sameAll_cons.1 h).1, same_ind (sameAll_cons.1 (sameAll_cons.1 h).2).1]
  | objPropAssert p i j =>
    cases b <;> first | (cases ht; done) | (rename_i k _; cases k <;> cases ht; done) | skip
    simp only [sat]
    rw [same_ope (sameAll_cons.1 h).1, same_ind (sameAll_cons.1 (sameAll_cons.1 h).2).1, same_ind (sameAll_cons.1 (sameAll_cons.1 (sameAll_cons.1 h).2).2).1]
  | negObjPropAssert p i j =>
    cases b <;> first | (cases ht; done) | (rename_i k _; cases k <;> cases ht; done) | skip
    simp only [sat]
    rw [same_ope (sameAll_cons.1 h).1, same_ind (sameAll_cons.1 (sameAll_cons.1 h).2).1, same_ind (sameAll_cons.1 (sameAll_cons.1 (sameAll_cons.1 h).2).2).1]
  | dataPropAssert p i l =>
    cases b <;> first | (cases ht; done) | (rename_i k _; cases k <;> cases ht; done) | skip
    simp only [sat]
    rw [same_ent (sameAll_cons.1 h).1, same_ind (sameAll_cons.1 (sameAll_cons.1 h).2).1, same_lit (sameAll_cons.1 (sameAll_cons.1 (sameAll_cons.1 h).2).2).1]
  | negDataPropAssert p i l =>
    cases b <;> first | (cases ht; done) | (rename_i k _; cases k <;> cases ht; done) | skip
    simp only [sat]
    rw [same_ent (sameAll_cons.1 h).1, same_ind (sameAll_cons.1 (sameAll_cons.1 h).2).1, same_lit (sameAll_cons.1 (sameAll_cons.1 (sameAll_cons.1 h).2).2).1]
  | objPropChar k p =>
    cases b <;> first | (cases k <;> cases ht; done) | skip
    simp only [sat]
    rw [char_inj ht, same_ope (sameAll_cons.1 h).1]
  | decl k i =>
    cases b <;> first | (cases ht; done) | (rename_i k _; cases k <;> cases ht; done) | skip
    exact Iff.rfl
  | annotAssert p s v =>
    cases b <;> first | (cases ht; done) | (rename_i k _; cases k <;> cases ht; done) | skip
    exact Iff.rfl
  | subAnnotProp p q =>
    cases b <;> first | (cases ht; done) | (rename_i k _; cases k <;> cases ht; done) | skip
    exact Iff.rfl
  | annotPropDomain p i =>
    cases b <;> first | (cases ht; done) | (rename_i k _; cases k <;> cases ht; done) | skip
    exact Iff.rfl
  | annotPropRange p i =>
    cases b <;> first | (cases ht; done) | (rename_i k _; cases k <;> cases ht; done) | skip
    exact Iff.rfl
end Cowl.Sem
