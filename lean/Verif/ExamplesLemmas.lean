import Verif.Examples
import Verif.ExamplesSpec
import Verif.OntoProps
import Verif.TypedProps
import Verif.RewriteDoc
/-! # Lemmas about the example programs -/
namespace Cowl.Examples
open Ast Change Func FuncSpec Prefix OntoSpec IterSpec FuncTell Rewrite

/-! ## Class expressions and axioms as objects -/

theorem ce_prim {c : CE} {p : Prim} (h : c.toObj = .prim p) : ∃ i, c = .cls i ∧ p = .ent .cls i := by
  cases c with
  | cls i => exact ⟨i, rfl, (Obj.prim.inj h).symm⟩
  | objSome p c => simp only [CE.toObj] at h; split at h <;> cases h
  | objAll p c => simp only [CE.toObj] at h; split at h <;> cases h
  | dataSome p c => simp only [CE.toObj] at h; split at h <;> cases h
  | dataAll p c => simp only [CE.toObj] at h; split at h <;> cases h
  | _ => simp only [CE.toObj] at h; cases h

theorem ce_not_vec {c : CE} {b : Bool} {xs : List Obj} : c.toObj ≠ .vec b xs := by
  intro h
  cases c with
  | objSome p c => simp only [CE.toObj] at h; split at h <;> cases h
  | objAll p c => simp only [CE.toObj] at h; split at h <;> cases h
  | dataSome p c => simp only [CE.toObj] at h; split at h <;> cases h
  | dataAll p c => simp only [CE.toObj] at h; split at h <;> cases h
  | _ => simp only [CE.toObj, ent] at h; cases h

theorem otype_annotated (t : OType) (fs as : List Obj) : (annotated t fs as).otype = t := by
  cases as <;> rfl

theorem not_subClass {a : Axiom} (h : ∀ c d, a.ax ≠ .subClass c d) : a.toObj.otype ≠ .aSubClass := by
  unfold Axiom.toObj
  rw [otype_annotated]
  cases e : a.ax with
  | subClass c d => exact absurd e (h c d)
  | objPropChar k p => cases k <;> nofun
  | _ => nofun

/-! ## Annotations do not mention classes -/

theorem timesAll_append (p : Prim) : ∀ xs ys : List Obj, timesAll p (xs ++ ys) = timesAll p xs + timesAll p ys
  | [], ys => by simp [timesAll]
  | x :: xs, ys => by simp [timesAll, timesAll_append p xs ys, Nat.add_assoc]

theorem times_annotated {c : Iri} {t : OType} {fs as : List Obj}
    (ht : ¬ (t = .ceObjSome ∨ t = .ceObjAll)) : times (.ent .cls c) (annotated t fs as) = timesAll (.ent .cls c) fs + timesAll (.ent .cls c) as := by
  cases as with
  | nil => simp [annotated, times, timesAll, ht]
  | cons a as => simp [annotated, times, timesAll, timesAll_append]

theorem times_lit (c : Iri) (l : Lit) : times (.ent .cls c) l.toObj = 0 := by
  obtain ⟨v, t⟩ := l
  cases t <;> simp [Lit.toObj, times]

theorem times_val (c : Iri) (v : AnnotVal) : times (.ent .cls c) v.toObj = 0 := by
  cases v with
  | lit l => exact times_lit c l
  | _ => simp [AnnotVal.toObj, times]

mutual
theorem times_annot (c : Iri) : ∀ a : Annot, times (.ent .cls c) a.toObj = 0
  | .mk p v as => by
    rw [Annot.toObj, times_annotated (by simp), times_annots c as]
    simp [timesAll, times_val, ent, times]
theorem times_annots (c : Iri) : ∀ as : List Annot, timesAll (.ent .cls c) (Annot.toObjs as) = 0
  | [] => rfl
  | a :: as => by simp [Annot.toObjs, timesAll, times_annot c a, times_annots c as]
end

/-! ## What one axiom adds to the query -/

/-- The line for a class expression. -/
def lineOf : Obj → Option Str
  | .prim (.ent .cls i) => some i.rem
  | _ => none

theorem lineOf_ce {c : CE} (h : ∀ i, c ≠ .cls i) : lineOf c.toObj = none := by
  unfold lineOf
  split
  · rename_i e; obtain ⟨j, rfl, -⟩ := ce_prim e; exact absurd rfl (h j)
  · rfl

theorem filterMap_replicate {l : List Obj} (n : Nat) (h : l.filterMap lineOf = []) : (List.replicate n l).flatten.filterMap lineOf = [] := by
  induction n with
  | zero => rfl
  | succ n ih => rw [List.replicate_succ, List.flatten_cons, List.filterMap_append, h, ih]; rfl

theorem isPrim_ce {c : CE} {i : Iri} : IsPrim (.ent .cls i) c.toObj ↔ c = .cls i := by
  constructor
  · intro h
    cases e : c.toObj with
    | prim q =>
      rw [e] at h
      obtain ⟨j, rfl, rfl⟩ := ce_prim e
      cases h; rfl
    | _ => rw [e] at h; cases h
  · rintro rfl; rfl

theorem operandIs_ce {c : CE} {i : Iri} : OperandIs (.ent .cls i) c.toObj ↔ c = .cls i := by
  rw [← isPrim_ce]
  cases e : c.toObj with
  | vec => exact absurd e ce_not_vec
  | _ => rfl

/-- What an axiom contributes. -/
def adds (c : Iri) (o : Obj) : List Obj :=
  (List.replicate (times (.ent .cls c) o) (related (.ent .cls c) afSubClass psLeft ⟨0, o⟩)).flatten

theorem adds_other {c : Iri} {o : Obj} (h : o.otype ≠ .aSubClass) : adds c o = [] := by
  have : related (.ent .cls c) afSubClass psLeft ⟨0, o⟩ = [] := by
    unfold related
    rw [if_neg]
    rintro ⟨⟨t, ht, hc, hb⟩, -⟩
    have : ∀ t, t < 37 → afSubClass.getLsbD t = true → t = 1 := by decide +kernel
    obtain rfl := this t ht hb
    have : ∀ x : OType, x.code = OType.aDecl.code + 1 → x = .aSubClass := by
      intro x; cases x <;> decide
    exact h (this _ hc)
  unfold adds
  rw [this]
  generalize times (.ent .cls c) o = n
  induction n with
  | zero => rfl
  | succ n ih => rw [List.replicate_succ, List.flatten_cons, ih]; rfl

theorem operands_annotated {t : OType} {fs as : List Obj} (h : t.fieldCount = fs.length) : operands (annotated t fs as) = fs := by
  cases as with
  | nil => simp [annotated, operands, h]
  | cons a as => simp [annotated, operands, h]

theorem operandsAt_left {x y : Obj} (hx : ∀ b xs, x ≠ .vec b xs) : operandsAt [x, y] psLeft = [x] := by
  have : ([x, y].zipIdx.filter fun (_, i) => SitsAt [x, y].length i psLeft) = [(x, 0)] := by
    simp [List.zipIdx, List.filter, SitsAt, psLeft, psRight, psMiddle]
  unfold operandsAt
  rw [this]
  cases x with
  | vec b xs => exact absurd rfl (hx b xs)
  | _ => rfl

theorem adds_sub (c : Iri) (a : Axiom) {x y : CE} (e : a.ax = .subClass x y) : (adds c a.toObj).filterMap lineOf = (properLine c a).toList := by
  have ho : operands a.toObj = [x.toObj, y.toObj] := by
    unfold Axiom.toObj; rw [e]; exact operands_annotated rfl
  have hr : (x = .cls c ∨ y = .cls c → related (.ent .cls c) afSubClass psLeft ⟨0, a.toObj⟩ = [x.toObj].filter (fun o => ¬ IsPrim (.ent .cls c) o)) ∧
      (¬ (x = .cls c ∨ y = .cls c) → related (.ent .cls c) afSubClass psLeft ⟨0, a.toObj⟩ = []) := by
    unfold related
    have ht : TypeIn afSubClass ⟨0, a.toObj⟩ := by
      refine ⟨1, by decide, ?_, by decide⟩
      show a.toObj.otype.code = _
      unfold Axiom.toObj; rw [otype_annotated, e]; rfl
    have hh : HasOperand (.ent .cls c) ⟨0, a.toObj⟩ ↔ (x = .cls c ∨ y = .cls c) := by
      unfold HasOperand
      show (∃ op ∈ operands a.toObj, _) ↔ _
      rw [ho]
      simp [operandIs_ce]
    refine ⟨fun hc => ?_, fun hc => ?_⟩
    · rw [if_pos ⟨ht, hh.2 hc⟩]
      show (operandsAt (operands a.toObj) psLeft).filter _ = _
      rw [ho, operandsAt_left fun _ _ => ce_not_vec]
    · rw [if_neg (fun k => hc (hh.1 k.2))]
  obtain ⟨ax, an⟩ := a
  cases e
  unfold adds
  by_cases hx : ∃ i, x = .cls i
  · obtain ⟨i, rfl⟩ := hx
    by_cases hi : i = c
    · subst hi
      rw [hr.1 (.inl rfl)]
      rw [filterMap_replicate _ (by simp [CE.toObj, ent, IsPrim])]
      unfold properLine
      split
      · rename_i h
        cases h
        simp
      · rfl
    · by_cases hy : y = .cls c
      · subst hy
        have ht : times (.ent .cls c) (Axiom.toObj ⟨.subClass (.cls i) (.cls c), an⟩) = 1 := by
          unfold Axiom.toObj
          rw [times_annotated (by simp [Ax.type]), times_annots]
          simp [Ax.fields, CE.toObj, ent, timesAll, times, Ne.symm hi]
        rw [ht, hr.1 (.inr rfl)]
        simp [CE.toObj, ent, IsPrim, hi, lineOf, properLine]
      · rw [hr.2 (by simp [hi, hy])]
        rw [filterMap_replicate _ rfl]
        unfold properLine
        split
        · rename_i h
          cases h
          rw [if_neg (fun k => hy (by rw [k.1]))]; rfl
        · rfl
  · have hl : lineOf x.toObj = none := lineOf_ce fun i hi => hx ⟨i, hi⟩
    rw [filterMap_replicate]
    · unfold properLine
      split
      · rename_i h
        cases h
        exact absurd ⟨_, rfl⟩ hx
      · rfl
    · by_cases hc : x = .cls c ∨ y = .cls c
      · rw [hr.1 hc, List.filterMap_eq_nil_iff]
        intro o ho
        rw [List.mem_singleton.1 (List.mem_filter.1 ho).1, hl]
      · rw [hr.2 hc]; rfl

theorem adds_line (c : Iri) (a : Axiom) : (adds c a.toObj).filterMap lineOf = (properLine c a).toList := by
  by_cases h : ∃ x y, a.ax = .subClass x y
  · obtain ⟨x, y, e⟩ := h; exact adds_sub c a e
  · rw [adds_other (not_subClass fun x y e => h ⟨x, y, e⟩)]
    obtain ⟨ax, an⟩ := a
    unfold properLine
    split
    · rename_i e; cases e; exact absurd ⟨_, _, rfl⟩ h
    · rfl

/-! ## The query -/

theorem run_query {v : List Obj} {x x' : List Str} {r : Ret} (h : Run queryCb v x x' r) : x' = x ++ v.filterMap lineOf := by
  induction h with
  | done s => simp
  | @stop y _ s _ r h hr =>
    have : (queryCb s y).2 = .ok := by unfold queryCb; split <;> rfl
    rw [h] at this; exact absurd this hr
  | @go y xs s s' s'' r h hs ih =>
    rw [ih]
    unfold queryCb at h
    split at h
    · cases h; simp [lineOf]
    · rename_i hn
      cases h
      rw [List.filterMap_cons_none]
      unfold lineOf
      split
      · exact absurd rfl (hn _)
      · rfl

theorem flatMap_ofMap {f : Obj → List Obj} {l : List Ref} {as : List Axiom} (h : l.map Ref.obj = as.map Axiom.toObj) :
    (l.flatMap fun a => f a.obj) = as.flatMap fun a => f a.toObj := by
  have := congrArg (List.flatMap f) h
  rwa [List.flatMap_map, List.flatMap_map] at this

theorem filterMap_flatMap' {f : Axiom → List Obj} {g : Axiom → Option Str} (h : ∀ a, (f a).filterMap lineOf = (g a).toList) :
    ∀ as : List Axiom, (as.flatMap f).filterMap lineOf = as.filterMap g
  | [] => rfl
  | a :: as => by
    rw [List.flatMap_cons, List.filterMap_append, h, filterMap_flatMap' h as, List.filterMap_cons]
    cases g a <;> rfl

theorem query_lines {o : Onto} {s : Abs} (h : Reaches o s) (c : Iri) {as : List Axiom} (e : s.axioms.map Ref.obj = as.map Axiom.toObj) :
    (iterSubClasses o c queryCb []).1.Perm (as.filterMap (properLine c)) := by
  obtain ⟨v, hv, hr⟩ := C21_related o s h (.ent .cls c) afSubClass psLeft
  rw [show (iterSubClasses o c queryCb []).1 = _ from run_query (hr _ queryCb []), List.nil_append]
  refine (hv.filterMap lineOf).trans (List.Perm.of_eq ?_)
  rw [show (s.axioms.flatMap fun a => (List.replicate (times (.ent .cls c) a.obj) (related (.ent .cls c) afSubClass psLeft a)).flatten) =
    s.axioms.flatMap fun a => adds c a.obj from rfl, flatMap_ofMap e]
  exact filterMap_flatMap' (adds_line c) as

/-! ## The stream -/

theorem getField_annotated {t : OType} {fs as : List Obj} {i : Nat} (h : i < fs.length) : Api.getField (annotated t fs as) i = fs[i]? := by
  cases as with
  | nil => rfl
  | cons a as => show (fs ++ _)[i]? = _; rw [List.getElem?_append_left h]

theorem streamCb_accepts (c : Iri) : Accepts (streamCb c) := by
  intro s i
  unfold streamCb
  split
  · split
    · rfl
    · split
      · split
        · rfl
        · split <;> rfl
      · rfl
  · rfl

theorem shown_lex {i : Iri} (h : IriLex i) : shown i.rem = i.rem := by
  refine takeWhile_no_nul fun h0 => ?_
  have := (h.2 0 (List.mem_append_right _ h0)).1
  simp at this

theorem stream_axiom (c : Iri) (a : Axiom) (hl : Leafs lexReq a.toObj) (out : List Str) :
    (streamCb c out (.ax a.toObj)).1 = out ++ (belowLine c a).toList := by
  by_cases h : ∃ x y, a.ax = .subClass x y
  · obtain ⟨x, y, e⟩ := h
    have ht : a.toObj.otype = .aSubClass := by unfold Axiom.toObj; rw [otype_annotated, e]; rfl
    have h1 : Api.subClsAxiomGetSuper a.toObj = some y.toObj := by
      unfold Axiom.toObj; rw [e]; exact getField_annotated (Nat.lt_of_lt_of_le (by decide) (Nat.le_refl 2))
    have h0 : Api.subClsAxiomGetSub a.toObj = some x.toObj := by
      unfold Axiom.toObj; rw [e]; exact getField_annotated (Nat.lt_of_lt_of_le (by decide) (Nat.le_refl 2))
    have hx : ∀ i, x = .cls i → IriLex i := by
      rintro i rfl
      have : LeafsAll lexReq (.prim (.ent .cls i) :: [y.toObj]) := by
        have := hl
        unfold Axiom.toObj at this
        rw [e] at this
        revert this
        cases Annot.toObjs a.annots with
        | nil => exact fun k => k
        | cons => exact fun k => ⟨k.1, k.2.1, trivial⟩
      exact this.1
    obtain ⟨ax, an⟩ := a
    cases e
    simp only [streamCb, ht, h1, h0]
    by_cases hy : y = .cls c
    · subst hy
      have he : (Obj.prim (.ent .cls c)).equals (CE.toObj (.cls c)) = true := equals_prim.2 rfl
      simp only [he]
      by_cases hi : ∃ i, x = .cls i
      · obtain ⟨i, rfl⟩ := hi
        simp [CE.toObj, ent, belowLine, shown_lex (hx i rfl)]
      · have hn : ∀ i, x.toObj ≠ .prim (.ent .cls i) := by
          intro i hh; obtain ⟨j, rfl, -⟩ := ce_prim hh; exact hi ⟨j, rfl⟩
        have hb : belowLine c ⟨.subClass x (.cls c), an⟩ = none := by
          unfold belowLine
          split
          · rename_i k; cases k; exact absurd ⟨_, rfl⟩ hi
          · rfl
        rw [hb]
        simp
    · have he : (Obj.prim (.ent .cls c)).equals y.toObj = false := by
        rw [Bool.eq_false_iff]
        intro hh
        cases hz : y.toObj with
        | prim q =>
          obtain ⟨j, rfl, rfl⟩ := ce_prim hz
          rw [hz] at hh
          have := equals_prim.1 hh
          cases this
          exact hy rfl
        | vec => exact ce_not_vec hz
        | _ => rw [hz] at hh; revert hh; simp [Obj.equals, Obj.eqv]
      have hb : belowLine c ⟨.subClass x y, an⟩ = none := by
        unfold belowLine
        split
        · rename_i k; cases k; rw [if_neg]; rintro rfl; exact hy rfl
        · rfl
      simp [he, hb]
  · have ht := not_subClass (a := a) fun x y e => h ⟨x, y, e⟩
    have : (streamCb c out (.ax a.toObj)).1 = out := by
      simp [streamCb, ht]
    rw [this]
    obtain ⟨ax, an⟩ := a
    unfold belowLine
    split
    · rename_i e; cases e; exact absurd ⟨_, _, rfl⟩ h
    · simp

/-- The items are proper: as constructs, and in their characters. -/
theorem told_axioms : ∀ {items : List Item}, (∀ i ∈ items, ItemOk owl2 i) → (∀ i ∈ items, ItemLex i) →
    ∃ as : List Axiom, toldAxioms items = as.map Axiom.toObj ∧ (∀ a ∈ as, a.Meets owl2) ∧
      ∀ (c : Iri) (out : List Str), give (streamCb c) out items = out ++ as.filterMap (belowLine c)
  | [], _, _ => ⟨[], rfl, nofun, fun _ _ => by simp [give]⟩
  | i :: items, h, g => by
    obtain ⟨as, h1, h2, h3⟩ := told_axioms (fun x hx => h x (List.mem_cons_of_mem _ hx)) (fun x hx => g x (List.mem_cons_of_mem _ hx))
    cases i with
    | ax o =>
      obtain ⟨a, rfl, ha⟩ := h _ List.mem_cons_self
      have hl : Leafs lexReq a.toObj := g _ List.mem_cons_self
      refine ⟨a :: as, by rw [toldAxioms, h1]; rfl, ?_, fun c out => ?_⟩
      · intro b hb
        rcases List.mem_cons.1 hb with rfl | hb'
        · exact ha
        · exact h2 b hb'
      · show give (streamCb c) (streamCb c out (.ax a.toObj)).1 items = _
        rw [stream_axiom c a hl, h3, List.filterMap_cons]
        cases belowLine c a <;> simp
    | _ => exact ⟨as, h1, h2, fun c out => h3 c out⟩

theorem funcRead_itemLex {σ : Type} (h : Callback σ Item) {m : PMap} (hm : MapOk m) (addr : Nat) (text : Str) (s : σ) :
    ∀ i ∈ (funcRead (taking h) m addr text (s, [])).1.2, ItemLex i := by
  have one : ∀ (x : σ × List Item) i, (∀ j ∈ x.2, ItemLex j) → ItemLex i → ∀ j ∈ (taking h x i).1.2, ItemLex j := by
    intro x i hx hi j hj
    rcases List.mem_append.1 hj with hj' | hj'
    · exact hx j hj'
    · cases List.mem_singleton.1 hj'; exact hi
  exact funcRead_lex (P := fun x : σ × List Item => ∀ i ∈ x.2, ItemLex i) (h := taking h)
    (fun x i hx _ hi => one x i hx hi) (fun x i v hx hi hv => one _ (.version v) (one x (.iri i) hx hi) hv) hm addr text nofun

theorem give_taking {σ : Type} (h : Callback σ Item) : ∀ (items : List Item) (s : σ) (l : List Item),
    give (taking h) (s, l) items = (give h s items, l ++ items)
  | [], s, l => by simp [give]
  | i :: items, s, l => by
    show give (taking h) ((h s i).1, l ++ [i]) items = _
    rw [give_taking h items]
    simp [give]

end Cowl.Examples
