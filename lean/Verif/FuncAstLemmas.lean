import Verif.FuncRtLemmas
import Verif.AstLemmas
/-! # Lemmas: constructs of OWL 2 are read back -/
namespace Cowl.Func
open Cowl.FuncSpec Cowl.Ast

variable {gp : Str → Option Str} {m : Prefix.PMap} {i : Iri}

/-! ## Leaves -/

theorem leaf_iri (ha : Agree gp m) {i : Iri} (hi : IriOk gp i) {c : Cat} (f : Iri → Obj)
    (hc : c ≠ .annotation)
    (hs : ∀ p n (tk : Tok) ts, tk.isIri = true → parseStep m p n c (tk :: ts) = (readIri m tk).map fun i => (f i, ts)) :
    RT m c (writeIri gp i) (f i) := by
  obtain ⟨tk, h1, h2, h3⟩ := iri_text ha hi
  have hl := iri_length (gp := gp) (i := i)
  refine ⟨by omega, fun rest hf => ⟨tk, lex rest, h3 rest hf.1, ?_, ?_, ?_⟩⟩
  · cases tk <;> first | rfl | cases h1
  · constructor
    · rintro rfl; cases h1
    · exact fun h => absurd h hc
  · intro n hn
    cases n with
    | zero => omega
    | succ n => rw [parseCat, hs _ _ _ _ h1, h2]; rfl

theorem leaf_anon {id : Str} (h : Label id) {c : Cat} (hc : c ≠ .annotation)
    (hs : ∀ p n ts, parseStep m p n c (.blank id :: ts) = some (.prim (.anon id), ts)) :
    RT m c (95 :: 58 :: id) (.prim (.anon id)) := by
  refine ⟨by simp, fun rest hf => ⟨.blank id, lex rest, lex_blank (label_local h) hf.1, rfl, ?_, ?_⟩⟩
  · constructor
    · intro h; cases h
    · exact fun h => absurd h hc
  · intro n hn
    cases n with
    | zero => simp at hn
    | succ n => rw [parseCat, hs]

theorem rt_iri (ha : Agree gp m) {i : Iri} (hi : IriOk gp i) : RT m .iri (writeIri gp i) (.prim (.iri i)) :=
  leaf_iri ha hi (fun i => .prim (.iri i)) (by decide) (by intros; rfl)

theorem rt_ent (ha : Agree gp m) (k : EntKind) {i : Iri} (hi : IriOk gp i) :
    RT m (.ent k) (writeIri gp i) (ent k i) :=
  leaf_iri ha hi (fun i => .prim (.ent k i)) (by simp) (by intros; rfl)

theorem rt_ind (ha : Agree gp m) {x : Ind} (hi : x.Meets (textReq gp)) :
    RT m .ind (writeObj gp x.toObj) x.toObj := by
  cases x with
  | named i =>
    exact leaf_iri ha hi (fun i => .prim (.ent .namedInd i)) (by decide)
      (by intro p n tk ts h; cases tk <;> first | rfl | cases h)
  | anon id => exact leaf_anon hi (by decide) (by intros; rfl)

theorem lit_text (ha : Agree gp m) {l : Lit} (hl : LitOk gp l) {rest : Str} (hf : Follow rest) :
    ∃ ts, lex (writeObj gp l.toObj ++ rest) = .qstr l.value :: ts ∧
      readLit m (.qstr l.value :: ts) = some (l.toObj, lex rest) := by
  obtain ⟨v, t⟩ := l
  obtain ⟨hv, ht⟩ := hl
  have e : writeObj gp (Lit.toObj ⟨v, t⟩) ++ rest = 34 :: (escape v ++ 34 :: (writeTag gp t ++ rest)) := by
    simp [Lit.toObj, writeObj, writeLiteral]
  rw [e, lex_escaped, takeWhile_no_nul hv]
  refine ⟨_, rfl, ?_⟩
  cases t with
  | lang t =>
    have e1 : writeTag gp (.lang t) = 64 :: t := by
      rw [writeTag, if_pos (show litDatatype (.lang t) = rdfLangString from rfl)]; rfl
    obtain ⟨h1, h2⟩ := ht
    have hlow : lower t = t := by
      unfold lower
      have : t.map lowerByte = t.map id := by
        apply List.map_congr_left
        intro c hc
        have := h2 c hc
        rw [lowerByte, if_neg]; rfl
        rw [UInt8.le_iff_toNat_le, UInt8.le_iff_toNat_le]; exact this
      rw [this, List.map_id]
    have hne : ¬ t.length = 0 := by
      obtain ⟨a, gs, rfl, hne, _⟩ := h1
      simp [hne]
    rw [e1, List.cons_append, lex_lang (lang_tag h1) hf.1, readLit]
    simp only [literal, literalLang, if_neg hne, hlow]; rfl
  | dt i =>
    obtain ⟨h1, h2, h3⟩ := ht
    have hd : litDatatype (.dt i) = i := rfl
    by_cases hx : i = xsdString
    · have e1 : writeTag gp (.dt i) = [] := by rw [writeTag, hd, if_neg h1, if_pos hx]
      rw [e1, List.nil_append]
      subst hx
      have hr := hf.2
      cases hlex : lex rest with
      | nil => rfl
      | cons tk ts =>
        rw [hlex] at hr
        have := hr tk rfl
        cases tk <;> first | rfl | cases this
    · have hi := h3.resolve_left hx
      have e1 : writeTag gp (.dt i) = 94 :: 94 :: writeIri gp i := by
        rw [writeTag, hd, if_neg h1, if_neg hx]
      obtain ⟨tk, _, h4, h5⟩ := iri_text ha hi
      rw [e1, List.cons_append, List.cons_append, lex_dcaret, h5 rest hf.1, readLit, h4]
      have hn : isLangDatatype i = false := by
        simp [isLangDatatype, h1, h2]
      simp only [Option.bind_eq_bind, Option.bind_some, literal, hn]; rfl

theorem lit_pos (l : Lit) : 0 < (writeObj gp l.toObj).length := by
  simp [Lit.toObj, writeObj, writeLiteral]

theorem rt_lit (ha : Agree gp m) {l : Lit} (hl : LitOk gp l) : RT m .lit (writeObj gp l.toObj) l.toObj := by
  refine ⟨lit_pos l, fun rest hf => ?_⟩
  obtain ⟨ts, h1, h2⟩ := lit_text ha hl hf
  refine ⟨_, _, h1, rfl, by simp, fun n hn => ?_⟩
  have := lit_pos (gp := gp) l
  cases n with
  | zero => omega
  | succ n => rw [parseCat, parseStep, h2]

theorem rt_annotVal (ha : Agree gp m) {v : AnnotVal} (h : v.Meets (textReq gp)) :
    RT m .annotVal (writeObj gp v.toObj) v.toObj := by
  cases v with
  | iri i =>
    exact leaf_iri ha h (fun i => .prim (.iri i)) (by decide)
      (by intro p n tk ts h; cases tk <;> first | rfl | cases h)
  | anon id => exact leaf_anon h (by decide) (by intros; rfl)
  | lit l =>
    refine ⟨lit_pos l, fun rest hf => ?_⟩
    obtain ⟨ts, h1, h2⟩ := lit_text ha h hf
    refine ⟨_, _, h1, rfl, by simp, fun n hn => ?_⟩
    have := lit_pos (gp := gp) l
    cases n with
    | zero => simp only [AnnotVal.toObj] at hn; omega
    | succ n => rw [parseCat, parseStep, h2]; rfl

theorem rt_annotSubj (ha : Agree gp m) {v : AnnotSubj} (h : v.Meets (textReq gp)) :
    RT m .annotSubj (writeObj gp v.toObj) v.toObj := by
  cases v with
  | iri i =>
    exact leaf_iri ha h (fun i => .prim (.iri i)) (by decide)
      (by intro p n tk ts h; cases tk <;> first | rfl | cases h)
  | anon id => exact leaf_anon h (by decide) (by intros; rfl)

theorem rt_facet (ha : Agree gp m) {f : Iri × Lit} (h1 : IriOk gp f.1) (h2 : LitOk gp f.2) :
    RT m .facet (writeObj gp (facetObj f)) (facetObj f) := by
  have e : writeObj gp (facetObj f) = writeIri gp f.1 ++ 32 :: writeObj gp f.2.toObj := by
    simp only [facetObj, writeObj, writeList]; rfl
  have hl := iri_length (gp := gp) (i := f.1)
  obtain ⟨tk, g1, g2, g3⟩ := iri_text ha h1
  rw [e]
  refine ⟨by simp only [List.length_append]; omega, fun rest hf => ?_⟩
  obtain ⟨ts, g4, g5⟩ := lit_text ha h2 hf
  refine ⟨tk, .qstr f.2.value :: ts, ?_, ?_, ?_, fun n hn => ?_⟩
  · rw [List.append_assoc, List.cons_append, g3 _ (.space _), lex_space, g4]
  · cases tk <;> first | rfl | cases g1
  · constructor
    · rintro rfl; cases g1
    · intro h; cases h
  · cases n with
    | zero => simp at hn
    | succ n =>
      rw [parseCat, parseStep, g2]
      simp only [Option.bind_eq_bind, Option.bind_some, g5]; rfl

/-- The keyword of an entity. -/
def entWord : EntKind → Kw
  | .cls => .class_
  | .datatype => .datatype
  | .objProp => .objectProperty
  | .dataProp => .dataProperty
  | .annotProp => .annotationProperty
  | .namedInd => .namedIndividual

theorem rt_entity (ha : Agree gp m) (k : EntKind) {i : Iri} (hi : IriOk gp i) :
    RT m .entity ((entWord k).text ++ 40 :: (writeIri gp i ++ [41])) (ent k i) := by
  obtain ⟨tk, g1, g2, g3⟩ := iri_text ha hi
  refine ⟨by simp; omega, fun rest hf => ?_⟩
  refine ⟨.kw (entWord k), .lpar :: tk :: .rpar :: lex rest, ?_, rfl, by cases k <;> simp [entWord], fun n hn => ?_⟩
  · rw [List.append_assoc, List.cons_append, lex_kw, List.append_assoc, List.cons_append,
      List.nil_append, g3 _ (.rpar _), lex_rpar]
  · cases n with
    | zero => simp at hn
    | succ n =>
      rw [parseCat, parseStep]
      have : entKw (entWord k) = some k := by cases k <;> rfl
      simp only [this, g2, Option.bind_eq_bind, Option.bind_some]; rfl

/-! ## Lists of objects -/

/-- Objects with their texts. -/
def itemsOf (gp : Str → Option Str) (os : List Obj) : Items := os.map fun o => (writeObj gp o, o)

theorem texts_of (gp : Str → Option Str) : ∀ os : List Obj, (itemsOf gp os).texts = writeList gp os
  | [] => rfl
  | o :: os => by
    rw [writeList, ← texts_of gp os]; rfl

theorem objs_of (gp : Str → Option Str) : ∀ os : List Obj, (itemsOf gp os).objs = os
  | [] => rfl
  | o :: os => by
    show o :: (itemsOf gp os).objs = _
    rw [objs_of gp os]

theorem allRT_of {c : Cat} {os : List Obj} (h : ∀ o ∈ os, RT m c (writeObj gp o) o) :
    AllRT m c (itemsOf gp os) := by
  intro it hit
  obtain ⟨o, h1, rfl⟩ := List.mem_map.1 hit
  exact h o h1

/-- A list as the last argument. -/
theorem args_many {c : Cat} {k : Nat} {os : List Obj} (h : ∀ o ∈ os, RT m c (writeObj gp o) o)
    (hc : c ≠ .annotation) (hk : k ≤ os.length) :
    Args m [.many c k] [joinSp (writeList gp os)] ⟨[.vec false os], 0, none⟩ := by
  have := Args.many (k := k) (allRT_of h) hc (by simpa [itemsOf] using hk)
  rwa [texts_of, objs_of] at this

theorem args_group {c : Cat} {os : List Obj} {as ps r} (h : ∀ o ∈ os, RT m c (writeObj gp o) o)
    (ha : Args m as ps r) :
    Args m (.group c :: as) ((40 :: (joinSp (writeList gp os) ++ [41])) :: ps)
      { r with fields := .vec false os :: r.fields } := by
  have := Args.group (allRT_of h) ha
  rwa [texts_of, objs_of] at this

/-- A construct without annotations. -/
theorem plain_rt (k : Kw) {pr : Prod} (hk : prod k = some pr) {ps : List Str} {r : Parsed} {o : Obj} {txt : Str}
    (ha : Args m pr.args ps r) (hb : build pr.type pr.annotated [] r = some o)
    (ht : txt = k.text ++ 40 :: (joinSp ps ++ [41])) : RT m pr.cat txt o :=
  (construct_rt (l := []) hk (fun _ h => nomatch h) (.inr rfl) ha hb ht).weak

/-! ## Property expressions and data ranges -/

theorem rt_ope (ha : Agree gp m) {p : Ope} (h : p.Meets (textReq gp)) :
    RT m .ope (writeObj gp p.toObj) p.toObj := by
  cases p with
  | prop i =>
    exact leaf_iri ha h (fun i => .prim (.ent .objProp i)) (by decide)
      (by intro p n tk ts h; cases tk <;> first | rfl | cases h)
  | inv i =>
    refine plain_rt .objectInverseOf rfl (.one (rt_ent ha .objProp h) (by simp) .nil) rfl ?_
    simp only [Ope.toObj, writeObj, writeList]; rfl

theorem mem_map_rt {α : Type} {f : α → Obj} {c : Cat} {l : List α} {P : α → Prop}
    (h : ∀ x, P x → RT m c (writeObj gp (f x)) (f x)) (hl : ∀ x ∈ l, P x) :
    ∀ o ∈ l.map f, RT m c (writeObj gp o) o := by
  intro o ho
  obtain ⟨x, hx, rfl⟩ := List.mem_map.1 ho
  exact h x (hl x hx)

theorem DR.length_toObjs : ∀ ds : List DR, (DR.toObjs ds).length = ds.length
  | [] => rfl
  | _ :: ds => by rw [DR.toObjs, List.length_cons, DR.length_toObjs ds, List.length_cons]

mutual
theorem rt_dr (ha : Agree gp m) : ∀ (d : DR), d.Meets (textReq gp) → RT m .dr (writeObj gp d.toObj) d.toObj
  | .dt i, h => by
    rw [DR.toObj]
    exact leaf_iri ha h (fun i => .prim (.ent .datatype i)) (by decide)
      (by intro p n tk ts h; cases tk <;> first | rfl | cases h)
  | .inter ds, h => by
    rw [DR.Meets] at h
    rw [DR.toObj]
    refine plain_rt .dataIntersectionOf rfl (args_many (rt_drs ha ds h.2) (by decide)
      (by rw [DR.length_toObjs]; exact h.1)) rfl ?_
    simp only [writeObj, writeList]; rfl
  | .union ds, h => by
    rw [DR.Meets] at h
    rw [DR.toObj]
    refine plain_rt .dataUnionOf rfl (args_many (rt_drs ha ds h.2) (by decide)
      (by rw [DR.length_toObjs]; exact h.1)) rfl ?_
    simp only [writeObj, writeList]; rfl
  | .compl d, h => by
    rw [DR.Meets] at h
    rw [DR.toObj]
    refine plain_rt .dataComplementOf rfl (.one (rt_dr ha d h) (by decide) .nil) rfl ?_
    simp only [writeObj, writeList]; rfl
  | .oneOf ls, h => by
    rw [DR.Meets] at h
    rw [DR.toObj]
    refine plain_rt .dataOneOf rfl (args_many (mem_map_rt (fun _ => rt_lit ha) h.2) (by decide)
      (by rw [List.length_map]; exact h.1)) rfl ?_
    simp only [writeObj, writeList]; rfl
  | .restr i fs, h => by
    rw [DR.Meets] at h
    rw [DR.toObj]
    refine plain_rt .datatypeRestriction rfl (.one (rt_ent ha .datatype h.1) (by simp)
      (args_many (mem_map_rt (fun _ h => rt_facet ha h.1 h.2) h.2.2) (by decide)
      (by rw [List.length_map]; exact h.2.1))) rfl ?_
    simp only [writeObj, writeList]; rfl

theorem rt_drs (ha : Agree gp m) : ∀ (ds : List DR), DR.AllMeet (textReq gp) ds →
    ∀ o ∈ DR.toObjs ds, RT m .dr (writeObj gp o) o
  | [], _ => fun _ h => nomatch h
  | d :: ds, h => by
    rw [DR.AllMeet] at h
    intro o ho
    rw [DR.toObjs] at ho
    rcases List.mem_cons.1 ho with ho | ho
    · rw [ho]; exact rt_dr ha d h.1
    · exact rt_drs ha ds h.2 o ho
end

/-! ## Class expressions -/

theorem CE.length_toObjs : ∀ cs : List CE, (CE.toObjs cs).length = cs.length
  | [] => rfl
  | _ :: cs => by rw [CE.toObjs, List.length_cons, CE.length_toObjs cs, List.length_cons]

theorem uint_text (n : UInt32) : uintToStr (UInt32.ofNat n.toNat) = uintToStr n := by
  rw [UInt32.ofNat_toNat]

mutual
theorem rt_ce (ha : Agree gp m) : ∀ (c : CE), c.Meets (textReq gp) → RT m .ce (writeObj gp c.toObj) c.toObj
  | .cls i, h => by
    rw [CE.toObj]
    exact leaf_iri ha h (fun i => .prim (.ent .cls i)) (by decide)
      (by intro p n tk ts h; cases tk <;> first | rfl | cases h)
  | .inter cs, h => by
    rw [CE.Meets] at h
    rw [CE.toObj]
    refine plain_rt .objectIntersectionOf rfl (args_many (rt_ces ha cs h.2) (by decide)
      (by rw [CE.length_toObjs]; exact h.1)) rfl ?_
    simp only [writeObj, writeList]; rfl
  | .union cs, h => by
    rw [CE.Meets] at h
    rw [CE.toObj]
    refine plain_rt .objectUnionOf rfl (args_many (rt_ces ha cs h.2) (by decide)
      (by rw [CE.length_toObjs]; exact h.1)) rfl ?_
    simp only [writeObj, writeList]; rfl
  | .compl c, h => by
    rw [CE.Meets] at h
    rw [CE.toObj]
    refine plain_rt .objectComplementOf rfl (.one (rt_ce ha c h) (by decide) .nil) rfl ?_
    simp only [writeObj, writeList]; rfl
  | .oneOf is, h => by
    rw [CE.Meets] at h
    rw [CE.toObj]
    refine plain_rt .objectOneOf rfl (args_many (mem_map_rt (fun _ => rt_ind ha) h.2) (by decide)
      (by rw [List.length_map]; exact h.1)) rfl ?_
    simp only [writeObj, writeList]; rfl
  | .objSome p c, h => by
    rw [CE.Meets] at h
    have hp := rt_ope ha h.1
    have hc := rt_ce ha c h.2
    have hargs := Args.one hp (by decide) (.one hc (by decide) .nil)
    rw [CE.toObj]
    split
    · rename_i ht
      rw [ce_top ht, CE.toObj] at hargs
      refine plain_rt .objectSomeValuesFrom rfl hargs ?_ ?_
      · simp only [build, objQuant, ent, drop_self]; rfl
      · simp only [writeObj, writeList]; rfl
    · rename_i ht
      refine plain_rt .objectSomeValuesFrom rfl hargs ?_ ?_
      · simp only [build, objQuant, ce_not_top ht]; rfl
      · simp only [writeObj, writeList]; rfl
  | .objAll p c, h => by
    rw [CE.Meets] at h
    have hp := rt_ope ha h.1
    have hc := rt_ce ha c h.2
    have hargs := Args.one hp (by decide) (.one hc (by decide) .nil)
    rw [CE.toObj]
    split
    · rename_i ht
      rw [ce_top ht, CE.toObj] at hargs
      refine plain_rt .objectAllValuesFrom rfl hargs ?_ ?_
      · simp only [build, objQuant, ent, drop_self]; rfl
      · simp only [writeObj, writeList]; rfl
    · rename_i ht
      refine plain_rt .objectAllValuesFrom rfl hargs ?_ ?_
      · simp only [build, objQuant, ce_not_top ht]; rfl
      · simp only [writeObj, writeList]; rfl
  | .objHasValue p i, h => by
    rw [CE.Meets] at h
    rw [CE.toObj]
    refine plain_rt .objectHasValue rfl (.one (rt_ope ha h.1) (by decide)
      (.one (rt_ind ha h.2) (by decide) .nil)) rfl ?_
    simp only [writeObj, writeList]; rfl
  | .objHasSelf p, h => by
    rw [CE.Meets] at h
    rw [CE.toObj]
    refine plain_rt .objectHasSelf rfl (.one (rt_ope ha h) (by decide) .nil) rfl ?_
    simp only [writeObj, writeList]; rfl
  | .objCard k n p, h => by
    rw [CE.Meets] at h
    rw [CE.toObj]
    have hargs := Args.card n (.one (rt_ope ha h.1) (by decide) (.optNone (c := .ce)))
    cases k with
    | min =>
      refine plain_rt .objectMinCardinality rfl hargs rfl ?_
      rw [← uint_text n]; simp only [writeObj, writeList, CardKind.objType]; rfl
    | max =>
      refine plain_rt .objectMaxCardinality rfl hargs rfl ?_
      rw [← uint_text n]; simp only [writeObj, writeList, CardKind.objType]; rfl
    | exact =>
      refine plain_rt .objectExactCardinality rfl hargs rfl ?_
      rw [← uint_text n]; simp only [writeObj, writeList, CardKind.objType]; rfl
  | .objCardQ k n p c, h => by
    rw [CE.Meets] at h
    rw [CE.toObj]
    have hargs := Args.card n (.one (rt_ope ha h.1) (by decide) (.optSome (rt_ce ha c h.2.1) (by decide)))
    cases k with
    | min =>
      refine plain_rt .objectMinCardinality rfl hargs rfl ?_
      rw [← uint_text n]; simp only [writeObj, writeList, CardKind.objType]; rfl
    | max =>
      refine plain_rt .objectMaxCardinality rfl hargs rfl ?_
      rw [← uint_text n]; simp only [writeObj, writeList, CardKind.objType]; rfl
    | exact =>
      refine plain_rt .objectExactCardinality rfl hargs rfl ?_
      rw [← uint_text n]; simp only [writeObj, writeList, CardKind.objType]; rfl
  | .dataSome p d, h => by
    rw [CE.Meets] at h
    have hargs := Args.one (rt_ent ha .dataProp h.1) (by decide) (.one (rt_dr ha d h.2) (by decide) .nil)
    rw [CE.toObj]
    split
    · rename_i ht
      rw [dr_top ht, DR.toObj] at hargs
      refine plain_rt .dataSomeValuesFrom rfl hargs ?_ ?_
      · simp only [build, dataQuant, ent, drop_self]; rfl
      · simp only [writeObj, writeList]; rfl
    · rename_i ht
      refine plain_rt .dataSomeValuesFrom rfl hargs ?_ ?_
      · simp only [build, dataQuant, dr_not_top ht]; rfl
      · simp only [writeObj, writeList]; rfl
  | .dataAll p d, h => by
    rw [CE.Meets] at h
    have hargs := Args.one (rt_ent ha .dataProp h.1) (by decide) (.one (rt_dr ha d h.2) (by decide) .nil)
    rw [CE.toObj]
    split
    · rename_i ht
      rw [dr_top ht, DR.toObj] at hargs
      refine plain_rt .dataAllValuesFrom rfl hargs ?_ ?_
      · simp only [build, dataQuant, ent, drop_self]; rfl
      · simp only [writeObj, writeList]; rfl
    · rename_i ht
      refine plain_rt .dataAllValuesFrom rfl hargs ?_ ?_
      · simp only [build, dataQuant, dr_not_top ht]; rfl
      · simp only [writeObj, writeList]; rfl
  | .dataHasValue p l, h => by
    rw [CE.Meets] at h
    rw [CE.toObj]
    refine plain_rt .dataHasValue rfl (.one (rt_ent ha .dataProp h.1) (by decide)
      (.one (rt_lit ha h.2) (by decide) .nil)) rfl ?_
    simp only [writeObj, writeList]; rfl
  | .dataCard k n p, h => by
    rw [CE.Meets] at h
    rw [CE.toObj]
    have hargs := Args.card n (.one (rt_ent ha .dataProp h.1) (by decide) (.optNone (c := .dr)))
    cases k with
    | min =>
      refine plain_rt .dataMinCardinality rfl hargs rfl ?_
      rw [← uint_text n]; simp only [writeObj, writeList, CardKind.dataType]; rfl
    | max =>
      refine plain_rt .dataMaxCardinality rfl hargs rfl ?_
      rw [← uint_text n]; simp only [writeObj, writeList, CardKind.dataType]; rfl
    | exact =>
      refine plain_rt .dataExactCardinality rfl hargs rfl ?_
      rw [← uint_text n]; simp only [writeObj, writeList, CardKind.dataType]; rfl
  | .dataCardQ k n p d, h => by
    rw [CE.Meets] at h
    rw [CE.toObj]
    have hargs := Args.card n (.one (rt_ent ha .dataProp h.1) (by decide)
      (.optSome (rt_dr ha d h.2.1) (by decide)))
    cases k with
    | min =>
      refine plain_rt .dataMinCardinality rfl hargs rfl ?_
      rw [← uint_text n]; simp only [writeObj, writeList, CardKind.dataType]; rfl
    | max =>
      refine plain_rt .dataMaxCardinality rfl hargs rfl ?_
      rw [← uint_text n]; simp only [writeObj, writeList, CardKind.dataType]; rfl
    | exact =>
      refine plain_rt .dataExactCardinality rfl hargs rfl ?_
      rw [← uint_text n]; simp only [writeObj, writeList, CardKind.dataType]; rfl

theorem rt_ces (ha : Agree gp m) : ∀ (cs : List CE), CE.AllMeet (textReq gp) cs →
    ∀ o ∈ CE.toObjs cs, RT m .ce (writeObj gp o) o
  | [], _ => fun _ h => nomatch h
  | c :: cs, h => by
    rw [CE.AllMeet] at h
    intro o ho
    rw [CE.toObjs] at ho
    rcases List.mem_cons.1 ho with ho | ho
    · rw [ho]; exact rt_ce ha c h.1
    · exact rt_ces ha cs h.2 o ho
end

/-! ## Annotations and axioms -/

/-- Types of axioms and of annotations that are written in the general way. -/
def usual (t : OType) : Bool :=
  (t.isAxiom || t == .annotation) && !(t == .aDecl || t == .aSubObjProp || t == .aHasKey)

theorem assemble_usual {t : OType} (ht : usual t = true) (bit : Bool) (fs : List Obj) (ws : List Str) (u : Nat) :
    assemble gp t bit fs ws u = typeName t ++ 40 ::
      (thenSp (if bit then ws[t.fieldCount]? else none) ++ joinSp (ws.take t.fieldCount) ++ [41]) := by
  cases t <;> first | rfl | cases ht

theorem writeList_append : ∀ (a b : List Obj), writeList gp (a ++ b) = writeList gp a ++ writeList gp b
  | [], _ => rfl
  | x :: a, b => by
    rw [List.cons_append, writeList, writeList, writeList_append a b, List.cons_append]

theorem writeList_length : ∀ (a : List Obj), (writeList gp a).length = a.length
  | [] => rfl
  | x :: a => by rw [writeList, List.length_cons, writeList_length a, List.length_cons]

theorem annText_of (a : Obj) (as : List Obj) :
    annText (itemsOf gp (a :: as)) = joinSp (writeList gp (a :: as)) ++ [32] := by
  rw [← texts_of]; rfl

/-- The result of the constructors for annotated objects. -/
theorem build_annotated {t : OType} (ht : t.isAxiom = true ∨ t = .annotation) (as : List Obj) (fs : List Obj) :
    build t true as ⟨fs, 0, none⟩ = some (annotated t fs as) := by
  have : build t true as ⟨fs, 0, none⟩ =
      some (getImplAnnot t fs (if as = [] then none else some (false, as))) := by
    cases t <;> first | rfl | (exfalso; revert ht; decide)
  rw [this]
  cases as with
  | nil => rfl
  | cons a as => rfl

/-- Axioms and annotations written in the general way. -/
theorem annotated_rt (k : Kw) {pr : Prod} (hk : prod k = some pr) (hann : pr.annotated = true)
    (ht : usual pr.type = true) (hn : typeName pr.type = k.text) {fs as : List Obj}
    (hf : fs.length = pr.type.fieldCount) (has : ∀ o ∈ as, RT m .annotation (writeObj gp o) o)
    (ha : Args m pr.args (writeList gp fs) ⟨fs, 0, none⟩) :
    RTC m pr.cat (writeObj gp (annotated pr.type fs as)) (annotated pr.type fs as) := by
  have hax : pr.type.isAxiom = true ∨ pr.type = .annotation := by
    simp only [usual, Bool.and_eq_true, Bool.or_eq_true, beq_iff_eq] at ht
    exact ht.1
  refine construct_rt (l := itemsOf gp as) hk (allRT_of has) (.inl hann) ha ?_ ?_
  · rw [objs_of, hann]; exact build_annotated hax as fs
  · have hlen : (writeList gp fs).length = pr.type.fieldCount := by rw [writeList_length, hf]
    cases as with
    | nil =>
      rw [annotated, writeObj, assemble_usual ht, hn, ← hlen, List.take_length]; rfl
    | cons a as =>
      rw [annotated, writeObj, assemble_usual ht, hn, writeList_append, ← hlen, List.take_left,
        annText_of, if_pos rfl, List.getElem?_append_right (Nat.le_refl _)]
      simp [writeList, writeObj, thenSp]

mutual
theorem rt_annot (ha : Agree gp m) : ∀ (a : Annot), a.Meets (textReq gp) →
    RTC m .annotation (writeObj gp a.toObj) a.toObj
  | .mk p v as, h => by
    rw [Annot.Meets] at h
    rw [Annot.toObj]
    refine annotated_rt .annotation rfl rfl rfl rfl rfl (rt_annots ha as h.2.2.1) ?_
    exact .one (rt_ent ha .annotProp h.1) (by decide) (.one (rt_annotVal ha h.2.1) (by decide) .nil)

theorem rt_annots (ha : Agree gp m) : ∀ (as : List Annot), Annot.AllMeet (textReq gp) as →
    ∀ o ∈ Annot.toObjs as, RT m .annotation (writeObj gp o) o
  | [], _ => fun _ h => nomatch h
  | a :: as, h => by
    rw [Annot.AllMeet] at h
    intro o ho
    rw [Annot.toObjs] at ho
    rcases List.mem_cons.1 ho with ho | ho
    · rw [ho]; exact (rt_annot ha a h.1).weak
    · exact rt_annots ha as h.2 o ho
end

theorem rt_subOpe (ha : Agree gp m) {i : Iri} (h : IriOk gp i) :
    RT m .subOpe (writeIri gp i) (ent .objProp i) := by
  obtain ⟨tk, h1, h2, h3⟩ := iri_text ha h
  have hl := iri_length (gp := gp) (i := i)
  refine ⟨by omega, fun rest hf => ⟨tk, lex rest, h3 rest hf.1, ?_, ?_, fun n hn => ?_⟩⟩
  · cases tk <;> first | rfl | cases h1
  · constructor
    · rintro rfl; cases h1
    · intro h; cases h
  · match n, hn with
    | 0, hn => omega
    | 1, hn => omega
    | n + 2, hn =>
      have : parseCat m (n + 2) .subOpe (tk :: lex rest) = parseCat m (n + 1) .ope (tk :: lex rest) := by
        cases tk <;> first | rfl | cases h1
      have h4 : parseCat m (n + 1) .ope (tk :: lex rest) =
          (readIri m tk).map fun i => (.prim (.ent .objProp i), lex rest) := by
        cases tk <;> first | rfl | cases h1
      rw [this, h4, h2]; rfl

theorem rt_chain (ha : Agree gp m) {ps : List Ope} (h1 : 2 ≤ ps.length) (h2 : ∀ p ∈ ps, p.Meets (textReq gp)) :
    RT m .subOpe (Kw.objectPropertyChain.text ++ 40 :: (joinSp (writeList gp (ps.map Ope.toObj)) ++ [41]))
      (.vec true (ps.map Ope.toObj)) := by
  have hall := allRT_of (gp := gp) (m := m) (c := .ope) (mem_map_rt (fun _ => rt_ope ha) h2)
  refine ⟨by simp; omega, fun rest hf => ⟨.kw .objectPropertyChain,
    .lpar :: lex (joinSp (writeList gp (ps.map Ope.toObj)) ++ 41 :: rest), ?_, rfl, by simp, fun n hn => ?_⟩⟩
  · rw [List.append_assoc, List.cons_append, lex_kw]; simp
  · cases n with
    | zero => simp at hn
    | succ n =>
      have hlen : (joinSp (writeList gp (ps.map Ope.toObj))).length < n := by
        obtain ⟨x, w, hx, _⟩ := Kw.objectPropertyChain.text_first
        simp only [hx, List.length_append, List.length_cons, List.length_nil] at hn; omega
      rw [← texts_of] at hlen ⊢
      rw [parseCat, parseStep, parseMany_texts rest hall hlen, objs_of]
      simp only [Option.bind_eq_bind, Option.bind_some]
      rw [if_neg (by rw [List.length_map]; omega)]

/-- Axioms that are written in their own way. -/
theorem special_rt (k : Kw) {pr : Prod} (hk : prod k = some pr) (hann : pr.annotated = true)
    (hax : pr.type.isAxiom = true) {fs as : List Obj} {ps : List Str}
    (has : ∀ o ∈ as, RT m .annotation (writeObj gp o) o)
    (ha : Args m pr.args ps ⟨fs, 0, none⟩)
    (h0 : assemble gp pr.type false fs (writeList gp fs) 0 = k.text ++ 40 :: (joinSp ps ++ [41]))
    (h1 : ∀ v, assemble gp pr.type true (fs ++ [v]) (writeList gp fs ++ [writeObj gp v]) 0 =
      k.text ++ 40 :: (writeObj gp v ++ 32 :: (joinSp ps ++ [41]))) :
    RTC m pr.cat (writeObj gp (annotated pr.type fs as)) (annotated pr.type fs as) := by
  refine construct_rt (l := itemsOf gp as) hk (allRT_of has) (.inl hann) ha ?_ ?_
  · rw [objs_of, hann]; exact build_annotated (.inl hax) as fs
  · cases as with
    | nil => rw [annotated, writeObj, h0]; rfl
    | cons a as =>
      rw [annotated, writeObj, writeList_append, annText_of]
      have := h1 (.vec false (a :: as))
      rw [writeList, writeList, this, writeObj]; simp

theorem decl_text (k : EntKind) : typeName (ent k i).otype = (entWord k).text := by cases k <;> rfl

theorem rt_axiom (ha : Agree gp m) (a : Axiom) (h : a.Meets (textReq gp)) :
    RTC m .ax (writeObj gp a.toObj) a.toObj := by
  obtain ⟨x, as⟩ := a
  obtain ⟨hx, hm⟩ := h
  have has := rt_annots ha as hm.1
  clear hm
  unfold Axiom.toObj
  dsimp only at hx ⊢
  cases x with
  | decl k i =>
    refine special_rt .declaration rfl rfl rfl has (.one (rt_entity ha k hx) (by decide) .nil) ?_ ?_
    · simp only [Ax.fields, writeList]
      rw [← decl_text (i := i) k]; simp only [ent, writeObj]
      simp [assemble, thenSp, joinSp, show OType.aDecl.fieldCount = 1 from rfl]; rfl
    · intro v
      simp only [Ax.fields, writeList]
      rw [← decl_text (i := i) k]; simp only [ent, writeObj]
      simp [assemble, thenSp, joinSp, show OType.aDecl.fieldCount = 1 from rfl]; rfl
  | subClass c d =>
    exact annotated_rt .subClassOf rfl rfl rfl rfl rfl has (.one (rt_ce ha c hx.1) (by decide)
      (.one (rt_ce ha d hx.2) (by decide) .nil))
  | equivClasses cs =>
    exact annotated_rt .equivalentClasses rfl rfl rfl rfl rfl has
      (args_many (rt_ces ha cs hx.2) (by decide) (by rw [CE.length_toObjs]; exact hx.1))
  | disjClasses cs =>
    exact annotated_rt .disjointClasses rfl rfl rfl rfl rfl has
      (args_many (rt_ces ha cs hx.2) (by decide) (by rw [CE.length_toObjs]; exact hx.1))
  | disjUnion c cs =>
    exact annotated_rt .disjointUnion rfl rfl rfl rfl rfl has (.one (rt_ent ha .cls hx.1) (by decide)
      (args_many (rt_ces ha cs hx.2.2) (by decide) (by rw [CE.length_toObjs]; exact hx.2.1)))
  | subObjProp p q =>
    obtain ⟨hp, hq⟩ := hx
    have hq := rt_ope ha hq
    cases p with
    | ope p =>
      cases p with
      | inv i => exact hp.2.elim
      | prop i =>
        refine special_rt .subObjectPropertyOf rfl rfl rfl has (.one (rt_subOpe ha hp.1) (by decide)
          (.one hq (by decide) .nil)) ?_ ?_
        · simp only [Ax.fields, SubOpe.toObj, Ope.toObj, ent, writeList, writeObj]; rfl
        · intro v
          simp only [Ax.fields, SubOpe.toObj, Ope.toObj, ent, writeList, writeObj]
          simp [assemble, thenSp, joinSp, show OType.aSubObjProp.fieldCount = 2 from rfl]; rfl
    | chain ps =>
      refine special_rt .subObjectPropertyOf rfl rfl rfl has (.one (rt_chain ha hp.1 hp.2) (by decide)
        (.one hq (by decide) .nil)) ?_ ?_
      · simp only [Ax.fields, SubOpe.toObj, writeList, writeObj]
        simp [assemble, thenSp, joinSp, show OType.aSubObjProp.fieldCount = 2 from rfl]; rfl
      · intro v
        simp only [Ax.fields, SubOpe.toObj, writeList, writeObj]
        simp [assemble, thenSp, joinSp, show OType.aSubObjProp.fieldCount = 2 from rfl]; rfl
  | equivObjProp ps =>
    exact annotated_rt .equivalentObjectProperties rfl rfl rfl rfl rfl has
      (args_many (mem_map_rt (fun _ => rt_ope ha) hx.2) (by decide) (by rw [List.length_map]; exact hx.1))
  | disjObjProp ps =>
    exact annotated_rt .disjointObjectProperties rfl rfl rfl rfl rfl has
      (args_many (mem_map_rt (fun _ => rt_ope ha) hx.2) (by decide) (by rw [List.length_map]; exact hx.1))
  | invObjProp p q =>
    exact annotated_rt .inverseObjectProperties rfl rfl rfl rfl rfl has (.one (rt_ope ha hx.1) (by decide)
      (.one (rt_ope ha hx.2) (by decide) .nil))
  | objPropDomain p c =>
    exact annotated_rt .objectPropertyDomain rfl rfl rfl rfl rfl has (.one (rt_ope ha hx.1) (by decide)
      (.one (rt_ce ha c hx.2) (by decide) .nil))
  | objPropRange p c =>
    exact annotated_rt .objectPropertyRange rfl rfl rfl rfl rfl has (.one (rt_ope ha hx.1) (by decide)
      (.one (rt_ce ha c hx.2) (by decide) .nil))
  | objPropChar k p =>
    have hargs := Args.one (rt_ope ha hx) (by decide) .nil
    cases k with
    | func => exact annotated_rt .functionalObjectProperty rfl rfl rfl rfl rfl has hargs
    | invFunc => exact annotated_rt .inverseFunctionalObjectProperty rfl rfl rfl rfl rfl has hargs
    | symm => exact annotated_rt .symmetricObjectProperty rfl rfl rfl rfl rfl has hargs
    | asymm => exact annotated_rt .asymmetricObjectProperty rfl rfl rfl rfl rfl has hargs
    | trans => exact annotated_rt .transitiveObjectProperty rfl rfl rfl rfl rfl has hargs
    | refl => exact annotated_rt .reflexiveObjectProperty rfl rfl rfl rfl rfl has hargs
    | irrefl => exact annotated_rt .irreflexiveObjectProperty rfl rfl rfl rfl rfl has hargs
  | subDataProp p q =>
    exact annotated_rt .subDataPropertyOf rfl rfl rfl rfl rfl has (.one (rt_ent ha _ hx.1) (by decide)
      (.one (rt_ent ha _ hx.2) (by decide) .nil))
  | equivDataProp ps =>
    exact annotated_rt .equivalentDataProperties rfl rfl rfl rfl rfl has
      (args_many (mem_map_rt (f := ent .dataProp) (fun _ => rt_ent ha _) hx.2) (by decide)
        (by rw [List.length_map]; exact hx.1))
  | disjDataProp ps =>
    exact annotated_rt .disjointDataProperties rfl rfl rfl rfl rfl has
      (args_many (mem_map_rt (f := ent .dataProp) (fun _ => rt_ent ha _) hx.2) (by decide)
        (by rw [List.length_map]; exact hx.1))
  | dataPropDomain p c =>
    exact annotated_rt .dataPropertyDomain rfl rfl rfl rfl rfl has (.one (rt_ent ha _ hx.1) (by decide)
      (.one (rt_ce ha c hx.2) (by decide) .nil))
  | dataPropRange p d =>
    exact annotated_rt .dataPropertyRange rfl rfl rfl rfl rfl has (.one (rt_ent ha _ hx.1) (by decide)
      (.one (rt_dr ha d hx.2) (by decide) .nil))
  | funcDataProp p =>
    exact annotated_rt .functionalDataProperty rfl rfl rfl rfl rfl has (.one (rt_ent ha _ hx) (by decide) .nil)
  | datatypeDef i d =>
    exact annotated_rt .datatypeDefinition rfl rfl rfl rfl rfl has (.one (rt_ent ha _ hx.1) (by decide)
      (.one (rt_dr ha d hx.2) (by decide) .nil))
  | hasKey c ps ds =>
    refine special_rt .hasKey rfl rfl rfl has (.one (rt_ce ha c hx.1) (by decide)
      (args_group (mem_map_rt (fun _ => rt_ope ha) hx.2.1)
        (args_group (mem_map_rt (f := ent .dataProp) (fun _ => rt_ent ha _) hx.2.2.1) .nil))) ?_ ?_
    · simp only [Ax.fields, writeList, writeObj]
      simp [assemble, thenSp, joinSp, show OType.aHasKey.fieldCount = 3 from rfl]; rfl
    · intro v
      simp only [Ax.fields, writeList, writeObj]
      simp [assemble, thenSp, joinSp, show OType.aHasKey.fieldCount = 3 from rfl]; rfl
  | sameInd is =>
    exact annotated_rt .sameIndividual rfl rfl rfl rfl rfl has
      (args_many (mem_map_rt (fun _ => rt_ind ha) hx.2) (by decide) (by rw [List.length_map]; exact hx.1))
  | diffInd is =>
    exact annotated_rt .differentIndividuals rfl rfl rfl rfl rfl has
      (args_many (mem_map_rt (fun _ => rt_ind ha) hx.2) (by decide) (by rw [List.length_map]; exact hx.1))
  | classAssert c i =>
    exact annotated_rt .classAssertion rfl rfl rfl rfl rfl has (.one (rt_ce ha c hx.1) (by decide)
      (.one (rt_ind ha hx.2) (by decide) .nil))
  | objPropAssert p i j =>
    exact annotated_rt .objectPropertyAssertion rfl rfl rfl rfl rfl has (.one (rt_ope ha hx.1) (by decide)
      (.one (rt_ind ha hx.2.1) (by decide) (.one (rt_ind ha hx.2.2) (by decide) .nil)))
  | negObjPropAssert p i j =>
    exact annotated_rt .negativeObjectPropertyAssertion rfl rfl rfl rfl rfl has (.one (rt_ope ha hx.1)
      (by decide) (.one (rt_ind ha hx.2.1) (by decide) (.one (rt_ind ha hx.2.2) (by decide) .nil)))
  | dataPropAssert p i l =>
    exact annotated_rt .dataPropertyAssertion rfl rfl rfl rfl rfl has (.one (rt_ent ha _ hx.1)
      (by decide) (.one (rt_ind ha hx.2.1) (by decide) (.one (rt_lit ha hx.2.2) (by decide) .nil)))
  | negDataPropAssert p i l =>
    exact annotated_rt .negativeDataPropertyAssertion rfl rfl rfl rfl rfl has (.one (rt_ent ha _ hx.1)
      (by decide) (.one (rt_ind ha hx.2.1) (by decide) (.one (rt_lit ha hx.2.2) (by decide) .nil)))
  | annotAssert p s v =>
    exact annotated_rt .annotationAssertion rfl rfl rfl rfl rfl has (.one (rt_ent ha _ hx.1)
      (by decide) (.one (rt_annotSubj ha hx.2.1) (by decide) (.one (rt_annotVal ha hx.2.2) (by decide) .nil)))
  | subAnnotProp p q =>
    exact annotated_rt .subAnnotationPropertyOf rfl rfl rfl rfl rfl has (.one (rt_ent ha _ hx.1) (by decide)
      (.one (rt_ent ha _ hx.2) (by decide) .nil))
  | annotPropDomain p i =>
    exact annotated_rt .annotationPropertyDomain rfl rfl rfl rfl rfl has (.one (rt_ent ha _ hx.1) (by decide)
      (.one (rt_iri ha hx.2) (by decide) .nil))
  | annotPropRange p i =>
    exact annotated_rt .annotationPropertyRange rfl rfl rfl rfl rfl has (.one (rt_ent ha _ hx.1) (by decide)
      (.one (rt_iri ha hx.2) (by decide) .nil))

/-! ## Writing is defined -/

theorem def_list {os : List Obj} (h : ∀ o ∈ os, writeDefined o = true) : writeDefinedList os = true := by
  induction os with
  | nil => rfl
  | cons x os ih =>
    rw [writeDefinedList, h x (List.mem_cons_self ..), ih fun o ho => h o (List.mem_cons_of_mem _ ho)]; rfl

theorem def_map {α : Type} {f : α → Obj} {l : List α} {P : α → Prop}
    (h : ∀ x, P x → writeDefined (f x) = true) (hl : ∀ x ∈ l, P x) : writeDefinedList (l.map f) = true :=
  def_list fun o ho => by
    obtain ⟨x, hx, rfl⟩ := List.mem_map.1 ho
    exact h x (hl x hx)

theorem def_ind (x : Ind) : writeDefined x.toObj = true := by cases x <;> rfl
theorem def_ope (x : Ope) : writeDefined x.toObj = true := by cases x <;> rfl

theorem def_lit {l : Lit} (h : LitOk gp l) : writeDefined l.toObj = true := by
  obtain ⟨v, t⟩ := l
  cases t with
  | lang t => rfl
  | dt i =>
    have : i ≠ rdfLangString := h.2.1
    simp [Lit.toObj, writeDefined, this]

mutual
theorem def_dr : ∀ (d : DR), d.Meets (textReq gp) → writeDefined d.toObj = true
  | .dt i, _ => by rw [DR.toObj]; rfl
  | .inter ds, h => by
    rw [DR.Meets] at h
    simp [DR.toObj, writeDefined, writeDefinedList, def_drs ds h.2]
  | .union ds, h => by
    rw [DR.Meets] at h
    simp [DR.toObj, writeDefined, writeDefinedList, def_drs ds h.2]
  | .compl d, h => by
    rw [DR.Meets] at h
    simp [DR.toObj, writeDefined, writeDefinedList, def_dr d h]
  | .oneOf ls, h => by
    rw [DR.Meets] at h
    have := def_map (f := Lit.toObj) (fun _ => def_lit) h.2
    simp [DR.toObj, writeDefined, writeDefinedList, this]
  | .restr i fs, h => by
    rw [DR.Meets] at h
    have := def_map (f := facetObj) (fun f (hf : IriOk gp f.1 ∧ LitOk gp f.2) => by
      simp [facetObj, writeDefined, writeDefinedList, def_lit hf.2]) h.2.2
    simp [DR.toObj, ent, writeDefined, writeDefinedList, this]

theorem def_drs : ∀ (ds : List DR), DR.AllMeet (textReq gp) ds → writeDefinedList (DR.toObjs ds) = true
  | [], _ => rfl
  | d :: ds, h => by
    rw [DR.AllMeet] at h
    rw [DR.toObjs, writeDefinedList, def_dr d h.1, def_drs ds h.2]; rfl
end

mutual
theorem def_ce : ∀ (c : CE), c.Meets (textReq gp) → writeDefined c.toObj = true
  | .cls i, _ => by rw [CE.toObj]; rfl
  | .inter cs, h => by
    rw [CE.Meets] at h
    simp [CE.toObj, writeDefined, writeDefinedList, def_ces cs h.2]
  | .union cs, h => by
    rw [CE.Meets] at h
    simp [CE.toObj, writeDefined, writeDefinedList, def_ces cs h.2]
  | .compl c, h => by
    rw [CE.Meets] at h
    simp [CE.toObj, writeDefined, writeDefinedList, def_ce c h]
  | .oneOf is, _ => by
    have := def_map (f := Ind.toObj) (l := is) (fun x (_ : True) => def_ind x) (fun _ _ => trivial)
    simp [CE.toObj, writeDefined, writeDefinedList, this]
  | .objSome p c, h => by
    rw [CE.Meets] at h
    rw [CE.toObj]
    split <;> simp [writeDefined, writeDefinedList, def_ope, def_ce c h.2]
  | .objAll p c, h => by
    rw [CE.Meets] at h
    rw [CE.toObj]
    split <;> simp [writeDefined, writeDefinedList, def_ope, def_ce c h.2]
  | .objHasValue p i, _ => by simp [CE.toObj, writeDefined, writeDefinedList, def_ope, def_ind]
  | .objHasSelf p, _ => by simp [CE.toObj, writeDefined, writeDefinedList, def_ope]
  | .objCard k n p, _ => by
    cases k <;> simp [CE.toObj, CardKind.objType, writeDefined, writeDefinedList, def_ope]
  | .objCardQ k n p c, h => by
    rw [CE.Meets] at h
    cases k <;> simp [CE.toObj, CardKind.objType, writeDefined, writeDefinedList, def_ope, def_ce c h.2.1]
  | .dataSome p d, h => by
    rw [CE.Meets] at h
    rw [CE.toObj]
    split <;> simp [ent, writeDefined, writeDefinedList, def_dr d h.2]
  | .dataAll p d, h => by
    rw [CE.Meets] at h
    rw [CE.toObj]
    split <;> simp [ent, writeDefined, writeDefinedList, def_dr d h.2]
  | .dataHasValue p l, h => by
    rw [CE.Meets] at h
    simp [CE.toObj, ent, writeDefined, writeDefinedList, def_lit h.2]
  | .dataCard k n p, _ => by
    cases k <;> simp [CE.toObj, ent, CardKind.dataType, writeDefined, writeDefinedList]
  | .dataCardQ k n p d, h => by
    rw [CE.Meets] at h
    cases k <;> simp [CE.toObj, ent, CardKind.dataType, writeDefined, writeDefinedList, def_dr d h.2.1]

theorem def_ces : ∀ (cs : List CE), CE.AllMeet (textReq gp) cs → writeDefinedList (CE.toObjs cs) = true
  | [], _ => rfl
  | c :: cs, h => by
    rw [CE.AllMeet] at h
    rw [CE.toObjs, writeDefinedList, def_ce c h.1, def_ces cs h.2]; rfl
end

theorem def_append : ∀ (a b : List Obj), writeDefinedList (a ++ b) = (writeDefinedList a && writeDefinedList b)
  | [], _ => by simp [writeDefinedList]
  | x :: a, b => by
    rw [List.cons_append, writeDefinedList, writeDefinedList, def_append a b, Bool.and_assoc]

theorem subPropDefined_append {fs : List Obj} (h : subPropDefined fs = true) (gs : List Obj) :
    subPropDefined (fs ++ gs) = true := by
  cases fs with
  | nil => cases h
  | cons f fs => 
    cases f with
    | prim p => cases p <;> exact h
    | _ => exact h

theorem def_annotated {t : OType} {fs as : List Obj} (ht : t ≠ .aSubObjProp ∨ subPropDefined fs = true)
    (hf : writeDefinedList fs = true) (ha : writeDefinedList as = true) :
    writeDefined (annotated t fs as) = true := by
  cases as with
  | nil =>
    rw [annotated, writeDefined, hf]
    rcases ht with h | h <;> simp [h]
  | cons a as =>
    rw [annotated, writeDefined, def_append, hf, writeDefinedList, writeDefined, ha]
    rcases ht with h | h
    · simp [h, writeDefinedList]
    · simp [subPropDefined_append h, writeDefinedList]

theorem def_annotVal {v : AnnotVal} (h : v.Meets (textReq gp)) : writeDefined v.toObj = true := by
  cases v with
  | lit l => exact def_lit h
  | _ => rfl

theorem def_annotSubj (v : AnnotSubj) : writeDefined v.toObj = true := by cases v <;> rfl

mutual
theorem def_annot : ∀ (a : Annot), a.Meets (textReq gp) → writeDefined a.toObj = true
  | .mk p v as, h => by
    rw [Annot.Meets] at h
    rw [Annot.toObj]
    refine def_annotated (.inl (by decide)) ?_ (def_annots as h.2.2.1)
    simp [ent, writeDefinedList, writeDefined, def_annotVal h.2.1]

theorem def_annots : ∀ (as : List Annot), Annot.AllMeet (textReq gp) as →
    writeDefinedList (Annot.toObjs as) = true
  | [], _ => rfl
  | a :: as, h => by
    rw [Annot.AllMeet] at h
    rw [Annot.toObjs, writeDefinedList, def_annot a h.1, def_annots as h.2]; rfl
end

theorem def_axiom {a : Axiom} (h : a.Meets (textReq gp)) : writeDefined a.toObj = true := by
  obtain ⟨x, as⟩ := a
  obtain ⟨hx, hm⟩ := h
  have hopes : ∀ ps : List Ope, writeDefinedList (ps.map Ope.toObj) = true := fun ps =>
    def_map (fun x (_ : True) => def_ope x) (fun _ _ => trivial)
  have hinds : ∀ ps : List Ind, writeDefinedList (ps.map Ind.toObj) = true := fun ps =>
    def_map (fun x (_ : True) => def_ind x) (fun _ _ => trivial)
  have hents : ∀ (k : EntKind) (ps : List Iri), writeDefinedList (ps.map (ent k)) = true := fun k ps =>
    def_map (fun x (_ : True) => rfl) (fun _ _ => trivial)
  have hent : ∀ k i, writeDefined (ent k i) = true := fun _ _ => rfl
  have hiri : ∀ i, writeDefined (.prim (.iri i)) = true := fun _ => rfl
  have hvec : ∀ b l, writeDefined (.vec b l) = writeDefinedList l := fun _ _ => rfl
  refine def_annotated ?_ ?_ (def_annots as hm.1)
  · cases x with
    | subObjProp p q =>
      right
      cases p with
      | ope p =>
        cases p with
        | inv i => exact hx.1.2.elim
        | prop i => rfl
      | chain ps => rfl
    | objPropChar k p => left; cases k <;> exact nofun
    | _ => left; exact nofun
  · cases x with
    | decl k i => rfl
    | subClass c d => simp [Ax.fields, writeDefinedList, def_ce c hx.1, def_ce d hx.2]
    | equivClasses cs => simp [Ax.fields, writeDefinedList, hvec, def_ces cs hx.2]
    | disjClasses cs => simp [Ax.fields, writeDefinedList, hvec, def_ces cs hx.2]
    | disjUnion c cs => simp [Ax.fields, writeDefinedList, hvec, hent, def_ces cs hx.2.2]
    | subObjProp p q =>
      cases p <;> simp [Ax.fields, SubOpe.toObj, writeDefinedList, hvec, def_ope, hopes]
    | objPropDomain p c => simp [Ax.fields, writeDefinedList, def_ope, def_ce c hx.2]
    | objPropRange p c => simp [Ax.fields, writeDefinedList, def_ope, def_ce c hx.2]
    | dataPropDomain p c => simp [Ax.fields, writeDefinedList, hent, def_ce c hx.2]
    | dataPropRange p d => simp [Ax.fields, writeDefinedList, hent, def_dr d hx.2]
    | datatypeDef p d => simp [Ax.fields, writeDefinedList, hent, def_dr d hx.2]
    | hasKey c ps ds => simp [Ax.fields, writeDefinedList, hvec, hopes, hents, def_ce c hx.1]
    | classAssert c i => simp [Ax.fields, writeDefinedList, def_ind, def_ce c hx.1]
    | dataPropAssert p i l => simp [Ax.fields, writeDefinedList, hent, def_ind, def_lit hx.2.2]
    | negDataPropAssert p i l => simp [Ax.fields, writeDefinedList, hent, def_ind, def_lit hx.2.2]
    | annotAssert p s v =>
      simp [Ax.fields, writeDefinedList, hent, def_annotSubj, def_annotVal hx.2.2]
    | _ => simp [Ax.fields, writeDefinedList, hvec, hent, hiri, def_ope, def_ind, hopes, hinds, hents]

end Cowl.Func
