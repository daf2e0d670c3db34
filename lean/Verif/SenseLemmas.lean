import Verif.SenseSpec
import Verif.AstLemmas
import Verif.IterSpec
/-! # Lemmas: constructs whose primitives are read alike mean the same -/
namespace Cowl.Sem
open Ast IterSpec

variable {I : Interp} {w : Reading I}

/-- The readings agree about what occurs in the object. -/
def AgreesOn (w : Reading I) (x : Obj) : Prop := ∀ p, Occurs p x → w.Agrees p

theorem on_field {t : OType} {b : Bool} {fs : List Obj} {u : Nat} (h : AgreesOn w (.comp t b fs u)) :
    ∀ x ∈ fs, AgreesOn w x := fun _ hx p hp => h p (.field hx hp)

theorem on_item {o : Bool} {xs : List Obj} (h : AgreesOn w (.vec o xs)) : ∀ x ∈ xs, AgreesOn w x :=
  fun _ hx p hp => h p (.item hx hp)

theorem on_ent {k : EntKind} {i : Iri} (h : AgreesOn w (ent k i)) : w.Agrees (.ent k i) := h _ (.self _)

theorem on_map {α β : Type} {f : α → Obj} {g g' : α → β} (hf : ∀ a, AgreesOn w (f a) → g a = g' a) {o : Bool} {as : List α}
    (h : AgreesOn w (.vec o (as.map f))) : as.map g = as.map g' :=
  List.map_congr_left fun a ha => hf a (on_item h _ (List.mem_map_of_mem ha))

theorem ind_read {i : Ind} (h : AgreesOn w i.toObj) : ind (I.read w) i = ind I i := by
  cases i with
  | named i => exact on_ent h
  | anon s => exact h (.anon s) (.self _)

theorem ope_read {p : Ope} (h : AgreesOn w p.toObj) : ope (I.read w) p = ope I p := by
  cases p with
  | prop i => exact on_ent (k := .objProp) h
  | inv i =>
    have e : w.objProp i = I.objProp i := on_ent (k := .objProp) (on_field h _ (List.mem_singleton.2 rfl))
    show (fun x y => w.objProp i y x) = fun x y => I.objProp i y x
    rw [e]

theorem lit_read {l : Lit} (h : AgreesOn w l.toObj) : lit (I.read w) l = lit I l := by
  obtain ⟨v, t⟩ := l
  cases t with
  | dt i => exact (h (.ent .datatype i) (.datatype v i)).2 v _ rfl
  | lang l => exact (h (.ent .datatype rdfLangString) (.langString v l)).2 v _ rfl

theorem prop_read {i : Iri} (h : AgreesOn w (ent .dataProp i)) : (I.read w).dataProp i = I.dataProp i := on_ent h

mutual
theorem dr_read : ∀ (d : DR), AgreesOn w d.toObj → dr (I.read w) d = dr I d
  | .dt i, h => by rw [dr, dr]; exact (on_ent (k := .datatype) (by rw [DR.toObj] at h; exact h)).1
  | .inter ds, h => by
    rw [DR.toObj] at h
    have e := drs_read ds (on_field h _ (List.mem_singleton.2 rfl))
    rw [dr, dr, e]; rfl
  | .union ds, h => by
    rw [DR.toObj] at h
    have e := drs_read ds (on_field h _ (List.mem_singleton.2 rfl))
    rw [dr, dr, e]; rfl
  | .compl d, h => by
    rw [DR.toObj] at h
    have e := dr_read d (on_field h _ (List.mem_singleton.2 rfl))
    rw [dr, dr, e]; rfl
  | .oneOf ls, h => by
    rw [DR.toObj] at h
    have e : ls.map (lit (I.read w)) = ls.map (lit I) :=
      on_map (fun _ => lit_read) (on_field h _ (List.mem_singleton.2 rfl))
    rw [dr, dr, e]; rfl
  | .restr i fs, h => by
    rw [DR.toObj] at h
    have e1 : w.datatype i = I.datatype i := (on_ent (k := .datatype) (on_field h _ (.head _))).1
    have k := on_item (on_field h _ (.tail _ (.head _)))
    have e2 : (fs.map fun f => (f.1, lit (I.read w) f.2)) = fs.map fun f => (f.1, lit I f.2) :=
      List.map_congr_left fun f hf => by
        rw [lit_read (on_field (k _ (List.mem_map_of_mem hf)) _ (.tail _ (.head _)))]; rfl
    have e3 : ∀ f ∈ fs.map fun f => (f.1, lit I f.2), w.facet f.1 = I.facet f.1 := by
      intro f hf
      obtain ⟨g, hg, rfl⟩ := List.mem_map.1 hf
      exact on_field (k _ (List.mem_map_of_mem hg)) _ (.head _) (.iri g.1) (.self _)
    rw [dr, dr, e2]
    funext v
    show (w.datatype i v ∧ ∀ f ∈ fs.map fun f => (f.1, lit I f.2), w.facet f.1 f.2 v) = _
    rw [e1]
    refine propext (and_congr_right fun _ => ⟨fun a f hf => ?_, fun a f hf => ?_⟩)
    · rw [← e3 f hf]; exact a f hf
    · rw [e3 f hf]; exact a f hf

theorem drs_read : ∀ (ds : List DR) {o : Bool}, AgreesOn w (.vec o (DR.toObjs ds)) → drs (I.read w) ds = drs I ds
  | [], _, _ => rfl
  | d :: ds, o, h => by
    rw [DR.toObjs] at h
    rw [drs, drs, dr_read d (on_item h _ (.head _)),
      drs_read ds (o := o) fun p hp => h p (by cases hp with | item hx k => exact .item (.tail _ hx) k)]
    rfl
end

mutual
theorem ce_read : ∀ (c : CE), AgreesOn w c.toObj → ce (I.read w) c = ce I c
  | .cls i, h => by rw [ce, ce]; exact on_ent (k := .cls) (by rw [CE.toObj] at h; exact h)
  | .inter cs, h => by
    rw [CE.toObj] at h
    have e := ces_read cs (on_field h _ (List.mem_singleton.2 rfl))
    rw [ce, ce, e]; rfl
  | .union cs, h => by
    rw [CE.toObj] at h
    have e := ces_read cs (on_field h _ (List.mem_singleton.2 rfl))
    rw [ce, ce, e]; rfl
  | .compl c, h => by
    rw [CE.toObj] at h
    have e := ce_read c (on_field h _ (List.mem_singleton.2 rfl))
    rw [ce, ce, e]; rfl
  | .oneOf is, h => by
    rw [CE.toObj] at h
    have e : is.map (ind (I.read w)) = is.map (ind I) :=
      on_map (fun _ => ind_read) (on_field h _ (List.mem_singleton.2 rfl))
    rw [ce, ce, e]; rfl
  | .objSome p c, h => by
    rw [CE.toObj] at h
    have e : ope (I.read w) p = ope I p ∧ ce (I.read w) c = ce I c := by
      split at h
      · rename_i t
        refine ⟨ope_read (on_field h _ (.head _)), ?_⟩
        rw [ce_top t, ce, ce]
        exact h (.ent .cls owlThing) (.defaultFiller (.inl rfl))
      · exact ⟨ope_read (on_field h _ (.head _)), ce_read c (on_field h _ (.tail _ (.head _)))⟩
    rw [ce, ce, e.1, e.2]; rfl
  | .objAll p c, h => by
    rw [CE.toObj] at h
    have e : ope (I.read w) p = ope I p ∧ ce (I.read w) c = ce I c := by
      split at h
      · rename_i t
        refine ⟨ope_read (on_field h _ (.head _)), ?_⟩
        rw [ce_top t, ce, ce]
        exact h (.ent .cls owlThing) (.defaultFiller (.inr rfl))
      · exact ⟨ope_read (on_field h _ (.head _)), ce_read c (on_field h _ (.tail _ (.head _)))⟩
    rw [ce, ce, e.1, e.2]; rfl
  | .objHasValue p i, h => by
    rw [CE.toObj] at h
    have e1 := ope_read (on_field h _ (.head _))
    have e2 := ind_read (on_field h _ (.tail _ (.head _)))
    rw [ce, ce, e1, e2]; rfl
  | .objHasSelf p, h => by
    rw [CE.toObj] at h
    have e1 := ope_read (on_field h _ (.head _))
    rw [ce, ce, e1]; rfl
  | .objCard k n p, h => by
    rw [CE.toObj] at h
    have e1 := ope_read (on_field h _ (.head _))
    rw [ce, ce, e1]; rfl
  | .objCardQ k n p c, h => by
    rw [CE.toObj] at h
    have e1 := ope_read (on_field h _ (.head _))
    have e2 := ce_read c (on_field h _ (.tail _ (.head _)))
    rw [ce, ce, e1, e2]; rfl
  | .dataSome p d, h => by
    rw [CE.toObj] at h
    have e : (I.read w).dataProp p = I.dataProp p ∧ dr (I.read w) d = dr I d := by
      split at h
      · rename_i t
        refine ⟨prop_read (on_field h _ (.head _)), ?_⟩
        rw [dr_top t, dr, dr]
        exact (h (.ent .datatype rdfsLiteral) (.defaultRange (.inl rfl))).1
      · exact ⟨prop_read (on_field h _ (.head _)), dr_read d (on_field h _ (.tail _ (.head _)))⟩
    rw [ce, ce, e.1, e.2]; rfl
  | .dataAll p d, h => by
    rw [CE.toObj] at h
    have e : (I.read w).dataProp p = I.dataProp p ∧ dr (I.read w) d = dr I d := by
      split at h
      · rename_i t
        refine ⟨prop_read (on_field h _ (.head _)), ?_⟩
        rw [dr_top t, dr, dr]
        exact (h (.ent .datatype rdfsLiteral) (.defaultRange (.inr rfl))).1
      · exact ⟨prop_read (on_field h _ (.head _)), dr_read d (on_field h _ (.tail _ (.head _)))⟩
    rw [ce, ce, e.1, e.2]; rfl
  | .dataHasValue p l, h => by
    rw [CE.toObj] at h
    have e1 := prop_read (on_field h _ (.head _))
    have e2 := lit_read (on_field h _ (.tail _ (.head _)))
    rw [ce, ce, e1, e2]; rfl
  | .dataCard k n p, h => by
    rw [CE.toObj] at h
    have e1 := prop_read (on_field h _ (.head _))
    rw [ce, ce, e1]; rfl
  | .dataCardQ k n p d, h => by
    rw [CE.toObj] at h
    have e1 := prop_read (on_field h _ (.head _))
    have e2 := dr_read d (on_field h _ (.tail _ (.head _)))
    rw [ce, ce, e1, e2]; rfl

theorem ces_read : ∀ (cs : List CE) {o : Bool}, AgreesOn w (.vec o (CE.toObjs cs)) → ces (I.read w) cs = ces I cs
  | [], _, _ => rfl
  | c :: cs, o, h => by
    rw [CE.toObjs] at h
    rw [ces, ces, ce_read c (on_item h _ (.head _)),
      ces_read cs (o := o) fun p hp => h p (by cases hp with | item hx k => exact .item (.tail _ hx) k)]
    rfl
end

theorem subOpe_read {p : SubOpe} (h : AgreesOn w p.toObj) : subOpe (I.read w) p = subOpe I p := by
  cases p with
  | ope p => exact ope_read h
  | chain ps =>
    have e : ps.map (ope (I.read w)) = ps.map (ope I) := on_map (fun _ => ope_read) h
    show chain (ps.map (ope (I.read w))) = chain (ps.map (ope I))
    rw [e]; rfl

theorem on_fields {a : Axiom} (h : AgreesOn w a.toObj) : ∀ x ∈ a.ax.fields, AgreesOn w x := by
  unfold Axiom.toObj annotated at h
  split at h
  · exact on_field h
  · exact fun x hx => on_field h x (List.mem_append_left _ hx)

theorem sat_fields {x : Ax} (h : ∀ y ∈ x.fields, AgreesOn w y) : sat (I.read w) x = sat I x := by
  have h0 : ∀ {y : Obj} {ys : List Obj}, x.fields = y :: ys → AgreesOn w y := fun e => h _ (by rw [e]; exact .head _)
  have h1 : ∀ {z y : Obj} {ys : List Obj}, x.fields = z :: y :: ys → AgreesOn w y :=
    fun e => h _ (by rw [e]; exact .tail _ (.head _))
  have h2 : ∀ {u z y : Obj} {ys : List Obj}, x.fields = u :: z :: y :: ys → AgreesOn w y :=
    fun e => h _ (by rw [e]; exact .tail _ (.tail _ (.head _)))
  cases x with
  | subClass c d => rw [sat, sat, ce_read c (h0 rfl), ce_read d (h1 rfl)]; rfl
  | equivClasses cs => rw [sat, sat, ces_read cs (h0 rfl)]; rfl
  | disjClasses cs => rw [sat, sat, ces_read cs (h0 rfl)]; rfl
  | disjUnion c cs =>
    have e : (I.read w).cls c = I.cls c := on_ent (k := .cls) (h0 rfl)
    rw [sat, sat, ces_read cs (h1 rfl), e]; rfl
  | subObjProp p q => rw [sat, sat, subOpe_read (h0 rfl), ope_read (h1 rfl)]; rfl
  | equivObjProp ps =>
    have e : ps.map (ope (I.read w)) = ps.map (ope I) := on_map (fun _ => ope_read) (h0 rfl)
    rw [sat, sat, e]; rfl
  | disjObjProp ps =>
    have e : ps.map (ope (I.read w)) = ps.map (ope I) := on_map (fun _ => ope_read) (h0 rfl)
    rw [sat, sat, e]; rfl
  | invObjProp p q => rw [sat, sat, ope_read (h0 rfl), ope_read (h1 rfl)]; rfl
  | objPropDomain p c => rw [sat, sat, ope_read (h0 rfl), ce_read c (h1 rfl)]; rfl
  | objPropRange p c => rw [sat, sat, ope_read (h0 rfl), ce_read c (h1 rfl)]; rfl
  | objPropChar k p => rw [sat, sat, ope_read (h0 rfl)]; rfl
  | subDataProp p q => rw [sat, sat, prop_read (h0 rfl), prop_read (h1 rfl)]; rfl
  | equivDataProp ps =>
    have e : ps.map (I.read w).dataProp = ps.map I.dataProp := on_map (fun _ => prop_read) (h0 rfl)
    rw [sat, sat, e]; rfl
  | disjDataProp ps =>
    have e : ps.map (I.read w).dataProp = ps.map I.dataProp := on_map (fun _ => prop_read) (h0 rfl)
    rw [sat, sat, e]; rfl
  | dataPropDomain p c => rw [sat, sat, prop_read (h0 rfl), ce_read c (h1 rfl)]; rfl
  | dataPropRange p d => rw [sat, sat, prop_read (h0 rfl), dr_read d (h1 rfl)]; rfl
  | funcDataProp p => rw [sat, sat, prop_read (h0 rfl)]; rfl
  | datatypeDef i d =>
    have e : (I.read w).datatype i = I.datatype i := (on_ent (k := .datatype) (h0 rfl)).1
    rw [sat, sat, e, dr_read d (h1 rfl)]; rfl
  | hasKey c ps ds =>
    have e1 : ps.map (ope (I.read w)) = ps.map (ope I) := on_map (fun _ => ope_read) (h1 rfl)
    have e2 : ds.map (I.read w).dataProp = ds.map I.dataProp := on_map (fun _ => prop_read) (h2 rfl)
    rw [sat, sat, ce_read c (h0 rfl), e1, e2]; rfl
  | sameInd is =>
    have e : is.map (ind (I.read w)) = is.map (ind I) := on_map (fun _ => ind_read) (h0 rfl)
    rw [sat, sat, e]; rfl
  | diffInd is =>
    have e : is.map (ind (I.read w)) = is.map (ind I) := on_map (fun _ => ind_read) (h0 rfl)
    rw [sat, sat, e]; rfl
  | classAssert c i => rw [sat, sat, ce_read c (h0 rfl), ind_read (h1 rfl)]
  | objPropAssert p i j => rw [sat, sat, ope_read (h0 rfl), ind_read (h1 rfl), ind_read (h2 rfl)]
  | negObjPropAssert p i j => rw [sat, sat, ope_read (h0 rfl), ind_read (h1 rfl), ind_read (h2 rfl)]
  | dataPropAssert p i l => rw [sat, sat, prop_read (h0 rfl), ind_read (h1 rfl), lit_read (h2 rfl)]
  | negDataPropAssert p i l => rw [sat, sat, prop_read (h0 rfl), ind_read (h1 rfl), lit_read (h2 rfl)]
  | _ => rfl

end Cowl.Sem
