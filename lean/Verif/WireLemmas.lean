import Verif.WireSpec
import Verif.PrtDocLemmas
/-!
# Lemmas: the layout of constructs in ProtocOWL
-/
namespace Cowl.Wire
open Ast Prt

/-- The value as which a text with a datatype is written. -/
def written (u : Ulib) (i : Iri) (s : Str) : Option Value :=
  match formOf u (groupOf i) s with
  | .str => none
  | .bool b => some (.bool b)
  | .int v => some (.int v)
  | .uint n => some (.uint n)
  | .fixed w f => some (.fixed w f)
  | .exp w f e => some (.exp w f e)

/-- What the writer does for a cell. -/
def emit (u : Ulib) (ids : Id → Option Nat) : Cell → Out
  | .byte n => raw [UInt8.ofNat n]
  | .num n => vint u n
  | .val n => raw (u.varint n)
  | .int v => raw (u.svarint v)
  | .text s => encStr u s
  | .name off i => encId u ids off i

/-- What the writer does for a sequence of cells. -/
def emits (u : Ulib) (ids : Id → Option Nat) (cs : List Cell) : Out := cat (cs.map (emit u ids))

theorem append_assoc (a b c : Out) : a ++ b ++ c = a ++ (b ++ c) := by
  show Out.append _ _ = Out.append _ _
  simp only [Out.append, append_bytes, append_ok, List.append_assoc, Bool.and_assoc]

theorem nil_append (a : Out) : ({} : Out) ++ a = a := rfl

theorem append_nil (a : Out) : a ++ ({} : Out) = a := by
  show Out.append _ _ = _
  simp [Out.append]

theorem raw_append (a b : Str) : raw (a ++ b) = raw a ++ raw b := rfl

section
variable {u : Ulib} {ids : Id → Option Nat}

@[simp] theorem emits_nil : emits u ids [] = {} := rfl

@[simp] theorem emits_cons (c : Cell) (cs : List Cell) : emits u ids (c :: cs) = emit u ids c ++ emits u ids cs := rfl

@[simp] theorem emits_append (a b : List Cell) : emits u ids (a ++ b) = emits u ids a ++ emits u ids b := by
  induction a with
  | nil => rfl
  | cons c cs ih => rw [List.cons_append, emits_cons, ih, emits_cons, append_assoc]

theorem emits_list {α : Type} {f : α → List Cell} {g : α → Obj} {xs : List α}
    (h : ∀ x ∈ xs, encObj u ids (g x) = emits u ids (f x)) (b : Bool) :
    encObj u ids (.vec b (xs.map g)) = emits u ids (list f xs) := by
  have : cat (encList u ids (xs.map g)) = emits u ids (xs.flatMap f) := by
    induction xs with
    | nil => simp [encList]
    | cons x xs ih =>
      rw [List.map_cons, encList, cat_cons, h x (by simp), ih fun y hy => h y (by simp [hy]), List.flatMap_cons,
        emits_append]
  rw [encObj, this, list, emits_cons, List.length_map]; rfl

theorem emits_lit (l : Lit) : encObj u ids l.toObj = emits u ids (lit (written u) l) := by
  obtain ⟨v, t⟩ := l
  cases t with
  | lang s => simp [Lit.toObj, encObj, encLit, lit, encValue, formOf, emit, append_nil, append_assoc]
  | dt i =>
    simp only [Lit.toObj, encObj, encLit, lit]
    by_cases h : i = xsdString
    · simp [h, encValue, formOf, emit, append_nil]
    · simp only [if_neg h, encValue, written]
      cases formOf u (groupOf i) v <;>
        simp [emit, append_nil, append_assoc, Value.cells, Form.code, Form.bytes, raw_append]
      split <;> rfl

theorem emits_ind (i : Ind) : encObj u ids i.toObj = emits u ids (ind i) := by
  cases i <;> simp [Ind.toObj, ent, encObj, ind, emit, append_nil, entOffset]

theorem emits_ope (p : Ope) : encObj u ids p.toObj = emits u ids (ope p) := by
  cases p <;>
    simp [Ope.toObj, ent, encObj, ope, emit, append_nil, entOffset, assemble, encField, idObj, idOf]

theorem emits_facet (f : Iri × Lit) : encObj u ids (facetObj f) = emits u ids (facet (written u) f) := by
  simp [facetObj, encObj, assemble, encList, emits_lit, facet, emit, encField, idObj, idOf]

/-- Rewrites the bytes of a construct of known type. -/
macro "wire" "[" ts:Lean.Parser.Tactic.simpLemma,* "]" : tactic =>
  `(tactic| simp [encObj, encList, assemble, OType.isAxiom, OType.code, OType.ctorIdx, ceHeader, drHeader, axHeader,
    OType.fieldCount, OType.flags, ent, emit, entOffset, encField, idObj, idOf, append_nil, append_assoc, nil_append,
    $ts,*])

mutual
theorem emits_dr : (d : DR) → encObj u ids d.toObj = emits u ids (dr (written u) d)
  | .dt i => by wire [DR.toObj, dr]
  | .inter ds => by
    have h := emits_drs ds
    wire [DR.toObj, dr, h, length_toObjs_dr]
  | .union ds => by
    have h := emits_drs ds
    wire [DR.toObj, dr, h, length_toObjs_dr]
  | .compl d => by
    have h := emits_dr d
    wire [DR.toObj, dr, h]
  | .oneOf ls => by
    have h := emits_list (u := u) (ids := ids) (xs := ls) (fun l _ => emits_lit l) false
    rw [DR.toObj, encObj, encList, h]
    wire [dr]
  | .restr i fs => by
    have h := emits_list (u := u) (ids := ids) (xs := fs) (fun l _ => emits_facet l) false
    rw [DR.toObj, encObj, encList, encList, h]
    wire [dr]

theorem emits_drs : (ds : List DR) → cat (encList u ids (DR.toObjs ds)) = emits u ids (drs (written u) ds)
  | [] => by simp [DR.toObjs, encList, drs]
  | d :: ds => by rw [DR.toObjs, encList, cat_cons, emits_dr d, emits_drs ds, drs, emits_append]
end

theorem top_ce {c : CE} (h : c.isTop = true) : c = .cls owlThing := by
  cases c with
  | cls i => simp only [CE.isTop, beq_iff_eq] at h; rw [h]
  | _ => simp [CE.isTop] at h

theorem top_dr {d : DR} (h : d.isTop = true) : d = .dt rdfsLiteral := by
  cases d with
  | dt i => simp only [DR.isTop, beq_iff_eq] at h; rw [h]
  | _ => simp [DR.isTop] at h

mutual
theorem emits_ce : (c : CE) → encObj u ids c.toObj = emits u ids (ce (written u) c)
  | .cls i => by wire [CE.toObj, ce]
  | .inter cs => by
    have h := emits_ces cs
    wire [CE.toObj, ce, h, length_toObjs_ce]
  | .union cs => by
    have h := emits_ces cs
    wire [CE.toObj, ce, h, length_toObjs_ce]
  | .compl c => by
    have h := emits_ce c
    wire [CE.toObj, ce, h]
  | .oneOf is => by
    have h := emits_list (u := u) (ids := ids) (xs := is) (fun i _ => emits_ind i) false
    rw [CE.toObj, encObj, encList, h]
    wire [ce]
  | .objSome p c => by
    have h := emits_ce c
    rw [CE.toObj]
    split
    · rename_i t
      rw [top_ce t]
      wire [ce, emits_ope]
    · wire [ce, emits_ope, h]
  | .objAll p c => by
    have h := emits_ce c
    rw [CE.toObj]
    split
    · rename_i t
      rw [top_ce t]
      wire [ce, emits_ope]
    · wire [ce, emits_ope, h]
  | .objHasValue p i => by wire [CE.toObj, ce, emits_ope, emits_ind]
  | .objHasSelf p => by wire [CE.toObj, ce, emits_ope]
  | .objCard k n p => by cases k <;> wire [CE.toObj, ce, emits_ope, CardKind.objType, objCard, Nat.mul_comm]
  | .objCardQ k n p c => by
    have h := emits_ce c
    cases k <;> wire [CE.toObj, ce, emits_ope, CardKind.objType, objCard, Nat.mul_comm, h]
  | .dataSome p d => by
    rw [CE.toObj]
    split
    · rename_i t
      rw [top_dr t]
      wire [ce, dr]
    · wire [ce, emits_dr]
  | .dataAll p d => by
    rw [CE.toObj]
    split
    · rename_i t
      rw [top_dr t]
      wire [ce, dr]
    · wire [ce, emits_dr]
  | .dataHasValue p l => by wire [CE.toObj, ce, emits_lit]
  | .dataCard k n p => by cases k <;> wire [CE.toObj, ce, CardKind.dataType, dataCard, Nat.mul_comm]
  | .dataCardQ k n p d => by cases k <;> wire [CE.toObj, ce, CardKind.dataType, dataCard, Nat.mul_comm, emits_dr]

theorem emits_ces : (cs : List CE) → cat (encList u ids (CE.toObjs cs)) = emits u ids (ces (written u) cs)
  | [] => by simp [CE.toObjs, encList, ces]
  | c :: cs => by rw [CE.toObjs, encList, cat_cons, emits_ce c, emits_ces cs, ces, emits_append]
end

theorem emits_annotVal (v : AnnotVal) :
    encAnnotVal u ids (some v.toObj) (encObj u ids v.toObj) = emits u ids (annotVal (written u) v) := by
  cases v with
  | iri i => wire [AnnotVal.toObj, encAnnotVal, annotVal]
  | anon s => wire [AnnotVal.toObj, encAnnotVal, annotVal]
  | lit l =>
    rw [annotVal, emits_cons, ← emits_lit l]
    rfl

mutual
theorem emits_annot : (a : Annot) → encObj u ids a.toObj = emits u ids (annot (written u) a)
  | .mk p v [] => by
    have h := emits_annotVal (u := u) (ids := ids) v
    wire [Annot.toObj, Annot.toObjs, annotated, annot, h]
  | .mk p v (a :: as) => by
    have h := emits_annotVal (u := u) (ids := ids) v
    have h1 := emits_annot a
    have h2 := emits_annots as
    wire [Annot.toObj, Annot.toObjs, annotated, annot, h, h1, h2, length_toObjs_annot]

theorem emits_annots : (as : List Annot) → cat (encList u ids (Annot.toObjs as)) = emits u ids (annots (written u) as)
  | [] => by simp [Annot.toObjs, encList, annots]
  | a :: as => by rw [Annot.toObjs, encList, cat_cons, emits_annot a, emits_annots as, annots, emits_append]
end

theorem cat_map {α : Type} {f : α → List Cell} {g : α → Obj} (h : ∀ x, encObj u ids (g x) = emits u ids (f x)) (xs : List α) :
    cat (encList u ids (xs.map g)) = emits u ids (xs.flatMap f) := by
  induction xs with
  | nil => simp [encList]
  | cons x xs ih => rw [List.map_cons, encList, cat_cons, h x, ih, List.flatMap_cons, emits_append]

theorem cat_opes (ps : List Ope) : cat (encList u ids (ps.map Ope.toObj)) = emits u ids (ps.flatMap ope) :=
  cat_map emits_ope ps

theorem cat_inds (is : List Ind) : cat (encList u ids (is.map Ind.toObj)) = emits u ids (is.flatMap ind) :=
  cat_map emits_ind is

theorem cat_dps (ps : List Iri) : cat (encList u ids (ps.map fun p => Obj.prim (.ent .dataProp p))) =
    emits u ids (ps.flatMap fun p => [.name 0 (.iri p)]) :=
  cat_map (fun p => by wire []) ps

theorem dps_eq : ent .dataProp = fun p => Obj.prim (.ent .dataProp p) := rfl

theorem chain_ope (p : Ope) : isChain (some p.toObj) = false := by cases p <;> rfl

/-- An axiom without annotations. -/
theorem emits_plain (a : Ax) :
    encObj u ids (.comp a.type false a.fields 0) = emits u ids (.byte (head a) :: body (written u) a) := by
  cases a with
  | decl k i => cases k <;> wire [Ax.type, Ax.fields, head, body, declCode, entCode]
  | objPropChar k p => cases k <;> wire [Ax.type, Ax.fields, OpeChar.type, head, body, emits_ope]
  | subObjProp p q =>
    cases p with
    | ope p => wire [Ax.type, Ax.fields, SubOpe.toObj, head, body, emits_ope, chain_ope]
    | chain ps => wire [Ax.type, Ax.fields, SubOpe.toObj, head, body, emits_ope, list, cat_opes, isChain]
  | annotAssert p s v =>
    have h := emits_annotVal (u := u) (ids := ids) v
    cases s <;> wire [Ax.type, Ax.fields, AnnotSubj.toObj, head, body, h, subj]
  | _ =>
    wire [Ax.type, Ax.fields, head, body, emits_ope, emits_ce, emits_ind, emits_dr, emits_lit, emits_ces, length_toObjs_ce,
      list, cat_opes, cat_inds, dps_eq, cat_dps]

/-- An axiom with annotations. -/
theorem emits_annotated (a : Ax) (o : Obj) :
    encObj u ids (.comp a.type true (a.fields ++ [o]) 0) =
      emits u ids (.byte (head a + 64) :: body (written u) a) ++ encObj u ids o := by
  generalize hw : encObj u ids o = w
  cases a with
  | decl k i => cases k <;> wire [Ax.type, Ax.fields, head, body, declCode, entCode, hw]
  | objPropChar k p => cases k <;> wire [Ax.type, Ax.fields, OpeChar.type, head, body, emits_ope, hw]
  | subObjProp p q =>
    cases p with
    | ope p => wire [Ax.type, Ax.fields, SubOpe.toObj, head, body, emits_ope, chain_ope, hw]
    | chain ps => wire [Ax.type, Ax.fields, SubOpe.toObj, head, body, emits_ope, list, cat_opes, isChain, hw]
  | annotAssert p s v =>
    have h := emits_annotVal (u := u) (ids := ids) v
    cases s <;> wire [Ax.type, Ax.fields, AnnotSubj.toObj, head, body, h, subj, hw]
  | _ =>
    wire [Ax.type, Ax.fields, head, body, emits_ope, emits_ce, emits_ind, emits_dr, emits_lit, emits_ces, length_toObjs_ce,
      list, cat_opes, cat_inds, dps_eq, cat_dps, hw]

theorem emits_ax (a : Axiom) : encObj u ids a.toObj = emits u ids (ax (written u) a) := by
  obtain ⟨a, as⟩ := a
  cases as with
  | nil => exact emits_plain a
  | cons b bs =>
    have h : encObj u ids (.vec false (Annot.toObjs (b :: bs))) =
        emits u ids (.num (bs.length + 1) :: annots (written u) (b :: bs)) := by
      rw [encObj, emits_annots, length_toObjs_annot]; rfl
    show encObj u ids (.comp a.type true (a.fields ++ [.vec false (Annot.toObjs (b :: bs))]) 0) = _
    rw [emits_annotated, h, ← emits_append]; rfl

/-- What the writer does for a cell whose numbers are small. -/
theorem emit_bytes {c : Cell} (h : c.Small ids) :
    emit u ids c = match c.bytes u.varint u.svarint ids with
      | some b => ⟨b, true⟩
      | none => ⟨[], false⟩ := by
  cases c with
  | num n => simp only [Cell.Small] at h; simp [emit, Cell.bytes, vint, Prt.u32, Nat.mod_eq_of_lt h, raw]
  | text s =>
    simp only [Cell.Small] at h
    simp only [emit, Cell.bytes, encStr, vint, Prt.u32, Nat.mod_eq_of_lt h, ← raw_append]
    rfl
  | name off i =>
    simp only [Cell.Small] at h
    cases e : ids i with
    | none => simp [emit, Cell.bytes, encId, e]
    | some n => simp [emit, Cell.bytes, encId, e, vint, Prt.u32, Nat.mod_eq_of_lt (h n e), raw]
  | _ => rfl

theorem emits_ok {cs : List Cell} (h : ∀ c ∈ cs, c.Small ids) (b : Str) :
    emits u ids cs = ⟨b, true⟩ ↔ bytes u.varint u.svarint ids cs = some b := by
  induction cs generalizing b with
  | nil => simp only [emits_nil, bytes]; constructor <;> intro e <;> cases e <;> rfl
  | cons c cs ih =>
    have h1 := emit_bytes (u := u) (h c (by simp))
    have ih := ih fun x hx => h x (by simp [hx])
    rw [emits_cons, h1]
    cases e : c.bytes u.varint u.svarint ids with
    | none =>
      simp only [bytes, e]
      constructor
      · intro he
        have := congrArg Out.ok he
        simp at this
      · intro he; cases he
    | some a =>
      simp only [bytes, e]
      cases e2 : bytes u.varint u.svarint ids cs with
      | none =>
        constructor
        · intro he
          have hok := congrArg Out.ok he
          simp only [append_ok, Bool.true_and] at hok
          have := (ih (emits u ids cs).bytes).mp (by cases hh : emits u ids cs; rw [hh] at hok; cases hok; rfl)
          rw [e2] at this; cases this
        · intro he; cases he
      | some b' =>
        rw [(ih b').mpr e2]
        constructor
        · intro he; exact congrArg some (congrArg Out.bytes he)
        · intro he; cases he; rfl

theorem cat_flatMap {α : Type} {f : α → List Cell} {g : α → Out} (h : ∀ x, g x = emits u ids (f x)) (xs : List α) :
    cat (xs.map g) = emits u ids (xs.flatMap f) := by
  induction xs with
  | nil => rfl
  | cons x xs ih => rw [List.map_cons, cat_cons, h x, ih, List.flatMap_cons, emits_append]

theorem emits_frame {α : Type} {f : α → List Cell} {g : α → Out} (c : Nat) (h : ∀ x, g x = emits u ids (f x)) (xs : List α) :
    listFrame u (UInt8.ofNat c) (xs.map g) = emits u ids (frame c f xs) := by
  cases xs with
  | nil => rfl
  | cons x xs =>
    rw [listFrame, if_neg (by simp), cat_flatMap h, frame, if_neg (by simp), list, emits_cons, emits_cons, append_assoc,
      List.length_map]
    rfl

theorem emits_tables (d : Decls) :
    encDecls u true d = emits u ids (tables ⟨d.pfxs, d.nss, d.iris, d.anons⟩) := by
  have h1 := emits_frame (u := u) (ids := ids) (f := fun p : Str × Str => [.text p.1, .text p.2])
    (g := fun p => encStr u p.1 ++ encStr u p.2) 68 (fun p => by simp [emit, append_nil]) d.pfxs
  have h2 := emits_frame (u := u) (ids := ids) (f := fun n : Str => [.text n]) (g := encStr u) 4
    (fun n => by simp [emit, append_nil]) d.nss
  have h3 := emits_frame (u := u) (ids := ids) (f := fun i : Nat × Str => [.num i.1, .text i.2])
    (g := fun i => vint u i.1 ++ encStr u i.2) 69 (fun p => by simp [emit, append_nil]) d.iris
  have h4 := emits_frame (u := u) (ids := ids) (f := fun n : Str => [.text n]) (g := encStr u) 5
    (fun n => by simp [emit, append_nil]) d.anons
  simp only [tables, emits_append, ← h1, ← h2, ← h3, ← h4, encDecls, cat_cons, if_true, append_assoc]
  rw [show cat [] = ({} : Out) from rfl, append_nil]; rfl

theorem emits_names (i v : Option Iri) : encIriVersion u ids i v = emits u ids (names i v) := by
  cases i <;> cases v <;> simp [encIriVersion, names, emit, append_nil, append_assoc]

theorem ok_append {a b : Out} (h : (a ++ b).ok = true) : a.ok = true ∧ b.ok = true := by
  simpa only [append_ok, Bool.and_eq_true] using h

theorem until_map {α : Type} {f : α → List Cell} {g : α → Out} (h : ∀ x, g x = emits u ids (f x)) {xs : List α}
    (hok : (emits u ids (xs.flatMap f)).ok = true) : untilErr (xs.map g) = emits u ids (xs.flatMap f) := by
  rw [← cat_flatMap h] at hok ⊢
  exact untilErr_eq (cat_all_ok hok)

theorem emits_imports {is : List Iri} (hok : (emits u ids (frame 7 (fun i => [.name 0 (.iri i)]) is)).ok = true) :
    encImports u ids (is.map fun i => .prim (.iri i)) = emits u ids (frame 7 (fun i => [.name 0 (.iri i)]) is) := by
  cases is with
  | nil => rfl
  | cons i is =>
    rw [frame, if_neg (by simp), list, emits_cons, emits_cons] at hok ⊢
    have h := until_map (u := u) (ids := ids) (f := fun i : Iri => [.name 0 (.iri i)])
      (g := fun i => encImport u ids (.prim (.iri i))) (fun i => by simp [encImport, emit, append_nil])
      (ok_append (ok_append hok).2).2
    rw [encImports, if_neg (by simp), List.map_map, List.length_map]
    rw [show (encImport u ids ∘ fun i : Iri => Obj.prim (.iri i)) = fun i => encImport u ids (.prim (.iri i)) from rfl, h,
      append_assoc]
    rfl

theorem emits_annotFrame (as : List Annot) :
    encAnnots u ids (as.map Annot.toObj) = emits u ids (frame 8 (annot (written u)) as) := by
  rw [encAnnots, List.map_map]
  exact emits_frame 8 (fun a => emits_annot a) as

theorem emits_axioms {xs : List Axiom} (hok : (emits u ids (xs.flatMap (ax (written u)))).ok = true) :
    encAxioms u ids (xs.map Axiom.toObj) = emits u ids (xs.flatMap (ax (written u))) := by
  rw [encAxioms, List.map_map]
  exact until_map (fun a => emits_ax a) hok

end
end Cowl.Wire
