import Verif.PrtSessionSpec
import Verif.PrtStreamProps
import Verif.PrtHandlerLemmas
/-!
# Lemmas: ProtocOWL update streams
-/
namespace Cowl.Prt
open Func FuncSpec
open Ast Change

/-! ## Order of changes -/

theorem _root_.Cowl.Reordered.append_left (k : List (Bool × Ref)) {l m : List (Bool × Ref)} (h : Reordered l m) : Reordered (k ++ l) (k ++ m) := by
  induction h with
  | refl => exact .refl _
  | swap l r x y m hn =>
    rw [← List.append_assoc, ← List.append_assoc]
    exact .swap _ r x y m hn
  | trans _ _ h1 h2 => exact h1.trans h2

theorem _root_.Cowl.Reordered.append_right (k : List (Bool × Ref)) {l m : List (Bool × Ref)} (h : Reordered l m) : Reordered (l ++ k) (m ++ k) := by
  induction h with
  | refl => exact .refl _
  | swap l r x y m hn =>
    rw [List.append_assoc, List.append_assoc]
    exact .swap l r x y (m ++ k) hn
  | trans _ _ h1 h2 => exact h1.trans h2

/-- To the front. -/
theorem bubble (rm : Bool) (y : Ref) (Q : List (Bool × Ref)) : ∀ (P : List Ref), (∀ x ∈ P, axType x.obj ≠ axType y.obj) →
    Reordered (P.map (fun x => (rm, x)) ++ (rm, y) :: Q) ((rm, y) :: (P.map (fun x => (rm, x)) ++ Q))
  | [], _ => .refl _
  | x :: P, h => by
    have ih := (bubble rm y Q P fun z hz => h z (by simp [hz])).append_left [(rm, x)]
    exact ih.trans (.swap [] rm x y _ (h x (by simp)))

theorem sameAx_reordered (rm : Bool) : ∀ (Y X : List Ref), SameAx X Y →
    Reordered (X.map fun x => (rm, x)) (Y.map fun x => (rm, x))
  | [], X, h => by
    rw [h.1.eq_nil]
    exact .refl _
  | y :: Y, X, h => by
    have hf := h.2 (axType y.obj)
    rw [List.filter_cons, if_pos (by simp)] at hf
    obtain ⟨P, Q, e, hP, hy⟩ : ∃ P Q, X = P ++ y :: Q ∧ (∀ x ∈ P, axType x.obj ≠ axType y.obj) ∧
        Q.filter (fun x => axType x.obj = axType y.obj) = Y.filter fun x => axType x.obj = axType y.obj := by
      obtain ⟨P, Q, e1, e2, -, e3⟩ := List.filter_eq_cons_iff.1 hf
      exact ⟨P, Q, e1, fun x hx => by simpa using e2 x hx, e3⟩
    subst e
    have hs : SameAx (P ++ Q) Y := by
      refine ⟨List.Perm.cons_inv (a := y) (List.perm_middle.symm.trans h.1), fun t => ?_⟩
      have := h.2 t
      rw [List.filter_append, List.filter_cons, List.filter_cons] at this
      rw [List.filter_append]
      by_cases ht : axType y.obj = t
      · rw [← ht, hy]
        have : P.filter (fun x => axType x.obj = axType y.obj) = [] := by
          rw [List.filter_eq_nil_iff]
          intro x hx
          simpa using hP x hx
        rw [this]; rfl
      · rwa [if_neg (by simpa using ht), if_neg (by simpa using ht)] at this
    rw [List.map_append, List.map_cons, List.map_cons]
    refine (bubble rm y _ P hP).trans ?_
    rw [← List.map_append]
    exact (sameAx_reordered rm Y _ hs).append_left [(rm, y)]

/-! ## Operations -/

section
variable {R : Bool → Prop} {E : Env} {names : List Id} {l : List (Str × Str)} {rm : Bool} {s : SSt} {T : List (Bool × Item)}

/-- A change as an item. -/
def asItem (c : Bool × Ref) : Bool × Item := (c.1, .ax c.2.obj)

theorem tag_ax (rm : Bool) (X : List Ref) : tag rm (X.map fun x => Item.ax x.obj) = (X.map fun x => (rm, x)).map asItem := by
  simp [tag, asItem]

/-- A control frame that selects additions or removals. -/
theorem mode_spec (hu : E.u.Lawful) (hn : NamesOk names l) (r : Bool) (hR : R r) {H : List (Bool × Item)} {Y : List Ref}
    (h : AxSt R E names l rm s H Y) :
    ∃ t X, s.ctrl E.u true (if r then 1 else 0) = some t ∧ SameAx X Y ∧
      AxSt R E names l r t (H ++ tag rm (X.map fun x => Item.ax x.obj)) [] := by
  obtain ⟨t, X, h1, h2, h3, h4⟩ := flushAx_spec hu hn h
  obtain ⟨d, w, hA, ho, hf⟩ := h4.wrote
  refine ⟨{ t with out := t.out ++ [if r then 1 else 0] }, X, by unfold SSt.ctrl; rw [h1]; rfl, h2, SInv.axSt ?_ h3⟩
  refine ⟨hR, ⟨d, w ++ [if r then 1 else 0], hA, by simp [ho], fun k hk => ?_⟩, h4.sane, h4.due, h4.bnd, h4.pend⟩
  have : FRx E k rm d [if r then 1 else 0] [] r d := by
    intro rest ctx f
    refine run_step hu ?_
    cases r <;> rfl
  have := (hf k hk).append this
  rwa [List.append_nil] at this

theorem ops_stream (hR : ∀ r, R r) (hu : E.u.Lawful) (hn : NamesOk names l) (size : Nat) : ∀ (ops : List SOp) (rm : Bool) (s : SSt)
    (H : List (Bool × Item)) (Y : List Ref), AxSt R E names l rm s H Y →
    (∀ x ∈ axiomsWritten ops, ∃ a : Axiom, x.obj = a.toObj ∧ a.Meets (prtContents E.u) ∧ ∀ p, IterSpec.Occurs p x.obj → idOf p ∈ names) →
    ∃ t rm' Z Y' cs, ops.foldlM (SSt.op E.u true size) s = some t ∧ AxSt R E names l rm' t (H ++ cs.map asItem) Y' ∧
      Z = cs ++ Y'.map (fun x => (rm', x)) ∧ Reordered Z (Y.map (fun x => (rm, x)) ++ changes rm ops)
  | [], rm, s, H, Y, h, _ => ⟨s, rm, _, Y, [], rfl, by simpa using h, rfl, by simp [changes]; exact .refl _⟩
  | op :: ops, rm, s, H, Y, h, hx => by
    have key : ∀ (r : Bool) (t : SSt) (X : List Ref), s.op E.u true size op = some t → SameAx X Y →
        AxSt R E names l r t (H ++ tag rm (X.map fun x => Item.ax x.obj)) [] → changes rm (op :: ops) = changes r ops →
        (∀ x ∈ axiomsWritten ops, ∃ a : Axiom, x.obj = a.toObj ∧ a.Meets (prtContents E.u) ∧ ∀ p, IterSpec.Occurs p x.obj → idOf p ∈ names) →
        ∃ t rm' Z Y' cs, (op :: ops).foldlM (SSt.op E.u true size) s = some t ∧ AxSt R E names l rm' t (H ++ cs.map asItem) Y' ∧
        Z = cs ++ Y'.map (fun x => (rm', x)) ∧ Reordered Z (Y.map (fun x => (rm, x)) ++ changes rm (op :: ops)) := by
      intro r t X ht hs ha hc hx
      obtain ⟨t', rm', Z, Y', cs, b1, b2, b3, b4⟩ := ops_stream hR hu hn size ops r t _ _ ha hx
      refine ⟨t', rm', _, Y', X.map (fun x => (rm, x)) ++ cs, ?_, ?_, rfl, ?_⟩
      · rw [List.foldlM_cons, ht]; exact b1
      · rw [tag_ax, List.append_assoc, ← List.map_append] at b2
        exact b2
      · rw [hc, List.append_assoc, ← b3]
        exact (Reordered.append_left _ b4).trans ((sameAx_reordered rm Y X hs).append_right _)
    cases op with
    | ax x =>
      obtain ⟨t, a1, a2⟩ := addAxiom_spec hu hn size h (hx x (by simp [axiomsWritten]))
      obtain ⟨t', rm', Z, Y', cs, b1, b2, b3, b4⟩ := ops_stream hR hu hn size ops rm t _ _ a2 fun y hy => hx y (by simp [axiomsWritten, hy])
      refine ⟨t', rm', Z, Y', cs, ?_, b2, b3, ?_⟩
      · rw [List.foldlM_cons]
        show (s.writeAxiom E.u true size x >>= _) = _
        rw [a1]; exact b1
      · simpa [changes] using b4
    | addFrame =>
      obtain ⟨t, X, a1, a2, a3⟩ := mode_spec hu hn false (hR _) h
      exact key false t X a1 a2 a3 rfl hx
    | removeFrame =>
      obtain ⟨t, X, a1, a2, a3⟩ := mode_spec hu hn true (hR _) h
      exact key true t X a1 a2 a3 rfl hx
    | resetFrame p =>
      obtain ⟨t, X, a1, a2, a3, a4⟩ := flushAx_spec hu hn h
      refine key rm (t.reset p) X ?_ a2 ((reset_spec hu p a4).axSt rfl) rfl hx
      show (s.flush E.u true).map _ = _
      rw [a1]; rfl

end

theorem told_note (r : Bool) : Accepts (told (noteAll (ι := Bool × Item)) r) := fun _ _ => rfl

theorem give_note {ι : Type} : ∀ (is js : List ι), give noteAll js is = js ++ is
  | [], js => by simp [give]
  | i :: is, js => by
    have := give_note is (js ++ [i])
    simpa [give, noteAll] using this

/-- The bytes of an update stream, and the changes in them. -/
theorem session {E : Env} (hu : E.u.Lawful) {names : List Id} {h : Header} {ops : List SOp}
    (ho : PrtStreamOk E.u names h (axiomsWritten ops)) (size : Nat) :
    ∃ (b : Str) (ps : List (Str × Str)) (cs : List (Bool × Ref)), writeSession E.u true size h ops = some b ∧ Selected ps h.prefixes ∧
      Reordered cs (changes false ops) ∧ prtChanges E b = (tag false (headerItems ps h) ++ cs.map asItem, .done) := by
  have hn : NamesOk names h.prefixes := ⟨ho.split, ho.short, ho.prefixes, ho.few⟩
  obtain ⟨s1, ps, a1, a2, a3⟩ := header_spec (R := fun _ => True) trivial hu ho size
  obtain ⟨t, rm', Z, Y', cs, b1, b2, b3, b4⟩ := ops_stream (fun _ => trivial) hu hn size ops false s1 _ _ a3 ho.axioms
  obtain ⟨b, X, f1, f2, f3⟩ := footer_spec hu hn b2
  refine ⟨1 :: b, ps, cs ++ X.map fun x => (rm', x), ?_, a2, ?_, ?_⟩
  · unfold writeSession
    rw [a1, Option.bind_some, b1, Option.bind_some, f1]
  · refine ((sameAx_reordered rm' Y' X f2).append_left cs).trans ?_
    rw [← b3]; exact b4
  · unfold prtChanges
    rw [f3 noteAll (fun r _ => told_note r) [], give_note, List.nil_append, tag_ax, List.append_assoc, ← List.map_append]

end Cowl.Prt

namespace Cowl.Prt
open Func FuncSpec
open Ast Change

theorem _root_.Cowl.Reordered.perm {l m : List (Bool × Ref)} (h : Reordered l m) : l.Perm m := by
  induction h with
  | refl => exact .refl _
  | swap l r x y m hn => exact .append_left l (.swap _ _ _)
  | trans _ _ h1 h2 => exact h1.trans h2

/-! ## Reading into an ontology -/

/-- Contents of an ontology without prefixes and addresses. -/
structure View where
  iri : Option Iri
  version : Option Iri
  imports : List Obj
  annots : List Obj
  axioms : List Obj

/-- An item is added. -/
def View.add (v : View) : Item → View
  | .prefixDecl _ _ => v
  | .iri i => { v with iri := some i }
  | .version i => { v with version := some i }
  | .import i => { v with imports := v.imports ++ [.prim (.iri i)] }
  | .annot x => { v with annots := v.annots ++ [x] }
  | .ax x => { v with axioms := v.axioms ++ [x] }

/-- The contents; all axioms are older than `n`. -/
structure Shows (o : OntoSt) (n : Nat) (v : View) (s : OntoSpec.Abs) : Prop where
  reaches : OntoSpec.Reaches o.onto s
  old : ∀ x ∈ s.axioms, x.addr < n
  iri : o.iri = v.iri
  version : o.version = v.version
  imports : s.imports.map Ref.obj = v.imports
  annots : s.annots.map Ref.obj = v.annots
  axioms : s.axioms.map Ref.obj = v.axioms

/-- Items that make sense. -/
def GoodItem : Item → Prop
  | .annot x => ObjSpec.WellFormed x
  | .ax x => OntoSpec.IsAxiom x
  | _ => True

theorem shows_add {o : OntoSt} {n : Nat} {v : View} {s : OntoSpec.Abs} (h : Shows o n v s) {i : Item} (hi : GoodItem i) :
    ∃ o' s', changeHandler (some (o, n)) (false, i) = (some (o', n + 1), .ok) ∧ Shows o' (n + 1) (v.add i) s' := by
  have hok : (changeHandler (some (o, n)) (false, i)).2 = .ok := change_accepts (some (o, n)) i
  refine ⟨(addPart o (itemPart n i)).1, ?_⟩
  have e : changeHandler (some (o, n)) (false, i) = (some ((addPart o (itemPart n i)).1, n + 1), .ok) := Prod.ext rfl hok
  rw [e]
  have hold : ∀ x ∈ s.axioms, x.addr < n + 1 := fun x hx => Nat.lt_succ_of_lt (h.old x hx)
  cases i with
  | prefixDecl p m => exact ⟨s, rfl, h.1, hold, h.3, h.4, h.5, h.6, h.7⟩
  | iri i => exact ⟨s, rfl, h.1, hold, rfl, h.4, h.5, h.6, h.7⟩
  | version i => exact ⟨s, rfl, h.1, hold, h.3, rfl, h.5, h.6, h.7⟩
  | «import» i =>
    refine ⟨_, rfl, reaches_step (op := .addImport ⟨n, .prim (.iri i)⟩) h.1 trivial rfl, hold, h.3, h.4, ?_, h.6, h.7⟩
    show (s.imports ++ [_]).map _ = v.imports ++ _
    rw [List.map_append, h.5]; rfl
  | annot x =>
    refine ⟨_, rfl, reaches_step (op := .addAnnot ⟨n, x⟩) h.1 hi rfl, hold, h.3, h.4, h.5, ?_, h.7⟩
    show (s.annots ++ [_]).map _ = v.annots ++ _
    rw [List.map_append, h.6]; rfl
  | ax x =>
    refine ⟨_, rfl, reaches_step (op := .addAxiom ⟨n, x⟩) h.1 ⟨hi, fun b hb e => ?_⟩ rfl, ?_, h.3, h.4, h.5, h.6, ?_⟩
    · have := h.old b hb
      exact absurd e (Nat.ne_of_lt this)
    · intro y hy
      rcases List.mem_append.1 hy with hy | hy
      · exact hold y hy
      · rw [List.mem_singleton.1 hy]; exact Nat.lt_succ_self n
    · show (s.axioms ++ [_]).map _ = v.axioms ++ _
      rw [List.map_append, h.7]; rfl

theorem shows_remove {o : OntoSt} {n : Nat} {v : View} {s : OntoSpec.Abs} (h : Shows o n v s) {x : Obj}
    (hx : ∀ b ∈ v.axioms, x.equals b = false) :
    changeHandler (some (o, n)) (true, .ax x) = (some (o, n + 1), .ok) := by
  have : o.onto.removeAxiom ⟨n, x⟩ = some (o.onto, false) := by
    refine removeAxiom_none (reaches_inv h.1) fun b hb => hx _ ?_
    rw [← h.7]; exact List.mem_map_of_mem hb
  unfold changeHandler
  simp only [itemPart, removePart, this]
  rfl

/-- Additions, and removals of axioms that are not there. -/
theorem shows_feed : ∀ (js : List (Bool × Item)) (o : OntoSt) (n : Nat) (v : View) (s : OntoSpec.Abs), Shows o n v s →
    (∀ i, (false, i) ∈ js → GoodItem i) →
    (∀ i, (true, i) ∈ js → ∃ x, i = .ax x ∧ (∀ b ∈ v.axioms, x.equals b = false) ∧ ∀ b, (false, .ax b) ∈ js → x.equals b = false) →
    ∃ o' n' s', feed changeHandler (some (o, n)) js = (some (o', n'), .ok) ∧
      Shows o' n' (((js.filter fun j => !j.1).map (·.2)).foldl View.add v) s'
  | [], o, n, v, s, h, _, _ => ⟨o, n, s, rfl, h⟩
  | (false, i) :: js, o, n, v, s, h, h1, h2 => by
    obtain ⟨o', s', e, h'⟩ := shows_add h (h1 i (by simp))
    obtain ⟨o2, n2, s2, e2, h3⟩ := shows_feed js o' (n + 1) _ s' h' (fun i hi => h1 i (by simp [hi])) (fun j hj => by
      obtain ⟨x, e1, e2, e3⟩ := h2 j (by simp [hj])
      refine ⟨x, e1, fun b hb => ?_, fun b hb => e3 b (by simp [hb])⟩
      cases i with
      | ax y =>
        rcases List.mem_append.1 (show b ∈ v.axioms ++ [y] from hb) with hb | hb
        · exact e2 b hb
        · rw [List.mem_singleton.1 hb]; exact e3 y (by simp)
      | _ => exact e2 b hb)
    refine ⟨o2, n2, s2, ?_, h3⟩
    unfold feed feedFrom; rw [e]; exact e2
  | (true, i) :: js, o, n, v, s, h, h1, h2 => by
    obtain ⟨x, rfl, e1, -⟩ := h2 i (by simp)
    have e := shows_remove h e1
    obtain ⟨o2, n2, s2, e2, h3⟩ := shows_feed js o (n + 1) v s ⟨h.1, fun x hx => Nat.lt_succ_of_lt (h.2 x hx), h.3, h.4, h.5, h.6, h.7⟩
      (fun i hi => h1 i (by simp [hi])) (fun j hj => by
        obtain ⟨x, e1, e2, e3⟩ := h2 j (by simp [hj])
        exact ⟨x, e1, e2, fun b hb => e3 b (by simp [hb])⟩)
    refine ⟨o2, n2, s2, ?_, h3⟩
    unfold feed feedFrom; rw [e]; exact e2

theorem headerItems_good {ps : List (Str × Str)} {h : Header} (hh : ∀ x ∈ h.annots, ObjSpec.WellFormed x.obj) :
    ∀ i ∈ headerItems ps h, GoodItem i ∧ ∀ x, i ≠ .ax x := by
  intro i hj
  simp only [headerItems, List.mem_append, List.mem_map] at hj
  rcases hj with ((⟨_, _, rfl⟩ | hj) | ⟨_, _, rfl⟩) | ⟨x, hx, rfl⟩
  · exact ⟨trivial, nofun⟩
  · unfold idItems at hj
    rcases List.mem_append.1 hj with hj | hj
    · obtain ⟨_, _, rfl⟩ : ∃ a, h.iri = some a ∧ Item.iri a = i := by simpa using hj
      exact ⟨trivial, nofun⟩
    · obtain ⟨_, -, _, -, rfl⟩ : ∃ b, h.iri = some b ∧ ∃ a, h.version = some a ∧ Item.version a = i := by
        simpa [Option.bind_eq_some_iff] using hj
      exact ⟨trivial, nofun⟩
  · exact ⟨trivial, nofun⟩
  · exact ⟨hh x hx, nofun⟩

theorem view_prefixes (v : View) : ∀ ps : List (Str × Str), (ps.map fun p => Item.prefixDecl p.1 p.2).foldl View.add v = v
  | [] => rfl
  | _ :: ps => view_prefixes v ps

theorem view_id (v : View) {iri version : Option Iri} (h : version ≠ none → iri ≠ none) :
    (idItems iri version).foldl View.add v = { v with iri := iri.or v.iri, version := version.or v.version } := by
  cases iri with
  | none =>
    cases version with
    | none => rfl
    | some _ => exact absurd rfl (h nofun)
  | some _ => cases version <;> rfl

theorem view_imports (v : View) : ∀ is : List Iri, (is.map Item.import).foldl View.add v =
    { v with imports := v.imports ++ is.map fun i => .prim (.iri i) }
  | [] => by simp
  | i :: is => by
    rw [List.map_cons, List.foldl_cons, view_imports _ is]
    simp [View.add]

theorem view_annots (v : View) : ∀ xs : List Obj, (xs.map Item.annot).foldl View.add v = { v with annots := v.annots ++ xs }
  | [] => by simp
  | i :: is => by
    rw [List.map_cons, List.foldl_cons, view_annots _ is]
    simp [View.add]

theorem view_axioms (v : View) : ∀ xs : List Obj, (xs.map Item.ax).foldl View.add v = { v with axioms := v.axioms ++ xs }
  | [] => by simp
  | i :: is => by
    rw [List.map_cons, List.foldl_cons, view_axioms _ is]
    simp [View.add]

theorem view_header (v : View) (ps : List (Str × Str)) (h : Header) (hv : h.version ≠ none → h.iri ≠ none) :
    (headerItems ps h).foldl View.add v = ⟨h.iri.or v.iri, h.version.or v.version,
      v.imports ++ h.imports.map (fun x => .prim (.iri (importIri x))), v.annots ++ h.annots.map Ref.obj, v.axioms⟩ := by
  have e1 : h.imports.map (fun x => Item.import (importIri x)) = (h.imports.map importIri).map Item.import := by simp
  have e2 : h.annots.map (fun x => Item.annot x.obj) = (h.annots.map Ref.obj).map Item.annot := by simp
  rw [headerItems, e1, e2, List.foldl_append, List.foldl_append, List.foldl_append, view_prefixes, view_id v hv, view_imports, view_annots]
  simp

end Cowl.Prt
