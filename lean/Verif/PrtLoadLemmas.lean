import Verif.PrtPopLemmas
import Verif.FuncDocProps
/-!
# Lemmas: the ontology that is read from ProtocOWL
-/
namespace Cowl.Prt
open Func FuncSpec
open Ast Change Prefix

theorem told_change (s : OntoSt × Nat) (i : Item) :
    told changeHandler false (some s) i = (some (ontoHandler s i).1, (ontoHandler s i).2) := by
  cases i <;> rfl

theorem give_change : ∀ (is : List Item) (s : OntoSt × Nat),
    give (told changeHandler false) (some s) is = some (give ontoHandler s is)
  | [], _ => rfl
  | i :: is, s => by
    unfold give
    rw [List.foldl_cons, List.foldl_cons, told_change]
    exact give_change is _

theorem change_accepts : Accepts (told changeHandler false) := by
  intro s i
  cases s with
  | none => rfl
  | some s => rw [told_change]; exact ontoHandler_accepts s i

/-- Prefixes as entries of a map. -/
def asFwd (ps : List (Str × Str)) : Fwd := ps.map fun p => (⟨0, p.1⟩, p.2)

theorem load {o : OntoSt} {s : OntoSpec.Abs} (hs : OntoSpec.Reaches o.onto s) (hv : o.version ≠ none → o.iri ≠ none)
    {is : List Iri} {as X : List Obj} (hi : (o.onto.imports.getD []).map Ref.obj = is.map fun i => .prim (.iri i))
    (ha : (o.onto.annot.getD []).map Ref.obj = as)
    (hX : ∀ t, X.filter (fun x => axType x = t) = ((o.onto.byType t).getD []).map Ref.obj)
    (hp : X.Perm (s.axioms.map Ref.obj)) (ps : List (Str × Str)) (pm : PMap) (n : Nat) :
    ∃ o' n', give ontoHandler (⟨pm, none, none, Onto.empty⟩, n)
        ((ps.map fun p => Item.prefixDecl p.1 p.2) ++ idItems o.iri o.version ++ is.map Item.import ++ as.map Item.annot ++
          X.map Item.ax) = (o', n') ∧
      o'.pm = overlay n (asFwd ps) pm ∧ o'.iri = o.iri ∧ o'.version = o.version ∧
      (o'.onto.imports.getD []).map Ref.obj = s.imports.map Ref.obj ∧
      (o'.onto.annot.getD []).map Ref.obj = s.annots.map Ref.obj ∧
      (∀ t, ((o'.onto.byType t).getD []).map Ref.obj = ((o.onto.byType t).getD []).map Ref.obj) ∧
      ∃ s', OntoSpec.Reaches o'.onto s' ∧ (s'.axioms.map Ref.obj).Perm (s.axioms.map Ref.obj) ∧
        ∀ p, o'.onto.hasPrimitive p = true → OntoSpec.OrIri (OntoSpec.Mentioned s') p := by
  have hinv := reaches_inv hs
  have hid : ∀ n1 (pm : PMap), ∃ n2, give ontoHandler (⟨pm, none, none, Onto.empty⟩, n1)
      (idItems o.iri o.version) = (⟨pm, o.iri, o.version, Onto.empty⟩, n2) := by
    intro n1 pm
    cases h1 : o.iri with
    | none =>
      cases h2 : o.version with
      | none => exact ⟨_, rfl⟩
      | some v => exact absurd h1 (hv (by rw [h2]; nofun))
    | some i => cases o.version <;> exact ⟨_, rfl⟩
  have hps : (ps.map fun p => Item.prefixDecl p.1 p.2) = (asFwd ps).map fun e => Item.prefixDecl e.1.txt e.2 := by
    simp [asFwd, Function.comp_def]
  obtain ⟨n2, e2⟩ := hid (n + (asFwd ps).length) (overlay n (asFwd ps) pm)
  have e : give ontoHandler (⟨pm, none, none, Onto.empty⟩, n)
        ((ps.map fun p => Item.prefixDecl p.1 p.2) ++ idItems o.iri o.version ++ is.map Item.import ++ as.map Item.annot ++
          X.map Item.ax) = (⟨overlay n (asFwd ps) pm, o.iri, o.version,
            loaded (number n2 ((o.onto.imports.getD []).map Ref.obj))
              (number (n2 + is.length) ((o.onto.annot.getD []).map Ref.obj))
              (number (n2 + is.length + ((o.onto.annot.getD []).map Ref.obj).length) X)⟩,
          n2 + is.length + ((o.onto.annot.getD []).map Ref.obj).length + X.length) := by
    rw [give_append, give_append, give_append, give_append, hps, give_prefixes, e2, give_imports, give_annots, give_axioms,
      ← hi, ← ha]
    rfl
  refine ⟨_, _, e, rfl, rfl, rfl, ?_⟩
  generalize hI : number n2 ((o.onto.imports.getD []).map Ref.obj) = I
  generalize hA : number (n2 + is.length) ((o.onto.annot.getD []).map Ref.obj) = A
  generalize hX' : number (n2 + is.length + ((o.onto.annot.getD []).map Ref.obj).length) X = X'
  have oI : I.map Ref.obj = (o.onto.imports.getD []).map Ref.obj := by rw [← hI, number_obj]
  have oA : A.map Ref.obj = (o.onto.annot.getD []).map Ref.obj := by rw [← hA, number_obj]
  have oX : X'.map Ref.obj = X := by rw [← hX', number_obj]
  have hwa : ∀ y ∈ A, ObjSpec.WellFormed y.obj := by
      intro y hy
      have : y.obj ∈ A.map Ref.obj := List.mem_map_of_mem hy
      rw [oA, hinv.annot] at this
      obtain ⟨z, hz, ez⟩ := List.mem_map.1 this
      rw [← ez]; exact annots_wf hs z hz
  have hwx : ∀ y ∈ X', OntoSpec.IsAxiom y.obj := by
      intro y hy
      have : y.obj ∈ X'.map Ref.obj := List.mem_map_of_mem hy
      rw [oX, hp.mem_iff] at this
      obtain ⟨z, hz, ez⟩ := List.mem_map.1 this
      rw [← ez]; exact hinv.axioms z hz
  have hwn : ∀ y ∈ X', ∀ z ∈ X', y.addr = z.addr → y = z := by rw [← hX']; exact number_inj _ _
  have hr : OntoSpec.Reaches (loaded I A X') ⟨X', A, I⟩ := loaded_reaches hwa hwx hwn
  have hri := reaches_inv hr
  refine ⟨?_, ?_, ?_, _, hr, ?_, fun p hp => loaded_prims hwa hwx hwn hp⟩
  · rw [← hinv.imports, ← oI]
    exact congrArg (List.map Ref.obj) hri.imports
  · rw [← hinv.annot, ← oA]
    exact congrArg (List.map Ref.obj) hri.annot
  · intro t
    rw [← hX t, ← oX, ← filter_obj]
    show (((loaded I A X').byType t).getD []).map Ref.obj = _
    rw [loaded_byType]
  · rw [oX]; exact hp

theorem axioms_filter {o : Onto} {s : OntoSpec.Abs} (hs : OntoSpec.Reaches o s) (t : Nat) :
    ((axiomsOf o).map Ref.obj).filter (fun x => axType x = t) = ((o.byType t).getD []).map Ref.obj := by
  have := rebuilt_byType (reaches_inv hs) [] [] t
  rw [built_byType] at this
  rw [← this, filter_obj]

end Cowl.Prt
