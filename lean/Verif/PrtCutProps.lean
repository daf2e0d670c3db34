import Verif.PrtCutLemmas
import Verif.PrtAnonProps
/-!
# C56: ProtocOWL documents that were cut short
-/
namespace Cowl.Prt
open Func FuncSpec Ast Change Prefix

theorem lebDec_local : ∀ {k s n r} (q : Str), lebDec k s = some (n, r) → lebDec k (s ++ q) = some (n, r ++ q)
  | 0, s, n, r, q, h => by simp [lebDec] at h
  | k + 1, [], n, r, q, h => by simp [lebDec] at h
  | k + 1, c :: s, n, r, q, h => by
    rw [lebDec] at h
    rw [List.cons_append, lebDec]
    split at h
    · rename_i hc
      cases h
      rw [if_pos hc]
    · rename_i hc
      rw [if_neg hc]
      cases e : lebDec k s with
      | none => rw [e] at h; cases h
      | some p =>
        rw [e] at h
        cases h
        rw [lebDec_local q e]
        rfl

theorem leb_local : leb.Local where
  varint q h := by
    simp only [leb, Option.map_eq_some_iff] at h ⊢
    obtain ⟨p, h1, h2⟩ := h
    cases h2
    exact ⟨_, lebDec_local q h1, rfl⟩
  svarint q h := by
    simp only [leb, Option.map_eq_some_iff] at h ⊢
    obtain ⟨p, h1, h2⟩ := h
    cases h2
    exact ⟨_, lebDec_local q h1, rfl⟩

theorem give_noteAll {ι : Type} : ∀ (is : List Item) (f : Item → ι) (l : List ι),
    give (fun s i => noteAll s (f i)) l is = l ++ is.map f
  | [], _, l => by simp [give]
  | i :: is, f, l => by
    unfold give
    rw [List.foldl_cons]
    refine (give_noteAll is f _).trans ?_
    simp [noteAll]

end Cowl.Prt

namespace Cowl
open Prt Func FuncSpec Ast Change Prefix

/-- C56, the part that holds: what is told of the beginning of an input is the beginning of
what is told of all of it. The program may tell one sub-property axiom more, before an
error. Missing: that there is an error, see `C56_fails`. -/
theorem C56_partial {E : Env} (hu : E.u.Lawful) (hl : E.u.Local) (p q : Str) :
    Begins E (prtChanges E p) (prtChanges E (p ++ q)).1 := by
  unfold prtChanges prtRead
  cases p with
  | nil => exact .inl (List.nil_prefix ..)
  | cons c r =>
    dsimp only [List.cons_append]
    split
    · exact frames_begin hl hu q _ _ ⟨[], ⟨r, {}, 0⟩, false, .ok⟩ (Nat.lt_succ_self _) (Nat.lt_succ_self _)
    · exact .inl (List.prefix_refl _)

/-- C56 for the documents that the writer makes. -/
theorem C56_written {E : Env} (hu : E.u.Lawful) (hl : E.u.Local) {names : List Id} {o : OntoSt} {s : OntoSpec.Abs}
    (hs : OntoSpec.Reaches o.onto s) (ho : PrtDocOk E.u names o) {order : List Prim → List Prim}
    (hord : ∀ ps, (order ps).Perm ps) :
    ∃ b items, (∀ cap, b.length ≤ cap → writeOntology E.u true order o cap = (b, .ok)) ∧ PrtTells o items ∧
      ∀ n, Begins E (prtChanges E (b.take n)) (items.map fun i => (false, i)) := by
  obtain ⟨b, items, h1, h2, h3⟩ := written hu hs ho hord
  refine ⟨b, items, h1, tells_of_writes h2, fun n => ?_⟩
  have := C56_partial hu hl (b.take n) (b.drop n)
  rw [List.take_append_drop] at this
  have e : prtChanges E b = (items.map (fun i => (false, i)), .done) := by
    refine (h3 noteAll (fun _ _ => rfl) []).trans ?_
    rw [give_noteAll items (fun i => (false, i)) []]
    rfl
  rwa [e] at this

/-- The assumptions on ulib can be met. -/
example : leb.Lawful ∧ leb.Local := ⟨leb_lawful, leb_local⟩

/-- A declaration and the axiom `noted`. -/
def declNoted : OntoSt :=
  ⟨create [1, 2, 3, 4] [], none, none, (Onto.empty.addAxiom ⟨1, declA⟩).addAxiom ⟨2, noted.toObj⟩⟩

/-- The document of an ontology. -/
def docOf (o : OntoSt) : Str := (writeOntology leb true id o 1000000).1

/-- How reading a beginning of the document ends, and how many changes it tells. -/
def cutBack (o : OntoSt) (n : Nat) : End × Nat :=
  let r := prtChanges lebEnv ((docOf o).take n)
  (r.2, r.1.length)

/-- C56 is false as stated: no end frame is written, nor asked for.
* Cut after the first of two axioms, the document is read without an error and tells the
  first axiom.
* Cut after the header of the second axiom, the result is undefined behaviour.
* Cut within the annotations of the second axiom, the handler is told an axiom that is not
  in the ontology before the error. -/
theorem C56_fails :
    (docOf declNoted).length = 53 ∧ cutBack declNoted 53 = (.done, 2) ∧ cutBack declNoted 45 = (.done, 1) ∧
    cutBack declNoted 46 = (.ub, 1) ∧ cutBack declNoted 48 = (.rejected, 2) ∧
    (prtChanges lebEnv ((docOf declNoted).take 48)).1.map (fun c => match c.2 with
      | .ax (.comp t _ fs _) => some (t, fs.length)
      | _ => none) = [some (.aDecl, 1), some (.aSubObjProp, 2)] ∧
    (prtChanges lebEnv (docOf declNoted)).1.map (fun c => match c.2 with
      | .ax (.comp t _ fs _) => some (t, fs.length)
      | _ => none) = [some (.aDecl, 1), some (.aSubObjProp, 3)] := by
  refine ⟨?_, ?_, ?_, ?_, ?_, ?_, ?_⟩ <;> decide +kernel

end Cowl
