import Verif.WireGetProps
import Verif.PrtCutProps
import Verif.PrtSessionProps
/-!
# C128: what the ProtocOWL writers write says what they were given

With C35, C36 and C54, by C126 and C127. The meaning of the bytes is that of
`WireReadSpec.lean`, which knows neither the writers nor the reader.
-/
namespace Cowl
open Prt Ast Wire Change

theorem feed_note {ι : Type} : ∀ (xs ys : List ι), feed noteAll ys xs = (ys ++ xs, .ok)
  | [], ys => by simp [feed, feedFrom]
  | x :: xs, ys => by
    have h := feed_note xs (ys ++ [x])
    unfold feed at h ⊢
    rw [feedFrom]
    simpa [noteAll, Ret.isErr] using h

section
variable {E : Env} (hu : E.u.Lawful)
include hu

/-- The whole of C128 for whole ontologies: the bytes that are written with the result OK say
the ontology, and nothing else. IRIs are put together by `mk`. -/
def WrittenSays (E : Env) (mk : Str → Str → Iri) : Prop :=
  ∀ (o : OntoSt) (s : OntoSpec.Abs) (order : List Prim → List Prim) (b : Str) (cap : Nat), OntoSpec.Reaches o.onto s →
    (∀ ps, (order ps).Perm ps) → writeOntology E.u true order o cap = (b, .ok) →
    ∃ fs, DocSays E.u.readVarint E.u.readSvarint E.gen mk b fs ∧
      (∀ gs, DocSays E.u.readVarint E.u.readSvarint E.gen mk b gs → gs = fs) ∧ (∀ f ∈ fs, f.1 = false) ∧
      PrtTells o (fs.map fun f => f.2.item)

theorem only {b : Str} {fs : List (Bool × Entry)} (h : DocSays E.u.readVarint E.u.readSvarint E.gen mkIri b fs) :
    ∀ gs, DocSays E.u.readVarint E.u.readSvarint E.gen mkIri b gs → gs = fs := fun _ h' =>
  same_entries ((congrArg Prod.fst ((go_doc hu h').symm.trans (go_doc hu h))))

theorem says_items {b : Str} {items : List Func.Item} (h : prtChanges E b = (items.map fun i => (false, i), .done)) :
    ∃ fs, DocSays E.u.readVarint E.u.readSvarint E.gen mkIri b fs ∧
      (∀ gs, DocSays E.u.readVarint E.u.readSvarint E.gen mkIri b gs → gs = fs) ∧ (∀ f ∈ fs, f.1 = false) ∧
      fs.map (fun f => f.2.item) = items := by
  obtain ⟨fs, h1, h2⟩ := run_doc hu h
  refine ⟨fs, h1, only hu h1, fun f hf => ?_, ?_⟩
  · have : (f.1, f.2.item) ∈ items.map fun i => (false, i) := h2 ▸ List.mem_map.2 ⟨f, hf, rfl⟩
    obtain ⟨i, -, e⟩ := List.mem_map.1 this
    injection e with e _
    exact e.symm
  · have e := congrArg (List.map Prod.snd) h2
    simp only [List.map_map] at e
    exact e.symm.trans (List.map_id'' (fun _ => rfl) _)

/-- C128 for whole ontologies under the conditions of C35. Missing: the other ontologies,
see `C128_fails`. -/
theorem C128_partial : ∃ mk : Str → Str → Iri, (∀ n r, (mk n r).ns ++ (mk n r).rem = n ++ r) ∧
    ∀ {names : List Id} {o : OntoSt} {s : OntoSpec.Abs} {order : List Prim → List Prim}, OntoSpec.Reaches o.onto s →
      PrtDocOk E.u names o → (∀ ps, (order ps).Perm ps) →
      ∃ b fs, (∀ cap, b.length ≤ cap → writeOntology E.u true order o cap = (b, .ok)) ∧
        DocSays E.u.readVarint E.u.readSvarint E.gen mk b fs ∧
        (∀ gs, DocSays E.u.readVarint E.u.readSvarint E.gen mk b gs → gs = fs) ∧ (∀ f ∈ fs, f.1 = false) ∧
        PrtTells o (fs.map fun f => f.2.item) := by
  refine ⟨mkIri, C03_lossless, fun hs ho hord => ?_⟩
  obtain ⟨b, items, h1, h2, h3⟩ := written hu hs ho hord
  obtain ⟨fs, h4, h5, h6, h7⟩ := says_items hu (b := b) (items := items) (by
    refine (h3 noteAll (fun _ _ => rfl) []).trans ?_
    rw [give_noteAll items (fun i => (false, i)) []]
    rfl)
  exact ⟨b, fs, h1, h4, h5, h6, h7 ▸ tells_of_writes h2⟩

/-- C128 for documents written piece by piece, with any bound on the index, under the
conditions of C36. -/
theorem C128_stream_partial : ∃ mk : Str → Str → Iri, (∀ n r, (mk n r).ns ++ (mk n r).rem = n ++ r) ∧
    ∀ {names : List Id} {h : Prt.Header} {axioms : List Ref}, PrtStreamOk E.u names h axioms → ∀ (size : Nat),
      ∃ b fs, writeStream E.u true size h axioms = some b ∧ DocSays E.u.readVarint E.u.readSvarint E.gen mk b fs ∧
        (∀ gs, DocSays E.u.readVarint E.u.readSvarint E.gen mk b gs → gs = fs) ∧ (∀ f ∈ fs, f.1 = false) ∧
        PrtStreamTells h axioms (fs.map fun f => f.2.item) := by
  refine ⟨mkIri, C03_lossless, fun ho size => ?_⟩
  obtain ⟨b, items, h1, h2, h3⟩ := C36_events hu ho size
  obtain ⟨fs, h4, h5, h6, h7⟩ := says_items hu (b := b) (items := items) (by
    refine (h3 noteAll (fun _ _ => rfl) []).trans ?_
    rw [give_noteAll items (fun i => (false, i)) []]
    rfl)
  exact ⟨b, fs, h1, h4, h5, h6, h7 ▸ h2⟩

/-- C128 for streams of updates: the bytes say which axioms are added and removed. -/
theorem C128_session_partial : ∃ mk : Str → Str → Iri, (∀ n r, (mk n r).ns ++ (mk n r).rem = n ++ r) ∧
    ∀ {names : List Id} {h : Prt.Header} {ops : List SOp}, PrtStreamOk E.u names h (axiomsWritten ops) → ∀ (size : Nat),
      ∃ b fs, writeSession E.u true size h ops = some b ∧ DocSays E.u.readVarint E.u.readSvarint E.gen mk b fs ∧
        (∀ gs, DocSays E.u.readVarint E.u.readSvarint E.gen mk b gs → gs = fs) ∧
        PrtSessionTells h ops (fs.map fun f => (f.1, f.2.item)) := by
  refine ⟨mkIri, C03_lossless, fun ho size => ?_⟩
  obtain ⟨b, items, h1, h2, h3⟩ := C54_events hu ho size
  have e : prtChanges E b = (items, .done) := by
    obtain ⟨h4, h5⟩ := h3 noteAll []
    rw [feed_note, List.nil_append] at h4 h5
    refine Prod.ext h4 ?_
    rcases h5 with h5 | ⟨h5, -⟩
    · exact h5
    · cases h5
  obtain ⟨fs, h4, h5⟩ := run_doc hu e
  exact ⟨b, fs, h1, h4, only hu h4, h5 ▸ h2⟩

end

/-! ## Non-vacuity -/

example : lebEnv.u.Lawful ∧ OntoSpec.Reaches prtOnto.onto
      ⟨[⟨3, prtAxiom.toObj⟩], [⟨2, exAnnot.toObj⟩], [⟨1, .prim (.iri (exIri "i"))⟩]⟩ ∧
    PrtDocOk lebEnv.u prtOntoNames prtOnto ∧ (∀ ps : List Prim, ps.reverse.Perm ps) ∧
    PrtStreamOk lebEnv.u prtOntoNames (headerOf prtOnto) (Func.collectAxioms prtOnto.onto) ∧
    PrtStreamOk lebEnv.u prtOntoNames (headerOf prtOnto) (axiomsWritten sessionOps) :=
  ⟨leb_lawful, prtOnto_reaches, prtOnto_ok, fun ps => List.reverse_perm ps, headerOf_ok prtOnto_reaches prtOnto_ok, sessionOps_ok⟩

/-! ## Failure -/

/-- Items that give a version. -/
def isVersion : Func.Item → Bool
  | .version _ => true
  | _ => false

/-- A version without an ontology IRI is not written, and the result is OK. -/
theorem C128_fails : ¬ WrittenSays lebEnv mkIri := by
  intro h
  have run : (writeOntology leb true id versionOnly 1000).2 = .ok := by decide +kernel
  obtain ⟨fs, h1, -, -, ps, is, -, -, -, -, e⟩ := h versionOnly OntoSpec.Abs.empty id (writeOntology leb true id versionOnly 1000).1 1000
    ⟨[], trivial, rfl, rfl⟩ (fun _ => .refl _) (Prod.ext rfl run)
  have h2 := congrArg (fun p => p.1.map Prod.snd) (go_doc leb_lawful h1)
  have h3 : ((prtChanges lebEnv (writeOntology leb true id versionOnly 1000).1).1.map Prod.snd).any isVersion = false := by
    decide +kernel
  rw [show (prtChanges lebEnv (writeOntology leb true id versionOnly 1000).1).1.map Prod.snd = fs.map fun f => f.2.item from
    h2.trans (by rw [List.map_map]; rfl), e] at h3
  simp [versionOnly, isVersion] at h3

end Cowl
