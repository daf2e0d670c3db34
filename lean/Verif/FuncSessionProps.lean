import Verif.FuncSessionLemmas
import Verif.FuncDocProps
/-! # C58: documents that are streamed in functional syntax -/
namespace Cowl
open Prefix PrefixSpec Func FuncSpec Change Ast FSess

/-- C58 for memory: as long as the caller keeps the rules (`Allowed`), nothing that the writer
does is undefined. It holds one reference to the map of the last header, and none after it is
freed. -/
theorem C58_memory {ops : List Op} (hc : Calm St.init (fun _ => 0) ops) :
    ∃ s w, St.init.run ops = some s ∧ Counted s (Own.afterAll (fun _ => 0) ops) ∧
      s.close = some w ∧ Counted ⟨w, none, s.out⟩ (Own.afterAll (fun _ => 0) ops) := by
  obtain ⟨s, e, h⟩ := run_spec ops counted_init hc
  obtain ⟨w, e1, e2, e3, -⟩ := releaseMap_spec h
  exact ⟨s, w, e, h, e1, counted_iff.2 ⟨e2, fun a => by show w.count a = _; rw [e3]; rfl⟩⟩

/-- C58 under the conditions of `Allowed`, `Within` and `StreamOk`: whatever the writer did
before, what it writes for a header, axioms and the footer is a document, and reading it calls
the handler on the contents of the header as they were when it was written, and on the
axioms, in order. -/
theorem C58_partial {hist mid : List Op} {h : FSess.Header}
    (hc : Calm St.init (fun _ => 0) (hist ++ .header h :: (mid ++ [.footer]))) (hw : ∀ op ∈ mid, Within h.pm op) :
    ∃ s1 s2 m txt, St.init.run hist = some s1 ∧ s1.mem.contents h.pm = some m ∧
      St.init.run (hist ++ .header h :: (mid ++ [.footer])) = some s2 ∧ s2.out = s1.out ++ txt ∧
      ∀ (_ : StreamOk m h (axioms mid)) {ks : List Nat} (_ : ks.length = 4) {dflt : Fwd} (_ : Distinct dflt)
        (_ : ∀ w, m = some w → Compatible w dflt) (addr : Nat),
        ∃ items, StreamTells m h (axioms mid) items ∧ ∀ {σ : Type} (k : Callback σ Item), Accepts k → ∀ s,
          funcRead k (create ks dflt) addr txt s = (give k s items, .ok) := by
  have hpre : ∀ {ops ops' : List Op} {s : St} {n : Own}, Calm s n (ops ++ ops') → Calm s n ops := by
    intro ops
    induction ops with
    | nil => exact fun _ => trivial
    | cons op ops ih => exact fun h => ⟨h.1, fun s' e => ih (h.2 s' e)⟩
  obtain ⟨s1, e1, h1⟩ := run_spec hist counted_init (hpre hc)
  have hc1 := calm_append hc e1
  obtain ⟨s2, m, g1, g2, g3, g4, g5, g6⟩ := header_spec h1 hc1.1
  have hc2 := hc1.2 s2 g2
  obtain ⟨s3, k1, k2, k3, k4⟩ := within_spec mid g6 (hpre hc2) (by rw [g3]; exact g4) (by rw [g3]; exact hw)
  refine ⟨s1, { s3 with out := s3.out ++ [41, 10] }, m, streamText m h (axioms mid), e1, g1, ?_, ?_, ?_⟩
  · rw [FSess.run_append, e1]
    show (s1.header h).bind _ = _
    rw [g2]
    show s2.run (mid ++ _) = _
    rw [FSess.run_append, k1]
    rfl
  · show s3.out ++ _ = _
    rw [k4, g5, streamText]
    simp only [List.append_assoc]
  · intro ho ks hk dflt hd hcomp addr
    exact read_stream ho hk hd hcomp addr

/-! ## Counterexamples -/

/-- A map with the prefix `ex`. -/
def exMap : PMap := (freshMap.add (pfx 10 "ex") exNs1 false).1

/-- A header with this map and nothing else. -/
def bare (pm : Option Nat) : FSess.Header := ⟨pm, none, none, [], []⟩

/-- What was written, and how a reader with no other prefixes takes it. -/
def streamed (skip : List Op) (ops : List Op) : Option Outcome :=
  (St.init.run skip).bind fun s => (St.init.run (skip ++ ops)).map fun s' => (readNew [] (s'.out.drop s.out.length)).2

/-- C58 is false as stated.
1. A header without a map, after one with a map: the map is released, but used for the axioms
   that follow. If the caller has released it too, this is undefined behaviour.
2. If the caller still owns it, the second document has names with a prefix that is not
   declared, and is rejected.
3. It is released again with the writer: the caller holds a reference to memory that is free.
4. If the map gets a prefix after the header was written, the document is rejected. -/
theorem C58_fails :
    (St.init.run [.new 1 exMap, .header (bare (some 1)), .footer, .header (bare none), .drop 1, .ax ⟨1, declA⟩]).isNone = true ∧
    streamed [.new 1 exMap, .header (bare (some 1)), .footer] [.header (bare none), .ax ⟨1, declA⟩, .footer] = some .rejected ∧
    ((St.init.run [.new 1 exMap, .header (bare (some 1)), .footer, .header (bare none), .footer]).bind fun s =>
      s.close.map fun w => (w 1).isNone) = some true ∧
    streamed [.new 1 freshMap] [.header (bare (some 1)), .set 1 exMap, .ax ⟨1, declA⟩, .footer] = some .rejected := by
  refine ⟨?_, ?_, ?_, ?_⟩ <;> decide +kernel

/-! ## Examples -/

/-- Two documents with one writer; the caller releases the first map early. -/
def twoDocs : List Op :=
  [.new 1 freshMap, .header (bare (some 1)), .drop 1, .footer, .new 2 busyMap]

/-- The header of the second one. -/
def secondHeader : FSess.Header :=
  ⟨some 2, docOnto.iri, docOnto.version, [⟨1, .prim (.iri (exIri "i"))⟩], [⟨2, exAnnot.toObj⟩]⟩

/-- `Allowed` as a check. -/
def allowedB (s : St) (n : Own) : Op → Bool
  | .new a _ => (s.mem a).isNone
  | .set a _ => decide (0 < n a)
  | .keep a => decide (0 < n a)
  | .drop a => decide (0 < n a)
  | .header h => (match h.pm with | none => s.pm.isNone | some a => decide (0 < n a)) && h.annots.all fun x => writeDefined x.obj
  | .ax x => writeDefined x.obj
  | .footer => true

/-- `Calm` as a check. -/
def calmB : St → Own → List Op → Bool
  | _, _, [] => true
  | s, n, op :: ops => allowedB s n op && match s.op op with | none => true | some s' => calmB s' (n.after op) ops

theorem allowed_of {s : St} {n : Own} {op : Op} (h : allowedB s n op = true) : Allowed s n op := by
  cases op with
  | new a m => exact Option.isNone_iff_eq_none.1 h
  | header hd =>
    obtain ⟨h1, h2⟩ := Bool.and_eq_true_iff.1 h
    refine ⟨?_, List.all_eq_true.1 h2⟩
    cases e : hd.pm with
    | none => rw [e] at h1; exact Option.isNone_iff_eq_none.1 h1
    | some a => rw [e] at h1; exact of_decide_eq_true h1
  | ax x => exact h
  | footer => trivial
  | set a m => exact of_decide_eq_true (p := 0 < n a) h
  | keep a => exact of_decide_eq_true (p := 0 < n a) h
  | drop a => exact of_decide_eq_true (p := 0 < n a) h

theorem calm_of : ∀ {ops : List Op} {s : St} {n : Own}, calmB s n ops = true → Calm s n ops
  | [], _, _, _ => trivial
  | op :: ops, s, n, h => by
    obtain ⟨h1, h2⟩ := Bool.and_eq_true_iff.1 h
    refine ⟨allowed_of h1, fun s' e => calm_of ?_⟩
    rw [e] at h2
    exact h2

/-- The conditions of `C58_memory` and `C58_partial` hold for the second document. -/
example : Calm St.init (fun _ => 0) (twoDocs ++ .header secondHeader :: ([.ax ⟨3, exAxiom.toObj⟩] ++ [.footer])) ∧
    (∀ op ∈ [Op.ax ⟨3, exAxiom.toObj⟩], Within secondHeader.pm op) ∧
    ((St.init.run twoDocs).bind fun s => s.mem.contents secondHeader.pm) = some (some busyMap) ∧
    StreamOk (some busyMap) secondHeader (axioms [.ax ⟨3, exAxiom.toObj⟩]) := by
  refine ⟨calm_of (by decide +kernel), ?_, by decide +kernel, ?_⟩
  · intro op hop; rw [List.mem_singleton.1 hop]; trivial
  · have hd := docOnto_ok
    have hi := reaches_inv docOnto_reaches
    refine ⟨?_, ?_, ?_, ?_, hd.iri, hd.version, ?_, ?_, ?_⟩
    · intro w h; cases h; exact hd.history
    · intro w h; cases h; exact hd.sound
    · intro w h; cases h; exact hd.plain
    · intro w h; cases h; exact hd.chars
    · intro x hx; exact hd.imports x (by rw [hi.imports]; exact hx)
    · intro x hx; exact hd.annots x (by rw [hi.annot]; exact hx)
    · intro x hx; exact hd.axioms x ((axiomsOf_perm hi).mem_iff.2 hx)

end Cowl
