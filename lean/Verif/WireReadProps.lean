import Verif.WireDocLemmas
import Verif.WireProps
import Verif.XmlProps
/-!
# C126: what the reader of ProtocOWL accepts is what the bytes say
-/
namespace Cowl
open Prt Ast Wire

section
variable {E : Env} (hu : E.u.Lawful)
include hu

/-- The whole of C126 for axioms: an axiom that is handed over is said by the bytes that
were read. -/
def SaidAxioms (E : Env) : Prop := ∀ (n : Nat) (c : UInt8) (s s' : DSt) (o : Obj) (b : Bool), 9 ≤ c.toNat % 64 →
  decAxiom E n c s = .ok (o, b) s' → ∃ (a : Axiom) (cs : List Act), o = a.toObj ∧ axSays a c cs ∧
    Does E.u.readVarint E.u.readSvarint E.gen cs (src s) (src s')

/-- C126 for axioms that are read without an error. Missing: axioms that are handed over
together with an error, see `C126_fails`. -/
theorem C126_partial {n : Nat} {c : UInt8} {s s' : DSt} {o : Obj} (hc : 9 ≤ c.toNat % 64)
    (h : decAxiom E n c s = .ok (o, true) s') : ∃ (a : Axiom) (cs : List Act), o = a.toObj ∧ axSays a c cs ∧
      Does E.u.readVarint E.u.readSvarint E.gen cs (src s) (src s') := by
  obtain ⟨-, cs, h1, h2⟩ := takes_decAxiom hu n c hc _ _ _ h
  obtain ⟨a, h3, h4⟩ := h1 rfl
  exact ⟨a, cs, h3, h4, h2⟩

/-- C126 for class expressions. -/
theorem C126_class {n : Nat} {s s' : DSt} {o : Obj} (h : decCE E n s = .ok o s') :
    ∃ (x : CE) (cs : List Act), o = x.toObj ∧ ceSays x cs ∧ Does E.u.readVarint E.u.readSvarint E.gen cs (src s) (src s') := by
  obtain ⟨-, cs, ⟨x, h1, h2⟩, h3⟩ := takes_decCE hu n _ _ _ h
  exact ⟨x, cs, h1, h2, h3⟩

/-- C126 for data ranges. -/
theorem C126_range {n : Nat} {s s' : DSt} {o : Obj} (h : decDR E n s = .ok o s') :
    ∃ (x : DR) (cs : List Act), o = x.toObj ∧ drSays x cs ∧ Does E.u.readVarint E.u.readSvarint E.gen cs (src s) (src s') := by
  obtain ⟨-, cs, ⟨x, h1, h2⟩, h3⟩ := takes_decDR hu n _ _ _ h
  exact ⟨x, cs, h1, h2, h3⟩

/-- C126 for annotations. -/
theorem C126_annotation {n : Nat} {s s' : DSt} {o : Obj} (h : decAnnot E n s = .ok o s') :
    ∃ (x : Annot) (cs : List Act), o = x.toObj ∧ annotSays x cs ∧ Does E.u.readVarint E.u.readSvarint E.gen cs (src s) (src s') := by
  obtain ⟨-, cs, ⟨x, h1, h2⟩, h3⟩ := takes_decAnnot hu n _ _ _ h
  exact ⟨x, cs, h1, h2, h3⟩

/-- C126 for documents: if reading ends well, the document says the entries that the
handler was given, in this order, as additions or removals. -/
theorem C126_document {b : Str} {x : List (Bool × Func.Item)} (h : prtChanges E b = (x, .done)) :
    ∃ mk : Str → Str → Iri, (∀ n r, (mk n r).ns ++ (mk n r).rem = n ++ r) ∧
      ∃ fs, DocSays E.u.readVarint E.u.readSvarint E.gen mk b fs ∧ x = fs.map fun f => (f.1, f.2.item) :=
  ⟨mkIri, C03_lossless, run_doc hu h⟩

end

/-- The function leaves no error behind. -/
def NoError (x : Dec (Obj × Bool)) : Prop := ∀ s o s', x s = .ok o s' → o.2 = true

theorem noError_noLate (x : Dec Obj) : NoError (noLate x) := by
  intro s o s' h
  obtain ⟨a, m, -, h2⟩ := bind_ok h
  cases h2; rfl

theorem noError_checked {E : Env} (hk : E.checked = true) (n : Nat) (c : UInt8) : NoError (decAxiom E n c) := by
  unfold decAxiom
  dsimp only
  split
  · exact noError_noLate _
  · split
    · intro s o s' h
      unfold decSubObjProp at h
      simp only [hk, if_true] at h
      split at h
      · cases h
      · cases h
      · split at h <;> cases h
        rfl
    · split
      · exact noError_noLate _
      · nofun
    · nofun

/-- With the checks that the program lacks, all of C126 holds. -/
theorem C126_checked {E : Env} (hu : E.u.Lawful) (hk : E.checked = true) : SaidAxioms E := by
  intro n c s s' o b hc h
  have hb : b = true := noError_checked hk n c _ _ _ h
  subst hb
  exact C126_partial hu hc h

/-! ## Non-vacuity -/

/-- Two IRIs, a declaration, a class axiom with annotations, then the removal of an axiom
on a union; numbers need not be as short as possible, and the announced annotations may be
missing. -/
def saidDoc : Str :=
  [1, 69, 2, 3, 5, 84, 104, 105, 110, 103, 0x80, 0, 1, 97, 9, 1, 79, 18, 17, 0, 1, 15 + 64, 1, 2, 17, 18, 2, 17, 0, 3]

example : lebEnv.u.Lawful ∧ lebEnv.checked = false ∧
    (∃ o s', decAxiom lebEnv 9 (79 : UInt8) ⟨[18, 17, 0], ⟨[], [.iri owlThing, .iri ⟨[], [97]⟩]⟩, 0⟩ = .ok (o, true) s') ∧
    (∃ o s', decCE lebEnv 9 ⟨[1, 2, 17, 18], ⟨[], [.iri owlThing, .iri ⟨[], [97]⟩]⟩, 0⟩ = .ok o s') ∧
    (∃ o s', decDR lebEnv 9 ⟨[3, 1, 0, 1, 97], {}, 0⟩ = .ok o s') ∧
    (∃ o s', decAnnot lebEnv 9 ⟨[2, 1], ⟨[], [.iri owlThing, .iri ⟨[], [97]⟩]⟩, 0⟩ = .ok o s') :=
  ⟨leb_lawful, rfl, ⟨_, _, rfl⟩, ⟨_, _, rfl⟩, ⟨_, _, rfl⟩, ⟨_, _, rfl⟩⟩

example : ({ lebEnv with checked := true } : Env).u.Lawful ∧ ({ lebEnv with checked := true } : Env).checked = true :=
  ⟨leb_lawful, rfl⟩

example : (prtChanges lebEnv saidDoc).2 = .done ∧ (prtChanges lebEnv saidDoc).1.map Prod.fst = [false, false, true] := by
  decide +kernel

/-! ## Failure -/

/-- How many numbers are read. -/
def nums : List Act → Nat
  | [] => 0
  | .num _ :: cs => nums cs + 1
  | _ :: cs => nums cs

theorem nums_append (a b : List Act) : nums (a ++ b) = nums a + nums b := by
  induction a with
  | nil => simp [nums]
  | cons c cs ih => cases c <;> simp [nums, ih] <;> omega

/-- Every number takes a byte. -/
theorem nums_le {E : Env} (hu : E.u.Lawful) : ∀ {cs : List Act} {s t : Src},
    Does E.u.readVarint E.u.readSvarint E.gen cs s t → nums cs + t.inp.length ≤ s.inp.length
  | [], s, t, h => by cases h; simp [nums]
  | c :: cs, s, t, ⟨m, h1, h2⟩ => by
    have ih := nums_le hu h2
    cases c with
    | num n =>
      obtain ⟨r, e, rfl⟩ := h1
      have := (hu.varint_lt e).2
      simp only [nums] at *; omega
    | int v =>
      obtain ⟨r, e, rfl⟩ := h1
      have := hu.svarint_lt e
      simp only [nums] at *; omega
    | byte b =>
      obtain ⟨r, e, rfl⟩ := h1
      rw [e]
      simp only [nums, List.length_cons] at *; omega
    | raw x =>
      obtain ⟨r, e, rfl⟩ := h1
      rw [e]
      simp only [nums, List.length_append] at *; omega
    | look k i =>
      rcases h1 with ⟨-, rfl⟩ | ⟨-, -, rfl⟩ <;> simp only [nums] at * <;> exact ih

theorem ope_nums {p : Ope} {cs : List Act} (h : opeSays p cs) : 1 ≤ nums cs := by
  cases p with
  | prop i => obtain ⟨k, rfl⟩ := h; simp [nums]
  | inv i => obtain ⟨a, b, rfl, rfl, k, rfl⟩ := h; simp [nums]

/-- The program hands over the axiom without its annotations. -/
theorem C126_fails : ¬ SaidAxioms lebEnv := by
  intro h
  have run : ∃ o, decAxiom lebEnv 9 (83 : UInt8) ⟨[1, 1], ⟨[], [.iri ⟨[], [97]⟩]⟩, 0⟩ =
      .ok (o, false) ⟨[], ⟨[], [.iri ⟨[], [97]⟩]⟩, 0⟩ := ⟨_, rfl⟩
  obtain ⟨o, run⟩ := run
  obtain ⟨a, cs, -, h1, h2⟩ := h 9 83 _ _ _ _ (by decide) run
  have h3 := nums_le leb_lawful h2
  obtain ⟨h4, h5, h6⟩ := h1
  rw [if_pos (by decide)] at h6
  obtain ⟨b, d, rfl, h7, e, f, rfl, rfl, h8⟩ := h6
  rw [nums_append] at h3
  simp only [src, List.length_cons, List.length_nil, List.cons_append, List.nil_append, nums] at h3
  have hb : 2 ≤ nums b := by
    obtain ⟨x, as⟩ := a
    cases x with
    | subObjProp p q =>
      cases p with
      | ope p =>
        obtain ⟨b1, b2, rfl, h9, h10⟩ := h7
        have := ope_nums h9
        have := ope_nums h10
        rw [nums_append]; omega
      | chain ps =>
        obtain ⟨b1, b2, rfl, ⟨b3, b4, rfl, rfl, h9⟩, h10⟩ := h7
        have := ope_nums h10
        simp only [nums_append, nums]; omega
    | decl k i => cases k <;> simp [head] at h4
    | objPropChar k i => cases k <;> simp [head] at h4
    | _ => simp [head] at h4
  omega

end Cowl
