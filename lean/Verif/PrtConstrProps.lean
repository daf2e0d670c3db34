import Verif.PrtNameLemmas
import Verif.IterLemmas
/-!
# C32: constructs in ProtocOWL
-/
namespace Cowl
open Prt Ast IterSpec

/-- What ProtocOWL asks of the contents of a construct: its literals survive (C34), lengths
are 32-bit numbers and cardinalities 31-bit numbers. -/
def prtContents (u : Ulib) : Req where
  iri _ := True
  anon _ := True
  lit l := LitSafe u l.value l.tag ∧ l.value.length < 4294967296 ∧ ∀ s, l.tag = .lang s → s.length < 4294967296
  sub _ := True
  two n := n < 4294967296
  one n := n < 4294967296
  any n := n < 4294967296
  card n := n.toNat < 2147483648

/-- Encoder and decoder agree on the index of every name in the object. -/
def Indexed (ids : Id → Option Nat) (ix : DIndex) (o : Obj) : Prop :=
  ∀ p, Occurs p o → Knows ids ix (idOf p)

namespace Prt

theorem contents_carry (u : Ulib) (ids : Id → Option Nat) (ix : DIndex) :
    Carry (Knows ids ix) (prtContents u) (prtReq u ids ix) where
  iri _ h := h
  anon _ h := h
  lit l h hn := by
    refine ⟨?_, h.1⟩
    obtain ⟨v, t⟩ := l
    cases t with
    | lang s => exact ⟨h.2.1, h.2.2 s rfl⟩
    | dt i => exact ⟨h.2.1, fun _ => hn _ (.datatype _ _)⟩
  sub _ _ := trivial
  two _ h := h
  one _ h := h
  any _ h := h
  card _ h := h

theorem indexed_isSome {ids : Id → Option Nat} {ix : DIndex} {o : Obj} (h : Indexed ids ix o) :
    ∀ p, Occurs p o → (ids (idOf p)).isSome := by
  intro p hp
  obtain ⟨n, h, _⟩ := h p hp
  rw [h]; rfl

/-- Fuel beyond the length of the input changes nothing. -/
theorem rt_fuel {α : Type} {d : Nat → Dec α} {ix : DIndex} {b : Str} {a : α}
    (hl : ∀ L n, L < n → ∀ k, n ≤ k → Le L (d n) (d k)) (h : ∃ m, ∀ n, m ≤ n → Rt (d n) ix b a)
    {rest : Str} {f n : Nat} (hn : (b ++ rest).length < n) :
    d n ⟨b ++ rest, ix, f⟩ = .ok a ⟨rest, ix, f⟩ := by
  obtain ⟨m, h⟩ := h
  rw [(hl _ n hn (max m n) (by omega) ⟨b ++ rest, ix, f⟩ (Nat.le_refl _)).1]
  exact h _ (by omega) _ _

theorem card_wraps {u : Ulib} {ids : Id → Option Nat} (k : CardKind) {a b : Nat} {p : Obj}
    (h : vint u (a * 2) = vint u (b * 2)) :
    encObj u ids (.comp k.objType false [p] a) = encObj u ids (.comp k.objType false [p] b) := by
  cases k <;> simp [encObj, encList, assemble, CardKind.objType, h]

end Prt

section
variable (E : Env) (hu : E.u.Lawful) (ids : Id → Option Nat) (ix : DIndex)
include hu

/-- C32 for axioms with `prtContents`: the axiom is written without an error, its first byte
is that of an axiom frame, and with the bytes that follow the decoder makes the axiom again,
whatever comes after it. The fuel `n` only has to exceed the length of the stream. Missing:
cardinalities of 2^31 and more (`C32_fails`), literals that do not survive (`C34_fails`). -/
theorem C32_partial (a : Axiom) (hc : a.Meets (prtContents E.u)) (hi : Indexed ids ix a.toObj) :
    ∃ c b, encObj E.u ids a.toObj = ⟨c :: b, true⟩ ∧ 9 ≤ c.toNat % 64 ∧
      ∀ rest f n, (b ++ rest).length < n →
        decAxiom E n c ⟨b ++ rest, ix, f⟩ = .ok (a.toObj, true) ⟨rest, ix, f⟩ := by
  have hok := (fit_axiom a).ok (u := E.u) (indexed_isSome hi)
  obtain ⟨m, hm⟩ := rt_axiom hu a (carry_axiom (contents_carry E.u ids ix) hc hi)
  obtain ⟨c, b, hb, h9, -⟩ := hm m (Nat.le_refl _)
  refine ⟨c, b, ?_, h9, fun rest f n hn => ?_⟩
  · rw [← hb, ← hok]
  · refine rt_fuel (d := fun n => decAxiom E n c) (fun L n h k hk => le_decAxiom hu h hk c) ⟨m, fun n h => ?_⟩ hn
    obtain ⟨c', b', hb', -, hr⟩ := hm n h
    rw [hb] at hb'
    obtain ⟨rfl, rfl⟩ := List.cons.inj hb'
    exact hr

/-- C32 for class expressions, under the same conditions. -/
theorem C32_class_partial (a : CE) (hc : a.Meets (prtContents E.u)) (hi : Indexed ids ix a.toObj) :
    ∃ b, encObj E.u ids a.toObj = ⟨b, true⟩ ∧ ∀ rest f n, (b ++ rest).length < n →
      decCE E n ⟨b ++ rest, ix, f⟩ = .ok a.toObj ⟨rest, ix, f⟩ :=
  ⟨_, by rw [← (fit_ce a).ok (u := E.u) (indexed_isSome hi)], fun _ _ _ hn =>
    rt_fuel (fun L n h k hk => le_decCE hu n L h k hk) (rt_ce hu a (carry_ce (contents_carry E.u ids ix) a hc hi)) hn⟩

/-- C32 for data ranges, under the same conditions. -/
theorem C32_range_partial (a : DR) (hc : a.Meets (prtContents E.u)) (hi : Indexed ids ix a.toObj) :
    ∃ b, encObj E.u ids a.toObj = ⟨b, true⟩ ∧ ∀ rest f n, (b ++ rest).length < n →
      decDR E n ⟨b ++ rest, ix, f⟩ = .ok a.toObj ⟨rest, ix, f⟩ :=
  ⟨_, by rw [← (fit_dr a).ok (u := E.u) (indexed_isSome hi)], fun _ _ _ hn =>
    rt_fuel (fun L n h k hk => le_decDR hu n L h k hk) (rt_dr hu a (carry_dr (contents_carry E.u ids ix) a hc hi)) hn⟩

/-- C32 for annotations, under the same conditions. -/
theorem C32_annotation_partial (a : Annot) (hc : a.Meets (prtContents E.u)) (hi : Indexed ids ix a.toObj) :
    ∃ b, encObj E.u ids a.toObj = ⟨b, true⟩ ∧ ∀ rest f n, (b ++ rest).length < n →
      decAnnot E n ⟨b ++ rest, ix, f⟩ = .ok a.toObj ⟨rest, ix, f⟩ :=
  ⟨_, by rw [← (fit_annot a).ok (u := E.u) (indexed_isSome hi)], fun _ _ _ hn =>
    rt_fuel (fun L n h k hk => le_decAnnot hu n L h k hk)
      (rt_annot hu a (carry_annot (contents_carry E.u ids ix) a hc hi)) hn⟩

/-- Different axioms have different bytes, and no encoding is the beginning of another. -/
theorem C32_injective {a b : Axiom} (ha : a.Meets (prtContents E.u)) (hb : b.Meets (prtContents E.u))
    (hia : Indexed ids ix a.toObj) (hib : Indexed ids ix b.toObj) {s t : Str}
    (h : (encObj E.u ids a.toObj).bytes ++ s = (encObj E.u ids b.toObj).bytes ++ t) : a.toObj = b.toObj ∧ s = t := by
  obtain ⟨c, x, hx, -, h1⟩ := C32_partial E hu ids ix a ha hia
  obtain ⟨d, y, hy, -, h2⟩ := C32_partial E hu ids ix b hb hib
  rw [hx, hy] at h
  obtain ⟨rfl, e⟩ : c = d ∧ x ++ s = y ++ t := List.cons.inj h
  have h1 := h1 s 0 ((y ++ t).length + 1) (by rw [e]; omega)
  have h2 := h2 t 0 ((y ++ t).length + 1) (by omega)
  rw [e, h2] at h1
  injection h1 with e1 e2
  exact ⟨(congrArg Prod.fst e1).symm, (congrArg DSt.inp e2).symm⟩

omit hu in
/-- C32 is false as stated: a cardinality is shifted to make room for the bit that says
whether there is a filler, and its highest bit is lost. Restrictions with the cardinalities
`n` and `2^31 + n` have the same bytes, so that no decoder can tell them apart. -/
theorem C32_fails (p : Ope) (k : CardKind) (n : UInt32) (hn : n.toNat < 2147483648) :
    ∃ m : UInt32, m ≠ n ∧
      encObj E.u ids (CE.objCard k m p).toObj = encObj E.u ids (CE.objCard k n p).toObj := by
  obtain ⟨m, hm⟩ : ∃ m : UInt32, m.toNat = n.toNat + 2147483648 := ⟨.ofNatLT (n.toNat + 2147483648) (by simp only [UInt32.size]; omega), rfl⟩
  refine ⟨m, fun e => ?_, ?_⟩
  · rw [e] at hm; omega
  · simp only [CE.toObj]
    refine card_wraps k ?_
    have e : (n.toNat + 2147483648) * 2 % 4294967296 = n.toNat * 2 % 4294967296 := by omega
    rw [hm]
    exact congrArg (fun x => (⟨E.u.varint x, true⟩ : Out)) e

end

/-! ## Non-vacuity -/

/-- Positions in a list. -/
def listIds (xs : List Id) (i : Id) : Option Nat := xs.findIdx? (· == i)

/-- Names of the example. -/
def prtNames : List Id :=
  [.iri ⟨ascii "http://ex.org/", ascii "p"⟩, .anon (ascii "b"), .iri ⟨ascii "http://ex.org/", ascii "A"⟩,
   .iri (xsd "int"), .iri ⟨ascii "http://ex.org/", ascii "comment"⟩, .iri rdfLangString]

/-- An annotated axiom with nested expressions. -/
def prtAxiom : Axiom :=
  ⟨.classAssert
    (.inter [.cls ⟨ascii "http://ex.org/", ascii "A"⟩,
      .objCardQ .max 7 (.inv ⟨ascii "http://ex.org/", ascii "p"⟩) (.compl (.cls ⟨ascii "http://ex.org/", ascii "A"⟩)),
      .dataAll ⟨ascii "http://ex.org/", ascii "p"⟩ (.oneOf [⟨ascii "-12", .dt (xsd "int")⟩])])
    (.anon (ascii "b")),
   [.mk ⟨ascii "http://ex.org/", ascii "comment"⟩ (.lit ⟨ascii "ciao", .lang (ascii "it")⟩) []]⟩

/-- Every name of the object is in the list. -/
def allIn (xs : List Id) (o : Obj) : Bool :=
  (occ o).all fun p => (listIds xs (idOf p)).any fun n => n < 6 && xs[n]? == some (idOf p)

theorem prtAxiom_indexed : Indexed (listIds prtNames) ⟨[], prtNames⟩ prtAxiom.toObj := by
  intro p hp
  have hm := (mem_occ_iff prtAxiom.toObj p (isAxiom_toObj prtAxiom).1).2 hp
  have ha : allIn prtNames prtAxiom.toObj = true := by decide +kernel
  have := List.all_eq_true.1 ha p hm
  obtain ⟨n, h1, h2⟩ := (Option.any_eq_true _ _).1 this
  simp only [Bool.and_eq_true, decide_eq_true_eq, beq_iff_eq] at h2
  exact ⟨n, h1, by omega, h2.2⟩

theorem prtAxiom_contents : prtAxiom.Meets (prtContents leb) := by
  refine ⟨?_, ?_, show 1 < 4294967296 by decide⟩
  · simp only [prtAxiom, Ax.Meets, CE.Meets, CE.AllMeet, Ope.Meets, DR.Meets, Ind.Meets]
    refine ⟨⟨show 3 < 4294967296 by decide, trivial, ⟨trivial, trivial, show (7 : UInt32).toNat < 2147483648 by decide⟩,
      ⟨trivial, show 1 < 4294967296 by decide, ?_⟩, trivial⟩, trivial⟩
    intro l hl
    rw [List.mem_singleton.1 hl]
    refine ⟨.inr ⟨by decide +kernel, by decide +kernel, fun h => absurd h (by decide +kernel), fun _ _ => .inl ?_,
      fun _ h => absurd h (by decide +kernel)⟩, by decide +kernel, fun s h => nomatch h⟩
    exact .inr ⟨ascii "12", by decide +kernel, ⟨digits_of (by decide +kernel), by decide +kernel, by decide +kernel⟩,
      by decide +kernel, by decide +kernel⟩
  · simp only [prtAxiom, Annot.AllMeet, Annot.Meets, AnnotVal.Meets]
    refine ⟨⟨trivial, ⟨⟨by decide +kernel, by decide +kernel⟩, by decide +kernel, ?_⟩, trivial, show 0 < 4294967296 by decide⟩, trivial⟩
    intro s h
    injection h with h
    rw [← h]; decide +kernel

/-- The example makes the round trip. -/
example : ∃ c b, encObj leb (listIds prtNames) prtAxiom.toObj = ⟨c :: b, true⟩ ∧ 9 ≤ c.toNat % 64 ∧
    ∀ rest f n, (b ++ rest).length < n →
      decAxiom lebEnv n c ⟨b ++ rest, ⟨[], prtNames⟩, f⟩ = .ok (prtAxiom.toObj, true) ⟨rest, ⟨[], prtNames⟩, f⟩ :=
  C32_partial lebEnv leb_lawful _ _ _ prtAxiom_contents prtAxiom_indexed

end Cowl
