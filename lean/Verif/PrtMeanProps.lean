import Verif.PrtMeanLemmas
import Verif.PrtNormProps
import Verif.SemProps
/-! # C110: ProtocOWL keeps the meaning of an ontology -/
namespace Cowl
open Prt Func FuncSpec Ast Change Prefix Sem ObjSpec

/-- Literals whose meaning is kept: those that are read as they were (C34), and the numbers of `NumOk`. -/
def MeansKept (u : Ulib) (l : Lit) : Prop := LitMade l.tag ∧ (LitSafe u l.value l.tag ∨ NumOk l.value l.tag)

theorem holds_map {I : Interp} {xs : List Obj} {as : List Axiom} (h : ∀ x, x ∈ xs ↔ ∃ a ∈ as, x = a.toObj) :
    HoldsIn I xs ↔ ∀ a ∈ as, sat I a.ax := by
  constructor
  · intro k a ha; exact k _ ((h _).2 ⟨a, ha, rfl⟩) a rfl
  · intro k x hx b hb
    obtain ⟨a, ha, e⟩ := (h x).1 hx
    exact (same_axiom (by rw [← hb, ← e]; exact Same.refl _) I).2 (k a ha)

/-- The axioms of an ontology, as axioms. -/
theorem typed_axioms {R : Req} {names : List Prt.Id} {o : OntoSt} {s : OntoSpec.Abs} (hs : OntoSpec.Reaches o.onto s)
    (ho : PrtDocFits R names o) : ∃ as : List Axiom, s.axioms.map Ref.obj = as.map Axiom.toObj := by
  have h : ∀ x ∈ s.axioms, ∃ a : Axiom, x.obj = a.toObj := by
    intro x hx
    obtain ⟨a, e, -⟩ := ho.axioms x ((axiomsOf_perm (reaches_inv hs)).mem_iff.2 hx)
    exact ⟨a, e⟩
  generalize s.axioms = xs at h
  induction xs with
  | nil => exact ⟨[], rfl⟩
  | cons x xs ih =>
    obtain ⟨a, e⟩ := h x (by simp)
    obtain ⟨as, e'⟩ := ih fun y hy => h y (by simp [hy])
    exact ⟨a :: as, by simp [e, e']⟩

/-- C110 in terms of the normal form of C94. -/
theorem norm_holds {u : Ulib} (hu : u.Lawful) (hr : u.Reads) {I : Interp} (hI : I.Numeric) {as : List Axiom}
    (hl : ∀ a ∈ as, a.ax.Meets (onlyLits (MeansKept u))) {xs ys : List Obj} (hx : xs = as.map Axiom.toObj)
    (hy : ys.Perm (xs.map (mapLit (litNorm u)))) : HoldsIn I ys ↔ HoldsIn I xs := by
  subst hx
  have e : ∀ x, x ∈ ys ↔ ∃ a ∈ as.map (onAxiom (litNorm u)), x = a.toObj := by
    intro x
    rw [hy.mem_iff, List.map_map]
    simp only [List.mem_map, Function.comp]
    constructor
    · rintro ⟨a, ha, rfl⟩; exact ⟨_, ⟨a, ha, rfl⟩, (axiom_toObj a).symm⟩
    · rintro ⟨_, ⟨a, ha, rfl⟩, rfl⟩; exact ⟨a, ha, (axiom_toObj a).symm⟩
  have e' : ∀ x, x ∈ as.map Axiom.toObj ↔ ∃ a ∈ as, x = a.toObj := by
    intro x; simp only [List.mem_map]
    exact ⟨fun ⟨a, ha, k⟩ => ⟨a, ha, k.symm⟩, fun ⟨a, ha, k⟩ => ⟨a, ha, k.symm⟩⟩
  rw [holds_map e, holds_map e']
  have key : ∀ a ∈ as, (sat I (onAxiom (litNorm u) a).ax ↔ sat I a.ax) := fun a ha =>
    sat_on (P := MeansKept u) (fun l h => norm_means hu hr hI h.1 h.2) a.ax (hl a ha)
  constructor
  · intro k a ha; exact (key a ha).1 (k _ (List.mem_map_of_mem ha))
  · intro k b hb
    obtain ⟨a, ha, rfl⟩ := List.mem_map.1 hb
    exact (key a ha).2 (k a ha)

/-- C110, in part: an ontology that fits, written in ProtocOWL and read into a new one, holds in the same interpretations as before,
as far as these respect what numbers are. Missing: ontologies with numbers other than `NumOk` says (`C110_fails`). -/
theorem C110_partial (E : Env) (hu : E.u.Lawful) (hr : E.u.Reads) {names : List Prt.Id} {o : OntoSt} {s : OntoSpec.Abs}
    (hs : OntoSpec.Reaches o.onto s) (ho : PrtDocFits prtSizes names o)
    (hl : ∀ x ∈ s.axioms, ∀ a : Axiom, x.obj = a.toObj → a.ax.Meets (onlyLits (MeansKept E.u)))
    {order : List Prim → List Prim} (hord : ∀ ps, (order ps).Perm ps) (ks : List Nat) (dflt : Fwd) (n : Nat) :
    ∃ b o' n' s', (∀ cap, b.length ≤ cap → writeOntology E.u true order o cap = (b, .ok)) ∧
      prtRead E changeHandler b (some (OntoSt.new ks dflt, n)) = (some (o', n'), .done) ∧
      OntoSpec.Reaches o'.onto s' ∧ (∀ x ∈ s'.axioms, ∃ a : Axiom, x.obj = a.toObj) ∧ s'.axioms.length = s.axioms.length ∧
      ∀ I : Interp, I.Numeric → (HoldsIn I (s'.axioms.map Ref.obj) ↔ HoldsIn I (s.axioms.map Ref.obj)) := by
  obtain ⟨b, o', n', h1, h2, -, -, -, -, -, s', h3, h4⟩ := norm_back hu hs ho hord ks dflt n
  obtain ⟨as, has⟩ := typed_axioms hs ho
  have hm : s.axioms.map (fun x => mapLit (litNorm E.u) x.obj) = (s.axioms.map Ref.obj).map (mapLit (litNorm E.u)) := by simp
  rw [hm] at h4
  refine ⟨b, o', n', s', h1, h2, h3, ?_, by simpa using h4.length_eq, fun I hI => norm_holds hu hr hI ?_ has h4⟩
  · intro x hx
    have : x.obj ∈ (s.axioms.map Ref.obj).map (mapLit (litNorm E.u)) := h4.mem_iff.1 (List.mem_map_of_mem hx)
    rw [has, List.map_map] at this
    obtain ⟨a, -, e⟩ := List.mem_map.1 this
    exact ⟨_, (e.symm.trans (axiom_toObj a).symm)⟩
  · intro a ha
    have : a.toObj ∈ s.axioms.map Ref.obj := has ▸ List.mem_map_of_mem ha
    obtain ⟨x, hx, e⟩ := List.mem_map.1 this
    exact hl x hx a e

/-- C110 for consequences: what follows from the axioms, numbers being numbers, is what followed before. -/
theorem C110_consequences (E : Env) (hu : E.u.Lawful) (hr : E.u.Reads) {names : List Prt.Id} {o : OntoSt} {s : OntoSpec.Abs}
    (hs : OntoSpec.Reaches o.onto s) (ho : PrtDocFits prtSizes names o)
    (hl : ∀ x ∈ s.axioms, ∀ a : Axiom, x.obj = a.toObj → a.ax.Meets (onlyLits (MeansKept E.u)))
    {order : List Prim → List Prim} (hord : ∀ ps, (order ps).Perm ps) (ks : List Nat) (dflt : Fwd) (n : Nat) :
    ∃ b o' n' s', (∀ cap, b.length ≤ cap → writeOntology E.u true order o cap = (b, .ok)) ∧
      prtRead E changeHandler b (some (OntoSt.new ks dflt, n)) = (some (o', n'), .done) ∧ OntoSpec.Reaches o'.onto s' ∧
      ∀ P : Interp → Prop, (∀ I : Interp, I.Numeric → HoldsIn I (s'.axioms.map Ref.obj) → P I) ↔
        ∀ I : Interp, I.Numeric → HoldsIn I (s.axioms.map Ref.obj) → P I := by
  obtain ⟨b, o', n', s', h1, h2, h3, -, -, h4⟩ := C110_partial E hu hr hs ho hl hord ks dflt n
  exact ⟨b, o', n', s', h1, h2, h3, fun P => ⟨fun h I hI k => h I hI ((h4 I hI).2 k), fun h I hI k => h I hI ((h4 I hI).1 k)⟩⟩

/-! ## Where it fails -/

/-- The text of a number below zero: a minus, and a digit other than 0 before the exponent. -/
def belowZero (v : Str) : Bool :=
  v.head? == some 45 && (v.takeWhile fun c => c != 69 && c != 101).any fun c => decide (49 ≤ c.toNat) && decide (c.toNat ≤ 57)

/-- A data property that is true of the numbers below zero. -/
def signs : Interp where
  Thing := Unit
  Value := Bool
  cls _ _ := True
  objProp _ _ _ := True
  dataProp _ _ v := v = true
  datatype _ _ := True
  named _ := ()
  anon _ := ()
  lit v _ := belowZero v
  facet _ _ _ := True
  isNamed _ := True

theorem any_digit {ds : Str} (hd : ∀ c ∈ ds, IsDigit c) :
    (ds.any fun c => decide (49 ≤ c.toNat) && decide (c.toNat ≤ 57)) = true ↔ ∃ c ∈ ds, c ≠ 48 := by
  simp only [List.any_eq_true, Bool.and_eq_true, decide_eq_true_eq]
  constructor
  · rintro ⟨c, hc, h, -⟩; exact ⟨c, hc, by rintro rfl; exact absurd h (by decide)⟩
  · rintro ⟨c, hc, h⟩
    obtain ⟨h1, h2⟩ := hd c hc
    refine ⟨c, hc, ?_, h2⟩
    have : c.toNat ≠ 48 := fun e => h (UInt8.toNat_inj.1 e)
    omega

theorem decimal_zero : ∀ {ds : Str}, (∀ c ∈ ds, IsDigit c) → ∀ acc, decimal ds acc = 0 ↔ acc = 0 ∧ ∀ c ∈ ds, c = 48
  | [], _, acc => by simp [decimal]
  | c :: ds, hd, acc => by
    rw [decimal, decimal_zero (fun c hc => hd c (by simp [hc]))]
    obtain ⟨h1, h2⟩ := hd c (by simp)
    have : c = 48 ↔ c.toNat = 48 := ⟨fun e => by rw [e]; rfl, fun e => UInt8.toNat_inj.1 e⟩
    simp only [List.mem_cons, forall_eq_or_imp, this]
    constructor
    · rintro ⟨a, b⟩; exact ⟨by omega, by omega, b⟩
    · rintro ⟨a, b, c⟩; exact ⟨by omega, c⟩

theorem trim_nil (f : Str) : trim f = [] ↔ ∀ c ∈ f, c = 48 := by
  unfold trim
  rw [List.reverse_eq_nil_iff]
  have : ∀ g : Str, g.dropWhile (· == 48) = [] ↔ ∀ c ∈ g, c = 48 := by
    intro g
    induction g with
    | nil => simp
    | cons c g ih =>
      rw [List.dropWhile_cons]
      by_cases h : c = 48 <;> simp [h, ih]
  rw [this]; simp

theorem belowZero_text {n : Numeral} (hn : n.Legal) : belowZero n.text = true ↔ n.neg ∧ ¬ n.Zero := by
  unfold belowZero
  rw [Bool.and_eq_true]
  refine and_congr ?_ ?_
  · obtain ⟨c, t, e⟩ := List.exists_cons_of_ne_nil hn.whole.1
    have hc : IsDigit c := hn.whole.2 c (by rw [e]; simp)
    have n1 : c ≠ 45 := by rintro rfl; simp [IsDigit] at hc
    unfold Numeral.text Numeral.neg
    rw [e]
    rcases n.sign with _ | _ | _ <;> simp [signText, n1]
  · have hd : ∀ {c : UInt8}, IsDigit c → (c != 69 && c != 101) = true := by
      intro c hc
      have a : c ≠ 69 := by rintro rfl; simp [IsDigit] at hc
      have b : c ≠ 101 := by rintro rfl; simp [IsDigit] at hc
      simp [a, b]
    have hs : ∀ c ∈ signText n.sign, (c != 69 && c != 101) = true := by
      rcases n.sign with _ | _ | _ <;> simp [signText]
    have hx : n.expText.takeWhile (fun c => c != 69 && c != 101) = [] := by
      unfold Numeral.expText
      split
      · rfl
      · rename_i c s ds he
        rcases (hn.exp _ _ _ he).1 with rfl | rfl <;> rfl
    have hsd : ((signText n.sign).any fun c => decide (49 ≤ c.toNat) && decide (c.toNat ≤ 57)) = false := by
      rcases n.sign with _ | _ | _ <;> rfl
    have hz := decimal_zero hn.whole.2 0
    have zero : n.Zero ↔ (∀ c ∈ n.whole, c = 48) ∧ ∀ c ∈ n.frac.getD [], c = 48 := by
      unfold Numeral.Zero Numeral.digits
      rw [hz, trim_nil]; simp
    rw [zero]
    unfold Numeral.text Numeral.tail
    cases hf : n.frac with
    | none =>
      rw [List.append_assoc, List.takeWhile_append_of_pos hs, List.takeWhile_append_of_pos fun c hc => hd (hn.whole.2 c hc),
        List.nil_append, hx, List.append_nil, List.any_append, hsd, Bool.false_or, any_digit hn.whole.2]
      simp
    | some f =>
      have hfd := (hn.frac f hf).2
      rw [List.append_assoc, List.takeWhile_append_of_pos hs, List.takeWhile_append_of_pos fun c hc => hd (hn.whole.2 c hc),
        List.cons_append, List.takeWhile_cons, if_pos (by decide), List.takeWhile_append_of_pos fun c hc => hd (hfd c hc), hx,
        List.append_nil, List.any_append, hsd, Bool.false_or, List.any_append, List.any_cons, Bool.or_eq_true, Bool.or_eq_true,
        any_digit hn.whole.2, any_digit hfd]
      simp only [Option.getD_some]
      constructor
      · rintro (⟨c, hc, h⟩ | h | ⟨c, hc, h⟩) ⟨a, b⟩
        · exact h (a c hc)
        · exact absurd h (by decide)
        · exact h (b c hc)
      · intro h
        rcases Classical.em (∀ c ∈ n.whole, c = 48) with a | a
        · right; right
          have b : ¬ ∀ c ∈ f, c = 48 := fun b => h ⟨a, b⟩
          simpa using b
        · left; simpa using a

theorem signs_numeric : signs.Numeric := by
  intro name _ n m hn hm h
  show belowZero n.text = belowZero m.text
  rw [Bool.eq_iff_iff, belowZero_text hn, belowZero_text hm]
  have hz : n.Zero ↔ m.Zero := by unfold Numeral.Zero; rw [h.whole, h.digits]
  rw [← hz]
  rcases h.sign with k | ⟨-, k⟩
  · rw [k]
  · simp [k]

/-- An axiom with a number between -1 and 0. -/
def halfAxiom : Axiom := ⟨.dataPropAssert (exIri "p") (.named (exIri "a")) ⟨ascii "-0.5", .dt (xsd "decimal")⟩, []⟩

/-- An ontology with this axiom. -/
def halfOnto : OntoSt := ⟨freshMap, some (exIri "o"), none, loaded [] [] [⟨1, halfAxiom.toObj⟩]⟩

/-- Its names. -/
def halfNames : List Prt.Id := [.iri (exIri "o"), .iri (exIri "p"), .iri (exIri "a"), .iri (xsd "decimal")]

theorem halfOnto_reaches : OntoSpec.Reaches halfOnto.onto ⟨[⟨1, halfAxiom.toObj⟩], [], []⟩ := by
  refine loaded_reaches nofun ?_ ?_
  · intro y hy; rw [List.mem_singleton.1 hy]; exact isAxiom_toObj halfAxiom
  · intro y hy z hz _; rw [List.mem_singleton.1 hy, List.mem_singleton.1 hz]

theorem halfOnto_fits : PrtDocFits prtSizes halfNames halfOnto := by
  have hi := reaches_inv halfOnto_reaches
  have hkeys : (halfOnto.onto.idx.map Prod.fst).all (fun p => halfNames.contains (idOf p)) = true := by decide +kernel
  have hk : ∀ p ∈ halfOnto.onto.idx.map Prod.fst, idOf p ∈ halfNames := fun p hp => by
    simpa using List.all_eq_true.1 hkeys p hp
  have hsplit : halfNames.all splitOk = true := by decide +kernel
  have hshort : halfNames.all shortOk = true := by decide +kernel
  have hpfx : halfOnto.pm.fwd.all (fun e => e.1.txt.length < 4294967296 && e.2.length < 4294967296) = true := by decide +kernel
  refine ⟨?_, nofun, ?_, ?_, ?_, ?_, ?_, ?_, ?_, by decide +kernel, by decide +kernel, by decide +kernel⟩
  · intro i h; cases h; simp [halfNames]
  · intro p hp
    have := (hasPrimitive_iff halfOnto.onto p).1 hp
    cases p with
    | ent k i =>
      rcases this with h | h
      · exact hk _ h
      · exact hk (.iri i) h
    | iri i => exact hk _ this
    | anon s => exact hk _ this
  · intro x hx; rw [hi.imports] at hx; cases hx
  · intro x hx; rw [hi.annot] at hx; cases hx
  · intro x hx
    have := (axiomsOf_perm hi).mem_iff.1 hx
    rw [List.mem_singleton.1 this]
    refine ⟨halfAxiom, rfl, ?_, by simp [halfAxiom, Annot.AllMeet], show 0 < 4294967296 by decide⟩
    refine ⟨trivial, trivial, ⟨by decide +kernel, by decide +kernel⟩, by decide +kernel, nofun⟩
  · intro i h; exact splitOk_split (List.all_eq_true.1 hsplit _ h)
  · intro i h
    have := List.all_eq_true.1 hshort _ h
    cases i <;> simpa [shortOk, IdShort] using this
  · intro e he
    simpa using List.all_eq_true.1 hpfx e he

theorem half_norm {u : Ulib} (hr : u.Reads) : litNorm u (ascii "-0.5") (.dt (xsd "decimal")) = ascii "0.5" := by
  obtain ⟨g1, -, n1, -, -, -⟩ := groupOf_decimal
  have hd : Digits [48] := ⟨nofun, by intro c hc; rw [List.mem_singleton.1 hc]; constructor <;> decide⟩
  have h1 := hr.str_to_int (some true) [48] hd (by constructor <;> decide) (46 :: [53]) (dot_head _)
  have e1 : signText (some true) ++ [48] ++ 46 :: [53] = ascii "-0.5" := by decide +kernel
  rw [e1] at h1
  have e2 : (46 :: [53] : Str).length ≠ (ascii "-0.5").length := by decide +kernel
  have e3 : List.takeWhile isDigit [53] = [53] := by decide +kernel
  simp only [litNorm, if_neg n1, g1, formOf, maybeDec, h1]
  rw [if_neg e2]
  simp only [fracForm, e3]
  show fixedText 0 5 = _
  decide +kernel

/-- C110 fails, with any ulib that keeps its contract: the number -0.5 is read as 0.5, so an ontology that says that the value of a
property is -0.5 says something else when it was written and read. -/
theorem C110_fails (E : Env) (hu : E.u.Lawful) (hr : E.u.Reads) : ∃ (names : List Prt.Id) (o : OntoSt) (s : OntoSpec.Abs),
    OntoSpec.Reaches o.onto s ∧ PrtDocFits prtSizes names o ∧
    ∀ {order : List Prim → List Prim}, (∀ ps, (order ps).Perm ps) → ∀ (ks : List Nat) (dflt : Fwd) (n : Nat),
    ∃ b o' n' s' I, (∀ cap, b.length ≤ cap → writeOntology E.u true order o cap = (b, .ok)) ∧
      prtRead E changeHandler b (some (OntoSt.new ks dflt, n)) = (some (o', n'), .done) ∧ OntoSpec.Reaches o'.onto s' ∧
      Interp.Numeric I ∧ HoldsIn I (s.axioms.map Ref.obj) ∧ ¬ HoldsIn I (s'.axioms.map Ref.obj) := by
  refine ⟨halfNames, halfOnto, _, halfOnto_reaches, halfOnto_fits, fun hord ks dflt n => ?_⟩
  obtain ⟨b, o', n', h1, h2, -, -, -, -, -, s', h3, h4⟩ := norm_back hu halfOnto_reaches halfOnto_fits hord ks dflt n
  refine ⟨b, o', n', s', signs, h1, h2, h3, signs_numeric, ?_, ?_⟩
  · refine (holds_map (as := [halfAxiom]) fun x => by simp).2 ?_
    intro a ha
    rw [List.mem_singleton.1 ha]
    show belowZero (ascii "-0.5") = true
    decide +kernel
  · intro k
    have e : (onAxiom (litNorm E.u) halfAxiom).toObj ∈ s'.axioms.map Ref.obj := by
      refine h4.mem_iff.2 ?_
      rw [axiom_toObj]; simp
    have := k _ e _ rfl
    have : belowZero (litNorm E.u (ascii "-0.5") (.dt (xsd "decimal"))) = true := this
    rw [half_norm hr] at this
    exact absurd this (by decide +kernel)

/-! ## Example -/

/-- The hypotheses of `C110_partial` can be met, by an ontology whose literal is not read as it was: `007` becomes `7`. -/
example : leb.Lawful ∧ leb.Reads ∧ OntoSpec.Reaches normOnto.onto ⟨[⟨1, normAxiom.toObj⟩], [], []⟩ ∧
    PrtDocFits prtSizes normNames normOnto ∧ normAxiom.ax.Meets (onlyLits (MeansKept leb)) ∧
    litNorm leb (ascii "007") (.dt (xsd "integer")) = ascii "7" ∧ signs.Numeric := by
  refine ⟨leb_lawful, leb_reads, normOnto_reaches, normOnto_fits, ?_, by decide +kernel, signs_numeric⟩
  refine ⟨trivial, trivial, ⟨by decide +kernel, by decide +kernel⟩, .inr (.inl ⟨ascii "integer", by decide +kernel, rfl, ?_⟩)⟩
  refine ⟨⟨none, ascii "007", none, none⟩, ⟨⟨by decide +kernel, digits_of (by decide +kernel)⟩, nofun, nofun⟩, rfl, rfl, by decide +kernel, ?_⟩
  constructor <;> decide +kernel

/-- A decimal with superfluous zeros and a double with an exponent are of `NumOk`. -/
example : NumOk (ascii "-01.50") (.dt (xsd "decimal")) ∧ NumOk (ascii "+2.250E-07") (.dt (xsd "double")) := by
  have e : ∀ v n, (∀ c ∈ ascii v, 48 ≤ c.toNat ∧ c.toNat ≤ 57) → ascii v ≠ [] → some (ascii v) = some n → Digits n := by
    intro v n h1 h2 h; cases h; exact ⟨h2, digits_of h1⟩
  constructor
  · refine .inr ⟨ascii "decimal", by decide +kernel, rfl, ⟨some true, ascii "01", some (ascii "50"), none⟩,
      ⟨e "01" _ (by decide +kernel) (by decide +kernel) rfl, fun f => e "50" f (by decide +kernel) (by decide +kernel), nofun⟩, ?_, ?_, ?_, ?_, ?_⟩
    · decide +kernel
    · constructor <;> decide +kernel
    · constructor <;> decide +kernel
    · decide +kernel
    · intro _ h; exact absurd h (by decide +kernel)
  · refine .inr ⟨ascii "double", by decide +kernel, rfl, ⟨some false, ascii "2", some (ascii "250"), some (69, some true, ascii "07")⟩,
      ⟨e "2" _ (by decide +kernel) (by decide +kernel) rfl, ?_, ?_⟩, ?_, ?_, ?_, ?_, ?_⟩
    · exact fun f => e "250" f (by decide +kernel) (by decide +kernel)
    · intro c s ds h; cases h; exact ⟨.inl rfl, e "07" _ (by decide +kernel) (by decide +kernel) rfl⟩
    · decide +kernel
    · constructor <;> decide +kernel
    · constructor <;> decide +kernel
    · decide +kernel
    · intro h; cases h

end Cowl
