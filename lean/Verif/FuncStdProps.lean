import Verif.FuncStdLemmas
import Verif.FuncGramProps
/-!
# Property C89: the functional reader accepts the functional-style syntax of the OWL 2 standard

`Std.Document Std.std` is the grammar of the standard, in EBNF. `Gram.Sentence` are the sentences of the
grammar of the program, which by C87 are what it reads.
-/
namespace Cowl
open Cowl.Std Cowl.Gram Cowl.Func Cowl.Prefix
open YOwn (Term)

/-- C89, exact form: the sentences of the program are the documents of the standard, but for two things.
Data properties are quantified over one at a time, and imports and annotations of an ontology may be
mixed. -/
theorem C89_exact (w : List Term) : Sentence w ↔ Document { nary := false, mixed := true } w :=
  ⟨sentence_document, document_sentence⟩

/-! ## Variants -/

/-- A variant whose rules generate more generates more. -/
theorem words_mono {v v' : Variant} (h : ∀ x w, Words v' (rule v x) w → Words v' (rule v' x) w) {e : E} {w : List Term}
    (hw : Words v e w) : Words v' e w := by
  induction hw with
  | nil => exact .nil
  | t x => exact .t x
  | n _ ih => exact .n (h _ _ ih)
  | seq _ _ ih1 ih2 => exact .seq ih1 ih2
  | altL _ ih => exact .altL ih
  | altR _ ih => exact .altR ih
  | optN => exact .optN
  | optS _ ih => exact .optS ih
  | starN => exact .starN
  | starS hα _ _ ih1 ih2 => exact .starS hα ih1 ih2

theorem star_sub {v : Variant} {l m : List (List Sy)} (hs : ∀ α ∈ l, α ∈ m) {e : E} {w : List Term} (h : Words v e w)
    (he : e = .star l) : Words v (.star m) w := by
  induction h with
  | starN => exact .starN
  | starS hα h _ _ ih => cases he; exact .starS (hs _ hα) h (ih rfl)
  | _ => cases he

theorem star_append {v : Variant} {l : List (List Sy)} {e : E} {u w : List Term} (h : Words v e u) (he : e = .star l)
    (hw : Words v (.star l) w) : Words v (.star l) (u ++ w) := by
  induction h with
  | starN => exact hw
  | starS hα h _ _ ih => cases he; rw [List.append_assoc]; exact .starS hα h (ih rfl)
  | _ => cases he

/-- Documents without quantification over several data properties, in which imports come first. -/
abbrev common : Variant := { nary := false, mixed := false }

theorem mixed_of {v : Variant} {w : List Term} (h : Words v (.seq (.star [imports]) annots) w) :
    Words v (.star [imports, [.n .annotation]]) w := by
  cases h with
  | seq h g =>
    refine star_append (star_sub (m := [imports, [.n .annotation]]) ?_ h rfl) rfl
      (star_sub (m := [imports, [.n .annotation]]) ?_ g rfl)
    · intro α hα; rw [List.mem_singleton.1 hα]; exact List.mem_cons_self ..
    · intro α hα; rw [List.mem_singleton.1 hα]; exact List.mem_cons_of_mem _ (List.mem_singleton.2 rfl)

theorem common_prg (x : N) (w : List Term) (h : Words prg (rule common x) w) : Words prg (rule prg x) w := by
  cases x with
  | ontology =>
    cases h with | seq h1 h => cases h with | seq h2 h => cases h with | seq h h5 => cases h with | seq h3 h =>
    cases h with | seq h4 h =>
    exact .seq h1 (.seq h2 (.seq (.seq h3 (.seq (mixed_of h4) h)) h5))
  | _ => exact h

theorem common_std (x : N) (w : List Term) (h : Words std (rule common x) w) : Words std (rule std x) w := by
  have one_of : ∀ {w}, Words std (n .dataPropertyExpression) w → Words std (one .dataPropertyExpression) w := by
    intro w h
    have := Words.seq h (Words.starN (v := std) (l := [[.n .dataPropertyExpression]]))
    rwa [List.append_nil] at this
  cases x with
  | dataSomeValuesFrom =>
    cases h with | seq h1 h => cases h with | seq h2 h => cases h with | seq h h5 => cases h with | seq h3 h =>
    exact .seq h1 (.seq h2 (.seq (.seq (one_of h3) h) h5))
  | dataAllValuesFrom =>
    cases h with | seq h1 h => cases h with | seq h2 h => cases h with | seq h h5 => cases h with | seq h3 h =>
    exact .seq h1 (.seq h2 (.seq (.seq (one_of h3) h) h5))
  | _ => exact h

/-- The words of a form begin with its keyword. -/
theorem form_kw {v : Variant} {k : Kw} {l : List E} {w : List Term} (h : Words v (form k l) w) : Term.kw k ∈ w := by
  cases h with | seq h1 h => cases h1; exact List.mem_cons_self ..

/-- Without the two keywords, the documents of the standard are in the common part. -/
theorem std_common {e : E} {w : List Term} (h : Words std e w) :
    Term.kw .dataSomeValuesFrom ∉ w → Term.kw .dataAllValuesFrom ∉ w → Words common e w := by
  induction h with
  | nil => intro _ _; exact .nil
  | t x => intro _ _; exact .t x
  | @n x w h ih =>
    intro h1 h2
    refine .n ?_
    have := ih h1 h2
    cases x with
    | dataSomeValuesFrom => exact absurd (form_kw this) h1
    | dataAllValuesFrom => exact absurd (form_kw this) h2
    | _ => exact this
  | seq _ _ ih1 ih2 =>
    intro h1 h2
    simp only [List.mem_append, not_or] at h1 h2
    exact .seq (ih1 h1.1 h2.1) (ih2 h1.2 h2.2)
  | altL _ ih => intro h1 h2; exact .altL (ih h1 h2)
  | altR _ ih => intro h1 h2; exact .altR (ih h1 h2)
  | optN => intro _ _; exact .optN
  | optS _ ih => intro h1 h2; exact .optS (ih h1 h2)
  | starN => intro _ _; exact .starN
  | starS hα _ _ ih1 ih2 =>
    intro h1 h2
    simp only [List.mem_append, not_or] at h1 h2
    exact .starS hα (ih1 h1.1 h2.1) (ih2 h1.2 h2.2)

/-- C89, in part: documents of the standard in which each quantification is over one data property are
sentences of the program. Missing: quantification over several (`C89_fails`). -/
theorem C89_partial (w : List Term) (h : Document { nary := false, mixed := false } w) : Sentence w ∧ Document std w :=
  ⟨(C89_exact w).2 (words_mono common_prg h), words_mono common_std h⟩

/-- C89, in part: the same for all documents of the standard without these quantifiers. -/
theorem C89_plain_partial (w : List Term) (h : Document std w) (h1 : Term.kw .dataSomeValuesFrom ∉ w)
    (h2 : Term.kw .dataAllValuesFrom ∉ w) : Sentence w :=
  (C89_partial w (std_common h h1 h2)).1

/-- C89, in part: a text whose tokens are such a document is read without an error, if its names can be
used and its literals are defined (C25). -/
theorem C89_read_partial (m : PMap) (addr : Nat) (text : Str) (h : Document { nary := false, mixed := false } ((lex text).map termOf)) :
    Accepted m addr text ∨ (∃ e, docError m addr text = some e ∧ NameFault text e) ∨ run (St.init m addr) (lex text) = .ub :=
  C87_complete m addr text (C89_partial _ h).1

/-! ## Where they differ -/

/-- The symbols of an expression. -/
def Std.E.syms : E → List Sy
  | .nil => []
  | .s x => [x]
  | .seq a b | .alt a b => a.syms ++ b.syms
  | .opt a => a.syms
  | .star l => l.flatten

theorem seqs_syms : ∀ α : List Sy, (seqs (α.map .s)).syms = α
  | [] => rfl
  | x :: α => by show [x] ++ (seqs (α.map .s)).syms = _; rw [seqs_syms α]; rfl

/-- A symbol that does not lead to a terminal, by a set of nonterminals that do not. -/
def away (x : Term) (safe : N → Bool) : Sy → Bool
  | .t y => !decide (y = x)
  | .n y => safe y

/-- A terminal that no rule of a set of nonterminals leads to is in none of their words. -/
theorem words_away {v : Variant} {x : Term} {safe : N → Bool}
    (hs : ∀ y, safe y = true → (rule v y).syms.all (away x safe) = true) {e : E} {w : List Term} (h : Words v e w) :
    e.syms.all (away x safe) = true → x ∉ w := by
  induction h with
  | nil => intro _ h; cases h
  | t y =>
    intro h g
    have h : (!decide (y = x)) = true := by simpa [Std.E.syms, away] using h
    rw [List.mem_singleton.1 g, decide_eq_true rfl] at h
    cases h
  | n _ ih =>
    intro h
    exact ih (hs _ (by simpa [Std.E.syms, away] using h))
  | seq _ _ ih1 ih2 =>
    intro h g
    simp only [Std.E.syms, List.all_append, Bool.and_eq_true] at h
    rcases List.mem_append.1 g with g | g
    · exact ih1 h.1 g
    · exact ih2 h.2 g
  | altL _ ih =>
    intro h
    simp only [Std.E.syms, List.all_append, Bool.and_eq_true] at h
    exact ih h.1
  | altR _ ih =>
    intro h
    simp only [Std.E.syms, List.all_append, Bool.and_eq_true] at h
    exact ih h.2
  | optN => intro _ h; cases h
  | optS _ ih => intro h; exact ih h
  | starN => intro _ h; cases h
  | @starS l α _ _ hα _ _ ih1 ih2 =>
    intro h g
    rcases List.mem_append.1 g with g | g
    · refine ih1 ?_ g
      rw [seqs_syms, List.all_eq_true]
      intro y hy
      exact List.all_eq_true.1 h y (List.mem_flatten.2 ⟨α, hα, hy⟩)
    · exact ih2 h g

/-- Nonterminals without imports. -/
def inAxiom : N → Bool
  | .ontologyDocument | .ontology => false
  | _ => true

theorem no_import {e : E} {w : List Term} (h : Words std e w) (he : e.syms.all (away (.kw .import_) inAxiom) = true) :
    Term.kw .import_ ∉ w := by
  refine words_away ?_ h he
  intro y hy; cases y <;> first | rfl | cases hy

/-- Nonterminals of the beginning of a document. -/
def inHeader : N → Bool
  | .iri | .prefixDeclaration => true
  | _ => false

theorem no_annot {e : E} {w : List Term} (h : Words std e w) (he : e.syms.all (away (.kw .annotation) inHeader) = true) :
    Term.kw .annotation ∉ w := by
  refine words_away ?_ h he
  intro y hy; cases y <;> first | rfl | cases hy

/-- In documents of the standard, imports come before annotations. -/
theorem std_order {w : List Term} (h : Document std w) : ∃ p q, w = p ++ q ∧ Term.kw .annotation ∉ p ∧ Term.kw .import_ ∉ q := by
  cases h with | n h => cases h with | @seq _ _ u w h0 h =>
  cases h with | n h =>
  cases h with | @seq _ _ a _ h1 h => cases h with | @seq _ _ b _ h2 h => cases h with | @seq _ _ _ z h h5 =>
  cases h with | @seq _ _ c _ h3 h => cases h with | @seq _ _ _ r h4 h => cases h4 with | @seq _ _ d f h6 h7 =>
  refine ⟨u ++ (a ++ (b ++ (c ++ d))), f ++ (r ++ z), by simp only [List.append_assoc], ?_, ?_⟩
  · have g0 := no_annot h0 (by rfl)
    have g1 := no_annot h1 (by decide +kernel)
    have g2 := no_annot h2 (by rfl)
    have g3 := no_annot h3 (by rfl)
    have g6 := no_annot h6 (by decide +kernel)
    simp only [List.mem_append, not_or]
    exact ⟨g0, g1, g2, g3, g6⟩
  · have g7 := no_import h7 (by rfl)
    have g := no_import h (by rfl)
    have g5 := no_import h5 (by rfl)
    simp only [List.mem_append, not_or]
    exact ⟨g7, g, g5⟩

/-- An ontology with an annotation before an import. -/
def mixedDoc : Str := ascii "Ontology(Annotation(<u:p> <u:v>) Import(<u:i>))"

theorem mixed_sentence : Sentence ((lex mixedDoc).map termOf) := by
  have h : Accepted (create [1, 2, 3, 4] []) 9 mixedDoc := by unfold Accepted; decide +kernel
  exact accepted_sentence h

theorem mixed_words : (lex mixedDoc).map termOf = [.kw .ontology, .lpar, .kw .annotation, .lpar, .iriRef, .iriRef, .rpar,
    .kw .import_, .lpar, .iriRef, .rpar, .rpar] := by decide +kernel

theorem mixed_not_std : ¬ Document std ((lex mixedDoc).map termOf) := by
  rw [mixed_words]
  intro h
  obtain ⟨p, q, e, h1, h2⟩ := std_order h
  have e : [Term.kw .ontology, .lpar, .kw .annotation] ++ ([.lpar, .iriRef, .iriRef, .rpar] ++
      [.kw .import_, .lpar, .iriRef, .rpar, .rpar]) = p ++ q := e
  rcases List.append_eq_append_iff.1 e with ⟨a, rfl, _⟩ | ⟨a, _, rfl⟩
  · exact h1 (by simp)
  · exact h2 (by simp)

/-- A quantification over two data properties. -/
def naryDoc : Str := ascii "Ontology(SubClassOf(<u:A> DataSomeValuesFrom(<u:p> <u:q> <u:D>)))"

theorem nary_words : (lex naryDoc).map termOf = [.kw .ontology, .lpar, .kw .subClassOf, .lpar, .iriRef,
    .kw .dataSomeValuesFrom, .lpar, .iriRef, .iriRef, .iriRef, .rpar, .rpar, .rpar] := by decide +kernel

theorem nary_std : Document std ((lex naryDoc).map termOf) := by
  rw [nary_words]
  have hi : Words std (n .iri) [.iriRef] := .n (.altL (.t _))
  have hp : Words std (n .dataPropertyExpression) [.iriRef] := .n (.n hi)
  have hd : Words std (n .dataRange) [.iriRef] := .n (.altL (.n hi))
  have hc : Words std (n .classExpression) [.iriRef] := .n (.altL (.n hi))
  have hm : Words std (one .dataPropertyExpression) [.iriRef, .iriRef] :=
    Words.seq (u := [.iriRef]) hp (Words.starS (α := [.n .dataPropertyExpression]) (u := [.iriRef]) (List.mem_singleton.2 rfl)
      (Words.seq (u := [.iriRef]) (w := []) hp .nil) .starN)
  have hs : Words std (n .dataSomeValuesFrom) [.kw .dataSomeValuesFrom, .lpar, .iriRef, .iriRef, .iriRef, .rpar] :=
    .n (Words.seq (u := [_]) (.t _) (Words.seq (u := [_]) (.t _)
      (Words.seq (u := [.iriRef, .iriRef, .iriRef]) (Words.seq (u := [.iriRef, .iriRef]) hm (Words.seq (u := [.iriRef]) (w := []) hd .nil)) (.t _))))
  have hs : Words std (n .classExpression) [.kw .dataSomeValuesFrom, .lpar, .iriRef, .iriRef, .iriRef, .rpar] :=
    .n (.altR (.altR (.altR (.altR (.altR (.altR (.altR (.altR (.altR (.altR (.altR (.altR (.altL hs)))))))))))))
  have ha : Words std (n .subClassOf) [.kw .subClassOf, .lpar, .iriRef, .kw .dataSomeValuesFrom, .lpar, .iriRef, .iriRef, .iriRef,
      .rpar, .rpar] :=
    .n (Words.seq (u := [_]) (.t _) (Words.seq (u := [_]) (.t _)
      (Words.seq (u := [.iriRef, .kw .dataSomeValuesFrom, .lpar, .iriRef, .iriRef, .iriRef, .rpar])
        (Words.seq (u := []) .starN (Words.seq (u := [.iriRef]) hc
          (Words.seq (u := [.kw .dataSomeValuesFrom, .lpar, .iriRef, .iriRef, .iriRef, .rpar]) (w := []) hs .nil))) (.t _))))
  have hx : Words std (n .ax) _ := .n (.altR (.altL (.n (.altL ha))))
  have hl : Words std (many .ax) [.kw .subClassOf, .lpar, .iriRef, .kw .dataSomeValuesFrom, .lpar, .iriRef, .iriRef, .iriRef,
      .rpar, .rpar] :=
    Words.starS (α := [.n .ax]) (w := []) (List.mem_singleton.2 rfl) (Words.seq (w := []) hx .nil) .starN
  exact .n (Words.seq (u := []) .starN (.n (Words.seq (u := [_]) (.t _) (Words.seq (u := [_]) (.t _)
    (Words.seq (u := [.kw .subClassOf, .lpar, .iriRef, .kw .dataSomeValuesFrom, .lpar, .iriRef, .iriRef, .iriRef, .rpar, .rpar])
      (Words.seq (u := []) .optN (Words.seq (u := []) (Words.seq (u := []) .starN .starN)
        (Words.seq (w := []) hl .nil))) (.t _))))))

theorem nary_not_sentence : ¬ Sentence ((lex naryDoc).map termOf) := by
  intro h
  have hr : run (St.init (create [1, 2, 3, 4] []) 9) (lex naryDoc) = .bad [.iriRef (ascii "u:D"), .rpar, .rpar, .rpar] .syntax := by
    decide +kernel
  have := (C87_first (q := [.kw .ontology, .lpar, .kw .subClassOf, .lpar, .iriRef (ascii "u:A"), .kw .dataSomeValuesFrom, .lpar,
    .iriRef (ascii "u:p"), .iriRef (ascii "u:q")]) _ 9 _ hr (by decide +kernel)).2.1 rfl _ _ rfl [.rpar, .rpar, .rpar]
  apply this
  rw [nary_words] at h
  exact h

/-- C89 fails: a document of the standard that is not read, as it quantifies over two data properties;
and one that is read and is none of the standard, as an annotation is before an import. -/
theorem C89_fails : (∃ text, Document std ((lex text).map termOf) ∧ ¬ Sentence ((lex text).map termOf)) ∧
    (∃ text, Sentence ((lex text).map termOf) ∧ ¬ Document std ((lex text).map termOf)) :=
  ⟨⟨naryDoc, nary_std, nary_not_sentence⟩, ⟨mixedDoc, mixed_sentence, mixed_not_std⟩⟩

/-! ## Examples -/

/-- A document with an import, an annotation and an axiom. -/
def plainDoc : Str := ascii "Ontology(<u:o> Import(<u:i>) Annotation(<u:p> <u:v>) ClassAssertion(<u:A> _:b))"

-- the hypotheses of the partial theorems are met by it
example : Document { nary := false, mixed := false } ((lex plainDoc).map termOf) := by
  have e : (lex plainDoc).map termOf = [.kw .ontology, .lpar, .iriRef, .kw .import_, .lpar, .iriRef, .rpar, .kw .annotation, .lpar,
      .iriRef, .iriRef, .rpar, .kw .classAssertion, .lpar, .iriRef, .blank, .rpar, .rpar] := by decide +kernel
  rw [e]
  have hi : Words common (n .iri) [.iriRef] := .n (.altL (.t _))
  have hc : Words common (n .classExpression) [.iriRef] := .n (.altL (.n hi))
  have hb : Words common (n .individual) [.blank] := .n (.altR (.n (.t _)))
  have ha : Words common (n .annotation) [.kw .annotation, .lpar, .iriRef, .iriRef, .rpar] :=
    .n (Words.seq (u := [_]) (.t _) (Words.seq (u := [_]) (.t _) (Words.seq (u := [.iriRef, .iriRef])
      (Words.seq (u := []) .starN (Words.seq (u := [.iriRef]) (.n hi) (Words.seq (u := [.iriRef]) (w := [])
        (.n (.altR (.altL hi))) .nil))) (.t _))))
  have hx : Words common (n .classAssertion) [.kw .classAssertion, .lpar, .iriRef, .blank, .rpar] :=
    .n (Words.seq (u := [_]) (.t _) (Words.seq (u := [_]) (.t _) (Words.seq (u := [.iriRef, .blank])
      (Words.seq (u := []) .starN (Words.seq (u := [.iriRef]) hc (Words.seq (u := [.blank]) (w := []) hb .nil))) (.t _))))
  have hx : Words common (n .ax) [.kw .classAssertion, .lpar, .iriRef, .blank, .rpar] :=
    .n (.altR (.altR (.altR (.altR (.altR (.altR (.altL (.n (.altR (.altR (.altL hx)))))))))))
  have hm : Words common (.star [imports]) [.kw .import_, .lpar, .iriRef, .rpar] :=
    Words.starS (α := imports) (w := []) (List.mem_singleton.2 rfl) (Words.seq (u := [_]) (.t _) (Words.seq (u := [_]) (.t _)
      (Words.seq (u := [.iriRef]) hi (Words.seq (u := [_]) (w := []) (.t _) .nil)))) .starN
  have hl : Words common annots [.kw .annotation, .lpar, .iriRef, .iriRef, .rpar] :=
    Words.starS (α := [.n .annotation]) (w := []) (List.mem_singleton.2 rfl) (Words.seq (w := []) ha .nil) .starN
  have hk : Words common (many .ax) [.kw .classAssertion, .lpar, .iriRef, .blank, .rpar] :=
    Words.starS (α := [.n .ax]) (w := []) (List.mem_singleton.2 rfl) (Words.seq (w := []) hx .nil) .starN
  have ho : Words common (.opt (.seq (n .iri) (.opt (n .iri)))) [.iriRef] := .optS (Words.seq (u := [.iriRef]) hi .optN)
  exact .n (Words.seq (u := []) .starN (.n (Words.seq (u := [_]) (.t _) (Words.seq (u := [_]) (.t _)
    (Words.seq (u := [.iriRef, .kw .import_, .lpar, .iriRef, .rpar, .kw .annotation, .lpar,
      .iriRef, .iriRef, .rpar, .kw .classAssertion, .lpar, .iriRef, .blank, .rpar])
      (Words.seq (u := [.iriRef]) ho (Words.seq (Words.seq hm hl) (Words.seq (w := []) hk .nil))) (.t _))))))

-- it has none of the two keywords
example : Term.kw .dataSomeValuesFrom ∉ (lex plainDoc).map termOf ∧ Term.kw .dataAllValuesFrom ∉ (lex plainDoc).map termOf := by
  decide +kernel

end Cowl
