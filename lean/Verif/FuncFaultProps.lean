import Verif.FuncFaultAt
/-!
# C77: errors of the functional reader say where the document is wrong

If a document in functional syntax is rejected, then the error is a syntax error, and its line is
that of the first word that cannot be in its place: what precedes the word can be completed to a
document that is accepted, but not if the word follows. If the word is an abbreviated IRI where
an IRI can be, then the message names it.

This is false as stated. The line is that of the end of the word, which is another one if the
word is a string with newlines, and the code is that of lack of memory if the word is `<>` where
an IRI can be. All else is proved for all texts and all prefix maps.

A document that is rejected by undefined behaviour (C25) has no error in the model.
-/
namespace Cowl
open Func Prefix

/-- Every error has a place in the text, and is about what is there; the line is that of the end
of the word. -/
theorem C77_place (m : PMap) (addr : Nat) (text : Str) {e : LastErr.Err} (h : docError m addr text = some e) :
    ∃ first last, Fault m addr text e first last ∧ e.line = UInt32.ofNat (1 + last.count 10) ∧ e.byte = 0 ∧ e.col = 0 :=
  docError_fault h

theorem spells_newlines {t : Tok} {w : Str} (h : Spells t w) : w.count 10 = 0 ∨ ∃ r, w = 34 :: r := by
  have app : ∀ {x y : Str}, 10 ∉ x → 10 ∉ y → 10 ∉ x ++ y := fun hx hy h => (List.mem_append.1 h).elim hx hy
  cases h with
  | qstr _ => exact .inr ⟨_, rfl⟩
  | broken _ => exact .inr ⟨_, rfl⟩
  | kw k =>
    refine .inl (List.count_eq_zero.2 fun h => ?_)
    have : ∀ k ∈ Kw.all, 10 ∉ k.text := by decide +kernel
    exact this k k.mem_all h
  | nat _ hd =>
    refine .inl (List.count_eq_zero.2 fun h => ?_)
    exact absurd (hd 10 h).1 (by decide)
  | iriRef hs => exact .inl (List.count_eq_zero.2 (app (fun h => by rcases List.mem_cons.1 h with h | h; exact absurd h (by decide); exact hs h) (by decide)))
  | pnameNs hs => exact .inl (List.count_eq_zero.2 (app hs (by decide)))
  | @pnameLn p l _ hs =>
    refine .inl (List.count_eq_zero.2 (app (fun h => hs (by simp [h])) fun h => ?_))
    rcases List.mem_cons.1 h with h | h
    · exact absurd h (by decide)
    · exact hs (by simp [h])
  | blank hs =>
    refine .inl (List.count_eq_zero.2 fun h => ?_)
    rcases List.mem_cons.1 h with h | h
    · exact absurd h (by decide)
    · rcases List.mem_cons.1 h with h | h
      · exact absurd h (by decide)
      · exact hs h
  | lang hs =>
    refine .inl (List.count_eq_zero.2 fun h => ?_)
    rcases List.mem_cons.1 h with h | h
    · exact absurd h (by decide)
    · exact hs h
  | dcaret | lpar | rpar | equals => exact .inl rfl
  | char hc => exact .inl (List.count_eq_zero.2 fun h => hc (List.mem_singleton.1 h).symm)

/-- The line is that of the beginning of the word, unless the word is a string. -/
theorem C77_partial (m : PMap) (addr : Nat) (text : Str) {e : LastErr.Err} (h : docError m addr text = some e) :
    ∃ first last, Fault m addr text e first last ∧
      (e.line = UInt32.ofNat (1 + first.count 10) ∨ (∃ r, text = first ++ 34 :: r) ∧ e.line = UInt32.ofNat (1 + last.count 10)) := by
  obtain ⟨first, last, hf, hl, -, -⟩ := docError_fault h
  refine ⟨first, last, hf, ?_⟩
  have hl : e.line = UInt32.ofNat (1 + last.count 10) := hl
  cases hf with
  | @word _ w rest t ht hne hs _ _ _ =>
    rcases spells_newlines hs with h0 | ⟨r, rfl⟩
    · rw [List.count_append, h0] at hl
      exact .inl hl
    · exact .inr ⟨⟨r ++ rest, by rw [ht]; simp⟩, hl⟩
  | ended => exact .inl hl
  | unended ht _ _ _ _ _ => exact .inr ⟨⟨_, ht⟩, hl⟩
  | stopped => exact .inl hl

/-- There is no error if the document is accepted; if there is none, then it is accepted or the
behaviour is undefined. -/
theorem C77_none (m : PMap) (addr : Nat) (text : Str) :
    (Accepted m addr text → docError m addr text = none) ∧
    (docError m addr text = none → Accepted m addr text ∨ run (St.init m addr) (lex text) = .ub) :=
  ⟨docError_none, docError_silent⟩

/-- A document with a string where none can be. -/
def strayHead : Str := ascii "Ontology(\n"

/-- The string. -/
def strayWord : Str := ascii "\"a\nb\""

/-- C77 is false as stated: the string begins in line 2, where what precedes it can be completed
and no document goes on with it, but the error is in line 3. An empty IRI is reported as lack of
memory. -/
theorem C77_fails :
    (Viable (create [1, 2, 3, 4] []) 9 strayHead ∧ Spells (.qstr (ascii "a\nb")) strayWord ∧
      (∀ c, ¬ Accepted (create [1, 2, 3, 4] []) 9 (strayHead ++ strayWord ++ 10 :: c)) ∧ strayHead.count 10 = 1 ∧
      docError (create [1, 2, 3, 4] []) 9 (strayHead ++ strayWord ++ ascii "\n)") = some ⟨.errSyntax, 0, 3, 0, []⟩) ∧
    docError (create [1, 2, 3, 4] []) 9 (ascii "Ontology(\n<>)") = some ⟨.errMem, 0, 2, 0, []⟩ := by
  refine ⟨⟨⟨ascii ")", ?_⟩, ?_, fun c h => ?_, by decide, by decide +kernel⟩, by decide +kernel⟩
  · unfold Accepted; decide +kernel
  · exact .qstr (b := ascii "a\nb") (.plain (by decide) (by decide) (.plain (by decide) (by decide) (.plain (by decide) (by decide) .nil)))
  · rw [accepted_run] at h
    have e : strayHead ++ strayWord ++ 10 :: c = Kw.text .ontology ++ 40 :: (10 :: 34 :: (ascii "a\nb" ++ 34 :: (10 :: c))) := rfl
    rw [e, lex_kw, lex_newline, lex_quote (v := ascii "a\nb") (rest := 10 :: c) rfl] at h
    cases h

/-- The hypothesis of C77 is met: a name that is not declared, in line 2. -/
example : docError (create [1, 2, 3, 4] []) 9 (ascii "Ontology(\nDeclaration(Class(x:A))\n)") =
    some ⟨.errSyntax, 0, 2, 0, ascii "failed to resolve x:A"⟩ := by decide +kernel

/-- A document that ends too early, in line 3. -/
example : docError (create [1, 2, 3, 4] []) 9 (ascii "Ontology(\nDeclaration(Class(<a>)) # A\n") = some ⟨.errSyntax, 0, 3, 0, []⟩ := by
  decide +kernel

/-- A name where only a full IRI can be. -/
example : docError (create [1, 2, 3, 4] []) 9 (ascii "Prefix(x:=\n x:a)") = some ⟨.errSyntax, 0, 2, 0, []⟩ := by decide +kernel

/-- A document that is accepted. -/
example : Accepted (create [1, 2, 3, 4] []) 9 (ascii "Ontology(\n)\n") := by unfold Accepted; decide +kernel

end Cowl
