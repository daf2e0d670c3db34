import Verif.ExamplesErr
import Verif.FuncFaultProps
import Verif.LastErrProps
import Verif.FuncTellProps
/-! # C106: the example programs that print an ontology -/
namespace Cowl
open Change Func FuncSpec Prefix Examples

/-! ## Specification -/

/-- The map of the reader of the examples. -/
abbrev mainMap (dflt : Fwd) : PMap := create [0, 1, 2, 3] dflt

/-- The ontology that the document says. -/
def mainOnto (dflt : Fwd) (text : Str) : OntoSt := (funcRead ontoHandler (mainMap dflt) 20 text (OntoSt.new [0, 1, 2, 3] dflt, 100)).1.1

/-- There is memory, and the file can be opened. -/
structure Ready (w : World) : Prop where
  init : w.init.isErr = false
  reader : w.reader = true
  onto : w.onto = true
  opened : w.opened.isErr = false

/-- Codes of opening and closing a file are not those of a parser, and messages of the system are not empty. -/
structure Sound (w : World) : Prop where
  opened : w.opened ≠ .errSyntax
  closed : w.closed ≠ .errSyntax
  errno : w.errno ≠ some []

/-! ## Lemmas -/

theorem load_cases {w : World} {dflt : Fwd} {x : OntoSt ⊕ Ret × LastErr.Err} (h : load w dflt = some x) :
    (∃ r, x = .inr (r, ⟨.ok, 0, 0, 0, []⟩) ∧ (w.onto = false ∧ r = .errMem ∨ w.opened.isErr = true ∧ r = w.opened ∨
        w.closed.isErr = true ∧ r = w.closed)) ∨
    (∃ e, x = .inr (e.code, e) ∧ w.onto = true ∧ w.opened.isErr = false ∧ docError (mainMap dflt) 20 (FuncIo.input w.reads) = some e) ∨
    (x = .inl (mainOnto dflt (FuncIo.input w.reads)) ∧ w.onto = true ∧ w.opened.isErr = false ∧ w.closed.isErr = false ∧
      Accepted (mainMap dflt) 20 (FuncIo.input w.reads)) := by
  unfold load at h
  by_cases h1 : w.onto = true
  · rw [if_neg (by simp [h1])] at h
    by_cases h2 : w.opened.isErr = true
    · rw [if_pos h2] at h; cases h; exact .inl ⟨_, rfl, .inr (.inl ⟨h2, rfl⟩)⟩
    · have h2 : w.opened.isErr = false := by simpa using h2
      rw [if_neg (by simp [h2])] at h
      dsimp only at h
      cases e : docError (mainMap dflt) 20 (FuncIo.input w.reads) with
      | some d =>
        rw [show create [0, 1, 2, 3] dflt = mainMap dflt from rfl, e] at h
        cases er : run (St.init (mainMap dflt) 20) (lex (FuncIo.input w.reads)) with
        | ub => rw [er] at h; cases h
        | ok => rw [er] at h; cases h; exact .inr (.inl ⟨d, rfl, h1, h2, rfl⟩)
        | bad r y => rw [er] at h; cases h; exact .inr (.inl ⟨d, rfl, h1, h2, rfl⟩)
      | none =>
        rw [show create [0, 1, 2, 3] dflt = mainMap dflt from rfl, e] at h
        rcases docError_silent e with ha | hu
        · rw [(accepted_run _).1 ha] at h
          dsimp only at h
          by_cases h3 : w.closed.isErr = true
          · rw [if_pos h3] at h; cases h; exact .inl ⟨_, rfl, .inr (.inr ⟨h3, rfl⟩)⟩
          · have h3 : w.closed.isErr = false := by simpa using h3
            rw [if_neg (by simp [h3])] at h
            cases h
            exact .inr (.inr ⟨rfl, h1, h2, h3, ha⟩)
        · rw [hu] at h; cases h
  · have h1 : w.onto = false := by simpa using h1
    rw [if_pos (by simp [h1])] at h
    cases h
    exact .inl ⟨_, rfl, .inl ⟨h1, rfl⟩⟩

theorem load_error {w : World} (ho : w.onto = true) (hp : w.opened.isErr = false) {dflt : Fwd} {e : LastErr.Err}
    (he : docError (mainMap dflt) 20 (FuncIo.input w.reads) = some e) : load w dflt = some (.inr (e.code, e)) := by
  unfold load
  rw [if_neg (by simp [ho]), if_neg (by simp [hp])]
  dsimp only
  rw [show create [0, 1, 2, 3] dflt = mainMap dflt from rfl, he]
  cases er : run (St.init (mainMap dflt) 20) (lex (FuncIo.input w.reads)) with
  | ub => unfold docError at he; rw [er] at he; cases he
  | ok => rfl
  | bad r y => rfl

theorem load_ok {w : World} (ho : w.onto = true) (hp : w.opened.isErr = false) (hc : w.closed.isErr = false) {dflt : Fwd}
    (ha : Accepted (mainMap dflt) 20 (FuncIo.input w.reads)) : load w dflt = some (.inl (mainOnto dflt (FuncIo.input w.reads))) := by
  unfold load
  rw [if_neg (by simp [ho]), if_neg (by simp [hp])]
  dsimp only
  rw [show create [0, 1, 2, 3] dflt = mainMap dflt from rfl, docError_none ha, (accepted_run _).1 ha]
  dsimp only
  rw [if_neg (by simp [hc])]
  rfl

theorem errors_able {name : Ret → Str} {w : World} (hi : w.init.isErr = false) (hr : w.reader = true) (dflt : Fwd) :
    errorsMain name w dflt = (load w dflt).bind (afterLoad name w) := by
  unfold errorsMain
  rw [if_neg (by simp [hi]), if_neg (by simp [hr])]

theorem print_whole {w : World} {t : Str} : (w.print t).2 = true ↔ (w.print t).1 = t := by
  unfold World.print
  cases w.cap with
  | none => simp
  | some n =>
    simp only [decide_eq_true_eq]
    refine ⟨List.take_of_length_le, fun h => ?_⟩
    have := congrArg List.length h
    rw [List.length_take] at this
    omega

theorem errors_cases {name : Ret → Str} {w : World} {dflt : Fwd} {s : Shown} (h : errorsMain name w dflt = some s) :
    (w.init.isErr = true ∨ w.reader = false) ∧ (∃ msg, msg ≠ [] ∧ s = logError [] msg) ∨
    w.init.isErr = false ∧ w.reader = true ∧ ∃ x, load w dflt = some x ∧ afterLoad name w x = some s := by
  by_cases h1 : w.init.isErr = true
  · unfold errorsMain at h
    rw [if_pos h1] at h; cases h
    exact .inl ⟨.inl h1, _, by decide, rfl⟩
  · by_cases h2 : w.reader = true
    · have h1 : w.init.isErr = false := by simpa using h1
      rw [errors_able h1 h2] at h
      exact .inr ⟨h1, h2, Option.bind_eq_some_iff.1 h⟩
    · have h2 : w.reader = false := by simpa using h2
      unfold errorsMain at h
      rw [if_neg h1, if_pos (by simp [h2])] at h; cases h
      exact .inl ⟨.inr h2, _, by decide, rfl⟩

theorem report_fails {name : Ret → Str} {w : World} {r : Ret} {e : LastErr.Err} (he : w.errno ≠ some [])
    (hr : r = .errSyntax → e.code = .errSyntax) :
    ∃ msg, msg ≠ [] ∧ report name w r e = logError [] msg := by
  unfold report
  by_cases h1 : r = .errIo
  · rw [if_pos h1]
    refine ⟨_, ?_, rfl⟩
    cases hw : w.errno with
    | none => decide
    | some m => intro h; exact he (by rw [hw]; exact congrArg some h)
  · rw [if_neg h1]
    by_cases h2 : r = .errSyntax
    · rw [if_pos h2]
      refine ⟨_, ?_, rfl⟩
      unfold LastErr.writeError
      rw [hr h2]
      intro h
      have := congrArg List.length h
      simp [Ret.isErr, ascii] at this
    · rw [if_neg h2]; exact ⟨_, by decide, rfl⟩

/-! ## C106 -/

/-- C106: `01_errors` ends with success if and only if it has printed the whole ontology of a document that was read
without an error, from a file that could be opened and closed. -/
theorem C106_success {name : Ret → Str} {w : World} {dflt : Fwd} {s : Shown} (h : errorsMain name w dflt = some s) :
    s.success = true ↔ Ready w ∧ w.closed.isErr = false ∧ Accepted (mainMap dflt) 20 (FuncIo.input w.reads) ∧
      writeDoc (mainOnto dflt (FuncIo.input w.reads)) = some s.out := by
  have key : ∀ {r : Ret} {e : LastErr.Err}, afterLoad name w (.inr (r, e)) = some s → s.success = false := by
    intro r e hs
    simp only [afterLoad, Option.some.injEq] at hs
    subst hs
    unfold report
    split
    · rfl
    · split <;> rfl
  rcases errors_cases h with ⟨h1, msg, _, rfl⟩ | ⟨h1, h2, x, hx, hs⟩
  · refine ⟨(fun e => nomatch e), fun ⟨A, _⟩ => ?_⟩
    rcases h1 with h1 | h1
    · rw [A.init] at h1; cases h1
    · rw [A.reader] at h1; cases h1
  · rcases load_cases hx with ⟨r, rfl, hr⟩ | ⟨e, rfl, ho, hp, he⟩ | ⟨rfl, ho, hp, hc, ha⟩
    · refine ⟨(fun e => by rw [key hs] at e; cases e), fun ⟨A, hc, _, _⟩ => ?_⟩
      rcases hr with ⟨h3, _⟩ | ⟨h3, _⟩ | ⟨h3, _⟩
      · rw [A.onto] at h3; cases h3
      · rw [A.opened] at h3; cases h3
      · rw [hc] at h3; cases h3
    · refine ⟨(fun e => by rw [key hs] at e; cases e), fun ⟨_, _, ha, _⟩ => ?_⟩
      rw [docError_none ha] at he; cases he
    · obtain ⟨t, ht, rfl⟩ := Option.map_eq_some_iff.1 hs
      by_cases hp' : (w.print t).2 = true
      · rw [if_pos hp']
        exact ⟨fun _ => ⟨⟨h1, h2, ho, hp⟩, hc, ha, by rw [ht, print_whole.1 hp']⟩, fun _ => rfl⟩
      · rw [if_neg hp']
        refine ⟨(fun e => nomatch e), fun ⟨_, _, _, h4⟩ => ?_⟩
        rw [ht] at h4
        exact absurd (print_whole.2 (Option.some.inj h4).symm) hp'

/-- C106: it is silent on the error output exactly in this case; otherwise it writes one message there. -/
theorem C106_message {name : Ret → Str} {w : World} (hw : Sound w) {dflt : Fwd} {s : Shown} (h : errorsMain name w dflt = some s) :
    s.success = true ∧ s.err = [] ∨ s.success = false ∧ ∃ msg, msg ≠ [] ∧ s.err = ascii "Error: " ++ msg ++ [10] := by
  have key : ∀ msg, msg ≠ [] → s = logError s.out msg → s.success = false ∧ ∃ msg, msg ≠ [] ∧ s.err = ascii "Error: " ++ msg ++ [10] := by
    intro msg hm e
    rw [e]; exact ⟨rfl, msg, hm, rfl⟩
  rcases errors_cases h with ⟨h1, msg, hm, rfl⟩ | ⟨h1, h2, x, hx, hs⟩
  · exact .inr (key msg hm rfl)
  · have rep : ∀ (r : Ret) (e : LastErr.Err), x = .inr (r, e) → (r = .errSyntax → e.code = .errSyntax) →
        s.success = false ∧ ∃ msg, msg ≠ [] ∧ s.err = ascii "Error: " ++ msg ++ [10] := by
      rintro r e rfl hr
      obtain ⟨msg, hm, he⟩ := report_fails (name := name) hw.errno hr
      simp only [afterLoad, Option.some.injEq] at hs
      subst hs
      exact key msg hm (by rw [he]; rfl)
    rcases load_cases hx with ⟨r, rfl, hr⟩ | ⟨e, rfl, _⟩ | ⟨rfl, ho, hp, hc, ha⟩
    · refine .inr (rep _ _ rfl fun e => ?_)
      rcases hr with ⟨_, h3⟩ | ⟨_, h3⟩ | ⟨_, h3⟩
      · rw [h3] at e; cases e
      · exact absurd (h3.symm.trans e) hw.opened
      · exact absurd (h3.symm.trans e) hw.closed
    · exact .inr (rep _ _ rfl fun e => e)
    · obtain ⟨t, ht, rfl⟩ := Option.map_eq_some_iff.1 hs
      by_cases hp' : (w.print t).2 = true
      · rw [if_pos hp']; exact .inl ⟨rfl, rfl⟩
      · rw [if_neg hp']; exact .inr ⟨rfl, _, by decide, rfl⟩

/-- C106, in part: if the document is not accepted, the message tells the line where the word ends that cannot follow what
precedes it, and for a name with a prefix that is not declared the name. Missing: the empty IRI, whose code is that of lack of
memory (`C106_fails`), and documents for which reading is undefined. -/
theorem C106_partial {name : Ret → Str} (hn : name .errSyntax = ascii "syntax error") {w : World} (hw : Ready w) {dflt : Fwd}
    (hna : ¬ Accepted (mainMap dflt) 20 (FuncIo.input w.reads))
    (hub : run (St.init (mainMap dflt) 20) (lex (FuncIo.input w.reads)) ≠ .ub) :
    ∃ e first last, Fault (mainMap dflt) 20 (FuncIo.input w.reads) e first last ∧ e.line = UInt32.ofNat (1 + last.count 10) ∧
      e.byte = 0 ∧ e.col = 0 ∧ (e.code = .errSyntax ∨ e.code = .errMem) ∧
      errorsMain name w dflt = some ⟨[], ascii "Error: " ++
        (if e.code = .errSyntax then LastErr.errorText name e else ascii "ontology read failure") ++ [10], false⟩ := by
  cases he : docError (mainMap dflt) 20 (FuncIo.input w.reads) with
  | none => exact ((docError_silent he).elim hna hub).elim
  | some e =>
    obtain ⟨first, last, hf, hl, hb, hc⟩ := C77_place _ _ _ he
    have hcode : e.code = .errSyntax ∨ e.code = .errMem := by
      unfold docError at he
      split at he
      · cases he
        rename_i y _
        cases y <;> first | exact .inl rfl | exact .inr rfl
      · cases he
    refine ⟨e, first, last, hf, hl, hb, hc, hcode, ?_⟩
    rw [errors_able hw.init hw.reader, load_error hw.onto hw.opened he]
    show some (report name w e.code e) = _
    unfold report
    rcases hcode with h | h
    · rw [if_neg (by rw [h]; decide), if_pos h, if_pos h, ((C61_text name hn e).1 (by rw [h]; rfl))]; rfl
    · rw [if_neg (by rw [h]; decide), if_neg (by rw [h]; decide), if_neg (by rw [h]; decide)]; rfl

/-- C106: if the file cannot be opened, the message is that of the system. -/
theorem C106_file {name : Ret → Str} {w : World} (hi : w.init.isErr = false) (hr : w.reader = true) (ho : w.onto = true)
    (hf : w.opened = .errIo) {dflt : Fwd} :
    errorsMain name w dflt = some ⟨[], ascii "Error: " ++ w.errno.getD (ascii "unknown I/O error") ++ [10], false⟩ := by
  rw [errors_able hi hr]
  unfold load
  rw [if_neg (by simp [ho]), if_pos (by rw [hf]; rfl), hf]
  rfl

/-- C106: `00_base` prints the same as `01_errors`; it fails only if the ontology cannot be read, and then prints nothing. If it
succeeds and `01_errors` does not, the standard output has failed. -/
theorem C106_base {name : Ret → Str} {w : World} (hi : w.init.isErr = false) (hr : w.reader = true) {dflt : Fwd} :
    (errorsMain name w dflt = none ↔ baseMain w dflt = none) ∧
    ∀ s s', errorsMain name w dflt = some s → baseMain w dflt = some s' →
      s'.out = s.out ∧ (s.success = true → s' = s) ∧ (s'.success = false → s.success = false ∧ s'.out = []) ∧
      (s'.success = true → s.success = false → ∃ (n : Nat) (t : Str), w.cap = some n ∧ s.out = t.take n ∧ n < t.length) := by
  rw [errors_able hi hr]
  unfold baseMain
  cases load w dflt with
  | none => exact ⟨Iff.rfl, fun s s' h => nomatch h⟩
  | some x =>
    rw [Option.bind_some, Option.bind_some]
    cases x with
    | inr p =>
      refine ⟨⟨(fun h => nomatch h), (fun h => nomatch h)⟩, fun s s' h h' => ?_⟩
      cases h; cases h'
      unfold report
      split
      · exact ⟨rfl, (fun h => nomatch h), (fun _ => ⟨rfl, rfl⟩), (fun h => nomatch h)⟩
      · split <;> exact ⟨rfl, (fun h => nomatch h), (fun _ => ⟨rfl, rfl⟩), (fun h => nomatch h)⟩
    | inl o =>
      simp only [afterLoad, afterBase]
      cases writeDoc o with
      | none => exact ⟨Iff.rfl, fun s s' h => nomatch h⟩
      | some t =>
        refine ⟨⟨(fun h => nomatch h), (fun h => nomatch h)⟩, fun s s' h h' => ?_⟩
        cases h; cases h'
        dsimp only
        by_cases hp : (w.print t).2 = true
        · rw [if_pos hp]
          exact ⟨rfl, (fun _ => rfl), (fun h => nomatch h), (fun _ h => nomatch h)⟩
        · rw [if_neg hp]
          refine ⟨rfl, (fun h => nomatch h), (fun h => nomatch h), fun _ _ => ?_⟩
          unfold World.print at hp ⊢
          cases hc : w.cap with
          | none => rw [hc] at hp; exact absurd rfl hp
          | some n =>
            rw [hc] at hp
            exact ⟨n, t, rfl, rfl, by simpa using hp⟩

/-- The document of the examples below. -/
def mainText : Str := ascii "Ontology(<http://e.x/o>\nDeclaration(Class(<http://e.x/A>)))"

/-- Texts of codes, for the examples below. -/
def mainName (r : Ret) : Str := if r = .errSyntax then ascii "syntax error" else ascii "error"

/-- C106 fails: if reading the file fails, the message is that of a syntax error; for an empty IRI there is no line; and a literal of
type `rdf:PlainLiteral` without a tag is undefined behaviour. -/
theorem C106_fails :
    errorsMain mainName { reads := [some (ascii "Ontology("), none], errno := some (ascii "Input/output error") } [] =
      some ⟨[], ascii "Error: syntax error (line 1)\n", false⟩ ∧
    errorsMain mainName { reads := [some (ascii "Ontology(\n<>)")] } [] = some ⟨[], ascii "Error: ontology read failure\n", false⟩ ∧
    errorsMain mainName { reads := [some (ascii "Ontology(Annotation(owl:versionInfo \"a\"^^rdf:PlainLiteral))")] } [] = none := by
  refine ⟨?_, ?_, ?_⟩ <;> decide +kernel

/-- A document that is printed. -/
example : (errorsMain mainName { reads := [some mainText] } []).map (fun s => (s.success, s.err)) = some (true, []) := by
  decide +kernel

/-- A document that is not, with an error in its second line. -/
example : errorsMain mainName { reads := [some (ascii "Ontology(\nDeclaration(Class(x:A)))")] } [] =
    some ⟨[], ascii "Error: syntax error: failed to resolve x:A (line 2)\n", false⟩ := by decide +kernel

/-- The hypotheses are met by a file that can be read. -/
example : Ready { reads := [some mainText] } ∧ Sound { reads := [some mainText] } :=
  ⟨⟨rfl, rfl, rfl, rfl⟩, ⟨(fun e => nomatch e), (fun e => nomatch e), (fun e => nomatch e)⟩⟩

end Cowl
