import Verif.FuncIoLemmas
import Verif.FuncTellProps
/-!
# C80: failures while a document in functional syntax is read

The full statement: if the stream fails or memory runs out before a document has been read, the reader
returns that error, and what it has told before belongs to the document. It fails, see `C80_fails`:
both are taken for the end of the text. What holds is that no document is ever accepted in part, if
there is memory for the scanner. Missing in the model: lack of memory for the objects that are read
(see C78) and for the stacks of scanner and parser.
-/
namespace Cowl
open Change Func FuncCut FuncIo Reader Prefix

/-- C80, if there is no failure: the text is what the stream gives, however it is divided. -/
theorem C80_plain {σ : Type} (l : List Str) (hl : [] ∉ l) (h : Callback σ Item) (m : PMap) (addr : Nat) (s : σ) :
    FuncIo.read { reads := l.map some } h m addr s = funcReader h m addr l.flatten s := by
  rw [read_eq rfl rfl]
  dsimp only
  rw [input_flatten hl, lexMemN_nil]
  rfl

/-- C80, the part that holds: whatever fails, if the reader returns OK then the handler has been told
all that the whole text tells, `u` being what the stream would have given. -/
theorem C80_partial {σ : Type} (e : Env) (he : e.scanner = true) (h : Callback σ Item) (m : PMap) (addr : Nat) (s s' : σ)
    (hr : FuncIo.read e h m addr s = (s', .ok)) (u : Str) :
    funcRead h m addr (input e.reads ++ u) s = (s', .ok) ∨ funcRead h m addr (input e.reads ++ u) s = (s', .rejected) :=
  readToks_more (read_ok he hr)

/-- C80: so if the whole text is a document, it is not accepted as another one. -/
theorem C80_whole {σ : Type} (e : Env) (he : e.scanner = true) (h : Callback σ Item) (m : PMap) (addr : Nat) (s s1 s2 : σ)
    (hr : FuncIo.read e h m addr s = (s1, .ok)) (u : Str) (hu : funcRead h m addr (input e.reads ++ u) s = (s2, .ok)) : s1 = s2 := by
  rcases C80_partial e he h m addr s s1 hr u with k | k <;> rw [k] at hu <;> cases hu
  rfl

/-- C80: what is told before a failure is told about the whole text as well, but for a name at the
end, after which an error is returned. -/
theorem C80_told (e : Env) (m : PMap) (addr : Nat) (u : Str) :
    ∃ l ids, (FuncIo.read e noting m addr []).1 = l ++ ids ∧ l <+: (funcRead noting m addr (input e.reads ++ u) []).1 ∧
      (∀ x ∈ ids, IsName x) ∧ (ids = [] ∨ (FuncIo.read e noting m addr []).2 = .errSyntax) := by
  by_cases h1 : e.map = true
  · by_cases h2 : e.scanner = true
    · rw [read_eq h1 h2]
      obtain ⟨l, ids, k1, k2, k3, k4⟩ := readToks_cut m addr e.mem (input e.reads) u
      refine ⟨l, ids, k1, k2, k3, k4.imp_right fun k => ?_⟩
      dsimp only
      rw [k]
      rfl
    · refine ⟨[], [], ?_, List.nil_prefix, by simp, .inl rfl⟩
      unfold FuncIo.read
      rw [if_neg (by simp [h1]), if_pos (by simpa using h2)]
      rfl
  · refine ⟨[], [], ?_, List.nil_prefix, by simp, .inl rfl⟩
    unfold FuncIo.read
    rw [if_pos (by simpa using h1)]
    rfl

/-- Axioms and other items that are told are counted. -/
def counting : Callback Nat Item := fun n _ => (n + 1, .ok)

/-- The document of `oneAxiom` with an annotation. -/
def withString : Str := ascii "Ontology(<http://e/o>Annotation(owl:p \"a\")Declaration(Class(<http://e/A>)))"

/-- A document in several pieces. A failure of the stream after all of it. A failure in the middle, and
lack of memory for the string: the error is reported, though as another one. -/
example :
    FuncIo.read { reads := [some (oneAxiom.take 10), some (oneAxiom.drop 10)] } counting (create [1, 2, 3, 4] []) 9 0 = (2, .ok) ∧
    FuncIo.read { reads := [some oneAxiom, none] } counting (create [1, 2, 3, 4] []) 9 0 = (2, .ok) ∧
    FuncIo.read { reads := [some (oneAxiom.take 30), none, some (oneAxiom.drop 30)] } counting (create [1, 2, 3, 4] []) 9 0 = (1, .errSyntax) ∧
    FuncIo.read { reads := [some withString] } counting (create [1, 2, 3, 4] []) 9 0 = (3, .ok) ∧
    FuncIo.read { reads := [some withString], mem := [false] } counting (create [1, 2, 3, 4] []) 9 0 = (1, .errSyntax) := by
  refine ⟨?_, ?_, ?_, ?_, ?_⟩ <;> decide +kernel

/-- C80 fails.

* If there is no memory for the scanner, OK is returned and nothing is told.
* If the stream fails after what could be a document, OK is returned, although the whole text is no
  document.
* The same happens if there is no memory for a string in what follows.
* A failing stream, and lack of memory for a string, are reported as errors of the text. -/
theorem C80_fails :
    (∃ e : Env, e.scanner = false ∧ FuncIo.read e counting (create [1, 2, 3, 4] []) 9 0 = (0, .ok) ∧
      funcRead counting (create [1, 2, 3, 4] []) 9 (input e.reads) 0 = (2, .ok)) ∧
    (∃ (t u : Str), FuncIo.read { reads := [some t, none, some u] } counting (create [1, 2, 3, 4] []) 9 0 = (2, .ok) ∧
      FuncIo.read { reads := [some t, some u] } counting (create [1, 2, 3, 4] []) 9 0 = (2, .errSyntax)) ∧
    (∃ t : Str, FuncIo.read { reads := [some t], mem := [false] } counting (create [1, 2, 3, 4] []) 9 0 = (2, .ok) ∧
      FuncIo.read { reads := [some t] } counting (create [1, 2, 3, 4] []) 9 0 = (2, .errSyntax)) ∧
    (∃ (t u : Str), FuncIo.read { reads := [some t, none, some u] } counting (create [1, 2, 3, 4] []) 9 0 = (1, .errSyntax) ∧
      FuncIo.read { reads := [some t, some u] } counting (create [1, 2, 3, 4] []) 9 0 = (2, .ok)) ∧
    (∃ t : Str, FuncIo.read { reads := [some t], mem := [false] } counting (create [1, 2, 3, 4] []) 9 0 = (1, .errSyntax) ∧
      FuncIo.read { reads := [some t] } counting (create [1, 2, 3, 4] []) 9 0 = (3, .ok)) :=
  ⟨⟨{ scanner := false, reads := [some oneAxiom] }, rfl, rfl, by decide +kernel⟩,
    ⟨oneAxiom, ascii " Ontology()", by decide +kernel, by decide +kernel⟩,
    ⟨oneAxiom ++ ascii " \"a\"", by decide +kernel, by decide +kernel⟩,
    ⟨oneAxiom.take 30, oneAxiom.drop 30, by decide +kernel, by decide +kernel⟩,
    ⟨withString, by decide +kernel, by decide +kernel⟩⟩

end Cowl
