import Verif.FuncOwnMach
/-!
# Property C78: the functional reader gives back what it takes
-/
namespace Cowl
open Own YOwn

/-! ## Examples -/

namespace YOwn

/-- Decides `Leaf.Fair`. -/
def Leaf.fair (s : St) : Leaf → Bool
  | .shared a => match s.cell a with | some (.leaf _) => true | _ => false
  | _ => true

theorem Leaf.fair_spec {s : St} {l : Leaf} (h : l.fair s = true) : l.Fair s := by
  cases l with
  | shared a =>
    simp only [Leaf.fair] at h
    split at h
    · rename_i o e; exact ⟨o, e⟩
    · exact absurd h (by simp)
  | _ => trivial

/-- Decides `Blocks`. -/
def freeBlocks (s : St) : List (Option Nat) → Bool
  | [] => true
  | none :: l => freeBlocks s l
  | some a :: l => (s.cell a).isNone && !l.contains (some a) && freeBlocks s l

theorem freeBlocks_spec {s : St} : ∀ {l : List (Option Nat)}, freeBlocks s l = true → Blocks s l
  | [], _ => ⟨by simp, .nil⟩
  | none :: l, h => by
    obtain ⟨h1, h2⟩ := freeBlocks_spec (l := l) h
    refine ⟨fun m hm a e => ?_, .cons (fun m _ a e => absurd e (by simp)) h2⟩
    rcases List.mem_cons.mp hm with rfl | hm
    · exact absurd e (by simp)
    · exact h1 m hm a e
  | some x :: l, h => by
    simp only [freeBlocks, Bool.and_eq_true, Option.isNone_iff_eq_none, Bool.not_eq_true', List.contains_eq_mem,
      decide_eq_false_iff_not] at h
    obtain ⟨⟨k1, k2⟩, k3⟩ := h
    obtain ⟨h1, h2⟩ := freeBlocks_spec (l := l) k3
    refine ⟨fun m hm a e => ?_, .cons (fun m hm a e em => ?_) h2⟩
    · rcases List.mem_cons.mp hm with rfl | hm
      · cases e; exact k1
      · exact h1 m hm a e
    · cases e; rw [em] at hm; exact k2 hm

/-- Implies `HopsFair`. -/
def hopsFair (given : List Nat) : St → (Nat → Nat) → List HOp → Bool
  | _, _, [] => true
  | s, others, .retain a :: l =>
    (decide (0 < others a) || given.contains a) &&
      match s.step (.retain a) with
      | none => true
      | some (s', _) => hopsFair given s' (fun b => if b = a then others b + 1 else others b) l
  | s, others, .release a :: l =>
    decide (0 < others a) &&
      match s.step (.release a) with
      | none => true
      | some (s', _) => hopsFair given s' (fun b => if b = a then others b - 1 else others b) l

theorem hopsFair_spec {given : List Nat} : ∀ {ops : List HOp} {s : St} {others : Nat → Nat},
    hopsFair given s others ops = true → HopsFair given s others ops
  | [], _, _, _ => trivial
  | .retain a :: l, s, others, h => by
    simp only [hopsFair, Bool.and_eq_true, Bool.or_eq_true, decide_eq_true_eq, List.contains_eq_mem] at h
    refine ⟨⟨a, h.1, .refl a⟩, fun s' r e => ?_⟩
    have h2 := h.2
    rw [e] at h2
    exact hopsFair_spec h2
  | .release a :: l, s, others, h => by
    simp only [hopsFair, Bool.and_eq_true, decide_eq_true_eq] at h
    refine ⟨h.1, fun s' r e => ?_⟩
    have h2 := h.2
    rw [e] at h2
    exact hopsFair_spec h2

/-- Implies `Meets`. -/
def meets (args : List Val) (x : Stmt) (c : Choice) (f : Frame) : Bool :=
  freeBlocks f.st [c.m₁, c.m₂, c.m₃, c.leaf.block, c.value.bind Leaf.block, c.tag.bind Leaf.block] &&
    c.leaf.fair f.st && c.value.all (·.fair f.st) && c.tag.all (·.fair f.st) &&
    (c.tag.isSome || match x with | .lit _ none => false | _ => true) && !c.bare &&
    match x with
    | .handle l => hopsFair ((ptrsAt args l).getD []) f.st f.others c.ops
    | _ => true

theorem meets_spec {args : List Val} {x : Stmt} {c : Choice} {f : Frame} (h : meets args x c f = true) :
    Meets args x c f := by
  simp only [meets, Bool.and_eq_true, Bool.not_eq_true'] at h
  obtain ⟨⟨⟨⟨⟨⟨h1, h2⟩, h3⟩, h4⟩, h5⟩, h6⟩, h7⟩ := h
  refine ⟨freeBlocks_spec h1, Leaf.fair_spec h2, fun l hl => ?_, fun l hl => ?_, fun i hx ht => ?_, h6,
    fun l hx xs he => ?_⟩
  · rw [Option.mem_def] at hl; rw [hl] at h3; exact Leaf.fair_spec h3
  · rw [Option.mem_def] at hl; rw [hl] at h4; exact Leaf.fair_spec h4
  · rw [hx, ht] at h5; exact absurd h5 (by simp)
  · rw [hx] at h7
    simp only [he, Option.getD_some] at h7
    exact hopsFair_spec h7

/-- Decides `Calm`. -/
def calm (c : Choice) : Bool := c.m₁.isSome && c.m₂.isSome && c.m₃.isSome && c.ok

theorem calm_spec {c : Choice} (h : calm c = true) : YOwn.Calm c := by
  simp only [calm, Bool.and_eq_true] at h
  exact ⟨h.1.1.1, h.1.1.2, h.1.2, h.2⟩

def actMeets (p : Choice → Bool) (args : List Val) : List Stmt → List Choice → Frame → Bool
  | [], _, _ => true
  | x :: xs, cs, f =>
    p (cs.headD {}) && meets args x (cs.headD {}) f &&
      match x.run args (cs.headD {}) f with
      | .go f' => actMeets p args xs cs.tail f'
      | _ => true

theorem actMeets_spec {p : Choice → Bool} {P : Choice → Prop} (hp : ∀ c, p c = true → P c) {args : List Val} :
    ∀ {xs : List Stmt} {cs : List Choice} {f : Frame}, actMeets p args xs cs f = true → ActMeets P args xs cs f
  | [], _, _, _ => trivial
  | x :: xs, cs, f, h => by
    simp only [actMeets, Bool.and_eq_true] at h
    refine ⟨hp _ h.1.1, meets_spec h.1.2, fun f' e => ?_⟩
    have h2 := h.2
    rw [e] at h2
    exact actMeets_spec hp h2

/-- Implies `Legal`. -/
def legal (p : Choice → Bool) (m : M) : List Step → Bool
  | [] => true
  | x :: l =>
    (match x with
      | .shift _ => true
      | .reduce r cs _ => decide (r ∈ rules) &&
          actMeets p (argsOf m r) r.act cs { st := m.st, others := m.others, bufs := bufs (argsOf m r) }) &&
      match m.step x with
      | .go m' => legal p m' l
      | _ => true

theorem legal_spec {p : Choice → Bool} {P : Choice → Prop} (hp : ∀ c, p c = true → P c) :
    ∀ {l : List Step} {m : M}, legal p m l = true → Legal P m l
  | [], _, _ => trivial
  | x :: l, m, h => by
    simp only [legal, Bool.and_eq_true] at h
    refine ⟨?_, fun m' e => ?_⟩
    · cases x with
      | shift t => trivial
      | reduce r cs look =>
        have h1 := h.1
        simp only [Bool.and_eq_true, decide_eq_true_eq] at h1
        exact ⟨h1.1, actMeets_spec hp h1.2⟩
    · have h2 := h.2
      rw [e] at h2
      exact legal_spec hp h2

theorem legal_calm {l : List Step} {m : M} (h : legal calm m l = true) : Legal YOwn.Calm m l :=
  legal_spec (fun _ => calm_spec) h

/-- The empty memory. -/
def ex0 : M := { st := .start, others := fun _ => 0 }

theorem ex0_starts : Starts ex0 := ⟨.start, rfl, rfl, rfl⟩

/-- A rule of the symbol. -/
def rule (x : NT) (n : Nat) : Rule := ((rules.filter fun r => r.lhs = x)[n]?).getD ⟨x, [], []⟩

def exObj (c : UInt8) : Obj := .prim (.ent .cls ⟨[c], []⟩)

/-- The choice for a statement that allocates the block, if there is memory for all others. -/
def at' (a : Nat) : Choice := { m₁ := some a, m₂ := some (a + 100), m₃ := some (a + 200), ok := true }

/-- The choice for a statement that creates an object. -/
def new (a : Nat) : Choice := { at' 900 with leaf := .fresh a (exObj 65) }

/-- Any other choice. -/
def any : Choice := at' 900

/-- `reduce` with the choices. -/
def red (x : NT) (n : Nat) (cs : List Choice := []) : Step := .reduce (rule x n) (cs ++ List.replicate 9 any) none

/-- Steps on `<i>`; the object is at `a`. -/
def iriSteps (a : Nat) : List Step := [.shift .iriRef, red .fullIri 0 [new a], red .iri 0]

/-- Steps on `Ontology(`. -/
def headSteps : List Step :=
  [red .prefixDeclarations 0, .shift (.kw .ontology), .shift .lpar, red .ontologyId 0, red .importsAndAnnotations 0]

/-- Steps on `Annotation(<p> "t")` after the other annotations; it is at 15. -/
def annotSteps : List Step :=
  [.shift (.kw .annotation), .shift .lpar, red .annotationStar 0] ++ iriSteps 11 ++
    [red .annotationProperty 0 [new 12], .shift .qstr, red .quotedString 0 [new 13],
      red .literal 2 [{ at' 14 with tag := some (.fresh 10 (exObj 66)) }], red .annotationValue 2, .shift .rpar,
      red .annotation 0 [at' 15]]

/-- Steps on `Ontology(Declaration(Annotation(<p> "t") Class(<c>)`; the vector is at 16. -/
def declSteps : List Step :=
  headSteps ++ [red .axs 0, .shift (.kw .declaration), .shift .lpar, red .annotationStar 0] ++ annotSteps ++
    [red .annotationStar 1 [at' 16], .shift (.kw .class_), .shift .lpar] ++ iriSteps 17 ++
    [red .cls 0 [new 18], .shift .rpar, red .entity 0, .shift .rpar]

/-- The rest of the document; the axiom is at 19, and the handler keeps it. -/
def restSteps : List Step :=
  [red .declaration 0 [at' 19], red .ax 0, red .axs 1 [{ any with ops := [.retain 19] }], .shift .rpar, red .ontology 0,
    red .ontologyDocument 0]

/-- The state reached, if there is one. -/
def Res'.m? : Res' → Option M
  | .go m => some m
  | .stop _ m => some m
  | _ => none

def Res'.code? : Res' → Option Nat
  | .stop n _ => some n
  | _ => none

def Res'.isUb : Res' → Bool
  | .ub => true
  | _ => false

theorem eq_ub {r : Res'} (h : r.isUb = true) : r = .ub := by cases r <;> simp [Res'.isUb] at h ⊢

theorem eq_go {r : Res'} (h : r.m?.isSome = true) (hc : r.code? = none) : ∃ m, r = .go m ∧ r.m? = some m := by
  cases r <;> simp [Res'.m?, Res'.code?] at h hc ⊢

theorem eq_stop {r : Res'} {n : Nat} (hc : r.code? = some n) : ∃ m, r = .stop n m ∧ r.m? = some m := by
  cases r <;> simp [Res'.m?, Res'.code?] at hc ⊢
  exact hc

end YOwn
open YOwn

/-! ## C78: the functional reader gives back what it takes

The full statement is that, whatever document the reader is given and however reading ends, every
reference the parser has taken and every buffer the scanner has handed to it is given back, and no
object is used after it is freed. It fails with enough memory for a quoted string at which reading
ends (`C78_fails`) and for a plain literal without a tag (`C78_fails_plain`), and in several places if
memory runs out (`C78_fails_memory`). The theorems below hold for every sequence of shifts and
reductions by the rules of the grammar, hence for those the tables of Bison allow. What is missing in
them: documents with such literals, lack of memory for vectors, literals and composites, and the
strings that are discarded, which are all that is lost. -/

theorem steps_spec {m : M} (h : MInv m) : ∀ {l : List Step}, Legal YOwn.Calm m l →
    m.steps l = .stuck ∨ (∃ m', m.steps l = .go m' ∧ MInv m') ∨
      ∃ code m', m.steps l = .stop code m' ∧ Returned m' ∧ m'.stack = [] ∧
        ∃ pre r cs look post m₁, l = pre ++ .reduce r cs look :: post ∧ m.steps pre = .go m₁ ∧
          m'.lost = strings (m₁.stack.drop r.rhs.length) + lookStrings look
  | [], _ => .inr (.inl ⟨m, rfl, h⟩)
  | x :: l, hl => by
    obtain ⟨hx, hl⟩ := hl
    rcases YOwn.step_spec h hx with e | ⟨m', e, h'⟩ | ⟨c, m', e, h1, h2, r, cs, look, h3, h4⟩
    · left; rw [M.steps, e]
    · have hpre : ∀ pre, m.steps (x :: pre) = m'.steps pre := fun pre => by rw [M.steps, e]
      rw [hpre]
      rcases steps_spec h' (hl m' e) with k | k | ⟨c, m'', k1, k2, k3, pre, r, cs, look, post, m₁, k4, k5, k6⟩
      · exact .inl k
      · exact .inr (.inl k)
      · exact .inr (.inr ⟨c, m'', k1, k2, k3, x :: pre, r, cs, look, post, m₁, by rw [k4]; rfl, by rw [hpre, k5], k6⟩)
    · right; right
      exact ⟨c, m', by rw [M.steps, e], h1, h2, [], r, cs, look, l, m, by rw [h3]; rfl, rfl, h4⟩

/-- Nothing is used after it is freed, or freed twice, and between steps the stack accounts for every
reference: none is lost. -/
theorem C78_partial {m : M} (hs : Starts m) {l : List Step} (hl : Legal YOwn.Calm m l) :
    m.steps l ≠ .ub ∧ ∀ m', m.steps l = .go m' → Balanced m' ∧ m'.lost = 0 := by
  rcases steps_spec (starts_inv hs) hl with e | ⟨m₁, e, h⟩ | ⟨c, m₁, e, h⟩ <;> rw [e]
  · exact ⟨by simp, fun m' h => absurd h (by simp)⟩
  · refine ⟨by simp, fun m' he => ?_⟩
    cases he
    exact ⟨⟨h.ext, fun a ha => live_of_ext h.inv (by rw [h.ext]; have := List.count_pos_iff.mpr ha; omega)⟩, h.lost⟩
  · exact ⟨by simp, fun m' h => absurd h (by simp)⟩

example : Starts ex0 ∧ Legal YOwn.Calm ex0 declSteps ∧
    ∃ m', ex0.steps declSteps = .go m' ∧ owned m'.stack = [18, 16] ∧ m'.st.dom = [18, 16, 15, 14, 10, 13, 12] := by
  obtain ⟨m', h1, h2⟩ := eq_go (r := ex0.steps declSteps) (by decide +kernel) (by decide +kernel)
  refine ⟨ex0_starts, legal_calm (by decide +kernel), m', h1, ?_⟩
  have : (ex0.steps declSteps).m?.map (fun m => (owned m.stack, m.st.dom)) =
      some ([18, 16], [18, 16, 15, 14, 10, 13, 12]) := by decide +kernel
  rw [h2] at this
  simpa using this

/-- If reading ends in an action, the parser keeps no reference: exactly those objects are in memory
that others can reach. What is lost are the quoted strings that are discarded. -/
theorem C78_stop_partial {m : M} (hs : Starts m) {l : List Step} (hl : Legal YOwn.Calm m l) {code : Nat} {m' : M}
    (h : m.steps l = .stop code m') :
    Returned m' ∧ m'.stack = [] ∧ ∃ pre r cs look post m₁, l = pre ++ .reduce r cs look :: post ∧
      m.steps pre = .go m₁ ∧ m'.lost = strings (m₁.stack.drop r.rhs.length) + lookStrings look := by
  rcases steps_spec (starts_inv hs) hl with e | ⟨m₁, e, _⟩ | ⟨c, m₁, e, h1, h2, h3⟩ <;> rw [e] at h
  · exact absurd h (by simp)
  · exact absurd h (by simp)
  · cases h; exact ⟨h1, h2, h3⟩

/-- The handler rejects the axiom, having kept a reference to it all the same. -/
def YOwn.rejectSteps : List Step :=
  [red .declaration 0 [at' 19], red .ax 0, red .axs 1 [{ any with ops := [.retain 19], ret := .err }]]

example : Legal YOwn.Calm ex0 (declSteps ++ rejectSteps) ∧ ∃ m', ex0.steps (declSteps ++ rejectSteps) = .stop 1 m' ∧
    m'.others 19 = 1 ∧ m'.st.dom = [19, 18, 16, 15, 14, 10, 13, 12] := by
  obtain ⟨m', h1, h2⟩ := eq_stop (r := ex0.steps (declSteps ++ rejectSteps)) (n := 1) (by decide +kernel)
  refine ⟨legal_calm (by decide +kernel), m', h1, ?_⟩
  have : (ex0.steps (declSteps ++ rejectSteps)).m?.map (fun m => (m.others 19, m.st.dom)) =
      some (1, [19, 18, 16, 15, 14, 10, 13, 12]) := by decide +kernel
  rw [h2] at this
  simpa using this

/-- The same if the document has been read, or if a token fits nowhere. -/
theorem C78_finish_partial {m : M} (hs : Starts m) {l : List Step} (hl : Legal YOwn.Calm m l) {m₁ : M}
    (h : m.steps l = .go m₁) (look : Option Term) :
    (∃ m', m₁.finish (.error look) = .stop 1 m' ∧ Returned m' ∧ m'.others = m₁.others ∧ m'.stack = [] ∧
      m'.lost = strings m₁.stack + lookStrings look) ∧
    (m₁.stack.map (·.1) = [.n .ontologyDocument] →
      ∃ m', m₁.finish .accept = .stop 0 m' ∧ Returned m' ∧ m'.others = m₁.others ∧ m'.stack = [] ∧ m'.lost = 0) := by
  rcases steps_spec (starts_inv hs) hl with e | ⟨m₂, e, hi⟩ | ⟨c, m₂, e, _⟩ <;> rw [e] at h
  · exact absurd h (by simp)
  · cases h
    refine ⟨leave_spec hi.inv hi.shape hi.ext hi.lost, fun hd => ?_⟩
    obtain ⟨m', h1, h2, h3, h4, h5⟩ := leave_spec (code := 0) (look := none) hi.inv hi.shape hi.ext hi.lost
    refine ⟨m', ?_, h2, h3, h4, ?_⟩
    · rw [M.finish, if_pos hd, h1]
    · rw [h5]
      simp [strings, hd, lookStrings]
  · exact absurd h (by simp)

/-- A document is read to the end. Only the axiom and what it refers to is in memory. -/
example : Legal YOwn.Calm ex0 (declSteps ++ restSteps) ∧ ∃ m', ex0.steps (declSteps ++ restSteps) = .go m' ∧
    m'.stack.map (·.1) = [.n .ontologyDocument] ∧ m'.others 19 = 1 ∧ m'.st.dom = [19, 18, 16, 15, 14, 10, 13, 12] := by
  obtain ⟨m', h1, h2⟩ := eq_go (r := ex0.steps (declSteps ++ restSteps)) (by decide +kernel) (by decide +kernel)
  refine ⟨legal_calm (by decide +kernel), m', h1, ?_⟩
  have : (ex0.steps (declSteps ++ restSteps)).m?.map (fun m => (m.stack.map (·.1), m.others 19, m.st.dom)) =
      some ([.n .ontologyDocument], 1, [19, 18, 16, 15, 14, 10, 13, 12]) := by decide +kernel
  rw [h2] at this
  simpa using this

/-- C78 fails: in `Ontology("…"`, the string fits nowhere, and its buffer is lost although there is
enough memory. -/
theorem C78_fails : ¬ ∀ m, Starts m → ∀ l, Legal YOwn.Calm m l → ∀ m₁, m.steps l = .go m₁ →
    ∀ look code m', m₁.finish (.error look) = .stop code m' → m'.lost = 0 := by
  intro h
  obtain ⟨m₁, h1, h2⟩ := eq_go (r := ex0.steps (headSteps ++ [red .axs 0])) (by decide +kernel) (by decide +kernel)
  have hl : Legal YOwn.Calm ex0 (headSteps ++ [red .axs 0]) := legal_calm (by decide +kernel)
  obtain ⟨⟨m', k1, _, _, _, k5⟩, _⟩ := C78_finish_partial ex0_starts hl h1 (some .qstr)
  have := h ex0 ex0_starts _ hl m₁ h1 (some .qstr) 1 m' k1
  rw [k5] at this
  simp [lookStrings] at this

/-- C78 fails for `"a"^^rdf:PlainLiteral`, with enough memory. -/
theorem C78_fails_plain : ∃ m l m₁ cs, Starts m ∧ Legal YOwn.Calm m l ∧ m.steps l = .go m₁ ∧
    (∀ c ∈ cs, YOwn.Calm c) ∧ (cs.head?.map (·.bare)) = some true ∧
    m₁.step (.reduce (rule .literal 0) cs none) = .ub := by
  have hgo : ∃ m₁, ex0.steps ([.shift .qstr, red .quotedString 0 [new 13], .shift .dcaret] ++ iriSteps 17 ++
      [red .datatype 0 [new 18]]) = .go m₁ ∧ _ := eq_go (by decide +kernel) (by decide +kernel)
  obtain ⟨m₁, h1, h2⟩ := hgo
  refine ⟨ex0, _, m₁, [{ at' 14 with bare := true }], ex0_starts, legal_calm (by decide +kernel), h1, ?_, rfl, ?_⟩
  · intro c hc
    rw [List.mem_singleton.mp hc]
    exact calm_spec rfl
  · have : (ex0.steps ([.shift .qstr, red .quotedString 0 [new 13], .shift .dcaret] ++ iriSteps 17 ++
        [red .datatype 0 [new 18]])).m?.map (fun m =>
          (m.step (.reduce (rule .literal 0) [{ at' 14 with bare := true }] none)).isUb) = some true := by
      decide +kernel
    rw [h2] at this
    exact eq_ub (by simpa using this)

/-- C78 fails if memory runs out.

* If there is no memory for an axiom that has annotations, these are used after they are freed.
* If the buffer of a vector cannot be shrunk, the axiom and the entity are leaked.
* If the vector of annotations cannot grow, it is leaked. -/
theorem C78_fails_memory :
    (∃ m l, Starts m ∧ Legal (fun _ => True) m l ∧ m.steps l = .ub) ∧
    (∃ m l m', Starts m ∧ Legal (fun _ => True) m l ∧ m.steps l = .stop 2 m' ∧ m'.others 19 = 0 ∧ m'.others 18 = 0 ∧
      m'.st.ext 19 = 1 ∧ m'.st.ext 18 = 1) ∧
    (∃ m l m', Starts m ∧ Legal (fun _ => True) m l ∧ m.steps l = .stop 2 m' ∧ m'.others 16 = 0 ∧
      m'.st.ext 16 = 1) := by
  refine ⟨⟨ex0, declSteps ++ [red .declaration 0 [{ any with m₁ := none }]], ex0_starts,
      legal_spec (p := fun _ => true) (fun _ _ => trivial) (by decide +kernel), eq_ub (by decide +kernel)⟩, ?_, ?_⟩
  · obtain ⟨m', h1, h2⟩ := eq_stop (n := 2)
      (r := ex0.steps (declSteps ++ [red .declaration 0 [at' 19, { any with ok := false }]])) (by decide +kernel)
    refine ⟨ex0, _, m', ex0_starts, legal_spec (p := fun _ => true) (fun _ _ => trivial) (by decide +kernel), h1, ?_⟩
    have : (ex0.steps (declSteps ++ [red .declaration 0 [at' 19, { any with ok := false }]])).m?.map (fun m =>
        (m.others 19, m.others 18, m.st.ext 19, m.st.ext 18)) = some (0, 0, 1, 1) := by decide +kernel
    rw [h2] at this
    simpa using this
  · obtain ⟨m', h1, h2⟩ := eq_stop (n := 2)
      (r := ex0.steps (headSteps ++ [red .annotationStar 0] ++ annotSteps ++
        [red .annotationStar 1 [at' 16, { any with ok := false }]])) (by decide +kernel)
    refine ⟨ex0, _, m', ex0_starts, legal_spec (p := fun _ => true) (fun _ _ => trivial) (by decide +kernel), h1, ?_⟩
    have : (ex0.steps (headSteps ++ [red .annotationStar 0] ++ annotSteps ++
        [red .annotationStar 1 [at' 16, { any with ok := false }]])).m?.map (fun m =>
        (m.others 16, m.st.ext 16)) = some (0, 1) := by decide +kernel
    rw [h2] at this
    simpa using this

end Cowl
