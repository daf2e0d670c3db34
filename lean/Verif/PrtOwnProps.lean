import Verif.PrtOwnFrames
import Verif.FuncOwnProps
/-!
# Property C79: the ProtocOWL reader gives back what it takes
-/
namespace Cowl
open Own DOwn

/-! ## Examples -/

namespace DOwn
open YOwn (Leaf.fair Leaf.fair_spec freeBlocks freeBlocks_spec hopsFair hopsFair_spec)

/-- Implies `Entry.Fair`. -/
def Entry.fair (e : Entry) : Bool :=
  freeBlocks e.st [e.pick.m₁, e.pick.m₂, e.pick.m₃, e.pick.leaf.block, e.pick.value.bind YOwn.Leaf.block,
      e.pick.tag.bind YOwn.Leaf.block] &&
    e.pick.leaf.fair e.st && e.pick.value.all (·.fair e.st) && e.pick.tag.all (·.fair e.st) &&
    match e.site with
    | .lit none => e.pick.tag.isSome
    | .handle g => hopsFair g e.st e.others e.pick.ops
    | _ => true

theorem Entry.fair_spec {e : Entry} (h : e.fair = true) : e.Fair := by
  simp only [Entry.fair, Bool.and_eq_true] at h
  obtain ⟨⟨⟨⟨h1, h2⟩, h3⟩, h4⟩, h5⟩ := h
  refine ⟨freeBlocks_spec h1, Leaf.fair_spec h2, fun l hl => ?_, fun l hl => ?_, fun hx ht => ?_, fun g hx => ?_⟩
  · rw [Option.mem_def] at hl; rw [hl] at h3; exact Leaf.fair_spec h3
  · rw [Option.mem_def] at hl; rw [hl] at h4; exact Leaf.fair_spec h4
  · rw [hx, ht] at h5; exact absurd h5 (by simp)
  · rw [hx] at h5; exact hopsFair_spec h5

/-- Decides `Entry.Sturdy`. -/
def Entry.sturdy (e : Entry) : Bool :=
  match e.site with
  | .header => e.pick.num.all fun h => h % 4 ≠ 3
  | .datatype => match e.pick.leaf with | .null => false | _ => true
  | .anonIndex => e.pick.ok
  | .lit _ => !e.pick.bare && (!e.pick.isLang || e.pick.m₁.isSome)
  | .sub chain xs => !xs.contains none || (!chain && e.pick.m₁.isNone)
  | _ => true

theorem Entry.sturdy_spec {e : Entry} (h : e.sturdy = true) : e.Sturdy := by
  unfold Entry.sturdy at h
  unfold Entry.Sturdy
  split
  · next hs =>
    rw [hs] at h
    intro k hk
    rw [hk] at h
    simpa using h
  · next hs =>
    rw [hs] at h
    intro hk
    rw [hk] at h
    simp at h
  · next hs => rw [hs] at h; exact h
  · next hs =>
    rw [hs] at h
    simp only [Bool.and_eq_true, Bool.not_eq_true', Bool.or_eq_true] at h
    refine ⟨h.1, fun hl hm => ?_⟩
    rw [hl, hm] at h
    simp at h
  · next hs =>
    rw [hs] at h
    simpa using h
  · trivial

/-- All of what is met is fair. -/
def fairRun {α : Type} (p : Dec α) (d : D) : Bool := (p d).1.all Entry.fair

theorem fairRun_spec {α : Type} {p : Dec α} {d : D} (h : fairRun p d = true) : ∀ e ∈ (p d).1, e.Fair := fun e he =>
  Entry.fair_spec (List.all_eq_true.mp h e he)

def sturdyRun {α : Type} (p : Dec α) (d : D) : Bool := (p d).1.all Entry.sturdy

theorem sturdyRun_spec {α : Type} {p : Dec α} {d : D} (h : sturdyRun p d = true) : ∀ e ∈ (p d).1, e.Sturdy := fun e he =>
  Entry.sturdy_spec (List.all_eq_true.mp h e he)

/-- A string, as an object. -/
def exStr (c : UInt8) : Obj := .str [c]

def exIri (c : UInt8) : Obj := .prim (.iri ⟨[c], [c]⟩)

/-- Memory with the namespaces of the vocabulary at 1, 2, 3, 4 and 5. -/
def exSt : St :=
  ((((St.start.new 1 (.leaf (exStr 1))).new 2 (.leaf (exStr 2))).new 3 (.leaf (exStr 3))).new 4 (.leaf (exStr 4))).new 5
    (.leaf (exStr 5))

def exD (script : List Pick) : D := { st := exSt, others := fun _ => 0, script := script }

/-- The namespaces of the vocabulary. -/
def exStd : List Nat := [1, 2, 3, 4, 5]

theorem ex_starts (l : List Pick) : Starts exStd (exD l) := by
  have f : ∀ {s : St} {m : Nat}, Own.Reaches Own.Sturdy s → s.cell m = none → ∀ o, Own.Reaches Own.Sturdy (s.new m (.leaf o)) :=
    fun {s m} h hm o => .step (op := .leaf m o) h hm trivial rfl
  refine ⟨f (f (f (f (f .start rfl _) rfl _) rfl _) rfl _) rfl _, fun a => ?_, rfl, rfl, rfl⟩
  show exSt.ext a = 0 + exStd.count a
  by_cases h1 : a = 1
  · subst h1; rfl
  · by_cases h2 : a = 2
    · subst h2; rfl
    · by_cases h3 : a = 3
      · subst h3; rfl
      · by_cases h4 : a = 4
        · subst h4; rfl
        · by_cases h5 : a = 5
          · subst h5; rfl
          · have e : exSt.ext a = 0 := by simp [exSt, St.new, St.start, h1, h2, h3, h4, h5]
            have e' : exStd.count a = 0 := List.count_eq_zero.mpr (by simp [exStd, h1, h2, h3, h4, h5])
            rw [e, e']

/-- There is memory; blocks are at `a` and beyond. -/
def exAt (a : Nat) : Pick :=
  { m₁ := some a, m₂ := some (a + 100), m₃ := some (a + 200), ok := true }

/-- A number is read. -/
def exNum (n : Nat) : Pick := { exAt 900 with num := some n }

/-- An object is created. -/
def exNew (a : Nat) (o : Obj) : Pick := { exAt 900 with leaf := .fresh a o }

/-- The index can grow, as can a vector. -/
def exYes : Pick := exAt 900

/-- Initialisation, and the header. -/
def exHead : List Pick := [exYes, exYes, exYes, exYes, exYes, exNum 1]

/-- One namespace, at 11, and one IRI, at 13. -/
def exIds : List Pick :=
  [exNum 4, exNum 1, exNum 1, exNew 11 (exStr 65), exYes,
    exNum 69, exNum 1, exNum 5, exNum 1, exNew 12 (exStr 66), exNew 13 (exIri 66), exYes]

/-- An annotation with the literal at 16, and a vector of it at 18. -/
def exAnnots : List Pick :=
  [exNum 1, exYes, exNum 1, exNew 14 (exStr 67), exNum 0, exNum 0, exNum 1, exNew 15 (exStr 68),
    { exAt 16 with tag := some (.fresh 20 (exStr 69)) }, exAt 17, exYes, exAt 18]

/-- A declaration with the annotation; the entity is at 21, and the axiom at 22. -/
def exDecl (last : List Pick) : List Pick :=
  [exNum (64 + 9), exNum 0, exNew 21 (exStr 70)] ++ exAnnots ++ last

/-- Whether the behaviour is undefined. -/
def Out.isUb {α : Type} : Out α → Bool
  | .ub => true
  | _ => false

def Out.d? {α : Type} : Out α → Option D
  | .ub => none
  | .go _ d => some d

/-- An annotation assertion, up to its literal. -/
def exAssert : List Pick := exHead ++ exIds ++ [exNum 47, exNum 0, exNew 31 (exStr 71), exNum 0, exNum 0]

/-- All of what is met is fair, and goes well but for the given place; yet something is undefined. -/
def Breaks (x : Site → Bool) (script : List Pick) : Prop :=
  (∀ e ∈ (read exStd 9 9 (exD script)).1, e.Fair) ∧
    (∀ e ∈ (read exStd 9 9 (exD script)).1, e.Sturdy ∨ x e.site = true) ∧
    (read exStd 9 9 (exD script)).2 = .ub

/-- Implies `Breaks`. -/
def breaks (x : Site → Bool) (script : List Pick) : Bool :=
  fairRun (read exStd 9 9) (exD script) &&
    (read exStd 9 9 (exD script)).1.all (fun e => e.sturdy || x e.site) &&
    (read exStd 9 9 (exD script)).2.isUb

theorem eq_ub {α : Type} {r : Out α} (h : r.isUb = true) : r = .ub := by cases r <;> simp [Out.isUb] at h ⊢

theorem breaks_spec {x : Site → Bool} {l : List Pick} (h : breaks x l = true) : Breaks x l := by
  simp only [breaks, Bool.and_eq_true] at h
  refine ⟨fairRun_spec h.1.1, fun e he => ?_, eq_ub h.2⟩
  have := List.all_eq_true.mp h.1.2 e he
  rw [Bool.or_eq_true] at this
  exact this.imp_left Entry.sturdy_spec

def Site.isAnonIndex : Site → Bool
  | .anonIndex => true
  | _ => false

def Site.isDatatype : Site → Bool
  | .datatype => true
  | _ => false

def Site.isHeader : Site → Bool
  | .header => true
  | _ => false

def Site.isLit : Site → Bool
  | .lit _ => true
  | _ => false

def Site.isSub : Site → Bool
  | .sub _ _ => true
  | _ => false

end DOwn
open DOwn

/-! ## C79: the ProtocOWL reader gives back what it takes

The full statement is that, whatever bytes the reader is given, wherever memory runs out and whatever
the handler does with its own references, every reference that is taken is given back once, and no
object is used after it is freed. It fails where the decoder does not check something, see
`C79_fails`. The theorem below holds for all other runs. What is missing in it: those runs, and the
buffers of strings. -/

/-- Nothing is used after it is freed, or freed twice, and in the end the reader keeps no reference:
exactly those objects are in memory that the outside or the vocabulary can reach. -/
theorem C79_partial {std : List Nat} {d : D} (hs : Starts std d) (n k : Nat)
    (hl : ∀ e ∈ (read std n k d).1, e.Fair ∧ e.Sturdy) :
    ∃ d', (read std n k d).2 = .go () d' ∧ Returned std d' := by
  obtain ⟨h1, h2, h3, h4, _⟩ := hs
  have ho : Ok std [] [] False d := ⟨reaches_inv (fun _ h => h) h1, fun a => by rw [h2, h3, h4]; simp, by simp, False.elim⟩
  obtain ⟨_, d', e1, e2, e3, e4⟩ := t_read (K := std) (fun _ h => h) n k d ho hl
  have hx : ∀ a, d'.st.ext a = d'.others a + std.count a := fun a => by rw [e2.ext, e3, e4]; simp
  refine ⟨d', e1, hx, fun a => ?_⟩
  rw [live_iff_usable e2.inv]
  refine exists_congr fun r => and_congr_left fun _ => ?_
  rw [hx, ← List.count_pos_iff]
  omega

/-- A document with an annotated declaration, which the handler keeps. What it refers to is in memory,
together with the namespaces of the vocabulary. -/
example : ∃ l, Starts exStd (exD l) ∧ (∀ e ∈ (read exStd 9 9 (exD l)).1, e.Fair ∧ e.Sturdy) ∧
    (read exStd 9 9 (exD l)).2.d?.map (fun d => (d.err, d.others 22, d.st.dom)) =
      some (false, 1, [22, 18, 17, 16, 20, 15, 14, 21, 5, 4, 3, 2, 1]) :=
  ⟨exHead ++ exIds ++ exDecl [exAt 22, { exYes with ops := [.retain 22] }, exNum 3], ex_starts _,
    fun e he => ⟨fairRun_spec (by decide +kernel) e he, sturdyRun_spec (by decide +kernel) e he⟩, by decide +kernel⟩

/-- The same, but there is no memory for the axiom: all of it is released. -/
example : ∃ l, Starts exStd (exD l) ∧ (∀ e ∈ (read exStd 9 9 (exD l)).1, e.Fair ∧ e.Sturdy) ∧
    (read exStd 9 9 (exD l)).2.d?.map (fun d => (d.err, d.st.dom)) = some (true, [5, 4, 3, 2, 1]) :=
  ⟨exHead ++ exIds ++ exDecl [{ exAt 22 with m₁ := none }], ex_starts _,
    fun e he => ⟨fairRun_spec (by decide +kernel) e he, sturdyRun_spec (by decide +kernel) e he⟩, by decide +kernel⟩

/-- C79 fails.

* If the index cannot grow, a new anonymous individual is used after it is freed.
* If there is no memory for the datatype of a literal, an axiom is made of NULL.
* The same happens if the type of a literal is unknown.
* If there is no memory for a literal with a language tag, a bit of NULL is set.
* If a plain literal has no tag, a bit of NULL is set.
* If the operand of a sub-property axiom cannot be read, an axiom is made of NULL. -/
theorem C79_fails :
    (¬ ∀ std d n k, Starts std d → (∀ e ∈ (read std n k d).1, e.Fair) →
      ∃ d', (read std n k d).2 = .go () d' ∧ Returned std d') ∧
    Breaks Site.isAnonIndex (exHead ++ [exNum 6, exNum 0, exNew 31 (.prim (.anon [65])), { exYes with ok := false }]) ∧
    Breaks Site.isDatatype (exAssert ++ [exNum 2, exNum 1, exNew 32 (exStr 72), exNum 0, exYes, exAt 35]) ∧
    Breaks Site.isHeader (exAssert ++ [exNum 3, exNum 1, exNew 32 (exStr 72), exAt 35]) ∧
    Breaks Site.isLit (exAssert ++ [exNum 1, exNum 1, exNew 32 (exStr 72), exNum 1, exNew 33 (exStr 73),
      { exAt 35 with m₁ := none, isLang := true }]) ∧
    Breaks Site.isLit (exAssert ++ [exNum 2, exNum 1, exNew 32 (exStr 72), exNum 0, exNew 33 (exStr 73),
      { exAt 35 with bare := true }]) ∧
    Breaks Site.isSub (exHead ++ exIds ++ [exNum 19, {}, exAt 35]) := by
  refine ⟨fun h => ?_, breaks_spec (by decide +kernel), breaks_spec (by decide +kernel), breaks_spec (by decide +kernel),
    breaks_spec (by decide +kernel), breaks_spec (by decide +kernel), breaks_spec (by decide +kernel)⟩
  have hb : Breaks Site.isHeader (exAssert ++ [exNum 3, exNum 1, exNew 32 (exStr 72), exAt 35]) :=
    breaks_spec (by decide +kernel)
  obtain ⟨d', e, _⟩ := h exStd _ 9 9 (ex_starts _) hb.1
  rw [hb.2.2] at e
  exact absurd e (by simp)

theorem bind_log {α β : Type} (p : Dec α) (f : α → Dec β) (d : D) : ∃ l, ((p >>= f) d).1 = (p d).1 ++ l := by
  show ∃ l, (Dec.bind p f d).1 = _
  unfold Dec.bind
  split
  · rename_i e; rw [e]; exact ⟨[], by simp⟩
  · rename_i e; rw [e]; exact ⟨_, rfl⟩

/-- The index does not invent: an identifier that it has is given without touching the memory; the next one is an anonymous
individual, which needs an allocation; any other is an error, and no memory is touched. -/
theorem C79_index (k : Nat) (d : D) :
    (∀ a, d.ids[k]? = some a → getId k d = ([], .go (some a) d)) ∧
    (k = d.ids.length → getId k d = newAnon d ∧ ∃ e l, (getId k d).1 = e :: l ∧ e.site = .leaf) ∧
    (d.ids.length < k → getId k d = ([], .go none { d with err := true })) := by
  refine ⟨fun a h => by unfold getId; rw [h], ?_, fun h => ?_⟩
  · rintro rfl
    have e : getId d.ids.length d = newAnon d := by
      unfold getId
      rw [List.getElem?_eq_none (Nat.le_refl _)]
      exact if_pos rfl
    refine ⟨e, ?_⟩
    rw [e]
    obtain ⟨l, h1⟩ := bind_log (leaf .leaf []) (fun r => match r with
      | none => fail
      | some a => do
        let c ← ask .anonIndex
        keepAnon a c.ok) d
    obtain ⟨l', h2⟩ := bind_log (ask .leaf) (fun c => mem fun s => if ([] : List Nat).all s.live then YOwn.getLeaf s c.leaf else none) d
    exact ⟨_, _, h1.trans (congrArg (· ++ l) h2), rfl⟩
  · unfold getId
    rw [List.getElem?_eq_none (Nat.le_of_lt h)]
    exact if_neg (Nat.ne_of_gt h)

end Cowl
