import Verif.OwnOps
/-!
# Properties C66, C67, C68: memory of vectors, literals and composites
-/
namespace Cowl
open Own

/-! ## An example -/

namespace Own

/-- Two object properties. -/
def exProp (c : UInt8) : Obj := .prim (.ent .objProp ⟨[c], []⟩)

/-- The client has the properties at 1 and 2. -/
def exA : St := (St.start.new 1 (.leaf (exProp 65))).new 2 (.leaf (exProp 66))

/-- Vectors of the two, in both orders. -/
def exB : St := (exA.new 3 (.vec false [1, 2])).new 4 (.vec false [2, 1])

/-- Equivalence axioms of the two vectors. -/
def exC : St := (exB.new 5 (.comp .aEquivObjProp false [3] 0)).new 6 (.comp .aEquivObjProp false [4] 0)

theorem owned {s : St} {a : Nat} (h : 0 < s.ext a) : Usable s a := ⟨a, h, .refl a⟩

theorem blocks_one {s : St} {a : Nat} (h : s.cell a = none) : Blocks s [some a] :=
  ⟨fun m hm b e => by
      simp only [List.mem_singleton] at hm
      rw [hm] at e; cases e; exact h,
    List.pairwise_singleton _ _⟩

theorem exA_reaches {P : Op → Prop} (hP : ∀ op, Calm op → P op) : Reaches P exA :=
  .step (op := .leaf 2 (exProp 66)) (.step (op := .leaf 1 (exProp 65)) .start rfl (hP _ trivial) rfl) rfl
    (hP _ trivial) rfl

theorem exB_reaches {P : Op → Prop} (hP : ∀ op, Calm op → P op) : Reaches P exB := by
  refine .step (s := exA.new 3 (.vec false [1, 2])) (op := .vector true (some 4) [2, 1]) (r := some 4) ?_
    ⟨blocks_one rfl, ?_⟩ (hP _ ⟨rfl, rfl⟩) rfl
  · refine .step (op := .vector true (some 3) [1, 2]) (r := some 3) (exA_reaches hP) ⟨blocks_one rfl, ?_⟩
      (hP _ ⟨rfl, rfl⟩) rfl
    intro x hx
    simp only [List.mem_cons, List.not_mem_nil, or_false] at hx
    rcases hx with rfl | rfl
    · exact owned (by decide)
    · exact owned (by decide)
  · intro x hx
    simp only [List.mem_cons, List.not_mem_nil, or_false] at hx
    rcases hx with rfl | rfl
    · exact owned (by decide)
    · exact owned (by decide)

theorem exC_reaches {P : Op → Prop} (hP : ∀ op, Calm op → P op) : Reaches P exC := by
  refine .step (s := exB.new 5 (.comp .aEquivObjProp false [3] 0))
    (op := .make (some 6) ⟨.aEquivObjProp, 1, .annot⟩ [4] none 0) (r := some 6) ?_
    ⟨blocks_one rfl, by decide, rfl, ?_, by simp⟩ (hP _ rfl) rfl
  · refine .step (op := .make (some 5) ⟨.aEquivObjProp, 1, .annot⟩ [3] none 0) (r := some 5) (exB_reaches hP)
      ⟨blocks_one rfl, by decide, rfl, ?_, by simp⟩ (hP _ rfl) rfl
    intro x hx
    simp only [List.mem_singleton] at hx
    subst hx
    exact owned (by decide)
  · intro x hx
    simp only [List.mem_singleton] at hx
    subst hx
    exact owned (by decide)

end Own

/-! ## C66: objects own what they refer to -/

/-- No call of the client is undefined, and constructors return an object. -/
theorem C66_defined {s : St} (h : Reaches Calm s) {op : Op} (hf : Fair s op) (hc : Calm op) :
    ∃ s' r, s.step op = some (s', r) ∧ (op.gives = true → r ≠ none) := by
  obtain ⟨s', r, h1, h2⟩ := step_spec (reaches_inv (fun _ => sturdy_of_calm) h) hf (sturdy_of_calm hc)
  exact ⟨s', r, h1, h2.null hc⟩

/-- An object is there if and only if the client can get to it from something it owns. -/
theorem C66_live {s : St} (h : Reaches Calm s) (a : Nat) : s.live a = true ↔ Usable s a :=
  live_iff_usable (reaches_inv (fun _ => sturdy_of_calm) h) a

/-- The count of an object is the number of references to it: those of the client, and those of
other objects. -/
theorem C66_count {s : St} (h : Reaches Calm s) {a : Nat} (ha : s.live a = true) :
    s.rc a = s.ext a + held s a := by
  have := (reaches_inv (fun _ => sturdy_of_calm) h).count a ha
  simpa using this

/-- If the client has released everything it owned, no memory is in use, and none is lost. -/
theorem C66_rest {s : St} (h : Reaches Calm s) (he : ∀ a, s.ext a = 0) :
    (∀ a, s.cell a = none) ∧ s.dom = [] ∧ s.lost = 0 := by
  have hi := reaches_inv (fun _ => sturdy_of_calm) h
  have hd : ∀ a, s.live a = false := fun a => by
    rcases hl : s.live a with _ | _
    · rfl
    · obtain ⟨r, hr, _⟩ := usable_of_live hi hl
      rw [he r] at hr; omega
  refine ⟨fun a => dead_iff_cell.mp (hd a), ?_, reaches_lost h⟩
  exact List.eq_nil_iff_forall_not_mem.mpr fun a ha => by
    have := (hi.dom a).mp ha
    rw [hd a] at this; exact absurd this (by simp)

/-- The client owns one reference more to what is returned, one less to what it releases, and
nothing else changes hands. -/
theorem C66_refs {s : St} (h : Reaches Calm s) {op : Op} (hf : Fair s op) (hc : Calm op) {s' r}
    (he : s.step op = some (s', r)) (b : Nat) :
    s'.ext b = s.ext b + (if r = some b then 1 else 0) - (if op.takes = some b then 1 else 0) := by
  obtain ⟨s₁, r₁, h1, h2⟩ := step_spec (reaches_inv (fun _ => sturdy_of_calm) h) hf (sturdy_of_calm hc)
  rw [h1] at he
  obtain ⟨rfl, rfl⟩ := Prod.mk.inj (Option.some.inj he)
  exact h2.ext b

/-- Every constructor passes as many fields as are released with the object. -/
theorem C66_ctors : (∀ k ∈ ctors, k.n = k.type.fieldCount) ∧ ∀ t ∈ naryTypes, t.fieldCount = 1 :=
  ⟨fun k hk => (ctors_ok k hk).1, fun t ht => (nary_ok t ht).1⟩

/-- Two axioms that share their operands. -/
example : Reaches Calm exC ∧ exC.rc 1 = 3 ∧ exC.ext 1 = 1 ∧ held exC 1 = 2 :=
  ⟨exC_reaches fun _ h => h, by decide, by decide, by decide⟩

/-- Releasing the last reference to a vector that only an axiom owns, then the axiom, frees both,
and the properties stay. -/
example : ∃ s s', exC.release 3 = some s ∧ s.live 3 = true ∧ s.release 5 = some s' ∧
    s'.live 3 = false ∧ s'.live 5 = false ∧ s'.live 1 = true ∧ s'.rc 1 = 2 :=
  ⟨_, _, rfl, by decide, rfl, by decide, by decide, by decide, by decide⟩

example : Fair exC (.release 3) ∧ Calm (.release 3) := ⟨show 0 < exC.ext 3 by decide, trivial⟩

/-! ## C67: lack of memory does no harm

The full statement is that, whatever allocations fail, no call is undefined, and a call that
returns NULL has changed nothing and lost no memory. It fails (`C67_fails`, `C67_fails_lost`).
What is missing in `C67_partial`: the calls that `Sturdy` excludes, buffers of vectors, and
property chains. -/

/-- A call that returns NULL has changed nothing: all objects, the references of the client and
the counts are the same. -/
theorem C67_partial {s : St} (h : Reaches Sturdy s) {op : Op} (hf : Fair s op) (hs : Sturdy op) :
    ∃ s' r, s.step op = some (s', r) ∧
      (op.gives = true → op.target = none → r = none →
        (∀ b, s'.cell b = s.cell b) ∧ (∀ b, s'.ext b = s.ext b) ∧
          ∀ b, s.live b = true → s'.rc b = s.rc b) := by
  have hi := reaches_inv (fun _ h => h) h
  obtain ⟨s', r, h1, h2⟩ := step_spec hi hf hs
  refine ⟨s', r, h1, fun hg ht hr => ?_⟩
  have he : ∀ b, s'.ext b = s.ext b := fun b => by
    have h3 : op.takes = none := by
      cases op <;> first | rfl | (simp [Op.gives] at hg)
    rw [h2.ext, hr, h3]; simp
  have hc := same_cells hi h2.inv (fun b => h2.keep b (by rw [ht]; simp)) he
  exact ⟨hc, he, fun b hb => same_rc hi h2.inv hc he hb⟩

/-- Adding to a vector fails without changing anything. -/
theorem C67_add {s : St} {v x : Nat} (hf : Fair s (.add false v x)) :
    s.step (.add false v x) = some (s, none) := by
  obtain ⟨_, ⟨b, items, hc⟩, _⟩ := hf
  simp [St.step, St.add, hc]

/-- After failures, too, what is there is what the client can get to. -/
theorem C67_live {s : St} (h : Reaches Sturdy s) (a : Nat) :
    (s.live a = true ↔ Usable s a) ∧ (s.live a = true → s.rc a = s.ext a + held s a) := by
  have hi := reaches_inv (fun _ h => h) h
  exact ⟨live_iff_usable hi a, fun ha => by simpa using hi.count a ha⟩

/-- The second allocation of an n-ary axiom fails: its vector is freed again. -/
example : ∃ s', exA.step (.nary true (some 3) none .aEquivObjProp [1, 2]) = some (s', none) ∧
    s'.live 3 = false ∧ s'.rc 1 = 1 :=
  ⟨_, rfl, by decide, by decide⟩

example : Reaches Sturdy exA ∧ Fair exA (.nary true (some 3) none .aEquivObjProp [1, 2]) := by
  refine ⟨exA_reaches fun _ => sturdy_of_calm, ⟨fun m hm a e => ?_, by simp⟩, by decide, ?_⟩
  · simp only [List.mem_cons, List.not_mem_nil, or_false] at hm
    rcases hm with rfl | rfl
    · cases e; rfl
    · simp at e
  · intro x hx
    simp only [List.mem_cons, List.not_mem_nil, or_false] at hx
    rcases hx with rfl | rfl
    · exact owned (by decide)
    · exact owned (by decide)

/-- If there is no memory, literals with a language tag, ordered vectors, and `HasKey` axioms
without data properties are undefined behaviour. -/
theorem C67_fails : ∃ s, Reaches Sturdy s ∧
    (Fair s (.literal none 1 2 true) ∧ s.step (.literal none 1 2 true) = none) ∧
    (Fair s (.ordered none) ∧ s.step (.ordered none) = none) ∧
    (Fair s (.hasKey none none (some 5) 1 (some 3) none none) ∧
      s.step (.hasKey none none (some 5) 1 (some 3) none none) = none) := by
  have hb : Blocks exB [none] := ⟨by simp, by simp⟩
  refine ⟨exB, exB_reaches fun _ => sturdy_of_calm,
    ⟨⟨hb, owned (by decide), owned (by decide)⟩, rfl⟩, ⟨hb, rfl⟩, ⟨⟨⟨?_, by simp⟩, owned (by decide), ?_, by simp, by simp⟩, rfl⟩⟩
  · intro m hm a e
    simp only [List.mem_cons, List.not_mem_nil, or_false] at hm
    rcases hm with rfl | rfl | rfl
    · simp at e
    · simp at e
    · cases e; rfl
  · intro x hx
    simp only [Option.mem_def, Option.some.injEq] at hx
    subst hx
    exact ⟨owned (by decide), false, [1, 2], rfl⟩

/-- If there is memory for the items but not for the vector, the items' buffer is lost. A failed
property chain has marked the vector. -/
theorem C67_fails_lost : ∃ s, Reaches Sturdy s ∧
    (Fair s (.vector true none [1, 2]) ∧
      ∃ s', s.step (.vector true none [1, 2]) = some (s', none) ∧ s'.lost = s.lost + 1) ∧
    (Fair s (.chain none 3 1 none) ∧ s.cell 3 = some (.vec false [1, 2]) ∧
      ∃ s', s.step (.chain none 3 1 none) = some (s', none) ∧ s'.cell 3 = some (.vec true [1, 2])) := by
  have hb : Blocks exB [none] := ⟨by simp, by simp⟩
  refine ⟨exB, exB_reaches fun _ => sturdy_of_calm, ⟨⟨hb, ?_⟩, _, rfl, rfl⟩,
    ⟨⟨hb, owned (by decide), ⟨false, [1, 2], rfl⟩, owned (by decide), by simp⟩, rfl, _, rfl, rfl⟩⟩
  intro x hx
  simp only [List.mem_cons, List.not_mem_nil, or_false] at hx
  rcases hx with rfl | rfl
  · exact owned (by decide)
  · exact owned (by decide)

/-! ## C68: objects do not change

The full statement is that no call changes the value of an object that is there before and
after. It fails for property chains and for the annotations of an ontology (`C68_fails`,
`C68_fails_add`), which change a vector in place. What is missing in `C68_partial`: these two
calls; `C68_elsewhere` tells which objects they do not change. -/

/-- All other calls leave the values of all objects as they are. -/
theorem C68_partial {s : St} (h : Reaches Sturdy s) {op : Op} (hf : Fair s op) (hs : Sturdy op)
    (ht : op.target = none) {s' r} (he : s.step op = some (s', r)) (n : Nat) {a : Nat}
    (ha : s.live a = true) (ha' : s'.live a = true) : s'.view n a = s.view n a := by
  have hi := reaches_inv (fun _ h => h) h
  obtain ⟨s₁, r₁, h1, h2⟩ := step_spec hi hf hs
  rw [h1] at he
  obtain ⟨rfl, rfl⟩ := Prod.mk.inj (Option.some.inj he)
  exact view_keep hi h2.inv h2.keep n a (by rw [ht]; simp) ha ha'

/-- Objects that do not contain the vector that is changed keep their values. -/
theorem C68_elsewhere {s : St} (h : Reaches Sturdy s) {op : Op} (hf : Fair s op) (hs : Sturdy op)
    {s' r} (he : s.step op = some (s', r)) (n : Nat) {a : Nat}
    (hv : ∀ v, op.target = some v → ¬ Path s a v)
    (ha : s.live a = true) (ha' : s'.live a = true) : s'.view n a = s.view n a := by
  have hi := reaches_inv (fun _ h => h) h
  obtain ⟨s₁, r₁, h1, h2⟩ := step_spec hi hf hs
  rw [h1] at he
  obtain ⟨rfl, rfl⟩ := Prod.mk.inj (Option.some.inj he)
  exact view_keep hi h2.inv h2.keep n a hv ha ha'

/-- Objects that the client owns are still there afterwards, unless it releases them. -/
theorem C68_there {s : St} (h : Reaches Sturdy s) {op : Op} (hf : Fair s op) (hs : Sturdy op)
    (ht : op.target = none) (hr : op.takes = none) {s' r} (he : s.step op = some (s', r)) {a : Nat}
    (ha : s.live a = true) : s'.live a = true := by
  have hi := reaches_inv (fun _ h => h) h
  obtain ⟨s₁, r₁, h1, h2⟩ := step_spec hi hf hs
  rw [h1] at he
  obtain ⟨rfl, rfl⟩ := Prod.mk.inj (Option.some.inj he)
  exact live_kept hi h2.inv (fun b => h2.keep b (by rw [ht]; simp))
    (fun b hb => by rw [h2.ext, hr]; simp; omega) ha

/-- The values of the two axioms. -/
example : exC.view 4 5 = some (.comp .aEquivObjProp false [.vec false [exProp 65, exProp 66]] 0) ∧
    exC.view 4 6 = some (.comp .aEquivObjProp false [.vec false [exProp 66, exProp 65]] 0) :=
  ⟨rfl, rfl⟩

/-- Two equivalence axioms are equal; after a property chain is made of the properties of the
first, they are not. -/
theorem C68_fails : ∃ s op s' r x y x', Reaches Calm s ∧ Fair s op ∧ Calm op ∧
    s.step op = some (s', r) ∧ s.view 4 5 = some x ∧ s.view 4 6 = some y ∧ x.equals y = true ∧
    s'.view 4 5 = some x' ∧ s'.view 4 6 = some y ∧ x'.equals y = false := by
  refine ⟨exC, .chain (some 7) 3 1 none, _, _, _, _, _, exC_reaches fun _ h => h,
    ⟨blocks_one rfl, owned (by decide), ⟨false, [1, 2], rfl⟩, owned (by decide), by simp⟩, rfl, rfl, rfl, rfl,
    by decide, rfl, rfl, by decide⟩

namespace Own

/-- The annotations of an ontology (at 8) hold one annotation (at 2, seen as a leaf), and a
declaration of the class at 1 has been created with these annotations. -/
def exD : St :=
  ((((exA.new 8 (.vec true [])).add true 8 2).getD .start)).new 9 (.comp .aDecl true [1, 8] 0)

theorem exD_reaches : Reaches Calm exD := by
  refine .step (s := ((exA.new 8 (.vec true [])).add true 8 2).getD .start)
    (op := .make (some 9) ⟨.aDecl, 1, .annot⟩ [1] (some 8) 0) (r := some 9) ?_
    ⟨blocks_one rfl, by decide, rfl, ?_, ?_⟩ rfl rfl
  · refine .step (s := exA.new 8 (.vec true [])) (op := .add true 8 2) (r := none) ?_
      ⟨owned (by decide), ⟨true, [], rfl⟩, owned (by decide), fun h => ?_⟩ rfl rfl
    · exact .step (op := .ordered (some 8)) (r := some 8) (exA_reaches fun _ h => h) (blocks_one rfl) rfl
        (by
          show some (_, some 8) = some (_, some 8)
          congr 2
          unfold St.new
          congr 1
          funext b
          by_cases e : b = 8 <;> simp [e, Cell.setBit])
    · cases h with
      | step hm _ => exact absurd (show _ ∈ ([] : List Nat) from hm) (by simp)
  · intro x hx
    simp only [List.mem_singleton] at hx
    subst hx
    exact owned (by decide)
  · intro x hx
    simp only [Option.mem_def, Option.some.injEq] at hx
    subst hx
    exact ⟨owned (by decide), fun _ => ⟨true, [2], rfl⟩⟩

end Own

/-- An axiom that has been created with the annotations of an ontology gets another one when
the ontology does. -/
theorem C68_fails_add : ∃ s op s' r x x', Reaches Calm s ∧ Fair s op ∧ Calm op ∧
    s.step op = some (s', r) ∧ s.view 4 9 = some x ∧ s'.view 4 9 = some x' ∧ x.equals x' = false := by
  refine ⟨exD, .add true 8 1, _, _, _, _, exD_reaches,
    ⟨owned (by decide), ⟨true, [2], rfl⟩, owned (by decide), fun h => ?_⟩, rfl, rfl, rfl, rfl, by decide⟩
  cases h with
  | step hm _ => exact absurd (show _ ∈ ([] : List Nat) from hm) (by simp)

end Cowl
