import Verif.Vector
import Verif.IterProps
/-! # C08, C42, C48: vectors and tables -/
namespace Cowl
open ObjSpec IterSpec

/-! ## Lemmas -/

theorem perm_getElem_eraseIdx {α : Type} (xs : List α) (i : Nat) (h : i < xs.length) :
    xs.Perm (xs[i] :: xs.eraseIdx i) := by
  rw [List.eraseIdx_eq_take_drop_succ]
  refine List.Perm.trans ?_ List.perm_middle
  rw [← List.drop_eq_getElem_cons h, List.take_append_drop]

theorem swapRemove_perm {α : Type} (xs : List α) (i : Nat) (h : i < xs.length) :
    (xs[i] :: swapRemove xs i).Perm xs := by
  obtain ⟨ys, l, rfl⟩ : ∃ ys l, xs = ys ++ [l] := by
    refine ⟨xs.dropLast, xs.getLast (by intro hx; simp [hx] at h), (List.dropLast_concat_getLast _).symm⟩
  unfold swapRemove
  simp only [List.getLast?_append, List.getLast?_singleton, Option.some_or]
  by_cases hi : i < ys.length
  · rw [List.set_append_left _ _ hi, List.dropLast_append_of_ne_nil (by simp)]
    simp only [List.dropLast_singleton, List.append_nil]
    rw [List.getElem_append_left hi]
    have h1 : (ys.set i l).Perm (l :: ys.eraseIdx i) := by
      rw [List.set_eq_take_append_cons_drop, if_pos hi, List.eraseIdx_eq_take_drop_succ]
      exact List.perm_middle
    have h2 : ys.Perm (ys[i] :: ys.eraseIdx i) := perm_getElem_eraseIdx _ i hi
    have h3 := (h1.cons ys[i]).trans (List.Perm.swap l ys[i] _)
    exact h3.trans ((List.Perm.cons l h2.symm).trans (by simpa using (List.perm_append_singleton l ys).symm))
  · have hi' : i = ys.length := by simp at h; omega
    subst hi'
    simpa using (List.perm_append_singleton l ys).symm

theorem bump_count (refs : Nat → Int) (a b : Nat) (d : Int) :
    bump refs a d b = refs b + (if b = a then d else 0) := by
  unfold bump; split <;> simp

/-! ## C42 -/

/-- C42, `cowl_vector_contains`: in any vector, true iff some item equals the object. -/
theorem C42_contains (v : Vec) (x : Ref) :
    v.contains x = true ↔ ∃ y ∈ v.items, y.obj.equals x.obj = true := by
  rw [Vec.contains, Vec.indexOf, List.findIdx?_isSome, List.any_eq_true]

/-- C42, `cowl_vector_add`: the object is appended and retained, nothing else changes. -/
theorem C42_add (v : Vec) (x : Ref) :
    (v.add x).items = v.items ++ [x] ∧ (v.add x).ordered = v.ordered ∧
    (∀ a, (v.add x).refs a = v.refs a + if a = x.addr then 1 else 0) :=
  ⟨rfl, rfl, fun a => by simp only [Vec.add, bump_count]⟩

/-- C42, `cowl_vector_remove`: it returns true iff an equal item is there; then
exactly one equal item (the first) is taken out and all others stay, in the same
order if the vector is ordered; otherwise nothing changes. -/
theorem C42_remove (v : Vec) (x : Ref) :
    ((v.remove x).2 = true ↔ ∃ y ∈ v.items, y.obj.equals x.obj = true) ∧
    ((v.remove x).2 = true → ∃ l y r, v.items = l ++ y :: r ∧ y.obj.equals x.obj = true ∧
      (∀ z ∈ l, z.obj.equals x.obj = false) ∧
      (v.remove x).1.items.Perm (l ++ r) ∧
      (v.ordered = true → (v.remove x).1.items = l ++ r)) ∧
    ((v.remove x).2 = false → (v.remove x).1 = v) := by
  unfold Vec.remove
  rw [← C42_contains, Vec.contains]
  cases h : v.indexOf x with
  | none => simp
  | some i =>
    simp only [Option.isSome_some, reduceCtorEq, false_implies, and_true, forall_const,
      true_and]
    rw [Vec.indexOf, List.findIdx?_eq_some_iff_getElem] at h
    obtain ⟨hi, h1, h2⟩ := h
    refine ⟨v.items.take i, v.items[i], v.items.drop (i + 1), ?_, h1, ?_, ?_, ?_⟩
    · rw [← List.drop_eq_getElem_cons hi, List.take_append_drop]
    · intro z hz
      obtain ⟨j, hj, rfl⟩ := List.mem_iff_getElem.1 hz
      have := h2 j (by simp at hj; omega)
      rw [List.getElem_take]
      simpa using this
    · rw [← List.eraseIdx_eq_take_drop_succ]
      split
      · exact List.Perm.refl _
      · have h3 := swapRemove_perm v.items i hi
        have h4 : v.items.Perm (v.items[i] :: v.items.eraseIdx i) :=
          perm_getElem_eraseIdx _ i hi
        exact (List.perm_cons _).1 (h3.trans h4)
    · intro ho
      rw [if_pos ho, List.eraseIdx_eq_take_drop_succ]

/-- `Owns v`: the vector holds one reference to each of its items per occurrence, and
no other. -/
def Owns (v : Vec) : Prop := ∀ a, v.refs a = ((v.items.map Ref.addr).count a : Nat)

/-- C42, ownership, proved part: additions keep it, and so does a removal in which the
first equal item is the very object passed in. Missing: removal through an
equal but distinct object, where it is false (`C42_ownership_fails`). -/
theorem C42_ownership_partial :
    Owns Vec.empty ∧ (∀ v x, Owns v → Owns (v.add x)) ∧
    (∀ v x, Owns v → (∀ y ∈ v.items, y.obj.equals x.obj = true → y.addr = x.addr) →
      Owns (v.remove x).1) := by
  refine ⟨fun a => by simp [Vec.empty], fun v x h a => ?_, fun v x h hx a => ?_⟩
  · rw [(C42_add v x).2.2 a, h a, (C42_add v x).1]
    simp only [List.map_append, List.count_append, List.map_cons, List.map_nil]
    by_cases ha : a = x.addr
    · subst ha; simp
    · have : ¬ x.addr = a := fun h => ha h.symm
      simp [ha, this]
  · obtain ⟨h1, h2, h3⟩ := C42_remove v x
    cases hr : (v.remove x).2 with
    | false => rw [h3 hr]; exact h a
    | true =>
      obtain ⟨l, y, r, e1, e2, _, e4, _⟩ := h2 hr
      have hya : y.addr = x.addr := hx y (by rw [e1]; simp) e2
      have hrefs : (v.remove x).1.refs a = v.refs a + if a = x.addr then -1 else 0 := by
        unfold Vec.remove at hr ⊢
        split at hr
        · cases hr
        · simp only [bump_count]
      rw [hrefs, h a, (e4.map Ref.addr).count_eq, e1]
      simp only [List.map_append, List.map_cons, List.count_append, List.count_cons, hya]
      by_cases ha : a = x.addr
      · subst ha; simp; omega
      · have : ¬ x.addr = a := fun h => ha h.symm
        simp [ha, this]

/-- Two equal but distinct `ObjectComplementOf(A)`. -/
def complA (addr : Nat) : Ref := ⟨addr, getImpl .ceObjCompl [sampleCls "A"] none⟩

example : Owns (Vec.empty.add (complA 1)) ∧
    ((Vec.empty.add (complA 1)).remove (complA 1)).2 = true := by
  refine ⟨C42_ownership_partial.2.1 _ _ C42_ownership_partial.1, by decide +kernel⟩

/-- C42's ownership is false in general: removing through an equal object releases
the wrong one. The removed item keeps a reference nobody owns (leak) and the
argument loses one the vector never had (use after free). -/
theorem C42_ownership_fails :
    let v := Vec.empty.add (complA 1)
    let w := (v.remove (complA 2)).1
    Owns v ∧ (v.remove (complA 2)).2 = true ∧ w.items.length = 0 ∧
      w.refs 1 = 1 ∧ w.refs 2 = -1 ∧ ¬ Owns w := by
  intro v w
  have h1 : w.items.length = 0 := by decide +kernel
  have h2 : w.refs 2 = -1 := by decide +kernel
  refine ⟨C42_ownership_partial.2.1 _ _ C42_ownership_partial.1, by decide +kernel, h1,
    by decide +kernel, h2, fun h => ?_⟩
  have := h 2
  rw [h2, List.eq_nil_of_length_eq_zero h1] at this
  simp at this

/-! ## C08 -/

/-- The tables are of the same kind, have the same number of entries, and each
entry of the first has one in the second with an equal key and, for maps, an equal
value (or no value on both sides). -/
def SameTable (a b : Table) : Prop :=
  a.isMap = b.isMap ∧ a.entries.length = b.entries.length ∧
  ∀ e ∈ a.entries, ∃ e' ∈ b.entries, Same e.1.obj e'.1.obj ∧
    (a.isMap = true → match e.2, e'.2 with
      | some v, some v' => Same v.obj v'.obj
      | none, none => True
      | _, _ => False)

/-- A table whose objects do not list an operand twice, without two equal keys. -/
def RegularTable (t : Table) : Prop :=
  (∀ e ∈ t.entries, Regular false e.1.obj ∧ ∀ v, e.2 = some v → Regular false v.obj) ∧
  t.entries.Pairwise fun e e' => ¬ Same e.1.obj e'.1.obj

theorem pairwise_unique {α : Type} {R : α → α → Prop} (hsym : ∀ x y, R x y → R y x) {xs : List α}
    (h : xs.Pairwise fun x y => ¬ R x y) {x y : α} (hx : x ∈ xs) (hy : y ∈ xs) (hxy : R x y) :
    x = y := by
  induction h with
  | nil => cases hx
  | cons h1 _ ih =>
    rcases List.mem_cons.1 hx with hx | hx <;> rcases List.mem_cons.1 hy with hy | hy
    · rw [hx, hy]
    · rw [hx] at hxy; exact absurd hxy (h1 y hy)
    · rw [hy] at hxy; exact absurd (hsym _ _ hxy) (h1 x hx)
    · exact ih hx hy

/-- Lookup finds the entry with the same key, if any. -/
theorem find_iff (t : Table) (h : RegularTable t) (k : Obj) (hk : Regular false k)
    (e : Ref × Option Ref) : t.find k = some e ↔ e ∈ t.entries ∧ Same e.1.obj k := by
  unfold Table.find
  constructor
  · intro hf
    have h1 := List.mem_of_find?_eq_some hf
    have h2 := List.find?_some hf
    exact ⟨h1, (C05_equals_iff_same _ _ (h.1 e h1).1 hk).1 h2⟩
  · rintro ⟨h1, h2⟩
    have heq := (C05_equals_iff_same _ _ (h.1 e h1).1 hk).2 h2
    cases hf : t.entries.find? fun e => e.1.obj.equals k with
    | none =>
      rw [List.find?_eq_none] at hf
      exact absurd heq (hf e h1)
    | some e' =>
      have h3 := List.mem_of_find?_eq_some hf
      have h4 := List.find?_some hf
      have h5 := (C05_equals_iff_same _ _ (h.1 e' h3).1 hk).1 h4
      rw [pairwise_unique (R := fun (x y : Ref × Option Ref) => Same x.1.obj y.1.obj)
        (fun _ _ h => h.symm) h.2 h3 h1 (h5.trans h2.symm)]

theorem setEquals_iff (a b : Table) (ha : RegularTable a) (hb : RegularTable b) :
    setEquals a b = true ↔ a.entries.length = b.entries.length ∧
      ∀ e ∈ a.entries, ∃ e' ∈ b.entries, Same e.1.obj e'.1.obj := by
  unfold setEquals
  rw [Bool.and_eq_true, beq_iff_eq, List.all_eq_true]
  refine and_congr_right fun _ => forall_congr' fun e => forall_congr' fun he => ?_
  constructor
  · intro h
    obtain ⟨e', h'⟩ := Option.isSome_iff_exists.1 h
    have := (find_iff b hb _ (ha.1 e he).1 e').1 h'
    exact ⟨e', this.1, this.2.symm⟩
  · rintro ⟨e', h1, h2⟩
    rw [(find_iff b hb _ (ha.1 e he).1 e').2 ⟨h1, h2.symm⟩]; rfl

/-- Value part of one loop step. -/
theorem getValue_eq (a b : Table) (ha : RegularTable a) (hb : RegularTable b)
    {e e' : Ref × Option Ref} (he : e ∈ a.entries) (he' : e' ∈ b.entries)
    (hs : Same e.1.obj e'.1.obj) : b.getValue e.1.obj = e'.2 := by
  unfold Table.getValue
  rw [(find_iff b hb _ (ha.1 e he).1 e').2 ⟨he', hs.symm⟩]

/-- C08, sets: table equality is equality of the sets of keys. -/
theorem C08_sets (a b : Table) (ha : RegularTable a) (hb : RegularTable b)
    (hset : a.isMap = false) : a.equals b = true ↔ SameTable a b := by
  unfold Table.equals SameTable
  rw [hset]
  cases hs : setEquals a b with
  | false =>
    have := mt (setEquals_iff a b ha hb).2 (by simp [hs])
    simp only [Bool.not_false, if_true, Bool.false_eq_true, false_iff]
    rintro ⟨_, h2, h3⟩
    exact this ⟨h2, fun e he => let ⟨e', h1, h2, _⟩ := h3 e he; ⟨e', h1, h2⟩⟩
  | true =>
    have := (setEquals_iff a b ha hb).1 hs
    cases hbm : b.isMap <;> simp [this.1]
    intro e v he
    obtain ⟨e', h1, h2⟩ := this.2 (e, v) he
    exact ⟨e'.1, ⟨e'.2, h1⟩, h2⟩

/-- C08, tables that are the same compare equal. -/
theorem C08_complete (a b : Table) (ha : RegularTable a) (hb : RegularTable b)
    (h : SameTable a b) : a.equals b = true := by
  obtain ⟨h1, h2, h3⟩ := h
  have hse : setEquals a b = true := (setEquals_iff a b ha hb).2
    ⟨h2, fun e he => let ⟨e', h1, h2, _⟩ := h3 e he; ⟨e', h1, h2⟩⟩
  unfold Table.equals
  rw [hse, ← h1]
  cases hm : a.isMap with
  | false => rfl
  | true =>
    simp only [Bool.not_true, Bool.false_eq_true, if_false]
    have key : ∀ es : List (Ref × Option Ref), (∀ e ∈ es, e ∈ a.entries) → tableLoop b es = true := by
      intro es
      induction es with
      | nil => intro _; rfl
      | cons e es ih =>
        intro hes
        obtain ⟨e', he', hk, hv⟩ := h3 e (hes e (by simp))
        have hg := getValue_eq a b ha hb (hes e (by simp)) he' hk
        have hv := hv hm
        unfold tableLoop
        rw [hg]
        dsimp only
        split
        · rfl
        · rename_i hne
          cases h4 : e.2 with
          | none =>
            cases h5 : e'.2 with
            | none => rw [h4, h5] at hne; exact absurd rfl hne
            | some v' => rw [h4, h5] at hv; exact absurd hv id
          | some v =>
            cases h5 : e'.2 with
            | none => rw [h4, h5] at hv; exact absurd hv id
            | some v' =>
              rw [h4, h5] at hv
              have := (C05_equals_iff_same _ _ ((ha.1 e (hes e (by simp))).2 v h4)
                ((hb.1 e' he').2 v' h5)).2 hv
              simp only [this, if_true]
              exact ih fun e he => hes e (by simp [he])
    exact key a.entries fun _ h => h

/-- C08, proved part for maps: if no value of one map is, as a pointer, the value of
the other for the same key, equality is entrywise. Missing: shared values, where
the comparison ends too early (`C08_fails`). -/
theorem C08_partial (a b : Table) (ha : RegularTable a) (hb : RegularTable b)
    (hdis : ∀ e ∈ a.entries, (b.getValue e.1.obj).map Ref.addr ≠ e.2.map Ref.addr) :
    a.equals b = true ↔ SameTable a b := by
  refine ⟨fun h => ?_, C08_complete a b ha hb⟩
  cases hm : a.isMap with
  | false => exact (C08_sets a b ha hb hm).1 h
  | true =>
    unfold Table.equals at h
    rw [hm] at h
    cases hs : setEquals a b with
    | false => simp [hs] at h
    | true =>
      have hse := (setEquals_iff a b ha hb).1 hs
      cases hbm : b.isMap with
      | false => simp [hs, hbm] at h
      | true =>
        simp only [hs, hbm, Bool.not_true, Bool.false_eq_true, if_false] at h
        refine ⟨by rw [hm, hbm], hse.1, ?_⟩
        have key : ∀ es : List (Ref × Option Ref), (∀ e ∈ es, e ∈ a.entries) →
            tableLoop b es = true → ∀ e ∈ es, ∃ e' ∈ b.entries, Same e.1.obj e'.1.obj ∧
              (a.isMap = true → match e.2, e'.2 with
                | some v, some v' => Same v.obj v'.obj
                | none, none => True
                | _, _ => False) := by
          intro es
          induction es with
          | nil => intro _ _ e he; cases he
          | cons e es ih =>
            intro hes hl
            obtain ⟨e', he', hk⟩ := hse.2 e (hes e (by simp))
            have hg := getValue_eq a b ha hb (hes e (by simp)) he' hk
            unfold tableLoop at hl
            dsimp only at hl
            rw [if_neg (hdis e (hes e (by simp))), hg] at hl
            cases h4 : e.2 with
            | none => rw [h4] at hl; simp at hl
            | some v =>
              cases h5 : e'.2 with
              | none => rw [h4, h5] at hl; simp at hl
              | some v' =>
                rw [h4, h5] at hl
                cases hq : v.obj.equals v'.obj with
                | false => simp [hq] at hl
                | true =>
                  simp only [hq, if_true] at hl
                  have hv := (C05_equals_iff_same _ _ ((ha.1 e (hes e (by simp))).2 v h4)
                    ((hb.1 e' he').2 v' h5)).1 hq
                  intro e2 he2
                  rcases List.mem_cons.1 he2 with he2 | he2
                  · rw [he2]
                    refine ⟨e', he', hk, fun _ => ?_⟩
                    rw [h4, h5]; exact hv
                  · exact ih (fun e he => hes e (by simp [he])) hl e2 he2
        exact key a.entries (fun _ h => h) h

/-- Sample keys and values. -/
def refOf (addr : Nat) (n : String) : Ref := ⟨addr, sampleCls n⟩

/-- `{A ↦ X, B ↦ y}` -/
def mapOf (v1 v2 : Ref) : Table := ⟨true, [(refOf 1 "A", some v1), (refOf 2 "B", some v2)]⟩

theorem mapOf_regular (v1 v2 : Ref) (h1 : Regular false v1.obj) (h2 : Regular false v2.obj) :
    RegularTable (mapOf v1 v2) := by
  refine ⟨?_, ?_⟩
  · intro e he
    simp only [mapOf, List.mem_cons, List.not_mem_nil, or_false] at he
    rcases he with rfl | rfl
    · exact ⟨by simp [refOf, Regular, sampleCls], fun v hv => by cases hv; exact h1⟩
    · exact ⟨by simp [refOf, Regular, sampleCls], fun v hv => by cases hv; exact h2⟩
  · simp only [mapOf, List.pairwise_cons, List.mem_cons, List.not_mem_nil, or_false]
    refine ⟨fun e he => ?_, fun e he => absurd he id, List.Pairwise.nil⟩
    subst he
    exact sampleCls_ne

/-- The hypotheses of the table theorems on two maps with equal, distinct values. -/
example : RegularTable (mapOf (complA 11) (complA 12)) ∧
    RegularTable (mapOf (complA 21) (complA 22)) ∧
    (∀ e ∈ (mapOf (complA 11) (complA 12)).entries,
      ((mapOf (complA 21) (complA 22)).getValue e.1.obj).map Ref.addr ≠ e.2.map Ref.addr) := by
  have hr : ∀ n, Regular false (complA n).obj := fun n => by
    simp [complA, getImpl, Regular, RegularFields, RegularItems, nFields, OType.fieldCount,
      OType.flags, sampleCls]
  refine ⟨mapOf_regular _ _ (hr _) (hr _), mapOf_regular _ _ (hr _) (hr _), ?_⟩
  intro e he
  simp only [mapOf, List.mem_cons, List.not_mem_nil, or_false] at he
  rcases he with rfl | rfl <;> decide +kernel

/-- C08 is false as stated: as soon as one value is shared, later entries are not
compared. `{A ↦ X, B ↦ A}` equals `{A ↦ X, B ↦ B}`. -/
theorem C08_fails :
    let a := mapOf (refOf 3 "X") (refOf 1 "A")
    let b := mapOf (refOf 3 "X") (refOf 2 "B")
    RegularTable a ∧ RegularTable b ∧ a.equals b = true ∧ ¬ SameTable a b := by
  intro a b
  have hr : ∀ m n, Regular false (refOf m n).obj := fun m n => by simp [refOf, Regular, sampleCls]
  have hsame : ∀ x y, Same (sampleCls x) (sampleCls y) → (sampleCls x).equals (sampleCls y) = true :=
    fun x y h => (C05_equals_iff_same _ _ (by simp [Regular, sampleCls])
      (by simp [Regular, sampleCls])).2 h
  refine ⟨mapOf_regular _ _ (hr _ _) (hr _ _), mapOf_regular _ _ (hr _ _) (hr _ _),
    by decide +kernel, ?_⟩
  rintro ⟨_, _, h⟩
  obtain ⟨e', he', h1, h2⟩ := h (refOf 2 "B", some (refOf 1 "A")) (by simp [a, mapOf])
  simp only [b, mapOf, List.mem_cons, List.not_mem_nil, or_false] at he'
  rcases he' with rfl | rfl
  · exact absurd (hsame _ _ h1) (by decide +kernel)
  · exact absurd (hsame _ _ (h2 rfl)) (by decide +kernel)

/-! ## C48 -/

/-- The occurrences in a table: of keys and values. -/
def OccursTable (p : Prim) (t : Table) : Prop :=
  ∃ e ∈ t.entries, Occurs p e.1.obj ∨ ∃ v, e.2 = some v ∧ Occurs p v.obj

/-- C48, proved part: on tables without values the primitives of all keys are visited
with early stop, so `cowl_has_primitive` is exact. Missing: maps (`C48_fails`). -/
theorem C48_partial (t : Table) (hw : ∀ e ∈ t.entries, WellFormed e.1.obj ∧ e.2 = none) (p : Prim) :
    tableHasPrimitive t p = true ↔ OccursTable p t := by
  have key : ∀ es : List (Ref × Option Ref), (∀ e ∈ es, e.2 = none) →
      ∀ (fl : BitVec 8) (k : Callback Unit Prim) (s : Unit), tableIterPrims fl k es s =
        iterList k ((es.flatMap fun e => occ e.1.obj).filter fun p => fl.getLsbD p.bit) s := by
    intro es
    induction es with
    | nil => intro _ fl k s; simp [tableIterPrims, iterList]
    | cons e es ih =>
      intro h fl k s
      rw [tableIterPrims, List.flatMap_cons, List.filter_append, iterList_append, iterPrims_eq,
        h e (by simp)]
      simp only [ih (fun e he => h e (by simp [he]))]
  unfold tableHasPrimitive
  rw [key _ (fun e he => (hw e he).2)]
  have hcb : containsPrimCb p = fun (s : Unit) q => (s, if decide (q = p) then Ret.no else .ok) := by
    funext s q; simp [containsPrimCb]
  rw [hcb, iterList_found (fun q : Prim => decide (q = p)), List.any_eq_true]
  simp only [List.mem_filter, List.mem_flatMap, decide_eq_true_eq]
  constructor
  · rintro ⟨x, ⟨⟨e, he, hx⟩, _⟩, rfl⟩
    exact ⟨e, he, .inl ((mem_occ_iff _ _ (hw e he).1).1 hx)⟩
  · rintro ⟨e, he, h | ⟨v, hv, _⟩⟩
    · exact ⟨p, ⟨⟨e, he, (mem_occ_iff _ _ (hw e he).1).2 h⟩, ownBit p⟩, rfl⟩
    · rw [(hw e he).2] at hv; cases hv

example : ∀ e ∈ (⟨false, [(complA 1, none)]⟩ : Table).entries, WellFormed e.1.obj ∧ e.2 = none := by
  intro e he
  simp only [List.mem_cons, List.not_mem_nil, or_false] at he
  subst he
  simp [complA, getImpl, WellFormed, WellFormedAll, nFields, OType.fieldCount, OType.flags, sampleCls]

/-- C48 is false for maps: in `{A ↦ B}` the value B occurs, but the table denies it,
because the stop inside the value is reported as the code of the key. -/
theorem C48_fails :
    let t : Table := ⟨true, [(refOf 1 "A", some (refOf 2 "B"))]⟩
    OccursTable (.ent .cls (sampleIri "B")) t ∧
    tableHasPrimitive t (.ent .cls (sampleIri "B")) = false := by
  refine ⟨⟨_, List.mem_cons_self .., .inr ⟨_, rfl, ?_⟩⟩, by decide +kernel⟩
  exact .self _

end Cowl
