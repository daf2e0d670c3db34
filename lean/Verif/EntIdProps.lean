import Verif.EntId
/-!
# Property C69: identifiers of entities
-/
namespace Cowl
open EntId

namespace EntId

/-- Calls a client may make: the allocator gives an unused block; only references the client owns
are released; only entities it has got are retained. -/
def Fair (s : St) : Op → Prop
  | .get mem _ _ => ∀ a, mem.block = some a → s.cell a = none
  | .retain a => s.cell a ≠ none
  | .release a => 0 < s.ext a

/-- The library after any history of such calls. -/
inductive Reaches : St → Prop
  | init : Reaches .init
  | step {s op s' r} : Reaches s → Fair s op → s.step op = some (s', r) → Reaches s'

/-- Numbers are positions; entities stay. -/
structure Inv (s : St) : Prop where
  tbl : s.tbl = s.map
  at_ : ∀ (i a : Nat), s.map[i]? = some a → ∃ e, s.cell a = some e ∧ e.id = i
  mem : ∀ a e, s.cell a = some e → s.map[e.id]? = some a
  count : ∀ a e, s.cell a = some e → s.rc a = s.ext a + 1
  dead : ∀ a, s.cell a = none → s.ext a = 0
  uniq : ∀ a b e f, s.cell a = some e → s.cell b = some f → e.type = f.type → e.iri = f.iri → a = b

theorem inv_init : Inv .init where
  tbl := rfl
  at_ i a h := by simp [St.init] at h
  mem a e h := by simp [St.init] at h
  count a e h := by simp [St.init] at h
  dead a _ := rfl
  uniq a b e f h := by simp [St.init] at h

theorem find_some {s : St} {t : OType} {i : Iri} {a : Nat} (h : s.find t i = some a) :
    ∃ e, s.cell a = some e ∧ e.type = t ∧ e.iri = i := by
  have := List.find?_some h
  cases hc : s.cell a with
  | none => simp [hc] at this
  | some e => simp [hc] at this; exact ⟨e, rfl, this.2, this.1⟩

theorem find_none {s : St} (hi : Inv s) {t : OType} {i : Iri} (h : s.find t i = none) {a : Nat} {e : Ent}
    (hc : s.cell a = some e) : ¬ (e.type = t ∧ e.iri = i) := by
  rintro ⟨h1, h2⟩
  have hm : a ∈ s.tbl := by
    rw [hi.tbl]
    exact List.mem_of_getElem? (hi.mem a e hc)
  have := List.find?_eq_none.mp h a hm
  simp [hc, h1, h2] at this

/-- One reference more. -/
theorem inv_more {s : St} (hi : Inv s) {a : Nat} {e : Ent} (h : s.cell a = some e) :
    Inv { s with rc := fun b => if b = a then s.rc b + 1 else s.rc b
                 ext := fun b => if b = a then s.ext b + 1 else s.ext b } where
  tbl := hi.tbl
  at_ := hi.at_
  mem := hi.mem
  count b f hb := by
    have := hi.count b f hb
    show (if b = a then _ else _) = (if b = a then _ else _) + 1
    by_cases e : b = a <;> simp [e] at this ⊢ <;> omega
  dead b hb := by
    have hne : b ≠ a := fun e => by
      subst e
      have hb' : s.cell b = none := hb
      rw [h] at hb'; simp at hb'
    show (if b = a then _ else _) = 0
    rw [if_neg hne]; exact hi.dead b hb
  uniq := hi.uniq

theorem step_inv {s : St} (hi : Inv s) {op : Op} (hf : Fair s op) :
    ∃ s' r, s.step op = some (s', r) ∧ Inv s' ∧ s.map <+: s'.map ∧
      (∀ a e, s.cell a = some e → s'.cell a = some e) := by
  cases op with
  | get mem t i =>
    refine ⟨(s.get mem t i).1, (s.get mem t i).2, rfl, ?_⟩
    unfold St.get
    cases hfd : s.find t i with
    | some a =>
      obtain ⟨e, hc, _⟩ := find_some hfd
      exact ⟨inv_more hi hc, List.prefix_refl _, fun _ _ h => h⟩
    | none =>
      dsimp only
      by_cases hp : mem.put
      · rw [if_neg (by simp [hp])]
        cases hb : mem.block with
        | none => exact ⟨hi, List.prefix_refl _, fun _ _ h => h⟩
        | some a =>
          dsimp only
          by_cases hq : mem.push
          · rw [if_neg (by simp [hq])]
            have hca := hf a hb
            have hmap : ∀ j b, s.map[j]? = some b → b ≠ a := fun j b h e => by
              obtain ⟨f, h1, _⟩ := hi.at_ j b h
              rw [e, hca] at h1; simp at h1
            refine ⟨⟨?_, ?_, ?_, ?_, ?_, ?_⟩, List.prefix_append _ _, ?_⟩
            · show s.tbl ++ [a] = s.map ++ [a]
              rw [hi.tbl]
            · intro j b h
              have h : (s.map ++ [a])[j]? = some b := h
              show ∃ e, (if b = a then some _ else s.cell b) = some e ∧ e.id = j
              by_cases hj : j < s.map.length
              · rw [List.getElem?_append_left hj] at h
                rw [if_neg (hmap j b h)]
                exact hi.at_ j b h
              · rw [List.getElem?_append_right (by omega)] at h
                have hj' : j - s.map.length = 0 := by
                  rcases Nat.eq_zero_or_pos (j - s.map.length) with h0 | h0
                  · exact h0
                  · rw [List.getElem?_eq_none (by simp; omega)] at h; simp at h
                rw [hj'] at h
                simp at h
                subst h
                exact ⟨_, if_pos rfl, by show s.map.length = j; omega⟩
            · intro b e h
              have h : (if b = a then some _ else s.cell b) = some e := h
              show (s.map ++ [a])[e.id]? = some b
              by_cases hba : b = a
              · subst hba
                simp at h
                subst h
                simp
              · rw [if_neg hba] at h
                have h1 := hi.mem b e h
                rw [List.getElem?_append_left (List.getElem?_eq_some_iff.mp h1).1]
                exact h1
            · intro b e h
              have h : (if b = a then some _ else s.cell b) = some e := h
              show (if b = a then 2 else s.rc b) = (if b = a then 1 else s.ext b) + 1
              by_cases hba : b = a
              · simp [hba]
              · rw [if_neg hba] at h
                simp [hba, hi.count b e h]
            · intro b h
              have h : (if b = a then some _ else s.cell b) = none := h
              show (if b = a then 1 else s.ext b) = 0
              by_cases hba : b = a
              · simp [hba] at h
              · rw [if_neg hba] at h ⊢
                exact hi.dead b h
            · intro b c e f h1 h2 ht hii
              have h1 : (if b = a then some _ else s.cell b) = some e := h1
              have h2 : (if c = a then some _ else s.cell c) = some f := h2
              by_cases hba : b = a
              · by_cases hcaa : c = a
                · rw [hba, hcaa]
                · rw [if_pos hba] at h1; rw [if_neg hcaa] at h2
                  cases h1
                  exact absurd ⟨ht.symm, hii.symm⟩ (find_none hi hfd h2)
              · rw [if_neg hba] at h1
                by_cases hcaa : c = a
                · rw [if_pos hcaa] at h2
                  cases h2
                  exact absurd ⟨ht, hii⟩ (find_none hi hfd h1)
                · rw [if_neg hcaa] at h2
                  exact hi.uniq b c e f h1 h2 ht hii
            · intro b e h
              show (if b = a then some _ else s.cell b) = some e
              have : b ≠ a := fun e => by rw [e, hca] at h; simp at h
              rw [if_neg this]; exact h
          · rw [if_pos (by simp [hq])]
            exact ⟨hi, List.prefix_refl _, fun _ _ h => h⟩
      · rw [if_pos (by simp [hp])]
        exact ⟨hi, List.prefix_refl _, fun _ _ h => h⟩
  | retain a =>
    obtain ⟨e, hc⟩ := Option.ne_none_iff_exists'.mp hf
    refine ⟨_, some a, ?_, inv_more hi hc, List.prefix_refl _, fun _ _ h => h⟩
    simp only [St.step, St.retain, hc, Option.map_some]
  | release a =>
    have hx : 0 < s.ext a := hf
    obtain ⟨e, hc⟩ : ∃ e, s.cell a = some e := by
      cases hc : s.cell a with
      | none => have := hi.dead a hc; omega
      | some e => exact ⟨e, rfl⟩
    have hrc := hi.count a e hc
    refine ⟨{ s with rc := fun b => if b = a then s.rc b - 1 else s.rc b
                     ext := fun b => if b = a then s.ext b - 1 else s.ext b }, none, ?_, ?_, List.prefix_refl _,
      fun _ _ h => h⟩
    · have h1 : ¬ s.rc a = 0 := by omega
      have h2 : ¬ s.rc a = 1 := by omega
      simp only [St.step, St.release, St.drop, hc, if_neg h1, if_neg h2, Option.map_some]
    · refine ⟨hi.tbl, hi.at_, hi.mem, fun b f hb => ?_, fun b hb => ?_, hi.uniq⟩
      · have := hi.count b f hb
        show (if b = a then _ else _) = (if b = a then _ else _) + 1
        by_cases e : b = a
        · subst e; simp; omega
        · simp [e]; exact this
      · have := hi.dead b hb
        show (if b = a then _ else _) = 0
        by_cases e : b = a <;> simp [e] at this ⊢ <;> omega

theorem reaches_inv {s : St} (h : Reaches s) : Inv s := by
  induction h with
  | init => exact inv_init
  | @step s op s' r _ hf he ih =>
    obtain ⟨s₁, r₁, h1, h2, _⟩ := step_inv ih hf
    rw [h1] at he
    obtain ⟨rfl, rfl⟩ := Prod.mk.inj (Option.some.inj he)
    exact h2

/-- Nobody but the library owns the entities: they all go. -/
theorem dropAll_last : ∀ (l : List Nat) (s : St), l.Nodup → (∀ a ∈ l, s.cell a ≠ none ∧ s.rc a = 1) →
    ∃ s', St.dropAll l s = some s' ∧ (∀ b, s'.cell b = if b ∈ l then none else s.cell b)
  | [], s, _, _ => ⟨s, rfl, fun b => by simp⟩
  | a :: l, s, hn, h => by
    obtain ⟨h1, h2⟩ := h a List.mem_cons_self
    obtain ⟨e, hc⟩ := Option.ne_none_iff_exists'.mp h1
    have hn' := List.nodup_cons.mp hn
    have hd : s.drop a = some { s with tbl := s.tbl.erase a, cell := fun b => if b = a then none else s.cell b
                                       rc := fun b => if b = a then 0 else s.rc b } := by
      simp [St.drop, hc, h2]
    rw [St.dropAll, hd]
    obtain ⟨s', g1, g2⟩ := dropAll_last l { s with tbl := s.tbl.erase a, cell := fun b => if b = a then none else s.cell b
                                                   rc := fun b => if b = a then 0 else s.rc b } hn'.2
      (fun b hb => by
        have hba : b ≠ a := fun e => hn'.1 (e ▸ hb)
        have := h b (List.mem_cons_of_mem _ hb)
        simpa [hba] using this)
    refine ⟨s', g1, fun b => ?_⟩
    rw [g2]
    by_cases e : b = a
    · subst e; simp
    · simp [e]

theorem map_nodup {s : St} (hi : Inv s) : s.map.Nodup := by
  refine List.pairwise_iff_getElem.mpr fun i j hi' hj' hlt h => ?_
  obtain ⟨e, h1, h2⟩ := hi.at_ i s.map[i] (by simp)
  obtain ⟨f, h3, h4⟩ := hi.at_ j s.map[j] (by simp)
  rw [h, h3] at h1
  cases h1
  omega

end EntId

/-! ## C69 -/

/-- No call is undefined, and entities stay where they are, with their type, IRI and number, and
numbers stay with their entities. -/
theorem C69_stay {s : St} (h : Reaches s) {op : Op} (hf : Fair s op) :
    ∃ s' r, s.step op = some (s', r) ∧ (∀ a e, s.cell a = some e → s'.cell a = some e) ∧
      ∀ id a, s.withId id = some a → s'.withId id = some a := by
  obtain ⟨s', r, h1, _, h3, h4⟩ := step_inv (reaches_inv h) hf
  refine ⟨s', r, h1, h4, fun id a hw => ?_⟩
  obtain ⟨l, hl⟩ := h3
  unfold St.withId at hw ⊢
  by_cases hlt : id < s.map.length
  · rw [if_pos hlt] at hw
    rw [← hl, if_pos (by rw [List.length_append]; omega), List.getElem?_append_left hlt]
    exact hw
  · rw [if_neg hlt] at hw; simp at hw

/-- An entity is found by its number, and only by that one. -/
theorem C69_id {s : St} (h : Reaches s) (id a : Nat) :
    s.withId id = some a ↔ s.getId a = some id := by
  have hi := reaches_inv h
  unfold St.withId St.getId
  constructor
  · intro hw
    by_cases hlt : id < s.map.length
    · rw [if_pos hlt] at hw
      obtain ⟨e, h1, h2⟩ := hi.at_ id a hw
      rw [h1, Option.map_some, h2]
    · rw [if_neg hlt] at hw; simp at hw
  · intro hg
    cases hc : s.cell a with
    | none => rw [hc] at hg; simp at hg
    | some e =>
      rw [hc, Option.map_some] at hg
      cases hg
      have := hi.mem a e hc
      rw [if_pos (List.getElem?_eq_some_iff.mp this).1]
      exact this

/-- Distinct entities have distinct numbers, and they are distinct exactly if their types or IRIs
are. -/
theorem C69_unique {s : St} (h : Reaches s) {a b : Nat} {e f : Ent} (ha : s.cell a = some e)
    (hb : s.cell b = some f) : (e.id = f.id ↔ a = b) ∧ (a = b ↔ e.type = f.type ∧ e.iri = f.iri) := by
  have hi := reaches_inv h
  refine ⟨⟨fun hid => ?_, fun hab => ?_⟩, fun hab => ?_, fun ⟨h1, h2⟩ => hi.uniq a b e f ha hb h1 h2⟩
  · have h1 := hi.mem a e ha
    have h2 := hi.mem b f hb
    rw [hid, h2] at h1
    exact (Option.some.inj h1).symm
  · subst hab
    rw [ha] at hb; cases hb; rfl
  · subst hab
    rw [ha] at hb; cases hb; exact ⟨rfl, rfl⟩

/-- The numbers in use are those from 0 up to the number of entities (in any state). -/
theorem C69_dense (s : St) : ∃ n, ∀ id, (∃ a, s.withId id = some a) ↔ id < n := by
  refine ⟨s.map.length, fun id => ?_⟩
  unfold St.withId
  by_cases hlt : id < s.map.length
  · simp [hlt]
  · simp [hlt]

/-- Asking for an entity gives one with the type and IRI asked for; a new one gets the next
number. -/
theorem C69_get {s : St} (h : Reaches s) {mem : Mem} {t : OType} {i : Iri}
    (hf : Fair s (.get mem t i)) {s' : St} {a : Nat} (hg : s.get mem t i = (s', some a)) :
    ∃ e, s'.cell a = some e ∧ e.type = t ∧ e.iri = i ∧ s'.ext a = s.ext a + 1 ∧
      (s.cell a = none → s.withId e.id = none ∧ ∀ id, id < e.id → ∃ b, s.withId id = some b) := by
  have hi := reaches_inv h
  unfold St.get at hg
  cases hfd : s.find t i with
  | some b =>
    rw [hfd] at hg
    obtain ⟨rfl, hb⟩ := Prod.mk.inj hg
    cases hb
    obtain ⟨e, hc, h1, h2⟩ := find_some hfd
    exact ⟨e, hc, h1, h2, by simp, fun hn => by rw [hc] at hn; simp at hn⟩
  | none =>
    rw [hfd] at hg
    dsimp only at hg
    by_cases hp : mem.put
    · rw [if_neg (by simp [hp])] at hg
      cases hb : mem.block with
      | none => rw [hb] at hg; simp at hg
      | some b =>
        rw [hb] at hg
        dsimp only at hg
        by_cases hq : mem.push
        · rw [if_neg (by simp [hq])] at hg
          obtain ⟨rfl, hb'⟩ := Prod.mk.inj hg
          cases hb'
          refine ⟨⟨t, i, s.map.length⟩, by simp, rfl, rfl, ?_, fun _ => ⟨?_, fun id hid => ?_⟩⟩
          · simp [hi.dead a (hf a hb)]
          · simp [St.withId]
          · have hid : id < s.map.length := hid
            exact ⟨s.map[id], by simp [St.withId, hid]⟩
        · rw [if_pos (by simp [hq])] at hg; simp at hg
    · rw [if_pos (by simp [hp])] at hg; simp at hg

/-- If memory is lacking, nothing has changed. -/
theorem C69_null {s s' : St} {mem : Mem} {t : OType} {i : Iri} (hg : s.get mem t i = (s', none)) : s' = s := by
  unfold St.get at hg
  cases hfd : s.find t i with
  | some b => rw [hfd] at hg; simp at hg
  | none =>
    rw [hfd] at hg
    dsimp only at hg
    split at hg
    · exact (Prod.mk.inj hg).1.symm
    · split at hg
      · exact (Prod.mk.inj hg).1.symm
      · split at hg
        · exact (Prod.mk.inj hg).1.symm
        · simp at hg

/-- If the client has released all its references, the end of the library frees everything. -/
theorem C69_end {s : St} (h : Reaches s) (he : ∀ a, s.ext a = 0) :
    ∃ s', s.deinit = some s' ∧ ∀ a, s'.cell a = none := by
  have hi := reaches_inv h
  obtain ⟨s', h1, h2⟩ := dropAll_last s.map { s with tbl := [] } (map_nodup hi) (fun a ha => by
    obtain ⟨i, hlt, hia⟩ := List.getElem_of_mem ha
    obtain ⟨e, hc, _⟩ := hi.at_ i a (by rw [List.getElem?_eq_getElem hlt, hia])
    refine ⟨?_, ?_⟩
    · show s.cell a ≠ none
      rw [hc]; simp
    · show s.rc a = 1
      rw [hi.count a e hc, he a])
  refine ⟨{ s' with map := [] }, by rw [St.deinit, h1]; rfl, fun a => ?_⟩
  show s'.cell a = none
  rw [h2]
  by_cases hm : a ∈ s.map
  · rw [if_pos hm]
  · rw [if_neg hm]
    show s.cell a = none
    cases hc : s.cell a with
    | none => rfl
    | some e => exact absurd (List.mem_of_getElem? (hi.mem a e hc)) hm

namespace EntId

/-- A class and a datatype with the same IRI; the class is asked for again, and all references
to it are released. -/
def exOps : List Op := [
  .get ⟨true, some 10, true⟩ .ceClass ⟨[65], []⟩, .get ⟨true, some 20, true⟩ .drDatatype ⟨[65], []⟩,
  .get ⟨true, some 30, true⟩ .ceClass ⟨[65], []⟩, .release 10, .release 10 ]

/-- Calls one after the other. -/
def runs : St → List Op → Option St
  | s, [] => some s
  | s, op :: l => (s.step op).bind fun q => runs q.1 l

end EntId

example : ∃ s, runs .init exOps = some s ∧ s.map = [10, 20] ∧ s.withId 0 = some 10 ∧ s.getId 20 = some 1 ∧
    s.ext 10 = 0 ∧ s.withId 2 = none :=
  ⟨_, rfl, by decide, by decide, by decide, by decide, by decide⟩

example : ∃ s, Reaches s ∧ s.map = [10, 20] ∧ Fair s (.release 20) := by
  refine ⟨_, .step (op := .get ⟨true, some 20, true⟩ .drDatatype ⟨[65], []⟩)
    (.step (op := .get ⟨true, some 10, true⟩ .ceClass ⟨[65], []⟩) .init (fun a h => ?_) rfl) (fun a h => ?_) rfl,
    by decide, show 0 < _ by decide⟩
  · rfl
  · cases h; rfl

end Cowl
