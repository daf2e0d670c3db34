import Verif.FuncStdTable
/-!
# Lemmas: sentences of the program are documents of a variant of the standard, and conversely
-/
namespace Cowl.Std
open YOwn (NT Term rules)
open Cowl.Gram

theorem gen_append : ∀ {α β : List GSym} {u v : List Term}, Gen α u → Gen β v → Gen (α ++ β) (u ++ v)
  | _, _, _, _, .nil, h => h
  | _, _, _, _, .t h, g => .t (gen_append h g)
  | _, _, _, _, .n hr h1 h2, g => by
    rw [List.append_assoc]; exact .n hr h1 (gen_append h2 g)

theorem gen_rule {r : YOwn.Rule} {w : List Term} (hr : r ∈ rules) (h : Gen r.rhs w) : Gen [.n r.lhs] w := by
  have := Gen.n hr h .nil
  rwa [List.append_nil] at this

theorem mem_rhss {x : NT} {α : List GSym} (h : α ∈ rhss x) : ∃ r ∈ rules, r.lhs = x ∧ r.rhs = α := by
  obtain ⟨r, hr, e⟩ := List.mem_map.1 h
  obtain ⟨h1, h2⟩ := List.mem_filter.1 hr
  exact ⟨r, h1, of_decide_eq_true h2, e⟩

theorem rhss_mem {r : YOwn.Rule} (h : r ∈ rules) : r.rhs ∈ rhss r.lhs :=
  List.mem_map.2 ⟨r, List.mem_filter.2 ⟨h, decide_eq_true rfl⟩, rfl⟩

theorem gen_rhs {x : NT} {α : List GSym} {w : List Term} (h : α ∈ rhss x) (hw : Gen α w) : Gen [.n x] w := by
  obtain ⟨r, hr, rfl, rfl⟩ := mem_rhss h
  exact gen_rule hr hw

/-! ## From the standard to the program -/

/-- The words that the program has for a nonterminal of the standard. -/
abbrev Prg (y : N) (w : List Term) : Prop := Gen [.n (ntOf y)] w

theorem main_kind {x : NT} {y : N} (hk : kind x = .main y) (hc : check x = true) : ntOf y = x := by
  unfold check at hc
  rw [hk] at hc
  simp only [Bool.and_eq_true] at hc
  exact of_decide_eq_true hc.1.1

theorem ntOf_check {y : N} : check (ntOf y) = true := (checks_main y).1

theorem ntOf_kind {y : N} : kind (ntOf y) = .main y := by
  have h := (checks_main y).2
  cases hk : kind (ntOf y) with
  | main z => rw [hk] at h; exact congrArg _ h
  | _ => rw [hk] at h; exact h.elim

theorem main_ntOf {x : NT} {y : N} (hk : kind x = .main y) : x = ntOf y := by
  cases x <;> first | (cases hk; rfl) | cases hk

theorem symSy_n {x : NT} {y' : Sy} (h : symSy (.n x) = some y') : ∃ y, kind x = .main y ∧ y' = .n y := by
  have e : symSy (.n x) = match kind x with | .main y => some (.n y) | _ => none := rfl
  rw [e] at h
  split at h
  · rename_i y hk; cases h; exact ⟨y, hk, rfl⟩
  · cases h

/-- Sequences of symbols that are no lists. -/
theorem syms_gen : ∀ {α : List GSym} {β : List Sy} {w : List Term}, α.mapM symSy = some β → SSeq Prg β w → Gen α w
  | [], β, w, h, s => by
    cases h
    cases s; exact .nil
  | x :: α, β, w, h, s => by
    rw [List.mapM_cons] at h
    cases hx : symSy x with
    | none => rw [hx] at h; cases h
    | some y =>
      cases hα : α.mapM symSy with
      | none => rw [hx, hα] at h; cases h
      | some β' =>
        rw [hx, hα] at h
        cases h
        obtain ⟨u, v, rfl, h1, h2⟩ := sseq_one.1 s
        have ih := syms_gen hα h2
        cases x with
        | t x =>
          cases hx
          obtain ⟨_, rfl, rfl⟩ := h1
          exact .t ih
        | n x =>
          obtain ⟨y, hk, rfl⟩ := symSy_n hx
          obtain ⟨a, _, rfl, h1, rfl⟩ := h1
          rw [List.append_nil]
          have h1 : Gen [.n (ntOf y)] a := h1
          rw [← main_ntOf hk] at h1
          exact gen_append h1 ih

theorem base_gen {x : NT} (hc : check x = true) {β : List Sy} (hβ : β ∈ base x) {w : List Term} (h : SSeq Prg β w) :
    Gen [.n x] w := by
  unfold base at hβ
  cases hk : kind x with
  | main y =>
    rw [hk] at hβ
    rw [List.mem_singleton.1 hβ] at h
    obtain ⟨a, _, rfl, h1, rfl⟩ := h
    rw [List.append_nil, main_ntOf hk]
    exact h1
  | trans b =>
    rw [hk] at hβ
    unfold check at hc
    rw [hk] at hc
    have hc : (rhss x).map (fun α => α.mapM symSy) = b.map some := of_decide_eq_true hc
    have : some β ∈ b.map some := List.mem_map.2 ⟨β, hβ, rfl⟩
    rw [← hc] at this
    obtain ⟨α, hα, e⟩ := List.mem_map.1 this
    exact gen_rhs hα (syms_gen e h)
  | star => rw [hk] at hβ; cases hβ
  | list1 => rw [hk] at hβ; cases hβ
  | list2 => rw [hk] at hβ; cases hβ

theorem baseA_iff {I : N → List Term → Prop} {x : NT} {w : List Term} : Any I (baseA x) w ↔ AnySeq I (base x) w := by
  constructor
  · rintro ⟨α, hα, h⟩
    obtain ⟨β, hβ, rfl⟩ := List.mem_map.1 hα
    exact ⟨β, hβ, asem_syms.1 h⟩
  · rintro ⟨β, hβ, h⟩
    exact ⟨_, List.mem_map.2 ⟨β, hβ, rfl⟩, asem_syms.2 h⟩

theorem any_many {I : N → List Term → Prop} {l : List (List Sy)} {w : List Term} :
    Any I [[.many l]] w ↔ StarOf (AnySeq I l) w := by
  constructor
  · rintro ⟨α, hα, h⟩
    rw [List.mem_singleton.1 hα] at h
    obtain ⟨u, _, rfl, h, rfl⟩ := h
    rwa [List.append_nil]
  · intro h
    exact ⟨_, List.mem_singleton.2 rfl, w, [], (List.append_nil w).symm, h, rfl⟩

/-- Left recursion: a list and repetitions of an element after it. -/
theorem star_gen {x : NT} {P : List Term → Prop} (hP : ∀ {u w}, Gen [.n x] u → P w → Gen [.n x] (u ++ w)) {w : List Term}
    (h : StarOf P w) : ∀ {u}, Gen [.n x] u → Gen [.n x] (u ++ w) := by
  induction h with
  | nil => intro u hu; rwa [List.append_nil]
  | cons h _ ih => intro u hu; rw [← List.append_assoc]; exact ih (hP hu h)

/-- All nonterminals with rules are checked. -/
theorem rule_check {r : YOwn.Rule} (h : r ∈ rules) : check r.lhs = true := List.all_eq_true.1 checks_rules r h

/-- The elements of lists are checked. -/
theorem nt_check (x : NT) : check x = true := by cases x <;> decide +kernel

theorem g_gen {x : NT} {w : List Term} (h : Any Prg (g x) w) : Gen [.n x] w := by
  have hc := nt_check x
  have hc' := hc
  unfold g at h
  unfold check at hc
  cases hk : kind x with
  | main y =>
    rw [hk] at h
    obtain ⟨α, hα, h⟩ := h
    have e : α = [Sy.n y].map .s := List.mem_singleton.1 hα
    rw [e, asem_syms] at h
    exact base_gen hc' (by unfold base; rw [hk]; exact List.mem_singleton.2 rfl) h
  | trans b =>
    rw [hk] at h
    obtain ⟨α, hα, h⟩ := h
    obtain ⟨β, hβ, rfl⟩ := List.mem_map.1 hα
    rw [asem_syms] at h
    exact base_gen hc' (by unfold base; rw [hk]; exact hβ) h
  | star es =>
    rw [hk] at h hc
    simp only [Bool.and_eq_true] at hc
    have hr : rhss x = [] :: es.map fun e => [.n x, .n e] := of_decide_eq_true hc.1
    have h0 : Gen [.n x] [] := gen_rhs (by rw [hr]; exact List.mem_cons_self ..) .nil
    have := star_gen (x := x) (P := AnySeq Prg (es.flatMap base)) ?_ (any_many.1 h) h0
    · exact this
    · rintro u w hu ⟨β, hβ, hw⟩
      obtain ⟨e, he, hβ⟩ := List.mem_flatMap.1 hβ
      have hm : [.n x, .n e] ∈ rhss x := by
        rw [hr]; exact List.mem_cons_of_mem _ (List.mem_map.2 ⟨e, he, rfl⟩)
      exact gen_rhs hm (gen_append hu (base_gen (nt_check e) hβ hw))
  | list1 e =>
    rw [hk] at h hc
    simp only [Bool.and_eq_true] at hc
    have hr : rhss x = [[.n e], [.n x, .n e]] := of_decide_eq_true hc.1
    obtain ⟨u, v, rfl, h1, h2⟩ := any_cross.1 h
    obtain ⟨β, hβ, h1⟩ := baseA_iff.1 h1
    have h0 : Gen [.n x] u := gen_rhs (by rw [hr]; exact List.mem_cons_self ..) (base_gen (nt_check e) hβ h1)
    refine star_gen (x := x) (P := AnySeq Prg (base e)) ?_ (any_many.1 h2) h0
    rintro u w hu ⟨β, hβ, hw⟩
    exact gen_rhs (by rw [hr]; simp) (gen_append hu (base_gen (nt_check e) hβ hw))
  | list2 l e =>
    rw [hk] at h hc
    simp only [Bool.and_eq_true] at hc
    have hr : rhss x = [[.n l, .n e]] := of_decide_eq_true hc.1
    have hl := hc.2
    split at hl
    · rename_i e' hkl
      obtain rfl : e' = e := of_decide_eq_true hl
      have hcl := nt_check l
      unfold check at hcl
      rw [hkl] at hcl
      simp only [Bool.and_eq_true] at hcl
      have hrl : rhss l = [[.n e'], [.n l, .n e']] := of_decide_eq_true hcl.1
      obtain ⟨u, v, rfl, h1, h2⟩ := any_cross.1 h
      obtain ⟨v, z, rfl, h2, h3⟩ := any_cross.1 h2
      obtain ⟨β, hβ, h1⟩ := baseA_iff.1 h1
      obtain ⟨γ, hγ, h2⟩ := baseA_iff.1 h2
      have h0 : Gen [.n l] u := gen_rhs (by rw [hrl]; exact List.mem_cons_self ..) (base_gen (nt_check _) hβ h1)
      have h2 := base_gen (nt_check _) hγ h2
      -- the last element is that of the outer list
      have key : ∀ {z : List Term}, StarOf (AnySeq Prg (base e')) z → ∀ {u v}, Gen [.n l] u → Gen [.n e'] v →
          Gen [.n x] (u ++ (v ++ z)) := by
        intro z hz
        induction hz with
        | nil =>
          intro u v hu hv
          rw [List.append_nil]
          exact gen_rhs (by rw [hr]; exact List.mem_cons_self ..) (gen_append hu hv)
        | cons hb _ ih =>
          intro u v hu hv
          obtain ⟨δ, hδ, hb⟩ := hb
          have := ih (gen_rhs (x := l) (by rw [hrl]; simp) (gen_append hu hv)) (base_gen (nt_check e') hδ hb)
          simp only [List.append_assoc] at this ⊢
          exact this
      exact key (any_many.1 h3) h0 h2
    · cases hl

theorem prod_gen : ∀ {α : List GSym} {w : List Term}, Any Prg (prod α) w → Gen α w
  | [], w, ⟨a, ha, h⟩ => by rw [List.mem_singleton.1 ha] at h; cases h; exact .nil
  | x :: α, w, h => by
    obtain ⟨u, v, rfl, h1, h2⟩ := any_cross.1 h
    have ih := prod_gen h2
    cases x with
    | t x =>
      obtain ⟨a, ha, h1⟩ := h1
      have e : a = [Sy.t x].map .s := List.mem_singleton.1 ha
      rw [e, asem_syms] at h1
      obtain ⟨_, rfl, rfl⟩ := h1
      exact .t ih
    | n x => exact gen_append (g_gen h1) ih

theorem prg_closed (y : N) (w : List Term) (h : Any Prg (flat (rule prg y)) w) : Prg y w := by
  obtain ⟨a, ha, h⟩ := h
  have hc := @ntOf_check y
  unfold check at hc
  rw [ntOf_kind] at hc
  simp only [Bool.and_eq_true, List.all_eq_true, List.any_eq_true, List.contains_iff_mem] at hc
  obtain ⟨α, hα, hm⟩ := hc.2 a ha
  exact gen_rhs hα (prod_gen ⟨a, hm, h⟩)

/-- Documents of the variant of the standard are sentences. -/
theorem document_sentence {w : List Term} (h : Document prg w) : Sentence w := by
  obtain ⟨a, ha, h1⟩ := words_flat prg_closed h
  have e : a = [Sy.n .ontologyDocument].map .s := List.mem_singleton.1 ha
  rw [e, asem_syms] at h1
  obtain ⟨u, _, rfl, h2, rfl⟩ := h1
  rw [List.append_nil]
  exact h2

/-! ## From the program to the standard -/

theorem star_snoc {P : List Term → Prop} {u w : List Term} (h : StarOf P u) (hw : P w) : StarOf P (u ++ w) := by
  induction h with
  | nil => have := StarOf.cons hw .nil; rwa [List.append_nil] at this
  | cons h _ ih => rw [List.append_assoc]; exact .cons h ih

/-- One more element at the end is one more at the beginning. -/
theorem star_turn {P : List Term → Prop} {u w : List Term} (h : StarOf P u) (hw : P w) :
    ∃ a b, u ++ w = a ++ b ∧ P a ∧ StarOf P b := by
  cases h with
  | nil => exact ⟨w, [], (List.append_nil w).symm, hw, .nil⟩
  | @cons x y h g => exact ⟨x, y ++ w, List.append_assoc .., h, star_snoc g hw⟩

theorem any_one {I : N → List Term → Prop} {x : NT} {w : List Term} : Any I (prod [.n x]) w ↔ Any I (g x) w := by
  show Any I (cross (g x) [[]]) w ↔ _
  rw [any_cross]
  constructor
  · rintro ⟨u, v, rfl, h, a, ha, h2⟩
    rw [List.mem_singleton.1 ha] at h2
    cases h2
    rwa [List.append_nil]
  · intro h; exact ⟨w, [], (List.append_nil w).symm, h, [], List.mem_singleton.2 rfl, rfl⟩

theorem any_pair {I : N → List Term → Prop} {x y : NT} {w : List Term} (h : Any I (prod [.n x, .n y]) w) :
    ∃ u v, w = u ++ v ∧ Any I (g x) u ∧ Any I (g y) v := by
  obtain ⟨u, v, rfl, h1, h2⟩ := any_cross.1 h
  exact ⟨u, v, rfl, h1, any_one.1 h2⟩

/-- A nonterminal with a base is its base. -/
theorem g_base {x : NT} (h : base x ≠ []) : g x = baseA x := by
  unfold baseA g
  unfold base at h ⊢
  cases hk : kind x with
  | main y => rfl
  | trans b => rfl
  | star => rw [hk] at h; exact absurd rfl h
  | list1 => rw [hk] at h; exact absurd rfl h
  | list2 => rw [hk] at h; exact absurd rfl h

theorem isEmpty_ne {l : List (List Sy)} (h : (!l.isEmpty) = true) : l ≠ [] := by
  rintro rfl; cases h

theorem syms_prod {I : N → List Term → Prop} : ∀ {α : List GSym} {β : List Sy} {w : List Term}, α.mapM symSy = some β →
    Any I (prod α) w → SSeq I β w
  | [], β, w, h, ⟨a, ha, s⟩ => by
    cases h
    rw [List.mem_singleton.1 ha] at s
    exact s
  | x :: α, β, w, h, s => by
    rw [List.mapM_cons] at h
    cases hx : symSy x with
    | none => rw [hx] at h; cases h
    | some y =>
      cases hα : α.mapM symSy with
      | none => rw [hx, hα] at h; cases h
      | some β' =>
        rw [hx, hα] at h
        cases h
        obtain ⟨u, v, rfl, h1, h2⟩ := any_cross.1 s
        have ih := syms_prod hα h2
        refine sseq_one.2 ⟨u, v, rfl, ?_, ih⟩
        obtain ⟨a, ha, h1⟩ := h1
        cases x with
        | t x =>
          cases hx
          have e : a = [Sy.t x].map .s := List.mem_singleton.1 ha
          rwa [e, asem_syms] at h1
        | n x =>
          obtain ⟨y, hk, rfl⟩ := symSy_n hx
          have hg : g x = [[.s (.n y)]] := by unfold g; rw [hk]
          have ha : a ∈ g x := ha
          rw [hg] at ha
          have e : a = [Sy.n y].map .s := List.mem_singleton.1 ha
          rwa [e, asem_syms] at h1

theorem rule_any {r : YOwn.Rule} (hr : r ∈ rules) {w : List Term} (h : Any (NWords prg) (prod r.rhs) w) :
    Any (NWords prg) (g r.lhs) w := by
  have hc := rule_check hr
  have hm := rhss_mem hr
  generalize r.lhs = x at hc hm
  generalize r.rhs = α at h hm
  unfold check at hc
  cases hk : kind x with
  | main y =>
    rw [hk] at hc
    simp only [Bool.and_eq_true, List.all_eq_true, List.contains_iff_mem] at hc
    obtain ⟨a, ha, h⟩ := h
    have hw : Words prg (rule prg y) w := flat_words ⟨a, hc.1.2 α hm a ha, h⟩
    have hg : g x = [[.s (.n y)]] := by unfold g; rw [hk]
    rw [hg]
    exact ⟨_, List.mem_singleton.2 rfl, w, [], (List.append_nil w).symm, ⟨w, [], (List.append_nil w).symm, .n hw, rfl⟩, rfl⟩
  | trans b =>
    rw [hk] at hc
    have hc : (rhss x).map (fun α => α.mapM symSy) = b.map some := of_decide_eq_true hc
    have : α.mapM symSy ∈ (rhss x).map (fun α => α.mapM symSy) := List.mem_map.2 ⟨α, hm, rfl⟩
    rw [hc] at this
    obtain ⟨β, hβ, e⟩ := List.mem_map.1 this
    have hg : g x = b.map fun β => β.map .s := by unfold g; rw [hk]
    rw [hg]
    exact ⟨_, List.mem_map.2 ⟨β, hβ, rfl⟩, asem_syms.2 (syms_prod e.symm h)⟩
  | star es =>
    rw [hk] at hc
    simp only [Bool.and_eq_true, List.all_eq_true] at hc
    have hr : rhss x = [] :: es.map fun e => [.n x, .n e] := of_decide_eq_true hc.1
    have hg : g x = [[.many (es.flatMap base)]] := by unfold g; rw [hk]
    rw [hg, any_many]
    rw [hr] at hm
    rcases List.mem_cons.1 hm with rfl | hm
    · obtain ⟨a, ha, h⟩ := h
      rw [List.mem_singleton.1 ha] at h
      cases h
      exact .nil
    · obtain ⟨e, he, rfl⟩ := List.mem_map.1 hm
      obtain ⟨u, v, rfl, h1, h2⟩ := any_pair h
      rw [hg, any_many] at h1
      rw [g_base (isEmpty_ne (hc.2 e he)), baseA_iff] at h2
      obtain ⟨β, hβ, h2⟩ := h2
      exact star_snoc h1 ⟨β, List.mem_flatMap.2 ⟨e, he, hβ⟩, h2⟩
  | list1 e =>
    rw [hk] at hc
    simp only [Bool.and_eq_true] at hc
    have hr : rhss x = [[.n e], [.n x, .n e]] := of_decide_eq_true hc.1
    have hb := isEmpty_ne hc.2
    have hg : g x = cross (baseA e) [[.many (base e)]] := by unfold g; rw [hk]
    rw [hg, any_cross]
    rw [hr] at hm
    rcases List.mem_cons.1 hm with rfl | hm
    · have h := any_one.1 h
      rw [g_base hb] at h
      exact ⟨w, [], (List.append_nil w).symm, h, any_many.2 .nil⟩
    · rw [List.mem_singleton.1 hm] at h
      obtain ⟨u, v, rfl, h1, h2⟩ := any_pair h
      rw [hg] at h1
      obtain ⟨u, z, rfl, h0, h1⟩ := any_cross.1 h1
      rw [any_many] at h1
      rw [g_base hb, baseA_iff] at h2
      exact ⟨u, z ++ v, List.append_assoc .., h0, any_many.2 (star_snoc h1 h2)⟩
  | list2 l e =>
    rw [hk] at hc
    simp only [Bool.and_eq_true] at hc
    have hr : rhss x = [[.n l, .n e]] := of_decide_eq_true hc.1
    have hl := hc.2
    split at hl
    · rename_i e' hkl
      obtain rfl : e' = e := of_decide_eq_true hl
      have hcl := nt_check l
      unfold check at hcl
      rw [hkl] at hcl
      simp only [Bool.and_eq_true] at hcl
      have hb := isEmpty_ne hcl.2
      have hgl : g l = cross (baseA e') [[.many (base e')]] := by unfold g; rw [hkl]
      have hg : g x = cross (baseA e') (cross (baseA e') [[.many (base e')]]) := by unfold g; rw [hk]
      rw [hr] at hm
      rw [List.mem_singleton.1 hm] at h
      obtain ⟨u, v, rfl, h1, h2⟩ := any_pair h
      rw [hgl] at h1
      obtain ⟨u, z, rfl, h0, h1⟩ := any_cross.1 h1
      rw [any_many] at h1
      rw [g_base hb, baseA_iff] at h2
      obtain ⟨a, b, e, ha, hb⟩ := star_turn h1 h2
      rw [hg, any_cross]
      exact ⟨u, z ++ v, List.append_assoc .., h0, any_cross.2 ⟨a, b, e, baseA_iff.2 ha, any_many.2 hb⟩⟩
    · cases hl

theorem gen_any {α : List GSym} {w : List Term} (h : Gen α w) : Any (NWords prg) (prod α) w := by
  induction h with
  | nil => exact ⟨[], List.mem_singleton.2 rfl, rfl⟩
  | @t x α w _ ih =>
    exact any_cross.2 ⟨[x], w, rfl, ⟨_, List.mem_singleton.2 rfl, [x], [], rfl, ⟨[], rfl, rfl⟩, rfl⟩, ih⟩
  | n hr _ _ ih1 ih2 => exact any_cross.2 ⟨_, _, rfl, rule_any hr ih1, ih2⟩

/-- Sentences are documents of the variant of the standard. -/
theorem sentence_document {w : List Term} (h : Sentence w) : Document prg w := by
  have h := any_one.1 (gen_any h)
  have hg : g .ontologyDocument = [[.s (.n .ontologyDocument)]] := rfl
  rw [hg] at h
  exact flat_words (e := .s (.n .ontologyDocument)) h

end Cowl.Std
