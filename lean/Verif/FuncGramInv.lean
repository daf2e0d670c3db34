import Verif.FuncGramSound
/-! # Lemmas: inversion of derivations -/
namespace Cowl.Gram
open YOwn (NT Term rules)
open Func (Cat Arg Kw prod Tok)

/-- Derivations of bounded height. -/
inductive GenN : Nat → List GSym → List Term → Prop where
  | nil {h : Nat} : GenN h [] []
  | t {h : Nat} {x : Term} {α : List GSym} {w : List Term} : GenN h α w → GenN h (.t x :: α) (x :: w)
  | n {h : Nat} {r : YOwn.Rule} {α : List GSym} {u w : List Term} : r ∈ rules → GenN h r.rhs u → GenN (h + 1) α w →
      GenN (h + 1) (.n r.lhs :: α) (u ++ w)

theorem GenN.mono {h h' : Nat} {α : List GSym} {w : List Term} (g : GenN h α w) (hl : h ≤ h') : GenN h' α w := by
  induction g generalizing h' with
  | nil => exact .nil
  | t _ ih => exact .t (ih hl)
  | n hr _ _ i1 i2 =>
    cases h' with
    | zero => cases hl
    | succ h' => exact .n hr (i1 (Nat.le_of_succ_le_succ hl)) (i2 hl)

theorem Gen.height {α : List GSym} {w : List Term} (g : Gen α w) : ∃ h, GenN h α w := by
  induction g with
  | nil => exact ⟨0, .nil⟩
  | t _ ih => obtain ⟨h, g⟩ := ih; exact ⟨h, .t g⟩
  | n hr _ _ i1 i2 =>
    obtain ⟨h1, g1⟩ := i1
    obtain ⟨h2, g2⟩ := i2
    exact ⟨h1 + h2 + 1, .n hr (g1.mono (by omega)) (g2.mono (by omega))⟩

/-- Derivations of tokens. -/
def GenT (h : Nat) (α : List GSym) (u : List Tok) : Prop := GenN h α (u.map termOf)

variable {h : Nat} {α : List GSym} {u : List Tok} {x : NT}

theorem GenT.mono {h' : Nat} (g : GenT h α u) (hl : h ≤ h') : GenT h' α u := GenN.mono g hl

theorem GenT.nil_inv (g : GenT h [] u) : u = [] := by
  unfold GenT at g
  cases u with
  | nil => rfl
  | cons t u => cases g

theorem GenT.t_inv {y : Term} (g : GenT h (.t y :: α) u) : ∃ t v, u = t :: v ∧ termOf t = y ∧ GenT h α v := by
  unfold GenT at g
  generalize hw : u.map termOf = w at g
  cases g with
  | t g =>
    obtain ⟨t, v, rfl, e1, e2⟩ := List.map_eq_cons_iff.1 hw
    exact ⟨t, v, rfl, e1, by rw [GenT, e2]; exact g⟩

theorem GenT.n_inv (g : GenT h (.n x :: α) u) :
    ∃ h' r v w, h = h' + 1 ∧ r ∈ rules ∧ r.lhs = x ∧ u = v ++ w ∧ GenT h' r.rhs v ∧ GenT h α w := by
  unfold GenT at g
  generalize hw : u.map termOf = w at g
  cases g with
  | n hr g1 g2 =>
    obtain ⟨v, v', rfl, e1, e2⟩ := List.map_eq_append_iff.1 hw
    exact ⟨_, _, v, v', rfl, hr, rfl, rfl, by rw [GenT, e1]; exact g1, by rw [GenT, e2]; exact g2⟩

theorem GenT.of_n (g : GenT h (.n x :: α) u) : ∃ v w, u = v ++ w ∧ GenT h [.n x] v ∧ GenT h α w := by
  obtain ⟨h', r, v, w, rfl, hr, rfl, rfl, g1, g2⟩ := g.n_inv
  refine ⟨v, w, rfl, ?_, g2⟩
  have := GenN.n hr g1 .nil
  rwa [List.append_nil] at this

theorem append_inv {h : Nat} : ∀ {α β : List GSym} {u : List Tok}, GenT h (α ++ β) u → ∃ v w, u = v ++ w ∧ GenT h α v ∧ GenT h β w
  | [], β, u, g => ⟨[], u, rfl, .nil, g⟩
  | .t y :: α, β, u, g => by
    obtain ⟨t, v, rfl, e, g⟩ := GenT.t_inv (α := α ++ β) g
    obtain ⟨v, w, rfl, g1, g2⟩ := append_inv g
    exact ⟨t :: v, w, rfl, (by unfold GenT; rw [List.map_cons, e]; exact .t g1), g2⟩
  | .n x :: α, β, u, g => by
    obtain ⟨h', r, v, w, rfl, hr, rfl, rfl, g1, g⟩ := GenT.n_inv (α := α ++ β) g
    obtain ⟨v', w, rfl, g2, g3⟩ := append_inv g
    exact ⟨v ++ v', w, by simp, (by unfold GenT; rw [List.map_append]; exact .n hr g1 g2), g3⟩

theorem GenT.one_inv (g : GenT h [.n x] u) : ∃ h' r, h = h' + 1 ∧ r ∈ rules ∧ r.lhs = x ∧ GenT h' r.rhs u := by
  obtain ⟨h', r, v, w, e1, e2, e3, rfl, g1, g2⟩ := g.n_inv
  rw [g2.nil_inv, List.append_nil]
  exact ⟨h', r, e1, e2, e3, g1⟩

/-- The right-hand sides of a nonterminal are among these. -/
def onlyRhs (x : NT) (l : List (List GSym)) : Bool := rules.all fun r => !(r.lhs == x) || l.contains r.rhs

theorem GenT.by_inv {l : List (List GSym)} (hx : onlyRhs x l = true) (g : GenT h [.n x] u) :
    ∃ h' rhs, h = h' + 1 ∧ rhs ∈ l ∧ GenT h' rhs u := by
  obtain ⟨h', r, e1, e2, e3, g⟩ := g.one_inv
  have := List.all_eq_true.1 hx r e2
  rw [e3] at this
  simp only [BEq.rfl, Bool.not_true, Bool.false_or] at this
  exact ⟨h', r.rhs, e1, List.contains_iff_mem.1 this, g⟩

/-- Nonterminals with one right-hand side. -/
theorem GenT.only {rhs : List GSym} (hx : onlyRhs x [rhs] = true) (g : GenT h [.n x] u) : ∃ h', h = h' + 1 ∧ GenT h' rhs u := by
  obtain ⟨h', r, e, hr, g⟩ := g.by_inv hx
  rw [List.mem_singleton.1 hr] at g
  exact ⟨h', e, g⟩

/-- Nonterminals with two. -/
theorem GenT.two {r1 r2 : List GSym} (hx : onlyRhs x [r1, r2] = true) (g : GenT h [.n x] u) :
    ∃ h', h = h' + 1 ∧ (GenT h' r1 u ∨ GenT h' r2 u) := by
  obtain ⟨h', r, e, hr, g⟩ := g.by_inv hx
  rcases List.mem_cons.1 hr with rfl | hr
  · exact ⟨h', e, .inl g⟩
  · rw [List.mem_singleton.1 hr] at g
    exact ⟨h', e, .inr g⟩

/-- Nonterminals with three. -/
theorem GenT.three {r1 r2 r3 : List GSym} (hx : onlyRhs x [r1, r2, r3] = true) (g : GenT h [.n x] u) :
    ∃ h', h = h' + 1 ∧ (GenT h' r1 u ∨ GenT h' r2 u ∨ GenT h' r3 u) := by
  obtain ⟨h', r, e, hr, g⟩ := g.by_inv hx
  rcases List.mem_cons.1 hr with rfl | hr
  · exact ⟨h', e, .inl g⟩
  · rcases List.mem_cons.1 hr with rfl | hr
    · exact ⟨h', e, .inr (.inl g)⟩
    · rw [List.mem_singleton.1 hr] at g
      exact ⟨h', e, .inr (.inr g)⟩

/-! ## Lists -/

/-- Words of a nonterminal, one after the other. -/
def Items (h : Nat) (y : NT) (k : Nat) (u : List Tok) : Prop :=
  ∃ us : List (List Tok), u = us.flatten ∧ k ≤ us.length ∧ ∀ v ∈ us, GenT h [.n y] v

theorem Items.snoc {y : NT} {k h' : Nat} {v : List Tok} (i : Items h' y k u) (hl : h' ≤ h) (g : GenT h [.n y] v) : Items h y (k + 1) (u ++ v) := by
  obtain ⟨us, rfl, hk, hu⟩ := i
  refine ⟨us ++ [v], by simp, by simp; omega, fun w hw => ?_⟩
  rcases List.mem_append.1 hw with hw | hw
  · exact (hu w hw).mono hl
  · rw [List.mem_singleton.1 hw]; exact g

theorem Items.weaken {y : NT} {k k' h' : Nat} (i : Items h' y k u) (hl : h' ≤ h) (hk : k' ≤ k) : Items h y k' u := by
  obtain ⟨us, e, h1, hu⟩ := i
  exact ⟨us, e, by omega, fun w hw => (hu w hw).mono hl⟩

theorem star_inv {y : NT} (hx : onlyRhs x [[], [.n x, .n y]] = true) : ∀ {h : Nat} {u : List Tok}, GenT h [.n x] u → Items h y 0 u
  | 0, u, g => by obtain ⟨_, e, _⟩ := g.two hx; omega
  | h + 1, u, g => by
    obtain ⟨h', e, g⟩ := g.two hx
    obtain rfl : h = h' := by omega
    rcases g with g | g
    · rw [g.nil_inv]; exact ⟨[], rfl, Nat.zero_le _, by simp⟩
    · obtain ⟨v, w, rfl, g1, g2⟩ := g.of_n
      exact ((star_inv hx g1).snoc (Nat.le_succ _) (g2.mono (Nat.le_succ _))).weaken (Nat.le_refl _) (Nat.zero_le _)

theorem plus_inv {y : NT} (hx : onlyRhs x [[.n y], [.n x, .n y]] = true) : ∀ {h : Nat} {u : List Tok}, GenT h [.n x] u → Items h y 1 u
  | 0, u, g => by obtain ⟨_, e, _⟩ := g.two hx; omega
  | h + 1, u, g => by
    obtain ⟨h', e, g⟩ := g.two hx
    obtain rfl : h = h' := by omega
    rcases g with g | g
    · exact ⟨[u], by simp, Nat.le_refl _, fun v hv => by rw [List.mem_singleton.1 hv]; exact g.mono (Nat.le_succ _)⟩
    · obtain ⟨v, w, rfl, g1, g2⟩ := g.of_n
      exact ((plus_inv hx g1).snoc (Nat.le_succ _) (g2.mono (Nat.le_succ _))).weaken (Nat.le_refl _) (by omega)

theorem two_inv {x1 y : NT} (hx : onlyRhs x [[.n x1, .n y]] = true) (h1 : onlyRhs x1 [[.n y], [.n x1, .n y]] = true)
    (g : GenT h [.n x] u) : Items h y 2 u := by
  obtain ⟨h', rfl, g'⟩ := g.only hx
  obtain ⟨v, w, rfl, g1, g2⟩ := g'.of_n
  exact (plus_inv h1 g1).snoc (Nat.le_succ _) (g2.mono (Nat.le_succ _))

/-- Lists of a category. -/
theorem list_inv {c : Cat} {k : Nat} (hx : listNT c k = some x) (g : GenT h [.n x] u) :
    ∃ us : List (List Tok), u = us.flatten ∧ k ≤ us.length ∧ ∀ v ∈ us, ∃ y ∈ catNTs c, GenT h [.n y] v := by
  have key : ∀ {y : NT}, catNTs c = [y] → Items h y k u → ∃ us : List (List Tok), u = us.flatten ∧ k ≤ us.length ∧ ∀ v ∈ us, ∃ y ∈ catNTs c, GenT h [.n y] v := by
    intro y hy ⟨us, e, hk, hu⟩
    exact ⟨us, e, hk, fun v hv => ⟨y, by rw [hy]; exact .head _, hu v hv⟩⟩
  unfold listNT at hx
  split at hx <;> first | (cases hx; done) | skip
  · cases hx; exact key rfl (two_inv (x1 := .classExpressionList) (by decide +kernel) (by decide +kernel) g)
  · cases hx; exact key rfl (two_inv (x1 := .dataRangeList) (by decide +kernel) (by decide +kernel) g)
  · cases hx; exact key rfl (two_inv (x1 := .individualList) (by decide +kernel) (by decide +kernel) g)
  · cases hx; exact key rfl (two_inv (x1 := .objectPropertyExpressionList) (by decide +kernel) (by decide +kernel) g)
  · cases hx; exact key rfl (two_inv (x1 := .dataPropertyExpressionList) (by decide +kernel) (by decide +kernel) g)
  · cases hx; exact key rfl (plus_inv (by decide +kernel) g)
  · cases hx; exact key rfl (plus_inv (by decide +kernel) g)
  · cases hx; exact key rfl (plus_inv (by decide +kernel) g)
  · cases hx; exact key rfl (star_inv (by decide +kernel) g)
  · cases hx; exact key rfl (star_inv (by decide +kernel) g)

/-! ## Names -/

/-- Nonterminals whose words are IRIs. -/
def iriLike : List NT := [.fullIri, .abbreviatedIri, .iri, .cls, .datatype, .objectProperty, .dataProperty, .annotationProperty,
  .namedIndividual, .dataPropertyExpression]

/-- The tokens of IRIs. -/
inductive IsIri : Tok → Prop where
  | full (s : Str) : IsIri (.iriRef s)
  | short (s : Str) : IsIri (.pnameLn s)

theorem iriLike_rules : (rules.all fun r => !(iriLike.contains r.lhs) || (r.rhs == [.t .iriRef] || r.rhs == [.t .pnameLn] ||
    match r.rhs with
    | [.n y] => iriLike.contains y
    | _ => false)) = true := by decide +kernel

theorem iri_inv : ∀ {h : Nat} {x : NT} {u : List Tok}, x ∈ iriLike → GenT h [.n x] u → ∃ t, u = [t] ∧ IsIri t
  | 0, x, u, _, g => by obtain ⟨_, _, e, _⟩ := g.one_inv; omega
  | h + 1, x, u, hx, g => by
    obtain ⟨h', r, e1, e2, e3, g⟩ := g.one_inv
    obtain rfl : h = h' := by omega
    have := List.all_eq_true.1 iriLike_rules r e2
    rw [e3, List.contains_iff_mem.2 hx] at this
    simp only [Bool.not_true, Bool.false_or, Bool.or_eq_true, beq_iff_eq] at this
    rcases this with (e | e) | e
    · rw [e] at g
      obtain ⟨t, v, rfl, ht, g⟩ := g.t_inv
      rw [g.nil_inv]
      cases t <;> cases ht
      exact ⟨_, rfl, .full _⟩
    · rw [e] at g
      obtain ⟨t, v, rfl, ht, g⟩ := g.t_inv
      rw [g.nil_inv]
      cases t <;> cases ht
      exact ⟨_, rfl, .short _⟩
    · split at e
      · rename_i y hy
        rw [hy] at g
        exact iri_inv (List.contains_iff_mem.1 e) g
      · cases e

end Cowl.Gram
