import Verif.HeapSpec
/-! # Lemmas on interned objects -/
namespace Cowl.Heap

/-- Number of references from objects to `a`. -/
def indegL (cells : List (Nat × Cell)) (a : Nat) : Nat :=
  (cells.flatMap fun p => p.2.fields).count a

def St.indeg (s : St) (a : Nat) : Nat := indegL s.cells a

theorem upd_same (f : Nat → Nat) (a v : Nat) : upd f a v a = v := by simp [upd]
theorem upd_ne (f : Nat → Nat) {a b : Nat} (v : Nat) (h : b ≠ a) : upd f a v b = f b := by
  simp [upd, h]

/-- The invariant of reachable states. -/
structure Inv (s : St) : Prop where
  nodup : (s.cells.map Prod.fst).Nodup
  rcEq : ∀ a c, s.cellOf a = some c →
    s.rc a = s.ext a + (if a = s.empty then 1 else 0) + s.indeg a ∧ 0 < s.rc a
  extLive : ∀ a, 0 < s.ext a → ∃ c, s.cellOf a = some c
  iriF : ∀ a n r, s.cellOf a = some (.iri n r) →
    ((∃ c, s.cellOf n = some (.str c true)) ∨ n = s.empty) ∧ ∃ c i, s.cellOf r = some (.str c i)
  entF : ∀ a k i, s.cellOf a = some (.ent k i) → ∃ n r, s.cellOf i = some (.iri n r)
  anonF : ∀ a i, s.cellOf a = some (.anon i) → ∃ c b, s.cellOf i = some (.str c b)
  strT : ∀ a, a ∈ s.strT ↔ ∃ c, s.cellOf a = some (.str c true)
  iriT : ∀ a, a ∈ s.iriT ↔ ∃ n r, s.cellOf a = some (.iri n r)
  entT : ∀ a, a ∈ s.entT ↔ ∃ k i, s.cellOf a = some (.ent k i)
  anonT : ∀ a, a ∈ s.anonT ↔ ∃ i, s.cellOf a = some (.anon i)
  strN : s.strT.Nodup
  iriN : s.iriT.Nodup
  entN : s.entT.Nodup
  anonN : s.anonT.Nodup
  strU : ∀ a b c, s.cellOf a = some (.str c true) → s.cellOf b = some (.str c true) → a = b
  strNe : ∀ a, s.cellOf a ≠ some (.str [] true)
  iriU : ∀ a b n r r', s.cellOf a = some (.iri n r) → s.cellOf b = some (.iri n r') →
    s.content r = s.content r' → a = b
  entU : ∀ a b k i, s.cellOf a = some (.ent k i) → s.cellOf b = some (.ent k i) → a = b
  anonU : ∀ a b i i', s.cellOf a = some (.anon i) → s.cellOf b = some (.anon i') →
    s.content i = s.content i' → a = b
  emptyC : s.cellOf s.empty = some (.str [] false)

/-! ## Reading memory after updates -/

theorem lookup_filter_ne (cells : List (Nat × Cell)) (a b : Nat) :
    (cells.filter fun p => p.1 != a).lookup b = if b = a then none else cells.lookup b := by
  induction cells with
  | nil => simp
  | cons p ps ih =>
    obtain ⟨x, c⟩ := p
    by_cases hx : x = a
    · subst hx
      rw [List.filter_cons_of_neg (by simp), ih, List.lookup_cons]
      by_cases hb : b = x
      · simp [hb]
      · have hf : (b == x) = false := by simpa using hb
        simp [hb, hf]
    · rw [List.filter_cons_of_pos (by simpa using hx), List.lookup_cons, List.lookup_cons, ih]
      by_cases hb : b = x
      · subst hb; simp [hx]
      · have hf : (b == x) = false := by simpa using hb
        rw [hf]

theorem cellOf_drop (s : St) (a b : Nat) :
    (s.drop a).cellOf b = if b = a then none else s.cellOf b := lookup_filter_ne _ _ _

theorem cellOf_alloc (s : St) (a : Nat) (c : Cell) (b : Nat) :
    (s.alloc a c).cellOf b = if b = a then some c else s.cellOf b := by
  simp only [St.alloc, St.cellOf, List.lookup_cons]
  by_cases h : b = a
  · simp [h]
  · have hf : (b == a) = false := by simpa using h
    simp [h, hf]

theorem lookup_mem {cells : List (Nat × Cell)} {a : Nat} {c : Cell} (h : cells.lookup a = some c) :
    (a, c) ∈ cells := by
  induction cells with
  | nil => simp at h
  | cons p ps ih =>
    obtain ⟨x, d⟩ := p
    rw [List.lookup_cons] at h
    by_cases hb : a = x
    · subst hb; simp at h; subst h; simp
    · have : (a == x) = false := by simpa using hb
      rw [this] at h
      exact List.mem_cons_of_mem _ (ih h)

theorem mem_lookup {cells : List (Nat × Cell)} (hn : (cells.map Prod.fst).Nodup) {a : Nat} {c : Cell}
    (h : (a, c) ∈ cells) : cells.lookup a = some c := by
  induction cells with
  | nil => cases h
  | cons p ps ih =>
    obtain ⟨x, d⟩ := p
    rw [List.map_cons, List.nodup_cons] at hn
    rw [List.lookup_cons]
    rcases List.mem_cons.1 h with h' | h'
    · cases h'; simp
    · have : a ≠ x := by
        rintro rfl
        exact hn.1 (List.mem_map.2 ⟨_, h', rfl⟩)
      have : (a == x) = false := by simpa using this
      rw [this]
      exact ih hn.2 h'

theorem lookup_none {cells : List (Nat × Cell)} {a : Nat} (h : cells.lookup a = none) :
    a ∉ cells.map Prod.fst := by
  induction cells with
  | nil => simp
  | cons p ps ih =>
    obtain ⟨x, d⟩ := p
    rw [List.lookup_cons] at h
    by_cases hb : a = x
    · subst hb; simp at h
    · have hf : (a == x) = false := by simpa using hb
      rw [hf] at h
      simp only [List.map_cons, List.mem_cons, not_or]
      exact ⟨hb, ih h⟩

theorem indegL_drop (cells : List (Nat × Cell)) (hn : (cells.map Prod.fst).Nodup) {a : Nat}
    {c : Cell} (h : cells.lookup a = some c) (b : Nat) :
    indegL (cells.filter fun p => p.1 != a) b + c.fields.count b = indegL cells b := by
  induction cells with
  | nil => simp at h
  | cons p ps ih =>
    obtain ⟨x, d⟩ := p
    rw [List.map_cons, List.nodup_cons] at hn
    rw [List.lookup_cons] at h
    unfold indegL at ih ⊢
    by_cases hb : a = x
    · subst hb
      simp at h; subst h
      rw [List.filter_cons_of_neg (by simp), List.flatMap_cons, List.count_append]
      have : ps.filter (fun p => p.1 != a) = ps := by
        rw [List.filter_eq_self]
        intro q hq
        simp only [bne_iff_ne, ne_eq]
        rintro rfl
        exact hn.1 (List.mem_map.2 ⟨q, hq, rfl⟩)
      rw [this]; show _ = d.fields.count b + _; omega
    · have hf : (a == x) = false := by simpa using hb
      rw [hf] at h
      rw [List.filter_cons_of_pos (by simp; exact fun h => hb h.symm), List.flatMap_cons,
        List.flatMap_cons, List.count_append, List.count_append, ← ih hn.2 h]
      omega

theorem indeg_pos {s : St} {a b : Nat} {c : Cell} (h : s.cellOf b = some c) (hf : a ∈ c.fields) :
    0 < s.indeg a := by
  unfold St.indeg indegL
  rw [List.count_pos_iff, List.mem_flatMap]
  exact ⟨(b, c), lookup_mem h, hf⟩

/-- Fields of live objects are live. -/
theorem Inv.fieldLive {s : St} (h : Inv s) {a b : Nat} {c : Cell} (hc : s.cellOf b = some c)
    (hf : a ∈ c.fields) : ∃ d, s.cellOf a = some d := by
  cases c with
  | str _ _ => simp [Cell.fields] at hf
  | iri n r =>
    obtain ⟨h1, c, i, h2⟩ := h.iriF b n r hc
    simp only [Cell.fields, List.mem_cons, List.not_mem_nil, or_false] at hf
    rcases hf with rfl | rfl
    · rcases h1 with ⟨c, h1⟩ | h1
      · exact ⟨_, h1⟩
      · exact ⟨_, h1 ▸ h.emptyC⟩
    · exact ⟨_, h2⟩
  | ent k i =>
    simp only [Cell.fields, List.mem_cons, List.not_mem_nil, or_false] at hf
    obtain ⟨n, r, h1⟩ := h.entF b k i hc
    exact ⟨_, hf ▸ h1⟩
  | anon i =>
    simp only [Cell.fields, List.mem_cons, List.not_mem_nil, or_false] at hf
    obtain ⟨n, r, h1⟩ := h.anonF b i hc
    exact ⟨_, hf ▸ h1⟩

theorem Inv.indeg_dead {s : St} (h : Inv s) {a : Nat} (ha : s.cellOf a = none) : s.indeg a = 0 := by
  unfold St.indeg indegL
  rw [List.count_eq_zero, List.mem_flatMap]
  rintro ⟨⟨b, c⟩, hm, hf⟩
  obtain ⟨d, hd⟩ := h.fieldLive (mem_lookup h.nodup hm) hf
  rw [ha] at hd; cases hd

theorem Inv.ext_dead {s : St} (h : Inv s) {a : Nat} (ha : s.cellOf a = none) : s.ext a = 0 := by
  by_cases h0 : 0 < s.ext a
  · obtain ⟨c, hc⟩ := h.extLive a h0; rw [ha] at hc; cases hc
  · omega

/-! ## Initial state -/

theorem inv_init (e : Nat) : Inv (init e) := by
  have hc : ∀ a c, (init e).cellOf a = some c → a = e ∧ c = .str [] false := by
    intro a c h
    simp only [init, St.cellOf, List.lookup_cons, List.lookup_nil] at h
    by_cases ha : a = e
    · simp [ha] at h; exact ⟨ha, h.symm⟩
    · have : (a == e) = false := by simpa using ha
      simp [this] at h
  have hne : ∀ a c, (init e).cellOf a = some c → c = .str [] false := fun a c h => (hc a c h).2
  have he : (init e).cellOf e = some (.str [] false) := by simp [init, St.cellOf]
  constructor
  · simp [init]
  · intro a c h
    obtain ⟨rfl, rfl⟩ := hc a c h
    simp [init, upd, St.indeg, indegL, Cell.fields]
  · intro a h; simp [init] at h
  · intro a n r h; cases hne _ _ h
  · intro a k i h; cases hne _ _ h
  · intro a i h; cases hne _ _ h
  · intro a; simp only [init, List.not_mem_nil, false_iff]; rintro ⟨c, h⟩; cases hne _ _ h
  · intro a; simp only [init, List.not_mem_nil, false_iff]; rintro ⟨_, c, h⟩; cases hne _ _ h
  · intro a; simp only [init, List.not_mem_nil, false_iff]; rintro ⟨_, c, h⟩; cases hne _ _ h
  · intro a; simp only [init, List.not_mem_nil, false_iff]; rintro ⟨c, h⟩; cases hne _ _ h
  · simp [init]
  · simp [init]
  · simp [init]
  · simp [init]
  · intro a b c h; cases hne _ _ h
  · intro a h; cases hne _ _ h
  · intro a b n r r' h; cases hne _ _ h
  · intro a b n r h; cases hne _ _ h
  · intro a b n r h; cases hne _ _ h
  · exact he

/-! ## Retain -/

theorem inv_retain {s : St} (h : Inv s) {a : Nat} {c : Cell} (ha : s.cellOf a = some c) :
    ∃ s', retain s a = some s' ∧ Inv s' ∧ s'.cells = s.cells ∧
      s'.ext = upd s.ext a (s.ext a + 1) ∧ s'.empty = s.empty := by
  refine ⟨{ s.incr a with ext := upd s.ext a (s.ext a + 1) }, by simp only [retain, ha], ?_, rfl, rfl, rfl⟩
  refine { h with rcEq := ?_, extLive := ?_ }
  · intro b d hb
    have := h.rcEq b d hb
    simp only [St.incr, upd]
    by_cases hba : b = a
    · subst hba
      simp only [if_true]
      show s.rc b + 1 = s.ext b + 1 + (if b = s.empty then 1 else 0) + s.indeg b ∧ 0 < s.rc b + 1
      omega
    · simp only [hba, if_false]; exact this
  · intro b hb
    simp only [upd] at hb
    by_cases hba : b = a
    · exact ⟨c, hba ▸ ha⟩
    · simp only [hba, if_false] at hb; exact h.extLive b hb

/-! ## Allocation -/

/-- The key of a new object is not taken, and its fields are in order. -/
def Fresh (s : St) : Cell → Prop
  | .str c i => i = true → c ≠ [] ∧ ∀ b, s.cellOf b ≠ some (.str c true)
  | .iri n r => ((∃ c, s.cellOf n = some (.str c true)) ∨ n = s.empty) ∧
      (∃ c i, s.cellOf r = some (.str c i)) ∧
      ∀ b r', s.cellOf b = some (.iri n r') → s.content r' ≠ s.content r
  | .ent k i => (∃ n r, s.cellOf i = some (.iri n r)) ∧ ∀ b, s.cellOf b ≠ some (.ent k i)
  | .anon i => (∃ c b, s.cellOf i = some (.str c b)) ∧
      ∀ b i', s.cellOf b = some (.anon i') → s.content i' ≠ s.content i

/-- State after allocation of `c` at `a`, with its fields retained and the tables updated. -/
def allocFull (s : St) (a : Nat) (c : Cell) : St :=
  { cells := (a, c) :: s.cells
    rc := fun b => if b = a then 1 else s.rc b + c.fields.count b
    ext := upd s.ext a (s.ext a + 1)
    strT := (match c with | .str _ true => [a] | _ => []) ++ s.strT
    iriT := (match c with | .iri _ _ => [a] | _ => []) ++ s.iriT
    entT := (match c with | .ent _ _ => [a] | _ => []) ++ s.entT
    anonT := (match c with | .anon _ => [a] | _ => []) ++ s.anonT
    empty := s.empty }

theorem cellOf_allocFull (s : St) (a : Nat) (c : Cell) (b : Nat) :
    (allocFull s a c).cellOf b = if b = a then some c else s.cellOf b := cellOf_alloc s a c b

theorem content_allocFull {s : St} {a : Nat} (ha : s.cellOf a = none) (c : Cell) {b : Nat} {d : Cell}
    (hb : s.cellOf b = some d) : (allocFull s a c).content b = s.content b := by
  have : b ≠ a := by rintro rfl; rw [ha] at hb; cases hb
  simp only [St.content, cellOf_allocFull, this, if_false]

theorem Fresh.fieldLive {s : St} (h : Inv s) {c : Cell} (hf : Fresh s c) {b : Nat}
    (hb : b ∈ c.fields) : ∃ d, s.cellOf b = some d := by
  cases c with
  | str _ _ => simp [Cell.fields] at hb
  | iri n r =>
    simp only [Cell.fields, List.mem_cons, List.not_mem_nil, or_false] at hb
    obtain ⟨h1, ⟨c, i, h2⟩, _⟩ := hf
    rcases hb with rfl | rfl
    · rcases h1 with ⟨c, h1⟩ | h1
      · exact ⟨_, h1⟩
      · exact ⟨_, h1 ▸ h.emptyC⟩
    · exact ⟨_, h2⟩
  | ent k i =>
    simp only [Cell.fields, List.mem_cons, List.not_mem_nil, or_false] at hb
    obtain ⟨⟨n, r, h1⟩, _⟩ := hf
    exact ⟨_, hb ▸ h1⟩
  | anon i =>
    simp only [Cell.fields, List.mem_cons, List.not_mem_nil, or_false] at hb
    obtain ⟨⟨n, r, h1⟩, _⟩ := hf
    exact ⟨_, hb ▸ h1⟩

theorem inv_alloc {s : St} (h : Inv s) {a : Nat} (ha : s.cellOf a = none) {c : Cell}
    (hf : Fresh s c) : Inv (allocFull s a c) := by
  have hlive : ∀ b d, s.cellOf b = some d → b ≠ a := by
    rintro b d hb rfl; rw [ha] at hb; cases hb
  have hcell : ∀ b d, (allocFull s a c).cellOf b = some d →
      (b = a ∧ d = c) ∨ (b ≠ a ∧ s.cellOf b = some d) := by
    intro b d hb
    rw [cellOf_allocFull] at hb
    by_cases hba : b = a
    · rw [if_pos hba] at hb; cases hb; exact .inl ⟨hba, rfl⟩
    · rw [if_neg hba] at hb; exact .inr ⟨hba, hb⟩
  have hold : ∀ b d, s.cellOf b = some d → (allocFull s a c).cellOf b = some d := by
    intro b d hb
    rw [cellOf_allocFull, if_neg (hlive b d hb)]; exact hb
  have hself : (allocFull s a c).cellOf a = some c := by rw [cellOf_allocFull, if_pos rfl]
  have hcont : ∀ b d, s.cellOf b = some d → (allocFull s a c).content b = s.content b :=
    fun b d hb => content_allocFull ha c hb
  have hafield : a ∉ c.fields := by
    intro hm
    obtain ⟨d, hd⟩ := hf.fieldLive h hm
    exact hlive a d hd rfl
  have hindeg : ∀ b, (allocFull s a c).indeg b = c.fields.count b + s.indeg b := by
    intro b
    show indegL ((a, c) :: s.cells) b = _
    unfold indegL
    rw [List.flatMap_cons, List.count_append]; rfl
  have hext : s.ext a = 0 := h.ext_dead ha
  have hind : s.indeg a = 0 := h.indeg_dead ha
  have hae : a ≠ s.empty := fun e => hlive _ _ h.emptyC e.symm
  constructor
  · show (((a, c) :: s.cells).map Prod.fst).Nodup
    rw [List.map_cons, List.nodup_cons]
    exact ⟨lookup_none ha, h.nodup⟩
  · intro b d hb
    rw [hindeg]
    show (if b = a then 1 else s.rc b + c.fields.count b) =
      upd s.ext a (s.ext a + 1) b + (if b = s.empty then 1 else 0) + _ ∧ 0 < _
    rcases hcell b d hb with ⟨rfl, rfl⟩ | ⟨hne, hb⟩
    · rw [upd_same, if_pos rfl, if_neg hae, hext, hind, List.count_eq_zero_of_not_mem hafield]
      show _ ∧ 0 < (if b = b then 1 else _)
      simp
    · have := h.rcEq b d hb
      rw [upd_ne _ _ hne, if_neg hne]
      show _ ∧ 0 < (if b = a then 1 else s.rc b + c.fields.count b)
      rw [if_neg hne]
      omega
  · intro b hb
    by_cases hba : b = a
    · exact ⟨c, hba ▸ hself⟩
    · have hb : 0 < upd s.ext a (s.ext a + 1) b := hb
      rw [upd_ne _ _ hba] at hb
      obtain ⟨d, hd⟩ := h.extLive b hb
      exact ⟨d, hold b d hd⟩
  · intro b n r hb
    rcases hcell b _ hb with ⟨rfl, rfl⟩ | ⟨hne, hb⟩
    · obtain ⟨h1, ⟨x, i, h2⟩, _⟩ := hf
      refine ⟨?_, x, i, hold _ _ h2⟩
      rcases h1 with ⟨x, h1⟩ | h1
      · exact .inl ⟨x, hold _ _ h1⟩
      · exact .inr h1
    · obtain ⟨h1, x, i, h2⟩ := h.iriF b n r hb
      refine ⟨?_, x, i, hold _ _ h2⟩
      rcases h1 with ⟨x, h1⟩ | h1
      · exact .inl ⟨x, hold _ _ h1⟩
      · exact .inr h1
  · intro b k i hb
    rcases hcell b _ hb with ⟨rfl, rfl⟩ | ⟨hne, hb⟩
    · obtain ⟨⟨n, r, h1⟩, _⟩ := hf; exact ⟨n, r, hold _ _ h1⟩
    · obtain ⟨n, r, h1⟩ := h.entF b k i hb; exact ⟨n, r, hold _ _ h1⟩
  · intro b i hb
    rcases hcell b _ hb with ⟨rfl, rfl⟩ | ⟨hne, hb⟩
    · obtain ⟨⟨n, r, h1⟩, _⟩ := hf; exact ⟨n, r, hold _ _ h1⟩
    · obtain ⟨n, r, h1⟩ := h.anonF b i hb; exact ⟨n, r, hold _ _ h1⟩
  · intro b
    show b ∈ _ ++ s.strT ↔ _
    rw [List.mem_append, h.strT b]
    constructor
    · rintro (hm | ⟨x, hx⟩)
      · split at hm
        · simp at hm; subst hm; exact ⟨_, hself⟩
        · cases hm
      · exact ⟨x, hold _ _ hx⟩
    · rintro ⟨x, hx⟩
      rcases hcell b _ hx with ⟨rfl, rfl⟩ | ⟨hne, hb⟩
      · left; simp
      · exact .inr ⟨x, hb⟩
  · intro b
    show b ∈ _ ++ s.iriT ↔ _
    rw [List.mem_append, h.iriT b]
    constructor
    · rintro (hm | ⟨x, y, hx⟩)
      · split at hm
        · simp at hm; subst hm; exact ⟨_, _, hself⟩
        · cases hm
      · exact ⟨x, y, hold _ _ hx⟩
    · rintro ⟨x, y, hx⟩
      rcases hcell b _ hx with ⟨rfl, rfl⟩ | ⟨hne, hb⟩
      · left; simp
      · exact .inr ⟨x, y, hb⟩
  · intro b
    show b ∈ _ ++ s.entT ↔ _
    rw [List.mem_append, h.entT b]
    constructor
    · rintro (hm | ⟨x, y, hx⟩)
      · split at hm
        · simp at hm; subst hm; exact ⟨_, _, hself⟩
        · cases hm
      · exact ⟨x, y, hold _ _ hx⟩
    · rintro ⟨x, y, hx⟩
      rcases hcell b _ hx with ⟨rfl, rfl⟩ | ⟨hne, hb⟩
      · left; simp
      · exact .inr ⟨x, y, hb⟩
  · intro b
    show b ∈ _ ++ s.anonT ↔ _
    rw [List.mem_append, h.anonT b]
    constructor
    · rintro (hm | ⟨x, hx⟩)
      · split at hm
        · simp at hm; subst hm; exact ⟨_, hself⟩
        · cases hm
      · exact ⟨x, hold _ _ hx⟩
    · rintro ⟨x, hx⟩
      rcases hcell b _ hx with ⟨rfl, rfl⟩ | ⟨hne, hb⟩
      · left; simp
      · exact .inr ⟨x, hb⟩
  · show (_ ++ s.strT).Nodup
    have hn : a ∉ s.strT := by rw [h.strT]; rintro ⟨x, hx⟩; exact hlive _ _ hx rfl
    split
    · exact List.nodup_cons.2 ⟨hn, h.strN⟩
    · exact h.strN
  · show (_ ++ s.iriT).Nodup
    have hn : a ∉ s.iriT := by rw [h.iriT]; rintro ⟨x, y, hx⟩; exact hlive _ _ hx rfl
    split
    · exact List.nodup_cons.2 ⟨hn, h.iriN⟩
    · exact h.iriN
  · show (_ ++ s.entT).Nodup
    have hn : a ∉ s.entT := by rw [h.entT]; rintro ⟨x, y, hx⟩; exact hlive _ _ hx rfl
    split
    · exact List.nodup_cons.2 ⟨hn, h.entN⟩
    · exact h.entN
  · show (_ ++ s.anonT).Nodup
    have hn : a ∉ s.anonT := by rw [h.anonT]; rintro ⟨x, hx⟩; exact hlive _ _ hx rfl
    split
    · exact List.nodup_cons.2 ⟨hn, h.anonN⟩
    · exact h.anonN
  · intro x y t hx hy
    rcases hcell x _ hx with ⟨rfl, rfl⟩ | ⟨hne, hx'⟩ <;> rcases hcell y _ hy with ⟨rfl, hc⟩ | ⟨hne', hy'⟩
    · rfl
    · exact absurd hy' ((hf rfl).2 y)
    · subst hc; exact absurd hx' ((hf rfl).2 x)
    · exact h.strU x y t hx' hy'
  · intro x hx
    rcases hcell x _ hx with ⟨rfl, rfl⟩ | ⟨hne, hx'⟩
    · exact (hf rfl).1 rfl
    · exact h.strNe x hx'
  · intro x y n r r' hx hy hr
    rcases hcell x _ hx with ⟨rfl, rfl⟩ | ⟨hne, hx'⟩ <;> rcases hcell y _ hy with ⟨rfl, hc⟩ | ⟨hne', hy'⟩
    · rfl
    · obtain ⟨_, ⟨c1, i1, h2⟩, h3⟩ := hf
      obtain ⟨_, c2, i2, h4⟩ := h.iriF y n r' hy'
      rw [hcont _ _ h2, hcont _ _ h4] at hr
      exact absurd hr.symm (h3 y r' hy')
    · subst hc
      obtain ⟨_, ⟨c1, i1, h2⟩, h3⟩ := hf
      obtain ⟨_, c2, i2, h4⟩ := h.iriF x n r hx'
      rw [hcont _ _ h2, hcont _ _ h4] at hr
      exact absurd hr (h3 x r hx')
    · obtain ⟨_, c1, i1, h2⟩ := h.iriF x n r hx'
      obtain ⟨_, c2, i2, h4⟩ := h.iriF y n r' hy'
      rw [hcont _ _ h2, hcont _ _ h4] at hr
      exact h.iriU x y n r r' hx' hy' hr
  · intro x y k i hx hy
    rcases hcell x _ hx with ⟨rfl, rfl⟩ | ⟨hne, hx'⟩ <;> rcases hcell y _ hy with ⟨rfl, hc⟩ | ⟨hne', hy'⟩
    · rfl
    · exact absurd hy' (hf.2 y)
    · subst hc; exact absurd hx' (hf.2 x)
    · exact h.entU x y k i hx' hy'
  · intro x y r r' hx hy hr
    rcases hcell x _ hx with ⟨rfl, rfl⟩ | ⟨hne, hx'⟩ <;> rcases hcell y _ hy with ⟨rfl, hc⟩ | ⟨hne', hy'⟩
    · rfl
    · obtain ⟨⟨c1, i1, h2⟩, h3⟩ := hf
      obtain ⟨c2, i2, h4⟩ := h.anonF y r' hy'
      rw [hcont _ _ h2, hcont _ _ h4] at hr
      exact absurd hr.symm (h3 y r' hy')
    · subst hc
      obtain ⟨⟨c1, i1, h2⟩, h3⟩ := hf
      obtain ⟨c2, i2, h4⟩ := h.anonF x r hx'
      rw [hcont _ _ h2, hcont _ _ h4] at hr
      exact absurd hr (h3 x r hx')
    · obtain ⟨c1, i1, h2⟩ := h.anonF x r hx'
      obtain ⟨c2, i2, h4⟩ := h.anonF y r' hy'
      rw [hcont _ _ h2, hcont _ _ h4] at hr
      exact h.anonU x y r r' hx' hy' hr
  · exact hold _ _ h.emptyC

/-! ## Giving up a reference -/

theorem inv_decr {s : St} (h : Inv s) {a : Nat} (hx : 0 < s.ext a) (hr : s.rc a ≠ 1) :
    Inv (s.decr a) := by
  obtain ⟨c, hc⟩ := h.extLive a hx
  refine { h with rcEq := ?_, extLive := ?_ }
  · intro b d hb
    have := h.rcEq b d hb
    show upd s.rc a (s.rc a - 1) b = upd s.ext a (s.ext a - 1) b + (if b = s.empty then 1 else 0) + s.indeg b ∧
      0 < upd s.rc a (s.rc a - 1) b
    by_cases hba : b = a
    · subst hba; rw [upd_same, upd_same]; omega
    · rw [upd_ne _ _ hba, upd_ne _ _ hba]; exact this
  · intro b hb
    have hb : 0 < upd s.ext a (s.ext a - 1) b := hb
    by_cases hba : b = a
    · exact ⟨c, hba ▸ hc⟩
    · rw [upd_ne _ _ hba] at hb; exact h.extLive b hb

/-- State after the object at `a` is destroyed and its references are taken over. -/
def dropFull (s : St) (a : Nat) (c : Cell) : St :=
  { cells := s.cells.filter fun p => p.1 != a
    rc := upd s.rc a (s.rc a - 1)
    ext := fun b => (if b = a then s.ext a - 1 else s.ext b) + c.fields.count b
    strT := s.strT.erase a
    iriT := s.iriT.erase a
    entT := s.entT.erase a
    anonT := s.anonT.erase a
    empty := s.empty }

theorem inv_drop {s : St} (h : Inv s) {a : Nat} {c : Cell} (hc : s.cellOf a = some c)
    (hx : 0 < s.ext a) (hr : s.rc a = 1) : Inv (dropFull s a c) := by
  have hrc := (h.rcEq a c hc).1
  have hind : s.indeg a = 0 := by omega
  have hae : a ≠ s.empty := by
    intro e; rw [if_pos e] at hrc; omega
  have hcell : ∀ b d, (dropFull s a c).cellOf b = some d ↔ b ≠ a ∧ s.cellOf b = some d := by
    intro b d
    show (s.cells.filter fun p => p.1 != a).lookup b = some d ↔ _
    rw [lookup_filter_ne]
    by_cases hba : b = a <;> simp [hba, St.cellOf]
  have hfield : ∀ b d, s.cellOf b = some d → a ∉ d.fields := by
    intro b d hb hm
    have := indeg_pos hb hm; omega
  have hcont : ∀ b, b ≠ a → (dropFull s a c).content b = s.content b := by
    intro b hba
    simp only [St.content]
    have : (dropFull s a c).cellOf b = s.cellOf b := by
      show (s.cells.filter fun p => p.1 != a).lookup b = _
      rw [lookup_filter_ne, if_neg hba]; rfl
    rw [this]
  have hafield : a ∉ c.fields := hfield a c hc
  have hindeg : ∀ b, (dropFull s a c).indeg b + c.fields.count b = s.indeg b :=
    fun b => indegL_drop s.cells h.nodup hc b
  constructor
  · show ((s.cells.filter fun p => p.1 != a).map Prod.fst).Nodup
    exact h.nodup.sublist (List.Sublist.map _ List.filter_sublist)
  · intro b d hb
    obtain ⟨hne, hb⟩ := (hcell b d).1 hb
    have h1 := h.rcEq b d hb
    have h2 := hindeg b
    show upd s.rc a (s.rc a - 1) b = ((if b = a then s.ext a - 1 else s.ext b) + c.fields.count b) +
      (if b = s.empty then 1 else 0) + (dropFull s a c).indeg b ∧ 0 < upd s.rc a (s.rc a - 1) b
    rw [upd_ne _ _ hne, if_neg hne]
    omega
  · intro b hb
    have hb : 0 < (if b = a then s.ext a - 1 else s.ext b) + c.fields.count b := hb
    have hne : b ≠ a := by
      rintro rfl
      rw [if_pos rfl, List.count_eq_zero_of_not_mem hafield] at hb; omega
    have : ∃ d, s.cellOf b = some d := by
      rw [if_neg hne] at hb
      by_cases h0 : 0 < s.ext b
      · exact h.extLive b h0
      · exact h.fieldLive hc (List.count_pos_iff.1 (by omega))
    obtain ⟨d, hd⟩ := this
    exact ⟨d, (hcell b d).2 ⟨hne, hd⟩⟩
  · intro b n r hb
    obtain ⟨hne, hb⟩ := (hcell b _).1 hb
    have hf := hfield b _ hb
    simp only [Cell.fields, List.mem_cons, List.not_mem_nil, or_false, not_or] at hf
    obtain ⟨h1, x, i, h2⟩ := h.iriF b n r hb
    refine ⟨?_, x, i, (hcell _ _).2 ⟨fun e => hf.2 e.symm, h2⟩⟩
    rcases h1 with ⟨x, h1⟩ | h1
    · exact .inl ⟨x, (hcell _ _).2 ⟨fun e => hf.1 e.symm, h1⟩⟩
    · exact .inr h1
  · intro b k i hb
    obtain ⟨hne, hb⟩ := (hcell b _).1 hb
    have hf := hfield b _ hb
    simp only [Cell.fields, List.mem_cons, List.not_mem_nil, or_false] at hf
    obtain ⟨n, r, h1⟩ := h.entF b k i hb
    exact ⟨n, r, (hcell _ _).2 ⟨fun e => hf e.symm, h1⟩⟩
  · intro b i hb
    obtain ⟨hne, hb⟩ := (hcell b _).1 hb
    have hf := hfield b _ hb
    simp only [Cell.fields, List.mem_cons, List.not_mem_nil, or_false] at hf
    obtain ⟨n, r, h1⟩ := h.anonF b i hb
    exact ⟨n, r, (hcell _ _).2 ⟨fun e => hf e.symm, h1⟩⟩
  · intro b
    show b ∈ s.strT.erase a ↔ _
    rw [h.strN.mem_erase_iff, h.strT b]
    simp only [hcell]
    exact ⟨fun ⟨h1, x, h2⟩ => ⟨x, h1, h2⟩, fun ⟨x, h1, h2⟩ => ⟨h1, x, h2⟩⟩
  · intro b
    show b ∈ s.iriT.erase a ↔ _
    rw [h.iriN.mem_erase_iff, h.iriT b]
    simp only [hcell]
    exact ⟨fun ⟨h1, x, y, h2⟩ => ⟨x, y, h1, h2⟩, fun ⟨x, y, h1, h2⟩ => ⟨h1, x, y, h2⟩⟩
  · intro b
    show b ∈ s.entT.erase a ↔ _
    rw [h.entN.mem_erase_iff, h.entT b]
    simp only [hcell]
    exact ⟨fun ⟨h1, x, y, h2⟩ => ⟨x, y, h1, h2⟩, fun ⟨x, y, h1, h2⟩ => ⟨h1, x, y, h2⟩⟩
  · intro b
    show b ∈ s.anonT.erase a ↔ _
    rw [h.anonN.mem_erase_iff, h.anonT b]
    simp only [hcell]
    exact ⟨fun ⟨h1, x, h2⟩ => ⟨x, h1, h2⟩, fun ⟨x, h1, h2⟩ => ⟨h1, x, h2⟩⟩
  · exact h.strN.erase a
  · exact h.iriN.erase a
  · exact h.entN.erase a
  · exact h.anonN.erase a
  · intro x y t hx hy
    exact h.strU x y t ((hcell _ _).1 hx).2 ((hcell _ _).1 hy).2
  · intro x hx; exact h.strNe x ((hcell _ _).1 hx).2
  · intro x y n r r' hx hy hrr
    have h1 := ((hcell _ _).1 hx).2
    have h2 := ((hcell _ _).1 hy).2
    have f1 := hfield _ _ h1
    have f2 := hfield _ _ h2
    simp only [Cell.fields, List.mem_cons, List.not_mem_nil, or_false, not_or] at f1 f2
    rw [hcont r fun e => f1.2 e.symm, hcont r' fun e => f2.2 e.symm] at hrr
    exact h.iriU x y n r r' h1 h2 hrr
  · intro x y k i hx hy
    exact h.entU x y k i ((hcell _ _).1 hx).2 ((hcell _ _).1 hy).2
  · intro x y r r' hx hy hrr
    have h1 := ((hcell _ _).1 hx).2
    have h2 := ((hcell _ _).1 hy).2
    have f1 := hfield _ _ h1
    have f2 := hfield _ _ h2
    simp only [Cell.fields, List.mem_cons, List.not_mem_nil, or_false] at f1 f2
    rw [hcont r fun e => f1 e.symm, hcont r' fun e => f2 e.symm] at hrr
    exact h.anonU x y r r' h1 h2 hrr
  · exact (hcell _ _).2 ⟨fun e => hae e.symm, h.emptyC⟩

/-! ## Setting the interned bit -/

/-- State after a string becomes interned. -/
def bitFull (s : St) (a : Nat) (c : Str) : St := { s.setBit a c with strT := a :: s.strT }

theorem lookup_map_set (cells : List (Nat × Cell)) (a : Nat) (d : Cell) (b : Nat) :
    (cells.map fun p => if p.1 = a then (a, d) else p).lookup b =
      if b = a then (cells.lookup a).map (fun _ => d) else cells.lookup b := by
  induction cells with
  | nil => simp
  | cons p ps ih =>
    obtain ⟨x, c⟩ := p
    rw [List.map_cons]
    by_cases hx : x = a
    · subst hx
      simp only [if_true, List.lookup_cons, ih]
      by_cases hb : b = x
      · simp [hb]
      · have hbx : (b == x) = false := by simpa using hb
        simp [hb, hbx]
    · simp only [hx, if_false, List.lookup_cons, ih]
      by_cases hb : b = x
      · subst hb; simp [hx]
      · have hbx : (b == x) = false := by simpa using hb
        have hax : (a == x) = false := by simpa using (fun e => hx e.symm : ¬ a = x)
        simp [hbx, hax]

theorem inv_bit {s : St} (h : Inv s) {a : Nat} {c : Str} (hc : s.cellOf a = some (.str c false))
    (hne : c ≠ []) (hun : ∀ b, s.cellOf b ≠ some (.str c true)) :
    Inv (bitFull s a c) ∧ (∀ b, (bitFull s a c).cellOf b =
      if b = a then some (.str c true) else s.cellOf b) := by
  have hcell : ∀ b, (bitFull s a c).cellOf b =
      if b = a then some (.str c true) else s.cellOf b := by
    intro b
    show (s.cells.map fun p => if p.1 = a then (a, Cell.str c true) else p).lookup b = _
    rw [lookup_map_set]
    by_cases hb : b = a
    · have : s.cells.lookup a = some (.str c false) := hc
      simp [hb, this]
    · simp [hb, St.cellOf]
  refine ⟨?_, hcell⟩
  have hcont : ∀ b, (bitFull s a c).content b = s.content b := by
    intro b
    simp only [St.content, hcell]
    by_cases hb : b = a
    · subst hb; simp [hc]
    · simp [hb]
  have hflds : ∀ b, (bitFull s a c).indeg b = s.indeg b := by
    intro b
    show indegL (s.cells.map fun p => if p.1 = a then (a, Cell.str c true) else p) b = indegL s.cells b
    have hn := h.nodup
    have hc' : s.cells.lookup a = some (.str c false) := hc
    unfold indegL
    congr 1
    have : ∀ p ∈ s.cells, (if p.1 = a then (a, Cell.str c true) else p).2.fields = p.2.fields := by
      rintro ⟨x, d⟩ hm
      by_cases hx : x = a
      · subst hx
        have := mem_lookup hn hm
        rw [hc'] at this; cases this
        simp [Cell.fields]
      · simp [hx]
    rw [List.flatMap_map]
    generalize s.cells = l at this
    induction l with
    | nil => rfl
    | cons p ps ih =>
      rw [List.flatMap_cons, List.flatMap_cons, this p (by simp),
        ih fun q hq => this q (by simp [hq])]
  have hother : ∀ b d, (∀ t i, d ≠ Cell.str t i) →
      ((bitFull s a c).cellOf b = some d ↔ s.cellOf b = some d) := by
    intro b d hd
    rw [hcell]
    by_cases hb : b = a
    · subst hb
      simp only [if_true, hc, Option.some.injEq]
      exact ⟨fun e => absurd e.symm (hd _ _), fun e => absurd e.symm (hd _ _)⟩
    · simp [hb]
  have hstr : ∀ b t i, s.cellOf b = some (.str t i) → ∃ i', (bitFull s a c).cellOf b = some (.str t i') := by
    intro b t i hb
    rw [hcell]
    by_cases hba : b = a
    · subst hba; rw [hc] at hb; cases hb; exact ⟨true, by simp⟩
    · exact ⟨i, by simp [hba, hb]⟩
  have hint : ∀ b t, (bitFull s a c).cellOf b = some (.str t true) ↔
      (b = a ∧ t = c) ∨ s.cellOf b = some (.str t true) := by
    intro b t
    rw [hcell]
    by_cases hba : b = a
    · subst hba; simp [hc, eq_comm]
    · simp [hba]
  have hiri : ∀ b n r, (bitFull s a c).cellOf b = some (.iri n r) ↔ s.cellOf b = some (.iri n r) :=
    fun b n r => hother b _ (by intro t i e; cases e)
  have hent : ∀ b n r, (bitFull s a c).cellOf b = some (.ent n r) ↔ s.cellOf b = some (.ent n r) :=
    fun b n r => hother b _ (by intro t i e; cases e)
  have hanon : ∀ b n, (bitFull s a c).cellOf b = some (.anon n) ↔ s.cellOf b = some (.anon n) :=
    fun b n => hother b _ (by intro t i e; cases e)
  have hae : a ≠ s.empty := by
    intro e; rw [e, h.emptyC] at hc; cases hc; exact hne rfl
  constructor
  · show ((s.cells.map fun p => if p.1 = a then (a, Cell.str c true) else p).map Prod.fst).Nodup
    rw [List.map_map]
    have : (Prod.fst ∘ fun p : Nat × Cell => if p.1 = a then (a, Cell.str c true) else p) = Prod.fst := by
      funext p
      by_cases hp : p.1 = a <;> simp [hp]
    rw [this]; exact h.nodup
  · intro b d hb
    rw [hflds]
    have : ∃ d', s.cellOf b = some d' := by
      rw [hcell] at hb
      by_cases hba : b = a
      · exact ⟨_, hba ▸ hc⟩
      · rw [if_neg hba] at hb; exact ⟨_, hb⟩
    obtain ⟨d', hd'⟩ := this
    exact h.rcEq b d' hd'
  · intro b hb
    obtain ⟨d, hd⟩ := h.extLive b hb
    rw [hcell]
    by_cases hba : b = a
    · exact ⟨_, if_pos hba⟩
    · exact ⟨d, by rw [if_neg hba]; exact hd⟩
  · intro b n r hb
    obtain ⟨h1, x, i, h2⟩ := h.iriF b n r ((hiri _ _ _).1 hb)
    obtain ⟨i', h2⟩ := hstr _ _ _ h2
    refine ⟨?_, x, i', h2⟩
    rcases h1 with ⟨x, h1⟩ | h1
    · exact .inl ⟨x, (hint _ _).2 (.inr h1)⟩
    · exact .inr h1
  · intro b k i hb
    obtain ⟨n, r, h1⟩ := h.entF b k i ((hent _ _ _).1 hb)
    exact ⟨n, r, (hiri _ _ _).2 h1⟩
  · intro b i hb
    obtain ⟨n, r, h1⟩ := h.anonF b i ((hanon _ _).1 hb)
    obtain ⟨i', h2⟩ := hstr _ _ _ h1
    exact ⟨n, i', h2⟩
  · intro b
    show b ∈ a :: s.strT ↔ _
    rw [List.mem_cons, h.strT b]
    simp only [hint]
    constructor
    · rintro (rfl | ⟨x, hx⟩)
      · exact ⟨c, .inl ⟨rfl, rfl⟩⟩
      · exact ⟨x, .inr hx⟩
    · rintro ⟨x, ⟨rfl, rfl⟩ | hx⟩
      · exact .inl rfl
      · exact .inr ⟨x, hx⟩
  · intro b; simp only [hiri]; exact h.iriT b
  · intro b; simp only [hent]; exact h.entT b
  · intro b; simp only [hanon]; exact h.anonT b
  · show (a :: s.strT).Nodup
    refine List.nodup_cons.2 ⟨?_, h.strN⟩
    rw [h.strT]; rintro ⟨x, hx⟩; rw [hc] at hx; cases hx
  · exact h.iriN
  · exact h.entN
  · exact h.anonN
  · intro x y t hx hy
    rcases (hint _ _).1 hx with ⟨rfl, rfl⟩ | hx' <;> rcases (hint _ _).1 hy with ⟨rfl, e⟩ | hy'
    · rfl
    · exact absurd hy' (hun y)
    · subst e; exact absurd hx' (hun x)
    · exact h.strU x y t hx' hy'
  · intro x hx
    rcases (hint _ _).1 hx with ⟨rfl, e⟩ | hx
    · exact hne e.symm
    · exact h.strNe x hx
  · intro x y n r r' hx hy hr
    rw [hcont, hcont] at hr
    exact h.iriU x y n r r' ((hiri _ _ _).1 hx) ((hiri _ _ _).1 hy) hr
  · intro x y k i hx hy
    exact h.entU x y k i ((hent _ _ _).1 hx) ((hent _ _ _).1 hy)
  · intro x y r r' hx hy hr
    rw [hcont, hcont] at hr
    exact h.anonU x y r r' ((hanon _ _).1 hx) ((hanon _ _).1 hy) hr
  · rw [hcell]
    show (if s.empty = a then _ else _) = _
    rw [if_neg fun e => hae e.symm]; exact h.emptyC

end Cowl.Heap
