import Verif.PrtOwnSpec
import Verif.FuncOwnLemmas
/-!
# References held by the ProtocOWL reader: rules

Rules for functions of the decoder, and the state in between.
-/
namespace Cowl.DOwn
open Cowl.Own
open Cowl.YOwn (Leaf HOp getLeaf litText litTag litRun hopsRun HopsFair getLeaf_ok retain_ok shrink_release hops_spec Shrink)

/-- Something that may be met. -/
def Good (e : Entry) : Prop := e.Fair ∧ e.Sturdy

/-- State between the steps of the decoder. `K` are the references of the vocabulary, `L` those of the
functions that are running, `V` are vectors among them, and `E` implies that there was an error. -/
structure Ok (K L V : List Nat) (E : Prop) (d : D) : Prop where
  inv : Inv d.st []
  ext : ∀ a, d.st.ext a = d.others a + (K.count a + d.ids.count a + d.nss.count a + L.count a)
  vec : ∀ v ∈ V, v ∈ L ∧ IsVec d.st v
  err : E → d.err = true

/-- From any state that meets `P`, the function gives a result as described by `Q`, unless it meets
something bad. -/
def Triple {α : Type} (P : D → Prop) (p : Dec α) (Q : α → D → Prop) : Prop :=
  ∀ d, P d → (∀ e ∈ (p d).1, Good e) → ∃ a d', (p d).2 = .go a d' ∧ Q a d'

theorem Triple.bind {α β : Type} {P : D → Prop} {p : Dec α} {Q : α → D → Prop} {f : α → Dec β} {R : β → D → Prop}
    (h : Triple P p Q) (h' : ∀ a, Triple (Q a) (f a) R) : Triple P (p >>= f) R := by
  intro d hd hl
  show ∃ b d', (Dec.bind p f d).2 = _ ∧ _
  change ∀ e ∈ (Dec.bind p f d).1, Good e at hl
  unfold Dec.bind at hl ⊢
  rcases hp : p d with ⟨l, o⟩
  rw [hp] at hl
  have hl1 : ∀ e ∈ (p d).1, Good e := by
    rw [hp]
    cases o with
    | ub => exact hl
    | go a d' => exact fun e he => hl e (List.mem_append_left _ he)
  obtain ⟨a, d₁, e1, e2⟩ := h d hd hl1
  rw [hp] at e1
  dsimp only at e1
  subst e1
  exact h' a d₁ e2 fun e he => hl e (List.mem_append_right _ he)

theorem Triple.pure {α : Type} {P : D → Prop} {a : α} {Q : α → D → Prop} (h : ∀ d, P d → Q a d) :
    Triple P (Pure.pure a) Q := fun d hd _ => ⟨a, d, rfl, h d hd⟩

theorem Triple.mono {α : Type} {P P' : D → Prop} {p : Dec α} {Q Q' : α → D → Prop} (h : Triple P p Q)
    (hP : ∀ d, P' d → P d) (hQ : ∀ a d, Q a d → Q' a d) : Triple P' p Q' := fun d hd hl => by
  obtain ⟨a, d', e1, e2⟩ := h d (hP d hd) hl
  exact ⟨a, d', e1, hQ a d' e2⟩

theorem Triple.post {α : Type} {P : D → Prop} {p : Dec α} {Q Q' : α → D → Prop} (h : Triple P p Q)
    (hQ : ∀ a d, Q a d → Q' a d) : Triple P p Q' := h.mono (fun _ h => h) hQ

theorem Triple.weaken {α : Type} {P P' : D → Prop} {p : Dec α} {Q : α → D → Prop} (h : Triple P p Q)
    (hP : ∀ d, P' d → P d) : Triple P' p Q := h.mono hP fun _ _ h => h

theorem Triple.given {α : Type} {P : D → Prop} {φ : Prop} {p : Dec α} {Q : α → D → Prop} (hP : ∀ d, P d → φ)
    (h : φ → Triple P p Q) : Triple P p Q := fun d hd => h (hP d hd) d hd

theorem Triple.ite {α : Type} {P : D → Prop} {c : Prop} [Decidable c] {p q : Dec α} {Q : α → D → Prop}
    (h : c → Triple P p Q) (h' : ¬ c → Triple P q Q) : Triple P (if c then p else q) Q := by
  by_cases hc : c
  · rw [if_pos hc]; exact h hc
  · rw [if_neg hc]; exact h' hc

section
variable {K L V : List Nat} {E : Prop}

theorem Ok.live {d : D} (h : Ok K L V E d) {a : Nat} (ha : a ∈ L) : d.st.live a = true := by
  refine live_of_ext h.inv ?_
  rw [h.ext]
  have := List.count_pos_iff.mpr ha
  omega

theorem Ok.live_std {d : D} (h : Ok K L V E d) {a : Nat} (ha : a ∈ K) : d.st.live a = true := by
  refine live_of_ext h.inv ?_
  rw [h.ext]
  have := List.count_pos_iff.mpr ha
  omega

theorem Ok.live_id {d : D} (h : Ok K L V E d) {a : Nat} (ha : a ∈ d.ids) : d.st.live a = true := by
  refine live_of_ext h.inv ?_
  rw [h.ext]
  have := List.count_pos_iff.mpr ha
  omega

theorem Ok.live_ns {d : D} (h : Ok K L V E d) {a : Nat} (ha : a ∈ d.nss) : d.st.live a = true := by
  refine live_of_ext h.inv ?_
  rw [h.ext]
  have := List.count_pos_iff.mpr ha
  omega

theorem Ok.script {d : D} (h : Ok K L V E d) (l : List Pick) : Ok K L V E { d with script := l } :=
  ⟨h.inv, h.ext, h.vec, h.err⟩

/-- Fewer things are known. -/
theorem Ok.sub {d : D} (h : Ok K L V E d) {L' V' : List Nat} {E' : Prop} (hL : ∀ a, L'.count a = L.count a)
    (hV : ∀ v ∈ V', v ∈ V) (hE : E' → E) : Ok K L' V' E' d :=
  ⟨h.inv, fun a => by rw [hL]; exact h.ext a, fun v hv => by
    obtain ⟨h1, h2⟩ := h.vec v (hV v hv)
    refine ⟨?_, h2⟩
    have := List.count_pos_iff.mpr h1
    rw [← hL] at this
    exact List.count_pos_iff.mp this, fun e => h.err (hE e)⟩

theorem count_opt (r : Option Nat) (a : Nat) : r.toList.count a = if r = some a then 1 else 0 := by
  cases r with
  | none => simp
  | some b =>
    by_cases e : b = a
    · simp [e]
    · simp [e]

/-- A call gives an object. -/
theorem Ok.done {d : D} (h : Ok K L V E d) {s : St} {r t : Option Nat} (hd : Done d.st s r t)
    (ht : ∀ v, t = some v → IsVec s v) : Ok K (r.toList ++ L) V E { d with st := s } := by
  have hx : ∀ a, s.ext a = d.others a + (K.count a + d.ids.count a + d.nss.count a + (r.toList ++ L).count a) := by
    intro a
    rw [hd.ext, h.ext, List.count_append, count_opt]
    omega
  refine ⟨hd.inv, hx, fun v hv => ?_, h.err⟩
  obtain ⟨h1, b, items, h2⟩ := h.vec v hv
  refine ⟨List.mem_append_right _ h1, ?_⟩
  by_cases e : t = some v
  · exact ht v e
  · refine ⟨b, items, ?_⟩
    show s.cell v = _
    rw [hd.keep v e (h.live h1) ?_, h2]
    refine live_of_ext hd.inv ?_
    rw [hx, List.count_append]
    have := List.count_pos_iff.mpr h1
    omega

theorem Ok.made {d : D} (h : Ok K L V E d) {s : St} {r : Option Nat} (hd : Made d.st s r) :
    Ok K (r.toList ++ L) V E { d with st := s } := h.done (t := none) hd.done (by simp)

/-! ## Rules -/

theorem t_ask {P : D → Prop} (hp : ∀ d l, P d → P { d with script := l }) (x : Site) :
    Triple P (ask x) fun c d => P d ∧ Good ⟨d.st, d.others, x, c⟩ := fun d hd hl =>
  ⟨_, _, rfl, hp d _ hd, hl _ List.mem_cons_self⟩

theorem t_askOk (x : Site) :
    Triple (Ok K L V E) (ask x) fun c d => Ok K L V E d ∧ Good ⟨d.st, d.others, x, c⟩ :=
  t_ask (fun _ _ h => h.script _) x

theorem t_mem {α : Type} {P : D → Prop} {f : St → Option (St × α)} {Q : α → D → Prop}
    (h : ∀ d, P d → ∃ s a, f d.st = some (s, a) ∧ Q a { d with st := s }) : Triple P (mem f) Q := fun d hd _ => by
  obtain ⟨s, a, e1, e2⟩ := h d hd
  refine ⟨a, { d with st := s }, ?_, e2⟩
  unfold mem
  rw [e1]

theorem t_fail : Triple (Ok K L V E) fail fun r d => r = none ∧ Ok K L V True d := fun d hd _ =>
  ⟨_, _, rfl, rfl, hd.inv, hd.ext, hd.vec, fun _ => rfl⟩

theorem t_isErr : Triple (Ok K L V E) isErr fun e d => Ok K L V E d ∧ e = d.err := fun _ hd _ =>
  ⟨_, _, rfl, hd, rfl⟩

/-- What is returned, added to what the functions hold. -/
abbrev Gives (K L V : List Nat) (E : Prop) (r : Option Nat) (d : D) : Prop := Ok K (r.toList ++ L) V (E ∨ r = none) d

theorem gives_none {d : D} (h : Ok K L V True d) : Gives K L V E none d :=
  h.sub (fun _ => rfl) (fun _ h => h) fun _ => trivial

theorem t_failGives : Triple (Ok K L V E) fail (Gives K L V E) :=
  t_fail.post fun r d h => by obtain ⟨rfl, h⟩ := h; exact gives_none h

theorem t_nn (r : Option Nat) : Triple (Ok K (r.toList ++ L) V E) (nn r) (Gives K L V E) := by
  cases r with
  | none => exact t_failGives
  | some a => exact .pure fun d h => h.sub (fun _ => rfl) (fun _ h => h) (by simp)

theorem t_release {L₀ W : List Nat} (p : Option Nat) {I N : List Nat}
    (hL : ∀ a, L₀.count a = p.toList.count a + L.count a) (hW : ∀ v ∈ V, v ∈ W) (hV : ∀ v ∈ V, v ∈ L) :
    Triple (fun d => Ok K L₀ W E d ∧ d.ids = I ∧ d.nss = N) (release p)
      fun _ d => Ok K L V E d ∧ d.ids = I ∧ d.nss = N := by
  refine t_mem fun d hd => ?_
  obtain ⟨hd, hI, hN⟩ := hd
  cases p with
  | none => exact ⟨d.st, (), rfl, ⟨hd.inv, fun a => by rw [hd.ext, hL]; simp, fun v hv => ⟨hV v hv, (hd.vec v (hW v hv)).2⟩,
      hd.err⟩, hI, hN⟩
  | some a =>
    have ha : 0 < d.st.ext a := by
      rw [hd.ext, hL]; simp; omega
    obtain ⟨s, h1, h2, h3, h4⟩ := shrink_release hd.inv ha
    have hx : ∀ b, s.ext b = d.others b + (K.count b + d.ids.count b + d.nss.count b + L.count b) := by
      intro b
      rw [h4, hd.ext, hL, count_opt]
      by_cases e : b = a
      · rw [if_pos e, if_pos (by rw [e])]; omega
      · rw [if_neg e, if_neg fun h => e (Option.some.inj h).symm]; omega
    refine ⟨s, (), by simp [St.releaseOpt, h1], ⟨h2, hx, fun v hv => ⟨hV v hv, ?_⟩, hd.err⟩, hI, hN⟩
    obtain ⟨_, b, items, hc⟩ := hd.vec v (hW v hv)
    have hlv : s.live v = true := live_of_ext h2 (by
      rw [hx]
      have := List.count_pos_iff.mpr (hV v hv)
      omega)
    obtain ⟨c, hc'⟩ := live_iff_cell.mp hlv
    have := h3 v c hc'
    rw [hc] at this
    exact ⟨b, items, by show s.cell v = _; rw [hc', ← this]⟩

/-- The pointers among those that may be NULL. -/
def ptrs (l : List (Option Nat)) : List Nat := l.flatMap Option.toList

theorem ptrs_cons (p : Option Nat) (l : List (Option Nat)) : ptrs (p :: l) = p.toList ++ ptrs l := by
  simp [ptrs]

theorem ptrs_nil : ptrs [] = [] := rfl

theorem ptrs_map (l : List Nat) : ptrs (l.map some) = l := by
  induction l with
  | nil => rfl
  | cons a l ih => rw [List.map_cons, ptrs_cons, ih]; rfl

theorem t_releaseAllAt {I N : List Nat} : ∀ (l : List (Option Nat)) {L₀ W : List Nat},
    (∀ a, L₀.count a = (ptrs l).count a + L.count a) → (∀ v ∈ V, v ∈ W) → (∀ v ∈ V, v ∈ L) →
    Triple (fun d => Ok K L₀ W E d ∧ d.ids = I ∧ d.nss = N) (releaseAll l)
      fun _ d => Ok K L V E d ∧ d.ids = I ∧ d.nss = N
  | [], L₀, W, hL, hW, hV => .pure fun d h => ⟨h.1.sub (fun a => by rw [hL]; simp [ptrs]) hW id, h.2⟩
  | p :: l, L₀, W, hL, hW, hV => by
    refine .bind (t_release (L := ptrs l ++ L) (V := V) p (fun a => ?_) hW fun v hv => List.mem_append_right _ (hV v hv))
      fun _ => t_releaseAllAt l (fun a => by rw [List.count_append]) (fun _ h => h) hV
    rw [hL, ptrs_cons, List.count_append, List.count_append]
    omega

theorem t_releaseAll {L₀ W : List Nat} (l : List (Option Nat)) (hL : ∀ a, L₀.count a = (ptrs l).count a + L.count a)
    (hW : ∀ v ∈ V, v ∈ W) (hV : ∀ v ∈ V, v ∈ L) :
    Triple (Ok K L₀ W E) (releaseAll l) fun _ => Ok K L V E := fun d hd hl => by
  obtain ⟨a, d', e1, e2⟩ := t_releaseAllAt (I := d.ids) (N := d.nss) l hL hW hV d ⟨hd, rfl, rfl⟩ hl
  exact ⟨a, d', e1, e2.1⟩

theorem t_release1 {L₀ W : List Nat} (p : Option Nat) (hL : ∀ a, L₀.count a = p.toList.count a + L.count a)
    (hW : ∀ v ∈ V, v ∈ W) (hV : ∀ v ∈ V, v ∈ L) :
    Triple (Ok K L₀ W E) (release p) fun _ => Ok K L V E := fun d hd hl => by
  obtain ⟨a, d', e1, e2⟩ := t_release (I := d.ids) (N := d.nss) p hL hW hV d ⟨hd, rfl, rfl⟩ hl
  exact ⟨a, d', e1, e2.1⟩

theorem t_retain (a : Nat) : Triple (fun d => Ok K L V E d ∧ d.st.live a = true) (retain (some a))
    fun r d => r = some a ∧ Ok K (a :: L) V E d := by
  refine t_mem fun d hd => ?_
  obtain ⟨s, h1, h2, _⟩ := retain_ok hd.1.inv hd.2
  exact ⟨s, some a, h1, rfl, hd.1.made h2⟩

theorem t_num (x : Site) : Triple (Ok K L V E) (numAt x) fun n d => Ok K L V (E ∨ n = none) d ∧
    ∀ h, n = some h → x = .header → h % 4 ≠ 3 := by
  refine .bind t_isErr fun e => .ite (fun he => .pure fun d h => ?_) fun he => .bind
    ((t_askOk x).weaken fun d h => h.1) fun c => ?_
  · refine ⟨⟨h.1.inv, h.1.ext, h.1.vec, fun _ => ?_⟩, by simp⟩
    rw [← h.2]; exact he
  · cases hn : c.num with
    | none =>
      refine (t_fail (K := K) (L := L) (V := V) (E := E)).mono (fun d h => h.1) fun r d h => ?_
      obtain ⟨rfl, h⟩ := h
      exact ⟨h.sub (fun _ => rfl) (fun _ h => h) fun _ => trivial, by simp⟩
    | some n =>
      refine .pure fun d h => ⟨h.1.sub (fun _ => rfl) (fun _ h => h) (by simp), fun k e ex => ?_⟩
      cases e
      have := h.2.2
      subst ex
      exact this n hn

theorem t_withNum {f : Nat → Dec (Option Nat)} {Q : Option Nat → D → Prop} (hn : ∀ d, Ok K L V True d → Q none d)
    (h : ∀ n, Triple (Ok K L V E) (f n) Q) : Triple (Ok K L V E) (withNum f) Q := by
  refine .bind (t_num .num) fun n => ?_
  cases n with
  | none => exact .pure fun d h => hn d (h.1.sub (fun _ => rfl) (fun _ h => h) fun _ => .inr rfl)
  | some n => exact (h n).weaken fun d h => h.1.sub (fun _ => rfl) (fun _ h => h) .inl

theorem t_leaf (x : Site) (uses : List Nat) :
    Triple (fun d => Ok K L V E d ∧ ∀ a ∈ uses, d.st.live a = true) (leaf x uses)
      fun r d => Ok K (r.toList ++ L) V E d ∧ (x = .datatype → r ≠ none) := by
  refine .bind (t_ask (fun d l h => ⟨h.1.script l, h.2⟩) x) fun c => t_mem fun d h => ?_
  obtain ⟨⟨h1, h2⟩, h3, h4⟩ := h
  obtain ⟨s, r, e1, e2, e3, e4, e5, _⟩ := getLeaf_ok h1.inv (fun a e => h3.blocks.1 _ (by simp) a e) h3.leaf
  refine ⟨s, r, ?_, h1.made e3, fun ex e => ?_⟩
  · dsimp only at e1 ⊢
    rw [if_pos (List.all_eq_true.mpr h2)]
    exact e1
  · subst ex
    exact h4 (e5.mp e)

/-! ## Literals and constructors -/

theorem litText_ok {s : St} (hi : Inv s []) {c : YOwn.Choice} {v : Nat} (hv : s.live v = true)
    (hb : ∀ a, c.value.bind Leaf.block = some a → s.cell a = none) (hf : ∀ l ∈ c.value, l.Fair s) :
    ∃ s' r, litText s c v = some (s', r) ∧ Made s s' r ∧
      ∀ a, r = some a → s.cell a = none → c.value.bind Leaf.block = some a := by
  unfold litText
  cases hc : c.value with
  | none =>
    obtain ⟨s', h1, h2, _⟩ := retain_ok hi hv
    refine ⟨s', some v, h1, h2, fun a e h => ?_⟩
    cases e
    rw [dead_iff_cell.mpr h] at hv
    exact absurd hv (by simp)
  | some l =>
    rw [hc] at hb
    obtain ⟨s', r, e1, _, e3, _, _, e6⟩ := getLeaf_ok hi hb (hf l hc)
    exact ⟨s', r, e1, e3, e6⟩

theorem litTag_ok {s : St} (hi : Inv s []) {c : YOwn.Choice} {t : Option Nat} (ht : ∀ x ∈ t, s.live x = true)
    (hn : t = none → c.tag ≠ none) (hb : ∀ a, c.tag.bind Leaf.block = some a → s.cell a = none)
    (hf : ∀ l ∈ c.tag, l.Fair s) :
    ∃ s' r, litTag s c t = some (s', r) ∧ Made s s' r ∧
      ∀ a, r = some a → s.cell a = none → c.tag.bind Leaf.block = some a := by
  unfold litTag
  cases hc : c.tag with
  | none =>
    cases t with
    | none => exact absurd hc (hn rfl)
    | some t =>
      obtain ⟨s', h1, h2, _⟩ := retain_ok hi (ht t rfl)
      refine ⟨s', some t, h1, h2, fun a e h => ?_⟩
      cases e
      have := ht t rfl
      rw [dead_iff_cell.mpr h] at this
      exact absurd this (by simp)
  | some l =>
    rw [hc] at hb
    obtain ⟨s', r, e1, _, e3, _, _, e6⟩ := getLeaf_ok hi hb (hf l hc)
    exact ⟨s', r, e1, e3, e6⟩

/-- A literal, memory lacking or not. -/
theorem litRun_any {s : St} (hi : Inv s []) {c : YOwn.Choice} {v : Nat} {t : Option Nat}
    (hb : Blocks s [c.m₁, c.value.bind Leaf.block, c.tag.bind Leaf.block])
    (hval : ∀ l ∈ c.value, l.Fair s) (htag : ∀ l ∈ c.tag, l.Fair s) (hlit : t = none → c.tag ≠ none)
    (hplain : c.bare = false) (hs : c.isLang = true → c.m₁ ≠ none) (hv : s.live v = true)
    (ht : ∀ x ∈ t, s.live x = true) :
    ∃ s' r, litRun s c v t = some (s', r) ∧ Done s s' r none := by
  obtain ⟨p1, p2⟩ := hb
  have q1 := List.pairwise_cons.mp p2
  have q2 := List.pairwise_cons.mp q1.2
  obtain ⟨s₁, r₁, e1, e2, e3⟩ := litText_ok hi hv (p1 _ (by simp)) hval
  unfold litRun
  rw [hplain, if_neg (by simp), e1]
  cases r₁ with
  | none => exact ⟨s₁, none, rfl, e2.done⟩
  | some v' =>
    dsimp only
    have hb2 : ∀ a, c.tag.bind Leaf.block = some a → s₁.cell a = none := fun a e =>
      e2.none a (p1 _ (by simp) a e) fun ev => by
        have := e3 a ev (p1 _ (by simp) a e)
        exact q2.1 _ (by simp) a this e
    have hf2 : ∀ l ∈ c.tag, l.Fair s₁ := fun l hl => by
      have := htag l hl
      cases l with
      | shared a => obtain ⟨o, ho⟩ := this; exact ⟨o, e2.more a _ ho⟩
      | _ => trivial
    obtain ⟨s₂, r₂, g1, g2, g3⟩ := litTag_ok e2.inv (fun x hx => e2.live (ht x hx)) hlit hb2 hf2
    rw [g1]
    cases r₂ with
    | none =>
      obtain ⟨s₃, k1, k2, _⟩ := release_made e2 g2
      exact ⟨s₃, none, by simp [k1], k2⟩
    | some t' =>
      dsimp only
      have hm : ∀ a, c.m₁ = some a → s₂.cell a = none := fun a e =>
        g2.none a (e2.none a (p1 _ (by simp) a e) fun ev => q1.1 _ (by simp) a e (e3 a ev (p1 _ (by simp) a e))) fun et => by
          have h1 : s₁.cell a = none :=
            e2.none a (p1 _ (by simp) a e) fun ev => q1.1 _ (by simp) a e (e3 a ev (p1 _ (by simp) a e))
          exact q1.1 _ (by simp) a e (g3 a et h1)
      have lv : s₂.live v' = true := g2.live (live_of_ext e2.inv (by rw [e2.ext]; simp))
      have lt : s₂.live t' = true := live_of_ext g2.inv (by rw [g2.ext]; simp)
      obtain ⟨s₃, k1, k2, _⟩ := literal_spec g2.inv (isLang := c.isLang) hm lv lt hs
      have k1' : s₂.step (.literal c.m₁ v' t' c.isLang) = some (s₃, c.m₁) := k1
      rw [k1']
      obtain ⟨s₄, s₅, n1, n2, n3, _⟩ := release_two e2 g2 k2
      dsimp only
      have n1' : s₃.release v' = some s₄ := n1
      have n2' : s₄.release t' = some s₅ := n2
      rw [n1']
      exact ⟨s₅, c.m₁, by simp [n2'], n3⟩

theorem t_litOf {value tag : Option Nat} (hv : ∀ a ∈ value, a ∈ L) (ht : ∀ a ∈ tag, a ∈ L) :
    Triple (Ok K L V E) (litOf value tag) (Gives K L V E) := by
  cases value with
  | none => exact t_failGives
  | some v =>
    refine .bind (t_askOk _) fun c => .bind (Q := fun r => Ok K (r.toList ++ L) V E) (t_mem fun d h => ?_) t_nn
    obtain ⟨h1, h2, h3, h4⟩ := h
    have hb : Blocks d.st [c.m₁, c.value.bind Leaf.block, c.tag.bind Leaf.block] := by
      refine ⟨fun m hm => h2.blocks.1 m ?_, h2.blocks.2.sublist ?_⟩
      · simp only [List.mem_cons, List.not_mem_nil, or_false] at hm ⊢
        rcases hm with h | h | h <;> simp [h]
      · exact .cons_cons _ (.cons _ (.cons _ (.cons _ (.refl _))))
    obtain ⟨s, r, e1, e2⟩ := litRun_any h1.inv hb h2.value h2.tag (fun e => h2.lit (by rw [e])) h3 h4
      (h1.live (hv v rfl)) fun x hx => h1.live (ht x hx)
    exact ⟨s, r, e1, h1.done e2 (by simp)⟩

theorem notNull_of {xs : List (Option Nat)} (h : none ∉ xs) : ∃ fs, notNull xs = some fs ∧ xs = fs.map some := by
  induction xs with
  | nil => exact ⟨[], rfl, rfl⟩
  | cons x xs ih =>
    obtain ⟨fs, h1, h2⟩ := ih fun hm => h (List.mem_cons_of_mem _ hm)
    cases x with
    | none => exact absurd List.mem_cons_self h
    | some a => exact ⟨a :: fs, by rw [notNull, h1]; rfl, by rw [h2]; rfl⟩

/-- A constructor, memory lacking or not. -/
theorem makeRun_ok {s : St} (hi : Inv s []) {m : Option Nat} {k : Ctor} {xs : List (Option Nat)} {opt : Option Nat}
    {u : Nat} (hk : k ∈ ctors) (hl : xs.length = k.n) (hx : none ∉ xs) (hxs : ∀ x ∈ ptrs xs, s.live x = true)
    (ho : ∀ x ∈ opt, s.live x = true ∧ (k.form = .annot → IsVec s x)) (hm : ∀ a, m = some a → s.cell a = none) :
    ∃ s', makeRun s m k xs opt u = some (s', m) ∧ Made s s' m := by
  obtain ⟨fs, h1, h2⟩ := notNull_of hx
  obtain ⟨kn, kt⟩ := ctors_ok k hk
  subst h2
  rw [ptrs_map] at hxs
  rw [List.length_map] at hl
  unfold makeRun
  rw [h1]
  dsimp only
  unfold St.step
  dsimp only
  cases hf : k.form with
  | plain =>
    obtain ⟨s', e1, e2, _⟩ := make_spec (opt := none) (u := 0) hi hm hxs (by simp) (releases_opt kt (hl.trans kn))
    exact ⟨s', e1, e2⟩
  | opt =>
    obtain ⟨s', e1, e2, _⟩ := make_spec (opt := opt) (u := 0) hi hm hxs (fun x h => (ho x h).1) (releases_opt kt (hl.trans kn))
    exact ⟨s', e1, e2⟩
  | uint =>
    obtain ⟨s', e1, e2, _⟩ := make_spec (opt := opt) (u := u) hi hm hxs (fun x h => (ho x h).1) (releases_opt kt (hl.trans kn))
    exact ⟨s', e1, e2⟩
  | annot =>
    obtain ⟨s', e1, e2, _⟩ := makeAnnot_spec (annot := opt) hi hm hxs (fun x h => (ho x h).2 hf) kt (hl.trans kn)
    exact ⟨s', e1, e2⟩

theorem t_construct {k : Ctor} {xs : List (Option Nat)} {opt : Option Nat} {u : Nat} (hk : k ∈ ctors)
    (hl : xs.length = k.n) (hx : none ∉ xs) (hxs : ∀ x ∈ ptrs xs, x ∈ L)
    (ho : ∀ x ∈ opt, x ∈ L ∧ (k.form = .annot → x ∈ V)) :
    Triple (Ok K L V E) (construct k xs opt u) fun r => Ok K (r.toList ++ L) V E := by
  refine .bind (t_askOk _) fun c => t_mem fun d h => ?_
  obtain ⟨h1, h2, _⟩ := h
  obtain ⟨s, e1, e2⟩ := makeRun_ok (u := u) (opt := if c.top && k.form = .opt then none else opt) h1.inv (m := c.m₁) hk hl hx
    (fun x h => h1.live (hxs x h)) (fun x hx => by
      split at hx
      · simp at hx
      · exact ⟨h1.live (ho x hx).1, fun hf => (h1.vec x ((ho x hx).2 hf)).2⟩)
    (h2.blocks.1 _ (by simp))
  exact ⟨s, c.m₁, e1, h1.made e2⟩

end
end Cowl.DOwn
