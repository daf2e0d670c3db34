import Verif.LibSpec
/-! # Lemmas: initialisation of the library -/
namespace Cowl.Lib

/-- Invariant: reference counts are those of the program and of the variables; vocabularies have
no other owner. -/
structure Inv (l : St) (n : Own) : Prop where
  counts : ∀ a, l.refs a = n a + l.pointers a
  vocab : ∀ v ∈ vocabs, ∀ a, l.ptr v = some a → l.refs a = 1 ∧ n a = 0

theorem pointers_put (l : St) (s : Slot) (x : Option Nat) (r : Nat → Nat) (i : Bool) (a : Nat) :
    (⟨i, fun t => if t = s then x else l.ptr t, r⟩ : St).pointers a + (if l.ptr s = some a then 1 else 0) =
      l.pointers a + if x = some a then 1 else 0 := by
  unfold St.pointers slots
  cases s <;> simp [List.map, List.sum_cons] <;> omega

theorem pointers_refs (l : St) (r : Nat → Nat) (i : Bool) (a : Nat) : (⟨i, l.ptr, r⟩ : St).pointers a = l.pointers a := rfl

theorem pointers_pos {l : St} {s : Slot} {a : Nat} (h : l.ptr s = some a) : 0 < l.pointers a := by
  have := pointers_put l s none l.refs l.inited a
  rw [if_pos h, if_neg nofun] at this
  omega

/-- Two variables with one object. -/
theorem pointers_two {l : St} {s t : Slot} {a : Nat} (hst : s ≠ t) (h : l.ptr s = some a) (h' : l.ptr t = some a) :
    2 ≤ l.pointers a := by
  have h1 := pointers_put l s none l.refs l.inited a
  rw [if_pos h, if_neg nofun] at h1
  have h2 : 0 < (⟨l.inited, fun t => if t = s then none else l.ptr t, l.refs⟩ : St).pointers a :=
    pointers_pos (s := t) (by show (if t = s then none else l.ptr t) = _; rw [if_neg (fun e => hst e.symm)]; exact h')
  omega

theorem place_inv {l : St} {n : Own} (h : Inv l n) {s : Slot} {a : Nat} (hs : l.ptr s = none) (ha : l.refs a = 0) :
    Inv (l.place s a) n := by
  have hc := h.counts a
  refine ⟨fun b => ?_, fun v hv b hb => ?_⟩
  · have hp := pointers_put l s (some a) (l.place s a).refs l.inited b
    rw [hs, if_neg nofun] at hp
    show (if b = a then 1 else l.refs b) = n b + (l.place s a).pointers b
    have hp' : (l.place s a).pointers b = l.pointers b + if some a = some b then 1 else 0 := hp
    rw [hp']
    have := h.counts b
    by_cases e : b = a
    · subst e; simp; omega
    · rw [if_neg e, if_neg (fun e' => e (Option.some.inj e').symm)]; omega
  · have hb' : (if v = s then some a else l.ptr v) = some b := hb
    show (if b = a then 1 else l.refs b) = 1 ∧ _
    by_cases e : v = s
    · rw [if_pos e] at hb'
      obtain rfl := Option.some.inj hb'
      exact ⟨if_pos rfl, by omega⟩
    · rw [if_neg e] at hb'
      obtain ⟨h1, h2⟩ := h.vocab v hv b hb'
      exact ⟨by rw [if_neg (fun e' => by rw [e'] at h1; omega)]; exact h1, h2⟩

/-- A variable gives up its reference. -/
theorem lessen_inv {l : St} {n : Own} (h : Inv l n) {s : Slot} {a : Nat} (hs : l.ptr s = some a) {r : Nat → Nat}
    (hr : ∀ b, r b = if b = a then l.refs b - 1 else l.refs b) (i : Bool) :
    Inv ⟨i, fun t => if t = s then none else l.ptr t, r⟩ n := by
  have h0 := pointers_pos hs
  have h0' := h.counts a
  refine ⟨fun b => ?_, fun v hv b hb => ?_⟩
  · have hp := pointers_put l s none r i b
    rw [if_neg (c := none = some b) nofun] at hp
    show r b = _
    rw [hr]
    have := h.counts b
    by_cases e : b = a
    · subst e; rw [if_pos hs] at hp; rw [if_pos rfl]; omega
    · rw [if_neg (by rw [hs]; exact fun e' => e (Option.some.inj e').symm)] at hp; rw [if_neg e]; omega
  · have hb' : (if v = s then none else l.ptr v) = some b := hb
    by_cases e : v = s
    · rw [if_pos e] at hb'; cases hb'
    · rw [if_neg e] at hb'
      obtain ⟨h1, h2⟩ := h.vocab v hv b hb'
      show r b = 1 ∧ _
      rw [hr]
      refine ⟨?_, h2⟩
      rw [if_neg ?_]
      · exact h1
      · intro e'
        subst e'
        have := pointers_two e hb' hs
        have := h.counts b
        omega

theorem drop_inv {l : St} {n : Own} (h : Inv l n) (s : Slot) :
    ∃ l', l.drop s = some l' ∧ Inv l' n ∧ l'.inited = l.inited ∧ ∀ t, l'.ptr t = if t = s then none else l.ptr t := by
  unfold St.drop St.releaseSlot
  cases hs : l.ptr s with
  | none =>
    refine ⟨l.clear s, rfl, ?_, rfl, fun _ => rfl⟩
    have : l.clear s = l := by
      unfold St.clear
      congr 1
      funext t
      by_cases e : t = s
      · rw [if_pos e, e, hs]
      · rw [if_neg e]
    rw [this]
    exact h
  | some a =>
    have h0 := pointers_pos hs
    have h0' := h.counts a
    have : l.release a = some { l with refs := fun b => if b = a then l.refs b - 1 else l.refs b } := if_neg (by omega)
    refine ⟨{ l with refs := fun b => if b = a then l.refs b - 1 else l.refs b }.clear s,
      by show Option.map _ (l.release a) = _; rw [this]; rfl, ?_, rfl, fun _ => rfl⟩
    exact lessen_inv h hs (fun _ => rfl) _

theorem dropAll_inv : ∀ (ss : List Slot) {l : St} {n : Own}, Inv l n →
    ∃ l', l.dropAll ss = some l' ∧ Inv l' n ∧ l'.inited = l.inited ∧ ∀ t, l'.ptr t = if t ∈ ss then none else l.ptr t
  | [], l, n, h => ⟨l, rfl, h, rfl, fun t => by simp⟩
  | s :: ss, l, n, h => by
    obtain ⟨l1, e1, i1, d1, p1⟩ := drop_inv h s
    obtain ⟨l2, e2, i2, d2, p2⟩ := dropAll_inv ss i1
    refine ⟨l2, by rw [St.dropAll, e1]; exact e2, i2, d2.trans d1, fun t => ?_⟩
    rw [p2, p1]
    by_cases e : t = s
    · subst e; simp
    · simp [e]

theorem freeVocabs_inv : ∀ (vs : List Slot), (∀ v ∈ vs, v ∈ vocabs) → vs.Nodup → ∀ {l : St} {n : Own}, Inv l n →
    (∀ v ∈ vs, l.ptr v ≠ none) →
    ∃ l', l.freeVocabs vs = some l' ∧ Inv l' n ∧ ∀ t, l'.ptr t = if t ∈ vs then none else l.ptr t
  | [], _, _, l, n, h, _ => ⟨l, rfl, h, fun t => by simp⟩
  | v :: vs, hv, hd, l, n, h, hp => by
    obtain ⟨a, ha⟩ := Option.ne_none_iff_exists'.1 (hp v List.mem_cons_self)
    have h1 := (h.vocab v (hv v List.mem_cons_self) a ha).1
    have i1 : Inv ({ l with refs := fun b => if b = a then 0 else l.refs b }.clear v) n :=
      lessen_inv h ha (fun b => by
        show (if b = a then 0 else l.refs b) = _
        by_cases e : b = a
        · rw [if_pos e, if_pos e, e, h1]
        · rw [if_neg e, if_neg e]) _
    obtain ⟨hd1, hd2⟩ := List.nodup_cons.1 hd
    obtain ⟨l2, e2, i2, p2⟩ := freeVocabs_inv vs (fun v h => hv v (List.mem_cons_of_mem _ h)) hd2 i1 (fun w hw => by
      show (if w = v then none else l.ptr w) ≠ none
      rw [if_neg (fun e : w = v => hd1 (e ▸ hw))]
      exact hp w (List.mem_cons_of_mem _ hw))
    refine ⟨l2, ?_, i2, fun t => ?_⟩
    · rw [St.freeVocabs]
      have : l.freeVocab v = some ({ l with refs := fun b => if b = a then 0 else l.refs b }.clear v) := by
        unfold St.freeVocab
        rw [ha]
      rw [this]
      exact e2
    · rw [p2]
      show (if t ∈ vs then none else if t = v then none else l.ptr t) = _
      by_cases e : t = v
      · subst e; simp
      · simp [e]

/-- New objects for several variables. -/
def St.placeAll (al : Slot → Option Nat) : List Slot → St → St
  | [], l => l
  | s :: ss, l => St.placeAll al ss (l.place s ((al s).getD 0))

theorem placeAll_inv {al : Slot → Option Nat} (hd : ∀ s t, al s = al t → s = t) : ∀ (ss : List Slot), ss.Nodup →
    ∀ {l : St} {n : Own}, Inv l n → (∀ s ∈ ss, l.ptr s = none ∧ ∃ a, al s = some a ∧ l.refs a = 0) →
    Inv (l.placeAll al ss) n ∧ (l.placeAll al ss).inited = l.inited ∧
      ∀ t, (l.placeAll al ss).ptr t = if t ∈ ss then al t else l.ptr t
  | [], _, l, n, h, _ => ⟨h, rfl, fun t => by simp [St.placeAll]⟩
  | s :: ss, hn, l, n, h, hf => by
    obtain ⟨h1, a, h2, h3⟩ := hf s List.mem_cons_self
    obtain ⟨hn1, hn2⟩ := List.nodup_cons.1 hn
    have e : St.placeAll al (s :: ss) l = St.placeAll al ss (l.place s a) := by
      show St.placeAll al ss (l.place s ((al s).getD 0)) = _
      rw [h2]
      rfl
    rw [e]
    obtain ⟨g1, g2, g3⟩ := placeAll_inv hd ss hn2 (place_inv h h1 h3) (fun t ht => by
      obtain ⟨k1, b, k2, k3⟩ := hf t (List.mem_cons_of_mem _ ht)
      have hne : t ≠ s := fun e => hn1 (e ▸ ht)
      refine ⟨by show (if t = s then some a else l.ptr t) = _; rw [if_neg hne]; exact k1, b, k2, ?_⟩
      show (if b = a then 1 else l.refs b) = 0
      rw [if_neg (fun e => hne (hd t s (by rw [k2, h2, e])))]
      exact k3)
    refine ⟨g1, g2, fun t => ?_⟩
    rw [g3]
    show (if t ∈ ss then al t else if t = s then some a else l.ptr t) = _
    by_cases e : t = s
    · subst e
      simp [h2]
    · simp [e]

theorem initVocabs_eq {al : Slot → Option Nat} : ∀ (vs : List Slot) (l : St), (∀ v ∈ vs, al v ≠ none) →
    l.initVocabs al vs = some (l.placeAll al vs, true)
  | [], _, _ => rfl
  | v :: vs, l, h => by
    obtain ⟨a, ha⟩ := Option.ne_none_iff_exists'.1 (h v List.mem_cons_self)
    rw [St.initVocabs, St.placeAll, ha]
    exact initVocabs_eq vs _ fun v hv => h v (List.mem_cons_of_mem _ hv)

theorem initApi_eq {al : Slot → Option Nat} : ∀ (ss : List Slot) (l : St), (∀ s ∈ ss, al s ≠ none) →
    l.initApi al ss = some (l.placeAll al ss, true)
  | [], _, _ => rfl
  | s :: ss, l, h => by
    obtain ⟨a, ha⟩ := Option.ne_none_iff_exists'.1 (h s List.mem_cons_self)
    rw [St.initApi, St.placeAll, ha]
    exact initApi_eq ss _ fun v hv => h v (List.mem_cons_of_mem _ hv)

theorem placeAll_append (al : Slot → Option Nat) : ∀ (a b : List Slot) (l : St),
    l.placeAll al (a ++ b) = (l.placeAll al a).placeAll al b
  | [], _, _ => rfl
  | _ :: a, b, _ => placeAll_append al a b _

/-- All variables are set, or none, according to the flag. -/
def Full (l : St) : Prop := ∀ s, l.ptr s = none ↔ l.inited = false

theorem mem_slots (s : Slot) : s ∈ slots := by cases s <;> decide

theorem init_spec {l : St} {n : Own} (h : Inv l n) (hf : Full l) {al : Slot → Option Nat} (ha : l.inited = false → Fresh l al) :
    ∃ l', l.init al = some (l', .ok) ∧ Inv l' n ∧ Full l' ∧ l'.inited = true := by
  unfold St.init
  by_cases hi : l.inited = true
  · rw [if_pos hi]
    exact ⟨l, rfl, h, hf, hi⟩
  · rw [if_neg hi]
    have hi' : l.inited = false := by simpa using hi
    obtain ⟨f1, f2⟩ := ha hi'
    have hne : ∀ s, al s ≠ none := fun s e => by obtain ⟨a, h1, -⟩ := f1 s; rw [h1] at e; cases e
    obtain ⟨a, ha1, ha2⟩ := f1 .empty
    obtain ⟨g1, g2, g3⟩ := placeAll_inv f2 slots (by decide) h (fun s _ => ⟨(hf s).2 hi', f1 s⟩)
    have e : l.placeAll al slots = ((l.place .empty a).placeAll al vocabs).placeAll al defaults := by
      show l.placeAll al (([.empty] ++ vocabs) ++ defaults) = _
      rw [placeAll_append, placeAll_append]
      show ((l.place .empty ((al .empty).getD 0)).placeAll al vocabs).placeAll al defaults = _
      rw [ha1]
      rfl
    rw [ha1]
    dsimp only
    rw [initVocabs_eq vocabs _ fun v _ => hne v]
    refine ⟨{ l.placeAll al slots with inited := true }, ?_, ?_⟩
    · show (St.initApi al defaults _).bind _ = _
      rw [initApi_eq defaults _ fun v _ => hne v, ← e]
      rfl
    refine ⟨⟨fun b => g1.counts b, g1.vocab⟩, ?_, rfl⟩
    intro s
    show (l.placeAll al slots).ptr s = none ↔ true = false
    rw [g3, if_pos (mem_slots s)]
    exact ⟨fun e => absurd e (hne s), nofun⟩

theorem deinit_spec {l : St} {n : Own} (h : Inv l n) (hf : Full l) :
    ∃ l', l.deinit = some l' ∧ Inv l' n ∧ Full l' ∧ l'.inited = false := by
  unfold St.deinit
  by_cases hi : l.inited = true
  · rw [hi]
    obtain ⟨l1, e1, i1, d1, p1⟩ := dropAll_inv defaults h
    obtain ⟨l2, e2, i2, d2, p2⟩ := drop_inv i1 .empty
    have hp : ∀ s, l.ptr s ≠ none := fun s e => by rw [(hf s).1 e] at hi; cases hi
    obtain ⟨l3, e3, i3, p3⟩ := freeVocabs_inv vocabs (fun _ h => h) (by decide) i2 (fun v hv => by
      rw [p2, p1, if_neg, if_neg]
      · exact hp v
      · revert hv; cases v <;> decide
      · revert hv; cases v <;> decide)
    refine ⟨{ l3 with inited := false }, ?_, ⟨i3.counts, i3.vocab⟩, ?_, rfl⟩
    · show (l.dropAll defaults).bind _ = _
      rw [e1]
      show (l1.drop .empty).bind _ = _
      rw [e2]
      show Option.map _ (l2.freeVocabs vocabs) = _
      rw [e3]
      rfl
    · intro s
      refine ⟨fun _ => rfl, fun _ => ?_⟩
      show l3.ptr s = none
      rw [p3, p2, p1]
      cases s <;> rfl
  · have hi' : l.inited = false := by simpa using hi
    rw [hi']
    exact ⟨l, rfl, h, hf, hi'⟩

theorem set_spec {l : St} {n : Own} (h : Inv l n) (hf : Full l) {s : Slot} (hs : s ∉ vocabs) (hi : l.inited = true) {a : Nat} (ha : 0 < n a) :
    ∃ l', l.set s (some a) = some l' ∧ Inv l' n ∧ Full l' := by
  unfold St.set
  by_cases he : some a = l.ptr s
  · rw [if_pos he]; exact ⟨l, rfl, h, hf⟩
  · rw [if_neg he]
    have hne : l.ptr s ≠ none := fun e => by rw [(hf s).1 e] at hi; cases hi
    obtain ⟨c, hc⟩ := Option.ne_none_iff_exists'.1 hne
    have hca : c ≠ a := fun e => he (by rw [hc, e])
    have h0 := pointers_pos hc
    have h0' := h.counts c
    have ha' := h.counts a
    have e1 : l.releaseSlot s = some { l with refs := fun b => if b = c then l.refs b - 1 else l.refs b } := by
      unfold St.releaseSlot
      rw [hc]
      exact if_neg (by omega)
    rw [e1]
    have e2 : ({ l with refs := fun b => if b = c then l.refs b - 1 else l.refs b } : St).retain a =
        some { l with refs := fun b => if b = a then (if b = c then l.refs b - 1 else l.refs b) + 1 else (if b = c then l.refs b - 1 else l.refs b) } := by
      refine if_neg ?_
      show ¬ (if a = c then _ else l.refs a) = 0
      rw [if_neg (fun e => hca e.symm)]
      omega
    refine ⟨⟨l.inited, fun t => if t = s then some a else l.ptr t, fun b => if b = a then (if b = c then l.refs b - 1 else l.refs b) + 1 else (if b = c then l.refs b - 1 else l.refs b)⟩,
      by show Option.map _ (St.retain _ a) = _; rw [e2]; rfl, ⟨fun b => ?_, fun v hv b hb => ?_⟩, fun t => ?_⟩
    · have hp := pointers_put l s (some a)
        (fun b => if b = a then (if b = c then l.refs b - 1 else l.refs b) + 1 else (if b = c then l.refs b - 1 else l.refs b)) l.inited b
      show (if b = a then (if b = c then l.refs b - 1 else l.refs b) + 1 else (if b = c then l.refs b - 1 else l.refs b)) = _
      have := h.counts b
      rw [hc] at hp
      by_cases e : b = a
      · subst e
        rw [if_neg (fun e => hca (Option.some.inj e)), if_pos rfl] at hp
        rw [if_pos rfl, if_neg (fun e => hca e.symm)]
        omega
      · rw [if_neg (c := some a = some b) (fun e' => e (Option.some.inj e').symm)] at hp
        rw [if_neg e]
        by_cases e' : b = c
        · subst e'; rw [if_pos rfl] at hp ⊢; omega
        · rw [if_neg (fun e => e' (Option.some.inj e).symm)] at hp; rw [if_neg e']; omega
    · have hvs : v ≠ s := fun e => hs (e ▸ hv)
      have hb' : (if v = s then some a else l.ptr v) = some b := hb
      rw [if_neg hvs] at hb'
      obtain ⟨h1, h2⟩ := h.vocab v hv b hb'
      refine ⟨?_, h2⟩
      show (if b = a then (if b = c then l.refs b - 1 else l.refs b) + 1 else (if b = c then l.refs b - 1 else l.refs b)) = 1
      rw [if_neg (fun e => by rw [e] at h2; omega), if_neg, h1]
      intro e
      subst e
      have := pointers_two hvs hb' hc
      omega
    · show (if t = s then some a else l.ptr t) = none ↔ l.inited = false
      by_cases e : t = s
      · rw [if_pos e, hi]; exact ⟨nofun, nofun⟩
      · rw [if_neg e]; exact hf t

theorem op_spec {l : St} {n : Own} (h : Inv l n) (hf : Full l) {op : Op} (ha : Allowed l n op) :
    ∃ l', l.op op = some l' ∧ Inv l' (n.after op) ∧ Full l' := by
  cases op with
  | init al =>
    obtain ⟨l', e, i, f, -⟩ := init_spec h hf ha
    exact ⟨l', by show Option.map _ (l.init al) = _; rw [e]; rfl, i, f⟩
  | deinit =>
    obtain ⟨l', e, i, f, -⟩ := deinit_spec h hf
    exact ⟨l', e, i, f⟩
  | setReader x =>
    obtain ⟨hi, a, rfl, h0⟩ := ha
    exact set_spec h hf (by decide) hi h0
  | setWriter x =>
    obtain ⟨hi, a, rfl, h0⟩ := ha
    exact set_spec h hf (by decide) hi h0
  | new a =>
    have ha : l.refs a = 0 := ha
    have hc := h.counts a
    refine ⟨_, rfl, ⟨fun b => ?_, fun v hv b hb => ?_⟩, hf⟩
    · show (if b = a then 1 else l.refs b) = (if b = a then 1 else n b) + l.pointers b
      by_cases e : b = a
      · subst e; rw [if_pos rfl, if_pos rfl]; omega
      · rw [if_neg e, if_neg e]; exact h.counts b
    · obtain ⟨h1, h2⟩ := h.vocab v hv b hb
      have : b ≠ a := fun e => by rw [e] at h1; omega
      show (if b = a then 1 else l.refs b) = 1 ∧ (if b = a then 1 else n b) = 0
      rw [if_neg this, if_neg this]
      exact ⟨h1, h2⟩
  | keep a =>
    have ha : 0 < n a := ha
    have hc := h.counts a
    refine ⟨_, if_neg (by omega), ⟨fun b => ?_, fun v hv b hb => ?_⟩, hf⟩
    · show (if b = a then l.refs b + 1 else l.refs b) = (if b = a then n b + 1 else n b) + l.pointers b
      have := h.counts b
      by_cases e : b = a
      · rw [if_pos e, if_pos e]; omega
      · rw [if_neg e, if_neg e]; exact this
    · obtain ⟨h1, h2⟩ := h.vocab v hv b hb
      have : b ≠ a := fun e => by rw [e] at h2; omega
      show (if b = a then l.refs b + 1 else l.refs b) = 1 ∧ (if b = a then n b + 1 else n b) = 0
      rw [if_neg this, if_neg this]
      exact ⟨h1, h2⟩
  | drop a =>
    have ha : 0 < n a := ha
    have hc := h.counts a
    refine ⟨_, if_neg (by omega), ⟨fun b => ?_, fun v hv b hb => ?_⟩, hf⟩
    · show (if b = a then l.refs b - 1 else l.refs b) = (if b = a then n b - 1 else n b) + l.pointers b
      have := h.counts b
      by_cases e : b = a
      · rw [if_pos e, if_pos e]; subst e; omega
      · rw [if_neg e, if_neg e]; exact this
    · obtain ⟨h1, h2⟩ := h.vocab v hv b hb
      have : b ≠ a := fun e => by rw [e] at h2; omega
      show (if b = a then l.refs b - 1 else l.refs b) = 1 ∧ (if b = a then n b - 1 else n b) = 0
      rw [if_neg this, if_neg this]
      exact ⟨h1, h2⟩

theorem run_spec : ∀ (ops : List Op) {l : St} {n : Own}, Inv l n → Full l → Calm l n ops →
    ∃ l', l.run ops = some l' ∧ Inv l' (n.afterAll ops) ∧ Full l'
  | [], l, _, h, hf, _ => ⟨l, rfl, h, hf⟩
  | op :: ops, l, n, h, hf, hc => by
    obtain ⟨l1, e1, i1, f1⟩ := op_spec h hf hc.1
    obtain ⟨l2, e2, i2, f2⟩ := run_spec ops i1 f1 (hc.2 l1 e1)
    exact ⟨l2, by rw [St.run, e1]; exact e2, i2, f2⟩

end Cowl.Lib
