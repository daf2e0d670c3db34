import Verif.LitMemSpec
import Verif.StrBufProps
import Verif.LiteralProps
/-! # Lemmas about literals in memory -/
namespace Cowl.LitM
open SBuf

/-! ## Strings stay interned -/

/-- Strings that stay are still interned. -/
def Bits (s s' : St) : Prop :=
  ∀ a k k', s.cells a = some k → s'.cells a = some k' → k.bit = true → k'.bit = true

theorem Bits.same {s s' : St} (e : s'.cells = s.cells) : Bits s s' := by
  intro a k k' hk hk' hb; rw [e, hk] at hk'; cases hk'; exact hb

theorem Bits.new {s s' : St} {a : Nat} {v : Option Cell} (ha : s.cells a = none) (e : s'.cells = SBuf.set s.cells a v) :
    Bits s s' := by
  intro b k k' hk hk' hb
  by_cases hba : b = a
  · subst hba; rw [ha] at hk; cases hk
  · rw [e, set_other _ _ hba, hk] at hk'; cases hk'; exact hb

theorem Bits.upd {s s' : St} {a : Nat} {l l' : Cell} (ha : s.cells a = some l) (e : s'.cells = SBuf.set s.cells a (some l'))
    (hl : l.bit = true → l'.bit = true) : Bits s s' := by
  intro b k k' hk hk' hb
  by_cases hba : b = a
  · subst hba; rw [e, set_same] at hk'; cases hk'; rw [ha] at hk; cases hk; exact hl hb
  · rw [e, set_other _ _ hba, hk] at hk'; cases hk'; exact hb

theorem Bits.del {s s' : St} {a : Nat} (e : s'.cells = SBuf.set s.cells a none) : Bits s s' := by
  intro b k k' hk hk' hb
  by_cases hba : b = a
  · subst hba; rw [e, set_same] at hk'; cases hk'
  · rw [e, set_other _ _ hba, hk] at hk'; cases hk'; exact hb

theorem fresh_cells (s : St) (w : Where) (c : Str) : (s.fresh w c).1.cells = s.cells := by
  cases w <;> rfl

theorem deinit_cells {s s' : St} {u : UStr} (e : deinit s u = some s') : s'.cells = s.cells := by
  cases u with
  | null => cases e; rfl
  | inl c => cases e; rfl
  | buf b =>
    have e : (s.bufs b).map _ = some s' := e
    obtain ⟨d, _, rfl⟩ := Option.map_eq_some_iff.1 e
    rfl

theorem discard_cells {s s' : St} {u : UStr} {copy : Bool} (e : (if copy then some s else deinit s u) = some s') :
    s'.cells = s.cells := by
  cases copy with
  | true => rw [if_pos rfl] at e; cases e; rfl
  | false => rw [if_neg (by simp)] at e; exact deinit_cells e

/-- `cowl_string_get`: a new cell, or none. -/
theorem get_cells {h : Str → Nat} {w : Where} {ok : Bool} {s s' : St} {a : Nat} {u : UStr} {copy : Bool} {r : Option Nat}
    (e : SBuf.get h w ok s a u copy = some (s', r)) :
    (r = none ∧ s'.cells = s.cells) ∨ (r = some a ∧ ∃ k, s'.cells = SBuf.set s.cells a (some k)) := by
  unfold SBuf.get at e
  obtain ⟨⟨s1, u1⟩, e1, e⟩ := Option.bind_eq_some_iff.1 e
  have h1 : s1.cells = s.cells := by
    cases copy with
    | true =>
      rw [if_pos rfl] at e1
      obtain ⟨c, _, e1⟩ := Option.map_eq_some_iff.1 e1
      rw [← show (s.fresh w c).1 = s1 from congrArg Prod.fst e1]; exact fresh_cells s w c
    | false => rw [if_neg (by simp)] at e1; cases e1; rfl
  dsimp only at e
  split at e
  · cases e; exact .inl ⟨rfl, h1⟩
  · split at e
    · obtain ⟨c, _, e⟩ := Option.map_eq_some_iff.1 e
      cases e
      exact .inr ⟨rfl, _, by rw [← h1]⟩
    · obtain ⟨s2, e2, e⟩ := Option.map_eq_some_iff.1 e
      cases e
      exact .inl ⟨rfl, (deinit_cells e2).trans h1⟩

theorem retain_cells {s s' : St} {a : Nat} (e : SBuf.retain s a = some s') :
    ∃ k, s.cells a = some k ∧ s'.cells = SBuf.set s.cells a (some { k with rc := k.rc + 1 }) := by
  unfold SBuf.retain at e
  obtain ⟨k, hk, e⟩ := Option.map_eq_some_iff.1 e
  cases e
  exact ⟨k, hk, rfl⟩

/-- What constructors do to the cells: nothing, a new cell at `a`, or one more reference to a cell
that is there. -/
def Makes (s s' : St) (a : Nat) (r : Option Nat) : Prop :=
  (r = none ∧ s'.cells = s.cells) ∨ (r = some a ∧ ∃ k, s'.cells = SBuf.set s.cells a (some k)) ∨
    ∃ x k, r = some x ∧ s.cells x = some k ∧ s'.cells = SBuf.set s.cells x (some { k with rc := k.rc + 1 })

theorem Makes.bits {s s' : St} {a : Nat} {r : Option Nat} (ha : s.cells a = none) (m : Makes s s' a r) : Bits s s' := by
  rcases m with ⟨_, e⟩ | ⟨_, k, e⟩ | ⟨x, k, _, hk, e⟩
  · exact .same e
  · exact .new ha e
  · exact .upd hk e id

/-- Addresses that are not in use, but for that of the new string, stay so. -/
theorem Makes.unused {s s' : St} {a : Nat} {r : Option Nat} (m : Makes s s' a r) {b : Nat} (hb : s.cells b = none)
    (hba : b ≠ a) : s'.cells b = none := by
  rcases m with ⟨_, e⟩ | ⟨_, k, e⟩ | ⟨x, k, _, hk, e⟩
  · rw [e]; exact hb
  · rw [e, set_other _ _ hba]; exact hb
  · rw [e, set_other _ _ (by rintro rfl; rw [hb] at hk; cases hk)]; exact hb

theorem Makes.cells {s t s' : St} {a : Nat} {r : Option Nat} (e : t.cells = s.cells) (m : Makes t s' a r) : Makes s s' a r := by
  unfold Makes at m ⊢; rw [e] at m; exact m

theorem emptyStr_makes {s s' : St} {r : Option Nat} (a : Nat) (e : emptyStr s = some (s', r)) : Makes s s' a r := by
  unfold emptyStr SBuf.retain at e
  obtain ⟨s1, e1, e⟩ := Option.map_eq_some_iff.1 e
  obtain ⟨k, hk, e1⟩ := Option.map_eq_some_iff.1 e1
  cases e1; cases e
  exact .inr (.inr ⟨_, k, rfl, hk, rfl⟩)

theorem getIntern_makes {h : Str → Nat} {w : Where} {put ok : Bool} {s s' : St} {a : Nat} {u : UStr} {copy : Bool}
    {r : Option Nat} (e : getIntern h w put ok s a u copy = some (s', r)) : Makes s s' a r := by
  unfold getIntern at e
  obtain ⟨c, _, e⟩ := Option.bind_eq_some_iff.1 e
  split at e
  · obtain ⟨s1, e1, e⟩ := Option.map_eq_some_iff.1 e
    cases e
    exact .inl ⟨rfl, discard_cells e1⟩
  · obtain ⟨f, _, e⟩ := Option.bind_eq_some_iff.1 e
    split at e
    · obtain ⟨s1, e1, e⟩ := Option.bind_eq_some_iff.1 e
      obtain ⟨s2, e2, e⟩ := Option.map_eq_some_iff.1 e
      cases e
      obtain ⟨k, hk, e3⟩ := retain_cells e1
      exact .inr (.inr ⟨_, k, rfl, hk, by rw [discard_cells e2, e3]⟩)
    · obtain ⟨⟨s1, r1⟩, e1, e⟩ := Option.bind_eq_some_iff.1 e
      dsimp only at e
      rcases get_cells e1 with ⟨rfl, h1⟩ | ⟨rfl, k, h1⟩
      · cases e; exact .inl ⟨rfl, h1⟩
      · obtain ⟨k', _, e⟩ := Option.map_eq_some_iff.1 e
        cases e
        exact .inr (.inl ⟨rfl, _, by show SBuf.set s1.cells a _ = _; rw [h1, set_set]⟩)

theorem get_makes {h : Str → Nat} {w : Where} {ok : Bool} {s s' : St} {a : Nat} {u : UStr} {copy : Bool} {r : Option Nat}
    (e : SBuf.get h w ok s a u copy = some (s', r)) : Makes s s' a r := by
  rcases get_cells e with h1 | h1
  · exact .inl h1
  · exact .inr (.inl h1)

theorem opt_makes {h : Str → Nat} {w : Where} {put ok : Bool} {s s' : St} {a : Nat} {u : UStr} {copy int : Bool}
    {r : Option Nat} (e : opt h w put ok s a u copy int = some (s', r)) : Makes s s' a r := by
  unfold opt at e
  split at e
  · obtain ⟨s1, e1, e⟩ := Option.map_eq_some_iff.1 e
    cases e
    exact .inl ⟨rfl, discard_cells e1⟩
  · obtain ⟨c, _, e⟩ := Option.bind_eq_some_iff.1 e
    split at e
    · obtain ⟨⟨s1, r1⟩, e1, e⟩ := Option.bind_eq_some_iff.1 e
      obtain ⟨s2, e2, e⟩ := Option.map_eq_some_iff.1 e
      cases e
      have := emptyStr_makes a e1
      unfold Makes at this ⊢
      rw [discard_cells e2]; exact this
    · split at e
      · exact getIntern_makes e
      · exact get_makes e

theorem string_makes {h : Str → Nat} {ok : Bool} {s s' : St} {a : Nat} {u : UStr}
    {r : Option Nat} (e : string h ok s a u = some (s', r)) : Makes s s' a r := by
  unfold string at e
  split at e
  · cases e; exact .inl ⟨rfl, rfl⟩
  · obtain ⟨c, _, e⟩ := Option.bind_eq_some_iff.1 e
    split at e
    · exact emptyStr_makes a e
    · exact get_makes e

theorem decr_cells {s s' : St} {a n : Nat} (e : decr s a = some (s', n)) :
    ∃ k, s.cells a = some k ∧ s'.cells = SBuf.set s.cells a (some { k with rc := k.rc - 1 }) := by
  unfold decr at e
  obtain ⟨k, hk, e⟩ := Option.bind_eq_some_iff.1 e
  split at e
  · cases e
  · cases e; exact ⟨k, hk, rfl⟩

theorem free_cells {s s' : St} {a : Nat} (e : free s a = some s') : s'.cells = SBuf.set s.cells a none := by
  unfold free at e
  obtain ⟨k, hk, e⟩ := Option.bind_eq_some_iff.1 e
  obtain ⟨s1, e1, e⟩ := Option.bind_eq_some_iff.1 e
  obtain ⟨s2, e2, e⟩ := Option.map_eq_some_iff.1 e
  cases e
  show SBuf.set s2.cells a none = _
  rw [deinit_cells e2]
  congr 1
  split at e1
  · unfold remove at e1
    obtain ⟨k', _, e1⟩ := Option.bind_eq_some_iff.1 e1
    obtain ⟨c, _, e1⟩ := Option.bind_eq_some_iff.1 e1
    obtain ⟨r, _, e1⟩ := Option.map_eq_some_iff.1 e1
    cases r <;> (dsimp only at e1; rw [← e1])
  · cases e1; rfl

theorem release_bits {s s' : St} {a : Nat} (e : SBuf.release s a = some s') : Bits s s' := by
  unfold SBuf.release at e
  obtain ⟨⟨s1, n⟩, e1, e⟩ := Option.bind_eq_some_iff.1 e
  obtain ⟨k, hk, h1⟩ := decr_cells e1
  dsimp only at e
  split at e
  · cases e; exact .upd hk h1 id
  · exact .del (by rw [free_cells e, h1, set_set])

theorem releaseRaw_bits {w : Where} {s s' : St} {a : Nat} {u : UStr} (e : releaseRaw w s a = some (s', u)) : Bits s s' := by
  unfold releaseRaw at e
  obtain ⟨⟨s1, n⟩, e1, e⟩ := Option.bind_eq_some_iff.1 e
  obtain ⟨k, hk, h1⟩ := decr_cells e1
  dsimp only at e
  obtain ⟨k1, _, e⟩ := Option.bind_eq_some_iff.1 e
  split at e
  · obtain ⟨c, _, e⟩ := Option.map_eq_some_iff.1 e
    refine .upd hk (l' := { k with rc := k.rc - 1 }) ?_ id
    rw [← show (s1.fresh w c).1 = s' from congrArg Prod.fst e, fresh_cells, h1]
  · obtain ⟨s2, e2, e⟩ := Option.map_eq_some_iff.1 e
    cases e
    refine .del (a := a) ?_
    rw [free_cells e2]
    show SBuf.set (SBuf.set s1.cells a _) a none = _
    rw [set_set, h1, set_set]

theorem intern_bits {put : Bool} {s s' : St} {a : Nat} {r : Option Nat} (e : intern put s a = some (s', r)) : Bits s s' := by
  unfold intern at e
  obtain ⟨k, hk, e⟩ := Option.bind_eq_some_iff.1 e
  split at e
  · cases e; exact .same rfl
  · obtain ⟨c, _, e⟩ := Option.bind_eq_some_iff.1 e
    split at e
    · cases e; exact .same rfl
    · split at e
      · cases e; exact .same rfl
      · obtain ⟨f, _, e⟩ := Option.map_eq_some_iff.1 e
        cases f with
        | some b => cases e; exact .same rfl
        | none => cases e; exact .upd hk rfl fun _ => rfl

/-- Calls do not take the mark of interned strings away. -/
theorem step_bits {h : Str → Nat} {w : SBuf.World} {op : SBuf.Op} (hl : SBuf.Legal w op) {s : St} {r : SBuf.Res}
    (hs : SBuf.step h w.st op = some (s, r)) : Bits w.st s := by
  cases op with
  | make b c => cases hs; exact .same rfl
  | drop b =>
    obtain ⟨s1, e1, e⟩ := Option.map_eq_some_iff.1 hs
    cases e; exact .same (deinit_cells e1)
  | opt m put ok a u copy int =>
    obtain ⟨p, e1, e⟩ := Option.map_eq_some_iff.1 hs
    cases e; exact (opt_makes e1).bits hl.1
  | string ok a u =>
    obtain ⟨p, e1, e⟩ := Option.map_eq_some_iff.1 hs
    cases e; exact (string_makes e1).bits hl.1
  | empty =>
    obtain ⟨p, e1, e⟩ := Option.map_eq_some_iff.1 hs
    cases e
    rcases emptyStr_makes 0 e1 with ⟨_, e⟩ | ⟨_, k, e⟩ | ⟨x, k, _, hk, e⟩
    · exact .same e
    · unfold emptyStr at e1
      obtain ⟨s1, e2, e1⟩ := Option.map_eq_some_iff.1 e1
      obtain ⟨k, hk, e3⟩ := retain_cells e2
      cases e1
      exact .upd hk e3 id
    · exact .upd hk e id
  | intern put x =>
    obtain ⟨p, e1, e⟩ := Option.map_eq_some_iff.1 hs
    cases e; exact intern_bits e1
  | concat m ok a x y =>
    obtain ⟨p, e1, e⟩ := Option.map_eq_some_iff.1 hs
    cases e
    unfold concat at e1
    obtain ⟨k, _, e1⟩ := Option.bind_eq_some_iff.1 e1
    obtain ⟨l, _, e1⟩ := Option.bind_eq_some_iff.1 e1
    obtain ⟨c, _, e1⟩ := Option.bind_eq_some_iff.1 e1
    obtain ⟨d, _, e1⟩ := Option.bind_eq_some_iff.1 e1
    exact ((string_makes e1).cells (fresh_cells _ _ _)).bits hl.1
  | withFormat m ok a c =>
    obtain ⟨p, e1, e⟩ := Option.map_eq_some_iff.1 hs
    cases e
    unfold withFormat at e1
    exact ((string_makes e1).cells (fresh_cells _ _ _)).bits hl.1
  | retain x =>
    obtain ⟨p, e1, e⟩ := Option.map_eq_some_iff.1 hs
    cases e
    obtain ⟨k, hk, e⟩ := retain_cells e1
    exact .upd hk e id
  | release x =>
    obtain ⟨p, e1, e⟩ := Option.map_eq_some_iff.1 hs
    cases e; exact release_bits e1
  | releaseRaw m x =>
    obtain ⟨p, e1, e⟩ := Option.map_eq_some_iff.1 hs
    cases e; exact releaseRaw_bits e1

/-! ## Sequences of calls -/

/-- A string that stays keeps its text and its mark. -/
theorem step_keep {h : Str → Nat} {w : SBuf.World} (hw : SBuf.Reachable h w) {op : SBuf.Op} (hl : SBuf.Legal w op)
    {s : St} {r : SBuf.Res} (hs : SBuf.step h w.st op = some (s, r)) {a : Nat} {k : Cell} (hk : w.st.cells a = some k)
    (ha : 0 < SBuf.extAfter w.ext op r a ∨ a = w.st.empty) :
    ∃ k', s.cells a = some k' ∧ k'.raw = k.raw ∧ s.txt k.raw = w.st.txt k.raw ∧ (k.bit = true → k'.bit = true) := by
  obtain ⟨_, _, e, _, F⟩ := SBuf.step_spec (SBuf.reachable_inv hw) hl
  rw [hs] at e; cases e
  have hn : s.cells a ≠ none := ((C72_counts (hw.step hl hs) a).1).2 (ha.imp id fun e => e.trans F.empty.symm)
  obtain ⟨k', hk'⟩ := Option.ne_none_iff_exists'.1 hn
  exact ⟨k', hk', (F.cells a k k' hk hk').1, (F.cells a k k' hk hk').2, step_bits hl hs a k k' hk hk'⟩

/-- The way from one state to another by calls on strings, on which nothing is given up that was
owned at the start. -/
structure Run (h : Str → Nat) (w w' : SBuf.World) : Prop where
  reach : SBuf.Reachable h w'
  empty : w'.st.empty = w.st.empty
  mono : ∀ a, w.ext a ≤ w'.ext a
  keep : ∀ a k, w.st.cells a = some k → ∃ k', w'.st.cells a = some k' ∧ k'.raw = k.raw ∧
    w'.st.txt k.raw = w.st.txt k.raw ∧ (k.bit = true → k'.bit = true)
  bufs : ∀ b, w.cli b = true → w'.cli b = true ∧ w'.st.bufs b = w.st.bufs b

theorem Run.refl {h : Str → Nat} {w : SBuf.World} (hw : SBuf.Reachable h w) : Run h w w :=
  ⟨hw, rfl, fun _ => Nat.le_refl _, fun a k hk => ⟨k, hk, rfl, rfl, id⟩, fun b hb => ⟨hb, rfl⟩⟩

theorem Run.step {h : Str → Nat} {w w1 : SBuf.World} (hw : SBuf.Reachable h w) (R : Run h w w1) {op : SBuf.Op}
    (hl : SBuf.Legal w1 op) {s : St} {r : SBuf.Res} (hs : SBuf.step h w1.st op = some (s, r))
    (hx : ∀ a, w.ext a ≤ SBuf.extAfter w1.ext op r a) (hc : ∀ b, w.cli b = true → SBuf.cliAfter w1.cli op r b = true) :
    Run h w ⟨s, SBuf.extAfter w1.ext op r, SBuf.cliAfter w1.cli op r⟩ := by
  obtain ⟨_, _, e, _, F⟩ := SBuf.step_spec (SBuf.reachable_inv R.reach) hl
  rw [hs] at e; cases e
  refine ⟨R.reach.step hl hs, F.empty.trans R.empty, hx, fun a k hk => ?_, fun b hb => ⟨hc b hb, ?_⟩⟩
  · obtain ⟨k1, h1, h2, h3, h4⟩ := R.keep a k hk
    have ha : 0 < SBuf.extAfter w1.ext op r a ∨ a = w1.st.empty := by
      rcases ((C72_counts hw a).1).1 (by rw [hk]; exact fun e => by cases e) with ha | ha
      · exact .inl (Nat.lt_of_lt_of_le ha (hx a))
      · exact .inr (ha.trans R.empty.symm)
    obtain ⟨k2, g1, g2, g3, g4⟩ := step_keep R.reach hl hs h1 ha
    exact ⟨k2, g1, g2.trans h2, by rw [← h2, g3, h2, h3], fun hb => g4 (h4 hb)⟩
  · exact (F.mine b (R.bufs b hb).1 (hc b hb)).trans (R.bufs b hb).2

theorem Run.text {h : Str → Nat} {w w' : SBuf.World} (R : Run h w w') {a : Nat} {c : Str} (ha : w.st.text a = some c) :
    w'.st.text a = some c := by
  obtain ⟨k, hk, hc⟩ := Option.bind_eq_some_iff.1 ha
  obtain ⟨k', h1, h2, h3, _⟩ := R.keep a k hk
  rw [text_eq h1, h2, h3, hc]

theorem Run.live {h : Str → Nat} {w w' : SBuf.World} (R : Run h w w') {a : Nat} (ha : w.st.cells a ≠ none) :
    w'.st.cells a ≠ none := by
  obtain ⟨k, hk⟩ := Option.ne_none_iff_exists'.1 ha
  obtain ⟨k', h1, _⟩ := R.keep a k hk
  rw [h1]; exact fun e => by cases e

theorem Run.interned {h : Str → Nat} {w w' : SBuf.World} (R : Run h w w') {a : Nat} (ha : Interned w.st a) :
    Interned w'.st a := by
  obtain ⟨k, hk, hb⟩ := ha
  obtain ⟨k', h1, _, _, h4⟩ := R.keep a k hk
  exact ⟨k', h1, h4 hb⟩

theorem Run.txt {h : Str → Nat} {w w' : SBuf.World} (hw : SBuf.Reachable h w) (R : Run h w w') {u : UStr} {c : Str}
    (hu : w.st.txt u = some c) : w'.st.txt u = some c := by
  cases u with
  | null => exact hu
  | inl d => exact hu
  | buf b =>
    have hu : w.st.bufs b = some c := hu
    show w'.st.bufs b = some c
    rcases ((C72_buffers hw b).1).1 (by rw [hu]; exact fun e => by cases e) with hb | ⟨a, k, hk, e⟩
    · rw [(R.bufs b hb).2, hu]
    · obtain ⟨_, _, _, h3, _⟩ := R.keep a k hk
      rw [e] at h3
      exact h3.trans hu

/-- One more reference, and one less. -/
def bump (ext : Nat → Nat) (x : Nat) : Nat → Nat := SBuf.set ext x (ext x + 1)

def unbump (ext : Nat → Nat) (x : Nat) : Nat → Nat := SBuf.set ext x (ext x - 1)

theorem le_bump (ext : Nat → Nat) (x a : Nat) : ext a ≤ bump ext x a := by
  unfold bump SBuf.set; split
  · subst_vars; omega
  · exact Nat.le_refl _

/-- What `cowl_string_opt` gives on the way. -/
def Gives (h : Str → Nat) (w : SBuf.World) (ext : Nat → Nat) (cli : Nat → Bool) (c : Str) (int : Bool) (s' : St)
    (r : Option Nat) : Prop :=
  (r = none → Run h w ⟨s', ext, cli⟩) ∧ ∀ x, r = some x → Run h w ⟨s', bump ext x, cli⟩ ∧ s'.text x = some c ∧
    (int = true → c ≠ [] → Interned s' x)

theorem run_opt {h : Str → Nat} {w : SBuf.World} (hw : SBuf.Reachable h w) {s : St} {ext : Nat → Nat}
    {cli cli' : Nat → Bool} (R : Run h w ⟨s, ext, cli⟩) {m : Where} {put ok : Bool} {a : Nat} {u : UStr} {copy int : Bool}
    (hl : SBuf.Legal ⟨s, ext, cli⟩ (.opt m put ok a u copy int)) {c : Str} (hc : s.txt u = some c)
    (hd : cli' = if copy then cli else disown cli u) (hk : ∀ b, w.cli b = true → cli' b = true) :
    ∃ s' r, opt h m put ok s a u copy int = some (s', r) ∧ Makes s s' a r ∧ Gives h w ext cli' c int s' r := by
  obtain ⟨s', r, e⟩ := C72_defined R.reach hl
  have e0 := e
  obtain ⟨⟨s1, r1⟩, e1, e2⟩ := Option.map_eq_some_iff.1 e
  cases e2
  have hcli : SBuf.cliAfter cli (.opt m put ok a u copy int) (.ptr r1) = cli' := by cases copy <;> exact hd.symm
  refine ⟨s', r1, e1, opt_makes e1, ?_, ?_⟩
  · rintro rfl
    have := R.step hw hl e0 (fun a => R.mono a) (fun b hb => by
      show SBuf.cliAfter cli _ _ b = true
      rw [hcli]; exact hk b hb)
    rw [← hcli]; exact this
  · rintro x rfl
    have := R.step hw hl e0 (fun a => Nat.le_trans (R.mono a) (le_bump ext x a)) (fun b hb => by
      show SBuf.cliAfter cli _ _ b = true
      rw [hcli]; exact hk b hb)
    rw [← hcli]
    refine ⟨this, C72_text R.reach hl (.opt hc) e0, fun hi hn => ?_⟩
    exact (C72_interns R.reach hl hi (.opt hc) e0).resolve_right fun h => hn h.1

theorem run_retain {h : Str → Nat} {w : SBuf.World} (hw : SBuf.Reachable h w) {s : St} {ext : Nat → Nat}
    {cli : Nat → Bool} (R : Run h w ⟨s, ext, cli⟩) {x : Nat} (hx : s.cells x ≠ none) :
    ∃ s', SBuf.retain s x = some s' ∧ Run h w ⟨s', bump ext x, cli⟩ ∧ s'.txt = s.txt ∧
      (∀ a c, s.text a = some c → s'.text a = some c) ∧ (∀ a, Interned s a → Interned s' a) ∧
      ∀ a, s.cells a ≠ none → s'.cells a ≠ none := by
  have hl : SBuf.Legal ⟨s, ext, cli⟩ (.retain x) := hx
  obtain ⟨s', r, e⟩ := C72_defined R.reach hl
  have e0 := e
  obtain ⟨s1, e1, e2⟩ := Option.map_eq_some_iff.1 e
  cases e2
  have Q : Run h ⟨s, ext, cli⟩ ⟨s', bump ext x, cli⟩ :=
    (Run.refl R.reach).step R.reach hl e0 (fun a => le_bump ext x a) (fun b hb => hb)
  refine ⟨s', e1, R.step hw hl e0 (fun a => Nat.le_trans (R.mono a) (le_bump ext x a)) (fun b hb => (R.bufs b hb).1), ?_,
    fun a c ha => Q.text ha, fun a ha => Q.interned ha, fun a ha => Q.live ha⟩
  unfold SBuf.retain at e1
  obtain ⟨k, hk, e1⟩ := Option.map_eq_some_iff.1 e1
  cases e1
  funext u; exact txt_cells s _ s.tbl u

/-- Giving up a reference that was got on the way. -/
theorem run_release {h : Str → Nat} {w : SBuf.World} (hw : SBuf.Reachable h w) {s : St} {ext : Nat → Nat}
    {cli : Nat → Bool} {x : Nat} (R : Run h w ⟨s, bump ext x, cli⟩) (hm : ∀ a, w.ext a ≤ ext a) :
    ∃ s', SBuf.release s x = some s' ∧ Run h w ⟨s', ext, cli⟩ ∧
      ∀ a, 0 < ext a → (∀ c, s.text a = some c → s'.text a = some c) ∧ (Interned s a → Interned s' a) := by
  have hb : unbump (bump ext x) x = ext := by
    funext a; simp only [unbump, bump, SBuf.set]; split
    · subst_vars; simp
    · rfl
  have hl : SBuf.Legal ⟨s, bump ext x, cli⟩ (.release x) := by show 0 < bump ext x x; simp [bump]
  obtain ⟨s', r, e⟩ := C72_defined R.reach hl
  have e0 := e
  obtain ⟨s1, e1, e2⟩ := Option.map_eq_some_iff.1 e
  cases e2
  have hx : SBuf.extAfter (bump ext x) (.release x) .unit = ext := hb
  have Q := R.step hw hl e0 (fun a => by show _ ≤ SBuf.extAfter (bump ext x) (.release x) .unit a; rw [hx]; exact hm a)
    (fun b hb => (R.bufs b hb).1)
  refine ⟨s', e1, ?_, fun a ha => ⟨fun c hc => ?_, fun hi => ?_⟩⟩
  · have := Q; dsimp only at this; rw [hx] at this; exact this
  · obtain ⟨k, hk, hc⟩ := Option.bind_eq_some_iff.1 hc
    obtain ⟨k', h1, h2, h3, _⟩ := step_keep R.reach hl e0 hk (.inl (by show 0 < SBuf.extAfter (bump ext x) (.release x) .unit a; rw [hx]; exact ha))
    rw [text_eq h1, h2, h3]; exact hc
  · obtain ⟨k, hk, hb⟩ := hi
    obtain ⟨k', h1, _, _, h4⟩ := step_keep R.reach hl e0 hk (.inl (by show 0 < SBuf.extAfter (bump ext x) (.release x) .unit a; rw [hx]; exact ha))
    exact ⟨k', h1, h4 hb⟩

theorem run_intern {h : Str → Nat} {w : SBuf.World} (hw : SBuf.Reachable h w) {s : St} {ext : Nat → Nat}
    {cli : Nat → Bool} (R : Run h w ⟨s, ext, cli⟩) (put : Bool) {x : Nat} {c : Str} (hx : s.text x = some c) (hc : c ≠ []) :
    ∃ s' r, intern put s x = some (s', r) ∧ Run h w ⟨s', ext, cli⟩ ∧
      ∀ y, r = some y → s'.text y = some c ∧ Interned s' y := by
  have hl : SBuf.Legal ⟨s, ext, cli⟩ (.intern put x) := by
    show s.cells x ≠ none
    intro e; simp [St.text, e] at hx
  obtain ⟨s', r, e⟩ := C72_defined R.reach hl
  have e0 := e
  obtain ⟨⟨s1, r1⟩, e1, e2⟩ := Option.map_eq_some_iff.1 e
  cases e2
  refine ⟨s', r1, e1, R.step hw hl e0 (fun a => R.mono a) (fun b hb => (R.bufs b hb).1), ?_⟩
  rintro y rfl
  exact ⟨C72_text R.reach hl (.intern hx) e0,
    (C72_interns R.reach hl trivial (.intern hx) e0).resolve_right fun h => hc h.1⟩

/-- A new text is made and interned. -/
theorem run_fresh {h : Str → Nat} {w : SBuf.World} (hw : SBuf.Reachable h w) {s : St} {ext : Nat → Nat}
    {cli : Nat → Bool} (R : Run h w ⟨s, ext, cli⟩) {m : Where} (hm : Unused s m) (put ok : Bool) {a : Nat}
    (ha : s.cells a = none) (c : Str) (hn : (s.fresh m c).2 ≠ .null) :
    ∃ s' r, opt h .no put ok (s.fresh m c).1 a (s.fresh m c).2 false true = some (s', r) ∧ Makes s s' a r ∧
      Gives h w ext cli c true s' r := by
  cases m with
  | no => exact absurd rfl hn
  | inl =>
    exact run_opt hw R (u := .inl c) (copy := false) (m := .no) ⟨ha, trivial, (fun e => by cases e), fun _ => trivial⟩ rfl rfl
      (fun b hb => (R.bufs b hb).1)
  | at' b =>
    have hl : SBuf.Legal ⟨s, ext, cli⟩ (.make b c) := hm
    have hb : cli b = false := by
      cases e : cli b with
      | false => rfl
      | true => exact absurd hm (((C72_buffers R.reach b).1).2 (.inl e))
    have R1 := R.step hw hl rfl (fun a => R.mono a) (fun b' hb' => by
      show SBuf.set cli b true b' = true
      by_cases e : b' = b
      · subst e; exact set_same _ _ _
      · rw [set_other _ _ e]; exact (R.bufs b' hb').1)
    have hd : disown (own cli (.buf b)) (.buf b) = cli := by
      show SBuf.set (SBuf.set cli b true) b false = cli
      rw [set_set, set_eq hb]
    have := run_opt hw R1 (u := .buf b) (copy := false) (m := .no) (put := put) (ok := ok) (a := a) (int := true) (c := c)
      (cli' := cli) ⟨ha, trivial, (fun e => by cases e), fun _ => set_same _ _ _⟩ (set_same _ _ _) hd.symm
      (fun b hb => (R.bufs b hb).1)
    obtain ⟨s', r, e, M, G⟩ := this
    exact ⟨s', r, e, M.cells rfl, G⟩

/-! ## Buffers that are not in use -/

theorem deinit_bufs {s s' : St} {u : UStr} (e : deinit s u = some s') {b : Nat} (hb : s.bufs b = none) :
    s'.bufs b = none := by
  cases u with
  | null => cases e; exact hb
  | inl c => cases e; exact hb
  | buf b' =>
    have e : (s.bufs b').map _ = some s' := e
    obtain ⟨d, _, rfl⟩ := Option.map_eq_some_iff.1 e
    show SBuf.set s.bufs b' none b = none
    by_cases hbb : b = b'
    · subst hbb; exact set_same _ _ _
    · rw [set_other _ _ hbb]; exact hb

theorem fresh_bufs {s : St} {w : Where} {c : Str} {b : Nat} (hb : s.bufs b = none) (hw : w ≠ .at' b) :
    (s.fresh w c).1.bufs b = none := by
  cases w with
  | no => exact hb
  | inl => exact hb
  | at' b' =>
    show SBuf.set s.bufs b' (some c) b = none
    rw [set_other _ _ (by rintro rfl; exact hw rfl)]; exact hb

theorem get_bufs {h : Str → Nat} {w : Where} {ok : Bool} {s s' : St} {a : Nat} {u : UStr} {r : Option Nat}
    (e : SBuf.get h w ok s a u true = some (s', r)) {b : Nat} (hb : s.bufs b = none) (hw : w ≠ .at' b) : s'.bufs b = none := by
  unfold SBuf.get at e
  obtain ⟨⟨s1, u1⟩, e1, e⟩ := Option.bind_eq_some_iff.1 e
  have h1 : s1.bufs b = none := by
    rw [if_pos rfl] at e1
    obtain ⟨c, _, e1⟩ := Option.map_eq_some_iff.1 e1
    rw [← show (s.fresh w c).1 = s1 from congrArg Prod.fst e1]; exact fresh_bufs hb hw
  dsimp only at e
  split at e
  · cases e; exact h1
  · split at e
    · obtain ⟨c, _, e⟩ := Option.map_eq_some_iff.1 e
      cases e; exact h1
    · obtain ⟨s2, e2, e⟩ := Option.map_eq_some_iff.1 e
      cases e; exact deinit_bufs e2 h1

theorem retain_bufs {s s' : St} {a : Nat} (e : SBuf.retain s a = some s') : s'.bufs = s.bufs := by
  unfold SBuf.retain at e
  obtain ⟨k, hk, e⟩ := Option.map_eq_some_iff.1 e
  cases e; rfl

theorem opt_bufs {h : Str → Nat} {w : Where} {put ok : Bool} {s s' : St} {a : Nat} {u : UStr} {int : Bool} {r : Option Nat}
    (e : opt h w put ok s a u true int = some (s', r)) {b : Nat} (hb : s.bufs b = none) (hw : w ≠ .at' b) :
    s'.bufs b = none := by
  unfold opt at e
  simp only [if_true, Option.map_some] at e
  split at e
  · cases e; exact hb
  · obtain ⟨c, _, e⟩ := Option.bind_eq_some_iff.1 e
    split at e
    · obtain ⟨⟨s1, r1⟩, e1, e⟩ := Option.bind_eq_some_iff.1 e
      cases e
      unfold emptyStr at e1
      obtain ⟨s2, e2, e1⟩ := Option.map_eq_some_iff.1 e1
      cases e1
      rw [retain_bufs e2]; exact hb
    · split at e
      · unfold getIntern at e
        simp only [if_true, Option.map_some] at e
        obtain ⟨d, _, e⟩ := Option.bind_eq_some_iff.1 e
        split at e
        · cases e; exact hb
        · obtain ⟨f, _, e⟩ := Option.bind_eq_some_iff.1 e
          split at e
          · obtain ⟨s1, e1, e⟩ := Option.bind_eq_some_iff.1 e
            cases e
            rw [retain_bufs e1]; exact hb
          · obtain ⟨⟨s1, r1⟩, e1, e⟩ := Option.bind_eq_some_iff.1 e
            dsimp only at e
            split at e
            · cases e; exact get_bufs e1 hb hw
            · obtain ⟨k, _, e⟩ := Option.map_eq_some_iff.1 e
              cases e; exact get_bufs e1 hb hw
      · exact get_bufs e hb hw

theorem opt_unused {h : Str → Nat} {w w' : Where} {put ok : Bool} {s s' : St} {a : Nat} {u : UStr} {int : Bool}
    {r : Option Nat} (e : opt h w put ok s a u true int = some (s', r)) (hu : Unused s w')
    (hw : ∀ b, w = .at' b → w' ≠ .at' b) : Unused s' w' := by
  cases w' with
  | no => trivial
  | inl => trivial
  | at' b => exact opt_bufs e hu fun h => hw b h rfl

/-! ## Tags -/

theorem lower_ne {l : Str} (hl : l ≠ []) : lower l ≠ [] := by
  cases l with
  | nil => exact absurd rfl hl
  | cons a l => exact fun e => by cases e

theorem text_live {s : St} {a : Nat} {c : Str} (e : s.text a = some c) : s.cells a ≠ none := by
  intro e'; simp [St.text, e'] at e

/-- `parse_lang` on a text with a tag. -/
theorem parseLang_spec {h : Str → Nat} {w : SBuf.World} (hw : SBuf.Reachable h w) {s : St} {ext : Nat → Nat}
    {cli : Nat → Bool} (R : Run h w ⟨s, ext, cli⟩) {m : Alloc} (va : s.cells m.va = none) (ta : s.cells m.ta = none)
    (vta : m.va ≠ m.ta) (vw : Unused s m.vw) (tw : Unused s m.tw) (vtw : ∀ b, m.vw = .at' b → m.tw ≠ .at' b)
    {v : Nat} {x l : Str} (hv : s.text v = some (x ++ 64 :: l)) (hl : l ≠ []) (hat : ∀ y ∈ l, y ≠ 64) :
    ∃ s' r, parseLang h m s v = some (s', r) ∧ (r = none → Run h w ⟨s', ext, cli⟩) ∧
      ∀ v' o, r = some (v', o) → ∃ l', o = some l' ∧ Run h w ⟨s', bump (bump ext v') l', cli⟩ ∧
        s'.text v' = some x ∧ s'.text l' = some (lower l) ∧ Interned s' l' := by
  have hi := indexOfLast_append x l 64 hat
  have hlen : 0 < l.length := List.length_pos_iff.2 hl
  unfold parseLang
  rw [show textOf s v = some _ from hv, Option.bind_some]
  dsimp only
  rw [hi, if_neg (by simp; omega)]
  have e1 : (x ++ 64 :: l).take (x.length + 1 - 1) = x := by simp
  have e2 : (x ++ 64 :: l).drop (x.length + 1) = l := by
    rw [List.drop_append, List.drop_eq_nil_of_le (Nat.le_succ _)]; simp
  rw [e1, e2]
  obtain ⟨s1, r1, e, M, G⟩ := run_opt hw R (m := m.vw) (put := true) (ok := m.vok) (a := m.va) (u := .inl x) (copy := true)
    (int := false) (c := x) (cli' := cli) ⟨va, vw, fun _ => ⟨_, rfl⟩, (fun e => by cases e)⟩ rfl rfl (fun b hb => (R.bufs b hb).1)
  have tw1 := opt_unused e tw vtw
  rw [e, Option.bind_some]
  dsimp only
  cases r1 with
  | none => exact ⟨_, _, rfl, fun _ => G.1 rfl, fun _ _ e => by cases e⟩
  | some v' =>
    obtain ⟨R1, t1, _⟩ := G.2 v' rfl
    dsimp only
    have ta1 : s1.cells m.ta = none := M.unused ta (Ne.symm vta)
    -- the error exit
    have err : ∀ s2, Run h w ⟨s2, bump ext v', cli⟩ → ∃ s' r, parseErr s2 v' = some (s', r) ∧
        (r = none → Run h w ⟨s', ext, cli⟩) ∧
        ∀ v'' o, r = some (v'', o) → ∃ l', o = some l' ∧ Run h w ⟨s', bump (bump ext v'') l', cli⟩ ∧
          s'.text v'' = some x ∧ s'.text l' = some (lower l) ∧ Interned s' l' := by
      intro s2 R2
      obtain ⟨s3, e3, R3, _⟩ := run_release hw R2 R.mono
      exact ⟨s3, none, by unfold parseErr; rw [e3]; rfl, fun _ => R3, fun _ _ e => by cases e⟩
    by_cases hn : (s1.fresh m.tw (lower l)).2 = .null
    · rw [if_pos hn]
      refine err _ ?_
      have : (s1.fresh m.tw (lower l)).1 = s1 := by
        cases hm : m.tw with
        | no => rfl
        | inl => rw [hm] at hn; cases hn
        | at' b => rw [hm] at hn; cases hn
      rw [this]; exact R1
    · rw [if_neg hn]
      obtain ⟨s2, r2, e', M2, G2⟩ := run_fresh hw R1 tw1 m.tput m.tok ta1 (lower l) hn
      rw [e', Option.bind_some]
      dsimp only
      cases r2 with
      | none => exact err s2 (G2.1 rfl)
      | some l' =>
        obtain ⟨R2, t2, i2⟩ := G2.2 l' rfl
        refine ⟨_, _, rfl, fun e => (by cases e), fun v'' o e => ?_⟩
        cases e
        refine ⟨l', rfl, R2, ?_, t2, i2 rfl (lower_ne hl)⟩
        obtain ⟨s3, r3, e3, _, G3⟩ := run_fresh R1.reach (Run.refl R1.reach) tw1 m.tput m.tok ta1 (lower l) hn
        rw [e'] at e3; cases e3
        exact (G3.2 l' rfl).1.text t1

/-- `internalize_lang` on a tag that is not empty. -/
theorem internalizeLang_spec {h : Str → Nat} {w : SBuf.World} (hw : SBuf.Reachable h w) {s : St} {ext : Nat → Nat}
    {cli : Nat → Bool} (R : Run h w ⟨s, ext, cli⟩) {m : Alloc} (ta : s.cells m.ta = none) (tw : Unused s m.tw)
    {l : Nat} {c : Str} (hl : s.text l = some c) (hc : c ≠ []) :
    ∃ s' r, internalizeLang h m s l = some (s', r) ∧ Gives h w ext cli (lower c) true s' r := by
  unfold internalizeLang
  rw [show textOf s l = some _ from hl, Option.bind_some]
  dsimp only
  by_cases hlow : lower c = c
  · rw [if_pos hlow]
    obtain ⟨s1, r1, e1, R1, h1⟩ := run_intern hw R m.tput hl hc
    rw [e1, Option.bind_some]
    dsimp only
    cases r1 with
    | none => exact ⟨_, _, rfl, fun _ => R1, fun x e => by cases e⟩
    | some y =>
      obtain ⟨t1, i1⟩ := h1 y rfl
      obtain ⟨s2, e2, R2, _, t2, i2, _⟩ := run_retain hw R1 (text_live t1)
      dsimp only
      rw [e2]
      refine ⟨_, _, rfl, fun e => (by cases e), fun x e => ?_⟩
      cases e
      exact ⟨R2, by rw [hlow]; exact t2 _ _ t1, fun _ _ => i2 _ i1⟩
  · rw [if_neg hlow]
    by_cases hn : (s.fresh m.tw (lower c)).2 = .null
    · rw [if_pos hn]
      have : (s.fresh m.tw (lower c)).1 = s := by
        cases hm : m.tw with
        | no => rfl
        | inl => rw [hm] at hn; cases hn
        | at' b => rw [hm] at hn; cases hn
      exact ⟨_, _, rfl, fun _ => by rw [this]; exact R, fun x e => by cases e⟩
    · rw [if_neg hn]
      obtain ⟨s2, r2, e', M2, G2⟩ := run_fresh hw R tw m.tput m.tok ta (lower c) hn
      exact ⟨s2, r2, e', G2⟩

/-! ## Literals -/

/-- The second field is what the tag says. -/
def TagIs (s : St) (k : LCell) : LitTag → Prop
  | .lang d => k.bit = true ∧ ∃ l, k.arg = .str l ∧ Interned s l ∧ s.text l = some d
  | .dt i => k.bit = false ∧ k.arg = .dt i

/-- What a constructor does: nothing, or a new literal at `a`. -/
def Built (h : Str → Nat) (w : SBuf.World) (ext : Nat → Nat) (cli : Nat → Bool) (s s' : Mem) (a : Nat) (r : Option Nat)
    (c : Str) (t : LitTag) : Prop :=
  (r = none ∧ s'.lits = s.lits ∧ s'.dts = s.dts ∧ Run h w ⟨s'.str, ext, cli⟩) ∨
  ∃ k, r = some a ∧ s'.lits = (a, k) :: s.lits ∧ k.rc = 1 ∧
    s'.dts = (fun i => s.dts i + if k.arg = .dt i then 1 else 0) ∧
    Run h w ⟨s'.str, fun b => ext b + usesOf k b, cli⟩ ∧ s'.str.text k.value = some c ∧ TagIs s'.str k t

/-- A literal with a datatype. -/
theorem alloc_dt {h : Str → Nat} {w : SBuf.World} (hw : SBuf.Reachable h w) {s : Mem} {ext : Nat → Nat}
    {cli : Nat → Bool} (R : Run h w ⟨s.str, ext, cli⟩) (m : Alloc) {v : Nat} {c : Str} (hv : s.str.text v = some c)
    {i : Iri} (hi : 0 < s.dts i) :
    ∃ s' r, literalAlloc m s v (some (.dt i)) false = some (s', r) ∧ Built h w ext cli s s' m.a r c (.dt i) := by
  unfold literalAlloc
  by_cases ho : m.ok = true
  · rw [if_neg (by simp [ho])]
    dsimp only
    obtain ⟨s1, e1, R1, _, t1, _⟩ := run_retain hw R (text_live hv)
    unfold retainPtr
    dsimp only
    rw [e1, Option.map_some, Option.bind_some]
    dsimp only
    rw [if_neg (by omega), Option.map_some]
    refine ⟨_, _, rfl, .inr ⟨_, rfl, rfl, rfl, ?_, ?_, t1 _ _ hv, rfl, rfl⟩⟩
    · funext j
      by_cases hj : j = i
      · subst hj; simp
      · simp [hj, Ne.symm hj]
    · have : bump ext v = fun b => ext b + usesOf ⟨1, false, v, .dt i⟩ b := by
        funext b
        simp only [bump, SBuf.set, usesOf]
        by_cases hb : b = v
        · subst hb; simp
        · rw [if_neg hb, if_neg (Ne.symm hb)]; simp
      rw [← this]; exact R1
  · rw [if_pos (by simp [ho])]
    exact ⟨_, _, rfl, .inl ⟨rfl, rfl, rfl, R⟩⟩

/-- A literal with a tag, for which there is memory. -/
theorem alloc_lang {h : Str → Nat} {w : SBuf.World} (hw : SBuf.Reachable h w) {s : Mem} {ext : Nat → Nat}
    {cli : Nat → Bool} (R : Run h w ⟨s.str, ext, cli⟩) {m : Alloc} (ho : m.ok = true) {v l : Nat} {c d : Str}
    (hv : s.str.text v = some c) (hl : s.str.text l = some d) (hi : Interned s.str l) :
    ∃ s' r, literalAlloc m s v (some (.str l)) true = some (s', r) ∧ r = some m.a ∧
      Built h w ext cli s s' m.a r c (.lang d) := by
  unfold literalAlloc
  rw [if_neg (by simp [ho])]
  dsimp only
  obtain ⟨s1, e1, R1, _, t1, i1, _⟩ := run_retain hw R (text_live hv)
  unfold retainPtr
  dsimp only
  rw [e1, Option.map_some, Option.bind_some]
  dsimp only
  obtain ⟨s2, e2, R2, _, t2, i2, _⟩ := run_retain hw R1 (text_live (t1 _ _ hl))
  rw [e2]
  refine ⟨_, _, rfl, rfl, .inr ⟨_, rfl, rfl, rfl, ?_, ?_, t2 _ _ (t1 _ _ hv), rfl, l, rfl, i2 _ (i1 _ hi), t2 _ _ (t1 _ _ hl)⟩⟩
  · funext j; simp
  · have : bump (bump ext v) l = fun b => ext b + usesOf ⟨1, true, v, .str l⟩ b := by
      funext b
      simp only [bump, SBuf.set, usesOf, Ptr.str.injEq]
      by_cases hb : b = v <;> by_cases hc : b = l
      · subst hb; subst hc; simp
      · subst hb; simp [hc, Ne.symm hc]
      · subst hc; simp [hb, Ne.symm hb]
      · simp [hb, hc, Ne.symm hb, Ne.symm hc]
    rw [← this]; exact R2

/-- A reference that was got before is given up at the end. -/
theorem Built.release {h : Str → Nat} {w : SBuf.World} (hw : SBuf.Reachable h w) {ext : Nat → Nat} {cli : Nat → Bool}
    {s s' : Mem} {a x : Nat} {r : Option Nat} {c : Str} {t : LitTag} (B : Built h w (bump ext x) cli s s' a r c t)
    (hm : ∀ b, w.ext b ≤ ext b) :
    ∃ s'', releasePtr s' (.str x) = some s'' ∧ Built h w ext cli s s'' a r c t := by
  unfold releasePtr
  dsimp only
  rcases B with ⟨rfl, h1, h2, R⟩ | ⟨k, rfl, h1, h2, h3, R, hv, ht⟩
  · obtain ⟨s1, e1, R1, _⟩ := run_release hw R hm
    rw [e1]
    exact ⟨_, rfl, .inl ⟨rfl, h1, h2, R1⟩⟩
  · have hb : (fun b => bump ext x b + usesOf k b) = bump (fun b => ext b + usesOf k b) x := by
      funext b
      simp only [bump, SBuf.set]
      by_cases hb : b = x
      · subst hb; simp; omega
      · rw [if_neg hb, if_neg hb]
    rw [hb] at R
    obtain ⟨s1, e1, R1, K⟩ := run_release hw R (fun b => Nat.le_trans (hm b) (Nat.le_add_right _ _))
    rw [e1]
    refine ⟨_, rfl, .inr ⟨k, rfl, h1, h2, h3, R1, ?_, ?_⟩⟩
    · exact (K k.value (by simp [usesOf]; omega)).1 c hv
    · cases t with
      | dt i => exact ht
      | lang d =>
        obtain ⟨h4, l, h5, h6, h7⟩ := ht
        have := K l (by simp only [usesOf, h5, if_true]; omega)
        exact ⟨h4, l, h5, this.2 h6, this.1 d h7⟩

theorem Built.of {h : Str → Nat} {w : SBuf.World} {ext : Nat → Nat} {cli : Nat → Bool} {s t s' : Mem} {a : Nat}
    {r : Option Nat} {c : Str} {tag : LitTag} (B : Built h w ext cli t s' a r c tag) (h1 : t.lits = s.lits)
    (h2 : t.dts = s.dts) : Built h w ext cli s s' a r c tag := by
  unfold Built at B ⊢; rw [h1, h2] at B; exact B

/-- The tag that `cowl_literal_lang_alloc` gives. -/
def langTag (d : Str) : LitTag := if d.length = 0 then .dt xsdString else .lang (lower d)

theorem langAlloc_spec {h : Str → Nat} {w : SBuf.World} (hw : SBuf.Reachable h w) {s : Mem} {ext : Nat → Nat}
    {cli : Nat → Bool} (R : Run h w ⟨s.str, ext, cli⟩) {m : Alloc} (ta : s.str.cells m.ta = none)
    (tw : Unused s.str m.tw) {v l : Nat} {c d : Str} (hv : s.str.text v = some c) (hl : s.str.text l = some d)
    (ho : d ≠ [] → m.ok = true) (hi : 0 < s.dts xsdString) :
    ∃ s' r, langAlloc h m s v l = some (s', r) ∧ Built h w ext cli s s' m.a r c (langTag d) := by
  unfold langAlloc
  rw [show textOf s.str l = some _ from hl, Option.bind_some]
  dsimp only
  unfold langTag
  by_cases hd : d.length = 0
  · rw [if_pos hd, if_pos hd]
    exact alloc_dt hw R m hv hi
  · rw [if_neg hd, if_neg hd]
    have hd' : d ≠ [] := fun e => hd (by rw [e]; rfl)
    obtain ⟨s1, r1, e1, G⟩ := internalizeLang_spec hw R ta tw hl hd'
    obtain ⟨s1', r1', e1', G'⟩ := internalizeLang_spec R.reach (Run.refl R.reach) ta tw hl hd'
    rw [e1, Option.bind_some]
    rw [e1] at e1'; cases e1'
    dsimp only
    cases r1 with
    | none => exact ⟨_, _, rfl, .inl ⟨rfl, rfl, rfl, G.1 rfl⟩⟩
    | some l' =>
      obtain ⟨R1, t1, i1⟩ := G.2 l' rfl
      have hv1 := (G'.2 l' rfl).1.text hv
      dsimp only
      obtain ⟨s2, r2, e2, _, B⟩ := alloc_lang hw (s := { s with str := s1 }) R1 (ho hd') hv1 t1 (i1 rfl (lower_ne hd'))
      rw [e2, Option.bind_some]
      dsimp only
      obtain ⟨s3, e3, B3⟩ := B.release hw R.mono
      rw [e3]
      exact ⟨_, _, rfl, B3.of rfl rfl⟩

theorem parseLangAlloc_spec {h : Str → Nat} {w : SBuf.World} (hw : SBuf.Reachable h w) {s : Mem} {ext : Nat → Nat}
    {cli : Nat → Bool} (R : Run h w ⟨s.str, ext, cli⟩) {m : Alloc} (F : Fair s m) {v : Nat} {x l : Str}
    (hv : s.str.text v = some (x ++ 64 :: l)) (hl : l ≠ []) (hat : ∀ y ∈ l, y ≠ 64) (ho : m.ok = true) :
    ∃ s' r, parseLangAlloc h m s v = some (s', r) ∧ Built h w ext cli s s' m.a r x (.lang (lower l)) := by
  unfold parseLangAlloc
  obtain ⟨s1, r1, e1, h0, h1⟩ := parseLang_spec hw R F.va F.ta F.vta F.vw F.tw F.vtw hv hl hat
  rw [e1, Option.bind_some]
  dsimp only
  cases r1 with
  | none => exact ⟨_, _, rfl, .inl ⟨rfl, rfl, rfl, h0 rfl⟩⟩
  | some p =>
    obtain ⟨v', o⟩ := p
    obtain ⟨l', rfl, R1, t1, t2, i2⟩ := h1 v' o rfl
    dsimp only
    obtain ⟨s2, r2, e2, _, B⟩ := alloc_lang hw (s := { s with str := s1 }) R1 ho t1 t2 i2
    rw [Option.map_some, e2, Option.bind_some]
    dsimp only
    have hb : bump (bump ext v') l' = bump (bump ext l') v' := by
      funext b
      simp only [bump, SBuf.set]
      by_cases hA : b = v' <;> by_cases hB : b = l'
      · subst hA; subst hB; rfl
      · simp only [if_pos hA, if_neg hB, if_neg (fun e => hB (hA.trans e) : ¬ v' = l')]
      · simp only [if_neg hA, if_pos hB, if_neg (fun e => hA (hB.trans e) : ¬ l' = v')]
      · simp only [if_neg hA, if_neg hB]
    rw [hb] at B
    obtain ⟨s3, e3, B3⟩ := B.release hw (fun b => Nat.le_trans (R.mono b) (le_bump _ _ _))
    rw [e3, Option.bind_some]
    obtain ⟨s4, e4, B4⟩ := B3.release hw R.mono
    rw [e4]
    exact ⟨_, _, rfl, B4.of rfl rfl⟩

/-- The copy of the value. -/
theorem withValue_spec {h : Str → Nat} {w : SBuf.World} (hw : SBuf.Reachable h w) {s : Mem} {ext : Nat → Nat}
    {cli : Nat → Bool} (R : Run h w ⟨s.str, ext, cli⟩) {m : Alloc} (F : Fair s m) {u : UStr} {c : Str}
    (hu : s.str.txt u = some c) {f : Mem → Nat → Option (Mem × Option Nat)} {a : Nat} {tag : LitTag}
    (hf : ∀ t v, opt h m.vw true m.vok s.str m.va u true false = some (t, some v) → Makes s.str t m.va (some v) →
      Run h w ⟨t, bump ext v, cli⟩ → t.text v = some c →
      ∃ s' r, f { s with str := t } v = some (s', r) ∧ Built h w (bump ext v) cli s s' a r c tag) :
    ∃ s' r, withValue h m s u f = some (s', r) ∧ Built h w ext cli s s' a r c tag := by
  unfold withValue
  obtain ⟨s1, r1, e1, M, G⟩ := run_opt hw R (m := m.vw) (put := true) (ok := m.vok) (a := m.va) (u := u) (copy := true)
    (int := false) (c := c) (cli' := cli) ⟨F.va, F.vw, fun _ => ⟨_, hu⟩, (fun e => by cases e)⟩ hu rfl (fun b hb => (R.bufs b hb).1)
  rw [e1, Option.bind_some]
  dsimp only
  cases r1 with
  | none => exact ⟨_, _, rfl, .inl ⟨rfl, rfl, rfl, G.1 rfl⟩⟩
  | some v =>
    obtain ⟨R1, t1, _⟩ := G.2 v rfl
    obtain ⟨s2, r2, e2, B⟩ := hf s1 v e1 M R1 t1
    dsimp only
    rw [e2, Option.bind_some]
    obtain ⟨s3, e3, B3⟩ := B.release hw R.mono
    dsimp only
    rw [e3]
    exact ⟨_, _, rfl, B3⟩

theorem literalLang_spec {h : Str → Nat} {w : SBuf.World} (hw : SBuf.Reachable h w) {s : Mem} {ext : Nat → Nat}
    {cli : Nat → Bool} (R : Run h w ⟨s.str, ext, cli⟩) {m m' : Alloc} (F : Fair s m) (F' : Fair s m') (A : Apart m m')
    {u l : UStr} {c d : Str} (hu : s.str.txt u = some c) (hl : s.str.txt l = some d) (ho : d ≠ [] → m'.ok = true)
    (hi : 0 < s.dts xsdString) :
    ∃ s' r, literalLang h m m' s u l = some (s', r) ∧ Built h w ext cli s s' m'.a r c (langTag d) := by
  unfold literalLang
  refine withValue_spec hw R F hu fun t v e M R1 t1 => ?_
  have Q : Run h ⟨s.str, ext, cli⟩ ⟨t, bump ext v, cli⟩ := by
    obtain ⟨s1, r1, e1, _, G⟩ := run_opt R.reach (Run.refl R.reach) (m := m.vw) (put := true) (ok := m.vok) (a := m.va)
      (u := u) (copy := true) (int := false) (c := c) (cli' := cli) ⟨F.va, F.vw, fun _ => ⟨_, hu⟩, (fun e => by cases e)⟩ hu rfl
      (fun b hb => hb)
    rw [e] at e1; cases e1
    exact (G.2 v rfl).1
  have hl1 : t.txt l = some d := Q.txt R.reach hl
  have ta : t.cells m.ta = none := M.unused F.ta (Ne.symm F.vta)
  have ta' : t.cells m'.ta = none := M.unused F'.ta A.va
  have tw : Unused t m.tw := opt_unused e F.tw F.vtw
  have tw' : Unused t m'.tw := opt_unused e F'.tw A.vw
  obtain ⟨s1, r1, e1, M1, G⟩ := run_opt hw R1 (m := m.tw) (put := m.tput) (ok := m.tok) (a := m.ta) (u := l) (copy := true)
    (int := true) (c := d) (cli' := cli) ⟨ta, tw, fun _ => ⟨_, hl1⟩, (fun e => by cases e)⟩ hl1 rfl (fun b hb => (R1.bufs b hb).1)
  have ta1 : s1.cells m'.ta = none := M1.unused ta' A.ta
  have tw1 : Unused s1 m'.tw := opt_unused e1 tw' A.tw
  dsimp only
  rw [e1, Option.bind_some]
  dsimp only
  cases r1 with
  | none => exact ⟨_, _, rfl, .inl ⟨rfl, rfl, rfl, G.1 rfl⟩⟩
  | some y =>
    obtain ⟨R2, t2, _⟩ := G.2 y rfl
    have tv : s1.text v = some c := by
      obtain ⟨s2, r2, e2, _, G2⟩ := run_opt R1.reach (Run.refl R1.reach) (m := m.tw) (put := m.tput) (ok := m.tok) (a := m.ta)
        (u := l) (copy := true) (int := true) (c := d) (cli' := cli) ⟨ta, tw, fun _ => ⟨_, hl1⟩, (fun e => by cases e)⟩ hl1 rfl
        (fun b hb => hb)
      rw [e1] at e2; cases e2
      exact (G2.2 y rfl).1.text t1
    dsimp only
    obtain ⟨s2, r2, e2, B⟩ := langAlloc_spec hw (s := { s with str := s1 }) R2 ta1 tw1 tv t2 ho hi
    rw [e2, Option.bind_some]
    dsimp only
    obtain ⟨s3, e3, B3⟩ := B.release hw R1.mono
    rw [e3]
    exact ⟨_, _, rfl, B3.of rfl rfl⟩

/-! ## Counting -/

/-- Sum over all literals. -/
def total (g : LCell → Nat) (l : List (Nat × LCell)) : Nat := (l.map fun p => g p.2).sum

theorem total_cons (g : LCell → Nat) (p : Nat × LCell) (l : List (Nat × LCell)) :
    total g (p :: l) = g p.2 + total g l := by simp [total]

theorem lookup_mem {l : List (Nat × LCell)} {a : Nat} {k : LCell} (e : l.lookup a = some k) : (a, k) ∈ l := by
  induction l with
  | nil => cases e
  | cons p l ih =>
    obtain ⟨b, k'⟩ := p
    by_cases hb : a = b
    · subst hb; rw [List.lookup_cons_self] at e; cases e; exact .head _
    · rw [List.lookup_cons, show (a == b) = false by simp [hb]] at e
      exact .tail _ (ih e)

theorem mem_lookup {l : List (Nat × LCell)} (hn : (l.map Prod.fst).Nodup) {a : Nat} {k : LCell} (hm : (a, k) ∈ l) :
    l.lookup a = some k := by
  induction l with
  | nil => cases hm
  | cons p l ih =>
    obtain ⟨b, k'⟩ := p
    have hn' := List.nodup_cons.1 (show (b :: l.map Prod.fst).Nodup from hn)
    rcases List.mem_cons.1 hm with e | hm'
    · cases e; exact List.lookup_cons_self
    · have hb : a ≠ b := by rintro rfl; exact hn'.1 (List.mem_map.2 ⟨_, hm', rfl⟩)
      rw [List.lookup_cons, show (a == b) = false by simp [hb]]
      exact ih hn'.2 hm'

theorem lookup_none {l : List (Nat × LCell)} {a : Nat} : l.lookup a = none ↔ ∀ p ∈ l, p.1 ≠ a := by
  induction l with
  | nil => exact ⟨fun _ p hp => (by cases hp), fun _ => rfl⟩
  | cons p l ih =>
    obtain ⟨b, k'⟩ := p
    by_cases hb : a = b
    · subst hb
      rw [List.lookup_cons_self]
      exact ⟨fun e => (by cases e), fun h => absurd rfl (h _ (.head _))⟩
    · rw [List.lookup_cons, show (a == b) = false by simp [hb]]
      simp only [ih, List.mem_cons, forall_eq_or_imp]
      exact ⟨fun h => ⟨Ne.symm hb, h⟩, fun h => h.2⟩

theorem total_filter {g : LCell → Nat} {l : List (Nat × LCell)} (hn : (l.map Prod.fst).Nodup) {a : Nat} {k : LCell}
    (e : l.lookup a = some k) : total g l = g k + total g (l.filter fun p => p.1 ≠ a) := by
  induction l with
  | nil => cases e
  | cons p l ih =>
    obtain ⟨b, k'⟩ := p
    have hn' := List.nodup_cons.1 (show (b :: l.map Prod.fst).Nodup from hn)
    by_cases hb : a = b
    · subst hb
      rw [List.lookup_cons_self] at e; cases e
      rw [total_cons, List.filter_cons_of_neg (by simp)]
      congr 1
      congr 1
      refine (List.filter_eq_self.2 fun p hp => ?_).symm
      have : p.1 ≠ a := fun e => hn'.1 (List.mem_map.2 ⟨p, hp, e⟩)
      simpa using this
    · rw [List.lookup_cons, show (a == b) = false by simp [hb]] at e
      rw [total_cons, List.filter_cons_of_pos (by simpa using Ne.symm hb), total_cons, ih hn'.2 e]
      omega

theorem total_put {g : LCell → Nat} {l : List (Nat × LCell)} (hn : (l.map Prod.fst).Nodup) {a : Nat} {k k' : LCell}
    (e : l.lookup a = some k) (hg : g k' = g k) : total g (putLit l a k') = total g l := by
  unfold total putLit
  rw [List.map_map]
  congr 1
  refine List.map_congr_left fun p hp => ?_
  obtain ⟨b, l'⟩ := p
  show g (if b = a then (a, k') else (b, l')).2 = g l'
  by_cases hb : b = a
  · subst hb
    rw [mem_lookup hn hp] at e; cases e
    rw [if_pos rfl]; exact hg
  · rw [if_neg hb]

theorem put_keys {l : List (Nat × LCell)} {a : Nat} {k : LCell} : (putLit l a k).map Prod.fst = l.map Prod.fst := by
  unfold putLit
  rw [List.map_map]
  refine List.map_congr_left fun p _ => ?_
  show (if p.1 = a then (a, k) else p).1 = p.1
  split
  · rename_i h; exact h.symm
  · rfl

theorem put_mem {l : List (Nat × LCell)} {a : Nat} {k : LCell} {p : Nat × LCell} (hp : p ∈ putLit l a k) :
    (p = (a, k) ∧ ∃ q ∈ l, q.1 = a) ∨ (p ∈ l ∧ p.1 ≠ a) := by
  obtain ⟨q, hq, e⟩ := List.mem_map.1 hp
  split at e
  · rename_i h; exact .inl ⟨e.symm, q, hq, h⟩
  · rename_i h; subst e; exact .inr ⟨hq, h⟩

theorem uses_total (l : List (Nat × LCell)) (a : Nat) : uses l a = total (fun k => usesOf k a) l := rfl

theorem dtUses_total (l : List (Nat × LCell)) (i : Iri) :
    dtUses l i = total (fun k => if k.arg = .dt i then 1 else 0) l := rfl

theorem uses_pos {l : List (Nat × LCell)} {a b : Nat} {k : LCell} (hm : (a, k) ∈ l) (hb : 0 < usesOf k b) :
    0 < uses l b := by
  induction l with
  | nil => cases hm
  | cons p l ih =>
    rw [uses_total, total_cons]
    rcases List.mem_cons.1 hm with e | hm'
    · subst e; dsimp only; omega
    · have := ih hm'; rw [uses_total] at this; omega

theorem usesOf_value (k : LCell) : 0 < usesOf k k.value := by simp [usesOf]; omega

theorem usesOf_arg {k : LCell} {l : Nat} (e : k.arg = .str l) : 0 < usesOf k l := by simp only [usesOf, e, if_true]; omega

/-- Giving up a reference. -/
theorem reach_release {h : Str → Nat} {s : St} {ext : Nat → Nat} {cli : Nat → Bool} {x : Nat}
    (R : SBuf.Reachable h ⟨s, bump ext x, cli⟩) :
    ∃ s', SBuf.release s x = some s' ∧ SBuf.Reachable h ⟨s', ext, cli⟩ ∧
      ∀ a, 0 < ext a → (∀ c, s.text a = some c → s'.text a = some c) ∧ (Interned s a → Interned s' a) := by
  have hb : unbump (bump ext x) x = ext := by
    funext a; simp only [unbump, bump, SBuf.set]; split
    · subst_vars; simp
    · rfl
  have hl : SBuf.Legal ⟨s, bump ext x, cli⟩ (.release x) := by show 0 < bump ext x x; simp [bump]
  obtain ⟨s', r, e⟩ := C72_defined R hl
  have e0 := e
  obtain ⟨s1, e1, e2⟩ := Option.map_eq_some_iff.1 e
  cases e2
  have hx : SBuf.extAfter (bump ext x) (.release x) .unit = ext := hb
  have Q := R.step hl e0
  refine ⟨s', e1, ?_, fun a ha => ⟨fun c hc => ?_, fun hi => ?_⟩⟩
  · have := Q; dsimp only at this; rw [hx] at this; exact this
  · obtain ⟨k, hk, hc⟩ := Option.bind_eq_some_iff.1 hc
    obtain ⟨k', h1, h2, h3, _⟩ := step_keep R hl e0 hk (.inl (by show 0 < SBuf.extAfter (bump ext x) (.release x) .unit a; rw [hx]; exact ha))
    rw [text_eq h1, h2, h3]; exact hc
  · obtain ⟨k, hk, hb⟩ := hi
    obtain ⟨k', h1, _, _, h4⟩ := step_keep R hl e0 hk (.inl (by show 0 < SBuf.extAfter (bump ext x) (.release x) .unit a; rw [hx]; exact ha))
    exact ⟨k', h1, h4 hb⟩

/-! ## The invariant -/

/-- All references to strings. -/
def allExt (w : World) : Nat → Nat := fun a => w.ext a + uses w.mem.lits a

structure LInv (h : Str → Nat) (w : World) : Prop where
  reach : SBuf.Reachable h ⟨w.mem.str, allExt w, w.cli⟩
  nodup : (w.mem.lits.map Prod.fst).Nodup
  rc : ∀ p ∈ w.mem.lits, p.2.rc = w.lext p.1 ∧ 0 < p.2.rc
  gone : ∀ a, w.mem.lit a = none → w.lext a = 0
  dt : ∀ i, w.mem.dts i = voc i + w.dref i + dtUses w.mem.lits i
  tag : ∀ p ∈ w.mem.lits, ∃ t, TagIs w.mem.str p.2 t

/-- The literals that were there and are there have the contents they had. -/
def Same (s s' : Mem) : Prop := ∀ a, s.lit a ≠ none → s'.lit a ≠ none → content s' a = content s a

theorem content_eq {s : Mem} {a : Nat} {k : LCell} {c : Str} {t : LitTag} (hk : s.lit a = some k)
    (hc : s.str.text k.value = some c) (ht : TagIs s.str k t) : content s a = some (c, t) := by
  unfold content
  rw [hk]
  dsimp only
  rw [hc]
  cases t with
  | dt i => rw [ht.2]
  | lang d =>
    obtain ⟨_, l, e, _, hl⟩ := ht
    rw [e]; dsimp only; rw [hl]; rfl

theorem TagIs.mono {s s' : St} {k : LCell} {t : LitTag} (ht : TagIs s k t)
    (hs : ∀ l, k.arg = .str l → (∀ c, s.text l = some c → s'.text l = some c) ∧ (Interned s l → Interned s' l)) :
    TagIs s' k t := by
  cases t with
  | dt i => exact ht
  | lang d =>
    obtain ⟨h1, l, e, h2, h3⟩ := ht
    exact ⟨h1, l, e, (hs l e).2 h2, (hs l e).1 d h3⟩

theorem LInv.text {h : Str → Nat} {w : World} (I : LInv h w) {a : Nat} {k : LCell} (hk : (a, k) ∈ w.mem.lits) :
    ∃ c, w.mem.str.text k.value = some c := by
  have hp : 0 < allExt w k.value := Nat.lt_of_lt_of_le (uses_pos hk (usesOf_value k)) (Nat.le_add_left _ _)
  have hn := ((C72_counts I.reach k.value).1).2 (.inl hp)
  obtain ⟨c, hc, _⟩ := C72_stable I.reach (op := .empty) trivial (C72_defined I.reach (op := .empty) trivial).choose_spec.choose_spec hn
  exact ⟨c, hc⟩

/-- If the cells of literals are as before but for their counts, and strings that literals refer
to are, then contents are. -/
theorem same_of {h : Str → Nat} {w : World} (I : LInv h w) {s' : Mem}
    (hl : ∀ a k', s'.lit a = some k' → w.mem.lit a ≠ none → ∃ k, w.mem.lit a = some k ∧ k'.value = k.value ∧ k'.arg = k.arg ∧ k'.bit = k.bit)
    (hs : ∀ a k' b, s'.lit a = some k' → w.mem.lit a ≠ none → 0 < usesOf k' b →
      (∀ c, w.mem.str.text b = some c → s'.str.text b = some c) ∧ (Interned w.mem.str b → Interned s'.str b)) :
    Same w.mem s' := by
  intro a ha ha'
  obtain ⟨k', hk'⟩ := Option.ne_none_iff_exists'.1 ha'
  obtain ⟨k, hk, e1, e2, e3⟩ := hl a k' hk' ha
  have hm := lookup_mem (show w.mem.lits.lookup a = some k from hk)
  obtain ⟨c, hc⟩ := I.text hm
  obtain ⟨t, ht⟩ := I.tag _ hm
  rw [content_eq hk hc ht]
  have ht' : TagIs w.mem.str k' t := by
    cases t with
    | dt i => exact ⟨e3.trans ht.1, e2.trans ht.2⟩
    | lang d =>
      obtain ⟨h1, l, h2, h3⟩ := ht
      exact ⟨e3.trans h1, l, e2.trans h2, h3⟩
  refine content_eq hk' ?_ (ht'.mono fun l e => hs a k' l hk' ha (usesOf_arg e))
  exact (hs a k' k'.value hk' ha (usesOf_value k')).1 c (by rw [e1]; exact hc)

end Cowl.LitM
