import Verif.StrBufLemmas
/-! # C72: strings own their texts -/
namespace Cowl
open SBuf

namespace SBuf

theorem Frame.refl (s : St) (cli : Nat → Bool) (cli' : Nat → Bool) : Frame s cli s cli' :=
  ⟨fun a k k' hk hk' => by rw [hk] at hk'; cases hk'; exact ⟨rfl, rfl⟩, rfl, fun _ _ _ => rfl⟩

/-- What a constructor returns, as seen by the client. -/
theorem Got.after {h : Str → Nat} {s s' : St} {ext : Nat → Nat} {cli cli' : Nat → Bool} {c : Str} {int : Bool}
    {r : Option Nat} (G : Got h s ext cli cli' c int s' r) :
    Inv h s' (match r with | some x => set ext x (ext x + 1) | none => ext) cli' := by
  cases r with
  | none => exact (G.null rfl).1
  | some x => exact (G.ptr x rfl).1

/-- One call keeps the invariant. -/
theorem step_spec {h : Str → Nat} {w : World} (I : Inv h w.st w.ext w.cli) {op : Op} (hl : Legal w op) :
    ∃ s r, step h w.st op = some (s, r) ∧ Inv h s (extAfter w.ext op r) (cliAfter w.cli op r) ∧
      Frame w.st w.cli s (cliAfter w.cli op r) := by
  cases op with
  | make b c =>
    refine ⟨_, _, rfl, I.addBuf hl c, ⟨fun a k k' hk hk' => ?_, rfl, fun b' hb _ => ?_⟩⟩
    · have hk' : w.st.cells a = some k' := hk'
      rw [hk] at hk'; cases hk'
      refine ⟨rfl, txt_bufs w.st fun b' e => set_other _ _ ?_⟩
      rintro rfl; exact (I.live b').2 (.inr ⟨a, k, hk, e⟩) hl
    · refine set_other _ _ ?_
      rintro rfl; exact (I.live b').2 (.inl hb) hl
  | drop b =>
    obtain ⟨s', e, I', _, _, _, _, F⟩ := I.deinit' (u := .buf b) hl
    exact ⟨s', .unit, by show (deinit _ _).map _ = _; rw [e]; rfl, I', F⟩
  | opt m put ok a u copy int =>
    obtain ⟨ha, hm, hu⟩ := hl
    obtain ⟨s', r, c, e, _, G, _⟩ := opt_spec I hm put ok ha (copy := copy) hu int
    refine ⟨s', .ptr r, by show (opt _ _ _ _ _ _ _ _ _).map _ = _; rw [e]; rfl, ?_, ?_⟩
    · have := G.after
      cases copy <;> cases r <;> exact this
    · have := G.frame
      cases copy <;> exact this
  | string ok a u =>
    obtain ⟨ha, hm, h0⟩ := hl
    obtain ⟨s', r, c, e, _, G, _⟩ := string_spec I ok ha hm h0
    refine ⟨s', .ptr r, by show (string _ _ _ _ _).map _ = _; rw [e]; rfl, ?_, G.frame⟩
    have := G.after
    cases r <;> exact this
  | empty =>
    obtain ⟨s', r, e, G⟩ := empty_got I false (u := .null) (copy := true) (fun e => by cases e)
    have e : emptyStr w.st = some (s', r) := by
      cases e1 : emptyStr w.st with
      | none => rw [e1] at e; cases e
      | some p => rw [e1] at e; exact e
    refine ⟨s', .ptr r, by show (emptyStr _).map _ = _; rw [e]; rfl, ?_, G.frame⟩
    have := G.after
    cases r <;> exact this
  | intern put x =>
    obtain ⟨s', r, c, e, _, I', F, _⟩ := intern_spec I put hl
    exact ⟨s', .ptr r, by show (intern _ _ _).map _ = _; rw [e]; rfl, I', F⟩
  | concat m ok a x y =>
    obtain ⟨ha, hm, hx, hy, h0⟩ := hl
    obtain ⟨k, hk⟩ := Option.ne_none_iff_exists'.1 hx
    obtain ⟨l, hl⟩ := Option.ne_none_iff_exists'.1 hy
    obtain ⟨c, hc⟩ := I.readable hk
    obtain ⟨d, hd⟩ := I.readable hl
    obtain ⟨s', r, e, G⟩ := string_fresh I hm ok ha (c ++ d) fun e => h0
      (by rw [text_eq hk, hc, (List.append_eq_nil_iff.1 e).1]) (by rw [text_eq hl, hd, (List.append_eq_nil_iff.1 e).2])
    refine ⟨s', .ptr r, ?_, ?_, G.frame⟩
    · show (concat _ _ _ _ _ _ _).map _ = _
      unfold concat
      rw [hk, Option.bind_some, hl, Option.bind_some, hc, Option.bind_some, hd, Option.bind_some]
      dsimp only
      rw [e]; rfl
    · have := G.after
      cases r <;> exact this
  | withFormat m ok a c =>
    obtain ⟨ha, hm, h0⟩ := hl
    obtain ⟨s', r, e, G⟩ := string_fresh I hm ok ha c h0
    refine ⟨s', .ptr r, ?_, ?_, G.frame⟩
    · show (withFormat _ _ _ _ _ _).map _ = _
      unfold withFormat
      dsimp only
      rw [e]; rfl
    · have := G.after
      cases r <;> exact this
  | retain x =>
    obtain ⟨k, hk⟩ := Option.ne_none_iff_exists'.1 hl
    refine ⟨_, .ptr (some x), by show (retain _ _).map _ = _; unfold retain; rw [hk]; rfl, I.retain hk,
      ⟨fun a l l' hl1 hl' => ?_, rfl, fun _ _ _ => rfl⟩⟩
    have hl' : set _ _ _ a = _ := hl'
    by_cases hax : a = x
    · subst hax; rw [set_same] at hl'; cases hl'; rw [hk] at hl1; cases hl1
      exact ⟨rfl, txt_cells w.st _ w.st.tbl _⟩
    · rw [set_other _ _ hax, hl1] at hl'; cases hl'
      exact ⟨rfl, txt_cells w.st _ w.st.tbl _⟩
  | release x =>
    obtain ⟨s', e, I', F⟩ := SBuf.release_spec I hl
    exact ⟨s', .unit, by show (release _ _).map _ = _; rw [e]; rfl, I', F⟩
  | releaseRaw m x =>
    obtain ⟨s', u, c, e, _, I', F, _, hu, _⟩ := releaseRaw_spec I hl.2 hl.1
    refine ⟨s', .raw u, by show (releaseRaw _ _ _).map _ = _; rw [e]; rfl, I', ⟨F.cells, F.empty, fun b hb _ => ?_⟩⟩
    exact F.mine b hb hb

theorem init_inv (h : Str → Nat) (e : Nat) : Inv h (apiInit h e) (fun _ => 0) (fun _ => false) := by
  have old : ∀ {a k}, (apiInit h e).cells a = some k → a = e ∧ k = initCell h (.inl []) [] := by
    intro a k hk
    have hk : set (fun _ => none) e (some (initCell h (.inl []) [])) a = some k := hk
    by_cases ha : a = e
    · subst ha; rw [set_same] at hk; exact ⟨rfl, (Option.some.inj hk).symm⟩
    · rw [set_other _ _ ha] at hk; cases hk
  refine ⟨?_, ?_, ?_, ?_, ?_, fun _ _ => rfl, ⟨initCell h (.inl []) [], set_same (fun _ => none) e (some (initCell h (.inl []) [])), rfl, rfl⟩, ?_, ?_, ?_, ?_, List.nodup_nil, ?_⟩
  · intro a k hk; obtain ⟨rfl, rfl⟩ := old hk; show 1 = 0 + if a = a then 1 else 0; simp
  · intro a k hk; obtain ⟨rfl, rfl⟩ := old hk; exact Nat.one_pos
  · intro a k hk; obtain ⟨rfl, rfl⟩ := old hk; exact fun e => by cases e
  · intro a k c hk e; obtain ⟨rfl, rfl⟩ := old hk; cases e; rfl
  · intro a k c hk _ hb; obtain ⟨rfl, rfl⟩ := old hk; cases hb
  · intro b
    refine ⟨fun hb => absurd rfl hb, ?_⟩
    rintro (hb | ⟨a, k, hk, e⟩)
    · cases hb
    · obtain ⟨rfl, rfl⟩ := old hk; cases e
  · intro a a' k k' b hk _ e; obtain ⟨rfl, rfl⟩ := old hk; cases e
  · intro a k b hb; cases hb
  · intro a
    refine ⟨fun ha => (by cases ha), fun ⟨k, hk, hb⟩ => ?_⟩
    obtain ⟨rfl, rfl⟩ := old hk; cases hb
  · intro a a' c ha; cases ha

theorem reachable_inv {h : Str → Nat} {w : World} (hw : Reachable h w) : Inv h w.st w.ext w.cli := by
  induction hw with
  | init e => exact init_inv h e
  | step hw hl hs ih =>
    obtain ⟨s, r, e, I, _⟩ := step_spec ih hl
    rw [hs] at e; cases e; exact I

/-- The text a call has to return a string for. -/
inductive Asks (s : St) : Op → Str → Prop
  | opt {m : Where} {put ok : Bool} {a : Nat} {u : UStr} {copy int : Bool} {c : Str} (hc : s.txt u = some c) :
      Asks s (.opt m put ok a u copy int) c
  | string {ok : Bool} {a : Nat} {u : UStr} {c : Str} (hc : s.txt u = some c) : Asks s (.string ok a u) c
  | empty : Asks s .empty []
  | intern {put : Bool} {x : Nat} {c : Str} (hc : s.text x = some c) : Asks s (.intern put x) c
  | concat {m : Where} {ok : Bool} {a x y : Nat} {c d : Str} (hc : s.text x = some c) (hd : s.text y = some d) :
      Asks s (.concat m ok a x y) (c ++ d)
  | withFormat {m : Where} {ok : Bool} {a : Nat} {c : Str} : Asks s (.withFormat m ok a c) c
  | retain {x : Nat} {c : Str} (hc : s.text x = some c) : Asks s (.retain x) c

/-- Whether a string is marked as interned. -/
def Interned (s : St) (a : Nat) : Prop := ∃ k, s.cells a = some k ∧ k.bit = true

/-- Calls that intern the string they return. -/
def Interns : Op → Prop
  | .opt _ _ _ _ _ _ int => int = true
  | .intern _ _ => True
  | _ => False

theorem asks_spec {h : Str → Nat} {w : World} (I : Inv h w.st w.ext w.cli) {op : Op} (hl : Legal w op) {c : Str}
    (ha : Asks w.st op c) {s : St} {r : Option Nat} (hs : step h w.st op = some (s, .ptr r)) :
    (r = none → s.cells = w.st.cells ∧ s.tbl = w.st.tbl) ∧
      ∀ x, r = some x → s.text x = some c ∧ (Interns op → Interned s x ∨ c = [] ∧ x = s.empty) := by
  have tbl_int : ∀ {s ext cli} (_ : Inv h s ext cli) {x}, x ∈ s.tbl → Interned s x := fun I _ hx => (I.tbl _).1 hx
  have fin : ∀ {cli' : Nat → Bool} {int : Bool}, Got h w.st w.ext w.cli cli' c int s r → (Interns op → int = true) →
      (r = none → s.cells = w.st.cells ∧ s.tbl = w.st.tbl) ∧
      ∀ x, r = some x → s.text x = some c ∧ (Interns op → Interned s x ∨ c = [] ∧ x = s.empty) := by
    intro cli' int G hi
    refine ⟨fun e => (G.null e).2, fun x e => ?_⟩
    obtain ⟨I', h1, h2⟩ := G.ptr x e
    refine ⟨h1, fun hx => ?_⟩
    rcases h2 (hi hx) with h2 | ⟨h2, h3⟩
    · exact .inl (tbl_int I' h2)
    · exact .inr ⟨h2, by rw [h3, G.frame.empty]⟩
  cases ha with
  | @opt m put ok a u copy int c hc =>
    obtain ⟨ha, hm, hu⟩ := hl
    obtain ⟨s', r', c', e, hc', G, _⟩ := opt_spec I hm put ok ha (copy := copy) hu int
    have hs : (opt h m put ok w.st a u copy int).map _ = _ := hs
    rw [e] at hs; cases hs
    rw [hc] at hc'; cases hc'
    exact fin G id
  | @string ok a u c hc =>
    obtain ⟨ha, hm, h0⟩ := hl
    obtain ⟨s', r', c', e, hc', G, _⟩ := string_spec I ok ha hm h0
    have hs : (string h ok w.st a u).map _ = _ := hs
    rw [e] at hs; cases hs
    rw [hc] at hc'; cases hc'
    exact fin G fun e => e.elim
  | empty =>
    obtain ⟨s', r', e, G⟩ := empty_got I false (u := .null) (copy := true) (fun e => by cases e)
    have hs : (emptyStr w.st).map _ = _ := hs
    cases e1 : emptyStr w.st with
    | none => rw [e1] at e; cases e
    | some p =>
      rw [e1] at e hs; cases e; cases hs
      exact fin G fun e => e.elim
  | @intern put x c hc =>
    obtain ⟨s', r', c', e, hc', I', F, _, h1, h2⟩ := intern_spec I put hl
    have hs : (intern put w.st x).map _ = _ := hs
    rw [e] at hs; cases hs
    rw [hc] at hc'; cases hc'
    refine ⟨fun e => by rw [h1 e]; exact ⟨rfl, rfl⟩, fun y e => ⟨(h2 y e).1, fun _ => ?_⟩⟩
    rcases (h2 y e).2 with h3 | ⟨h3, h4⟩
    · exact .inl (tbl_int I' h3)
    · exact .inr ⟨h3, by rw [h4, F.empty]⟩
  | @concat m ok a x y c d hc hd =>
    obtain ⟨ha, hm, hx, hy, h0⟩ := hl
    obtain ⟨k, hk⟩ := Option.ne_none_iff_exists'.1 hx
    obtain ⟨l, hl⟩ := Option.ne_none_iff_exists'.1 hy
    have hc' := (text_eq hk).symm.trans hc
    have hd' := (text_eq hl).symm.trans hd
    obtain ⟨s', r', e, G⟩ := string_fresh I hm ok ha (c ++ d) fun e => h0
      (by rw [hc, (List.append_eq_nil_iff.1 e).1]) (by rw [hd, (List.append_eq_nil_iff.1 e).2])
    have hs : (concat h m ok w.st a x y).map _ = _ := hs
    unfold concat at hs
    rw [hk, Option.bind_some, hl, Option.bind_some, hc', Option.bind_some, hd', Option.bind_some] at hs
    dsimp only at hs
    rw [e] at hs; cases hs
    exact fin G fun e => e.elim
  | @withFormat m ok a c =>
    obtain ⟨ha, hm, h0⟩ := hl
    obtain ⟨s', r', e, G⟩ := string_fresh I hm ok ha c h0
    have hs : (withFormat h m ok w.st a c).map _ = _ := hs
    unfold withFormat at hs
    dsimp only at hs
    rw [e] at hs; cases hs
    exact fin G fun e => e.elim
  | @retain x c hc =>
    obtain ⟨k, hk⟩ := Option.ne_none_iff_exists'.1 hl
    have hs : (retain w.st x).map _ = _ := hs
    unfold retain at hs
    rw [hk] at hs; cases hs
    refine ⟨fun e => (by cases e), fun y e => ?_⟩
    cases e
    refine ⟨?_, fun e => e.elim⟩
    rw [text_eq (set_same _ _ _)]
    exact (txt_cells w.st _ w.st.tbl _).trans ((text_eq hk).symm.trans hc)

end SBuf

/-- C72: no call is undefined, whatever allocations fail: nothing is read that has been freed, and
nothing is freed twice. -/
theorem C72_defined {h : Str → Nat} {w : World} (hw : Reachable h w) {op : Op} (hl : Legal w op) :
    ∃ s r, step h w.st op = some (s, r) := by
  obtain ⟨s, r, e, _⟩ := SBuf.step_spec (SBuf.reachable_inv hw) hl
  exact ⟨s, r, e⟩

/-- C72: each buffer in memory is owned exactly once, by the client or by a string in memory, and
each buffer that is owned is in memory. -/
theorem C72_buffers {h : Str → Nat} {w : World} (hw : Reachable h w) (b : Nat) :
    (w.st.bufs b ≠ none ↔ (w.cli b = true ∨ ∃ a k, w.st.cells a = some k ∧ k.raw = .buf b)) ∧
      (∀ a k, w.cli b = true → w.st.cells a = some k → k.raw ≠ .buf b) ∧
      ∀ a a' k k', w.st.cells a = some k → w.st.cells a' = some k' → k.raw = .buf b → k'.raw = .buf b → a = a' := by
  have I := SBuf.reachable_inv hw
  exact ⟨I.live b, fun a k => I.excl a k b, fun a a' k k' => I.uniq a a' k k' b⟩

/-- C72: a string is in memory if and only if the client owns a reference to it, or it is the empty
string of the library. Its count is the number of these references. -/
theorem C72_counts {h : Str → Nat} {w : World} (hw : Reachable h w) (a : Nat) :
    (w.st.cells a ≠ none ↔ 0 < w.ext a ∨ a = w.st.empty) ∧
      ∀ k, w.st.cells a = some k → k.rc = w.ext a + if a = w.st.empty then 1 else 0 := by
  have I := SBuf.reachable_inv hw
  refine ⟨⟨fun hn => ?_, ?_⟩, fun k hk => I.count a k hk⟩
  · obtain ⟨k, hk⟩ := Option.ne_none_iff_exists'.1 hn
    have h1 := I.count a k hk
    have h2 := I.pos a k hk
    by_cases he : a = w.st.empty
    · exact .inr he
    · rw [if_neg he] at h1; exact .inl (by omega)
  · rintro (hx | rfl) hn
    · rw [I.dead a hn] at hx; cases hx
    · obtain ⟨k, hk, _⟩ := I.emp
      rw [hk] at hn; cases hn

/-- C72: a string that is returned has the text that was asked for. -/
theorem C72_text {h : Str → Nat} {w : World} (hw : Reachable h w) {op : Op} (hl : Legal w op) {c : Str}
    (ha : Asks w.st op c) {s : St} {r : Nat} (hs : step h w.st op = some (s, .ptr (some r))) :
    s.text r = some c := ((SBuf.asks_spec (SBuf.reachable_inv hw) hl ha hs).2 r rfl).1

/-- C72: a call that returns NULL has left the strings and the table as they were. The raw string
that was given to it, if any, is no longer there (`C72_buffers`). -/
theorem C72_null {h : Str → Nat} {w : World} (hw : Reachable h w) {op : Op} (hl : Legal w op) {c : Str}
    (ha : Asks w.st op c) {s : St} (hs : step h w.st op = some (s, .ptr none)) :
    s.cells = w.st.cells ∧ s.tbl = w.st.tbl := (SBuf.asks_spec (SBuf.reachable_inv hw) hl ha hs).1 rfl

/-- C72: every string has a text, and as long as it is there the text stays the same. -/
theorem C72_stable {h : Str → Nat} {w : World} (hw : Reachable h w) {op : Op} (hl : Legal w op) {s : St}
    {r : Res} (hs : step h w.st op = some (s, r)) {a : Nat} (ha : w.st.cells a ≠ none) :
    ∃ c, w.st.text a = some c ∧ (s.cells a ≠ none → s.text a = some c) := by
  have I := SBuf.reachable_inv hw
  obtain ⟨k, hk⟩ := Option.ne_none_iff_exists'.1 ha
  obtain ⟨c, hc⟩ := I.readable hk
  refine ⟨c, (text_eq hk).trans hc, fun hn => ?_⟩
  obtain ⟨k', hk'⟩ := Option.ne_none_iff_exists'.1 hn
  obtain ⟨_, _, e, _, F⟩ := SBuf.step_spec I hl
  rw [hs] at e; cases e
  obtain ⟨e1, e2⟩ := F.cells a k k' hk hk'
  rw [text_eq hk', e1, e2, hc]

/-- C72: the buffers that the client keeps are not changed. -/
theorem C72_kept {h : Str → Nat} {w : World} (hw : Reachable h w) {op : Op} (hl : Legal w op) {s : St}
    {r : Res} (hs : step h w.st op = some (s, r)) {b : Nat} (hb : w.cli b = true)
    (hb' : cliAfter w.cli op r b = true) : s.bufs b = w.st.bufs b := by
  obtain ⟨_, _, e, _, F⟩ := SBuf.step_spec (SBuf.reachable_inv hw) hl
  rw [hs] at e; cases e
  exact F.mine b hb hb'

/-- C72: calls that intern return interned strings, or the empty string. -/
theorem C72_interns {h : Str → Nat} {w : World} (hw : Reachable h w) {op : Op} (hl : Legal w op)
    (hi : Interns op) {c : Str} (ha : Asks w.st op c) {s : St} {r : Nat}
    (hs : step h w.st op = some (s, .ptr (some r))) : Interned s r ∨ c = [] ∧ r = s.empty :=
  ((SBuf.asks_spec (SBuf.reachable_inv hw) hl ha hs).2 r rfl).2 hi

/-- C72: interned strings with the same text are the same string. -/
theorem C72_unique {h : Str → Nat} {w : World} (hw : Reachable h w) {a b : Nat} (ha : Interned w.st a)
    (hb : Interned w.st b) (he : w.st.text a = w.st.text b) : a = b := by
  have I := SBuf.reachable_inv hw
  obtain ⟨k, hk, _⟩ := id ha
  obtain ⟨c, hc⟩ := I.readable hk
  have hc : w.st.text a = some c := (text_eq hk).trans hc
  exact I.tuniq a b c ((I.tbl a).2 ha) ((I.tbl b).2 hb) hc (he ▸ hc)

/-- C72: a string that is released for its raw string leaves a raw string with its text, which the
client owns. It is null only if it had to be copied and could not be. -/
theorem C72_raw {h : Str → Nat} {w : World} (hw : Reachable h w) {m : Where} {x : Nat}
    (hl : Legal w (.releaseRaw m x)) {s : St} {u : UStr} (hs : step h w.st (.releaseRaw m x) = some (s, .raw u)) :
    (u ≠ .null → s.txt u = w.st.text x) ∧ (u = .null → m = .no ∧ s.cells x ≠ none) ∧
      Mine (cliAfter w.cli (.releaseRaw m x) (.raw u)) u ∧ ∀ b, u = .buf b → w.cli b = false := by
  obtain ⟨s', u', c, e, ht, _, _, hm, hf, h1, h2⟩ := releaseRaw_spec (SBuf.reachable_inv hw) hl.2 hl.1
  have hs : (releaseRaw m w.st x).map _ = _ := hs
  rw [e] at hs; cases hs
  exact ⟨fun hn => by rw [ht]; exact (h1.resolve_left hn).1, h2, hm, hf⟩

/-- C72: if the client has given up all it owned, nothing is left when the library is closed. -/
theorem C72_end {h : Str → Nat} {w : World} (hw : Reachable h w) (hx : ∀ a, w.ext a = 0)
    (hc : ∀ b, w.cli b = false) :
    ∃ s, apiDeinit w.st = some s ∧ (∀ a, s.cells a = none) ∧ (∀ b, s.bufs b = none) ∧ s.tbl = [] := by
  have I := SBuf.reachable_inv hw
  obtain ⟨k, hk, hr, hb⟩ := I.emp
  have only : ∀ a, a ≠ w.st.empty → w.st.cells a = none := by
    intro a ha
    cases e : w.st.cells a with
    | none => rfl
    | some l =>
      have h1 := I.count a l e
      have h2 := I.pos a l e
      rw [if_neg ha, hx] at h1; omega
  have h1 := I.count _ k hk
  rw [if_pos rfl, hx] at h1
  refine ⟨{ w.st with cells := set w.st.cells w.st.empty none, tbl := [] }, ?_, fun a => ?_, fun b => ?_, rfl⟩
  · unfold apiDeinit SBuf.release
    rw [decr_eq hk (I.pos _ k hk), Option.bind_some]
    dsimp only
    rw [if_neg (by omega)]
    unfold free
    dsimp only
    rw [set_same, Option.bind_some]
    dsimp only
    rw [hb, hr]
    simp [SBuf.deinit]
  · show set _ _ _ a = none
    by_cases ha : a = w.st.empty
    · subst ha; exact set_same _ _ _
    · rw [set_other _ _ ha]; exact only a ha
  · show w.st.bufs b = none
    cases e : w.st.bufs b with
    | none => rfl
    | some d =>
      rcases (I.live b).1 (by rw [e]; exact fun e => by cases e) with h2 | ⟨a, l, hl, h2⟩
      · rw [hc] at h2; cases h2
      · by_cases ha : a = w.st.empty
        · subst ha; rw [hk] at hl; cases hl; rw [hr] at h2; cases h2
        · rw [only a ha] at hl; cases hl

/-- Why empty raw strings given to `cowl_string` are taken to own no memory: unlike
`cowl_string_opt`, it does not free them. -/
theorem C72_empty_raw (h : Str → Nat) : ∃ w b, Reachable h w ∧ w.cli b = true ∧ w.st.bufs b = some [] ∧
    (∃ s r, step h w.st (.string true 1 (.buf b)) = some (s, r) ∧ s.bufs b = some []) ∧
    ∃ s r, step h w.st (.opt .no true true 1 (.buf b) false false) = some (s, r) ∧ s.bufs b = none :=
  ⟨_, 7, .step (.init 0) (op := .make 7 []) rfl rfl, rfl, rfl, ⟨_, _, rfl, rfl⟩, ⟨_, _, rfl, rfl⟩⟩

/-- A history: a raw string is given away to be interned, the same text is interned once more from
a view, and the first reference is given up for its raw string, which has to be copied. Then the
last reference is, and the buffer comes back. -/
example : ∃ w : World, Reachable (fun c => c.length) w ∧ w.st.text 1 = some [97, 98] ∧ w.ext 1 = 2 ∧ w.cli 7 = false ∧
    Legal w (.releaseRaw .no 1) ∧ ∃ s s', step (fun c => c.length) w.st (.releaseRaw .no 1) = some (s, .raw .null) ∧
      step (fun c => c.length) s (.releaseRaw .no 1) = some (s', .raw (.buf 7)) ∧ s'.tbl = [] := by
  have h1 := Reachable.step (h := fun c : Str => c.length) (.init 0) (op := .make 7 [97, 98]) rfl rfl
  have h2 := h1.step (op := .opt .no true true 1 (.buf 7) false true) ⟨rfl, trivial, fun e => (by cases e), fun _ => rfl⟩ rfl
  have h3 := h2.step (op := .opt .no true true 2 (.inl [97, 98]) true true) ⟨rfl, trivial, fun _ => ⟨_, rfl⟩, fun e => (by cases e)⟩ rfl
  exact ⟨_, h3, rfl, rfl, rfl, ⟨by decide, trivial⟩, _, _, rfl, rfl, rfl⟩

end Cowl
