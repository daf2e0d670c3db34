import Verif.PrimMemSpec
import Verif.LitMemLemmas
/-! # Lemmas about IRIs and anonymous individuals in memory -/
namespace Cowl.PrimM
open SBuf
open LitM (Run Gives Makes bump unbump le_bump text_live)

variable {h : Str → Nat}

/-! ## Steps on strings, one after the other -/

theorem Run.trans {w w1 w2 : SBuf.World} (R : Run h w w1) (Q : Run h w1 w2) : Run h w w2 := by
  refine ⟨Q.reach, Q.empty.trans R.empty, fun a => Nat.le_trans (R.mono a) (Q.mono a), fun a k hk => ?_, fun b hb => ?_⟩
  · obtain ⟨k1, h1, h2, h3, h4⟩ := R.keep a k hk
    obtain ⟨k2, g1, g2, g3, g4⟩ := Q.keep a k1 h1
    exact ⟨k2, g1, g2.trans h2, by rw [← h2, g3, h2, h3], fun hb => g4 (h4 hb)⟩
  · have h1 := R.bufs b hb
    have h2 := Q.bufs b h1.1
    exact ⟨h2.1, h2.2.trans h1.2⟩

theorem text_of_live {w : SBuf.World} (hw : SBuf.Reachable h w) {a : Nat} (ha : w.st.cells a ≠ none) :
    ∃ c, w.st.text a = some c := by
  obtain ⟨k, hk⟩ := Option.ne_none_iff_exists'.1 ha
  obtain ⟨c, hc⟩ := (SBuf.reachable_inv hw).readable hk
  exact ⟨c, (text_eq hk).trans hc⟩

theorem step_empty {w : SBuf.World} (hw : SBuf.Reachable h w) {o : SBuf.Op} (hl : SBuf.Legal w o) {s : St} {r : SBuf.Res}
    (hs : SBuf.step h w.st o = some (s, r)) : s.empty = w.st.empty := by
  obtain ⟨_, _, e, _, F⟩ := SBuf.step_spec (SBuf.reachable_inv hw) hl
  rw [hs] at e; cases e; exact F.empty

/-- `cowl_string_opt` with a copy. -/
theorem opt_run {s : St} {ext : Nat → Nat} {cli : Nat → Bool} (R : SBuf.Reachable h ⟨s, ext, cli⟩) {m : Where}
    {put ok : Bool} {a : Nat} {u : UStr} {int : Bool} (ha : s.cells a = none) (hm : Unused s m) {c : Str}
    (hc : s.txt u = some c) :
    ∃ s' r, opt h m put ok s a u true int = some (s', r) ∧ Makes s s' a r ∧ Gives h ⟨s, ext, cli⟩ ext cli c int s' r :=
  LitM.run_opt (copy := true) (cli' := cli) R (LitM.Run.refl R) ⟨ha, hm, (fun _ => ⟨c, hc⟩), (fun e => nomatch e)⟩ hc rfl
    fun _ hb => hb

/-- `cowl_string` on a new text. -/
theorem fmt_run {s : St} {ext : Nat → Nat} {cli : Nat → Bool} (R : SBuf.Reachable h ⟨s, ext, cli⟩) {m : Where}
    {ok : Bool} {a : Nat} (ha : s.cells a = none) (hm : Unused s m) {c : Str} (hc : c ≠ []) :
    ∃ s' r, string h ok (s.fresh m c).1 a (s.fresh m c).2 = some (s', r) ∧ Makes s s' a r ∧
      Gives h ⟨s, ext, cli⟩ ext cli c false s' r := by
  have hl : SBuf.Legal ⟨s, ext, cli⟩ (.withFormat m ok a c) := ⟨ha, hm, fun e => absurd e hc⟩
  obtain ⟨s', r, e⟩ := C72_defined R hl
  have e0 := e
  obtain ⟨⟨s1, r1⟩, e1, e2⟩ := Option.map_eq_some_iff.1 e
  cases e2
  have Q := (LitM.Run.refl R).step R hl e0
  refine ⟨s', r1, e1, (LitM.string_makes e1).cells (LitM.fresh_cells s m c), ?_, ?_⟩
  · rintro rfl
    exact Q (fun a => Nat.le_refl _) (fun b hb => hb)
  · rintro x rfl
    exact ⟨Q (fun a => le_bump ext x a) (fun b hb => hb), C72_text R hl .withFormat e0, fun e => nomatch e⟩

/-- A text is made. -/
theorem fresh_run {s : St} {ext : Nat → Nat} {cli : Nat → Bool} (R : SBuf.Reachable h ⟨s, ext, cli⟩) {m : Where}
    (hm : Unused s m) (c : Str) :
    Run h ⟨s, ext, cli⟩ ⟨(s.fresh m c).1, ext, own cli (s.fresh m c).2⟩ := by
  cases m with
  | no => exact LitM.Run.refl R
  | inl => exact LitM.Run.refl R
  | at' b =>
    have hl : SBuf.Legal ⟨s, ext, cli⟩ (.make b c) := hm
    refine (LitM.Run.refl R).step R hl rfl (fun a => Nat.le_refl _) fun b' hb' => ?_
    show SBuf.set cli b true b' = true
    by_cases e : b' = b
    · subst e; exact set_same _ _ _
    · rw [set_other _ _ e]; exact hb'

theorem own_disown {s : St} {ext : Nat → Nat} {cli : Nat → Bool} (R : SBuf.Reachable h ⟨s, ext, cli⟩) {m : Where}
    (hm : Unused s m) (c : Str) : disown (own cli (s.fresh m c).2) (s.fresh m c).2 = cli :=
  ((SBuf.reachable_inv R).fresh hm c).2.2.2.2.2.2.2

theorem fresh_mine {s : St} {ext : Nat → Nat} {cli : Nat → Bool} (R : SBuf.Reachable h ⟨s, ext, cli⟩) {m : Where}
    (hm : Unused s m) (c : Str) : Mine (own cli (s.fresh m c).2) (s.fresh m c).2 :=
  ((SBuf.reachable_inv R).fresh hm c).2.1

theorem fresh_txt (s : St) {m : Where} {c : Str} (hn : (s.fresh m c).2 ≠ .null) :
    (s.fresh m c).1.txt (s.fresh m c).2 = some c := by
  cases m with
  | no => exact absurd rfl hn
  | inl => rfl
  | at' b => exact set_same _ _ _

/-- `cowl_string` on a text of one's own. -/
theorem string_run {w : SBuf.World} (hw : SBuf.Reachable h w) {s : St} {ext : Nat → Nat} {cli cli' : Nat → Bool}
    (R : Run h w ⟨s, ext, cli⟩) {ok : Bool} {a : Nat} {u : UStr} (ha : s.cells a = none) (hu : Mine cli u) {c : Str}
    (hc : s.txt u = some c) (hn : c ≠ []) (hd : disown cli u = cli') (hk : ∀ b, w.cli b = true → cli' b = true) :
    ∃ s' r, string h ok s a u = some (s', r) ∧ Makes s s' a r ∧ Gives h w ext cli' c false s' r ∧
      ∀ x, 0 < ext x → ∀ d, s.text x = some d → s'.text x = some d := by
  have hl : SBuf.Legal ⟨s, ext, cli⟩ (.string ok a u) := by
    refine ⟨ha, hu, fun b e hb => ?_⟩
    subst e
    rw [show s.txt (.buf b) = s.bufs b from rfl, hb] at hc
    cases hc; exact hn rfl
  obtain ⟨s', r, e⟩ := C72_defined R.reach hl
  have e0 := e
  obtain ⟨⟨s1, r1⟩, e1, e2⟩ := Option.map_eq_some_iff.1 e
  cases e2
  have hcli : ∀ r, SBuf.cliAfter cli (.string ok a u) (.ptr r) = cli' := fun _ => hd
  refine ⟨s', r1, e1, LitM.string_makes e1, ⟨?_, ?_⟩, fun x hx d hd => ?_⟩
  rotate_left 2
  · obtain ⟨k, hk, hd⟩ := Option.bind_eq_some_iff.1 hd
    have hp : 0 < SBuf.extAfter ext (.string ok a u) (.ptr r1) x := by
      cases r1 with
      | none => exact hx
      | some y => exact Nat.lt_of_lt_of_le hx (le_bump ext y x)
    obtain ⟨k', g1, g2, g3, _⟩ := LitM.step_keep R.reach hl e0 hk (.inl hp)
    rw [text_eq g1, g2, g3]; exact hd
  · rintro rfl
    have := R.step hw hl e0 (fun a => R.mono a) (fun b hb => by rw [hcli]; exact hk b hb)
    rw [← hcli none]; exact this
  · rintro x rfl
    have := R.step hw hl e0 (fun a => Nat.le_trans (R.mono a) (le_bump ext x a)) (fun b hb => by rw [hcli]; exact hk b hb)
    rw [← hcli (some x)]
    exact ⟨this, C72_text R.reach hl (.string hc) e0, fun e => nomatch e⟩

/-- `cowl_string_empty`. -/
theorem empty_run {s : St} {ext : Nat → Nat} {cli : Nat → Bool} (R : SBuf.Reachable h ⟨s, ext, cli⟩) (a : Nat) :
    ∃ s' r, emptyStr s = some (s', r) ∧ Makes s s' a r ∧ Gives h ⟨s, ext, cli⟩ ext cli [] false s' r ∧ s'.bufs = s.bufs := by
  have hl : SBuf.Legal ⟨s, ext, cli⟩ .empty := trivial
  obtain ⟨s', r, e⟩ := C72_defined R hl
  have e0 := e
  obtain ⟨⟨s1, r1⟩, e1, e2⟩ := Option.map_eq_some_iff.1 e
  cases e2
  have Q := (LitM.Run.refl R).step R hl e0
  refine ⟨s', r1, e1, LitM.emptyStr_makes a e1, ⟨?_, ?_⟩, ?_⟩
  · rintro rfl
    exact Q (fun a => Nat.le_refl _) (fun b hb => hb)
  · rintro x rfl
    exact ⟨Q (fun a => le_bump ext x a) (fun b hb => hb), C72_text R hl .empty e0, fun e => nomatch e⟩
  · unfold emptyStr at e1
    obtain ⟨s2, e2, e1⟩ := Option.map_eq_some_iff.1 e1
    cases e1
    exact LitM.retain_bufs e2

/-- `cowl_retain`. -/
theorem retain_run {s : St} {ext : Nat → Nat} {cli : Nat → Bool} (R : SBuf.Reachable h ⟨s, ext, cli⟩) {x : Nat}
    (hx : s.cells x ≠ none) : ∃ s', SBuf.retain s x = some s' ∧ Run h ⟨s, ext, cli⟩ ⟨s', bump ext x, cli⟩ := by
  obtain ⟨s', e, Q, _⟩ := LitM.run_retain R (LitM.Run.refl R) hx
  exact ⟨s', e, Q⟩

/-- `cowl_string_intern`. -/
theorem intern_run {s : St} {ext : Nat → Nat} {cli : Nat → Bool} (R : SBuf.Reachable h ⟨s, ext, cli⟩) (put : Bool)
    {x : Nat} {c : Str} (hx : s.text x = some c) :
    ∃ s' r, intern put s x = some (s', r) ∧ Run h ⟨s, ext, cli⟩ ⟨s', ext, cli⟩ ∧
      ∀ y, r = some y → s'.text y = some c ∧ (Interned s' y ∨ y = s'.empty) := by
  have hl : SBuf.Legal ⟨s, ext, cli⟩ (.intern put x) := text_live hx
  obtain ⟨s', r, e⟩ := C72_defined R hl
  have e0 := e
  obtain ⟨⟨s1, r1⟩, e1, e2⟩ := Option.map_eq_some_iff.1 e
  cases e2
  refine ⟨s', r1, e1, (LitM.Run.refl R).step R hl e0 (fun a => Nat.le_refl _) (fun b hb => hb), ?_⟩
  rintro y rfl
  exact ⟨C72_text R hl (.intern hx) e0, (C72_interns R hl trivial (.intern hx) e0).imp id fun h => h.2⟩

/-- `cowl_string` and buffers that are not in use. -/
theorem string_unused {ok : Bool} {s s' : St} {a : Nat} {u : UStr} {r : Option Nat}
    (e : string h ok s a u = some (s', r)) {w : Where} (hw : Unused s w) : Unused s' w := by
  cases w with
  | no => trivial
  | inl => trivial
  | at' b =>
    have hb : s.bufs b = none := hw
    show s'.bufs b = none
    unfold string at e
    split at e
    · cases e; exact hb
    · obtain ⟨c, _, e⟩ := Option.bind_eq_some_iff.1 e
      split at e
      · unfold emptyStr at e
        obtain ⟨s2, e2, e⟩ := Option.map_eq_some_iff.1 e
        cases e
        rw [LitM.retain_bufs e2]; exact hb
      · unfold SBuf.get at e
        simp only [Bool.false_eq_true, if_false, false_and, Option.bind_some] at e
        split at e
        · obtain ⟨d, _, e⟩ := Option.map_eq_some_iff.1 e
          cases e; exact hb
        · obtain ⟨s2, e2, e⟩ := Option.map_eq_some_iff.1 e
          cases e; exact LitM.deinit_bufs e2 hb

theorem fresh_unused {s : St} {w w' : Where} {c : Str} (hw : Unused s w') (hd : Differ w w') :
    Unused (s.fresh w c).1 w' := by
  cases w' with
  | no => trivial
  | inl => trivial
  | at' b => exact LitM.fresh_bufs hw fun e => hd b e rfl

/-- A text that is made and given up leaves no trace. -/
theorem fresh_deinit {s : St} {w : Where} {c : Str} (hw : Unused s w) : deinit (s.fresh w c).1 (s.fresh w c).2 = some s := by
  cases w with
  | no => rfl
  | inl => rfl
  | at' b =>
    have hb : s.bufs b = none := hw
    show ((SBuf.set s.bufs b (some c) b).map fun _ => _) = _
    rw [set_same, Option.map_some]
    refine congrArg some ?_
    show ({ s with bufs := SBuf.set (SBuf.set s.bufs b (some c)) b none } : St) = s
    rw [set_set, set_eq hb]

/-! ## Keys -/

/-- What is kept of a string. -/
def Keep (s s' : St) (y : Nat) : Prop :=
  (∀ c, s.text y = some c → s'.text y = some c) ∧ (Interned s y → Interned s' y)

theorem Run.keeps {w w' : SBuf.World} (R : Run h w w') (y : Nat) : Keep w.st w'.st y :=
  ⟨fun _ hc => R.text hc, fun hi => R.interned hi⟩

/-- A namespace and its text: interned, or the empty string. -/
def NsIs (s : St) : Option Nat → Option Str → Prop
  | none, none => True
  | some n, some c => s.text n = some c ∧ (Interned s n ∨ n = s.empty)
  | _, _ => False

theorem NsIs.keep {s s' : St} {ns : Option Nat} {o : Option Str} (hn : NsIs s ns o)
    (hk : ∀ n, ns = some n → Keep s s' n) (he : s'.empty = s.empty) : NsIs s' ns o := by
  cases ns with
  | none => cases o with
    | none => trivial
    | some c => exact hn.elim
  | some n => cases o with
    | none => exact hn.elim
    | some c => exact ⟨(hk n rfl).1 c hn.1, hn.2.imp (hk n rfl).2 fun e => e.trans he.symm⟩

theorem NsIs.run {w w' : SBuf.World} (R : Run h w w') {ns : Option Nat} {o : Option Str} (hn : NsIs w.st ns o) :
    NsIs w'.st ns o := hn.keep (fun n _ => Run.keeps R n) R.empty

/-- Namespaces with the same text are the same string. -/
theorem ns_unique {w : SBuf.World} (hw : SBuf.Reachable h w) {n n' : Option Nat} {o : Option Str}
    (hn : NsIs w.st n o) (hn' : NsIs w.st n' o) : n = n' := by
  have I := SBuf.reachable_inv hw
  have mixed : ∀ {x y : Nat} {c : Str}, w.st.text x = some c → Interned w.st x → w.st.text y = some c → y = w.st.empty → False := by
    intro x y c hx hi hy e
    obtain ⟨ke, h1, h2, _⟩ := I.emp
    subst e
    rw [text_eq h1, h2] at hy
    cases hy
    obtain ⟨k, hk, hb⟩ := hi
    rw [text_eq hk] at hx
    exact I.full _ k [] hk hx hb rfl
  cases n with
  | none => cases o with
    | some c => exact hn.elim
    | none => cases n' with
      | none => rfl
      | some n' => exact hn'.elim
  | some n => cases o with
    | none => exact hn.elim
    | some c => cases n' with
      | none => exact hn'.elim
      | some n' =>
        rcases hn.2 with h1 | h1 <;> rcases hn'.2 with h2 | h2
        · exact congrArg some (C72_unique hw h1 h2 (hn.1.trans hn'.1.symm))
        · exact (mixed hn.1 h1 hn'.1 h2).elim
        · exact (mixed hn'.1 h2 hn.1 h1).elim
        · rw [h1, h2]

/-- The objects of `s` are known to the table, and their strings are held in `w`. -/
structure Based (w : SBuf.World) (s : Mem) : Prop where
  tbl : ∀ b, b ∈ s.tbl ↔ s.prim b ≠ none
  held : ∀ b k y, s.prim b = some k → 0 < usesOf k y → 0 < w.ext y

theorem usesOf_rem (k : PCell) : 0 < usesOf k k.rem := by simp [usesOf]

theorem usesOf_ns {k : PCell} {n : Nat} (e : k.ns = some n) : 0 < usesOf k n := by
  simp only [usesOf, e, if_true]; omega

theorem Based.text {w : SBuf.World} (hw : SBuf.Reachable h w) {s : Mem} (B : Based w s) {w' : SBuf.World} (R : Run h w w')
    {b : Nat} {k : PCell} (hk : s.prim b = some k) : ∃ c, w'.st.text k.rem = some c := by
  have hp := B.held b k _ hk (usesOf_rem k)
  obtain ⟨c, hc⟩ := text_of_live hw (((C72_counts hw _).1).2 (.inl hp))
  exact ⟨c, R.text hc⟩

theorem Based.str {w : SBuf.World} {s : Mem} (B : Based w s) (t : St) : Based w { s with str := t } := ⟨B.tbl, B.held⟩

/-- What a lookup finds. -/
def Finds (s : Mem) (ns : Option Nat) (c : Str) (l : List Nat) (r : Option Nat) : Prop :=
  (∀ x, r = some x → x ∈ l ∧ ∃ k, s.prim x = some k ∧ k.ns = ns ∧ s.str.text k.rem = some c) ∧
    (r = none → ∀ b ∈ l, ∀ k, s.prim b = some k → k.ns = ns → s.str.text k.rem ≠ some c)

theorem find_spec {w : SBuf.World} (hw : SBuf.Reachable h w) {s : Mem} (B : Based w s) {ext : Nat → Nat}
    {cli : Nat → Bool} (R : Run h w ⟨s.str, ext, cli⟩) (ns : Option Nat) (c : Str) :
    ∀ l, (∀ b ∈ l, b ∈ s.tbl) → ∃ r, find s ns (h c) c l = some r ∧ Finds s ns c l r := by
  intro l
  induction l with
  | nil => exact fun _ => ⟨none, rfl, (fun x e => nomatch e), fun _ b hb => nomatch hb⟩
  | cons b l ih =>
    intro hl
    obtain ⟨r, e, hr⟩ := ih fun b hb => hl b (.tail _ hb)
    obtain ⟨k, hk⟩ := Option.ne_none_iff_exists'.1 ((B.tbl b).1 (hl b (.head _)))
    obtain ⟨d, hd⟩ := B.text hw R hk
    obtain ⟨kk, hkk, hd'⟩ := Option.bind_eq_some_iff.1 hd
    have hh : kk.hash = h d := (SBuf.reachable_inv R.reach).hash _ _ _ hkk hd'
    have next : (k.ns = ns → s.str.text k.rem ≠ some c) → Finds s ns c (b :: l) r := by
      intro hne
      refine ⟨fun x ex => ⟨.tail _ (hr.1 x ex).1, (hr.1 x ex).2⟩, fun en b' hb' k' hk' hn' => ?_⟩
      rcases List.mem_cons.1 hb' with e' | hb'
      · subst e'; rw [hk] at hk'; cases hk'; exact hne hn'
      · exact hr.2 en b' hb' k' hk' hn'
    unfold find
    rw [hk]
    dsimp only
    by_cases h1 : k.ns = ns
    · rw [if_pos h1, show s.str.cells k.rem = some kk from hkk]
      dsimp only
      by_cases h2 : kk.hash = h c
      · rw [if_pos h2, show s.str.txt kk.raw = some d from hd']
        dsimp only
        by_cases h3 : d = c
        · subst h3
          rw [if_pos rfl]
          refine ⟨some b, rfl, fun x ex => ?_, fun en => nomatch en⟩
          cases ex
          exact ⟨.head _, k, hk, h1, hd⟩
        · rw [if_neg h3]
          exact ⟨r, e, next fun _ hc => by rw [hd] at hc; cases hc; exact h3 rfl⟩
      · rw [if_neg h2]
        refine ⟨r, e, next fun _ hc => ?_⟩
        rw [show s.str.text k.rem = some d from hd] at hc
        cases hc
        exact h2 hh
    · rw [if_neg h1]
      exact ⟨r, e, next fun hn => absurd hn h1⟩

/-! ## Constructors -/

/-- What a constructor does: nothing, one more reference to an object that is there, or a new object
at `a`. -/
inductive Built (h : Str → Nat) (w : SBuf.World) (ext : Nat → Nat) (cli : Nat → Bool) (s s' : Mem) (a : Nat)
    (o : Option Str) (c : Str) : Option Nat → Prop
  | null (hp : s'.prims = s.prims) (ht : s'.tbl = s.tbl) (R : Run h w ⟨s'.str, ext, cli⟩) : Built h w ext cli s s' a o c none
  | old {x : Nat} {k : PCell} (hk : s.prim x = some k) (hn : NsIs s'.str k.ns o) (hr : s'.str.text k.rem = some c)
      (hp : s'.prims = (setRc s x (k.rc + 1)).prims) (ht : s'.tbl = s.tbl) (R : Run h w ⟨s'.str, ext, cli⟩) :
      Built h w ext cli s s' a o c (some x)
  | new {k : PCell} (h1 : k.rc = 1) (hn : NsIs s'.str k.ns o) (hr : s'.str.text k.rem = some c)
      (hp : s'.prims = (a, k) :: s.prims) (ht : s'.tbl = a :: s.tbl)
      (R : Run h w ⟨s'.str, fun b => ext b + usesOf k b, cli⟩)
      (hu : ∀ b l, s.prim b = some l → l.ns = k.ns → s'.str.text l.rem ≠ some c) : Built h w ext cli s s' a o c (some a)

theorem Built.of {w : SBuf.World} {ext : Nat → Nat} {cli : Nat → Bool} {s t s' : Mem} {a : Nat} {o : Option Str} {c : Str}
    {r : Option Nat} (B : Built h w ext cli t s' a o c r) (h1 : t.prims = s.prims) (h2 : t.tbl = s.tbl) :
    Built h w ext cli s s' a o c r := by
  have h3 : ∀ b, t.prim b = s.prim b := fun b => by unfold Mem.prim; rw [h1]
  cases B with
  | null hp ht R => exact .null (hp.trans h1) (ht.trans h2) R
  | old hk hn hr hp ht R =>
    refine .old ((h3 _).symm.trans hk) hn hr ?_ (ht.trans h2) R
    rw [hp]; unfold setRc; dsimp only; rw [h1]
  | new e hn hr hp ht R hu =>
    refine .new e hn hr (by rw [hp, h1]) (by rw [ht, h2]) R fun b l hl => hu b l ((h3 b).trans hl)

/-- A reference that was got on the way is given up. -/
theorem Built.release {w : SBuf.World} (hw : SBuf.Reachable h w) {ext : Nat → Nat} {cli : Nat → Bool} {s s' : Mem}
    (D : Based w s) {a x : Nat} {o : Option Str} {c : Str} {r : Option Nat}
    (B : Built h w (bump ext x) cli s s' a o c r) (hm : ∀ b, w.ext b ≤ ext b) :
    ∃ s'', releaseOpt s' (some x) = some s'' ∧ Built h w ext cli s s'' a o c r := by
  unfold releaseOpt
  dsimp only
  cases B with
  | null hp ht R =>
    obtain ⟨t, e, R1, _⟩ := LitM.run_release hw R hm
    rw [e]
    exact ⟨_, rfl, .null hp ht R1⟩
  | @old y k hk hn hr hp ht R =>
    obtain ⟨t, e, R1, K⟩ := LitM.run_release hw R hm
    rw [e]
    have pos : ∀ y, 0 < usesOf k y → 0 < ext y := fun y hy => Nat.lt_of_lt_of_le (D.held _ k y hk hy) (hm y)
    refine ⟨_, rfl, .old hk (hn.keep (fun n en => K n (pos n (usesOf_ns en))) ?_) ((K _ (pos _ (usesOf_rem k))).1 c hr) hp ht R1⟩
    exact R1.empty.trans R.empty.symm
  | @new k h1 hn hr hp ht R hu =>
    have hb : (fun b => bump ext x b + usesOf k b) = bump (fun b => ext b + usesOf k b) x := by
      funext b; simp only [bump, SBuf.set]; split
      · subst_vars; omega
      · rfl
    rw [hb] at R
    obtain ⟨t, e, R1, K⟩ := LitM.run_release hw R fun b => Nat.le_trans (hm b) (Nat.le_add_right _ _)
    rw [e]
    refine ⟨_, rfl, .new h1 (hn.keep (fun n en => K n (Nat.lt_of_lt_of_le (usesOf_ns en) (Nat.le_add_left _ _))) ?_)
      ((K _ (Nat.lt_of_lt_of_le (usesOf_rem k) (Nat.le_add_left _ _))).1 c hr) hp ht R1 fun b l hl hn' hc => ?_⟩
    · exact R1.empty.trans R.empty.symm
    · obtain ⟨d, hd⟩ := D.text hw R hl
      have pos : 0 < ext l.rem := Nat.lt_of_lt_of_le (D.held _ l _ hl (usesOf_rem l)) (hm _)
      have := (K l.rem (Nat.lt_of_lt_of_le pos (Nat.le_add_right _ _))).1 d hd
      have hc : t.text l.rem = some c := hc
      rw [this] at hc
      cases hc
      exact hu b l hl hn' hd

/-- `cowl_iri_alloc` and `anon_ind_alloc`. -/
theorem alloc_spec {w : SBuf.World} {s : Mem} {ext : Nat → Nat} {cli : Nat → Bool}
    (R : Run h w ⟨s.str, ext, cli⟩) (m : Alloc) {ns : Option Nat} {rem : Nat} {o : Option Str} {c : Str}
    (hn : NsIs s.str ns o) (hr : s.str.text rem = some c) (hd : ∀ b l, s.prim b = some l → ∃ d, s.str.text l.rem = some d)
    (hu : ∀ b l, s.prim b = some l → l.ns = ns → s.str.text l.rem ≠ some c) :
    ∃ s' r, alloc m s ns rem = some (s', r) ∧ Built h w ext cli s s' m.a o c r ∧ (r = none ∨ r = some m.a) := by
  unfold alloc
  by_cases ho : m.ok = true
  · rw [if_neg (by simp [ho])]
    obtain ⟨t1, e1, R1⟩ : ∃ t, retainOpt s.str ns = some t ∧
        Run h ⟨s.str, ext, cli⟩ ⟨t, fun b => ext b + if ns = some b then 1 else 0, cli⟩ := by
      cases ns with
      | none => exact ⟨s.str, rfl, by simpa using LitM.Run.refl R.reach⟩
      | some n =>
        have hn' : s.str.cells n ≠ none := by
          cases o with
          | none => exact hn.elim
          | some d => exact text_live hn.1
        obtain ⟨t, e, Q⟩ := retain_run R.reach hn'
        refine ⟨t, e, ?_⟩
        have : (fun b => ext b + if some n = some b then 1 else 0) = bump ext n := by
          funext b; unfold bump SBuf.set
          by_cases hb : b = n
          · subst hb; simp
          · simp [hb, Ne.symm hb]
        rw [this]; exact Q
    rw [e1, Option.bind_some]
    have hr1 := R1.text (show _ from hr)
    obtain ⟨t2, e2, R2⟩ := retain_run R1.reach (text_live hr1)
    rw [e2]
    have R3 := Run.trans R (Run.trans R1 R2)
    have hx : bump (fun b => ext b + if ns = some b then 1 else 0) rem = fun b => ext b + usesOf ⟨1, ns, rem⟩ b := by
      funext b; unfold bump SBuf.set usesOf
      by_cases hb : b = rem
      · subst hb; simp; omega
      · simp [hb, Ne.symm hb]
    rw [hx] at R3
    have Q := Run.trans R1 R2
    refine ⟨_, _, rfl, .new (k := ⟨1, ns, rem⟩) rfl (NsIs.run Q hn) (Q.text hr) rfl rfl R3 (fun b l hl hln hc => ?_), .inr rfl⟩
    obtain ⟨d, hd⟩ := hd b l hl
    have hc : t2.text l.rem = some c := hc
    rw [Q.text (show _ from hd)] at hc
    cases hc
    exact hu b l hl hln hd
  · rw [if_pos (by simpa using ho)]
    exact ⟨s, none, rfl, .null rfl rfl R, .inl rfl⟩

theorem retainPrim_some {s : Mem} {x : Nat} {k : PCell} (hk : s.prim x = some k) :
    retainPrim s x = some (setRc s x (k.rc + 1)) := by
  unfold retainPrim; rw [hk]; rfl

/-- `cowl_iri_unvalidated` and `anon_ind`, once the key is there. -/
theorem pool_spec {w : SBuf.World} (hw : SBuf.Reachable h w) {s : Mem} (B : Based w s) {ext : Nat → Nat}
    {cli : Nat → Bool} (R : Run h w ⟨s.str, ext, cli⟩) (m : Alloc) {ns : Option Nat} {rem : Nat} {o : Option Str} {c : Str}
    (hn : NsIs s.str ns o) (hr : s.str.text rem = some c) :
    ∃ s' r, pool m s ns rem = some (s', r) ∧ Built h w ext cli s s' m.a o c r := by
  unfold pool
  obtain ⟨l, hl, hc⟩ := Option.bind_eq_some_iff.1 hr
  have hh : l.hash = h c := (SBuf.reachable_inv R.reach).hash _ _ _ hl hc
  rw [hl, Option.bind_some, hc, Option.bind_some]
  by_cases hi : m.iput = true
  · rw [if_neg (by simp [hi]), hh]
    obtain ⟨r, e, F⟩ := find_spec hw B R ns c s.tbl fun b hb => hb
    rw [e, Option.bind_some]
    cases r with
    | some x =>
      obtain ⟨_, k, hk, hkn, hkt⟩ := F.1 x rfl
      dsimp only
      rw [retainPrim_some hk]
      exact ⟨_, _, rfl, .old hk (by rw [hkn]; exact hn) hkt rfl rfl R⟩
    | none =>
      obtain ⟨s', r, e, B', _⟩ := alloc_spec R m hn hr (fun b l hl => B.text hw R hl) fun b l hl => F.2 rfl b ((B.tbl b).2 (by rw [hl]; exact fun e => nomatch e)) l hl
      exact ⟨s', r, e, B'⟩
  · rw [if_pos (by simpa using hi)]
    exact ⟨s, none, rfl, .null rfl rfl R⟩

theorem unvalidated_spec {w : SBuf.World} (hw : SBuf.Reachable h w) {s : Mem} (B : Based w s) {ext : Nat → Nat}
    {cli : Nat → Bool} (R : Run h w ⟨s.str, ext, cli⟩) (m : Alloc) {ns rem : Nat} {d c : Str}
    (hn : s.str.text ns = some d) (hr : s.str.text rem = some c) :
    ∃ s' r, unvalidated m s ns rem = some (s', r) ∧ Built h w ext cli s s' m.a (some d) c r := by
  unfold unvalidated
  obtain ⟨t, r, e, Q, hy⟩ := intern_run R.reach m.put hn
  rw [e, Option.bind_some]
  have R' := Run.trans R Q
  cases r with
  | none => exact ⟨_, _, rfl, .null rfl rfl R'⟩
  | some y =>
    obtain ⟨s', r, e', B'⟩ := pool_spec hw (B.str t) R' m (ns := some y) (o := some d) (hy y rfl) (Q.text hr)
    exact ⟨s', r, e', B'.of rfl rfl⟩

/-- One more reference to a string, if there is one. -/
def bumpO (ext : Nat → Nat) : Option Nat → Nat → Nat
  | none => ext
  | some x => bump ext x

theorem bumpO_comm (ext : Nat → Nat) (r1 r2 : Option Nat) : bumpO (bumpO ext r1) r2 = bumpO (bumpO ext r2) r1 := by
  cases r1 with
  | none => cases r2 <;> rfl
  | some x =>
    cases r2 with
    | none => rfl
    | some y =>
      funext b
      simp only [bumpO, bump, SBuf.set]
      by_cases h1 : b = x
      · by_cases h2 : b = y
        · subst h1; subst h2; simp
        · subst h1; simp [h2]
      · by_cases h2 : b = y
        · subst h2; simp [h1]
        · simp [h1, h2]

theorem le_bumpO (ext : Nat → Nat) (r : Option Nat) (b : Nat) : ext b ≤ bumpO ext r b := by
  cases r with
  | none => exact Nat.le_refl _
  | some x => exact le_bump ext x b

theorem Built.releaseOpt {w : SBuf.World} (hw : SBuf.Reachable h w) {ext : Nat → Nat} {cli : Nat → Bool} {s s' : Mem}
    (D : Based w s) {a : Nat} {x : Option Nat} {o : Option Str} {c : Str} {r : Option Nat}
    (B : Built h w (bumpO ext x) cli s s' a o c r) (hm : ∀ b, w.ext b ≤ ext b) :
    ∃ s'', releaseOpt s' x = some s'' ∧ Built h w ext cli s s'' a o c r := by
  cases x with
  | none => exact ⟨s', rfl, B⟩
  | some x => exact B.release hw D hm

theorem finish_spec {w : SBuf.World} (hw : SBuf.Reachable h w) {s : Mem} (B : Based w s) {ext : Nat → Nat}
    {cli : Nat → Bool} {r1 r2 : Option Nat} (R : Run h w ⟨s.str, bumpO (bumpO ext r1) r2, cli⟩) (m : Alloc)
    {d c : Str} (h1 : ∀ n, r1 = some n → s.str.text n = some d) (h2 : ∀ n, r2 = some n → s.str.text n = some c)
    (hm : ∀ b, w.ext b ≤ ext b) :
    ∃ s' x, finish m s r1 r2 = some (s', x) ∧ Built h w ext cli s s' m.a (some d) c x := by
  unfold finish
  obtain ⟨s1, x, e1, B1⟩ : ∃ s1 x, both m s r1 r2 = some (s1, x) ∧ Built h w (bumpO (bumpO ext r1) r2) cli s s1 m.a (some d) c x := by
    cases r1 with
    | none => cases r2 <;> exact ⟨s, none, rfl, .null rfl rfl R⟩
    | some n => cases r2 with
      | none => exact ⟨s, none, rfl, .null rfl rfl R⟩
      | some r => exact unvalidated_spec hw B R m (h1 n rfl) (h2 r rfl)
  rw [e1, Option.bind_some]
  dsimp only
  rw [bumpO_comm] at B1
  obtain ⟨s2, e2, B2⟩ := B1.releaseOpt hw B fun b => Nat.le_trans (hm b) (le_bumpO ext r2 b)
  rw [e2, Option.bind_some]
  obtain ⟨s3, e3, B3⟩ := B2.releaseOpt hw B hm
  rw [e3]
  exact ⟨_, _, rfl, B3⟩

/-- What `Gives` says in one piece. -/
theorem gives_run {ext : Nat → Nat} {cli' : Nat → Bool} {w : SBuf.World} {c : Str} {int : Bool} {s' : St} {r : Option Nat}
    (G : Gives h w ext cli' c int s' r) : Run h w ⟨s', bumpO ext r, cli'⟩ ∧ ∀ x, r = some x → s'.text x = some c := by
  cases r with
  | none => exact ⟨G.1 rfl, fun x e => nomatch e⟩
  | some x => exact ⟨(G.2 x rfl).1, fun y e => by cases e; exact (G.2 x rfl).2.1⟩

theorem fresh_null {s : St} {m : Where} {c : Str} (hn : (s.fresh m c).2 = .null) : (s.fresh m c).1 = s := by
  cases m with
  | no => rfl
  | inl => cases hn
  | at' b => cases hn

section
variable {s : Mem} {ext : Nat → Nat} {cli : Nat → Bool}

/-- `cowl_iri`. -/
theorem iri_spec (hw : SBuf.Reachable h ⟨s.str, ext, cli⟩) (B : Based ⟨s.str, ext, cli⟩ s) {m : Alloc} (F : Fair s m)
    {p q : Nat} {c d : Str} (hp : s.str.text p = some c) (hq : s.str.text q = some d) :
    ∃ s' r, iri h m s p q = some (s', r) ∧
      Built h ⟨s.str, ext, cli⟩ ext cli s s' m.a (some (iriOfParts c d).1) (iriOfParts c d).2 r := by
  unfold iri
  rw [show textOf s.str p = some c from hp, Option.bind_some, show textOf s.str q = some d from hq, Option.bind_some]
  by_cases h1 : nsLength d > 0
  · rw [if_pos h1]
    have hv : iriOfParts c d = (c ++ d.take (nsLength d), d.drop (nsLength d)) := if_pos h1
    rw [hv]
    dsimp only
    by_cases hn : (s.str.fresh m.bw (c ++ d.take (nsLength d))).2 = .null
    · rw [if_pos hn, fresh_null hn]
      exact ⟨_, _, rfl, .null rfl rfl (LitM.Run.refl hw)⟩
    · rw [if_neg hn]
      have hne : c ++ d.take (nsLength d) ≠ [] := by
        intro e
        have h2 := congrArg List.length e
        cases d with
        | nil => cases h1
        | cons x d =>
          rw [List.length_append, List.length_take] at h2
          simp only [List.length_cons, List.length_nil] at h2
          omega
      obtain ⟨t1, r1, e1, M1, G1⟩ := fmt_run hw (ok := m.nok) F.na F.bw hne
      rw [e1, Option.bind_some]
      dsimp only
      obtain ⟨R1, T1⟩ := gives_run G1
      obtain ⟨t2, r2, e2, M2, G2⟩ := opt_run R1.reach (m := m.mw) (put := true) (ok := m.mok) (u := .inl (d.drop (nsLength d)))
        (int := false) (M1.unused F.ma F.nma.symm) (string_unused e1 (fresh_unused F.mw F.bm)) rfl
      rw [e2, Option.bind_some]
      obtain ⟨R2, T2⟩ := gives_run G2
      obtain ⟨s', x, e, B'⟩ := finish_spec hw (B.str t2) (Run.trans R1 R2) m (fun n e => R2.text (T1 n e)) T2 fun b => Nat.le_refl _
      exact ⟨s', x, e, B'.of rfl rfl⟩
  · rw [if_neg h1]
    by_cases h2 : nsLength c < c.length
    · rw [if_pos h2]
      have hv : iriOfParts c d = (c.take (nsLength c), c.drop (nsLength c) ++ d) := by
        unfold iriOfParts; dsimp only; rw [if_neg h1, if_pos h2]
      rw [hv]
      dsimp only
      by_cases hn : (s.str.fresh m.bw (c.drop (nsLength c) ++ d)).2 = .null
      · rw [if_pos hn, fresh_null hn]
        exact ⟨_, _, rfl, .null rfl rfl (LitM.Run.refl hw)⟩
      · rw [if_neg hn]
        have hne : c.drop (nsLength c) ++ d ≠ [] := by
          intro e
          have h3 := congrArg List.length e
          rw [List.length_append, List.length_drop] at h3
          simp only [List.length_nil] at h3
          omega
        have R0 := fresh_run hw F.bw (c.drop (nsLength c) ++ d)
        obtain ⟨t1, r1, e1, M1, G1⟩ := opt_run R0.reach (m := m.nw) (put := m.nput) (ok := m.nok) (u := .inl (c.take (nsLength c)))
          (int := true) (a := m.na) (by rw [LitM.fresh_cells]; exact F.na) (fresh_unused F.nw F.bn) rfl
        rw [e1, Option.bind_some]
        dsimp only
        obtain ⟨R1, T1⟩ := gives_run G1
        have ha : t1.cells m.ma = none := M1.unused (by rw [LitM.fresh_cells]; exact F.ma) F.nma.symm
        obtain ⟨t2, r2, e2, M2, G2, K2⟩ := string_run hw (Run.trans R0 R1) (ok := m.mok) (cli' := cli) ha (fresh_mine hw F.bw _)
          (R1.txt R0.reach (fresh_txt _ hn)) hne (own_disown hw F.bw _) fun b hb => hb
        rw [e2, Option.bind_some]
        obtain ⟨R2, T2⟩ := gives_run G2
        refine (finish_spec hw (B.str t2) R2 m (fun n e => ?_) T2 fun b => Nat.le_refl _).imp fun s' ⟨x, e, B'⟩ => ⟨x, e, B'.of rfl rfl⟩
        refine K2 n ?_ _ (T1 n e)
        subst e
        simp [bumpO, bump]
    · rw [if_neg h2]
      have hv : iriOfParts c d = (c, d) := by
        unfold iriOfParts; dsimp only; rw [if_neg h1, if_neg h2]
      rw [hv]
      obtain ⟨t1, e1, R1⟩ := retain_run hw (text_live hp)
      rw [e1, Option.bind_some]
      obtain ⟨t2, e2, R2⟩ := retain_run R1.reach (text_live (R1.text hq))
      rw [e2, Option.bind_some]
      have Q := Run.trans R1 R2
      refine (finish_spec hw (B.str t2) (r1 := some p) (r2 := some q) Q m (fun n e => ?_) (fun n e => ?_) fun b => Nat.le_refl _).imp
        fun s' ⟨x, e, B'⟩ => ⟨x, e, B'.of rfl rfl⟩
      · cases e; exact Q.text hp
      · cases e; exact Q.text hq

/-- `cowl_iri_from_string`. -/
theorem iriOf_spec (hw : SBuf.Reachable h ⟨s.str, ext, cli⟩) (B : Based ⟨s.str, ext, cli⟩ s) {m : Alloc} (F : Fair s m)
    {u : UStr} {c : Str} (hu : s.str.txt u = some c) :
    ∃ s' r, iriOf h m s u = some (s', r) ∧
      Built h ⟨s.str, ext, cli⟩ ext cli s s' m.a (some (getNsRem c (nsLength c)).1) (getNsRem c (nsLength c)).2 r ∧
      (c = [] → r = none) := by
  unfold iriOf
  rw [hu, Option.bind_some]
  by_cases h0 : c.length + 1 ≤ 1
  · rw [if_pos h0]
    exact ⟨_, _, rfl, .null rfl rfl (LitM.Run.refl hw), fun _ => rfl⟩
  · rw [if_neg h0]
    dsimp only
    have hc : c ≠ [] := by rintro rfl; exact h0 (Nat.le_refl _)
    obtain ⟨t1, r2, e1, M1, G1, hun⟩ : ∃ t r, (if nsLength c < c.length then
        opt h m.mw true m.mok s.str m.ma (.inl (c.drop (nsLength c))) true false else emptyStr s.str) = some (t, r) ∧
        Makes s.str t m.ma r ∧ Gives h ⟨s.str, ext, cli⟩ ext cli (getNsRem c (nsLength c)).2 false t r ∧ Unused t m.nw := by
      unfold getNsRem
      by_cases h1 : nsLength c < c.length
      · rw [if_pos h1, if_pos h1]
        obtain ⟨t, r, e, M, G⟩ := opt_run hw (m := m.mw) (put := true) (ok := m.mok) (u := .inl (c.drop (nsLength c)))
          (int := false) F.ma F.mw rfl
        exact ⟨t, r, e, M, G, LitM.opt_unused e F.nw F.nm⟩
      · rw [if_neg h1, if_neg h1]
        obtain ⟨t, r, e, M, G, hb⟩ := empty_run hw m.ma
        refine ⟨t, r, e, M, G, ?_⟩
        have := F.nw
        cases hw' : m.nw with
        | no => trivial
        | inl => trivial
        | at' b => rw [hw'] at this; show t.bufs b = none; rw [hb]; exact this
    rw [e1, Option.bind_some]
    dsimp only
    obtain ⟨R1, T1⟩ := gives_run G1
    have hns : c.take (if nsLength c < c.length then nsLength c else c.length) = (getNsRem c (nsLength c)).1 := by
      unfold getNsRem; split
      · rfl
      · exact List.take_length
    rw [hns]
    obtain ⟨t2, r1, e2, M2, G2⟩ := opt_run R1.reach (m := m.nw) (put := m.nput) (ok := m.nok)
      (u := .inl (getNsRem c (nsLength c)).1) (int := true) (M1.unused F.na F.nma) hun rfl
    rw [e2, Option.bind_some]
    obtain ⟨R2, T2⟩ := gives_run G2
    have Q := Run.trans R1 R2
    rw [bumpO_comm] at Q
    refine (finish_spec hw (B.str t2) Q m T2 (fun n e => R2.text (T1 n e)) fun b => Nat.le_refl _).imp
        fun s' ⟨x, e, B'⟩ => ⟨x, e, B'.of rfl rfl, fun e => absurd e hc⟩

theorem copyStr_eq {m : Alloc} {s : St} {u : UStr} {c : Str} (hc : s.txt u = some c) (hn : c ≠ []) (ho : m.mok = true)
    (hw : m.mw ≠ .no) :
    copyStr m s u (h c) = opt h m.mw true true s m.ma u true false ∧ ∃ t, copyStr m s u (h c) = some (t, some m.ma) := by
  have hu : u ≠ .null := by rintro rfl; cases hc; exact hn rfl
  have hf : (s.fresh m.mw c).2 ≠ .null := by
    cases e : m.mw with
    | no => exact absurd e hw
    | inl => exact fun e => nomatch e
    | at' b => exact fun e => nomatch e
  have e1 : copyStr m s u (h c) = some ({ (s.fresh m.mw c).1 with cells := SBuf.set (s.fresh m.mw c).1.cells m.ma (some ⟨1, false, h c, (s.fresh m.mw c).2⟩) }, some m.ma) := by
    unfold copyStr dup
    rw [if_neg (by simp [ho]), hc]; rfl
  refine ⟨?_, _, e1⟩
  rw [e1]
  unfold opt
  rw [if_neg hu, hc, Option.bind_some, if_neg hn, if_neg (by simp)]
  unfold SBuf.get dup
  rw [if_pos rfl, hc, Option.map_some, Option.bind_some]
  dsimp only
  rw [if_neg (by simp [hf]), if_pos rfl, fresh_txt s hf, Option.map_some]
  unfold initCell
  rw [if_neg hf]

theorem not_there (hw : SBuf.Reachable h ⟨s.str, ext, cli⟩) (B : Based ⟨s.str, ext, cli⟩ s) {t : St} {ext' : Nat → Nat} {cli' : Nat → Bool}
    (R : Run h ⟨s.str, ext, cli⟩ ⟨t, ext', cli'⟩) {ns : Option Nat} {c : Str} (F : Finds s ns c s.tbl none) :
    ∀ b l, s.prim b = some l → l.ns = ns → t.text l.rem ≠ some c := by
  intro b l hl hn hc
  obtain ⟨d, hd⟩ := B.text hw (LitM.Run.refl hw) hl
  rw [R.text hd] at hc
  cases hc
  exact F.2 rfl b ((B.tbl b).2 (by rw [hl]; exact fun e => nomatch e)) l hl hn hd

/-- `cowl_anon_ind_from_string`. -/
theorem anonOf_spec (hw : SBuf.Reachable h ⟨s.str, ext, cli⟩) (B : Based ⟨s.str, ext, cli⟩ s) {m : Alloc} (F : Fair s m)
    {u : UStr} {c : Str} (hu : s.str.txt u = some c) (hn : c ≠ []) (ho : m.mok = true) (hmw : m.mw ≠ .no) :
    ∃ s' r, anonOf h m s u = some (s', r) ∧ Built h ⟨s.str, ext, cli⟩ ext cli s s' m.a none c r := by
  have hu' : u ≠ .null := by rintro rfl; cases hu; exact hn rfl
  unfold anonOf
  rw [hu, Option.bind_some]
  by_cases hi : m.iput = true
  · rw [if_neg (by simp [hi]), show (initCell h u c).hash = h c from if_neg hu']
    have R0 := LitM.Run.refl hw
    obtain ⟨r, e, Fd⟩ := find_spec hw B R0 none c s.tbl fun b hb => hb
    rw [e, Option.bind_some]
    cases r with
    | some x =>
      obtain ⟨_, k, hk, hkn, hkt⟩ := Fd.1 x rfl
      dsimp only
      rw [retainPrim_some hk]
      exact ⟨_, _, rfl, .old hk (by rw [hkn]; trivial) hkt rfl rfl R0⟩
    | none =>
      dsimp only
      obtain ⟨ec, t, et⟩ := copyStr_eq (h := h) hu hn ho hmw
      obtain ⟨t', r', e', _, G⟩ := opt_run hw (m := m.mw) (put := true) (ok := true) (int := false) F.ma F.mw hu
      rw [← ec, et] at e'
      cases e'
      rw [et, Option.bind_some]
      dsimp only
      obtain ⟨R1, T1⟩ := gives_run G
      obtain ⟨s2, x, e2, B2, _⟩ := alloc_spec (s := { s with str := t }) R1 m (ns := none) (o := none) trivial (T1 _ rfl)
        (fun b l hl => B.text hw R1 hl) (not_there hw B R1 Fd)
      rw [e2, Option.bind_some]
      dsimp only
      obtain ⟨s3, e3, B3⟩ := (B2.of (s := s) rfl rfl).releaseOpt hw B fun b => Nat.le_refl _
      rw [e3]
      exact ⟨_, _, rfl, B3⟩
  · rw [if_pos (by simpa using hi)]
    exact ⟨s, none, rfl, .null rfl rfl (LitM.Run.refl hw)⟩

/-- `anon_ind_generate`. -/
theorem generate_spec (hw : SBuf.Reachable h ⟨s.str, ext, cli⟩) (B : Based ⟨s.str, ext, cli⟩ s) {m : Alloc} (F : Fair s m) :
    ∀ ids : List (Where × Str), (∀ p ∈ ids, Unused s.str p.1 ∧ p.2 ≠ []) → ∃ s' r c, generate h m s ids = some (s', r) ∧
      Built h ⟨s.str, ext, cli⟩ ext cli s s' m.a none c r ∧ (r = none ∨ r = some m.a ∧ c ∈ ids.map Prod.snd) := by
  intro ids
  have R0 := LitM.Run.refl hw
  induction ids with
  | nil => exact fun _ => ⟨s, none, [], rfl, .null rfl rfl R0, .inl rfl⟩
  | cons p l ih =>
    obtain ⟨wh, c⟩ := p
    intro hl
    obtain ⟨hun, hc⟩ := hl _ (.head _)
    unfold generate
    dsimp only
    by_cases hn : (s.str.fresh wh c).2 = .null
    · rw [if_pos hn, fresh_null hn]
      exact ⟨_, _, [], rfl, .null rfl rfl R0, .inl rfl⟩
    · rw [if_neg hn]
      by_cases hi : m.iput = true
      · rw [if_neg (by simp [hi]), show (initCell h (s.str.fresh wh c).2 c).hash = h c from if_neg hn]
        have R1 := fresh_run hw hun c
        obtain ⟨r, e, Fd⟩ := find_spec (s := { s with str := (s.str.fresh wh c).1 }) hw (B.str _) R1 none c s.tbl fun b hb => hb
        rw [e, Option.bind_some]
        cases r with
        | some x =>
          dsimp only
          rw [fresh_deinit hun, Option.bind_some]
          obtain ⟨s', r, c', e', B', hr⟩ := ih fun p hp => hl p (.tail _ hp)
          exact ⟨s', r, c', e', B', hr.imp id fun h => ⟨h.1, .tail _ h.2⟩⟩
        | none =>
          dsimp only
          obtain ⟨t, r, e1, M, G⟩ := fmt_run hw (ok := m.mok) F.ma hun hc
          rw [e1, Option.bind_some]
          obtain ⟨R2, T2⟩ := gives_run G
          cases r with
          | none => exact ⟨_, _, [], rfl, .null rfl rfl R2, .inl rfl⟩
          | some id =>
            dsimp only
            have hnot : ∀ b l, s.prim b = some l → l.ns = none → t.text l.rem ≠ some c := by
              intro b l hl hln htc
              obtain ⟨d, hd⟩ := B.text hw R0 hl
              rw [R2.text hd] at htc
              cases htc
              exact Fd.2 rfl b ((B.tbl b).2 (by rw [hl]; exact fun e => nomatch e)) l hl hln (R1.text hd)
            obtain ⟨s2, x, e2, B2, hx⟩ := alloc_spec (s := { s with str := t }) R2 m (ns := none) (o := none) trivial (T2 _ rfl)
              (fun b l hl => B.text hw R2 hl) hnot
            rw [e2, Option.bind_some]
            dsimp only
            obtain ⟨s3, e3, B3⟩ := (B2.of (s := s) rfl rfl).releaseOpt hw B fun b => Nat.le_refl _
            rw [e3]
            exact ⟨_, _, c, rfl, B3, hx.imp (fun e => e) fun h => ⟨h, .head _⟩⟩
      · rw [if_pos (by simpa using hi), fresh_deinit hun]
        exact ⟨_, _, [], rfl, .null rfl rfl R0, .inl rfl⟩

end

end Cowl.PrimM
