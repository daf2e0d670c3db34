import Verif.LitMemLemmas
/-! # C103: literals own their strings, whatever allocations fail -/
namespace Cowl
open SBuf LitM

namespace LitM

/-- References to literals after a constructor. -/
def lextMade (lext : Nat → Nat) : Option Nat → Nat → Nat
  | some x => SBuf.set lext x (lext x + 1)
  | none => lext

/-- What a constructor leaves. -/
theorem LInv.built {h : Str → Nat} {w : World} (I : LInv h w) {s' : Mem} {a : Nat} {r : Option Nat} {c : Str} {t : LitTag}
    (ha : w.mem.lit a = none)
    (B : Built h ⟨w.mem.str, allExt w, w.cli⟩ (allExt w) w.cli w.mem s' a r c t) :
    LInv h ⟨s', w.ext, w.cli, lextMade w.lext r, w.dref⟩ ∧
      Same w.mem s' ∧ ∀ x, r = some x → content s' x = some (c, t) := by
  rcases B with ⟨rfl, h1, h2, R⟩ | ⟨k, rfl, h1, h2, h3, R, hv, ht⟩
  · refine ⟨⟨?_, ?_, ?_, ?_, ?_, ?_⟩, same_of I ?_ ?_, fun x e => by cases e⟩
    · have : allExt (⟨s', w.ext, w.cli, w.lext, w.dref⟩ : World) = allExt w := by
        funext b; unfold allExt; dsimp only; rw [h1]
      show SBuf.Reachable h ⟨s'.str, allExt ⟨s', w.ext, w.cli, w.lext, w.dref⟩, w.cli⟩
      rw [this]; exact R.reach
    · show (s'.lits.map Prod.fst).Nodup; rw [h1]; exact I.nodup
    · show ∀ p ∈ s'.lits, p.2.rc = w.lext p.1 ∧ _; rw [h1]; exact I.rc
    · show ∀ a, s'.lits.lookup a = none → w.lext a = 0; rw [h1]; exact I.gone
    · intro i; show s'.dts i = voc i + w.dref i + dtUses s'.lits i; rw [h1, h2]; exact I.dt i
    · intro p hp
      have hp : p ∈ s'.lits := hp
      rw [h1] at hp
      obtain ⟨t, ht⟩ := I.tag p hp
      exact ⟨t, ht.mono fun l _ => ⟨fun c hc => R.text hc, fun hi => R.interned hi⟩⟩
    · intro b k' hk' _
      have hk' : s'.lits.lookup b = some k' := hk'
      rw [h1] at hk'
      exact ⟨k', hk', rfl, rfl, rfl⟩
    · exact fun _ _ b _ _ _ => ⟨fun c hc => R.text hc, fun hi => R.interned hi⟩
  · have hnew : ∀ p ∈ w.mem.lits, p.1 ≠ a := lookup_none.1 ha
    have hlk : s'.lit a = some k := by show s'.lits.lookup a = _; rw [h1, List.lookup_cons_self]
    refine ⟨⟨?_, ?_, ?_, ?_, ?_, ?_⟩, same_of I ?_ ?_, ?_⟩
    · have : (fun b => allExt w b + usesOf k b) = fun b => w.ext b + uses s'.lits b := by
        funext b; unfold allExt; rw [h1, uses_total, uses_total, total_cons]; dsimp only; omega
      show SBuf.Reachable h ⟨s'.str, fun b => w.ext b + uses s'.lits b, w.cli⟩
      rw [← this]; exact R.reach
    · show (s'.lits.map Prod.fst).Nodup
      rw [h1]
      refine List.nodup_cons.2 ⟨fun hm => ?_, I.nodup⟩
      obtain ⟨p, hp, e⟩ := List.mem_map.1 hm
      exact hnew p hp e
    · intro p hp
      have hp : p ∈ s'.lits := hp
      rw [h1] at hp
      show p.2.rc = SBuf.set w.lext a (w.lext a + 1) p.1 ∧ _
      rcases List.mem_cons.1 hp with rfl | hp'
      · rw [set_same, I.gone a ha]; exact ⟨h2, by dsimp only; omega⟩
      · rw [set_other _ _ (hnew p hp')]; exact I.rc p hp'
    · intro b hb
      have hb : s'.lits.lookup b = none := hb
      rw [h1] at hb
      have hb' := lookup_none.1 hb
      show SBuf.set w.lext a (w.lext a + 1) b = 0
      rw [set_other _ _ (Ne.symm (hb' _ (.head _)))]
      exact I.gone b (lookup_none.2 fun p hp => hb' p (.tail _ hp))
    · intro i
      show s'.dts i = voc i + w.dref i + dtUses s'.lits i
      have := I.dt i
      rw [h1, h3, dtUses_total, total_cons]
      rw [dtUses_total] at this
      dsimp only
      omega
    · intro p hp
      have hp : p ∈ s'.lits := hp
      rw [h1] at hp
      rcases List.mem_cons.1 hp with rfl | hp'
      · exact ⟨t, ht⟩
      · obtain ⟨t, ht⟩ := I.tag p hp'
        exact ⟨t, ht.mono fun l _ => ⟨fun c hc => R.text hc, fun hi => R.interned hi⟩⟩
    · intro b k' hk' hb
      have hk' : s'.lits.lookup b = some k' := hk'
      have hba : b ≠ a := by rintro rfl; exact hb ha
      rw [h1, List.lookup_cons, show (b == a) = false by simp [hba]] at hk'
      exact ⟨k', hk', rfl, rfl, rfl⟩
    · exact fun _ _ b _ _ _ => ⟨fun c hc => R.text hc, fun hi => R.interned hi⟩
    · intro x e
      cases e
      exact content_eq hlk hv ht

/-- Calls on strings, while literals hold some of them. -/
theorem ext_add {ext u : Nat → Nat} {o : SBuf.Op} {r : SBuf.Res} (hr : ∀ x, o = .release x → 0 < ext x)
    (hr' : ∀ m x, o = .releaseRaw m x → 0 < ext x) :
    SBuf.extAfter (fun a => ext a + u a) o r = fun a => SBuf.extAfter ext o r a + u a := by
  have up : ∀ x, SBuf.set (fun a => ext a + u a) x (ext x + u x + 1) = fun a => SBuf.set ext x (ext x + 1) a + u a := by
    intro x; funext a; unfold SBuf.set; split
    · subst_vars; omega
    · rfl
  have down : ∀ x, 0 < ext x → SBuf.set (fun a => ext a + u a) x (ext x + u x - 1) = fun a => SBuf.set ext x (ext x - 1) a + u a := by
    intro x hx; funext a; unfold SBuf.set; split
    · subst_vars; omega
    · rfl
  cases o with
  | intern p x => rfl
  | release x => exact down x (hr x rfl)
  | releaseRaw m x => exact down x (hr' m x rfl)
  | make b c => cases r with
    | unit => rfl
    | raw v => rfl
    | ptr p => cases p with
      | none => rfl
      | some x => exact up x
  | drop b => cases r with
    | unit => rfl
    | raw v => rfl
    | ptr p => cases p with
      | none => rfl
      | some x => exact up x
  | opt w p k a v c i => cases r with
    | unit => rfl
    | raw v => rfl
    | ptr p => cases p with
      | none => rfl
      | some x => exact up x
  | string k a v => cases r with
    | unit => rfl
    | raw v => rfl
    | ptr p => cases p with
      | none => rfl
      | some x => exact up x
  | empty => cases r with
    | unit => rfl
    | raw v => rfl
    | ptr p => cases p with
      | none => rfl
      | some x => exact up x
  | concat w k a x y => cases r with
    | unit => rfl
    | raw v => rfl
    | ptr p => cases p with
      | none => rfl
      | some x => exact up x
  | withFormat w k a c => cases r with
    | unit => rfl
    | raw v => rfl
    | ptr p => cases p with
      | none => rfl
      | some x => exact up x
  | retain x => cases r with
    | unit => rfl
    | raw v => rfl
    | ptr p => cases p with
      | none => rfl
      | some x => exact up x

theorem legal_more {s : St} {ext u : Nat → Nat} {cli : Nat → Bool} {o : SBuf.Op} (hl : SBuf.Legal ⟨s, ext, cli⟩ o) :
    SBuf.Legal ⟨s, fun a => ext a + u a, cli⟩ o := by
  cases o with
  | release x => exact Nat.lt_of_lt_of_le hl (Nat.le_add_right _ _)
  | releaseRaw m x => exact ⟨Nat.lt_of_lt_of_le hl.1 (Nat.le_add_right _ _), hl.2⟩
  | _ => exact hl

theorem str_step {h : Str → Nat} {w : World} (I : LInv h w) {o : SBuf.Op} (hl : SBuf.Legal ⟨w.mem.str, w.ext, w.cli⟩ o) :
    ∃ t r, SBuf.step h w.mem.str o = some (t, r) ∧
      LInv h ⟨{ w.mem with str := t }, SBuf.extAfter w.ext o r, SBuf.cliAfter w.cli o r, w.lext, w.dref⟩ ∧
      Same w.mem { w.mem with str := t } := by
  have hl' : SBuf.Legal ⟨w.mem.str, allExt w, w.cli⟩ o := legal_more hl
  obtain ⟨t, r, e⟩ := C72_defined I.reach hl'
  have hx : SBuf.extAfter (allExt w) o r = fun a => SBuf.extAfter w.ext o r a + uses w.mem.lits a :=
    ext_add (fun x e => by subst e; exact hl) (fun m x e => by subst e; exact hl.1)
  have R := I.reach.step hl' e
  have R' : SBuf.Reachable h ⟨t, fun a => SBuf.extAfter w.ext o r a + uses w.mem.lits a, SBuf.cliAfter w.cli o r⟩ := by
    rw [← hx]; exact R
  have K : ∀ a, 0 < uses w.mem.lits a →
      (∀ c, w.mem.str.text a = some c → t.text a = some c) ∧ (Interned w.mem.str a → Interned t a) := by
    intro a ha
    have hp : 0 < SBuf.extAfter (allExt w) o r a := by rw [hx]; exact Nat.lt_of_lt_of_le ha (Nat.le_add_left _ _)
    refine ⟨fun c hc => ?_, fun hi => ?_⟩
    · obtain ⟨k, hk, hc⟩ := Option.bind_eq_some_iff.1 hc
      obtain ⟨k', h1, h2, h3, _⟩ := step_keep I.reach hl' e hk (.inl hp)
      rw [text_eq h1, h2, h3]; exact hc
    · obtain ⟨k, hk, hb⟩ := hi
      obtain ⟨k', h1, _, _, h4⟩ := step_keep I.reach hl' e hk (.inl hp)
      exact ⟨k', h1, h4 hb⟩
  refine ⟨t, r, e, ⟨R', I.nodup, I.rc, I.gone, I.dt, fun p hp => ?_⟩, same_of I ?_ ?_⟩
  · obtain ⟨g, hg⟩ := I.tag p hp
    exact ⟨g, hg.mono fun l e => K l (uses_pos hp (usesOf_arg e))⟩
  · exact fun a k' hk' _ => ⟨k', hk', rfl, rfl, rfl⟩
  · exact fun a k' b hk' _ hb => K b (uses_pos (lookup_mem hk') hb)

/-- The count of a literal changes. -/
theorem LInv.put {h : Str → Nat} {w : World} (I : LInv h w) {a n : Nat} {k : LCell} (hk : w.mem.lit a = some k)
    (hn : 0 < n) :
    LInv h ⟨{ w.mem with lits := putLit w.mem.lits a { k with rc := n } }, w.ext, w.cli, SBuf.set w.lext a n, w.dref⟩ ∧
      Same w.mem { w.mem with lits := putLit w.mem.lits a { k with rc := n } } := by
  have hu : ∀ b, uses (putLit w.mem.lits a { k with rc := n }) b = uses w.mem.lits b := fun b =>
    total_put (g := fun k => usesOf k b) (k' := { k with rc := n }) I.nodup hk rfl
  have hnd : ((putLit w.mem.lits a { k with rc := n }).map Prod.fst).Nodup := by rw [put_keys]; exact I.nodup
  have hm : (a, k) ∈ w.mem.lits := lookup_mem hk
  refine ⟨⟨?_, hnd, ?_, ?_, ?_, ?_⟩, same_of I ?_ ?_⟩
  · have : (fun b => w.ext b + uses (putLit w.mem.lits a { k with rc := n }) b) = allExt w := by
      funext b; rw [hu]; rfl
    show SBuf.Reachable h ⟨w.mem.str, fun b => w.ext b + uses (putLit w.mem.lits a { k with rc := n }) b, w.cli⟩
    rw [this]; exact I.reach
  · intro p hp
    rcases put_mem hp with ⟨rfl, _⟩ | ⟨hp', hne⟩
    · exact ⟨(set_same _ _ _).symm, hn⟩
    · show _ = SBuf.set w.lext a n p.1 ∧ _
      rw [set_other _ _ hne]; exact I.rc p hp'
  · intro b hb
    have hb' := lookup_none.1 (show (putLit w.mem.lits a { k with rc := n }).lookup b = none from hb)
    have hkeys : ∀ p ∈ w.mem.lits, p.1 ≠ b := by
      intro p hp e
      have : b ∈ (putLit w.mem.lits a { k with rc := n }).map Prod.fst := by
        rw [put_keys]; exact List.mem_map.2 ⟨p, hp, e⟩
      obtain ⟨q, hq, e'⟩ := List.mem_map.1 this
      exact hb' q hq e'
    show SBuf.set w.lext a n b = 0
    rw [set_other _ _ (fun e => hkeys _ hm e.symm)]
    exact I.gone b (lookup_none.2 hkeys)
  · intro i
    show w.mem.dts i = voc i + w.dref i + dtUses (putLit w.mem.lits a { k with rc := n }) i
    have : dtUses (putLit w.mem.lits a { k with rc := n }) i = dtUses w.mem.lits i :=
      total_put (g := fun k => if k.arg = .dt i then 1 else 0) (k' := { k with rc := n }) I.nodup hk rfl
    rw [this]; exact I.dt i
  · intro p hp
    rcases put_mem hp with ⟨rfl, _⟩ | ⟨hp', _⟩
    · obtain ⟨t, ht⟩ := I.tag _ hm
      refine ⟨t, ?_⟩
      cases t <;> exact ht
    · exact I.tag p hp'
  · intro b k' hk' _
    rcases put_mem (lookup_mem hk') with ⟨e, _⟩ | ⟨hp', _⟩
    · cases e; exact ⟨k, hk, rfl, rfl, rfl⟩
    · exact ⟨k', mem_lookup I.nodup hp', rfl, rfl, rfl⟩
  · exact fun _ _ _ _ _ _ => ⟨fun c hc => hc, fun hi => hi⟩

/-- The last reference to a literal is given up. -/
theorem LInv.free {h : Str → Nat} {w : World} (I : LInv h w) {a : Nat} {k : LCell} (hk : w.mem.lit a = some k)
    (hr : w.lext a = 1) :
    ∃ s', ((releasePtr w.mem (.str k.value)).bind fun s =>
        (releasePtr s k.arg).map fun s => { s with lits := s.lits.filter fun p => p.1 ≠ a }) = some s' ∧
      LInv h ⟨s', w.ext, w.cli, SBuf.set w.lext a 0, w.dref⟩ ∧ Same w.mem s' := by
  have hm : (a, k) ∈ w.mem.lits := lookup_mem hk
  generalize hrest : (w.mem.lits.filter fun p => p.1 ≠ a) = rest
  have hu : ∀ b, uses w.mem.lits b = usesOf k b + uses rest b := fun b => by
    rw [← hrest]; exact total_filter (g := fun k => usesOf k b) I.nodup hk
  have hd : ∀ i, dtUses w.mem.lits i = (if k.arg = .dt i then 1 else 0) + dtUses rest i := fun i => by
    rw [← hrest]; exact total_filter (g := fun k => if k.arg = .dt i then 1 else 0) I.nodup hk
  have hsub : ∀ p, p ∈ rest ↔ p ∈ w.mem.lits ∧ p.1 ≠ a := by
    intro p; rw [← hrest, List.mem_filter]; simp
  have hnd : (rest.map Prod.fst).Nodup := by
    rw [← hrest]; exact (List.filter_sublist.map _).nodup I.nodup
  -- the end: strings at `t`, counts of datatypes `ds`
  have fin : ∀ t ds, SBuf.Reachable h ⟨t, fun b => w.ext b + uses rest b, w.cli⟩ →
      (∀ i, ds i = voc i + w.dref i + dtUses rest i) →
      (∀ b, 0 < uses rest b → (∀ c, w.mem.str.text b = some c → t.text b = some c) ∧ (Interned w.mem.str b → Interned t b)) →
      LInv h ⟨⟨t, rest, ds⟩, w.ext, w.cli, SBuf.set w.lext a 0, w.dref⟩ ∧ Same w.mem ⟨t, rest, ds⟩ := by
    intro t ds R hds K
    refine ⟨⟨R, hnd, ?_, ?_, hds, ?_⟩, same_of I ?_ ?_⟩
    · intro p hp
      have hp' := (hsub p).1 hp
      show _ = SBuf.set w.lext a 0 p.1 ∧ _
      rw [set_other _ _ hp'.2]; exact I.rc p hp'.1
    · intro b hb
      have hb' := lookup_none.1 (show rest.lookup b = none from hb)
      show SBuf.set w.lext a 0 b = 0
      by_cases hba : b = a
      · subst hba; exact set_same _ _ _
      · rw [set_other _ _ hba]
        refine I.gone b (lookup_none.2 fun p hp e => ?_)
        exact hb' p ((hsub p).2 ⟨hp, by rw [e]; exact hba⟩) e
    · intro p hp
      obtain ⟨g, hg⟩ := I.tag p ((hsub p).1 hp).1
      exact ⟨g, hg.mono fun l e => K l (uses_pos hp (usesOf_arg e))⟩
    · intro b k' hk' _
      exact ⟨k', mem_lookup I.nodup ((hsub _).1 (lookup_mem (show rest.lookup b = some k' from hk'))).1, rfl, rfl, rfl⟩
    · exact fun b k' c hk' _ hc => K c (uses_pos (lookup_mem (show rest.lookup b = some k' from hk')) hc)
  obtain ⟨t, ht⟩ := I.tag _ hm
  -- the reference to the value
  have R0 : SBuf.Reachable h ⟨w.mem.str, bump (fun b => w.ext b + uses rest b + if k.arg = .str b then 1 else 0) k.value, w.cli⟩ := by
    have : bump (fun b => w.ext b + uses rest b + if k.arg = .str b then 1 else 0) k.value = allExt w := by
      funext b
      simp only [bump, SBuf.set, allExt, hu, usesOf]
      by_cases hb : b = k.value
      · subst hb; simp; omega
      · simp [hb, Ne.symm hb]; omega
    rw [this]; exact I.reach
  obtain ⟨s1, e1, R1, K1⟩ := reach_release R0
  unfold releasePtr
  dsimp only
  rw [e1, Option.map_some, Option.bind_some]
  cases t with
  | dt i =>
    have ha : k.arg = .dt i := ht.2
    rw [ha]
    dsimp only
    have hdi := I.dt i
    have hdi' := hd i
    rw [ha, if_pos rfl] at hdi'
    rw [if_neg (by omega), Option.map_some]
    refine ⟨_, rfl, ?_⟩
    dsimp only
    rw [hrest]
    refine fin _ _ ?_ ?_ ?_
    · have : (fun b => w.ext b + uses rest b + if k.arg = .str b then 1 else 0) = fun b => w.ext b + uses rest b := by
        funext b; rw [ha]; simp
      rw [← this]; exact R1
    · intro j
      have := I.dt j
      rw [hd j, ha] at this
      by_cases hj : j = i
      · subst hj; rw [if_pos rfl] at this ⊢; omega
      · rw [if_neg hj]
        rw [if_neg (by simp [Ne.symm hj])] at this; omega
    · exact fun b hb => K1 b (by omega)
  | lang d =>
    obtain ⟨_, l, ha, _⟩ := ht
    rw [ha]
    dsimp only
    have R1' : SBuf.Reachable h ⟨s1, bump (fun b => w.ext b + uses rest b) l, w.cli⟩ := by
      have : (fun b => w.ext b + uses rest b + if k.arg = .str b then 1 else 0) = bump (fun b => w.ext b + uses rest b) l := by
        funext b
        unfold bump SBuf.set
        by_cases hb : b = l
        · subst hb; rw [if_pos rfl, if_pos (by rw [ha])]
        · rw [if_neg hb, if_neg (by rw [ha]; intro e; cases e; exact hb rfl)]; rfl
      rw [← this]; exact R1
    obtain ⟨s2, e2, R2, K2⟩ := reach_release R1'
    rw [e2]
    refine ⟨_, rfl, ?_⟩
    dsimp only
    rw [hrest]
    refine fin _ _ R2 ?_ ?_
    · intro j
      have := I.dt j
      rw [hd j, ha] at this
      simpa using this
    · intro b hb
      have h1 := K1 b (by omega)
      have h2 := K2 b (by omega)
      exact ⟨fun c hc => h2.1 c (h1.1 c hc), fun hi => h2.2 (h1.2 hi)⟩

/-- The calls that make literals. -/
def Makes' : Op → Prop
  | .literal _ _ _ => True
  | .plain _ _ => True
  | .typed _ _ _ => True
  | .lang _ _ _ _ => True
  | _ => False

theorem made {h : Str → Nat} {w : World} (I : LInv h w) {op : Op} (ho : Makes' op) (hl : Legal w op) (hc : Calm w.mem op) :
    ∃ s r a c t, step h w.mem op = some (s, .ptr r) ∧ w.mem.lit a = none ∧
      Built h ⟨w.mem.str, allExt w, w.cli⟩ (allExt w) w.cli w.mem s a r c t ∧
      ∀ res, Asks w.mem op res → res = .lit c t := by
  have R0 := Run.refl I.reach
  have hx : 0 < w.mem.dts xsdString := by
    have := I.dt xsdString
    rw [show voc xsdString = 1 from if_pos (.inl rfl)] at this
    omega
  have live_text : ∀ {a : Nat}, w.mem.str.cells a ≠ none → ∃ c, w.mem.str.text a = some c := by
    intro a ha
    obtain ⟨c, hc, _⟩ := C72_stable I.reach (op := .empty) trivial
      (C72_defined I.reach (op := .empty) trivial).choose_spec.choose_spec ha
    exact ⟨c, hc⟩
  cases op with
  | str o => exact ho.elim
  | retain x => exact ho.elim
  | release x => exact ho.elim
  | holdDt i => exact ho.elim
  | dropDt i => exact ho.elim
  | literal m v p =>
    obtain ⟨F, hv, hp⟩ := hl
    cases v with
    | none =>
      exact ⟨w.mem, none, m.a, [], .dt xsdString, rfl, F.a, .inl ⟨rfl, rfl, rfl, R0⟩, fun res hr => by cases hr⟩
    | some v =>
      obtain ⟨c, hc'⟩ := live_text (hv v rfl)
      cases p with
      | none =>
        obtain ⟨s, r, e, B⟩ := alloc_dt I.reach R0 m hc' hx
        refine ⟨s, r, m.a, c, _, by show (stringAlloc m w.mem v).map _ = _; unfold stringAlloc; rw [e]; rfl, F.a, B, ?_⟩
        intro res hr
        cases hr with
        | string hc => rw [hc'] at hc; cases hc; rfl
      | some q =>
        have hq := hp q rfl
        cases q with
        | str l =>
          obtain ⟨d, hd⟩ := live_text hq
          obtain ⟨s, r, e, B⟩ := langAlloc_spec I.reach R0 F.ta F.tw hc' hd
            (fun hn => hc (by rw [hd]; exact fun e => hn (Option.some.inj e))) hx
          refine ⟨s, r, m.a, c, _, by show (langAlloc h m w.mem v l).map _ = _; rw [e]; rfl, F.a, B, ?_⟩
          intro res hr
          cases hr with
          | lang hc1 hd1 =>
            rw [hc'] at hc1; cases hc1; rw [hd] at hd1; cases hd1
            show Cowl.literalLang c d = _
            unfold Cowl.literalLang langTag
            split <;> rfl
        | dt i =>
          by_cases hi : isLangDatatype i = true
          · have hi' : i = rdfLangString ∨ i = rdfPlainLiteral := by simpa [isLangDatatype] using hi
            obtain ⟨hok, c', h1, x, l, rfl, hl1, hl2⟩ := hc hi'
            rw [hc'] at h1; cases h1
            obtain ⟨s, r, e, B⟩ := parseLangAlloc_spec I.reach R0 F hc' hl1 hl2 hok
            refine ⟨s, r, m.a, x, _, ?_, F.a, B, ?_⟩
            · show (if isLangDatatype i then parseLangAlloc h m w.mem v else _).map _ = _
              rw [if_pos hi, e]; rfl
            · intro res hr
              cases hr with
              | dt hc1 =>
                rw [hc'] at hc1; cases hc1
                obtain ⟨t, ht, h2, h3⟩ := C25_plain_literal x l hl1 hl2 i hi'
                rw [ht]
                cases t with
                | lang d => cases h3; rfl
                | dt j => cases h3
          · obtain ⟨s, r, e, B⟩ := alloc_dt I.reach R0 m hc' (i := i) hq
            refine ⟨s, r, m.a, c, _, ?_, F.a, B, ?_⟩
            · show (if isLangDatatype i then _ else typedAlloc m w.mem v i).map _ = _
              rw [if_neg hi]; unfold typedAlloc; rw [e]; rfl
            · intro res hr
              cases hr with
              | dt hc1 =>
                rw [hc'] at hc1; cases hc1
                show (if isLangDatatype i then _ else _) = _
                rw [if_neg hi]
  | plain m u =>
    obtain ⟨F, c, hu⟩ := hl
    obtain ⟨s, r, e, B⟩ := withValue_spec I.reach R0 F hu (f := stringAlloc m) (a := m.a) (tag := .dt xsdString)
      fun t v _ _ R1 t1 => by
        obtain ⟨s', r, e, B⟩ := alloc_dt I.reach (s := { w.mem with str := t }) R1 m t1 hx
        exact ⟨s', r, e, B.of rfl rfl⟩
    refine ⟨s, r, m.a, c, _, by show (literalPlain h m w.mem u).map _ = _; unfold literalPlain; rw [e]; rfl, F.a, B, ?_⟩
    intro res hr
    cases hr with
    | plainFrom hc => rw [hu] at hc; cases hc; rfl
  | typed m u i =>
    obtain ⟨F, ⟨c, hu⟩, hi⟩ := hl
    obtain ⟨s, r, e, B⟩ := withValue_spec I.reach R0 F hu (f := fun s v => typedAlloc m s v i) (a := m.a) (tag := .dt i)
      fun t v _ _ R1 t1 => by
        obtain ⟨s', r, e, B⟩ := alloc_dt I.reach (s := { w.mem with str := t }) R1 m t1 hi
        exact ⟨s', r, e, B.of rfl rfl⟩
    refine ⟨s, r, m.a, c, _, by show (literalTyped h m w.mem u i).map _ = _; unfold literalTyped; rw [e]; rfl, F.a, B, ?_⟩
    intro res hr
    cases hr with
    | typedFrom hc => rw [hu] at hc; cases hc; rfl
  | lang m m' u l =>
    obtain ⟨F, F', A, ⟨c, hu⟩, d, hd⟩ := hl
    obtain ⟨s, r, e, B⟩ := literalLang_spec I.reach R0 F F' A hu hd
      (fun hn => hc (by rw [hd]; exact fun e => hn (Option.some.inj e))) hx
    refine ⟨s, r, m'.a, c, _, by show (literalLang h m m' w.mem u l).map _ = _; rw [e]; rfl, F'.a, B, ?_⟩
    intro res hr
    cases hr with
    | langFrom hc1 hd1 =>
      rw [hu] at hc1; cases hc1; rw [hd] at hd1; cases hd1
      show Cowl.literalLang c d = _
      unfold Cowl.literalLang langTag
      split <;> rfl

theorem after_made {w : World} {op : Op} (ho : Makes' op) (s : Mem) (r : Option Nat) :
    w.after op s (.ptr r) = ⟨s, w.ext, w.cli, lextMade w.lext r, w.dref⟩ := by
  cases op with
  | literal m v p => cases r <;> rfl
  | plain m u => cases r <;> rfl
  | typed m u i => cases r <;> rfl
  | lang m m' u l => cases r <;> rfl
  | _ => exact ho.elim

/-- One call. -/
theorem step_spec {h : Str → Nat} {w : World} (I : LInv h w) {op : Op} (hl : Legal w op) (hc : Calm w.mem op) :
    ∃ s r, step h w.mem op = some (s, r) ∧ LInv h (w.after op s r) ∧ Same w.mem s := by
  by_cases ho : Makes' op
  · obtain ⟨s, r, a, c, t, e, ha, B, _⟩ := made I ho hl hc
    refine ⟨s, .ptr r, e, ?_, (I.built ha B).2.1⟩
    rw [after_made ho]; exact (I.built ha B).1
  · cases op with
    | str o =>
      obtain ⟨t, r, e, I', S⟩ := str_step I (o := o) hl
      exact ⟨_, .str r, by show (SBuf.step h w.mem.str o).map _ = _; rw [e]; rfl, I', S⟩
    | literal m v p => exact absurd trivial ho
    | plain m u => exact absurd trivial ho
    | typed m u i => exact absurd trivial ho
    | lang m m' u l => exact absurd trivial ho
    | retain x =>
      obtain ⟨k, hk⟩ := Option.ne_none_iff_exists'.1 (show w.mem.lit x ≠ none from hl)
      have hr := I.rc _ (lookup_mem hk)
      obtain ⟨I', S⟩ := I.put hk (n := k.rc + 1) (Nat.succ_pos _)
      refine ⟨_, .unit, by show (retainLit w.mem x).map _ = _; unfold retainLit; rw [hk]; rfl, ?_, S⟩
      have : k.rc = w.lext x := hr.1
      rw [this] at I' ⊢; exact I'
    | release x =>
      have hl : 0 < w.lext x := hl
      obtain ⟨k, hk⟩ : ∃ k, w.mem.lit x = some k := by
        cases e : w.mem.lit x with
        | none => rw [I.gone x e] at hl; cases hl
        | some k => exact ⟨k, rfl⟩
      have hr : k.rc = w.lext x := (I.rc _ (lookup_mem hk)).1
      by_cases h1 : k.rc - 1 ≠ 0
      · obtain ⟨I', S⟩ := I.put hk (n := k.rc - 1) (Nat.pos_of_ne_zero h1)
        refine ⟨_, .unit, ?_, ?_, S⟩
        · show (releaseLit w.mem x).map _ = _
          unfold releaseLit
          rw [hk, Option.bind_some]
          dsimp only
          rw [if_neg (by omega), if_pos h1]; rfl
        · rw [hr] at I' ⊢; exact I'
      · obtain ⟨s', e, I', S⟩ := I.free hk (by omega)
        refine ⟨s', .unit, ?_, ?_, S⟩
        · show (releaseLit w.mem x).map _ = _
          unfold releaseLit
          rw [hk, Option.bind_some]
          rw [if_neg (by omega), if_neg h1, e]; rfl
        · have : w.lext x - 1 = 0 := by omega
          show LInv h ⟨s', w.ext, w.cli, SBuf.set w.lext x (w.lext x - 1), w.dref⟩
          rw [this]; exact I'
    | holdDt i =>
      refine ⟨_, .unit, rfl, ⟨I.reach, I.nodup, I.rc, I.gone, fun j => ?_, I.tag⟩,
        same_of I (fun a k' hk' _ => ⟨k', hk', rfl, rfl, rfl⟩) fun _ _ _ _ _ _ => ⟨fun c hc => hc, fun hi => hi⟩⟩
      have := I.dt j
      show (if j = i then w.mem.dts j + 1 else w.mem.dts j) = voc j + (if j = i then w.dref j + 1 else w.dref j) + dtUses w.mem.lits j
      split <;> omega
    | dropDt i =>
      have hl : 0 < w.dref i := hl
      have hi := I.dt i
      refine ⟨{ w.mem with dts := fun j => if j = i then w.mem.dts j - 1 else w.mem.dts j }, .unit, by show (releasePtr w.mem (.dt i)).map _ = _; unfold releasePtr; dsimp only; rw [if_neg (by omega)]; rfl,
        ⟨I.reach, I.nodup, I.rc, I.gone, fun j => ?_, I.tag⟩,
        same_of I (fun a k' hk' _ => ⟨k', hk', rfl, rfl, rfl⟩) fun _ _ _ _ _ _ => ⟨fun c hc => hc, fun hi => hi⟩⟩
      have := I.dt j
      show (if j = i then w.mem.dts j - 1 else w.mem.dts j) = voc j + (if j = i then w.dref j - 1 else w.dref j) + dtUses w.mem.lits j
      by_cases hj : j = i
      · subst hj; rw [if_pos rfl, if_pos rfl]; omega
      · rw [if_neg hj, if_neg hj]; omega

theorem init_inv (h : Str → Nat) (e : Nat) : LInv h ⟨init h e, fun _ => 0, fun _ => false, fun _ => 0, fun _ => 0⟩ :=
  ⟨.init e, List.nodup_nil, fun p hp => (by cases hp), fun _ _ => rfl, fun _ => rfl, fun p hp => (by cases hp)⟩

theorem reachable_inv {h : Str → Nat} {w : World} (hw : Reachable h w) : LInv h w := by
  induction hw with
  | init e => exact init_inv h e
  | step hw hl hc hs ih =>
    obtain ⟨s, r, e, I, _⟩ := step_spec ih hl hc
    rw [hs] at e; cases e; exact I

/-- Every allocation of a call has memory. -/
structure Ample (m : Alloc) : Prop where
  vw : m.vw ≠ .no
  vok : m.vok = true
  tw : m.tw ≠ .no
  tput : m.tput = true
  tok : m.tok = true
  ok : m.ok = true

theorem get_some {h : Str → Nat} {w : Where} {s s' : St} {a : Nat} {u : UStr} {copy : Bool} {r : Option Nat}
    (hw : copy = true → w ≠ .no) (e : SBuf.get h w true s a u copy = some (s', r)) : r ≠ none := by
  unfold SBuf.get at e
  obtain ⟨⟨t, v⟩, h1, h2⟩ := Option.bind_eq_some_iff.1 e
  dsimp only at h2
  by_cases hc : copy = true ∧ v = .null
  · obtain ⟨hc, rfl⟩ := hc
    rw [if_pos hc] at h1
    obtain ⟨c, _, h3⟩ := Option.map_eq_some_iff.1 h1
    cases w with
    | no => exact absurd rfl (hw hc)
    | inl => cases h3
    | at' b => cases h3
  · rw [if_neg hc, if_pos rfl] at h2
    obtain ⟨c, _, h3⟩ := Option.map_eq_some_iff.1 h2
    cases h3
    exact fun e => by cases e

theorem opt_ample {h : Str → Nat} {w : Where} {s s' : St} {a : Nat} {u : UStr} {copy int : Bool} {r : Option Nat}
    (hu : u ≠ .null) (hw : copy = true → w ≠ .no) (e : opt h w true true s a u copy int = some (s', r)) : r ≠ none := by
  unfold opt at e
  rw [if_neg hu] at e
  obtain ⟨c, h1, h2⟩ := Option.bind_eq_some_iff.1 e
  by_cases hc : c = []
  · rw [if_pos hc] at h2
    obtain ⟨⟨t, r'⟩, h3, h4⟩ := Option.bind_eq_some_iff.1 h2
    obtain ⟨t', _, h5⟩ := Option.map_eq_some_iff.1 h4
    obtain ⟨t'', _, h6⟩ := Option.map_eq_some_iff.1 h3
    cases h5; cases h6
    exact fun e => by cases e
  · rw [if_neg hc] at h2
    cases int with
    | false => exact get_some hw h2
    | true =>
      rw [if_pos rfl] at h2
      unfold getIntern at h2
      rw [h1, Option.bind_some] at h2
      rw [if_neg (by simp)] at h2
      obtain ⟨f, h3, h4⟩ := Option.bind_eq_some_iff.1 h2
      cases f with
      | some b =>
        obtain ⟨t, _, h5⟩ := Option.bind_eq_some_iff.1 h4
        obtain ⟨t', _, h6⟩ := Option.map_eq_some_iff.1 h5
        cases h6
        exact fun e => by cases e
      | none =>
        obtain ⟨⟨t, r'⟩, h5, h6⟩ := Option.bind_eq_some_iff.1 h4
        cases r' with
        | none => exact absurd rfl (get_some hw h5)
        | some x =>
          obtain ⟨k, _, h7⟩ := Option.map_eq_some_iff.1 h6
          cases h7
          exact fun e => by cases e

theorem intern_ample {s s' : St} {a : Nat} {r : Option Nat} (e : intern true s a = some (s', r)) : r ≠ none := by
  unfold intern at e
  obtain ⟨k, _, h1⟩ := Option.bind_eq_some_iff.1 e
  by_cases hb : k.bit = true
  · rw [if_pos hb] at h1; cases h1; exact fun e => by cases e
  · rw [if_neg hb] at h1
    obtain ⟨c, _, h2⟩ := Option.bind_eq_some_iff.1 h1
    by_cases hc : c.length = 0
    · rw [if_pos hc] at h2; cases h2; exact fun e => by cases e
    · rw [if_neg hc, if_neg (by simp)] at h2
      obtain ⟨f, _, h3⟩ := Option.map_eq_some_iff.1 h2
      cases f <;> (cases h3; exact fun e => by cases e)

theorem alloc_ample {m : Alloc} {s s' : Mem} {v : Nat} {p : Option Ptr} {b : Bool} {r : Option Nat} (hm : m.ok = true)
    (e : literalAlloc m s v p b = some (s', r)) : r ≠ none := by
  unfold literalAlloc at e
  rw [if_neg (by simp [hm])] at e
  cases p with
  | none => cases e
  | some p =>
    obtain ⟨t, _, h1⟩ := Option.bind_eq_some_iff.1 e
    obtain ⟨t', _, h2⟩ := Option.map_eq_some_iff.1 h1
    cases h2
    exact fun e => by cases e

theorem fresh_ample {s : St} {w : Where} (hw : w ≠ .no) (c : Str) : (s.fresh w c).2 ≠ .null := by
  cases w with
  | no => exact absurd rfl hw
  | inl => exact fun e => by cases e
  | at' b => exact fun e => by cases e

theorem lang_ample {h : Str → Nat} {m : Alloc} (A : Ample m) {s s' : Mem} {v l : Nat} {r : Option Nat}
    (e : langAlloc h m s v l = some (s', r)) : r ≠ none := by
  unfold langAlloc at e
  obtain ⟨c, hc, h1⟩ := Option.bind_eq_some_iff.1 e
  by_cases hz : c.length = 0
  · rw [if_pos hz] at h1; exact alloc_ample A.ok h1
  · rw [if_neg hz] at h1
    obtain ⟨⟨t, q⟩, h2, h3⟩ := Option.bind_eq_some_iff.1 h1
    cases q with
    | some l' =>
      obtain ⟨⟨t', r'⟩, h4, h5⟩ := Option.bind_eq_some_iff.1 h3
      obtain ⟨t'', _, h6⟩ := Option.map_eq_some_iff.1 h5
      cases h6
      exact alloc_ample A.ok h4
    | none =>
      exfalso
      unfold internalizeLang at h2
      rw [hc, Option.bind_some] at h2
      by_cases hd : lower c = c
      · rw [if_pos hd] at h2
        obtain ⟨⟨t', q⟩, h4, h5⟩ := Option.bind_eq_some_iff.1 h2
        rw [A.tput] at h4
        cases q with
        | none => exact intern_ample h4 rfl
        | some l' =>
          obtain ⟨t'', _, h6⟩ := Option.map_eq_some_iff.1 h5
          cases h6
      · rw [if_neg hd] at h2
        dsimp only at h2
        rw [if_neg (fresh_ample A.tw _), A.tput, A.tok] at h2
        exact opt_ample (fresh_ample A.tw _) (fun e => by cases e) h2 rfl

theorem parse_ample {h : Str → Nat} {m : Alloc} (A : Ample m) {s s' : Mem} {v : Nat} {r : Option Nat}
    (e : parseLangAlloc h m s v = some (s', r)) : r ≠ none := by
  unfold parseLangAlloc at e
  obtain ⟨⟨t, q⟩, h2, h3⟩ := Option.bind_eq_some_iff.1 e
  cases q with
  | some p =>
    obtain ⟨v', l⟩ := p
    obtain ⟨⟨t', r'⟩, h4, h5⟩ := Option.bind_eq_some_iff.1 h3
    obtain ⟨t1, _, h6⟩ := Option.bind_eq_some_iff.1 h5
    have : r = r' := by
      cases l with
      | none => cases h6; rfl
      | some l =>
        obtain ⟨t2, _, h7⟩ := Option.map_eq_some_iff.1 h6
        cases h7; rfl
    rw [this]
    exact alloc_ample A.ok h4
  | none =>
    exfalso
    unfold parseLang at h2
    obtain ⟨c, _, h1⟩ := Option.bind_eq_some_iff.1 h2
    dsimp only at h1
    by_cases hi : indexOfLast c 64 + 1 ≥ c.length
    · rw [if_pos hi] at h1
      obtain ⟨_, _, h4⟩ := Option.map_eq_some_iff.1 h1
      cases h4
    · rw [if_neg hi] at h1
      obtain ⟨⟨t', q⟩, h4, h5⟩ := Option.bind_eq_some_iff.1 h1
      rw [A.vok] at h4
      cases q with
      | none => exact opt_ample (fun e => by cases e) (fun _ => A.vw) h4 rfl
      | some v' =>
        dsimp only at h5
        rw [if_neg (fresh_ample A.tw _), A.tput, A.tok] at h5
        obtain ⟨⟨t2, q⟩, h6, h7⟩ := Option.bind_eq_some_iff.1 h5
        cases q with
        | none => exact opt_ample (fresh_ample A.tw _) (fun e => by cases e) h6 rfl
        | some l => cases h7

theorem with_ample {h : Str → Nat} {m : Alloc} (A : Ample m) {s s' : Mem} {u : UStr} (hu : u ≠ .null)
    {f : Mem → Nat → Option (Mem × Option Nat)} (hf : ∀ t v t' r, f t v = some (t', r) → r ≠ none) {r : Option Nat}
    (e : withValue h m s u f = some (s', r)) : r ≠ none := by
  unfold withValue at e
  obtain ⟨⟨t, q⟩, h2, h3⟩ := Option.bind_eq_some_iff.1 e
  rw [A.vok] at h2
  cases q with
  | none => exact absurd rfl (opt_ample hu (fun _ => A.vw) h2)
  | some v =>
    obtain ⟨⟨t', r'⟩, h4, h5⟩ := Option.bind_eq_some_iff.1 h3
    obtain ⟨t'', _, h6⟩ := Option.map_eq_some_iff.1 h5
    cases h6
    exact hf _ _ _ _ h4

/-- Calls that ask for a literal, with memory for all they allocate. -/
def Can : Op → Prop
  | .literal m v _ => Ample m ∧ v ≠ none
  | .plain m u => Ample m ∧ u ≠ .null
  | .typed m u _ => Ample m ∧ u ≠ .null
  | .lang m m' u l => Ample m ∧ Ample m' ∧ u ≠ .null ∧ l ≠ .null
  | _ => False

end LitM

/-- C103, in part: no call is undefined, whatever allocations fail, unless it runs into one of two
errors (`C103_fails`): there is no memory for a literal with a language tag, or a literal of type
rdf:PlainLiteral or rdf:langString has none. -/
theorem C103_partial {h : Str → Nat} {w : LitM.World} (hw : LitM.Reachable h w) {op : LitM.Op} (hl : LitM.Legal w op)
    (hc : Calm w.mem op) : ∃ s r, LitM.step h w.mem op = some (s, r) := by
  obtain ⟨s, r, e, _⟩ := LitM.step_spec (LitM.reachable_inv hw) hl hc
  exact ⟨s, r, e⟩

/-- C103: a literal is in memory if and only if the client owns a reference to it, and its count is
the number of these. A string is in memory if and only if the client or a literal refers to it, or it
is the empty string of the library; its count is the number of these references. The count of a
datatype is the number of references to it as well. -/
theorem C103_counts {h : Str → Nat} {w : LitM.World} (hw : LitM.Reachable h w) :
    (∀ a, (w.mem.lit a ≠ none ↔ 0 < w.lext a) ∧ ∀ k, w.mem.lit a = some k → k.rc = w.lext a) ∧
    (∀ a, (w.mem.str.cells a ≠ none ↔ 0 < w.ext a + uses w.mem.lits a ∨ a = w.mem.str.empty) ∧
      ∀ k, w.mem.str.cells a = some k → k.rc = w.ext a + uses w.mem.lits a + if a = w.mem.str.empty then 1 else 0) ∧
    ∀ i, w.mem.dts i = voc i + w.dref i + dtUses w.mem.lits i := by
  have I := LitM.reachable_inv hw
  refine ⟨fun a => ⟨⟨fun hn => ?_, fun hp hn => ?_⟩, fun k hk => (I.rc _ (lookup_mem hk)).1⟩, C72_counts I.reach, I.dt⟩
  · obtain ⟨k, hk⟩ := Option.ne_none_iff_exists'.1 hn
    have := I.rc _ (lookup_mem hk)
    have h1 : k.rc = w.lext a := this.1
    have h2 : 0 < k.rc := this.2
    omega
  · rw [I.gone a hn] at hp; cases hp

/-- C103: a literal that is returned has the value and the tag of C25, and reports them. -/
theorem C103_value {h : Str → Nat} {w : LitM.World} (hw : LitM.Reachable h w) {op : LitM.Op} (hl : LitM.Legal w op)
    (hc : Calm w.mem op) {res : LitRes} (ha : LitM.Asks w.mem op res) {s : Mem} {x : Nat}
    (hs : LitM.step h w.mem op = some (s, .ptr (some x))) :
    ∃ v t, res = .lit v t ∧ content s x = some (v, t) ∧ getValue s x = some v ∧
      getDatatype s x = some (litDatatype t) ∧ getLang s x = some (litLang t) := by
  have I := LitM.reachable_inv hw
  have ho : Makes' op := by cases ha <;> trivial
  obtain ⟨s', r, a, c, t, e, h1, B, hr⟩ := made I ho hl hc
  rw [hs] at e; cases e
  refine ⟨c, t, hr _ ha, (I.built h1 B).2.2 x rfl, ?_⟩
  rcases B with ⟨e, _⟩ | ⟨k, e, h2, _, _, _, hv, ht⟩
  · cases e
  · cases e
    have hk : s.lit x = some k := by show s.lits.lookup x = _; rw [h2, List.lookup_cons_self]
    refine ⟨?_, ?_, ?_⟩
    · unfold getValue; rw [hk]; exact hv
    · unfold getDatatype
      rw [hk, Option.bind_some]
      cases t with
      | dt i => rw [if_neg (by rw [ht.1]; simp), ht.2]; rfl
      | lang d => rw [if_pos ht.1]; rfl
    · unfold getLang
      rw [hk, Option.bind_some]
      cases t with
      | dt i => rw [if_neg (by rw [ht.1]; simp)]; rfl
      | lang d =>
        obtain ⟨h3, l, h4, _, h5⟩ := ht
        rw [if_pos h3, h4]
        show (s.str.text l).map some = _
        rw [h5]; rfl

/-- C103: as long as a literal is there its value and tag stay the same. -/
theorem C103_stable {h : Str → Nat} {w : LitM.World} (hw : LitM.Reachable h w) {op : LitM.Op} (hl : LitM.Legal w op)
    (hc : Calm w.mem op) {s : Mem} {r : LitM.Res} (hs : LitM.step h w.mem op = some (s, r)) {a : Nat}
    (ha : w.mem.lit a ≠ none) (ha' : s.lit a ≠ none) :
    ∃ v t, content w.mem a = some (v, t) ∧ content s a = some (v, t) := by
  have I := LitM.reachable_inv hw
  obtain ⟨s', r', e, _, S⟩ := LitM.step_spec I hl hc
  rw [hs] at e; cases e
  obtain ⟨k, hk⟩ := Option.ne_none_iff_exists'.1 ha
  obtain ⟨c, hv⟩ := I.text (lookup_mem hk)
  obtain ⟨t, ht⟩ := I.tag _ (lookup_mem hk)
  exact ⟨c, t, content_eq hk hv ht, (S a ha ha').trans (content_eq hk hv ht)⟩

/-- C103: a constructor that returns NULL has left the literals, the datatypes, and the strings with
their texts and counts as they were. -/
theorem C103_null {h : Str → Nat} {w : LitM.World} (hw : LitM.Reachable h w) {op : LitM.Op} (hl : LitM.Legal w op)
    (hc : Calm w.mem op) (ho : Makes' op) {s : Mem} (hs : LitM.step h w.mem op = some (s, .ptr none)) :
    s.lits = w.mem.lits ∧ s.dts = w.mem.dts ∧ ∀ a, s.str.text a = w.mem.str.text a ∧
      (s.str.cells a).map (·.rc) = (w.mem.str.cells a).map (·.rc) := by
  have I := LitM.reachable_inv hw
  obtain ⟨s', r, x, c, t, e, h1, B, _⟩ := made I ho hl hc
  rw [hs] at e; cases e
  rcases B with ⟨_, h2, h3, R⟩ | ⟨k, e, _⟩
  · refine ⟨h2, h3, fun a => ?_⟩
    have c1 := C72_counts I.reach a
    have c2 := C72_counts R.reach a
    dsimp only at c1 c2
    rw [show s.str.empty = w.mem.str.empty from R.empty] at c2
    cases ea : w.mem.str.cells a with
    | none =>
      have : s.str.cells a = none := by
        cases eb : s.str.cells a with
        | none => rfl
        | some k =>
          have := c1.1.2 (c2.1.1 (by rw [eb]; exact fun e => by cases e))
          exact absurd ea this
      rw [this]
      simp [St.text, this, ea]
    | some k =>
      obtain ⟨k', h4, h5, h6, _⟩ := R.keep a k ea
      have h4 : s.str.cells a = some k' := h4
      rw [text_eq ea, text_eq h4, h5]
      refine ⟨h6, ?_⟩
      rw [h4, Option.map_some, Option.map_some, c1.2 k ea, c2.2 k' h4]
  · cases e

/-- C103: literals are equal for `cowl_literal_equals`, which compares tags by address, if and only
if they have the same value and tag. -/
theorem C103_equal {h : Str → Nat} {w : LitM.World} (hw : LitM.Reachable h w) {a b : Nat}
    (ha : w.mem.lit a ≠ none) (hb : w.mem.lit b ≠ none) :
    ∃ e, litEquals w.mem a b = some e ∧ (e = true ↔ content w.mem a = content w.mem b) := by
  have I := LitM.reachable_inv hw
  obtain ⟨k, hk⟩ := Option.ne_none_iff_exists'.1 ha
  obtain ⟨l, hl⟩ := Option.ne_none_iff_exists'.1 hb
  obtain ⟨c, hc⟩ := I.text (lookup_mem hk)
  obtain ⟨d, hd⟩ := I.text (lookup_mem hl)
  obtain ⟨t, ht⟩ := I.tag _ (lookup_mem hk)
  obtain ⟨u, hu⟩ := I.tag _ (lookup_mem hl)
  rw [content_eq hk hc ht, content_eq hl hd hu]
  have htag : k.arg = l.arg ↔ t = u := by
    cases t with
    | dt i =>
      cases u with
      | dt j => rw [ht.2, hu.2]; constructor <;> (intro e; cases e; rfl)
      | lang y =>
        obtain ⟨_, x, e, _⟩ := hu
        rw [ht.2, e]; constructor <;> (intro e; cases e)
    | lang y =>
      obtain ⟨_, x, e, h1, h2⟩ := ht
      cases u with
      | dt j => rw [hu.2, e]; constructor <;> (intro e; cases e)
      | lang z =>
        obtain ⟨_, x', e', h1', h2'⟩ := hu
        rw [e, e']
        constructor
        · intro e1; cases e1
          have h2 : w.mem.str.text x = some y := h2
          rw [h2] at h2'; cases h2'; rfl
        · intro e1; cases e1
          rw [C72_unique I.reach h1 h1' (by show w.mem.str.text x = w.mem.str.text x'; rw [h2, h2'])]
  unfold litEquals
  rw [hk, Option.bind_some, hl, Option.bind_some]
  by_cases he : k.arg = l.arg
  · rw [if_pos he]
    obtain ⟨kc, hkc, hkt⟩ := Option.bind_eq_some_iff.1 hc
    obtain ⟨lc, hlc, hlt⟩ := Option.bind_eq_some_iff.1 hd
    unfold strEquals
    rw [hkc, Option.bind_some, hlc, Option.bind_some, hkt, Option.bind_some, hlt, Option.map_some]
    refine ⟨_, rfl, ?_⟩
    have J := SBuf.reachable_inv I.reach
    have e1 := J.hash _ kc c hkc hkt
    have e2 := J.hash _ lc d hlc hlt
    rw [e1, e2, htag.1 he]
    simp only [Bool.and_eq_true, decide_eq_true_eq, Option.some.injEq, Prod.mk.injEq, and_true]
    exact ⟨fun x => x.2, fun x => ⟨by rw [x], x⟩⟩
  · rw [if_neg he]
    refine ⟨false, rfl, ?_⟩
    simp only [Bool.false_eq_true, Option.some.injEq, Prod.mk.injEq, false_iff, not_and]
    exact fun _ e => he (htag.2 e)

/-- C103: if the client has given up all it owned, no literal is left, and no string when the
library is closed. -/
theorem C103_end {h : Str → Nat} {w : LitM.World} (hw : LitM.Reachable h w) (hx : ∀ a, w.ext a = 0)
    (hc : ∀ b, w.cli b = false) (hl : ∀ a, w.lext a = 0) (hd : ∀ i, w.dref i = 0) :
    w.mem.lits = [] ∧ (∀ i, w.mem.dts i = voc i) ∧
      ∃ s, apiDeinit w.mem.str = some s ∧ (∀ a, s.cells a = none) ∧ (∀ b, s.bufs b = none) ∧ s.tbl = [] := by
  have I := LitM.reachable_inv hw
  have h0 : w.mem.lits = [] := by
    cases e : w.mem.lits with
    | nil => rfl
    | cons p l =>
      have := I.rc p (by rw [e]; exact .head _)
      rw [hl] at this; omega
  refine ⟨h0, fun i => ?_, C72_end I.reach (fun a => ?_) hc⟩
  · rw [I.dt i, hd, h0]; simp [dtUses]
  · show w.ext a + uses w.mem.lits a = 0
    rw [hx, h0]; simp [uses]

/-- C103: a call that asks for a literal, for which there is memory, does not return NULL. -/
theorem C103_success {h : Str → Nat} {s s' : Mem} {op : LitM.Op} (hc : LitM.Can op) {r : Option Nat}
    (hs : LitM.step h s op = some (s', .ptr r)) : r ≠ none := by
  cases op with
  | str o => exact hc.elim
  | retain x => exact hc.elim
  | release x => exact hc.elim
  | holdDt i => exact hc.elim
  | dropDt i => exact hc.elim
  | literal m v p =>
    obtain ⟨A, hv⟩ := hc
    obtain ⟨⟨t, q⟩, h1, h2⟩ := Option.map_eq_some_iff.1 hs
    cases h2
    cases v with
    | none => exact absurd rfl hv
    | some v =>
      cases p with
      | none =>
        have h1 : stringAlloc m s v = some (s', r) := h1
        exact alloc_ample A.ok h1
      | some p =>
        cases p with
        | str l => exact lang_ample A h1
        | dt i =>
          have h1 : (if isLangDatatype i then parseLangAlloc h m s v else typedAlloc m s v i) = some (s', r) := h1
          by_cases hi : isLangDatatype i = true
          · rw [if_pos hi] at h1; exact parse_ample A h1
          · rw [if_neg hi] at h1; exact alloc_ample A.ok h1
  | plain m u =>
    obtain ⟨A, hu⟩ := hc
    obtain ⟨⟨t, q⟩, h1, h2⟩ := Option.map_eq_some_iff.1 hs
    cases h2
    exact with_ample A hu (fun _ _ _ _ e => alloc_ample A.ok e) h1
  | typed m u i =>
    obtain ⟨A, hu⟩ := hc
    obtain ⟨⟨t, q⟩, h1, h2⟩ := Option.map_eq_some_iff.1 hs
    cases h2
    exact with_ample A hu (fun _ _ _ _ e => alloc_ample A.ok e) h1
  | lang m m' u l =>
    obtain ⟨A, A', hu, hl⟩ := hc
    obtain ⟨⟨t, q⟩, h1, h2⟩ := Option.map_eq_some_iff.1 hs
    cases h2
    refine with_ample A hu (fun t v t' r e => ?_) h1
    obtain ⟨⟨t2, q⟩, h3, h4⟩ := Option.bind_eq_some_iff.1 e
    rw [A.tput, A.tok] at h3
    cases q with
    | none => exact absurd rfl (opt_ample hl (fun _ => A.tw) h3)
    | some l' =>
      obtain ⟨⟨t', r'⟩, h5, h6⟩ := Option.bind_eq_some_iff.1 h4
      obtain ⟨t'', _, h7⟩ := Option.map_eq_some_iff.1 h6
      cases h7
      exact lang_ample A' h5

namespace LitM

/-- Outcomes of allocations: the value at 1, with its text at 11; the tag at 2, in the object
itself; the literal at 5. -/
def sample (ok : Bool) : Alloc := ⟨.at' 11, true, 1, .inl, true, true, 2, ok, 5⟩

/-- Outcomes of later allocations. -/
def sample' (ok : Bool) : Alloc := ⟨.no, false, 3, .inl, true, true, 4, ok, 5⟩

theorem sample_fair (h : Str → Nat) (ok : Bool) : Fair (init h 0) (sample ok) where
  va := rfl
  ta := rfl
  vta := show 1 ≠ 2 by decide
  vw := rfl
  tw := trivial
  vtw := fun _ _ e => nomatch e
  a := rfl

theorem sample_fair' (h : Str → Nat) (ok : Bool) : Fair (init h 0) (sample' ok) where
  va := rfl
  ta := rfl
  vta := show 3 ≠ 4 by decide
  vw := trivial
  tw := trivial
  vtw := fun _ _ e => nomatch e
  a := rfl

theorem sample_apart (ok ok' : Bool) : Apart (sample ok) (sample' ok') where
  va := show 4 ≠ 1 by decide
  ta := show 4 ≠ 2 by decide
  vw := fun _ _ e => nomatch e
  tw := fun _ _ e => nomatch e

theorem sample_ample : Ample (sample true) :=
  ⟨(fun e => nomatch e), rfl, (fun e => nomatch e), rfl, rfl, rfl⟩

/-- After the initialisation of the library. -/
def start (h : Str → Nat) : World := ⟨init h 0, fun _ => 0, fun _ => false, fun _ => 0, fun _ => 0⟩

theorem start_dt (h : Str → Nat) {i : Iri} (hi : i = xsdString ∨ i = rdfLangString ∨ i = rdfPlainLiteral) :
    0 < (start h).mem.dts i := by
  show 0 < if i = xsdString ∨ i = rdfLangString ∨ i = rdfPlainLiteral then 1 else 0
  rw [if_pos hi]; exact Nat.one_pos

theorem start_legal (h : Str → Nat) (ok : Bool) (u l : Str) :
    Legal (start h) (.lang (sample true) (sample' ok) (.inl u) (.inl l)) :=
  ⟨sample_fair h _, sample_fair' h _, sample_apart _ _, ⟨_, rfl⟩, _, rfl⟩

end LitM

/-- C103 does not hold as stated: if there is no memory for a literal with a language tag, the
library sets a bit of NULL; and a literal of type rdf:PlainLiteral without a tag is given NULL as a
tag, which is retained. -/
theorem C103_fails (h : Str → Nat) :
    ∃ w, LitM.Reachable h w ∧
      (∃ op, op = .lang (sample true) (sample' false) (.inl [120]) (.inl [101, 110]) ∧ LitM.Legal w op ∧
        LitM.step h w.mem op = none) ∧
      ∃ op, op = .literal (sample true) (some 0) (some (.dt rdfPlainLiteral)) ∧ LitM.Legal w op ∧ LitM.Can op ∧
        LitM.step h w.mem op = none := by
  have hp : isLangDatatype rdfPlainLiteral = true := by decide +kernel
  refine ⟨start h, .init 0, ⟨_, rfl, start_legal h _ _ _, ?_⟩, ⟨_, rfl, ⟨sample_fair h _, ?_, ?_⟩, ⟨sample_ample, ?_⟩, ?_⟩⟩
  · rfl
  · intro a e; cases e; exact fun e => nomatch e
  · intro q e; cases e; exact start_dt h (.inr (.inr rfl))
  · exact fun e => nomatch e
  · have e : LitM.literal h (sample true) (init h 0) (some 0) (some (.dt rdfPlainLiteral)) =
        parseLangAlloc h (sample true) (init h 0) 0 := by
      show (if isLangDatatype rdfPlainLiteral then parseLangAlloc h (sample true) (init h 0) 0
        else typedAlloc (sample true) (init h 0) 0 rdfPlainLiteral) = _
      exact if_pos hp
    show (LitM.literal h (sample true) (init h 0) (some 0) (some (.dt rdfPlainLiteral))).map
      (fun x : Mem × Option Nat => (x.1, LitM.Res.ptr x.2)) = none
    rw [e]
    rfl

/-- A literal of English is made and released; nothing is left of it. -/
example : ∃ w w' s, LitM.Reachable List.length w ∧ w.lext 5 = 1 ∧
    content w.mem 5 = some ([120], .lang [101, 110]) ∧ LitM.Reachable List.length w' ∧ w'.mem.lits = [] ∧
    w'.ext = (fun _ => 0) ∧ w'.lext 5 = 0 ∧ apiDeinit w'.mem.str = some s ∧ s.tbl = [] := by
  have h1 := LitM.Reachable.step (h := List.length) (.init 0) (start_legal _ true [120] [69, 78]) (fun _ => rfl) rfl
  have h2 := h1.step (op := .release 5) (show 0 < 1 by decide) trivial rfl
  exact ⟨_, _, _, h1, rfl, rfl, h2, rfl, rfl, rfl, rfl, rfl⟩

/-- A call that can be made, runs into no error and asks for something. -/
example (h : Str → Nat) : ∃ op, LitM.Legal (start h) op ∧ Calm (start h).mem op ∧ Makes' op ∧
    LitM.Asks (start h).mem op (Cowl.literal [120] (.lang [69, 78])) :=
  ⟨_, start_legal h true [120] [69, 78], fun _ => rfl, trivial, .langFrom rfl rfl⟩

end Cowl
