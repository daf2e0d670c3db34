import Verif.HeapOomLemmas
/-! # C71: instance tables when memory is lacking -/
namespace Cowl.Heap

/-- The calls a client may make, as for `Verif/HeapSpec.lean`. -/
def MLegal (s : St) : MOp → Prop
  | .call _ op => Legal s op
  | .generate _ a1 a _ => ¬ Live s a1 ∧ ¬ Live s a ∧ a1 ≠ a

/-- The copy of the id of an anonymous individual can be made, if there is memory for the
individual. -/
def Fine : MOp → Prop
  | .call m (.anonFromString _ _ _) => m.obj = true → m.str1 = true ∧ m.dup = true
  | _ => True

/-- The states that can be reached by such calls, whatever allocations fail. -/
inductive MReachable : St → Prop
  | init (e : Nat) : MReachable (init e)
  | step {s s' : St} {op : MOp} {r : Option Nat} (h : MReachable s) (hl : MLegal s op) (hf : Fine op)
      (hs : mStep s op = some (s', r)) : MReachable s'

theorem call_part {s : St} (h : Reachable s) {m : Mem} {op : Op} (hl : Legal s op) (hf : Fine (.call m op)) :
    Part s (step s op) (mStep s (.call m op)) := by
  cases op with
  | newString a c => exact mNewString_part h m.str1 hl c
  | newIntern a c => exact mNewIntern_part h m.put1 m.str1 hl c
  | intern x => exact mIntern_part h m.putNs hl
  | iriUnvalidated a n r => exact mIriUnvalidated_part h m hl
  | iri a1 a2 a3 p q => exact mIri_part h m hl
  | iriFromStr a1 a2 a3 c => exact mIriFromStr_part h m hl
  | entity a k i => exact mEntity_part h m hl
  | anonInd a id => exact mAnonInd_part h m hl
  | anonFromString a1 a c => exact mAnonFromString_part h m hl hf
  | retain x =>
    have h1 := C04_no_ub h hl
    have : mStep s (.call m (.retain x)) = (step s (.retain x)).map fun p => (p.1, some p.2) := by
      show (retain s x).map _ = ((retain s x).map _).map _
      cases retain s x <;> rfl
    rw [this]; exact .self h1
  | release x =>
    have h1 := C04_no_ub h hl
    have : mStep s (.call m (.release x)) = (step s (.release x)).map fun p => (p.1, some p.2) := by
      show (release s x).map _ = ((release s x).map _).map _
      cases release s x <;> rfl
    rw [this]; exact .self h1

/-- What a call does. -/
theorem mStep_spec {s : St} (h : Reachable s) {op : MOp} (hl : MLegal s op) (hf : Fine op) :
    ∃ s' r, mStep s op = some (s', r) ∧ Reachable s' ∧ (r = none → Gain s s' []) := by
  cases op with
  | call m op =>
    obtain ⟨s', r, e, h1, h2⟩ := call_part h hl hf
    refine ⟨s', r, e, ?_, h2⟩
    cases r with
    | none => exact (h2 rfl).reach
    | some x => exact .step h hl (h1 x rfl)
  | generate m a1 a ids =>
    obtain ⟨s', r, e, h1, h2⟩ := mGenerate_spec h m hl.1 hl.2.1 hl.2.2 ids
    refine ⟨s', r, e, ?_, h1⟩
    cases r with
    | none => exact (h1 rfl).reach
    | some x => exact (h2 x rfl).2.1.reach

/-- C71: lack of memory does not lead to states that could not be reached otherwise. -/
theorem C71_reachable {s : St} (h : MReachable s) : Reachable s := by
  induction h with
  | init e => exact .init e
  | step h hl hf hs ih =>
    obtain ⟨_, _, e, hr, _⟩ := mStep_spec ih hl hf
    rw [hs] at e; cases e; exact hr

/-- C71, in part: a call is not undefined, whatever allocations fail, unless it creates an
anonymous individual from a text and cannot copy the text. -/
theorem C71_partial {s : St} (h : MReachable s) {op : MOp} (hl : MLegal s op) (hf : Fine op) :
    ∃ s' r, mStep s op = some (s', r) := by
  obtain ⟨s', r, e, _⟩ := mStep_spec (C71_reachable h) hl hf
  exact ⟨s', r, e⟩

/-- C71: a call that returns NULL has changed nothing: the objects are the same as before, with
the same values, counts and references owned by the client. -/
theorem C71_null {s s' : St} (h : MReachable s) {op : MOp} (hl : MLegal s op) (hf : Fine op)
    (hs : mStep s op = some (s', none)) :
    (∀ b, Live s' b ↔ Live s b) ∧ (∀ b v, Denotes s' b v ↔ Denotes s b v) ∧
      (∀ b, Live s b → s'.rc b = s.rc b) ∧ s'.ext = s.ext := by
  have hr := C71_reachable h
  obtain ⟨_, _, e, _, hn⟩ := mStep_spec hr hl hf
  rw [hs] at e; cases e
  have G := hn rfl
  refine ⟨fun b => ?_, fun b v => G.denotes hr b v, fun b hb => G.counts hr hb, ?_⟩
  · rw [(C04_live hr b).2, (C04_live G.reach b).2]
    exact exists_congr fun v => G.denotes hr b v
  · funext b; simpa using G.ext b

/-- C71: a call that returns an object does what it does when there is no lack of memory; the
object has the value it has to have, and the client owns one more reference to it. -/
theorem C71_result {s s' : St} (h : MReachable s) {m : Mem} {op : Op} {r : Nat} (hl : Legal s op)
    (hf : Fine (.call m op)) (hs : mStep s (.call m op) = some (s', some r)) :
    step s op = some (s', r) ∧ s'.ext = ownedAfter s.ext op r ∧
      ((∀ x, op ≠ .release x) → ∃ v, Returns s op v ∧ Denotes s' r v) := by
  have hr := C71_reachable h
  obtain ⟨_, _, e, h1, _⟩ := call_part hr hl hf
  rw [hs] at e; cases e
  have e1 := h1 r rfl
  exact ⟨e1, C04_ownership hr hl e1, C04_result hr hl e1⟩

/-- Results of a call without lack of memory, as those of one with. -/
def lift : Option (St × Nat) → Option (St × Option Nat) := Option.map fun p => (p.1, some p.2)

theorem full_newString (s : St) (a : Nat) (c : Str) : mNewString true s a c = lift (newString s a c) := by
  unfold mNewString newString lift
  split
  · cases retain s s.empty <;> rfl
  · rfl

theorem full_newIntern (s : St) (a : Nat) (c : Str) : mNewIntern true true s a c = lift (newIntern s a c) := by
  unfold mNewIntern newIntern lift
  split
  · cases retain s s.empty <;> rfl
  · rw [if_neg (by decide)]
    cases s.strT.find? fun b => s.content b == some c with
    | some b => dsimp only; cases retain s b <;> rfl
    | none => rfl

theorem full_intern (s : St) (a : Nat) : mIntern true s a = lift (intern s a) := by
  unfold mIntern intern
  cases s.cellOf a with
  | none => rfl
  | some z =>
    cases z with
    | str c i =>
      dsimp only
      split
      · rfl
      · split
        · rfl
        · rw [if_neg (by decide)]
          cases s.strT.find? fun b => s.content b == some c <;> rfl
    | _ => rfl

theorem full_iriUnvalidated (s : St) (a n r : Nat) :
    mIriUnvalidated .full s a n r = lift (iriUnvalidated s a n r) := by
  unfold mIriUnvalidated iriUnvalidated
  rw [show Mem.full.putNs = true from rfl, full_intern]
  cases intern s n with
  | none => rfl
  | some p =>
    obtain ⟨s, n⟩ := p
    dsimp only [lift, Option.map_some, Option.bind_some]
    cases s.content r with
    | none => rfl
    | some c =>
      dsimp only
      rw [if_neg (by decide)]
      cases s.iriT.find? (s.iriIs n (some c)) with
      | some b => dsimp only; cases retain s b <;> rfl
      | none =>
        dsimp only
        rw [if_neg (by decide)]
        cases s.cellOf n <;> rfl

theorem full_finish (s : St) (a x y : Nat) : mFinish .full s a (some x) (some y) =
    lift ((iriUnvalidated s a x y).bind fun (s, r) =>
      (release s x).bind fun s => (release s y).map fun s => (s, r)) := by
  unfold mFinish
  dsimp only
  rw [full_iriUnvalidated]
  cases iriUnvalidated s a x y with
  | none => rfl
  | some p =>
    obtain ⟨s, r⟩ := p
    dsimp only [lift, Option.map_some, Option.bind_some, releaseOpt]
    cases release s x with
    | none => rfl
    | some s => dsimp only [Option.bind_some]; cases release s y <;> rfl

theorem full_iri (s : St) (a1 a2 a3 p q : Nat) : mIri .full s a1 a2 a3 p q = lift (iri s a1 a2 a3 p q) := by
  unfold mIri iri
  cases s.content p with
  | none => rfl
  | some cp =>
  cases s.content q with
  | none => rfl
  | some cq =>
    dsimp only
    split
    · rw [if_neg (by decide), show Mem.full.str1 = true from rfl, full_newString]
      cases newString s a1 (cp ++ cq.take (nsLength cq)) with
      | none => rfl
      | some z =>
        obtain ⟨s, x⟩ := z
        dsimp only [lift, Option.map_some, Option.bind_some]
        rw [show Mem.full.str2 = true from rfl, full_newString]
        cases newString s a2 (cq.drop (nsLength cq)) with
        | none => rfl
        | some z => exact full_finish z.1 a3 x z.2
    · split
      · rw [if_neg (by decide), show Mem.full.str1 = true from rfl, show Mem.full.put1 = true from rfl,
          full_newIntern]
        cases newIntern s a1 (cp.take (nsLength cp)) with
        | none => rfl
        | some z =>
          obtain ⟨s, x⟩ := z
          dsimp only [lift, Option.map_some, Option.bind_some]
          rw [show Mem.full.str2 = true from rfl, full_newString]
          cases newString s a2 (cp.drop (nsLength cp) ++ cq) with
          | none => rfl
          | some z => exact full_finish z.1 a3 x z.2
      · cases retain s p with
        | none => rfl
        | some s =>
          dsimp only [Option.bind_some]
          cases retain s q with
          | none => rfl
          | some s => exact full_finish s a3 p q

theorem full_iriFromStr (s : St) (a1 a2 a3 : Nat) {c : Str} (hc : c ≠ []) :
    mIriFromStr .full s a1 a2 a3 c = lift (iriFromStr s a1 a2 a3 c) := by
  unfold mIriFromStr iriFromStr
  rw [if_neg hc]
  dsimp only
  have key : ∀ d, ((mNewString Mem.full.str1 s a1 d).bind fun (s, y) =>
      (mNewIntern Mem.full.put1 Mem.full.str2 s a2 (c.take (nsLength c))).bind fun (s, x) =>
        mFinish .full s a3 x y) =
      lift ((newString s a1 d).bind fun (s, y) =>
        (newIntern s a2 (c.take (nsLength c))).bind fun (s, x) =>
          (iriUnvalidated s a3 x y).bind fun (s, r) =>
            (release s x).bind fun s => (release s y).map fun s => (s, r)) := by
    intro d
    rw [show Mem.full.str1 = true from rfl, full_newString]
    cases newString s a1 d with
    | none => rfl
    | some z =>
      obtain ⟨s, y⟩ := z
      dsimp only [lift, Option.map_some, Option.bind_some]
      rw [show Mem.full.put1 = true from rfl, show Mem.full.str2 = true from rfl, full_newIntern]
      cases newIntern s a2 (c.take (nsLength c)) with
      | none => rfl
      | some z => exact full_finish z.1 a3 z.2 y
  split
  · exact key _
  · exact key _

theorem full_entity (s : St) (a : Nat) (k : EntKind) (i : Nat) :
    mEntity .full s a k i = lift (entity s a k i) := by
  unfold mEntity entity
  cases s.cellOf i with
  | none => rfl
  | some z =>
    cases z with
    | iri n r =>
      dsimp only
      rw [if_neg (by decide)]
      cases s.entT.find? (s.entIs k i) with
      | some b => dsimp only; cases retain s b <;> rfl
      | none => rfl
    | _ => rfl

theorem full_anonInd (s : St) (a i : Nat) : mAnonInd .full s a i = lift (anonInd s a i) := by
  unfold mAnonInd anonInd
  cases s.content i with
  | none => rfl
  | some c =>
    dsimp only
    rw [if_neg (by decide)]
    cases s.anonT.find? (s.anonIs (some c)) with
    | some b => dsimp only; cases retain s b <;> rfl
    | none => rfl

theorem full_anonFromString (s : St) (a1 a : Nat) (c : Str) :
    mAnonFromString .full s a1 a c = lift (anonFromString s a1 a c) := by
  unfold mAnonFromString anonFromString lift
  rw [if_neg (by decide)]
  cases s.anonT.find? (s.anonIs (some c)) with
  | some b => dsimp only; cases retain s b <;> rfl
  | none =>
    dsimp only
    rw [if_neg (by decide), if_neg (by decide), if_pos (show Mem.full.dup = true from rfl)]
    generalize release _ a1 = z
    cases z <;> rfl

/-- C71: with enough memory a call never returns NULL, and does what it does in C04. -/
theorem C71_enough {s : St} (h : MReachable s) {op : Op} (hl : Legal s op) :
    ∃ s' r, step s op = some (s', r) ∧ mStep s (.call .full op) = some (s', some r) := by
  obtain ⟨s', r, e⟩ := C04_no_ub (C71_reachable h) hl
  refine ⟨s', r, e, ?_⟩
  have : mStep s (.call .full op) = lift (step s op) := by
    cases op with
    | newString a c => exact full_newString s a c
    | newIntern a c => exact full_newIntern s a c
    | intern x => exact full_intern s x
    | iriUnvalidated a n r => exact full_iriUnvalidated s a n r
    | iri a1 a2 a3 p q => exact full_iri s a1 a2 a3 p q
    | iriFromStr a1 a2 a3 c => exact full_iriFromStr s a1 a2 a3 hl.2.2.2.2.2.2
    | entity a k i => exact full_entity s a k i
    | anonInd a i => exact full_anonInd s a i
    | anonFromString a1 a c => exact full_anonFromString s a1 a c
    | retain x => show (retain s x).map _ = lift ((retain s x).map _); cases retain s x <;> rfl
    | release x => show (release s x).map _ = lift ((release s x).map _); cases release s x <;> rfl
  rw [this, e]; rfl

/-- C71: objects with the same value are the same object, for any history. -/
theorem C71_canonical {s : St} (h : MReachable s) {a b : Nat} {p : Prim} (ha : Denotes s a (.prim p))
    (hb : Denotes s b (.prim p)) : a = b := C04_canonical (C71_reachable h) ha hb

/-- C71: the objects in memory are those the client can get to, for any history; so nothing is
lost. -/
theorem C71_live {s : St} (h : MReachable s) (a : Nat) : Live s a ↔ Held s a :=
  (C04_live (C71_reachable h) a).1

/-- C71: an anonymous individual that is generated is a new one, with an id that was
generated and that no other individual has. -/
theorem C71_generate {s s' : St} (h : MReachable s) {m : Mem} {a1 a r : Nat} {ids : List (Str × Bool)}
    (hl : MLegal s (.generate m a1 a ids)) (hs : mStep s (.generate m a1 a ids) = some (s', some r)) :
    ¬ Live s r ∧ s'.ext = (fun b => if b = r then s.ext b + 1 else s.ext b) ∧
      ∃ c ∈ ids.map Prod.fst, Denotes s' r (.prim (.anon c)) ∧ ∀ b, ¬ Denotes s b (.prim (.anon c)) := by
  have hr := C71_reachable h
  obtain ⟨_, _, e, _, h2⟩ := mGenerate_spec hr m hl.1 hl.2.1 hl.2.2 ids
  rw [show mGenerate m s a1 a ids = mStep s (.generate m a1 a ids) from rfl, hs] at e; cases e
  obtain ⟨rfl, G, c, ep, hd⟩ := h2 r rfl
  obtain ⟨h3, h4⟩ := pickId_spec hr ep
  refine ⟨hl.2.1, ?_, c, h3, hd, h4⟩
  funext b
  rw [G.ext, List.count_singleton]
  by_cases hb : b = r
  · subst hb; simp
  · have : (r == b) = false := by simpa using Ne.symm hb
    simp [hb, this]

/-! ## Where it fails -/

theorem init_dead {a : Nat} (ha : a ≠ 0) : ¬ Live (init 0) a := by
  intro hl
  have hf : (a == 0) = false := by simpa using ha
  simp [Live, init, St.cellOf, List.lookup_cons, hf] at hl

/-- C71 does not hold in full: if the copy of the id cannot be allocated, NULL is retained. -/
theorem C71_fails : ∃ s op, MReachable s ∧ MLegal s op ∧ mStep s op = none :=
  ⟨init 0, .call { Mem.full with str1 := false } (.anonFromString 1 2 [97]), .init 0,
    ⟨init_dead (by decide), init_dead (by decide), by decide⟩, rfl⟩

/-- C71 does not hold in full: if the text of the id cannot be copied, the individual returned
has an empty id in place of it. -/
theorem C71_fails_id : ∃ s s' m r, MReachable s ∧ MLegal s (.call m (.anonFromString 1 2 [97])) ∧
    mStep s (.call m (.anonFromString 1 2 [97])) = some (s', some r) ∧ Denotes s' r (.prim (.anon [])) := by
  refine ⟨init 0, _, { Mem.full with dup := false }, 2, .init 0,
    ⟨init_dead (by decide), init_dead (by decide), by decide⟩, rfl, ?_⟩
  exact .anon (i := 1) rfl (.str (i := false) rfl)

/-- A history in which memory is lacking: an IRI that cannot be allocated. Its namespace has
been interned and released again. -/
example : ∃ s', mStep (init 0) (.call { Mem.full with obj := false } (.iriFromStr 1 2 3 (ascii "http://a#b"))) =
    some (s', none) ∧ MReachable s' ∧ MLegal s' (.generate .full 1 2 [(ascii "x", true)]) := by
  have hl : MLegal (init 0) (.call { Mem.full with obj := false } (.iriFromStr 1 2 3 (ascii "http://a#b"))) :=
    ⟨init_dead (by decide), init_dead (by decide), init_dead (by decide), by decide, by decide, by decide, by decide⟩
  have e : ∃ s', mStep (init 0) (.call { Mem.full with obj := false } (.iriFromStr 1 2 3 (ascii "http://a#b"))) =
    some (s', none) := ⟨_, rfl⟩
  obtain ⟨s', e⟩ := e
  have h0 := MReachable.init 0
  obtain ⟨h1, _⟩ := C71_null h0 hl trivial e
  exact ⟨s', e, .step h0 hl trivial e, fun h => init_dead (by decide) ((h1 1).1 h),
    fun h => init_dead (by decide) ((h1 2).1 h), by decide⟩

end Cowl.Heap
