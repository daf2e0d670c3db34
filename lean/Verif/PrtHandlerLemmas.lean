import Verif.PrtHandlerSpec
/-!
# Lemmas: change handlers of the ProtocOWL reader
-/
namespace Cowl.Prt
open Func (Item)

theorem feedFrom_append {σ ι : Type} (k : Callback σ ι) : ∀ (is js : List ι) (x : Ret) (c : σ), (feedFrom k x c is).2.isErr = false →
    feedFrom k x c (is ++ js) = feedFrom k (feedFrom k x c is).2 (feedFrom k x c is).1 js
  | [], _, _, _, _ => rfl
  | i :: is, js, x, c, h => by
    rw [List.cons_append]
    rw [feedFrom] at h ⊢
    rw [feedFrom]
    split
    · rename_i e
      rw [if_pos e] at h
      rw [h] at e; cases e
    · rename_i e
      rw [if_neg e] at h
      exact feedFrom_append k is js _ _ h

theorem feed_append {σ ι : Type} (k : Callback σ ι) (is js : List ι) (c : σ) (h : (feed k c is).2.isErr = false) :
    feed k c (is ++ js) = feedFrom k (feed k c is).2 (feed k c is).1 js := feedFrom_append k is js _ c h

theorem feedFrom_stop {σ ι : Type} (k : Callback σ ι) : ∀ (is js : List ι) (x : Ret) (c : σ), x.isErr = false →
    (feedFrom k x c is).2.isErr = true → feedFrom k x c (is ++ js) = feedFrom k x c is
  | [], _, x, _, hx, h => by rw [feedFrom] at h; rw [h] at hx; cases hx
  | i :: is, js, x, c, hx, h => by
    rw [List.cons_append]
    rw [feedFrom] at h ⊢
    rw [feedFrom]
    split
    · rfl
    · rename_i e
      rw [if_neg e] at h
      exact feedFrom_stop k is js _ _ (by simpa using e) h

theorem feed_stop {σ ι : Type} (k : Callback σ ι) (is js : List ι) (c : σ) (h : (feed k c is).2.isErr = true) :
    feed k c (is ++ js) = feed k c is := feedFrom_stop k is js _ c rfl h

section
variable {σ : Type} {k : Callback σ (Bool × Item)} {c0 : σ}

/-- What was noted. -/
def FRes.log : FRes (List (Bool × Item)) → List (Bool × Item)
  | .go s => s.ctx
  | .stop c _ => c

/-- The code that the decoder holds: the last one of the handler, or OK in place of NO. -/
def Held (x y : Ret) : Prop := x.isErr = false ∧ (y = x ∨ x = .no ∧ y = .ok)

theorem Held.ok {x y : Ret} (h : Held x y) : Held x .ok := by
  refine ⟨h.1, ?_⟩
  cases x with
  | ok => exact .inl rfl
  | no => exact .inr ⟨rfl, rfl⟩
  | _ => cases h.1

/-- A handler is in step with the notes. -/
structure InStep (k : Callback σ (Bool × Item)) (c0 : σ) (s : FSt (List (Bool × Item))) (s' : FSt σ) : Prop where
  dec : s.dec = s'.dec
  remove : s.remove = s'.remove
  code : s.code = .ok
  fed : ∃ x, feed k c0 s.ctx = (s'.ctx, x) ∧ Held x s'.code

/-- The same for results; a handler may have stopped before. -/
inductive Alike (k : Callback σ (Bool × Item)) (c0 : σ) : FRes (List (Bool × Item)) → FRes σ → Prop
  | go {s s'} : InStep k c0 s s' → Alike k c0 (.go s) (.go s')
  | stop {l c e x} : feed k c0 l = (c, x) → x.isErr = false → Alike k c0 (.stop l e) (.stop c e)
  | ended {l c x y} : feed k c0 l = (c, x) → Held x y → Alike k c0 (.stop l .done) (.stop c (ended y))
  | refused {r c x} : feed k c0 r.log = (c, x) → x.isErr = true → Alike k c0 r (.stop c (.refused x))
  | late {l c x} : feed k c0 l = (c, x) → x.isErr = true → Alike k c0 (.stop l .rejected) (.stop c .rejected)

/-- A part of a frame does the same with any handler. -/
structure Fair (k : Callback σ (Bool × Item)) (c0 : σ) (f : FSt (List (Bool × Item)) → FRes (List (Bool × Item)))
    (g : FSt σ → FRes σ) : Prop where
  ext : ∀ s, ∃ m, (f s).log = s.ctx ++ m
  alike : ∀ s s', InStep k c0 s s' → Alike k c0 (f s) (g s')

theorem Fair.andThen {f f' : FSt (List (Bool × Item)) → FRes (List (Bool × Item))} {g g' : FSt σ → FRes σ}
    (h : Fair k c0 f g) (h' : Fair k c0 f' g') :
    Fair k c0 (fun s => (f s).andThen f') (fun s => (g s).andThen g') := by
  refine ⟨fun s => ?_, fun s s' hs => ?_⟩
  · obtain ⟨m, hm⟩ := h.ext s
    cases hf : f s with
    | stop c e => rw [hf] at hm; exact ⟨m, hm⟩
    | go t =>
      rw [hf] at hm
      obtain ⟨m', hm'⟩ := h'.ext t
      have hm : t.ctx = s.ctx ++ m := hm
      exact ⟨m ++ m', by rw [← List.append_assoc, ← hm]; exact hm'⟩
  · have := h.alike s s' hs
    generalize hf : f s = r, hg : g s' = r' at this
    cases this with
    | go ht => exact h'.alike _ _ ht
    | stop e n => exact .stop e n
    | ended e n => exact .ended e n
    | late e n => exact .late e n
    | refused e n =>
      refine .refused ?_ n
      cases r with
      | stop c e' => exact e
      | go t =>
        obtain ⟨m, hm⟩ := h'.ext t
        have e : feed k c0 t.ctx = _ := e
        show feed k c0 (f' t).log = _
        rw [hm, feed_stop _ _ _ _ (by rw [e]; exact n), e]

theorem fair_go {f : DSt → DSt} {r : Bool → Bool} {p : Bool} :
    Fair k c0 (fun s => .go { s with dec := f s.dec, remove := r s.remove, code := if p then .ok else s.code })
      (fun s => .go { s with dec := f s.dec, remove := r s.remove, code := if p then .ok else s.code }) :=
  ⟨fun s => ⟨[], by simp [FRes.log]⟩, fun s s' ⟨h1, h2, h3, x, h4, h5⟩ => .go ⟨by rw [h1], by rw [h2], by
    dsimp only; split; rfl; exact h3, x, h4, by dsimp only; split; exact h5.ok; exact h5⟩⟩

theorem fair_id : Fair k c0 FRes.go FRes.go := fair_go (f := id) (r := id) (p := false)

theorem fair_deliver (i : Item) : Fair k c0 (deliver noteAll i) (deliver k i) := by
  refine ⟨fun s => ⟨[(s.remove, i)], rfl⟩, fun s s' ⟨h1, h2, h3, x, h4, h5⟩ => ?_⟩
  have e : deliver noteAll i s = .go { s with ctx := s.ctx ++ [(s.remove, i)], code := .ok } := rfl
  have hf : feed k c0 (s.ctx ++ [(s.remove, i)]) = k s'.ctx (s'.remove, i) := by
    rw [feed_append _ _ _ _ (by rw [h4]; exact h5.1), h4, h2]
    dsimp only [feedFrom]
    split <;> rfl
  rw [e]
  unfold deliver
  dsimp only
  split
  · rename_i h
    exact .refused hf h
  · rename_i h
    exact .go ⟨h1, h2, rfl, _, hf, by simpa using h, .inl rfl⟩

theorem Fair.get {α : Type} (x : DSt → Dec α) {f : α → FSt (List (Bool × Item)) → FRes (List (Bool × Item))} {g : α → FSt σ → FRes σ}
    (h : ∀ a, Fair k c0 (f a) (g a)) : Fair k c0 (fun s => s.get (x s.dec) f) (fun s => s.get (x s.dec) g) := by
  refine ⟨fun s => ?_, fun s s' hs => ?_⟩
  · dsimp only [FSt.get]
    split
    · exact (h _).ext _
    · exact ⟨[], by simp [FRes.log]⟩
    · exact ⟨[], by simp [FRes.log]⟩
  · obtain ⟨h1, h2, h3, y, h4, h5⟩ := hs
    dsimp only [FSt.get]
    rw [h1]
    split
    · exact (h _).alike _ _ ⟨rfl, h2, h3, y, h4, h5⟩
    · exact .stop h4 h5.1
    · exact .stop h4 h5.1

theorem Fair.times {f : FSt (List (Bool × Item)) → FRes (List (Bool × Item))} {g : FSt σ → FRes σ} (h : Fair k c0 f g) :
    ∀ n, Fair k c0 (times f n) (times g n)
  | 0 => fair_id
  | n + 1 => h.andThen (Fair.times h n)

theorem Fair.counted (E : Env) {f : FSt (List (Bool × Item)) → FRes (List (Bool × Item))} {g : FSt σ → FRes σ} (h : Fair k c0 f g) :
    Fair k c0 (counted E f) (counted E g) := Fair.get (fun _ => varint E) h.times

theorem fair_quiet (x : Dec Unit) : Fair k c0 (quiet x) (quiet x) := Fair.get (fun _ => x) fun _ => fair_id

theorem fair_afterError (i : Item) : Fair k c0 (fun s => afterError (deliver noteAll i s)) (fun s => afterError (deliver k i s)) := by
  refine ⟨fun s => ⟨[(s.remove, i)], rfl⟩, fun s s' hs => ?_⟩
  have := (fair_deliver i).alike s s' hs
  have e : deliver noteAll i s = .go { s with ctx := s.ctx ++ [(s.remove, i)], code := .ok } := rfl
  rw [e] at this ⊢
  generalize hg : deliver k i s' = r' at this
  cases this with
  | go h => obtain ⟨x, h4, h5⟩ := h.fed; exact .stop h4 h5.1
  | refused h n => exact .late h n

theorem Fair.ite {p : Bool} {f f' : FSt (List (Bool × Item)) → FRes (List (Bool × Item))} {g g' : FSt σ → FRes σ}
    (h : Fair k c0 f g) (h' : Fair k c0 f' g') : Fair k c0 (fun s => if p then f s else f' s) (fun s => if p then g s else g' s) := by
  cases p
  · exact h'
  · exact h

theorem fair_ended : Fair k c0 (fun s => .stop s.ctx (ended s.code)) (fun s => .stop s.ctx (ended s.code)) := by
  refine ⟨fun s => ⟨[], by simp [FRes.log]⟩, fun s s' h => ?_⟩
  obtain ⟨x, h4, h5⟩ := h.fed
  rw [h.code]
  exact .ended h4 h5

theorem fair_frameOf (E : Env) (c : UInt8) : Fair k c0 (frameOf E noteAll c) (frameOf E k c) := by
  unfold frameOf
  split
  · exact fair_go (f := id) (r := fun _ => false) (p := false)
  · exact fair_go (f := id) (r := fun _ => true) (p := false)
  · exact fair_go (f := fun d => { d with ix := d.ix.reset (bit6 c) (bit7 c) }) (r := id) (p := bit6 c || bit7 c)
  · exact fair_ended
  · exact Fair.ite (Fair.counted E (Fair.get (fun _ => decPfx E) fun d => fair_deliver (.prefixDecl d.1 d.2))) (Fair.counted E (Fair.get (fun _ => decNs E) fun _ => fair_go (f := id) (r := id) (p := true)))
  · exact Fair.ite (Fair.counted E (fair_quiet _)) (Fair.counted E (fair_quiet _))
  · refine Fair.andThen (Fair.get (fun _ => decIri E) fun i => fair_deliver (.iri i)) ?_
    exact Fair.ite (Fair.get (fun _ => decIri E) fun i => fair_deliver (.version i)) fair_id
  · exact Fair.counted E (Fair.get (fun _ => decIri E) fun i => fair_deliver (.import i))
  · exact Fair.counted E (Fair.get (fun d => decAnnot E (d.inp.length + 1)) fun a => fair_deliver (.annot a))
  · refine Fair.get (fun d => decAxiom E (d.inp.length + 1) c) fun a => ?_
    exact Fair.ite (fair_deliver (.ax a.1)) (fair_afterError (.ax a.1))

theorem fair_frame (E : Env) : Fair k c0 (frame E noteAll) (frame E k) := by
  refine ⟨fun s => ?_, fun s s' hs => ?_⟩
  · unfold frame
    split
    · exact ⟨[], by simp [FRes.log]⟩
    · exact (fair_frameOf (k := k) (c0 := c0) E _).ext _
  · unfold frame
    rw [hs.dec]
    split
    · exact fair_ended.alike _ _ hs
    · exact (fair_frameOf E _).alike _ _ ⟨rfl, hs.remove, hs.code, hs.fed⟩

/-- The notes only grow. -/
theorem frames_log (E : Env) : ∀ (n : Nat) (s : FSt (List (Bool × Item))), ∃ m, (frames E noteAll n s).1 = s.ctx ++ m
  | 0, s => ⟨[], by simp [frames]⟩
  | n + 1, s => by
    obtain ⟨m, hm⟩ := (fair_frame (k := noteAll) (c0 := []) E).ext s
    unfold frames
    split
    · rename_i t e
      rw [e] at hm
      obtain ⟨m', hm'⟩ := frames_log E n t
      have hm : t.ctx = s.ctx ++ m := hm
      exact ⟨m ++ m', by rw [← List.append_assoc, ← hm]; exact hm'⟩
    · rename_i c r e
      rw [e] at hm
      exact ⟨m, hm⟩

theorem frames_seen (E : Env) : ∀ (n : Nat) (s : FSt (List (Bool × Item))) (s' : FSt σ), InStep k c0 s s' →
    Seen k c0 (frames E noteAll n s) (frames E k n s')
  | 0, s, s', h => by
    obtain ⟨x, h4, h5⟩ := h.fed
    refine ⟨by simp [frames, h4], fun _ => .inl rfl, fun h' => ?_⟩
    rw [show (frames E noteAll 0 s).1 = s.ctx from rfl, h4, h5.1] at h'
    cases h'
  | n + 1, s, s', h => by
    have := (fair_frame E).alike s s' h
    unfold frames
    generalize hf : frame E noteAll s = r, hg : frame E k s' = r' at this
    cases this with
    | go ht => exact frames_seen E n _ _ ht
    | stop e hx => exact ⟨by simp [e], fun _ => .inl rfl, fun h' => by simp [e, hx] at h'⟩
    | @ended l c x y e hx =>
      refine ⟨by simp [e], fun _ => ?_, fun h' => by simp [e, hx.1] at h'⟩
      obtain ⟨hx, hy⟩ := hx
      cases x with
      | ok =>
        rcases hy with h | ⟨h, -⟩
        · rw [h]; exact .inl rfl
        · cases h
      | no =>
        rcases hy with h | ⟨-, h⟩
        · rw [h]; exact .inr ⟨rfl, by simp [e], rfl⟩
        · rw [h]; exact .inl rfl
      | _ => cases hx
    | late e n => exact ⟨by simp [e], fun h' => by simp [e, n] at h', fun _ => .inr ⟨rfl, rfl⟩⟩
    | @refused _ c x e hn =>
      have key : ∀ q : List (Bool × Item) × End, feed k c0 q.1 = (c, x) → Seen k c0 q (c, .refused x) := by
        intro q hq
        refine ⟨by rw [hq], fun h' => ?_, fun _ => .inl (by rw [hq])⟩
        rw [hq] at h'
        rw [hn] at h'; cases h'
      apply key
      cases r with
      | stop l e' => exact e
      | go t =>
        have e : feed k c0 t.ctx = _ := e
        obtain ⟨m, hm⟩ := frames_log E n t
        dsimp only
        rw [hm, feed_stop _ _ _ _ (by rw [e]; exact hn), e]

end
end Cowl.Prt
