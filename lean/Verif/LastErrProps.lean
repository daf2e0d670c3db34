import Verif.LastErrSpec
import Verif.FuncTellProps
import Verif.UintTextProps
/-! # C60 and C61: errors of readers -/
namespace Cowl
open Change Func FuncSpec Prefix FuncTell LastErr

/-! ## C60 -/

theorem acts_stream : ∀ (as : List Act) (e : Err), (∀ r, Act.stream r ∈ as → r.isErr = false) →
    (acts as (e, .ok)).2.isErr = false := by
  have : ∀ (as : List Act) (e : Err) (r : Ret), r.isErr = false → (∀ r, Act.stream r ∈ as → r.isErr = false) →
      (acts as (e, r)).2.isErr = false := by
    intro as
    induction as with
    | nil => exact fun _ _ h _ => h
    | cons a as ih =>
      intro e r h hs
      cases a with
      | report r' m => exact ih _ _ h fun r h => hs r (List.mem_cons_of_mem _ h)
      | stream r' => exact ih _ _ (hs r' List.mem_cons_self) fun r h => hs r (List.mem_cons_of_mem _ h)
  exact fun as e h => this as e .ok rfl h

theorem acts_stuck : ∀ (as : List Act) (e : Err) (r : Ret), e.code.isErr = true → (acts as (e, r)).1 = e
  | [], _, _, _ => rfl
  | .report r' m :: as, e, r, h => by
    show (acts as (e.handle r' m, r)).1 = e
    have : e.handle r' m = e := if_pos h
    rw [this]
    exact acts_stuck as e r h
  | .stream r' :: as, e, r, h => acts_stuck as e r' h

theorem acts_deciding : ∀ (as : List Act) (e : Err) (r : Ret), e.code.isErr = false →
    (acts as (e, r)).1 = match deciding (reports as) with | none => e | some x => .mk' x.1 x.2
  | [], _, _, _ => rfl
  | .stream r' :: as, e, r, h => acts_deciding as e r' h
  | .report r' m :: as, e, r, h => by
    show (acts as (e.handle r' m, r)).1 = match deciding ((r', m) :: reports as) with | none => e | some x => Err.mk' x.1 x.2
    have e1 : e.handle r' m = .mk' r' m := if_neg (by rw [h]; nofun)
    rw [e1]
    by_cases hr : r'.isErr = true
    · rw [acts_stuck as _ r hr]
      show _ = match (if r'.isErr then some (r', m) else _) with | none => e | some x => Err.mk' x.1 x.2
      rw [if_pos hr]
    · rw [acts_deciding as _ r (by show r'.isErr = false; simpa using hr)]
      show _ = match (if r'.isErr then some (r', m) else (deciding (reports as)).or (some (r', m))) with | none => e | some x => Err.mk' x.1 x.2
      rw [if_neg hr]
      cases deciding (reports as) <;> rfl

theorem prtRead_ok (e : Err) (as : List Act) (pos : Nat) : prtRead e .ok as pos =
    (if (state (acts as ({ e with code := .ok }, .ok)).1 (acts as ({ e with code := .ok }, .ok)).2).isErr then
      { (acts as ({ e with code := .ok }, .ok)).1 with byte := UInt32.ofNat pos }
    else (acts as ({ e with code := .ok }, .ok)).1,
    state (acts as ({ e with code := .ok }, .ok)).1 (acts as ({ e with code := .ok }, .ok)).2) := rfl

/-- C60 for ProtocOWL, if the stream does not fail and something is reported (the code of
any call of the handler counts): the error is that of the deciding report, whatever the reader
did before, and its code is the result. -/
theorem C60_partial {as : List Act} (hs : ∀ r, Act.stream r ∈ as → r.isErr = false) {r : Ret} {msg : Str}
    (hd : deciding (reports as) = some (r, msg)) (e : Err) (pos : Nat) :
    prtRead e .ok as pos = (⟨r, if r.isErr then UInt32.ofNat pos else 0, 0, 0, msg⟩, r) := by
  have h1 := acts_stream as { e with code := .ok } hs
  have h2 := acts_deciding as { e with code := .ok } .ok rfl
  rw [hd] at h2
  rw [prtRead_ok]
  have h3 : state (acts as ({ e with code := .ok }, .ok)).1 (acts as ({ e with code := .ok }, .ok)).2 = r := by
    unfold state
    rw [h1, h2]
    rfl
  rw [h3, h2]
  cases r.isErr <;> rfl

/-- C60 for ProtocOWL, the rest: if nothing is reported, everything but the code is left over
from earlier reads; and if the stream fails, the code of the error is not the result. -/
theorem C60_stale {as : List Act} (e : Err) (pos : Nat) :
    (reports as = [] → (∀ r, Act.stream r ∈ as → r.isErr = false) → prtRead e .ok as pos = ({ e with code := .ok }, .ok)) ∧
    (∀ r as', as = as' ++ [.stream r] → r.isErr = true → (prtRead e .ok as pos).2 = r ∧
      (prtRead e .ok as pos).1.code = ((deciding (reports as)).map Prod.fst).getD .ok) := by
  refine ⟨fun hr hs => ?_, fun r as' h hr => ?_⟩
  · have h1 := acts_stream as { e with code := .ok } hs
    have h2 := acts_deciding as { e with code := .ok } .ok rfl
    rw [hr] at h2
    rw [prtRead_ok]
    have h3 : state (acts as ({ e with code := .ok }, .ok)).1 (acts as ({ e with code := .ok }, .ok)).2 = .ok := by
      unfold state
      rw [h1, h2]
      rfl
    rw [h3, h2]
    rfl
  · have h2 := acts_deciding as { e with code := .ok } .ok rfl
    have h1 : ∀ (as' : List Act) (s : Err × Ret), (acts (as' ++ [.stream r]) s).2 = r := by
      intro as'
      induction as' with
      | nil => exact fun _ => rfl
      | cons a as' ih => intro s; cases a <;> exact ih _
    have h3 : state (acts as ({ e with code := .ok }, .ok)).1 (acts as ({ e with code := .ok }, .ok)).2 = r := by
      unfold state
      rw [h, h1, if_pos hr]
    refine ⟨h3, ?_⟩
    show (if (state (acts as ({ e with code := .ok }, .ok)).1 (acts as ({ e with code := .ok }, .ok)).2).isErr then _ else _ : Err).code = _
    rw [h3, if_pos hr]
    show (acts as ({ e with code := .ok }, .ok)).1.code = _
    rw [h2]
    cases deciding (reports as) <;> rfl

theorem tell_watch {σ : Type} (h : Callback σ Item) (l : List Item) (s : σ) :
    ((tell (watch h) l (s, .ok)).2 = none → (tell (watch h) l (s, .ok)).1.2 = .ok) ∧
    (∀ c, (tell (watch h) l (s, .ok)).2 = some c → (tell (watch h) l (s, .ok)).1.2 = .ok ∨
      ((tell (watch h) l (s, .ok)).1.2.isErr = true ∧
        c = if (tell (watch h) l (s, .ok)).1.2 = .errMem then .errMem else .errSyntax)) := by
  induction h' : l.length using Nat.strongRecOn generalizing l s with
  | _ n ih =>
    cases l with
    | nil => exact ⟨fun _ => rfl, nofun⟩
    | cons i l =>
      have hl : l.length < n := by rw [← h']; exact Nat.lt_succ_self _
      by_cases hp : ∃ p ns, i = .prefixDecl p ns
      · obtain ⟨p, ns, rfl⟩ := hp
        rw [tell]
        by_cases hr : (h s (.prefixDecl p ns)).2.isErr = true
        · have hw : watch h (s, .ok) (.prefixDecl p ns) = (((h s (.prefixDecl p ns)).1, (h s (.prefixDecl p ns)).2), (h s (.prefixDecl p ns)).2) := by
            simp only [watch, hr, if_true]
          rw [hw]
          simp only [hr, if_true]
          exact ⟨nofun, fun c hc => .inr ⟨trivial, (Option.some.inj hc).symm⟩⟩
        · have hw : watch h (s, .ok) (.prefixDecl p ns) = (((h s (.prefixDecl p ns)).1, .ok), (h s (.prefixDecl p ns)).2) := by
            simp only [watch, hr]; rfl
          rw [hw]
          simp only [hr]
          exact ih l.length hl l _ rfl
      · by_cases hv : ∃ x v l', i = .iri x ∧ l = .version v :: l'
        · obtain ⟨x, v, l', rfl, rfl⟩ := hv
          rw [tell]
          split
          · exact ih l'.length (by simp only [List.length_cons] at hl; omega) l' _ rfl
          · exact ⟨nofun, fun c _ => .inl rfl⟩
        · have hw : watch h (s, .ok) i = (((h s i).1, .ok), (h s i).2) := by
            cases i with
            | prefixDecl p ns => exact absurd ⟨p, ns, rfl⟩ hp
            | _ => rfl
          have e : tell (watch h) (i :: l) (s, .ok) =
              if (h s i).2 = .ok then tell (watch h) l ((h s i).1, .ok) else (((h s i).1, .ok), some .errSyntax) := by
            rw [tell, hw]
            · intro p ns e; exact hp ⟨p, ns, e⟩
            · intro x v l' e1 e2; exact hv ⟨x, v, l', e1, e2⟩
          rw [e]
          split
          · exact ih l.length hl l _ rfl
          · exact ⟨nofun, fun c _ => .inl rfl⟩

/-- C60 for the functional reader: the code of the last error is the result, if the text was
accepted or rejected; if the handler refused something, it is the code of the handler for a
prefix, or OK. -/
theorem C60_functional (m : PMap) (addr : Nat) (text : Str) {σ : Type} (h : Callback σ Item) (s : σ) :
    let x := funcReadErr h m addr text s
    x.2.2 = x.2.1 ∨ (x.2.1.isErr = true ∧ x.2.2 = .ok) ∨
      (x.2.2.isErr = true ∧ x.2.1 = if x.2.2 = .errMem then .errMem else .errSyntax) := by
  obtain ⟨items, acc, hf⟩ := funcRead_tells m addr text
  obtain ⟨h1, h2⟩ := tell_watch h items s
  intro x
  have hx : x = ((tell (watch h) items (s, .ok)).1.1, Reader.code (conclude acc (tell (watch h) items (s, .ok)).2),
      if conclude acc (tell (watch h) items (s, .ok)).2 = .rejected then .errSyntax else (tell (watch h) items (s, .ok)).1.2) := by
    show funcReadErr h m addr text s = _
    unfold funcReadErr Reader.funcReader
    rw [hf]
  rw [hx]
  cases e : (tell (watch h) items (s, .ok)).2 with
  | none =>
    cases acc with
    | true => left; exact h1 e
    | false => left; rfl
  | some c =>
    rcases h2 c e with h3 | ⟨h3, h4⟩
    · by_cases hc : c.isErr = true
      · exact .inr (.inl ⟨hc, h3⟩)
      · cases c with
        | ok => left; exact h3
        | no =>
          have : ∀ (l : List Item) (s : σ × Ret), (tell (watch h) l s).2 ≠ some .no := by
            intro l
            induction h' : l.length using Nat.strongRecOn generalizing l with
            | _ n ih =>
              intro s
              rw [tell.eq_def]
              split
              · nofun
              · dsimp only
                split
                · intro h; have := Option.some.inj h; split at this <;> cases this
                · exact ih _ (by rw [← h']; simp) _ rfl _
              · dsimp only
                split
                · exact ih _ (by rw [← h']; simp only [List.length_cons]; omega) _ rfl _
                · nofun
              · dsimp only
                split
                · exact ih _ (by rw [← h']; simp) _ rfl _
                · nofun
          exact absurd e (this items _)
        | _ => exact absurd rfl hc
    · exact .inr (.inr ⟨h3, h4⟩)

/-- C60 for the functional reader with a handler that accepts everything. -/
theorem C60_accepting (m : PMap) (addr : Nat) (text : Str) {σ : Type} (h : Callback σ Item) (s : σ) (ha : Accepts h) :
    (funcReadErr h m addr text s).2.2 = (funcReadErr h m addr text s).2.1 := by
  obtain ⟨items, acc, hf⟩ := C62_accepting m addr text
  have hw : Accepts (watch h) := fun s i => ha s.1 i
  have hg : ∀ (l : List Item) (x : σ × Ret), x.2 = .ok → (give (watch h) x l).2 = .ok := by
    intro l
    induction l with
    | nil => exact fun _ h => h
    | cons i l ih =>
      intro x hx
      refine ih _ ?_
      show (match i with | .prefixDecl _ _ => if (h x.1 i).2.isErr then (h x.1 i).2 else x.2 | _ => x.2) = .ok
      cases i with
      | prefixDecl p n => have h1 := ha x.1 (.prefixDecl p n); rw [h1, hx]; rfl
      | _ => exact hx
  unfold funcReadErr Reader.funcReader
  rw [hf _ _ hw]
  cases acc with
  | true => exact hg items _ rfl
  | false => rfl

/-- An error of an earlier read. -/
def earlier : Err := ⟨.errSyntax, 1, 0, 0, ascii "invalid format version 7"⟩

/-- Answers prefixes and axioms with the given codes. -/
def refusing (r0 r1 : Ret) : Callback Nat Item
  | n, .prefixDecl _ _ => (n + 1, r0)
  | n, .ax _ => (n + 1, r1)
  | n, _ => (n + 1, .ok)

/-- C60 is false as stated.
1. ProtocOWL: if the stream fails, the error is OK, with the message of an earlier read.
2. The message and the location of an earlier error are also kept if a read succeeds without
   any change.
3. Functional syntax: if the handler refuses an axiom, the result is a syntax error but the
   last error is OK.
4. For a prefix the last error has the code of the handler, and the result is another one.
5. If a file cannot be opened, the last error is that of an earlier read. -/
theorem C60_fails :
    prtRead earlier .ok [.stream .errIo] 0 = (⟨.ok, 0, 0, 0, earlier.msg⟩, .errIo) ∧
    prtRead earlier .ok [] 2 = (⟨.ok, 1, 0, 0, earlier.msg⟩, .ok) ∧
    funcReadErr (refusing .ok .errIo) (create [1, 2, 3, 4] []) 9 versioned 0 = (4, .errSyntax, .ok) ∧
    funcReadErr (refusing .errIo .ok) (create [1, 2, 3, 4] []) 9 versioned 0 = (1, .errSyntax, .errIo) ∧
    Reader.readPath (fun e => prtRead e .ok [.report .ok []] 9) .errIo .ok earlier = (earlier, .errIo) := by
  refine ⟨by decide +kernel, by decide +kernel, by decide +kernel, by decide +kernel, by decide +kernel⟩

/-- Two changes are accepted, then the input ends; the hypotheses of `C60_partial` hold. -/
example : (∀ r, Act.stream r ∈ [.report .ok [], .report .ok [], .report .errSyntax (ascii "failed to read varint"), .report .err []] →
      r.isErr = false) ∧
    deciding (reports [.report .ok [], .report .ok [], .report .errSyntax (ascii "failed to read varint"), .report .err []]) =
      some (.errSyntax, ascii "failed to read varint") :=
  ⟨by intro r h; simp at h, by decide +kernel⟩

/-! ## C61 -/

theorem writeLocs_eq : ∀ (c : Bool) (l : List (UInt32 × Str)),
    writeLocs c l = (if c then
      ((l.filter fun x => x.1 ≠ 0).map fun x => ascii ", " ++ (x.2 ++ uintToStr x.1)).flatten
      else (ascii ", ").intercalate ((l.filter fun x => x.1 ≠ 0).map fun x => x.2 ++ uintToStr x.1))
  | c, [] => by cases c <;> rfl
  | c, (v, n) :: l => by
    rw [writeLocs]
    by_cases hv : v = 0
    · rw [if_pos hv, writeLocs_eq c l]
      simp [hv]
    · rw [if_neg hv, writeLocs_eq true l]
      cases c with
      | true => simp [hv]
      | false =>
        simp only [Bool.false_eq_true, if_false, if_true, List.nil_append]
        have hf : ((v, n) :: l).filter (fun x => x.1 ≠ 0) = (v, n) :: l.filter fun x => x.1 ≠ 0 := by simp [hv]
        rw [hf]
        generalize l.filter (fun x => decide (x.1 ≠ 0)) = l'
        rw [List.map_cons]
        clear hf
        generalize n ++ uintToStr v = w
        induction l' generalizing w with
        | nil => simp [List.intercalate]
        | cons y l' ih =>
          have h3 := ih (y.2 ++ uintToStr y.1)
          simp only [List.map_cons, List.flatten_cons, List.append_assoc] at h3 ⊢
          show _ = w ++ (ascii ", " ++ (ascii ", ").intercalate ((y.2 ++ uintToStr y.1) :: l'.map fun x => x.2 ++ uintToStr x.1))
          rw [← h3]

/-- C61: the text of an error has its name, then the message if there is one, then the
locations that are known. Codes that are no errors have no text. -/
theorem C61_text (name : Ret → Str) (hn : name .errSyntax = ascii "syntax error") (e : Err) :
    (e.code.isErr = true → writeError name e = errorText name e) ∧ (e.code.isErr = false → writeError name e = []) := by
  refine ⟨fun h => ?_, fun h => by unfold writeError; rw [h]; rfl⟩
  unfold writeError errorText
  rw [if_pos h, writeLocs_eq]
  have h1 : (if e.code = .errSyntax then ascii "syntax error" else name e.code) = name e.code := by
    by_cases hc : e.code = .errSyntax
    · rw [if_pos hc, hc, hn]
    · rw [if_neg hc]
  rw [h1]
  have h2 : (if e.msg ≠ [] then ascii ": " ++ e.msg else []) = if e.msg = [] then [] else ascii ": " ++ e.msg := by
    by_cases hm : e.msg = [] <;> simp [hm]
  rw [h2]
  congr 1
  by_cases hl : e.line = 0 <;> by_cases hc : e.col = 0 <;> by_cases hb : e.byte = 0 <;>
    simp [hl, hc, hb, locText]

instance (c : UInt8) : Decidable (IsDigit c) := inferInstanceAs (Decidable (_ ∧ _))

/-- Begins with a comma or a parenthesis. -/
def Stops (s : Str) : Prop := ∃ t, s = 44 :: t ∨ s = 41 :: t

theorem uint_then {a b : UInt32} {x y : Str} (h : uintToStr a ++ x = uintToStr b ++ y) (hx : Stops x) (hy : Stops y) :
    a = b ∧ x = y := by
  have take : ∀ (c : UInt32) (z : Str), Stops z → (uintToStr c ++ z).takeWhile (fun c => decide (IsDigit c)) = uintToStr c := by
    intro c z hz
    rw [List.takeWhile_append_of_pos fun d hd => decide_eq_true ((C28_write c).2.1 d hd)]
    obtain ⟨t, rfl | rfl⟩ := hz
    · rw [List.takeWhile_cons_of_neg (by decide)]; simp
    · rw [List.takeWhile_cons_of_neg (by decide)]; simp
  have e : uintToStr a = uintToStr b := by rw [← take a x hx, ← take b y hy, h]
  refine ⟨?_, ?_⟩
  · rw [← C28_round_trip a, ← C28_round_trip b, e]
  · rw [e] at h; exact List.append_cancel_left h

theorem locs_bytes : ascii ", " = [44, 32] ∧ ascii "line " = [108, 105, 110, 101, 32] ∧ ascii "col " = [99, 111, 108, 32] ∧
    ascii "byte " = [98, 121, 116, 101, 32] ∧ ascii ")" = [41] := by decide +kernel

theorem stops_locs (l : List (UInt32 × Str)) : Stops (writeLocs true l ++ ascii ")") := by
  induction l with
  | nil => exact ⟨[], .inr (by rw [locs_bytes.2.2.2.2]; rfl)⟩
  | cons x l ih =>
    obtain ⟨v, n⟩ := x
    rw [writeLocs]
    split
    · exact ih
    · rw [locs_bytes.1]
      exact ⟨_, .inl rfl⟩

theorem locs_cons {c : Bool} {v v' : UInt32} {n : Str} {l l' : List (UInt32 × Str)} (hv : v ≠ 0) (hv' : v' ≠ 0)
    (h : writeLocs c ((v, n) :: l) ++ ascii ")" = writeLocs c ((v', n) :: l') ++ ascii ")") :
    v = v' ∧ writeLocs true l ++ ascii ")" = writeLocs true l' ++ ascii ")" := by
  rw [writeLocs, writeLocs, if_neg hv, if_neg hv'] at h
  simp only [List.append_assoc] at h
  have h := List.append_cancel_left (List.append_cancel_left h)
  exact uint_then h (stops_locs l) (stops_locs l')

theorem locs_zero (c : Bool) (n : Str) (l : List (UInt32 × Str)) : writeLocs c ((0, n) :: l) = writeLocs c l := by
  rw [writeLocs, if_pos rfl]

theorem locs_pos {v : UInt32} (hv : v ≠ 0) (c : Bool) (n : Str) (l : List (UInt32 × Str)) :
    writeLocs c ((v, n) :: l) = (if c then ascii ", " else []) ++ n ++ uintToStr v ++ writeLocs true l := by
  rw [writeLocs, if_neg hv]

theorem locs_byte (c : Bool) {b b' : UInt32}
    (h : writeLocs c [(b, ascii "byte ")] ++ ascii ")" = writeLocs c [(b', ascii "byte ")] ++ ascii ")") : b = b' := by
  obtain ⟨l1, l2, l3, l4, l5⟩ := locs_bytes
  by_cases hb : b = 0 <;> by_cases hb' : b' = 0
  · rw [hb, hb']
  · subst hb
    rw [locs_zero, locs_pos hb', l1, l4, l5] at h
    cases c <;> simp [writeLocs] at h
  · subst hb'
    rw [locs_zero, locs_pos hb, l1, l4, l5] at h
    cases c <;> simp [writeLocs] at h
  · exact (locs_cons hb hb' h).1

theorem locs_col (c : Bool) {x x' b b' : UInt32}
    (h : writeLocs c [(x, ascii "col "), (b, ascii "byte ")] ++ ascii ")" =
      writeLocs c [(x', ascii "col "), (b', ascii "byte ")] ++ ascii ")") : x = x' ∧ b = b' := by
  obtain ⟨l1, l2, l3, l4, l5⟩ := locs_bytes
  have no : ∀ {x b b' : UInt32}, x ≠ 0 → writeLocs c [(b, ascii "byte ")] ++ ascii ")" ≠
      writeLocs c [(x, ascii "col "), (b', ascii "byte ")] ++ ascii ")" := by
    intro x b b' hx h
    rw [locs_pos hx] at h
    by_cases hb : b = 0
    · subst hb
      rw [locs_zero, l1, l3, l5] at h
      cases c <;> simp [writeLocs] at h
    · rw [locs_pos hb, l1, l3, l4, l5] at h
      cases c <;> simp at h
  by_cases hx : x = 0 <;> by_cases hx' : x' = 0
  · subst hx; subst hx'
    rw [locs_zero, locs_zero] at h
    exact ⟨rfl, locs_byte c h⟩
  · subst hx
    rw [locs_zero] at h
    exact absurd h (no hx')
  · subst hx'
    rw [locs_zero] at h
    exact absurd h.symm (no hx)
  · obtain ⟨h1, h2⟩ := locs_cons hx hx' h
    exact ⟨h1, locs_byte true h2⟩

theorem locs_line {y y' x x' b b' : UInt32}
    (h : writeLocs false [(y, ascii "line "), (x, ascii "col "), (b, ascii "byte ")] ++ ascii ")" =
      writeLocs false [(y', ascii "line "), (x', ascii "col "), (b', ascii "byte ")] ++ ascii ")") : y = y' ∧ x = x' ∧ b = b' := by
  obtain ⟨l1, l2, l3, l4, l5⟩ := locs_bytes
  have no : ∀ {y x b x' b' : UInt32}, y ≠ 0 → writeLocs false [(x, ascii "col "), (b, ascii "byte ")] ++ ascii ")" ≠
      writeLocs false [(y, ascii "line "), (x', ascii "col "), (b', ascii "byte ")] ++ ascii ")" := by
    intro y x b x' b' hy h
    rw [locs_pos hy] at h
    by_cases hx : x = 0
    · subst hx
      by_cases hb : b = 0
      · subst hb
        rw [locs_zero, locs_zero, l2, l5] at h
        simp [writeLocs] at h
      · rw [locs_zero, locs_pos hb, l2, l4, l5] at h
        simp at h
    · rw [locs_pos hx, l2, l3, l5] at h
      simp at h
  by_cases hy : y = 0 <;> by_cases hy' : y' = 0
  · subst hy; subst hy'
    rw [locs_zero, locs_zero] at h
    exact ⟨rfl, locs_col false h⟩
  · subst hy
    rw [locs_zero] at h
    exact absurd h (no hy')
  · subst hy'
    rw [locs_zero] at h
    exact absurd h.symm (no hy)
  · obtain ⟨h1, h2⟩ := locs_cons hy hy' h
    exact ⟨h1, locs_col true h2⟩

/-- C61, locations can be told from the text: errors with the same code, message and text are
equal. -/
theorem C61_unique (name : Ret → Str) {e e' : Err} (he : e.code.isErr = true) (hc : e.code = e'.code) (hm : e.msg = e'.msg)
    (h : writeError name e = writeError name e') : e = e' := by
  unfold writeError at h
  rw [← hc, ← hm, if_pos he, if_pos he] at h
  have h := List.append_cancel_left h
  have done : e.line = e'.line ∧ e.col = e'.col ∧ e.byte = e'.byte → e = e' := by
    intro ⟨h1, h2, h3⟩
    cases e; cases e'
    simp only at hc hm h1 h2 h3
    subst hc hm h1 h2 h3
    rfl
  have zero : ∀ {e : Err}, ¬ (e.line ≠ 0 ∨ e.col ≠ 0 ∨ e.byte ≠ 0) → e.line = 0 ∧ e.col = 0 ∧ e.byte = 0 := by
    intro e h
    refine ⟨?_, ?_, ?_⟩
    · exact Classical.byContradiction fun h' => h (.inl h')
    · exact Classical.byContradiction fun h' => h (.inr (.inl h'))
    · exact Classical.byContradiction fun h' => h (.inr (.inr h'))
  have ne : ∀ s : Str, ascii " (" ++ s ++ ascii ")" ≠ [] := by
    intro s h
    rw [locs_bytes.2.2.2.2] at h
    simp at h
  apply done
  by_cases h1 : e.line ≠ 0 ∨ e.col ≠ 0 ∨ e.byte ≠ 0 <;> by_cases h2 : e'.line ≠ 0 ∨ e'.col ≠ 0 ∨ e'.byte ≠ 0
  · rw [if_pos h1, if_pos h2, List.append_assoc, List.append_assoc] at h
    exact locs_line (List.append_cancel_left h)
  · rw [if_pos h1, if_neg h2] at h
    exact absurd h (ne _)
  · rw [if_neg h1, if_pos h2] at h
    exact absurd h.symm (ne _)
  · obtain ⟨a1, a2, a3⟩ := zero h1
    obtain ⟨b1, b2, b3⟩ := zero h2
    exact ⟨a1.trans b1.symm, a2.trans b2.symm, a3.trans b3.symm⟩

/-- An error with all parts, and what is written. -/
example : writeError (fun _ => ascii "out of memory") ⟨.errSyntax, 30, 2, 7, ascii "failed to resolve a:b"⟩ =
    ascii "syntax error: failed to resolve a:b (line 2, col 7, byte 30)" ∧
    writeError (fun _ => ascii "out of memory") ⟨.errMem, 0, 12, 0, []⟩ = ascii "out of memory (line 12)" := by decide +kernel

end Cowl
