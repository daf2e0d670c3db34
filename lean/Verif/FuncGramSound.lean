import Verif.FuncGramTable
import Verif.FuncCutSpec
import Verif.FuncFaultSpec
import Verif.FuncCutLemmas
/-! # Lemmas: what the parser accepts is a sentence of the grammar -/
namespace Cowl.Gram
open YOwn (NT Term rules)
open Func (Cat Arg Kw prod Tok Parser Parsed)
open Prefix

theorem Gen.append {α β : List GSym} {u v : List Term} (h : Gen α u) (k : Gen β v) : Gen (α ++ β) (u ++ v) := by
  induction h with
  | nil => exact k
  | t _ ih => exact .t ih
  | n hr h1 _ _ ih => rw [List.append_assoc]; exact .n hr h1 ih

theorem Gen.rule {r : YOwn.Rule} {u : List Term} (hr : r ∈ rules) (h : Gen r.rhs u) : Gen [.n r.lhs] u := by
  have := Gen.n hr h .nil
  rwa [List.append_nil] at this

theorem Gen.by {x : NT} {rhs : List GSym} {u : List Term} (hr : (rules.any fun r => r.lhs == x && r.rhs == rhs) = true) (h : Gen rhs u) :
    Gen [.n x] u := by
  obtain ⟨r, hr, e⟩ := List.any_eq_true.1 hr
  simp only [Bool.and_eq_true, beq_iff_eq] at e
  rw [← e.1]
  exact .rule hr (e.2 ▸ h)

theorem derives_gen : ∀ {n : Nat} {x : NT} {rhs : List GSym} {u : List Term}, derives n x rhs = true → Gen rhs u → Gen [.n x] u
  | 0, _, _, _, h, _ => by cases h
  | n + 1, x, rhs, u, h, k => by
    unfold derives at h
    obtain ⟨r, hr, e⟩ := List.any_eq_true.1 h
    simp only [Bool.and_eq_true, Bool.or_eq_true, beq_iff_eq] at e
    obtain ⟨e1, e2⟩ := e
    rw [← e1]
    refine .rule hr ?_
    rcases e2 with e2 | e2
    · rw [e2]; exact k
    · split at e2
      · rename_i y hy
        rw [hy]
        exact derives_gen e2 k
      · cases e2

/-! ## Lists -/

theorem gen_more {x y : NT} (h2 : (rules.any fun r => r.lhs == x && r.rhs == [.n x, .n y]) = true) {u v : List Term}
    (hu : Gen [.n x] u) (hv : Gen [.n y] v) : Gen [.n x] (u ++ v) := .by h2 (hu.append hv)

theorem gen_mores {x y : NT} (h2 : (rules.any fun r => r.lhs == x && r.rhs == [.n x, .n y]) = true) :
    ∀ {ws : List (List Term)} {u : List Term}, Gen [.n x] u → (∀ w ∈ ws, Gen [.n y] w) → Gen [.n x] (u ++ ws.flatten)
  | [], u, hu, _ => by simpa using hu
  | w :: ws, u, hu, h => by
    rw [List.flatten_cons, ← List.append_assoc]
    exact gen_mores h2 (gen_more h2 hu (h w (.head _))) fun v hv => h v (.tail _ hv)

theorem gen_star {x y : NT} (h1 : (rules.any fun r => r.lhs == x && r.rhs == []) = true)
    (h2 : (rules.any fun r => r.lhs == x && r.rhs == [.n x, .n y]) = true) {ws : List (List Term)} (h : ∀ w ∈ ws, Gen [.n y] w) :
    Gen [.n x] ws.flatten := gen_mores h2 (u := []) (.by h1 .nil) h

theorem gen_plus {x y : NT} (h1 : (rules.any fun r => r.lhs == x && r.rhs == [.n y]) = true)
    (h2 : (rules.any fun r => r.lhs == x && r.rhs == [.n x, .n y]) = true) {ws : List (List Term)} (h : ∀ w ∈ ws, Gen [.n y] w)
    (hl : 1 ≤ ws.length) : Gen [.n x] ws.flatten := by
  cases ws with
  | nil => cases hl
  | cons w ws => exact gen_mores h2 (.by h1 (h w (.head _))) fun v hv => h v (.tail _ hv)

theorem gen_two {x x1 y : NT} (h0 : (rules.any fun r => r.lhs == x && r.rhs == [.n x1, .n y]) = true)
    (h1 : (rules.any fun r => r.lhs == x1 && r.rhs == [.n y]) = true)
    (h2 : (rules.any fun r => r.lhs == x1 && r.rhs == [.n x1, .n y]) = true) {ws : List (List Term)} (h : ∀ w ∈ ws, Gen [.n y] w)
    (hl : 2 ≤ ws.length) : Gen [.n x] ws.flatten := by
  have hne : ws ≠ [] := by intro e; rw [e] at hl; cases hl
  have e := List.dropLast_concat_getLast hne
  have hf : ws.flatten = ws.dropLast.flatten ++ ws.getLast hne := by
    conv => lhs; rw [← e]
    simp
  rw [hf]
  refine .by h0 (Gen.append (α := [_]) (gen_plus h1 h2 (fun w hw => h w (List.dropLast_subset _ hw)) ?_) (h _ (List.getLast_mem hne)))
  rw [List.length_dropLast]; omega

/-- Lists of a category. -/
theorem gen_list {c : Cat} {k : Nat} {x : NT} (hx : listNT c k = some x) {ws : List (List Term)}
    (h : ∀ w ∈ ws, ∃ y ∈ catNTs c, Gen [.n y] w) (hl : k ≤ ws.length) : Gen [.n x] ws.flatten := by
  have key : ∀ {y : NT}, catNTs c = [y] → ∀ w ∈ ws, Gen [.n y] w := by
    intro y hy w hw
    obtain ⟨z, hz, hg⟩ := h w hw
    rw [hy] at hz
    rwa [List.mem_singleton.1 hz] at hg
  unfold listNT at hx
  split at hx <;> first | cases hx | skip
  · exact gen_two (x1 := .classExpressionList) (by decide +kernel) (by decide +kernel) (by decide +kernel) (key rfl) hl
  · exact gen_two (x1 := .dataRangeList) (by decide +kernel) (by decide +kernel) (by decide +kernel) (key rfl) hl
  · exact gen_two (x1 := .individualList) (by decide +kernel) (by decide +kernel) (by decide +kernel) (key rfl) hl
  · exact gen_two (x1 := .objectPropertyExpressionList) (by decide +kernel) (by decide +kernel) (by decide +kernel) (key rfl) hl
  · exact gen_two (x1 := .dataPropertyExpressionList) (by decide +kernel) (by decide +kernel) (by decide +kernel) (key rfl) hl
  · exact gen_plus (by decide +kernel) (by decide +kernel) (key rfl) hl
  · exact gen_plus (by decide +kernel) (by decide +kernel) (key rfl) hl
  · exact gen_plus (by decide +kernel) (by decide +kernel) (key rfl) hl
  · exact gen_star (by decide +kernel) (by decide +kernel) (key rfl)
  · exact gen_star (by decide +kernel) (by decide +kernel) (key rfl)

/-! ## The parser -/

/-- What is read is a word of the category. -/
def Word (c : Cat) (u : List Tok) : Prop := ∃ x ∈ catNTs c, Gen [.n x] (u.map termOf)

/-- A parser reads words. -/
def Sound (p : Parser) : Prop := ∀ c ts o rest, p c ts = some (o, rest) → ∃ u, ts = u ++ rest ∧ Word c u

theorem words_flatten (us : List (List Tok)) : us.flatten.map termOf = (us.map (·.map termOf)).flatten := List.map_flatten

theorem parseMany_sound {p : Parser} (hp : Sound p) {c : Cat} : ∀ {n : Nat} {ts : List Tok} {xs : List Obj} {rest : List Tok},
    Func.parseMany p c n ts = some (xs, rest) → ∃ us : List (List Tok), ts = us.flatten ++ rest ∧ us.length = xs.length ∧ ∀ u ∈ us, Word c u
  | 0, _, _, _, h => by cases h
  | n + 1, ts, xs, rest, h => by
    rw [Func.parseMany.eq_def] at h
    dsimp only at h
    split at h
    · cases h; exact ⟨[], rfl, rfl, by simp⟩
    · obtain ⟨⟨x, t1⟩, h1, h⟩ := Option.bind_eq_some_iff.1 h
      obtain ⟨⟨ys, t2⟩, h2, h⟩ := Option.bind_eq_some_iff.1 h
      cases h
      obtain ⟨u, e, hu⟩ := hp _ _ _ _ h1
      obtain ⟨us, e', hl, hus⟩ := parseMany_sound hp h2
      refine ⟨u :: us, ?_, by simp [hl], ?_⟩
      · rw [e, show t1 = _ from e']; simp
      · intro v hv
        rcases List.mem_cons.1 hv with rfl | hv
        · exact hu
        · exact hus v hv

theorem parseAnnots_sound {p : Parser} (hp : Sound p) : ∀ {n : Nat} {ts : List Tok} {xs : List Obj} {rest : List Tok},
    Func.parseAnnots p n ts = some (xs, rest) → ∃ us : List (List Tok), ts = us.flatten ++ rest ∧ ∀ u ∈ us, Word .annotation u
  | 0, _, _, _, h => by cases h
  | n + 1, ts, xs, rest, h => by
    rw [Func.parseAnnots.eq_def] at h
    dsimp only at h
    split at h
    · obtain ⟨⟨x, t1⟩, h1, h⟩ := Option.bind_eq_some_iff.1 h
      obtain ⟨⟨ys, t2⟩, h2, h⟩ := Option.bind_eq_some_iff.1 h
      cases h
      obtain ⟨u, e, hu⟩ := hp _ _ _ _ h1
      obtain ⟨us, e', hus⟩ := parseAnnots_sound hp h2
      refine ⟨u :: us, ?_, ?_⟩
      · rw [e, show t1 = _ from e']; simp
      · intro v hv
        rcases List.mem_cons.1 hv with rfl | hv
        · exact hu
        · exact hus v hv
    · cases h; exact ⟨[], rfl, by simp⟩

/-- Lists have nonterminals. -/
def argsOk : List Arg → Bool
  | [] => true
  | .many c k :: as => (listNT c k).isSome && argsOk as
  | .group c :: as => (listNT c 0).isSome && argsOk as
  | _ :: as => argsOk as

theorem gen_listSym {c : Cat} {k : Nat} (hk : (listNT c k).isSome = true) {us : List (List Tok)} (h : ∀ u ∈ us, Word c u)
    (hl : k ≤ us.length) : Gen (listSym c k) (us.flatten.map termOf) := by
  obtain ⟨x, hx⟩ := Option.isSome_iff_exists.1 hk
  unfold listSym
  rw [hx, words_flatten]
  refine gen_list hx ?_ (by simpa using hl)
  intro w hw
  obtain ⟨u, hu, rfl⟩ := List.mem_map.1 hw
  exact h u hu

theorem parseArgs_sound {p : Parser} (hp : Sound p) {n : Nat} : ∀ {as : List Arg} {ts : List Tok} {r : Parsed} {rest : List Tok},
    argsOk as = true → Func.parseArgs p n as ts = some (r, rest) → ∃ u, ts = u ++ rest ∧ ∃ l ∈ argAlts as, Gen l (u.map termOf)
  | [], ts, r, rest, _, h => by
    rw [Func.parseArgs] at h; cases h
    exact ⟨[], rfl, [], by simp [argAlts], .nil⟩
  | .one c :: as, ts, r, rest, ho, h => by
    rw [Func.parseArgs] at h
    obtain ⟨⟨x, t1⟩, h1, h⟩ := Option.bind_eq_some_iff.1 h
    obtain ⟨⟨r1, t2⟩, h2, h⟩ := Option.bind_eq_some_iff.1 h
    cases h
    obtain ⟨u, e, y, hy, hu⟩ := hp _ _ _ _ h1
    obtain ⟨v, e', l, hl, hv⟩ := parseArgs_sound hp (as := as) ho h2
    refine ⟨u ++ v, by rw [e, e']; simp, .n y :: l, ?_, ?_⟩
    · exact List.mem_flatMap.2 ⟨y, hy, List.mem_map.2 ⟨l, hl, rfl⟩⟩
    · rw [List.map_append]; exact Gen.append (α := [_]) hu hv
  | .many c k :: as, ts, r, rest, ho, h => by
    rw [Func.parseArgs] at h
    obtain ⟨⟨xs, t1⟩, h1, h⟩ := Option.bind_eq_some_iff.1 h
    dsimp only at h
    split at h
    · cases h
    rename_i hk
    obtain ⟨⟨r1, t2⟩, h2, h⟩ := Option.bind_eq_some_iff.1 h
    cases h
    rw [argsOk, Bool.and_eq_true] at ho
    obtain ⟨us, e, hlen, hu⟩ := parseMany_sound hp h1
    obtain ⟨v, e', l, hl, hv⟩ := parseArgs_sound hp (as := as) ho.2 h2
    refine ⟨us.flatten ++ v, by rw [e, e']; simp, listSym c k ++ l, ?_, ?_⟩
    · exact List.mem_map.2 ⟨l, hl, rfl⟩
    · rw [List.map_append]
      exact (gen_listSym ho.1 hu (by omega)).append hv
  | .opt c :: as, ts, r, rest, ho, h => by
    rw [Func.parseArgs.eq_def] at h
    dsimp only at h
    split at h
    · obtain ⟨v, e', l, hl, hv⟩ := parseArgs_sound hp (as := as) ho h
      exact ⟨v, e', l, List.mem_append_left _ hl, hv⟩
    · obtain ⟨⟨x, t1⟩, h1, h⟩ := Option.bind_eq_some_iff.1 h
      obtain ⟨⟨r1, t2⟩, h2, h⟩ := Option.bind_eq_some_iff.1 h
      cases h
      obtain ⟨u, e, y, hy, hu⟩ := hp _ _ _ _ h1
      obtain ⟨v, e', l, hl, hv⟩ := parseArgs_sound hp (as := as) ho h2
      refine ⟨u ++ v, by rw [e, show t1 = _ from e']; simp, .n y :: l, ?_, ?_⟩
      · exact List.mem_append_right _ (List.mem_flatMap.2 ⟨y, hy, List.mem_map.2 ⟨l, hl, rfl⟩⟩)
      · rw [List.map_append]; exact Gen.append (α := [_]) hu hv
  | .group c :: as, ts, r, rest, ho, h => by
    rw [Func.parseArgs.eq_def] at h
    dsimp only at h
    rw [argsOk, Bool.and_eq_true] at ho
    split at h
    · obtain ⟨⟨xs, t1⟩, h1, h⟩ := Option.bind_eq_some_iff.1 h
      dsimp only at h
      split at h
      · obtain ⟨⟨r1, t2⟩, h2, h⟩ := Option.bind_eq_some_iff.1 h
        cases h
        obtain ⟨us, e, hlen, hu⟩ := parseMany_sound hp h1
        obtain ⟨v, e', l, hl, hv⟩ := parseArgs_sound hp (as := as) ho.2 h2
        refine ⟨.lpar :: (us.flatten ++ .rpar :: v), by rw [e, e']; simp, _, List.mem_map.2 ⟨l, hl, rfl⟩, ?_⟩
        rw [List.map_cons, List.map_append, List.map_cons]
        exact .t ((gen_listSym ho.1 hu (Nat.zero_le _)).append (.t hv))
      · cases h
    · cases h
  | .card :: as, ts, r, rest, ho, h => by
    rw [Func.parseArgs.eq_def] at h
    dsimp only at h
    split at h
    · obtain ⟨⟨r1, t2⟩, h2, h⟩ := Option.bind_eq_some_iff.1 h
      cases h
      obtain ⟨v, e', l, hl, hv⟩ := parseArgs_sound hp (as := as) ho h2
      rename_i k _
      refine ⟨.nat k :: v, by rw [e']; simp, _, List.mem_map.2 ⟨l, hl, rfl⟩, ?_⟩
      exact Gen.append (α := [_]) (u := [_]) (.by (rhs := [.t .nat]) (by decide +kernel) (.t .nil)) hv
    · cases h

theorem prods_ok : ∀ k ∈ Kw.all, ∀ pr ∈ prod k, argsOk pr.args = true ∧ pr.cat ≠ .subOpe := by decide +kernel

theorem parseConstruct_sound {p : Parser} (hp : Sound p) {n : Nat} {c : Cat} {ts : List Tok} {o : Obj} {rest : List Tok}
    (h : Func.parseConstruct p n c ts = some (o, rest)) : ∃ u, ts = u ++ rest ∧ Word c u := by
  unfold Func.parseConstruct at h
  split at h
  · rename_i k ts
    split at h
    · rename_i pr hpr
      split at h
      · rename_i hc
        obtain ⟨⟨as, t1⟩, h1, h⟩ := Option.bind_eq_some_iff.1 h
        obtain ⟨⟨r, t2⟩, h2, h⟩ := Option.bind_eq_some_iff.1 h
        dsimp only at h
        split at h
        · obtain ⟨o', h3, h⟩ := Option.map_eq_some_iff.1 h
          cases h
          have ho := prods_ok k k.mem_all pr hpr
          obtain ⟨v, e', l, hl, hv⟩ := parseArgs_sound hp ho.1 h2
          have : ∃ a, ts = a ++ t1 ∧ Gen (if pr.annotated then [.n .annotationStar] else []) (a.map termOf) := by
            unfold Func.parseAnnotsIf at h1
            cases hb : pr.annotated with
            | true =>
              rw [hb, if_pos rfl] at h1
              obtain ⟨us, e, hu⟩ := parseAnnots_sound hp h1
              refine ⟨us.flatten, e, ?_⟩
              rw [if_pos rfl, words_flatten]
              refine gen_star (y := .annotation) (by decide +kernel) (by decide +kernel) ?_
              intro w hw
              obtain ⟨u, hu', rfl⟩ := List.mem_map.1 hw
              obtain ⟨y, hy, hg⟩ := hu u hu'
              rwa [List.mem_singleton.1 hy] at hg
            | false =>
              rw [hb] at h1
              cases h1
              exact ⟨[], rfl, .nil⟩
          obtain ⟨a, ea, ha⟩ := this
          have hx : ∃ x, x ∈ catNTs c := by
            cases c with
            | ent k => cases k <;> exact ⟨_, .head _⟩
            | _ => exact ⟨_, .head _⟩
          obtain ⟨x, hx⟩ := hx
          refine ⟨.kw k :: .lpar :: (a ++ (v ++ [.rpar])), by rw [ea, e']; simp, x, hx, ?_⟩
          refine derives_gen (prod_rule k k.mem_all pr hpr l hl x (hc ▸ hx)) (.t (.t ?_))
          rw [List.map_append, List.map_append]
          exact ha.append (hv.append (.t .nil))
        · cases h
      · cases h
    · cases h
  · cases h

/-- IRIs. -/
theorem readIri_sound {m : PMap} {t : Tok} {i : Iri} (h : Func.readIri m t = some i) : Gen [.n .iri] ([t].map termOf) := by
  unfold Func.readIri at h
  split at h
  · exact .by (rhs := [.n .fullIri]) (by decide +kernel) (.by (rhs := [.t .iriRef]) (by decide +kernel) (.t .nil))
  · exact .by (rhs := [.n .abbreviatedIri]) (by decide +kernel) (.by (rhs := [.t .pnameLn]) (by decide +kernel) (.t .nil))
  · cases h

theorem gen_ent (k : EntKind) {w : List Term} (h : Gen [.n .iri] w) : ∃ x ∈ catNTs (.ent k), Gen [.n x] w := by
  cases k <;> refine ⟨_, .head _, ?_⟩
  · exact .by (rhs := [.n .iri]) (by decide +kernel) h
  · exact .by (rhs := [.n .iri]) (by decide +kernel) h
  · exact .by (rhs := [.n .iri]) (by decide +kernel) h
  · first
    | exact .by (rhs := [.n .iri]) (by decide +kernel) h
    | exact .by (rhs := [.n .dataProperty]) (by decide +kernel) (.by (rhs := [.n .iri]) (by decide +kernel) h)
  · first
    | exact .by (rhs := [.n .iri]) (by decide +kernel) h
    | exact .by (rhs := [.n .dataProperty]) (by decide +kernel) (.by (rhs := [.n .iri]) (by decide +kernel) h)
  · exact .by (rhs := [.n .iri]) (by decide +kernel) h

theorem readLit_sound {m : PMap} {ts : List Tok} {o : Obj} {rest : List Tok} (h : Func.readLit m ts = some (o, rest)) :
    ∃ u, ts = u ++ rest ∧ Gen [.n .literal] (u.map termOf) := by
  have q : ∀ v, Gen [.n .quotedString] ([Tok.qstr v].map termOf) := fun v => .by (rhs := [.t .qstr]) (by decide +kernel) (.t .nil)
  unfold Func.readLit at h
  split at h
  · rename_i v t ts
    obtain ⟨i, hi, h⟩ := Option.bind_eq_some_iff.1 h
    split at h
    · cases h
      refine ⟨[.qstr v, .dcaret, t], rfl, .by (rhs := [.n .quotedString, .t .dcaret, .n .datatype]) (by decide +kernel) ?_⟩
      exact Gen.append (q v) (.t (.by (rhs := [.n .iri]) (by decide +kernel) (readIri_sound hi)))
    · cases h
  · cases h
  · rename_i v l ts
    split at h
    · cases h
      refine ⟨[.qstr v, .lang l], rfl, .by (rhs := [.n .quotedString, .n .langTag]) (by decide +kernel) ?_⟩
      exact Gen.append (q v) (.by (rhs := [.t .lang]) (by decide +kernel) (.t .nil))
    · cases h
  · rename_i v ts _ _ _
    split at h
    · cases h
      exact ⟨[.qstr v], rfl, .by (rhs := [.n .quotedString]) (by decide +kernel) (q v)⟩
    · cases h
  · cases h

theorem gen_blank (s : Str) : Gen [.n .anonymousIndividual] ([Tok.blank s].map termOf) := .by (rhs := [.t .blank]) (by decide +kernel) (.t .nil)

theorem readAnonOr_sound {m : PMap} {f : Iri → Obj} {ts : List Tok} {o : Obj} {rest : List Tok} (h : Func.readAnonOr m f ts = some (o, rest)) :
    ∃ u, ts = u ++ rest ∧ (Gen [.n .anonymousIndividual] (u.map termOf) ∨ Gen [.n .iri] (u.map termOf)) := by
  unfold Func.readAnonOr at h
  split at h
  · cases h; exact ⟨[_], rfl, .inl (gen_blank _)⟩
  · obtain ⟨i, hi, h⟩ := Option.map_eq_some_iff.1 h
    cases h
    exact ⟨[_], rfl, .inr (readIri_sound hi)⟩
  · cases h

theorem parseExp_sound {m : PMap} {p : Parser} (hp : Sound p) {n : Nat} {c : Cat} {k : EntKind} {ts : List Tok} {o : Obj} {rest : List Tok}
    (hc : ∀ u, Word (.ent k) u → Word c u) (h : Func.parseExp m p n c k ts = some (o, rest)) : ∃ u, ts = u ++ rest ∧ Word c u := by
  unfold Func.parseExp at h
  split at h
  · exact parseConstruct_sound hp h
  · obtain ⟨i, hi, h⟩ := Option.map_eq_some_iff.1 h
    cases h
    exact ⟨[_], rfl, hc _ (gen_ent k (readIri_sound hi))⟩
  · cases h

theorem gen_subOpe {u : List Tok} (h : Word .ope u) : Word .subOpe u := by
  obtain ⟨x, hx, h⟩ := h
  rw [List.mem_singleton.1 hx] at h
  exact ⟨_, .head _, h⟩

theorem parseStep_sound {m : PMap} {p : Parser} (hp : Sound p) {n : Nat} : Sound (Func.parseStep m p n) := by
  have one : ∀ {c : Cat} {x : NT} {u : List Tok}, catNTs c = [x] → Gen [.n x] (u.map termOf) → Word c u := by
    intro c x u hc h
    exact ⟨x, by rw [hc]; exact .head _, h⟩
  intro c ts o rest h
  unfold Func.parseStep at h
  split at h
  · obtain ⟨i, hi, h⟩ := Option.map_eq_some_iff.1 h
    cases h
    exact ⟨[_], rfl, one rfl (readIri_sound hi)⟩
  · obtain ⟨i, hi, h⟩ := Option.map_eq_some_iff.1 h
    cases h
    exact ⟨[_], rfl, gen_ent _ (readIri_sound hi)⟩
  · obtain ⟨u, e, hu⟩ := readAnonOr_sound h
    refine ⟨u, e, one rfl ?_⟩
    rcases hu with hu | hu
    · exact .by (rhs := [.n .anonymousIndividual]) (by decide +kernel) hu
    · exact .by (rhs := [.n .namedIndividual]) (by decide +kernel) (.by (rhs := [.n .iri]) (by decide +kernel) hu)
  · obtain ⟨u, e, hu⟩ := readLit_sound h
    exact ⟨u, e, one rfl hu⟩
  · refine parseExp_sound hp (fun u hu => ?_) h
    obtain ⟨x, hx, hu⟩ := hu
    rw [List.mem_singleton.1 hx] at hu
    exact one rfl (.by (rhs := [.n .objectProperty]) (by decide +kernel) hu)
  · refine parseExp_sound hp (fun u hu => ?_) h
    obtain ⟨x, hx, hu⟩ := hu
    rw [List.mem_singleton.1 hx] at hu
    exact one rfl (.by (rhs := [.n .datatype]) (by decide +kernel) hu)
  · refine parseExp_sound hp (fun u hu => ?_) h
    obtain ⟨x, hx, hu⟩ := hu
    rw [List.mem_singleton.1 hx] at hu
    exact one rfl (.by (rhs := [.n .cls]) (by decide +kernel) hu)
  · obtain ⟨i, hi, h⟩ := Option.bind_eq_some_iff.1 h
    obtain ⟨⟨l, t1⟩, hl, h⟩ := Option.bind_eq_some_iff.1 h
    cases h
    obtain ⟨u, e, hu⟩ := readLit_sound hl
    refine ⟨_ :: u, by rw [e]; rfl, one rfl (.by (rhs := [.n .iri, .n .literal]) (by decide +kernel) ?_)⟩
    exact Gen.append (u := [_]) (readIri_sound hi) hu
  · obtain ⟨u, e, hu⟩ := readLit_sound h
    exact ⟨u, e, one rfl (.by (rhs := [.n .literal]) (by decide +kernel) hu)⟩
  · obtain ⟨u, e, hu⟩ := readAnonOr_sound h
    refine ⟨u, e, one rfl ?_⟩
    rcases hu with hu | hu
    · exact .by (rhs := [.n .anonymousIndividual]) (by decide +kernel) hu
    · exact .by (rhs := [.n .iri]) (by decide +kernel) hu
  · obtain ⟨u, e, hu⟩ := readAnonOr_sound h
    refine ⟨u, e, one rfl ?_⟩
    rcases hu with hu | hu
    · exact .by (rhs := [.n .anonymousIndividual]) (by decide +kernel) hu
    · exact .by (rhs := [.n .iri]) (by decide +kernel) hu
  · rename_i k t ts
    obtain ⟨e, he, h⟩ := Option.bind_eq_some_iff.1 h
    obtain ⟨i, hi, h⟩ := Option.bind_eq_some_iff.1 h
    cases h
    refine ⟨[.kw k, .lpar, t, .rpar], rfl, one rfl ?_⟩
    have hi := readIri_sound hi
    have fin : ∀ {x : NT}, (rules.any fun r => r.lhs == x && r.rhs == [.n .iri]) = true →
        Gen [.t (.kw k), .t .lpar, .n x, .t .rpar] ([Tok.kw k, .lpar, t, .rpar].map termOf) := by
      intro x hx
      exact .t (.t (Gen.append (α := [_]) (u := [_]) (.by hx hi) (.t .nil)))
    unfold Func.entKw at he
    split at he <;> first | cases he | skip
    · exact .by (by decide +kernel) (fin (x := .cls) (by decide +kernel))
    · exact .by (by decide +kernel) (fin (x := .datatype) (by decide +kernel))
    · exact .by (by decide +kernel) (fin (x := .objectProperty) (by decide +kernel))
    · exact .by (by decide +kernel) (fin (x := .dataProperty) (by decide +kernel))
    · exact .by (by decide +kernel) (fin (x := .annotationProperty) (by decide +kernel))
    · exact .by (by decide +kernel) (fin (x := .namedIndividual) (by decide +kernel))
  · obtain ⟨⟨xs, t1⟩, h1, h⟩ := Option.bind_eq_some_iff.1 h
    dsimp only at h
    split at h
    · cases h
    rename_i hk
    split at h
    · cases h
      obtain ⟨us, e, hlen, hu⟩ := parseMany_sound hp h1
      refine ⟨.kw .objectPropertyChain :: .lpar :: (us.flatten ++ [.rpar]), by rw [e]; simp, .propertyExpressionChain, by decide, ?_⟩
      refine .by (rhs := [.t (.kw .objectPropertyChain), .t .lpar, .n .objectPropertyExpression2List, .t .rpar]) (by decide +kernel) ?_
      rw [List.map_cons, List.map_cons, List.map_append]
      exact .t (.t ((gen_listSym (c := .ope) (k := 2) rfl hu (by omega)).append (.t .nil)))
    · cases h
  · obtain ⟨u, e, hu⟩ := hp _ _ _ _ h
    exact ⟨u, e, gen_subOpe hu⟩
  · exact parseConstruct_sound hp h
  · exact parseConstruct_sound hp h
  · cases h

theorem parseCat_sound {m : PMap} : ∀ n, Sound (Func.parseCat m n)
  | 0 => fun _ _ _ _ h => by cases h
  | n + 1 => parseStep_sound (parseCat_sound n)

/-! ## Documents -/

section
variable {σ : Type} {h : Callback σ Func.Item}
open Func (readPrefixes readId readHeader readAxioms readOntology emit Outcome)

theorem readPrefixes_sound : ∀ (n : Nat) {a : Nat} {s s' : σ} {m m' : PMap} {ts rest : List Tok}, ts.length ≤ n →
    readPrefixes h a s m ts = .go s' m' rest →
    ∃ us : List (List Tok), ts = us.flatten ++ rest ∧ ∀ u ∈ us, Gen [.n .prefixDeclaration] (u.map termOf)
  | n, a, s, s', m, m', ts, r, hn, e => by
    by_cases hp : ts.head? = some (.kw .prefix_)
    · by_cases hd : ∃ p n us, ts = .kw .prefix_ :: .lpar :: .pnameNs p :: .equals :: .iriRef n :: .rpar :: us
      · obtain ⟨p, ns, us, rfl⟩ := hd
        cases n with
        | zero => cases hn
        | succ n =>
          rw [readPrefixes] at e
          by_cases hr : (h s (.prefixDecl p ns)).2.isErr = true
          · simp only [hr, if_true] at e; cases e
          · simp only [hr] at e
            obtain ⟨vs, ev, hv⟩ := readPrefixes_sound n (by simp only [List.length_cons] at hn; omega) e
            refine ⟨[.kw .prefix_, .lpar, .pnameNs p, .equals, .iriRef ns, .rpar] :: vs, by rw [ev]; rfl, fun v hv' => ?_⟩
            rcases List.mem_cons.1 hv' with rfl | hv'
            · refine .by (rhs := [.t (.kw .prefix_), .t .lpar, .n .prefix_, .t .equals, .n .ns, .t .rpar]) (by decide +kernel) (.t (.t ?_))
              exact Gen.append (α := [_]) (u := [_]) (.by (rhs := [.t .pnameNs]) (by decide +kernel) (.t .nil))
                (.t (Gen.append (α := [_]) (u := [_]) (.by (rhs := [.t .iriRef]) (by decide +kernel) (.t .nil)) (.t .nil)))
            · exact hv v hv'
      · rw [Func.prefixes_bad hp hd] at e; cases e
    · rw [Func.prefixes_end hp] at e
      injection e with e1 e2 e3
      subst e1; subst e2; subst e3
      exact ⟨[], rfl, by simp⟩

theorem emit_go {s s' : σ} {m m' : PMap} {i : Func.Item} {ts rest : List Tok} (e : emit h s m i ts = .go s' m' rest) : ts = rest := by
  unfold emit at e
  dsimp only at e
  split at e
  · cases e; rfl
  · cases e

theorem begins_gen {m : PMap} {t : Tok} {i : Iri} (e : Func.readIri m t = some i) : Gen [.n .iri] [termOf t] := readIri_sound e

theorem readId_sound {s s' : σ} {m m' : PMap} {ts rest : List Tok} (e : readId h s m ts = .go s' m' rest) :
    ∃ u, ts = u ++ rest ∧ Gen [.n .ontologyId] (u.map termOf) := by
  unfold readId at e
  split at e
  · cases e; exact ⟨[], rfl, .by (rhs := []) (by decide +kernel) .nil⟩
  · rename_i t ts
    split at e
    · cases e; exact ⟨[], rfl, .by (rhs := []) (by decide +kernel) .nil⟩
    · split at e
      · cases e
      · rename_i i hi
        have one : Gen [.n .ontologyId] [termOf t] := .by (rhs := [.n .iri]) (by decide +kernel) (begins_gen hi)
        split at e
        · rw [← emit_go e]; exact ⟨[t], rfl, one⟩
        · rename_i u us
          split at e
          · rw [← emit_go e]; exact ⟨[t], rfl, one⟩
          · split at e
            · cases e
            · rename_i v hv
              dsimp only at e
              split at e
              · cases e
              · split at e
                · cases e
                · cases e
                  exact ⟨[t, u], rfl, .by (rhs := [.n .iri, .n .iri]) (by decide +kernel) (Gen.append (α := [_]) (u := [_]) (begins_gen hi) (begins_gen hv))⟩

/-- Imports and annotations. -/
def HeadItem (u : List Tok) : Prop := Gen [.n .imp] (u.map termOf) ∨ Gen [.n .annotation] (u.map termOf)

theorem word_one {c : Cat} {x : NT} {u : List Tok} (hc : catNTs c = [x]) (hw : Word c u) : Gen [.n x] (u.map termOf) := by
  obtain ⟨y, hy, hw⟩ := hw
  rw [hc] at hy
  rwa [List.mem_singleton.1 hy] at hw

theorem readHeader_sound {k : Nat} : ∀ {n : Nat} {s s' : σ} {m m' : PMap} {ts rest : List Tok}, readHeader h k n s m ts = .go s' m' rest →
    ∃ us : List (List Tok), ts = us.flatten ++ rest ∧ ∀ u ∈ us, HeadItem u
  | 0, _, _, _, _, _, _, e => by cases e
  | n + 1, s, s', m, m', ts, rest, e => by
    rw [Func.readHeader.eq_def] at e
    dsimp only at e
    split at e
    · split at e
      · cases e
      · rename_i ts i t1 hi
        split at e
        · rename_i s1 m1 t2 he
          have := emit_go he
          obtain ⟨us, e', hu⟩ := readHeader_sound e
          unfold Func.readImport at hi
          split at hi
          · rename_i t t3
            obtain ⟨j, hj, hi⟩ := Option.map_eq_some_iff.1 hi
            cases hi
            refine ⟨[.kw .import_, .lpar, t, .rpar] :: us, by rw [this, e']; simp, fun v hv => ?_⟩
            rcases List.mem_cons.1 hv with rfl | hv
            · left
              exact .by (rhs := [.t (.kw .import_), .t .lpar, .n .iri, .t .rpar]) (by decide +kernel)
                (.t (.t (Gen.append (α := [_]) (u := [_]) (begins_gen hj) (.t .nil))))
            · exact hu v hv
          · cases hi
        · cases e
    · split at e
      · cases e
      · rename_i o t1 ho
        split at e
        · rename_i s1 m1 t2 he
          have := emit_go he
          obtain ⟨us, e', hu⟩ := readHeader_sound e
          obtain ⟨u, eu, hw⟩ := parseCat_sound k _ _ _ _ ho
          refine ⟨u :: us, by rw [eu, this, e']; simp, fun v hv => ?_⟩
          rcases List.mem_cons.1 hv with rfl | hv
          · exact .inr (word_one rfl hw)
          · exact hu v hv
        · cases e
    · cases e; exact ⟨[], rfl, by simp⟩

theorem readAxioms_sound {k : Nat} : ∀ {n : Nat} {s s' : σ} {m : PMap} {ts : List Tok}, readAxioms h k n s m ts = (s', .ok) →
    ∃ us : List (List Tok), ts = us.flatten ++ [.rpar] ∧ ∀ u ∈ us, Gen [.n .ax] (u.map termOf)
  | 0, _, _, _, _, e => by cases e
  | n + 1, s, s', m, ts, e => by
    rw [Func.readAxioms.eq_def] at e
    dsimp only at e
    split at e
    · split at e
      · rename_i h0; exact ⟨[], by rw [h0]; rfl, by simp⟩
      · cases e
    · split at e
      · cases e
      · rename_i o t1 ho
        split at e
        · rename_i s1 m1 t2 he
          have := emit_go he
          obtain ⟨us, e', hu⟩ := readAxioms_sound e
          obtain ⟨u, eu, hw⟩ := parseCat_sound k _ _ _ _ ho
          refine ⟨u :: us, by rw [eu, this, e']; simp, fun v hv => ?_⟩
          rcases List.mem_cons.1 hv with rfl | hv
          · exact word_one rfl hw
          · exact hu v hv
        · rename_i s1 r he
          unfold emit at he
          dsimp only at he
          split at he
          · cases he
          · cases he; cases e

theorem gen_heads : ∀ {us : List (List Tok)} {w : List Term}, Gen [.n .importsAndAnnotations] w → (∀ u ∈ us, HeadItem u) →
    Gen [.n .importsAndAnnotations] (w ++ us.flatten.map termOf)
  | [], w, hw, _ => by simpa using hw
  | u :: us, w, hw, hu => by
    rw [List.flatten_cons, List.map_append, ← List.append_assoc]
    refine gen_heads ?_ fun v hv => hu v (.tail _ hv)
    rcases hu u (.head _) with k | k
    · exact .by (rhs := [.n .importsAndAnnotations, .n .imp]) (by decide +kernel) (Gen.append (α := [_]) hw k)
    · exact .by (rhs := [.n .importsAndAnnotations, .n .annotation]) (by decide +kernel) (Gen.append (α := [_]) hw k)

theorem gen_all {x y : NT} (h1 : (rules.any fun r => r.lhs == x && r.rhs == []) = true)
    (h2 : (rules.any fun r => r.lhs == x && r.rhs == [.n x, .n y]) = true) {us : List (List Tok)} (hu : ∀ u ∈ us, Gen [.n y] (u.map termOf)) :
    Gen [.n x] (us.flatten.map termOf) := by
  rw [words_flatten]
  refine gen_star h1 h2 fun w hw => ?_
  obtain ⟨u, hu', rfl⟩ := List.mem_map.1 hw
  exact hu u hu'

theorem readOntology_sound {k : Nat} {s s' : σ} {m : PMap} {ts : List Tok} (e : readOntology h k s m ts = (s', .ok)) :
    Gen [.n .ontology] (ts.map termOf) := by
  unfold readOntology at e
  split at e
  · rename_i ts
    split at e
    · rename_i s1 r he
      cases e
      exfalso
      obtain ⟨i, v, fin, hf⟩ := FuncTell.readId_tells m ts
      rw [hf] at he
      unfold FuncTell.after at he
      split at he <;> cases he
    · rename_i s1 m1 t1 h1
      split at e
      · rename_i s1 r he
        cases e
        exfalso
        obtain ⟨i, fin, -, hf⟩ := FuncTell.readHeader_tells k (k + 1) m1 t1
        rw [hf] at he
        unfold FuncTell.after at he
        split at he <;> cases he
      · rename_i s2 m2 t2 h2
        obtain ⟨u, eu, hu⟩ := readId_sound h1
        obtain ⟨vs, ev, hv⟩ := readHeader_sound h2
        obtain ⟨ws, ew, hw⟩ := readAxioms_sound e
        rw [eu, ev, ew]
        refine .by (rhs := [.t (.kw .ontology), .t .lpar, .n .ontologyId, .n .importsAndAnnotations, .n .axs, .t .rpar]) (by decide +kernel) ?_
        rw [List.map_cons, List.map_cons, List.map_append, List.map_append, List.map_append]
        refine .t (.t (Gen.append (α := [_]) hu (Gen.append (α := [_]) ?_ (Gen.append (α := [_]) ?_ (.t .nil)))))
        · exact gen_heads (w := []) (.by (rhs := []) (by decide +kernel) .nil) hv
        · exact gen_all (y := .ax) (by decide +kernel) (by decide +kernel) hw
  · cases e

/-- What is accepted is a sentence. -/
theorem funcRead_sound {m : PMap} {a : Nat} {text : Str} {s s' : σ} (e : Func.funcRead h m a text s = (s', .ok)) :
    Sentence ((Func.lex text).map termOf) := by
  unfold Func.funcRead at e
  split at e
  · rename_i s1 r he
    cases e
    exfalso
    obtain ⟨i, fin, -, hf⟩ := FuncTell.readPrefixes_tells _ (Func.lex text) (Nat.le_refl _) a m
    rw [hf] at he
    unfold FuncTell.after at he
    split at he <;> cases he
  · rename_i s1 m1 ts h1
    obtain ⟨us, eu, hu⟩ := readPrefixes_sound _ (Nat.le_refl _) h1
    rw [eu, List.map_append]
    exact .by (rhs := [.n .prefixDeclarations, .n .ontology]) (by decide +kernel)
      (Gen.append (α := [_]) (gen_all (y := .prefixDeclaration) (by decide +kernel) (by decide +kernel) hu) (readOntology_sound e))

end
end Cowl.Gram
