import Verif.RewriteToks
/-! # Lemmas: the names and literals in an object that is parsed come from its tokens -/
namespace Cowl.Rewrite
open Cowl.Func Cowl.Ast Cowl.Prefix

mutual
/-- All names, anonymous individuals and literals in the object meet the requirements. -/
def Leafs (R : Req) : Obj → Prop
  | .prim (.iri i) => R.iri i
  | .prim (.ent _ i) => R.iri i
  | .prim (.anon s) => R.anon s
  | .lit v t => R.lit ⟨v, t⟩
  | .vec _ xs => LeafsAll R xs
  | .comp _ _ xs _ => LeafsAll R xs
  | .str _ => True
  | .other _ _ => True

/-- The same for all members of a list. -/
def LeafsAll (R : Req) : List Obj → Prop
  | [] => True
  | x :: xs => Leafs R x ∧ LeafsAll R xs
end

theorem leafsAll_append {R : Req} : ∀ {xs ys : List Obj}, LeafsAll R xs → LeafsAll R ys → LeafsAll R (xs ++ ys)
  | [], _, _, h => h
  | _ :: _, _, h, g => ⟨h.1, leafsAll_append h.2 g⟩

/-- All tokens have the property. -/
abbrev AllQ (Q : Tok → Prop) (ts : List Tok) : Prop := ∀ t ∈ ts, Q t

theorem AllQ.tail {Q : Tok → Prop} {t : Tok} {ts : List Tok} (h : AllQ Q (t :: ts)) : AllQ Q ts :=
  fun x hx => h x (List.mem_cons_of_mem _ hx)

theorem AllQ.head {Q : Tok → Prop} {t : Tok} {ts : List Tok} (h : AllQ Q (t :: ts)) : Q t := h t List.mem_cons_self

/-- What the tokens with a property give. -/
structure Gives (R : Req) (m : PMap) (Q : Tok → Prop) : Prop where
  iri : ∀ t i, Q t → readIri m t = some i → R.iri i
  anon : ∀ s, Q (.blank s) → R.anon s
  plain : ∀ v v' t, Cowl.literal v .none = .lit v' t → R.lit ⟨v', t⟩
  lang : ∀ v l v' t, Q (.lang l) → Cowl.literal v (.lang l) = .lit v' t → R.lit ⟨v', t⟩
  typed : ∀ v i v' t, R.iri i → Cowl.literal v (.dt i) = .lit v' t → R.lit ⟨v', t⟩

/-- What the parser makes of tokens with the property. -/
def Keeps (R : Req) (Q : Tok → Prop) (p : Parser) : Prop :=
  ∀ c ts o rest, AllQ Q ts → p c ts = some (o, rest) → Leafs R o ∧ AllQ Q rest

variable {R : Req} {m : PMap} {Q : Tok → Prop}

theorem readLit_leafs (hG : Gives R m Q) {ts rest : List Tok} {o : Obj} (hq : AllQ Q ts) (h : readLit m ts = some (o, rest)) :
    Leafs R o ∧ AllQ Q rest := by
  rw [Func.readLit.eq_def] at h
  split at h
  · obtain ⟨i, hi, h⟩ := Option.bind_eq_some_iff.1 h
    split at h
    · rename_i v' t e
      cases h
      exact ⟨hG.typed _ _ _ _ (hG.iri _ _ hq.tail.tail.head hi) e, hq.tail.tail.tail⟩
    · cases h
  · cases h
  · split at h
    · rename_i v' t e
      cases h
      exact ⟨hG.lang _ _ _ _ hq.tail.head e, hq.tail.tail⟩
    · cases h
  · split at h
    · rename_i v' t e
      cases h
      exact ⟨hG.plain _ _ _ e, hq.tail⟩
    · cases h
  · cases h

theorem readAnonOr_leafs (hG : Gives R m Q) {f : Iri → Obj} (hf : ∀ i, R.iri i → Leafs R (f i)) {ts rest : List Tok} {o : Obj}
    (hq : AllQ Q ts) (h : readAnonOr m f ts = some (o, rest)) : Leafs R o ∧ AllQ Q rest := by
  rw [Func.readAnonOr.eq_def] at h
  split at h
  · cases h; exact ⟨hG.anon _ hq.head, hq.tail⟩
  · obtain ⟨i, hi, h⟩ := Option.map_eq_some_iff.1 h
    cases h; exact ⟨hf i (hG.iri _ _ hq.head hi), hq.tail⟩
  · cases h

theorem parseMany_leafs {p : Parser} (hp : Keeps R Q p) {c : Cat} : ∀ {n : Nat} {ts rest : List Tok} {xs : List Obj},
    AllQ Q ts → parseMany p c n ts = some (xs, rest) → LeafsAll R xs ∧ AllQ Q rest
  | 0, _, _, _, _, h => by cases h
  | n + 1, ts, rest, xs, hq, h => by
    rw [Func.parseMany.eq_def] at h
    dsimp only at h
    split at h
    · cases h; exact ⟨trivial, hq⟩
    · obtain ⟨⟨x, ts1⟩, h1, h⟩ := Option.bind_eq_some_iff.1 h
      obtain ⟨⟨ys, ts2⟩, h2, h⟩ := Option.bind_eq_some_iff.1 h
      cases h
      obtain ⟨g1, g2⟩ := hp _ _ _ _ hq h1
      obtain ⟨g3, g4⟩ := parseMany_leafs hp g2 h2
      exact ⟨⟨g1, g3⟩, g4⟩

theorem parseAnnots_leafs {p : Parser} (hp : Keeps R Q p) : ∀ {n : Nat} {ts rest : List Tok} {xs : List Obj},
    AllQ Q ts → parseAnnots p n ts = some (xs, rest) → LeafsAll R xs ∧ AllQ Q rest
  | 0, _, _, _, _, h => by cases h
  | n + 1, ts, rest, xs, hq, h => by
    rw [Func.parseAnnots.eq_def] at h
    dsimp only at h
    split at h
    · obtain ⟨⟨x, ts1⟩, h1, h⟩ := Option.bind_eq_some_iff.1 h
      obtain ⟨⟨ys, ts2⟩, h2, h⟩ := Option.bind_eq_some_iff.1 h
      cases h
      obtain ⟨g1, g2⟩ := hp _ _ _ _ hq h1
      obtain ⟨g3, g4⟩ := parseAnnots_leafs hp g2 h2
      exact ⟨⟨g1, g3⟩, g4⟩
    · cases h; exact ⟨trivial, hq⟩

/-- The same for arguments. -/
def ArgsLeafs (R : Req) (r : Parsed) : Prop := LeafsAll R r.fields ∧ ∀ x, r.opt = some x → Leafs R x

theorem parseArgs_leafs {p : Parser} (hp : Keeps R Q p) {n : Nat} : ∀ {as : List Arg} {ts rest : List Tok} {r : Parsed},
    AllQ Q ts → parseArgs p n as ts = some (r, rest) → ArgsLeafs R r ∧ AllQ Q rest
  | [], _, _, _, hq, h => by cases h; exact ⟨⟨trivial, nofun⟩, hq⟩
  | .one c :: as, ts, rest, r, hq, h => by
    obtain ⟨⟨x, ts1⟩, h1, h⟩ := Option.bind_eq_some_iff.1 h
    obtain ⟨⟨r', ts2⟩, h2, h⟩ := Option.bind_eq_some_iff.1 h
    cases h
    obtain ⟨g1, g2⟩ := hp _ _ _ _ hq h1
    obtain ⟨g3, g4⟩ := parseArgs_leafs hp g2 h2
    exact ⟨⟨⟨g1, g3.1⟩, g3.2⟩, g4⟩
  | .many c k :: as, ts, rest, r, hq, h => by
    obtain ⟨⟨xs, ts1⟩, h1, h⟩ := Option.bind_eq_some_iff.1 h
    dsimp only at h
    split at h
    · cases h
    · obtain ⟨⟨r', ts2⟩, h2, h⟩ := Option.bind_eq_some_iff.1 h
      cases h
      obtain ⟨g1, g2⟩ := parseMany_leafs hp hq h1
      obtain ⟨g3, g4⟩ := parseArgs_leafs hp g2 h2
      exact ⟨⟨⟨g1, g3.1⟩, g3.2⟩, g4⟩
  | .opt c :: as, ts, rest, r, hq, h => by
    rw [Func.parseArgs.eq_def] at h
    dsimp only at h
    split at h
    · exact parseArgs_leafs hp hq h
    · obtain ⟨⟨x, ts1⟩, h1, h⟩ := Option.bind_eq_some_iff.1 h
      obtain ⟨⟨r', ts2⟩, h2, h⟩ := Option.bind_eq_some_iff.1 h
      cases h
      obtain ⟨g1, g2⟩ := hp _ _ _ _ hq h1
      obtain ⟨g3, g4⟩ := parseArgs_leafs hp g2 h2
      exact ⟨⟨g3.1, fun y hy => by cases hy; exact g1⟩, g4⟩
  | .group c :: as, ts, rest, r, hq, h => by
    rw [Func.parseArgs.eq_def] at h
    dsimp only at h
    split at h
    · obtain ⟨⟨xs, ts1⟩, h1, h⟩ := Option.bind_eq_some_iff.1 h
      obtain ⟨g1, g2⟩ := parseMany_leafs hp hq.tail h1
      dsimp only at h
      split at h
      · obtain ⟨⟨r', ts2⟩, h2, h⟩ := Option.bind_eq_some_iff.1 h
        cases h
        obtain ⟨g3, g4⟩ := parseArgs_leafs hp g2.tail h2
        exact ⟨⟨⟨g1, g3.1⟩, g3.2⟩, g4⟩
      · cases h
    · cases h
  | .card :: as, ts, rest, r, hq, h => by
    rw [Func.parseArgs.eq_def] at h
    dsimp only at h
    split at h
    · obtain ⟨⟨r', ts2⟩, h2, h⟩ := Option.bind_eq_some_iff.1 h
      cases h
      obtain ⟨g3, g4⟩ := parseArgs_leafs hp hq.tail h2
      exact ⟨g3, g4⟩
    · cases h

theorem getImpl_leafs {t : OType} {fs : List Obj} {o : Option Obj} (h : LeafsAll R fs) (g : ∀ x, o = some x → Leafs R x) :
    Leafs R (getImpl t fs o) := by
  cases o with
  | none => exact h
  | some x => exact leafsAll_append h ⟨g x rfl, trivial⟩

theorem getImplUint_leafs {t : OType} {fs : List Obj} {n : Nat} {o : Option Obj} (h : LeafsAll R fs) (g : ∀ x, o = some x → Leafs R x) :
    Leafs R (getImplUint t fs n o) := by
  cases o with
  | none => exact h
  | some x => exact leafsAll_append h ⟨g x rfl, trivial⟩

theorem getImplAnnot_leafs {t : OType} {fs as : List Obj} (h : LeafsAll R fs) (g : LeafsAll R as) :
    Leafs R (getImplAnnot t fs (if as = [] then none else some (false, as))) := by
  cases as with
  | nil => exact h
  | cons a as => exact leafsAll_append h ⟨g, trivial⟩

theorem dropDefault_leafs {d : Prim} {f x : Obj} (h : Leafs R f) (e : dropDefault d (some f) = some x) : Leafs R x := by
  unfold dropDefault at e
  split at e
  · split at e
    · cases e
    · rename_i k _; cases k; cases e; exact h
  · cases e; exact h

theorem build_leafs {t : OType} {an : Bool} {as : List Obj} {r : Parsed} {o : Obj} (ha : ArgsLeafs R r) (hl : LeafsAll R as)
    (h : build t an as r = some o) : Leafs R o := by
  obtain ⟨h1, h2⟩ := ha
  unfold build at h
  split at h
  iterate 4
    · rename_i e
      rw [e] at h1
      cases h
      exact getImpl_leafs ⟨h1.1, trivial⟩ fun x hx => dropDefault_leafs h1.2.1 hx
  iterate 6
    · cases h; exact getImplUint_leafs h1 h2
  · split at h
    · cases h; exact getImplAnnot_leafs h1 hl
    · cases h; exact h1

theorem parseConstruct_leafs {p : Parser} (hp : Keeps R Q p) {n : Nat} {c : Cat} {ts rest : List Tok} {o : Obj} (hq : AllQ Q ts)
    (h : parseConstruct p n c ts = some (o, rest)) : Leafs R o ∧ AllQ Q rest := by
  rw [Func.parseConstruct.eq_def] at h
  split at h
  · rename_i k ts
    split at h
    · rename_i pr hk
      split at h
      · obtain ⟨⟨as, ts1⟩, h1, h⟩ := Option.bind_eq_some_iff.1 h
        obtain ⟨⟨r, ts2⟩, h2, h⟩ := Option.bind_eq_some_iff.1 h
        dsimp only at h h2
        have ga : LeafsAll R as ∧ AllQ Q ts1 := by
          unfold Func.parseAnnotsIf at h1
          split at h1
          · exact parseAnnots_leafs hp hq.tail.tail h1
          · cases h1; exact ⟨trivial, hq.tail.tail⟩
        obtain ⟨g1, g2⟩ := parseArgs_leafs hp ga.2 h2
        split at h
        · obtain ⟨o', h3, h⟩ := Option.map_eq_some_iff.1 h
          cases h
          exact ⟨build_leafs g1 ga.1 h3, g2.tail⟩
        · cases h
      · cases h
    · cases h
  · cases h

theorem parseExp_leafs (hG : Gives R m Q) {p : Parser} (hp : Keeps R Q p) {n : Nat} {c : Cat} {k : EntKind}
    {ts rest : List Tok} {o : Obj} (hq : AllQ Q ts) (h : parseExp m p n c k ts = some (o, rest)) : Leafs R o ∧ AllQ Q rest := by
  rw [Func.parseExp.eq_def] at h
  split at h
  · exact parseConstruct_leafs hp hq h
  · obtain ⟨i, hi, h⟩ := Option.map_eq_some_iff.1 h
    cases h; exact ⟨hG.iri _ _ hq.head hi, hq.tail⟩
  · cases h

theorem parseStep_leafs (hG : Gives R m Q) {p : Parser} (hp : Keeps R Q p) {n : Nat} : Keeps R Q (parseStep m p n) := by
  intro c ts o rest hq h
  unfold parseStep at h
  split at h
  · obtain ⟨i, hi, h⟩ := Option.map_eq_some_iff.1 h
    cases h; exact ⟨hG.iri _ _ hq.head hi, hq.tail⟩
  · obtain ⟨i, hi, h⟩ := Option.map_eq_some_iff.1 h
    cases h; exact ⟨hG.iri _ _ hq.head hi, hq.tail⟩
  · refine readAnonOr_leafs hG ?_ hq h; intro i hi; exact hi
  · exact readLit_leafs hG hq h
  · exact parseExp_leafs hG hp hq h
  · exact parseExp_leafs hG hp hq h
  · exact parseExp_leafs hG hp hq h
  · obtain ⟨i, hi, h⟩ := Option.bind_eq_some_iff.1 h
    obtain ⟨⟨l, ts1⟩, h1, h⟩ := Option.bind_eq_some_iff.1 h
    cases h
    obtain ⟨g1, g2⟩ := readLit_leafs hG hq.tail h1
    exact ⟨⟨hG.iri _ _ hq.head hi, g1, trivial⟩, g2⟩
  · exact readLit_leafs hG hq h
  · refine readAnonOr_leafs hG ?_ hq h; intro i hi; exact hi
  · refine readAnonOr_leafs hG ?_ hq h; intro i hi; exact hi
  · obtain ⟨e, -, h⟩ := Option.bind_eq_some_iff.1 h
    obtain ⟨i, hi, h⟩ := Option.bind_eq_some_iff.1 h
    cases h; exact ⟨hG.iri _ _ hq.tail.tail.head hi, hq.tail.tail.tail.tail⟩
  · obtain ⟨⟨xs, ts1⟩, h1, h⟩ := Option.bind_eq_some_iff.1 h
    obtain ⟨g1, g2⟩ := parseMany_leafs hp hq.tail.tail h1
    dsimp only at h
    split at h
    · cases h
    · split at h
      · cases h
        exact ⟨g1, g2.tail⟩
      · cases h
  · exact hp _ _ _ _ hq h
  · exact parseConstruct_leafs hp hq h
  · exact parseConstruct_leafs hp hq h
  · cases h

theorem parseCat_leafs (hG : Gives R m Q) : ∀ n, Keeps R Q (parseCat m n)
  | 0 => nofun
  | n + 1 => parseStep_leafs hG (parseCat_leafs hG n)

end Cowl.Rewrite
