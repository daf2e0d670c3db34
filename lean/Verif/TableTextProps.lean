import Verif.TableText
import Verif.FuncDocProps
/-! # Properties: the text of a table lists its entries -/
namespace Cowl
open Func FuncSpec Prefix PrefixSpec XmlSpec

/-- The parts of a text between spaces. -/
def partsSp : Str → List Str
  | [] => [[]]
  | c :: s => if c = 32 then [] :: partsSp s else match partsSp s with
    | w :: ws => (c :: w) :: ws
    | [] => [[c]]

/-- A text before and after its first colon. -/
def cutColon : Str → Str × Option Str
  | [] => ([], none)
  | c :: s => if c = 58 then ([], some s) else (c :: (cutColon s).1, (cutColon s).2)

/-- The entries that a text lists: keys, and values if there are any, separated by spaces. -/
def entriesOf (s : Str) : List (Str × Option Str) := if s = [] then [] else (partsSp s).map cutColon

/-- The text of an entry. -/
def entryText (e : Str × Option Str) : Str := e.1 ++ (match e.2 with
  | some v => 58 :: v
  | none => [])

theorem parts_one : ∀ {s : Str}, 32 ∉ s → partsSp s = [s]
  | [], _ => rfl
  | c :: s, h => by
    rw [partsSp, if_neg (fun e : c = 32 => h (e ▸ List.mem_cons_self)), parts_one fun k => h (List.mem_cons_of_mem _ k)]

theorem parts_cons : ∀ {s : Str} (t : Str), 32 ∉ s → partsSp (s ++ 32 :: t) = s :: partsSp t
  | [], t, _ => by rw [List.nil_append, partsSp, if_pos rfl]
  | c :: s, t, h => by
    rw [List.cons_append, partsSp, if_neg (fun e : c = 32 => h (e ▸ List.mem_cons_self)),
      parts_cons t fun k => h (List.mem_cons_of_mem _ k)]

theorem parts_join : ∀ (x : Str) (l : List Str), (∀ y ∈ x :: l, 32 ∉ y) → partsSp (joinSp (x :: l)) = x :: l
  | x, [], h => parts_one (h x List.mem_cons_self)
  | x, y :: l, h => by
    rw [joinSp, parts_cons _ (h x List.mem_cons_self), parts_join y l fun z hz => h z (List.mem_cons_of_mem _ hz)]

theorem cut_entry : ∀ {k : Str} (v : Option Str), 58 ∉ k → cutColon (entryText (k, v)) = (k, v)
  | [], none, _ => rfl
  | [], some v, _ => by show cutColon (58 :: v) = _; rw [cutColon, if_pos rfl]
  | c :: k, v, h => by
    have ih := cut_entry (k := k) v fun m => h (List.mem_cons_of_mem _ m)
    have e : entryText (c :: k, v) = c :: entryText (k, v) := rfl
    rw [e, cutColon, if_neg (fun e : c = 58 => h (e ▸ List.mem_cons_self)), ih]

/-- The texts of an entry of a table. -/
def textsOf (gp : Str → Option Str) (e : Ref × Option Ref) : Str × Option Str := (writeObj gp e.1.obj, e.2.map fun v => writeObj gp v.obj)

theorem loop_join (gp : Str → Option Str) (last : Nat) : ∀ (es : List (Ref × Option Ref)) (cur : Nat),
    cur + es.length = last + 1 → last < 4294967295 →
    writeTableLoop gp last cur es = joinSp (es.map fun e => entryText (textsOf gp e))
  | [], _, _, _ => rfl
  | [e], cur, h, _ => by
    have h1 : cur = last := by simpa using h
    rw [writeTableLoop, if_neg (by omega), writeTableLoop, List.append_nil, List.append_nil]
    simp only [List.map_cons, List.map_nil, joinSp, entryText, textsOf]
    cases e.2 <;> rfl
  | e :: f :: es, cur, h, hl => by
    simp only [List.length_cons] at h
    have ih := loop_join gp last (f :: es) (cur + 1) (by simp only [List.length_cons]; omega) hl
    rw [writeTableLoop, if_pos (by omega), Nat.mod_eq_of_lt (by omega), ih]
    simp only [List.map_cons, joinSp, entryText, textsOf]
    cases e.2 <;> simp

/-- C119, all tables: the text is the texts of the entries, in the order of the table, separated by single spaces, and nothing if there is
no table. The text of an entry is that of its key and, if it has a value, a colon and that of its value. -/
theorem C119_text (gp : Str → Option Str) (t : Table) (h : t.entries.length < 4294967296) :
    writeTable gp (some t) = joinSp (t.entries.map fun e => entryText (textsOf gp e)) ∧ writeTable gp none = [] := by
  refine ⟨?_, rfl⟩
  unfold writeTable
  dsimp only
  cases he : t.entries with
  | nil => rfl
  | cons e es =>
    rw [he] at h
    simp only [List.length_cons] at h
    have e1 : ((e :: es).length + 4294967295) % 4294967296 = es.length := by
      simp only [List.length_cons]; omega
    rw [e1]
    exact loop_join gp es.length (e :: es) 0 (by simp) (by omega)

/-- C119 for tables whose texts have no spaces, and no colons in keys: the text lists the entries. Missing: see `C119_fails`. -/
theorem C119_partial (gp : Str → Option Str) (t : Table) (h : t.entries.length < 4294967296)
    (hk : ∀ e ∈ t.entries, 32 ∉ writeObj gp e.1.obj ∧ 58 ∉ writeObj gp e.1.obj)
    (hv : ∀ e ∈ t.entries, ∀ v, e.2 = some v → 32 ∉ writeObj gp v.obj)
    (hn : ∀ e ∈ t.entries, e.2 = none → writeObj gp e.1.obj ≠ []) :
    entriesOf (writeTable gp (some t)) = t.entries.map (textsOf gp) := by
  rw [(C119_text gp t h).1]
  generalize t.entries = es at hk hv hn
  have sp : ∀ y ∈ es.map fun e => entryText (textsOf gp e), 32 ∉ y := by
    intro y hy
    obtain ⟨e, he, rfl⟩ := List.mem_map.1 hy
    have k1 := (hk e he).1
    have k2 := hv e he
    unfold entryText textsOf
    cases hx : e.2 with
    | none => simpa using k1
    | some v =>
      have := k2 v hx
      simp only [Option.map_some, List.mem_append, List.mem_cons, not_or]
      exact ⟨k1, by decide, this⟩
  have cut : (es.map fun e => entryText (textsOf gp e)).map cutColon = es.map (textsOf gp) := by
    rw [List.map_map]
    exact List.map_congr_left fun e he => cut_entry (k := writeObj gp e.1.obj) _ (hk e he).2
  unfold entriesOf
  cases es with
  | nil => rfl
  | cons e es =>
    have ne : joinSp ((e :: es).map fun e => entryText (textsOf gp e)) ≠ [] := by
      have h0 : entryText (textsOf gp e) ≠ [] := by
        unfold entryText textsOf
        cases hx : e.2 with
        | none => simpa using hn e List.mem_cons_self hx
        | some v => simp
      intro k
      rw [List.map_cons] at k
      cases es with
      | nil => exact h0 k
      | cons f es =>
        rw [List.map_cons, joinSp] at k
        exact absurd k (by simp)
    rw [if_neg ne, List.map_cons, parts_join _ _ (by rw [← List.map_cons (f := fun e => entryText (textsOf gp e))]; exact sp),
      ← List.map_cons (f := fun e => entryText (textsOf gp e)), cut]

/-- The table of a prefix map, `cowl_prefix_map_get_table` with `reverse` false, `cowl_prefix_map.c:112-123`; the addresses of the
namespaces, which do not matter here, are 0. -/
def prefixTable (f : Fwd) : Table := ⟨true, f.map fun e => (⟨e.1.addr, .str e.1.txt⟩, some ⟨0, .str e.2⟩)⟩

/-- C119 for prefix maps whose prefixes and namespaces have no spaces, and no colons in prefixes: the text of the table lists the prefixes,
each with its namespace. -/
theorem C119_prefixes (gp : Str → Option Str) (f : Fwd) (h : f.length < 4294967296)
    (hp : ∀ e ∈ f, 32 ∉ e.1.txt ∧ 58 ∉ e.1.txt ∧ 32 ∉ e.2) :
    entriesOf (writeTable gp (some (prefixTable f))) = f.map fun e => (e.1.txt, some e.2) := by
  rw [C119_partial gp (prefixTable f)]
  · unfold prefixTable; rw [List.map_map]; rfl
  · simpa [prefixTable] using h
  · intro e he
    obtain ⟨x, hx, rfl⟩ := List.mem_map.1 he
    exact ⟨(hp x hx).1, (hp x hx).2.1⟩
  · intro e he v hv
    obtain ⟨x, hx, rfl⟩ := List.mem_map.1 he
    cases hv
    exact (hp x hx).2.2
  · intro e he hv
    obtain ⟨x, hx, rfl⟩ := List.mem_map.1 he
    cases hv

/-- C119 for prefix maps: with the prefixes and characters that documents may have, two maps with the same text have the same prefixes. -/
theorem C119_apart {o o' : Change.OntoSt} (ho : DocOk o) (ho' : DocOk o') (h : o.pm.fwd.length < 4294967296)
    (h' : o'.pm.fwd.length < 4294967296) {gp gp' : Str → Option Str}
    (e : writeTable gp (some (prefixTable o.pm.fwd)) = writeTable gp' (some (prefixTable o'.pm.fwd))) :
    ∀ p, o.pm.getNs p = o'.pm.getNs p := by
  have plain : ∀ {s : Str}, PlainPrefix s → 32 ∉ s ∧ 58 ∉ s := by
    have nc : ∀ c : UInt8, NameChar c → c ≠ 32 ∧ c ≠ 58 := by
      intro c hc
      constructor <;> (rintro rfl; revert hc; unfold NameChar NameStart; decide)
    intro s hs
    rcases hs with rfl | ⟨c, t, rfl, h1, -, h2, -⟩
    · exact ⟨nofun, nofun⟩
    · have hc := nc c (.inl h1)
      refine ⟨fun k => ?_, fun k => ?_⟩ <;> rcases List.mem_cons.1 k with rfl | k
      · exact hc.1 rfl
      · exact (nc _ (h2 _ k)).1 rfl
      · exact hc.2 rfl
      · exact (nc _ (h2 _ k)).2 rfl
  have key : ∀ {o : Change.OntoSt}, DocOk o → o.pm.fwd.length < 4294967296 → ∀ gp,
      entriesOf (writeTable gp (some (prefixTable o.pm.fwd))) = o.pm.fwd.map fun e => (e.1.txt, some e.2) := by
    intro o ho h gp
    obtain ⟨a, ha⟩ := ho.history
    have hd := (inv_reaches ha).distinct
    refine C119_prefixes gp _ h fun e he => ?_
    have hg : o.pm.getNs e.1.txt = some e.2 := by rw [getNs_meaning]; exact meaning_of_mem hd he
    refine ⟨(plain (ho.plain _ _ hg)).1, (plain (ho.plain _ _ hg)).2, fun k => ?_⟩
    exact absurd (ho.chars _ _ hg _ k).1 (by decide)
  have e1 := (key ho h gp).symm.trans ((congrArg entriesOf e).trans (key ho' h' gp'))
  have mean : ∀ {f g : Fwd}, (f.map fun e => (e.1.txt, some e.2)) = (g.map fun e => (e.1.txt, some e.2)) → ∀ p, meaning f p = meaning g p := by
    intro f
    induction f with
    | nil => intro g k p; cases g with
      | nil => rfl
      | cons _ _ => cases k
    | cons x f ih => intro g k p; cases g with
      | nil => cases k
      | cons y g =>
        rw [List.map_cons, List.map_cons] at k
        obtain ⟨k1, k2⟩ := List.cons.inj k
        obtain ⟨k3, k4⟩ := _root_.Prod.mk.inj k1
        rw [meaning, meaning, k3, Option.some.inj k4, ih k2]
  intro p
  rw [getNs_meaning, getNs_meaning]
  exact mean e1 p

/-- The text of the prefixes of the sample. -/
example : writeTable (fun _ => none) (some (prefixTable [(pfx 1 "ex", exNs1), (pfx 2 "f", exNs2)])) =
    ascii "ex:http://ex.org/a# f:http://ex.org/b#" := by decide +kernel

/-- The conditions of `C119_prefixes` hold for the prefixes of the sample. -/
example : busyMap.fwd.length = 7 ∧ ∀ e ∈ busyMap.fwd, 32 ∉ e.1.txt ∧ 58 ∉ e.1.txt ∧ 32 ∉ e.2 := by decide +kernel

/-- C119 is false as stated.
* The text of a set of one class expression is that of a set of two strings.
* The text of a set of the string `a:b` is that of a map from `a` to `b`.
* The text of a set of the empty string is that of the empty set. -/
theorem C119_fails :
    writeTable (fun _ => none) (some ⟨false, [(⟨1, .comp .ceObjSome true [.prim (.ent .objProp ⟨[], ascii "p"⟩), .prim (.ent .cls ⟨[], ascii "A"⟩)] 0⟩, none)]⟩) =
      writeTable (fun _ => none) (some ⟨false, [(⟨1, .str (ascii "ObjectSomeValuesFrom(<p>")⟩, none), (⟨2, .str (ascii "<A>)")⟩, none)]⟩) ∧
    writeTable (fun _ => none) (some ⟨false, [(⟨1, .str (ascii "a:b")⟩, none)]⟩) =
      writeTable (fun _ => none) (some ⟨true, [(⟨1, .str (ascii "a")⟩, some ⟨2, .str (ascii "b")⟩)]⟩) ∧
    writeTable (fun _ => none) (some ⟨false, [(⟨1, .str []⟩, none)]⟩) = writeTable (fun _ => none) (some ⟨false, []⟩) := by
  refine ⟨?_, ?_, ?_⟩ <;> decide +kernel

end Cowl
