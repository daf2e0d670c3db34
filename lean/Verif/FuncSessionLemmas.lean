import Verif.FuncSessionSpec
import Verif.FuncDocLemmas
/-! # Lemmas: functional writers in use -/
namespace Cowl.FSess
open Prefix PrefixSpec Func FuncSpec Ast

/-! ## Memory -/

/-- Reference count at an address. -/
def Mem.count (w : Mem) (a : Nat) : Nat := match w a with | none => 0 | some x => x.2

theorem put_self (w : Mem) (a : Nat) (x : Option (PMap × Nat)) : w.put a x a = x := if_pos rfl

theorem put_other (w : Mem) {a b : Nat} (x : Option (PMap × Nat)) (h : b ≠ a) : w.put a x b = w b := if_neg h

/-- Counts are not zero. -/
def Mem.Pos (w : Mem) : Prop := ∀ a x, w a = some x → 0 < x.2

theorem live_of_count {w : Mem} {a : Nat} (h : 0 < w.count a) : ∃ x, w a = some x ∧ x.2 = w.count a := by
  unfold Mem.count at *
  cases e : w a with
  | none => rw [e] at h; cases h
  | some x => exact ⟨x, rfl, rfl⟩

theorem count_put (w : Mem) (a b : Nat) (x : Option (PMap × Nat)) :
    (w.put a x).count b = if b = a then (match x with | none => 0 | some y => y.2) else w.count b := by
  unfold Mem.count Mem.put
  by_cases h : b = a
  · rw [if_pos h, if_pos h]
  · rw [if_neg h, if_neg h]

theorem pos_put {w : Mem} (h : w.Pos) {a : Nat} {x : Option (PMap × Nat)} (hx : ∀ y, x = some y → 0 < y.2) :
    (w.put a x).Pos := by
  intro b y e
  by_cases hb : b = a
  · subst hb; rw [put_self] at e; exact hx y e
  · rw [put_other _ _ hb] at e; exact h b y e

theorem retain_spec {w : Mem} (hp : w.Pos) {a : Nat} (h : 0 < w.count a) :
    ∃ w', w.retain a = some w' ∧ w'.Pos ∧ (∀ b, w'.count b = w.count b + if b = a then 1 else 0) ∧
      ∀ b, (w' b).map Prod.fst = (w b).map Prod.fst := by
  obtain ⟨x, e, ec⟩ := live_of_count h
  refine ⟨_, by rw [Mem.retain, e]; rfl, pos_put hp (by rintro y ⟨⟩; exact Nat.succ_pos _), fun b => ?_, fun b => ?_⟩
  · rw [count_put]
    by_cases hb : b = a
    · subst hb; simp [ec]
    · simp [hb]
  · by_cases hb : b = a
    · subst hb; rw [put_self, e]; rfl
    · rw [put_other _ _ hb]

theorem release_spec {w : Mem} (hp : w.Pos) {a : Nat} (h : 0 < w.count a) :
    ∃ w', w.release a = some w' ∧ w'.Pos ∧ (∀ b, w'.count b = w.count b - if b = a then 1 else 0) ∧
      ∀ b, 0 < w'.count b → (w' b).map Prod.fst = (w b).map Prod.fst := by
  obtain ⟨x, e, ec⟩ := live_of_count h
  refine ⟨_, by rw [Mem.release, e]; rfl, pos_put hp ?_, fun b => ?_, fun b hb' => ?_⟩
  · intro y hy
    split at hy
    · cases hy
    · cases hy; have := hp a x e; show 0 < x.2 - 1; omega
  · rw [count_put]
    by_cases hb : b = a
    · subst hb
      rw [if_pos rfl, if_pos rfl, ← ec]
      by_cases h1 : x.2 = 1
      · simp [h1]
      · simp [h1]
    · simp [hb]
  · by_cases hb : b = a
    · subst hb
      rw [count_put, if_pos rfl] at hb'
      rw [put_self, e]
      by_cases h1 : x.2 = 1
      · rw [if_pos h1] at hb'; cases hb'
      · rw [if_neg h1]; rfl
    · rw [put_other _ _ hb]

/-- The counts, once more. -/
theorem counted_iff {s : St} {n : Own} :
    Counted s n ↔ s.mem.Pos ∧ ∀ a, s.mem.count a = n a + if s.pm = some a then 1 else 0 := by
  constructor
  · intro h; exact ⟨fun a => (h a).2, fun a => (h a).1⟩
  · rintro ⟨h1, h2⟩ a; exact ⟨h2 a, h1 a⟩

theorem counted_init : Counted St.init fun _ => 0 := counted_iff.2 ⟨nofun, fun _ => rfl⟩

theorem releaseMap_spec {s : St} {n : Own} (h : Counted s n) :
    ∃ w, s.releaseMap = some w ∧ w.Pos ∧ (∀ b, w.count b = n b) ∧
      ∀ b, 0 < n b → (w b).map Prod.fst = (s.mem b).map Prod.fst := by
  obtain ⟨hp, hc⟩ := counted_iff.1 h
  unfold St.releaseMap
  cases hs : s.pm with
  | none => exact ⟨_, rfl, hp, fun b => by rw [hc b, hs]; rfl, fun _ _ => rfl⟩
  | some c =>
    obtain ⟨w, e1, e2, e3, e4⟩ := release_spec hp (a := c) (by rw [hc c, hs, if_pos rfl]; omega)
    have hw : ∀ b, w.count b = n b := by
      intro b
      rw [e3, hc b, hs]
      by_cases hb : b = c
      · subst hb; simp
      · have : ¬ (some c = some b) := fun e => hb (by cases e; rfl)
        simp [hb, this]
    exact ⟨w, e1, e2, hw, fun b hb => e4 b (by rw [hw]; exact hb)⟩

theorem setPrefixMap_spec {s : St} {n : Own} (h : Counted s n) {pm : Option Nat}
    (ha : match pm with | none => s.pm = none | some a => 0 < n a) :
    ∃ s', s.setPrefixMap pm = some s' ∧ s'.pm = pm ∧ s'.out = s.out ∧ Counted s' n ∧
      ∀ b, 0 < n b → (s'.mem b).map Prod.fst = (s.mem b).map Prod.fst := by
  obtain ⟨hp, hc⟩ := counted_iff.1 h
  unfold St.setPrefixMap
  by_cases e : s.pm = pm
  · rw [if_pos e]; exact ⟨s, rfl, e, rfl, h, fun _ _ => rfl⟩
  · rw [if_neg e]
    cases pm with
    | none => exact absurd ha e
    | some a =>
      obtain ⟨w, e1, e2, e3, e4⟩ := releaseMap_spec h
      obtain ⟨w', g1, g2, g3, g4⟩ := retain_spec e2 (a := a) (by rw [e3]; exact ha)
      refine ⟨⟨w', some a, s.out⟩, by rw [e1]; show Option.map _ (w.retain a) = _; rw [g1]; rfl, rfl, rfl, counted_iff.2 ⟨g2, fun b => ?_⟩, fun b hb => ?_⟩
      · rw [g3, e3]
        by_cases hb : b = a
        · subst hb; simp
        · have : ¬ (some a = some b) := fun e => hb (by cases e; rfl)
          simp [hb, this]
      · rw [g4, e4 b hb]

/-- The prefixes that the writer finds. -/
theorem prefixes_live {s : St} {n : Own} (h : Counted s n) : ∃ m, s.mem.contents s.pm = some m ∧ s.prefixes = some (lookupOf m) := by
  obtain ⟨-, hc⟩ := counted_iff.1 h
  unfold Mem.contents St.prefixes
  cases hs : s.pm with
  | none => exact ⟨_, rfl, rfl⟩
  | some a =>
    obtain ⟨x, e, -⟩ := live_of_count (w := s.mem) (a := a) (by rw [hc, hs, if_pos rfl]; omega)
    exact ⟨some x.1, by simp only [e]; rfl, by simp only [e]; rfl⟩

theorem writeLines_spec {s : St} {n : Own} (h : Counted s n) {m : Option PMap} (hm : s.mem.contents s.pm = some m) {xs : List Ref}
    (hx : ∀ x ∈ xs, writeDefined x.obj = true) :
    s.writeLines xs = some { s with out := s.out ++ (xs.map fun x => writeLine (lookupOf m) x.obj).flatten } := by
  unfold St.writeLines
  rw [if_pos (List.all_eq_true.2 hx)]
  cases xs with
  | nil => simp
  | cons x xs =>
    obtain ⟨m', e1, e2⟩ := prefixes_live h
    rw [hm] at e1
    cases e1
    show s.prefixes.map _ = _
    rw [e2]
    rfl

/-- The text of a header. -/
def headerText (m : Option PMap) (h : Header) : Str :=
  headText m h ++ (h.annots.map fun x => writeLine (lookupOf m) x.obj).flatten

theorem contents_same {w w' : Mem} {pm : Option Nat} (h : ∀ a, pm = some a → (w' a).map Prod.fst = (w a).map Prod.fst) :
    w'.contents pm = w.contents pm := by
  cases pm with
  | none => rfl
  | some a =>
    have := congrArg (Option.map some) (h a rfl)
    simpa [Mem.contents, Option.map_map, Function.comp_def] using this

theorem header_spec {s : St} {n : Own} (h : Counted s n) {hd : Header} (ha : Allowed s n (.header hd)) :
    ∃ s' m, s.mem.contents hd.pm = some m ∧ s.header hd = some s' ∧ s'.pm = hd.pm ∧ s'.mem.contents hd.pm = some m ∧
      s'.out = s.out ++ headerText m hd ∧ Counted s' n := by
  obtain ⟨s1, e1, e2, e3, e4, e5⟩ := setPrefixMap_spec h ha.1
  have hsame : s1.mem.contents hd.pm = s.mem.contents hd.pm := contents_same fun a hpm => e5 a (by
    have := ha.1; rw [hpm] at this; exact this)
  obtain ⟨m, g1, -⟩ := prefixes_live e4
  rw [e2] at g1
  have hc : Counted { s1 with out := s1.out ++ headText m hd } n := e4
  refine ⟨{ s1 with out := s1.out ++ headText m hd ++ (hd.annots.map fun x => writeLine (lookupOf m) x.obj).flatten }, m,
    hsame ▸ g1, ?_, e2, g1, ?_, hc⟩
  · unfold St.header
    rw [e1, Option.bind_some, g1, Option.bind_some, writeLines_spec hc (by rw [e2]; exact g1) ha.2]
  · show s1.out ++ headText m hd ++ _ = _
    rw [e3, List.append_assoc]; rfl

/-- Every allowed operation is defined, and the counts stay right. -/
theorem op_spec {s : St} {n : Own} (h : Counted s n) {op : Op} (ha : Allowed s n op) :
    ∃ s', s.op op = some s' ∧ Counted s' (n.after op) := by
  obtain ⟨hp, hc⟩ := counted_iff.1 h
  have live : ∀ a, 0 < n a → 0 < s.mem.count a := fun a h => by rw [hc]; omega
  cases op with
  | new a m =>
    refine ⟨_, rfl, counted_iff.2 ⟨pos_put hp (by rintro y ⟨⟩; exact Nat.one_pos), fun b => ?_⟩⟩
    have h0 : n a + (if s.pm = some a then 1 else 0) = 0 := by
      rw [← hc]; unfold Mem.count; rw [show s.mem a = none from ha]
    rw [show (St.mk (s.mem.put a (some (m, 1))) s.pm s.out).mem = s.mem.put a (some (m, 1)) from rfl, count_put]
    show _ = (if b = a then 1 else n b) + _
    by_cases hb : b = a
    · subst hb
      rw [if_pos rfl, if_pos rfl]
      have : ¬ s.pm = some b := fun e => by rw [if_pos e] at h0; omega
      show 1 = 1 + if s.pm = some b then 1 else 0
      rw [if_neg this]
    · rw [if_neg hb, if_neg hb]; exact hc b
  | set a m =>
    obtain ⟨x, e, ec⟩ := live_of_count (live a ha)
    refine ⟨⟨s.mem.put a (some (m, x.2)), s.pm, s.out⟩, by rw [St.op, e]; rfl, counted_iff.2 ⟨pos_put hp (by rintro y ⟨⟩; exact hp a x e), fun b => ?_⟩⟩
    show (s.mem.put a _).count b = n b + if s.pm = some b then 1 else 0
    rw [count_put, ← hc b]
    by_cases hb : b = a
    · subst hb; rw [if_pos rfl]; exact ec
    · rw [if_neg hb]
  | keep a =>
    obtain ⟨w, e1, e2, e3, -⟩ := retain_spec hp (live a ha)
    refine ⟨_, by rw [St.op, e1]; rfl, counted_iff.2 ⟨e2, fun b => ?_⟩⟩
    show w.count b = (if b = a then n b + 1 else n b) + if s.pm = some b then 1 else 0
    rw [e3, hc]
    by_cases hb : b = a <;> simp [hb] <;> omega
  | drop a =>
    obtain ⟨w, e1, e2, e3, -⟩ := release_spec hp (live a ha)
    refine ⟨_, by rw [St.op, e1]; rfl, counted_iff.2 ⟨e2, fun b => ?_⟩⟩
    show w.count b = (if b = a then n b - 1 else n b) + if s.pm = some b then 1 else 0
    rw [e3, hc]
    by_cases hb : b = a
    · subst hb
      have : 0 < n b := ha
      simp only [if_true]
      omega
    · simp [hb]
  | header hd =>
    obtain ⟨s', m, -, e, -, -, -, e'⟩ := header_spec h ha
    exact ⟨s', e, e'⟩
  | ax x =>
    obtain ⟨m, hm, -⟩ := prefixes_live h
    exact ⟨_, writeLines_spec h hm (by intro y hy; rw [List.mem_singleton.1 hy]; exact ha), h⟩
  | footer => exact ⟨_, rfl, h⟩

/-- References after several operations. -/
def Own.afterAll (n : Own) (ops : List Op) : Own := ops.foldl Own.after n

theorem run_spec : ∀ (ops : List Op) {s : St} {n : Own}, Counted s n → Calm s n ops →
    ∃ s', s.run ops = some s' ∧ Counted s' (n.afterAll ops)
  | [], s, _, h, _ => ⟨s, rfl, h⟩
  | op :: ops, s, n, h, hc => by
    obtain ⟨s1, e1, h1⟩ := op_spec h hc.1
    obtain ⟨s2, e2, h2⟩ := run_spec ops h1 (hc.2 s1 e1)
    exact ⟨s2, by rw [St.run, e1]; exact e2, h2⟩

theorem run_append (ops ops' : List Op) (s : St) : s.run (ops ++ ops') = (s.run ops).bind fun s => s.run ops' := by
  induction ops generalizing s with
  | nil => rfl
  | cons op ops ih =>
    show (s.op op).bind _ = ((s.op op).bind _).bind _
    cases s.op op with
    | none => rfl
    | some s => exact ih s

theorem calm_append : ∀ {ops ops' : List Op} {s s' : St} {n : Own}, Calm s n (ops ++ ops') → s.run ops = some s' →
    Calm s' (n.afterAll ops) ops'
  | [], _, s, s', n, h, e => by cases e; exact h
  | op :: ops, ops', s, s', n, h, e => by
    rw [St.run] at e
    cases e1 : s.op op with
    | none => rw [e1] at e; cases e
    | some s1 =>
      rw [e1] at e
      exact calm_append (ops := ops) (n := n.after op) (h.2 s1 e1) e

/-! ## Text -/

theorem within_spec : ∀ (ops : List Op) {s : St} {n : Own} {m : Option PMap}, Counted s n → Calm s n ops →
    s.mem.contents s.pm = some m → (∀ op ∈ ops, Within s.pm op) →
    ∃ s', s.run ops = some s' ∧ Counted s' (n.afterAll ops) ∧ s'.pm = s.pm ∧
      s'.out = s.out ++ ((axioms ops).map fun x => writeLine (lookupOf m) x.obj).flatten
  | [], s, n, m, h, _, _, _ => ⟨s, rfl, h, rfl, by simp [axioms]⟩
  | op :: ops, s, n, m, h, hc, hm, hw => by
    obtain ⟨s1, e1, h1⟩ := op_spec h hc.1
    have hw1 := hw op (by simp)
    obtain ⟨hp, hcount⟩ := counted_iff.1 h
    have hh : s1.pm = s.pm ∧ s1.mem.contents s.pm = some m ∧
        s1.out ++ ((axioms ops).map fun x => writeLine (lookupOf m) x.obj).flatten =
          s.out ++ ((axioms (op :: ops)).map fun x => writeLine (lookupOf m) x.obj).flatten := by
      have live : ∀ a, s.pm = some a → 0 < s.mem.count a := fun a e => by rw [hcount, if_pos e]; omega
      cases op with
      | new a w =>
        cases e1
        refine ⟨rfl, ?_, rfl⟩
        rw [← hm]
        refine contents_same fun b hb => ?_
        have : b ≠ a := by
          rintro rfl
          obtain ⟨x, e, -⟩ := live_of_count (live b hb)
          rw [show s.mem b = none from hc.1] at e; cases e
        exact congrArg _ (put_other _ _ this)
      | set a w =>
        obtain ⟨x, e, -⟩ := live_of_count (w := s.mem) (a := a) (by rw [hcount]; have : 0 < n a := hc.1; omega)
        rw [St.op, e] at e1
        cases e1
        refine ⟨rfl, ?_, rfl⟩
        rw [← hm]
        refine contents_same fun b hb => ?_
        have : b ≠ a := by rintro rfl; exact hw1 hb
        exact congrArg _ (put_other _ _ this)
      | keep a =>
        obtain ⟨w, e, -, -, e4⟩ := retain_spec hp (a := a) (by rw [hcount]; have : 0 < n a := hc.1; omega)
        rw [St.op, e] at e1
        cases e1
        refine ⟨rfl, ?_, rfl⟩
        rw [← hm]
        exact contents_same fun b _ => e4 b
      | drop a =>
        obtain ⟨w, e, e2, e3, e4⟩ := release_spec hp (a := a) (by rw [hcount]; have : 0 < n a := hc.1; omega)
        rw [St.op, e] at e1
        cases e1
        refine ⟨rfl, ?_, rfl⟩
        rw [← hm]
        refine contents_same fun b hb => e4 b ?_
        rw [e3, hcount, if_pos hb]
        by_cases hba : b = a
        · subst hba; rw [if_pos rfl]; have : 0 < n b := hc.1; omega
        · rw [if_neg hba]; omega
      | header _ => exact absurd hw1 id
      | footer => exact absurd hw1 id
      | ax x =>
        have := writeLines_spec h hm (xs := [x]) (by intro y hy; rw [List.mem_singleton.1 hy]; exact hc.1)
        rw [St.op, this] at e1
        cases e1
        exact ⟨rfl, hm, by simp [axioms]⟩
    obtain ⟨a1, a2, a3⟩ := hh
    obtain ⟨s2, e2, h2, b1, b2⟩ := within_spec ops h1 (hc.2 s1 e1) (by rw [a1]; exact a2)
      (by rw [a1]; exact fun op h => hw op (by simp [h]))
    exact ⟨s2, by rw [St.run, e1]; exact e2, h2, by rw [b1, a1], by rw [b2, a3]⟩

/-- The text of a document. -/
def streamText (m : Option PMap) (h : Header) (xs : List Ref) : Str :=
  headerText m h ++ ((xs.map fun x => writeLine (lookupOf m) x.obj).flatten ++ [41, 10])

theorem stream_text {m : Option PMap} {h : Header} {xs : List Ref} {is : List Iri}
    (hi : h.imports.map Ref.obj = is.map (fun i => Obj.prim (.iri i))) :
    streamText m h xs = ((declared (fwdOf m)).map fun e => writePrefix e.1.txt e.2).flatten ++
      ontoText (lookupOf m) h.iri h.version is (h.annots.map Ref.obj) (xs.map Ref.obj) [] := by
  have e1 : h.imports.map (fun x => writeImport x.obj) = is.map fun i => writeImport (.prim (.iri i)) := by
    have := congrArg (List.map writeImport) hi
    simpa [List.map_map, Function.comp_def] using this
  have e2 : (m.map writePrefixes).getD [] = ((declared (fwdOf m)).map fun e => writePrefix e.1.txt e.2).flatten := by
    cases m with
    | none => rfl
    | some m => exact writePrefixes_eq m
  simp only [streamText, headerText, headText, e1, e2, ontoText, List.map_map, Function.comp_def, List.append_assoc,
    List.cons_append]

theorem agree_of {m : Option PMap} {h : Header} {xs : List Ref} (ho : StreamOk m h xs) {ks : List Nat} (hk : ks.length = 4)
    {dflt : Fwd} (hd : Distinct dflt) (hc : ∀ w, m = some w → Compatible w dflt) (addr : Nat) :
    Agree (lookupOf m) (declare addr (declared (fwdOf m)) (create ks dflt)) ∧
      ∀ e ∈ declared (fwdOf m), PlainPrefix e.1.txt ∧ ∀ c ∈ e.2, IriChar c := by
  cases m with
  | none => exact ⟨⟨nofun, nofun⟩, nofun⟩
  | some w =>
    have : DocOk ⟨w, none, none, Onto.empty⟩ := ⟨ho.history w rfl, ho.sound w rfl, ho.plain w rfl, ho.chars w rfl, nofun, nofun, nofun, nofun, nofun⟩
    exact ⟨(declare_maps this hk hd (hc w rfl) addr).agree, declared_ok this⟩

theorem read_stream {m : Option PMap} {h : Header} {xs : List Ref} (ho : StreamOk m h xs) {ks : List Nat} (hk : ks.length = 4)
    {dflt : Fwd} (hd : Distinct dflt) (hc : ∀ w, m = some w → Compatible w dflt) (addr : Nat) :
    ∃ items, StreamTells m h xs items ∧ ∀ {σ : Type} (k : Callback σ Item), Accepts k → ∀ s,
      funcRead k (create ks dflt) addr (streamText m h xs) s = (give k s items, .ok) := by
  obtain ⟨is, h1, h2⟩ := imports_iris ho.imports
  refine ⟨_, ⟨declared (fwdOf m), is, List.filter_sublist, fun e he => ?_, h1, rfl⟩, fun k hh s => ?_⟩
  · rw [← reserved_iff]
    simp [declared, he]
  · obtain ⟨ha, hp⟩ := agree_of ho hk hd hc addr
    have hlex := lex_prefixes _ hp (ontoText (lookupOf m) h.iri h.version is
      (h.annots.map Ref.obj) (xs.map Ref.obj) [])
    have hlen : (ontoText (lookupOf m) h.iri h.version is (h.annots.map Ref.obj)
        (xs.map Ref.obj) []).length ≤ (streamText m h xs).length := by
      rw [stream_text h1, List.length_append]; omega
    rw [← stream_text h1] at hlex
    rw [funcRead, hlex, readPrefixes_eq hh]
    · simp only
      rw [readOntology_eq hh _ ho.iri ho.version h2 ?_ ?_ hlen]
      · rw [if_pos (by rfl)]
        exact congrArg (·, Outcome.ok) (give_append ..).symm
      · intro x hx
        obtain ⟨y, hy, rfl⟩ := List.mem_map.1 hx
        obtain ⟨a, e, h⟩ := ho.annots y hy
        rw [e]; exact rt_annot ha a h
      · intro x hx
        obtain ⟨y, hy, rfl⟩ := List.mem_map.1 hx
        obtain ⟨a, e, h⟩ := ho.axioms y hy
        rw [e]; exact rt_axiom ha a h
    · rw [ontoText, lex_kw]
      exact nofun

end Cowl.FSess
