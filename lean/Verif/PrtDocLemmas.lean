import Verif.PrtFrameLemmas
import Verif.PrtConstrProps
import Verif.PrtIndexProps
import Verif.FuncDocLemmas
/-!
# Lemmas: reading back frames
-/
namespace Cowl.Prt
open Func (Item collectAxioms)
open FuncSpec (Accepts give)
open Ast Change

section
variable {σ : Type} {E : Env} {h : Callback σ (Bool × Item)}

/-- The handler, called with additions only or with removals only. -/
def told (h : Callback σ (Bool × Item)) (rm : Bool) : Callback σ Item := fun s i => h s (rm, i)

/-- Reading all that is left. -/
def run (E : Env) (h : Callback σ (Bool × Item)) (s : FSt σ) : σ × End := frames E h (s.dec.inp.length + 1) s

theorem run_step (hu : E.u.Lawful) {s s' : FSt σ} (e : frame E h s = .go s') : run E h s = run E h s' := by
  unfold run
  rw [frames, e]
  exact frames_fuel hu _ _ (frame_shrinks hu e) _ (Nat.lt_succ_self _)

/-- A part of a frame is read: the bytes, the items that go to the handler, the index
before and after. -/
def Part (h : Callback σ (Bool × Item)) (rm : Bool) (body : FSt σ → FRes σ) (d : DIndex) (b : Str) (is : List Item)
    (d' : DIndex) : Prop :=
  ∀ rest ctx f, body ⟨ctx, ⟨b ++ rest, d, f⟩, rm, .ok⟩ = .go ⟨give (told h rm) ctx is, ⟨rest, d', f⟩, rm, .ok⟩

/-- Some frames are read. -/
def FR (E : Env) (h : Callback σ (Bool × Item)) (rm : Bool) (d : DIndex) (b : Str) (is : List Item) (d' : DIndex) : Prop :=
  ∀ rest ctx f, run E h ⟨ctx, ⟨b ++ rest, d, f⟩, rm, .ok⟩ = run E h ⟨give (told h rm) ctx is, ⟨rest, d', f⟩, rm, .ok⟩

theorem FR.nil {rm : Bool} {d : DIndex} : FR E h rm d [] [] d := fun _ _ _ => rfl

theorem FR.append {rm : Bool} {d d' d'' : DIndex} {b b' : Str} {is is' : List Item} (h1 : FR E h rm d b is d')
    (h2 : FR E h rm d' b' is' d'') : FR E h rm d (b ++ b') (is ++ is') d'' := by
  intro rest ctx f
  rw [List.append_assoc, h1, h2, Func.give_append]

theorem FR.cast {rm : Bool} {d d' : DIndex} {b b' : Str} {is is' : List Item} (h1 : FR E h rm d b is d')
    (e : b' = b) (e' : is' = is) : FR E h rm d b' is' d' := by rw [e, e']; exact h1

/-- A header and what `frameOf` does. -/
theorem fr_frame (hu : E.u.Lawful) {rm : Bool} {d d' : DIndex} {b : Str} {is : List Item} {c : UInt8}
    (hp : Part h rm (frameOf E h c) d b is d') : FR E h rm d (c :: b) is d' :=
  fun rest ctx f => run_step hu (hp rest ctx f)

theorem deliver_ok {rm : Bool} (ha : Accepts (told h rm)) (i : Item) (ctx : σ) (d : DSt) :
    deliver h i ⟨ctx, d, rm, .ok⟩ = .go ⟨give (told h rm) ctx [i], d, rm, .ok⟩ := by
  have e := ha ctx i
  unfold told at e
  unfold deliver
  simp only [e]
  rfl

/-- One thing read and delivered. -/
theorem part_get {α : Type} {rm : Bool} {x : Dec α} {k : α → FSt σ → FRes σ} {d : DIndex} {b : Str} {a : α} {is : List Item}
    (hx : Rt x d b a) (hk : ∀ ctx s, k a ⟨ctx, s, rm, .ok⟩ = .go ⟨give (told h rm) ctx is, s, rm, .ok⟩) :
    Part h rm (fun s => s.get x k) d b is d := by
  intro rest ctx f
  simp only [FSt.get, hx rest f]
  exact hk _ _

theorem part_times {α : Type} {rm : Bool} {body : FSt σ → FRes σ} {enc : α → Out} {is : α → List Item} {step : DIndex → α → DIndex}
    (I : DIndex → Prop) : ∀ (xs : List α) (d : DIndex), I d →
    (∀ d, I d → ∀ x ∈ xs, Part h rm body d (enc x).bytes (is x) (step d x) ∧ I (step d x)) →
    Part h rm (times body xs.length) d (cat (xs.map enc)).bytes (xs.flatMap is) (xs.foldl step d)
  | [], d, _, _ => fun _ _ _ => rfl
  | x :: xs, d, hi, hx => by
    intro rest ctx f
    have h1 := hx d hi x (by simp)
    have h2 := part_times I xs (step d x) h1.2 fun d hd y hy => hx d hd y (by simp [hy])
    simp only [List.length_cons, times, List.map_cons, cat_cons, append_bytes, List.append_assoc, List.flatMap_cons,
      List.foldl_cons, Func.give_append]
    rw [h1.1]
    exact h2 rest _ f

/-- A count and items. -/
theorem part_list (hu : E.u.Lawful) {α : Type} {rm : Bool} {body : FSt σ → FRes σ}
    {enc : α → Out} {is : α → List Item} {step : DIndex → α → DIndex}
    (I : DIndex → Prop) (xs : List α) (d : DIndex) (hi : I d) (hl : xs.length < 4294967296)
    (hx : ∀ d, I d → ∀ x ∈ xs, Part h rm body d (enc x).bytes (is x) (step d x) ∧ I (step d x)) :
    Part h rm (counted E body) d ((vint E.u xs.length).bytes ++ (cat (xs.map enc)).bytes) (xs.flatMap is) (xs.foldl step d) := by
  intro rest ctx f
  rw [List.append_assoc]
  have := part_times I xs d hi hx rest ctx f
  unfold counted FSt.get
  simp only [rt_varint hu hl _ f]
  exact this

/-- A frame with a count and items; nothing is written if there are none. -/
theorem fr_list (hu : E.u.Lawful) {α : Type} {rm : Bool} {body : FSt σ → FRes σ} {c : UInt8}
    (hc : frameOf E h c = counted E body)
    {enc : α → Out} {is : α → List Item} {step : DIndex → α → DIndex}
    (I : DIndex → Prop) (xs : List α) (d : DIndex) (hi : I d) (hl : xs.length < 4294967296)
    (hx : ∀ d, I d → ∀ x ∈ xs, Part h rm body d (enc x).bytes (is x) (step d x) ∧ I (step d x)) :
    FR E h rm d (listFrame E.u c (xs.map enc)).bytes (xs.flatMap is) (xs.foldl step d) := by
  unfold listFrame
  cases xs with
  | nil => exact FR.nil
  | cons x xs =>
    rw [if_neg (by simp)]
    rw [append_bytes, append_bytes, raw_bytes, List.append_assoc, List.singleton_append]
    refine fr_frame hu ?_
    rw [hc, List.length_map]
    exact part_list hu I (x :: xs) d hi hl hx

/-- What holds of the bytes of frames of data, and of the items in them, as long as it is
shown of single frames. -/
structure Closed (E : Env) (h : Callback σ (Bool × Item)) (rm : Bool) (d : DIndex) (P : Str → List Item → Prop) : Prop where
  nil : P [] []
  app : ∀ {b b' is is'}, P b is → P b' is' → P (b ++ b') (is ++ is')
  frame : ∀ {c : UInt8} {b is}, 6 ≤ c.toNat % 64 → Part h rm (frameOf E h c) d b is d → P (c :: b) is

theorem closed_fr (hu : E.u.Lawful) (rm : Bool) (d : DIndex) : Closed E h rm d fun b is => FR E h rm d b is d :=
  ⟨FR.nil, FR.append, fun _ h => fr_frame hu h⟩

theorem cl_list (hu : E.u.Lawful) {α : Type} {rm : Bool} {d : DIndex} {P : Str → List Item → Prop} (hP : Closed E h rm d P)
    {body : FSt σ → FRes σ} {c : UInt8} (h6 : 6 ≤ c.toNat % 64)
    (hc : frameOf E h c = counted E body) {enc : α → Out} {is : α → List Item} (xs : List α) (hl : xs.length < 4294967296)
    (hx : ∀ x ∈ xs, Part h rm body d (enc x).bytes (is x) d) :
    P (listFrame E.u c (xs.map enc)).bytes (xs.flatMap is) := by
  unfold listFrame
  cases xs with
  | nil => exact hP.nil
  | cons x xs =>
    rw [if_neg (by simp)]
    rw [append_bytes, append_bytes, raw_bytes, List.append_assoc, List.singleton_append]
    refine hP.frame h6 ?_
    rw [hc, List.length_map]
    have := part_list (step := fun d _ => d) hu (fun d' => d' = d) (x :: xs) d rfl hl (fun d' e y hy => by subst e; exact ⟨hx y hy, rfl⟩)
    have e : ∀ xs : List α, xs.foldl (fun d _ => d) d = d := fun xs => by induction xs <;> simp_all
    rw [e] at this
    exact this

/-! ## Declarations -/

/-- Declarations with 32-bit lengths and indices. -/
structure Decls.Short (ds : Decls) : Prop where
  pfxs : ds.pfxs.length < 4294967296
  nss : ds.nss.length < 4294967296
  iris : ds.iris.length < 4294967296
  anons : ds.anons.length < 4294967296
  pfx : ∀ p ∈ ds.pfxs, p.1.length < 4294967296 ∧ p.2.length < 4294967296
  ns : ∀ n ∈ ds.nss, n.length < 4294967296
  iri : ∀ i ∈ ds.iris, i.1 < 4294967296 ∧ i.2.length < 4294967296
  anon : ∀ s ∈ ds.anons, s.length < 4294967296

/-- A namespace more. -/
def DIndex.withNs (d : DIndex) (n : Str) : DIndex := { d with nss := d.nss ++ [n] }

/-- Some names more. -/
def DIndex.withIds (d : DIndex) (is : List Id) : DIndex := { d with ids := d.ids ++ is }

theorem foldl_withNs {α : Type} (g : α → Str) : ∀ (xs : List α) (d : DIndex),
    xs.foldl (fun d x => d.withNs (g x)) d = { d with nss := d.nss ++ xs.map g }
  | [], d => by simp
  | x :: xs, d => by rw [List.foldl_cons, foldl_withNs g xs]; simp [DIndex.withNs]

theorem foldl_withIds {α : Type} (g : α → List Id) : ∀ (xs : List α) (d : DIndex),
    xs.foldl (fun d x => d.withIds (g x)) d = { d with ids := d.ids ++ xs.flatMap g }
  | [], d => by simp
  | x :: xs, d => by rw [List.foldl_cons, foldl_withIds g xs]; simp [DIndex.withIds]

theorem mapM_flatMap {α β : Type} {f : α → Option β} : ∀ {l : List α} {m : List β}, l.mapM f = some m →
    m = l.flatMap (fun x => (f x).toList) ∧ ∀ x ∈ l, (f x).isSome
  | [], m, e => by simp at e; subst e; exact ⟨rfl, nofun⟩
  | x :: l, m, e => by
    simp only [List.mapM_cons, Option.bind_eq_bind, Option.bind_eq_some_iff, Option.pure_def, Option.some.injEq] at e
    obtain ⟨y, hy, ys, hys, rfl⟩ := e
    have ih := mapM_flatMap hys
    refine ⟨?_, ?_⟩
    · rw [List.flatMap_cons, ← ih.1, hy]; rfl
    · intro z hz
      rcases List.mem_cons.1 hz with rfl | hz
      · rw [hy]; rfl
      · exact ih.2 z hz

theorem fr_decls (hu : E.u.Lawful) {rm : Bool} (ha : Accepts (told h rm)) {ds : Decls} {d d' : DIndex}
    (hr : d.read ds = some d') (hs : ds.Short) :
    FR E h rm d (encDecls E.u true ds).bytes (ds.pfxs.map fun p => Item.prefixDecl p.1 p.2) d' := by
  simp only [DIndex.read, Option.map_eq_some_iff] at hr
  obtain ⟨is, hm, rfl⟩ := hr
  obtain ⟨him, hall⟩ := mapM_flatMap hm
  have h1 : FR E h rm d (listFrame E.u 68 (ds.pfxs.map fun p => encStr E.u p.1 ++ encStr E.u p.2)).bytes
      (ds.pfxs.flatMap fun p => [Item.prefixDecl p.1 p.2]) (ds.pfxs.foldl (fun d p => d.withNs p.2) d) := by
    refine fr_list hu (body := prefixDecl E h) (by funext s; rfl) (fun _ => True) _ _ trivial hs.pfxs fun d _ p hp => ⟨?_, trivial⟩
    intro rest ctx f
    simp only [prefixDecl, FSt.get, decPfx, bind_def, Dec.bind, append_bytes, List.append_assoc, rt_str hu (hs.pfx p hp).1 _ f,
      rt_str hu (hs.pfx p hp).2 _ f, pushNs]
    exact deliver_ok ha _ _ _
  have h2 : ∀ d : DIndex, FR E h rm d (listFrame E.u 4 (ds.nss.map (encStr E.u))).bytes
      (ds.nss.flatMap fun _ => []) (ds.nss.foldl (fun d n => d.withNs n) d) := by
    intro d
    refine fr_list hu (body := nsDecl E) (by funext s; rfl) (fun _ => True) _ _ trivial hs.nss fun d _ p hp => ⟨?_, trivial⟩
    intro rest ctx f
    simp only [nsDecl, FSt.get, decNs, bind_def, Dec.bind, rt_str hu (hs.ns p hp) _ f, pushNs]
    rfl
  generalize hN : d.nss ++ ds.pfxs.map (·.2) ++ ds.nss = N at *
  have h4 : ∀ d : DIndex, d.nss = N → FR E h rm d (listFrame E.u 69 (ds.iris.map fun i => vint E.u i.1 ++ encStr E.u i.2)).bytes
      (ds.iris.flatMap fun _ => []) (ds.iris.foldl (fun d i => d.withIds (readIri N i).toList) d) := by
    intro d hd
    refine fr_list hu (body := quiet (decIriDecl E)) (by funext s; rfl) (fun d => d.nss = N) _ _ hd hs.iris fun d hd p hp => ⟨?_, hd⟩
    intro rest ctx f
    have hp' := hall p hp
    simp only [readIri, Option.isSome_map] at hp'
    obtain ⟨n, hn⟩ := Option.isSome_iff_exists.1 hp'
    simp only [quiet, FSt.get, decIriDecl, bind_def, Dec.bind, append_bytes, List.append_assoc, rt_varint hu (hs.iri p hp).1 _ f,
      rt_str hu (hs.iri p hp).2 _ f, getNs, hd, hn, pushId, readIri, DIndex.withIds]
    rfl
  have h5 : ∀ d : DIndex, FR E h rm d (listFrame E.u 5 (ds.anons.map (encStr E.u))).bytes
      (ds.anons.flatMap fun _ => []) (ds.anons.foldl (fun d n => d.withIds [.anon n]) d) := by
    intro d
    refine fr_list hu (body := quiet (decAnonDecl E)) (by funext s; rfl) (fun _ => True) _ _ trivial hs.anons fun d _ p hp => ⟨?_, trivial⟩
    intro rest ctx f
    simp only [quiet, FSt.get, decAnonDecl, bind_def, Dec.bind, rt_str hu (hs.anon p hp) _ f, pushId]
    rfl
  have e1 : (ds.nss.foldl (fun d n => d.withNs n) (ds.pfxs.foldl (fun d p => d.withNs p.2) d)) = ⟨N, d.ids⟩ := by
    rw [foldl_withNs (fun p : Str × Str => p.2), foldl_withNs (fun n : Str => n)]
    simp [← hN]
  have key := (h1.append (h2 _)).append (e1 ▸ (h4 ⟨N, d.ids⟩ rfl).append (h5 _))
  rw [foldl_withIds, foldl_withIds, e1] at key
  have e2 : (⟨N, d.ids ++ is ++ ds.anons.map .anon⟩ : DIndex) =
      ⟨N, d.ids ++ (ds.iris.flatMap fun x => (readIri N x).toList) ++ ds.anons.flatMap fun n => [.anon n]⟩ := by
    rw [← him, ← List.map_eq_flatMap]
  rw [e2]
  refine key.cast ?_ ?_
  · simp [encDecls]
  · simp [← List.map_eq_flatMap]

theorem cat_all_ok : ∀ {ws : List Out}, (cat ws).ok = true → ∀ w ∈ ws, w.ok = true
  | [], _, _, hw => nomatch hw
  | w :: ws, h, x, hx => by
    simp only [cat_cons, append_ok, Bool.and_eq_true] at h
    rcases List.mem_cons.1 hx with rfl | hx
    · exact h.1
    · exact cat_all_ok h.2 x hx

theorem untilErr_eq : ∀ {ws : List Out}, (∀ w ∈ ws, w.ok = true) → untilErr ws = cat ws
  | [], _ => rfl
  | w :: ws, h => by
    rw [untilErr, cat_cons, untilErr_eq fun x hx => h x (by simp [hx])]
    exact if_pos (h w (by simp))

theorem listFrame_ok {u : Ulib} {c : UInt8} {ws : List Out} (h : ∀ w ∈ ws, w.ok = true) : (listFrame u c ws).ok = true := by
  unfold listFrame
  split
  · rfl
  · rw [append_ok, append_ok, cat_ok h]; rfl

theorem encDecls_ok (u : Ulib) (anon : Bool) (ds : Decls) : (encDecls u anon ds).ok = true := by
  unfold encDecls
  refine cat_ok fun w hw => ?_
  simp only [List.mem_cons, List.not_mem_nil, or_false] at hw
  rcases hw with rfl | rfl | rfl | rfl
  · refine listFrame_ok fun w hw => ?_
    obtain ⟨p, _, rfl⟩ := List.mem_map.1 hw; rfl
  · refine listFrame_ok fun w hw => ?_
    obtain ⟨p, _, rfl⟩ := List.mem_map.1 hw; rfl
  · refine listFrame_ok fun w hw => ?_
    obtain ⟨p, _, rfl⟩ := List.mem_map.1 hw; rfl
  · split
    · refine listFrame_ok fun w hw => ?_
      obtain ⟨p, _, rfl⟩ := List.mem_map.1 hw; rfl
    · rfl

/-! ## The rest of a document -/

theorem knows_ok {u : Ulib} {ids : Id → Option Nat} {d : DIndex} {i : Id} (hk : Knows ids d i) (off : Nat) : (encId u ids off i).ok = true := by
  obtain ⟨n, h1, -⟩ := hk
  simp only [encId, h1]; rfl

variable {ids : Id → Option Nat} {d : DIndex}

/-- The items of IRI and version: without an IRI there is no version. -/
def idItems (iri version : Option Iri) : List Item :=
  (iri.map Item.iri).toList ++ (iri.bind fun _ => version.map Item.version).toList

theorem cl_iriVersion (hu : E.u.Lawful) {rm : Bool} (ha : Accepts (told h rm)) {P : Str → List Item → Prop}
    (hP : Closed E h rm d P) {iri version : Option Iri}
    (hi : ∀ i, iri = some i → Knows ids d (.iri i)) (hv : ∀ i, version = some i → Knows ids d (.iri i)) :
    (encIriVersion E.u ids iri version).ok = true ∧
      P (encIriVersion E.u ids iri version).bytes (idItems iri version) := by
  unfold encIriVersion idItems
  cases iri with
  | none => exact ⟨rfl, hP.nil⟩
  | some i =>
    have hi := hi i rfl
    cases version with
    | none =>
      refine ⟨by simp [knows_ok hi], hP.frame (c := 6) (by decide) ?_⟩
      intro rest ctx f
      have : frameOf E h 6 = iriVersion E h false := by funext s; rfl
      rw [this]
      simp only [iriVersion, FSt.get, List.append_eq, List.nil_append, rt_iri hu hi rest f, deliver_ok ha, FRes.andThen]
      rfl
    | some v =>
      have hv := hv v rfl
      refine ⟨by simp [knows_ok hi, knows_ok hv], ?_⟩
      have key : P (134 :: ((encId E.u ids 0 (.iri i)).bytes ++ (encId E.u ids 0 (.iri v)).bytes)) [.iri i, .version v] := by
        refine hP.frame (c := 134) (by decide) ?_
        intro rest ctx f
        have : frameOf E h 134 = iriVersion E h true := by funext s; rfl
        rw [this]
        simp only [iriVersion, FSt.get, List.append_assoc, rt_iri hu hi _ f, deliver_ok ha, FRes.andThen, if_true, rt_iri hu hv _ f]
        rfl
      have e : (raw [134] ++ encId E.u ids 0 (.iri i) ++ encId E.u ids 0 (.iri v)).bytes =
          134 :: ((encId E.u ids 0 (.iri i)).bytes ++ (encId E.u ids 0 (.iri v)).bytes) := by simp
      rw [← e] at key
      exact key

theorem cl_imports (hu : E.u.Lawful) {rm : Bool} (ha : Accepts (told h rm)) {P : Str → List Item → Prop}
    (hP : Closed E h rm d P) {is : List Iri} (hl : is.length < 4294967296)
    (hi : ∀ i ∈ is, Knows ids d (.iri i)) :
    (encImports E.u ids (is.map fun i => .prim (.iri i))).ok = true ∧
      P (encImports E.u ids (is.map fun i => .prim (.iri i))).bytes (is.map Item.import) := by
  have hok : ∀ w ∈ is.map (fun i => encId E.u ids 0 (.iri i)), w.ok = true := by
    intro w hw
    obtain ⟨i, hm, rfl⟩ := List.mem_map.1 hw
    exact knows_ok (hi i hm) 0
  have e : encImports E.u ids (is.map fun i => .prim (.iri i)) = listFrame E.u 7 (is.map fun i => encId E.u ids 0 (.iri i)) := by
    unfold encImports listFrame
    have : (is.map fun i => Obj.prim (.iri i)).map (encImport E.u ids) = is.map fun i => encId E.u ids 0 (.iri i) := by
      simp [encImport, Function.comp_def]
    rw [this, untilErr_eq hok]
    simp
  rw [e]
  refine ⟨listFrame_ok hok, ?_⟩
  have := cl_list (is := fun i => [Item.import i]) (enc := fun i => encId E.u ids 0 (.iri i))
    hu hP (body := importItem E h) (c := 7) (by decide) (by funext s; rfl) is hl
    (fun i hm => part_get (rt_iri hu (hi i hm)) fun ctx s => deliver_ok ha _ _ _)
  rwa [← List.map_eq_flatMap] at this

theorem cl_annots (hu : E.u.Lawful) {rm : Bool} (ha : Accepts (told h rm)) {P : Str → List Item → Prop}
    (hP : Closed E h rm d P) {as : List Annot} (hl : as.length < 4294967296)
    (hc : ∀ a ∈ as, a.Meets (prtContents E.u)) (hi : ∀ a ∈ as, Indexed ids d a.toObj) :
    (encAnnots E.u ids (as.map Annot.toObj)).ok = true ∧
      P (encAnnots E.u ids (as.map Annot.toObj)).bytes (as.map fun a => Item.annot a.toObj) := by
  have hok : ∀ w ∈ as.map (fun a => encObj E.u ids a.toObj), w.ok = true := by
    intro w hw
    obtain ⟨a, hm, rfl⟩ := List.mem_map.1 hw
    obtain ⟨b, e, -⟩ := C32_annotation_partial E hu ids d a (hc a hm) (hi a hm)
    rw [e]
  have e : encAnnots E.u ids (as.map Annot.toObj) = listFrame E.u 8 (as.map fun a => encObj E.u ids a.toObj) := by
    simp [encAnnots, Function.comp_def]
  rw [e]
  refine ⟨listFrame_ok hok, ?_⟩
  have := cl_list (is := fun a : Annot => [Item.annot a.toObj]) (enc := fun a : Annot => encObj E.u ids a.toObj)
    hu hP (body := annotItem E h) (c := 8) (by decide) (by funext s; rfl) as hl
    (fun a hm => by
      obtain ⟨b, e, hb⟩ := C32_annotation_partial E hu ids d a (hc a hm) (hi a hm)
      rw [e]
      intro rest ctx f
      simp only [annotItem, FSt.get]
      rw [hb rest f _ (Nat.lt_succ_self _)]
      exact deliver_ok ha _ _ _)
  rwa [← List.map_eq_flatMap] at this

theorem cl_axioms (hu : E.u.Lawful) {rm : Bool} (ha : Accepts (told h rm)) {P : Str → List Item → Prop}
    (hP : Closed E h rm d P) : ∀ {as : List Axiom},
    (∀ a ∈ as, a.Meets (prtContents E.u)) → (∀ a ∈ as, Indexed ids d a.toObj) →
    (encAxioms E.u ids (as.map Axiom.toObj)).ok = true ∧
      P (encAxioms E.u ids (as.map Axiom.toObj)).bytes (as.map fun a => Item.ax a.toObj)
  | [], _, _ => ⟨rfl, hP.nil⟩
  | a :: as, hc, hi => by
    obtain ⟨h1, h2⟩ := cl_axioms hu ha hP (as := as) (fun x hx => hc x (by simp [hx])) (fun x hx => hi x (by simp [hx]))
    obtain ⟨c, b, e, h9, hb⟩ := C32_partial E hu ids d a (hc a (by simp)) (hi a (by simp))
    have e' : encAxioms E.u ids ((a :: as).map Axiom.toObj) = ⟨c :: b, true⟩ ++ encAxioms E.u ids (as.map Axiom.toObj) := by
      simp only [encAxioms, List.map_cons, untilErr, e, if_true]
    rw [e']
    refine ⟨by rw [append_ok, h1]; rfl, ?_⟩
    refine hP.app (is := [Item.ax a.toObj]) (hP.frame (by omega) ?_) h2
    intro rest ctx f
    have e2 : frameOf E h c = axiomFrame E h c := by
      funext s
      unfold frameOf
      split <;> first | omega | rfl
    rw [e2]
    simp only [axiomFrame, FSt.get]
    rw [hb rest f _ (Nat.lt_succ_self _)]
    simp only [if_true]
    exact deliver_ok ha _ _ _

end

/-! ## A chunk: declarations and data -/

/-- Sizes of an index that fit into the format. -/
structure Index.Short (x : Index) : Prop where
  ids : x.ids.vec.length < 4294967279
  nss : x.ns.pv.vec.length < 4294967296
  rem : ∀ i, .iri i ∈ x.ids.vec → i.rem.length < 4294967296
  anon : ∀ s, .anon s ∈ x.ids.vec → s.length < 4294967296
  ns : ∀ n ∈ x.ns.pv.vec, n.length < 4294967296
  pfx : ∀ n p, x.ns.pfx n = some p → p.length < 4294967296

/-- A name that the index has and that is read as it is. -/
def Index.Has (x : Index) (i : Id) : Prop := i ∈ x.ids.vec ∧ readAs i = i

theorem mapM_mem {α β : Type} {f : α → Option β} {l : List α} {m : List β} (e : l.mapM f = some m) {y : β} (hy : y ∈ m) :
    ∃ x ∈ l, f x = some y := by
  rw [(mapM_flatMap e).1] at hy
  obtain ⟨x, hx, h⟩ := List.mem_flatMap.1 hy
  exact ⟨x, hx, Option.mem_toList.1 h⟩

theorem mapM_length {α β : Type} {f : α → Option β} : ∀ {l : List α} {m : List β}, l.mapM f = some m → m.length = l.length
  | [], m, e => by simp at e; subst e; rfl
  | x :: l, m, e => by
    simp only [List.mapM_cons, Option.bind_eq_bind, Option.bind_eq_some_iff, Option.pure_def, Option.some.injEq] at e
    obtain ⟨y, hy, ys, hys, rfl⟩ := e
    simp [mapM_length hys]

theorem Agree.decls_short {x : Index} {d : DIndex} (h : Agree x d) (hs : x.Short) {ds : Decls} (e : x.decls = some ds) :
    ds.Short ∧ x.ns.pv.firsts.mapM (fun n => (x.ns.pfx n).map fun p => (p, n)) = some ds.pfxs := by
  simp only [Index.decls, Option.bind_eq_some_iff, Option.map_eq_some_iff] at e
  obtain ⟨ps, e1, is, e2, as, e3, rfl⟩ := e
  obtain ⟨a, b, hi, hp⟩ := h.ns
  obtain ⟨e', a', b', hi', ha, hb, he'⟩ := h.ids
  have hv := hi.vec
  have hv' := hi'.vec
  rw [hi.firsts] at e1 ⊢
  rw [hi'.firsts] at e2
  rw [hi'.seconds] at e3
  have hl : x.ns.pv.vec.length = d.nss.length + a.length + b.length := by rw [hv]; simp; omega
  have hl' : x.ids.vec.length = e'.length + a'.length + b'.length := by rw [hv']; simp; omega
  have h1 := hs.ids
  have h2 := hs.nss
  refine ⟨⟨?_, ?_, ?_, ?_, ?_, ?_, ?_, ?_⟩, e1⟩
  · show ps.length < _
    rw [mapM_length e1]; omega
  · show x.ns.pv.seconds.length < _
    rw [hi.seconds]; omega
  · show is.length < _
    rw [mapM_length e2]; omega
  · show as.length < _
    rw [mapM_length e3]; omega
  · intro p hp
    obtain ⟨n, hn, h⟩ := mapM_mem e1 hp
    obtain ⟨q, hq, rfl⟩ := Option.map_eq_some_iff.1 h
    exact ⟨hs.pfx n q hq, hs.ns n (by rw [hv]; simp [hn])⟩
  · intro n hn
    have hn : n ∈ x.ns.pv.seconds := hn
    rw [hi.seconds] at hn
    exact hs.ns n (by rw [hv]; simp [hn])
  · intro i hm
    obtain ⟨n, hn, h⟩ := mapM_mem e2 hm
    obtain ⟨r, rfl⟩ := ha n hn
    simp only [iriDecl, Option.map_eq_some_iff] at h
    obtain ⟨k, hk, rfl⟩ := h
    have := (hi.sync.idx_iff _ _).1 hk
    have hlt := (List.getElem?_eq_some_iff.1 this).1
    exact ⟨by show k < _; omega, hs.rem r (by rw [hv']; simp [hn])⟩
  · intro s hm
    obtain ⟨n, hn, h⟩ := mapM_mem e3 hm
    obtain ⟨r, rfl⟩ := hb n hn
    simp only [anonDecl, Option.some.injEq] at h
    subst h
    exact hs.anon _ (by rw [hv']; simp [hn])

theorem Agree.knows {x : Index} {d : DIndex} (h : Agree x d) (hs : x.Short) {i : Id} (hi : x.Has i) :
    Knows x.sync.ids.idx ⟨x.ns.pv.vec, x.ids.vec.map readAs⟩ i := by
  obtain ⟨k, hk⟩ := List.getElem?_of_mem hi.1
  obtain ⟨_, a, b, hv, _⟩ := h.ids
  have hlt := (List.getElem?_eq_some_iff.1 hk).1
  have := hs.ids
  exact ⟨k, (hv.sync.idx_iff i k).2 hk, by omega, by rw [List.getElem?_map, hk, Option.map_some, hi.2]⟩

/-- What is written in one go: its names are in the index, and it fits into the format. -/
structure Chunk (R : Req) (x : Index) (o : OntoSt) (is : List Iri) (as : List Annot) (xs : List Axiom) : Prop where
  imports : (o.onto.imports.getD []).map Ref.obj = is.map fun i => .prim (.iri i)
  annots : (o.onto.annot.getD []).map Ref.obj = as.map Annot.toObj
  axioms : (collectAxioms o.onto).map Ref.obj = xs.map Axiom.toObj
  has_iri : ∀ i, o.iri = some i → x.Has (.iri i)
  has_version : ∀ i, o.version = some i → x.Has (.iri i)
  has_import : ∀ i ∈ is, x.Has (.iri i)
  has_annot : ∀ a ∈ as, ∀ p, IterSpec.Occurs p a.toObj → x.Has (idOf p)
  has_axiom : ∀ a ∈ xs, ∀ p, IterSpec.Occurs p a.toObj → x.Has (idOf p)
  fit_annot : ∀ a ∈ as, a.Meets R
  fit_axiom : ∀ a ∈ xs, a.Meets R
  few_imports : is.length < 4294967296
  few_annots : as.length < 4294967296

/-- The items of a chunk, with the prefixes `ps`. -/
def chunkItems (ps : List (Str × Str)) (o : OntoSt) (is : List Iri) (as : List Annot) (xs : List Axiom) : List Item :=
  (ps.map fun p => Item.prefixDecl p.1 p.2) ++ idItems o.iri o.version ++ is.map Item.import ++
    (as.map fun a => Item.annot a.toObj) ++ xs.map fun a => Item.ax a.toObj

theorem fr_data {E : Env} (hu : E.u.Lawful) {x : Index} {d : DIndex} (h : Agree x d) (hs : x.Short) {o : OntoSt} {is : List Iri}
    {as : List Annot} {xs : List Axiom} (hc : Chunk (prtContents E.u) x o is as xs) :
    ∃ b ps, encData E.u true x o = (⟨b, true⟩, x.sync) ∧
      x.ns.pv.firsts.mapM (fun n => (x.ns.pfx n).map fun p => (p, n)) = some ps ∧
      ∀ {σ : Type} (k : Callback σ (Bool × Item)) (rm : Bool), Accepts (told k rm) →
        FR E k rm d b (chunkItems ps o is as xs) ⟨x.ns.pv.vec, x.ids.vec.map readAs⟩ := by
  obtain ⟨ds, h1, h2, -⟩ := h.flush
  obtain ⟨h3, h4⟩ := h.decls_short hs h1
  have kn := fun {i : Id} (hi : x.Has i) => h.knows hs hi
  have key : ∀ {σ : Type} (k : Callback σ (Bool × Item)) (rm : Bool), Accepts (told k rm) → _ := fun {σ} k rm ha =>
    And.intro (fr_decls (E := E) hu ha h2 h3) (And.intro
      (cl_iriVersion (E := E) hu ha (closed_fr hu rm _) (fun i hi => kn (hc.has_iri i hi)) (fun i hi => kn (hc.has_version i hi))) (And.intro
      (cl_imports (E := E) hu ha (closed_fr hu rm _) hc.few_imports (fun i hi => kn (hc.has_import i hi))) (And.intro
      (cl_annots (E := E) hu ha (closed_fr hu rm _) hc.few_annots hc.fit_annot (fun a hm p hp => kn (hc.has_annot a hm p hp)))
      (cl_axioms (E := E) hu ha (closed_fr hu rm _) hc.fit_axiom (fun a hm p hp => kn (hc.has_axiom a hm p hp))))))
  have k0 := key (σ := Unit) (fun s _ => (s, .ok)) false (fun _ _ => rfl)
  generalize hW : [encDecls E.u true ds, encIriVersion E.u x.sync.ids.idx o.iri o.version,
    encImports E.u x.sync.ids.idx (is.map fun i => .prim (.iri i)), encAnnots E.u x.sync.ids.idx (as.map Annot.toObj),
    encAxioms E.u x.sync.ids.idx (xs.map Axiom.toObj)] = W
  have hok : ∀ w ∈ W, w.ok = true := by
    intro w hw
    rw [← hW] at hw
    simp only [List.mem_cons, List.not_mem_nil, or_false] at hw
    rcases hw with rfl | rfl | rfl | rfl | rfl
    · exact encDecls_ok _ _ _
    · exact k0.2.1.1
    · exact k0.2.2.1.1
    · exact k0.2.2.2.1.1
    · exact k0.2.2.2.2.1
  have hcat : cat W = ⟨(cat W).bytes, true⟩ := by rw [← cat_ok hok]
  refine ⟨(cat W).bytes, ds.pfxs, ?_, h4, fun k rm ha => ?_⟩
  · unfold encData
    rw [h1]
    dsimp only
    rw [hc.imports, hc.annots, hc.axioms, hW, untilErr_eq hok, ← hcat]
  · have kk := key k rm ha
    refine FR.cast ((((kk.1.append kk.2.1.2).append kk.2.2.1.2).append kk.2.2.2.1.2).append kk.2.2.2.2.2) ?_ rfl
    simp [← hW]

end Cowl.Prt
