import Verif.ToString
import Verif.FuncProps
import Verif.LiteralProps
import Verif.XmlProps
import Verif.ObjProps
/-! # C104: the text of an object is whole, and tells what the object is -/
namespace Cowl
namespace Show
open Prefix Func FuncSpec Ast XmlSpec

theorem run_failed (cap : Nat) : ∀ (ws : List Str) (t : Str), (ws.foldl (Out.put cap) ⟨t, false⟩).ok = false
  | [], _ => rfl
  | _ :: ws, t => run_failed cap ws t

theorem run_from (cap : Nat) : ∀ (ws : List Str) (t : Str), t.length ≤ cap →
    if (t ++ ws.flatten).length ≤ cap then ws.foldl (Out.put cap) ⟨t, true⟩ = ⟨t ++ ws.flatten, true⟩
    else (ws.foldl (Out.put cap) ⟨t, true⟩).ok = false
  | [], t, h => by simp [h]
  | w :: ws, t, h => by
    by_cases hw : t.length + w.length ≤ cap
    · have e : Out.put cap ⟨t, true⟩ w = ⟨t ++ w, true⟩ := by simp [Out.put, hw]
      have := run_from cap ws (t ++ w) (by rw [List.length_append]; exact hw)
      rw [List.append_assoc] at this
      simpa [List.foldl_cons, e] using this
    · have e : Out.put cap ⟨t, true⟩ w = ⟨t, false⟩ := by simp [Out.put, hw]
      have hn : ¬ (t ++ (w :: ws).flatten).length ≤ cap := by
        simp only [List.flatten_cons, List.length_append]; omega
      rw [if_neg hn, List.foldl_cons, e]
      exact run_failed cap ws t

end Show
open Prefix Func FuncSpec Ast XmlSpec Show

/-- C104: a text is the whole text, whatever the pieces; or there is none, exactly if there is no
memory for it. -/
theorem C104_whole (buf : Bool) (cap : Nat) (ws : List Str) :
    toStringImpl buf cap ws = if buf = true ∧ ws.flatten.length ≤ cap then some ws.flatten else none := by
  cases buf with
  | false => rfl
  | true =>
    have := run_from cap ws [] (Nat.zero_le _)
    rw [List.nil_append] at this
    unfold toStringImpl run
    rw [if_neg (by simp)]
    dsimp only
    by_cases hc : ws.flatten.length ≤ cap
    · rw [if_pos hc] at this
      rw [this]; dsimp only
      rw [if_pos rfl, if_pos ⟨rfl, hc⟩]
    · rw [if_neg hc] at this
      rw [if_neg (by rw [this]; simp), if_neg (fun h => hc h.2)]

/-- C104: the text of an IRI is read as that IRI, exactly if it is split as C02 prescribes. -/
theorem C104_iri (cap : Nat) (i : Iri) (hn : i.ns ++ i.rem ≠ []) (hc : (i.ns ++ i.rem).length ≤ cap) :
    ∃ txt, iriToString true cap i = some txt ∧
      (iriFromString txt = some (i.ns, i.rem) ↔ IsSplit (i.ns ++ i.rem) i.ns i.rem) := by
  have e : (iriPieces i).flatten = i.ns ++ i.rem := by simp [iriPieces]
  refine ⟨i.ns ++ i.rem, by rw [iriToString, C104_whole, e, if_pos ⟨rfl, hc⟩], ?_⟩
  obtain ⟨n, r, h1, h2⟩ := C02_split _ hn
  rw [h1]
  constructor
  · intro h; cases h; exact h2
  · intro h
    obtain ⟨rfl, rfl⟩ := C02_split_unique _ _ _ _ _ h2 h
    rfl

/-- C104, in part: the text of an axiom, in the syntax of the default writer, is read as that axiom,
under the conditions of C31. -/
theorem C104_partial {w r : PMap} (hm : Maps w r) (a : Axiom) (h : a.Meets (textReq (lookup w))) {d : Dflt}
    (hd : Functional (lookup w) d) (addr : Str) (rc : UInt32) :
    ∃ txt, (∀ cap, txt.length ≤ cap → objToString true cap (some d) a.toObj addr rc = some (some txt)) ∧
      (∀ cap, ¬ txt.length ≤ cap → objToString true cap (some d) a.toObj addr rc = some none) ∧
      ∀ rest, readAs r .ax (txt ++ rest) = some (a.toObj, lex rest) := by
  obtain ⟨txt, h1, h2⟩ := C31_partial hm a h
  obtain ⟨f, hf, hw⟩ := hd
  rw [← hw] at h1
  obtain ⟨ws, e, rfl⟩ := Option.map_eq_some_iff.1 h1
  have ht : ∀ cap, objToString true cap (some d) a.toObj addr rc = some (toStringImpl true cap ws) := by
    intro cap
    simp only [objToString, cowlWrite, Option.bind_some, hf, e, Option.map_some]
  refine ⟨_, fun cap hc => ?_, fun cap hc => ?_, h2⟩
  · rw [ht, C104_whole, if_pos ⟨rfl, hc⟩]
  · rw [ht, C104_whole, if_neg (fun x => hc x.2)]

/-- C104: axioms with the same text are the same, if it is that of the functional syntax. -/
theorem C104_injective {w : PMap} (hm : Maps w w) {a b : Axiom} (ha : a.Meets (textReq (lookup w)))
    (hb : b.Meets (textReq (lookup w))) {d : Dflt} (hd : Functional (lookup w) d) {cap : Nat} {t addr addr' : Str}
    {rc rc' : UInt32} (h1 : objToString true cap (some d) a.toObj addr rc = some (some t))
    (h2 : objToString true cap (some d) b.toObj addr' rc' = some (some t)) : a.toObj = b.toObj := by
  obtain ⟨s, e1, e2, e3⟩ := C104_partial hm a ha hd addr rc
  obtain ⟨s', f1, f2, f3⟩ := C104_partial hm b hb hd addr' rc'
  have hs : s = t := by
    by_cases hc : s.length ≤ cap
    · have := e1 cap hc; rw [h1] at this; cases this; rfl
    · have := e2 cap hc; rw [h1] at this; cases this
  have hs' : s' = t := by
    by_cases hc : s'.length ≤ cap
    · have := f1 cap hc; rw [h2] at this; cases this; rfl
    · have := f2 cap hc; rw [h2] at this; cases this
  subst hs; subst hs'
  have h4 := e3 []
  rw [f3 []] at h4
  exact (congrArg Prod.fst (Option.some.inj h4)).symm

/-- C104: without a default writer, or with one that cannot write objects, the text begins with the
name of the type, which can be read up to the bracket; the text is the debug text. -/
theorem C104_debug (w : Option Dflt) (hw : ∀ d, w = some d → d.write = none) (o : Obj) (addr : Str) (rc : UInt32)
    {cap : Nat} {t : Str} (h : objToString true cap w o addr rc = some (some t)) :
    toDebugString true cap o.otype.code addr rc = some t ∧ typeFromString (t.takeWhile (· ≠ 40)) = o.otype.code := by
  have hn : w.bind Dflt.write = none := by
    cases w with
    | none => rfl
    | some d => exact hw d rfl
  have h : toStringImpl true cap (debugPieces o.otype.code addr rc) = some t := by
    have h : (cowlWrite w o addr rc).map (toStringImpl true cap) = some (some t) := h
    unfold cowlWrite at h
    rw [hn] at h
    exact Option.some.inj h
  refine ⟨h, ?_⟩
  rw [C104_whole] at h
  split at h
  · have h := Option.some.inj h
    have hall : ∀ u ∈ OType.all, u.code < OType.all.length ∧ (∀ c ∈ typeToString u.code, c ≠ 40) ∧
        typeFromString (typeToString u.code) = u.code := by decide +kernel
    have hu : o.otype ∈ OType.all := by
      have : ∀ u : OType, u ∈ OType.all := by intro u; cases u <;> decide
      exact this _
    obtain ⟨h1, h2, h3⟩ := hall _ hu
    have e : t = typeToString o.otype.code ++ 40 :: (addr ++ ascii ", rc: " ++ (uintToStr rc ++ [41])) := by
      rw [← h]; simp [debugPieces, typePieces, h1]
    rw [e, List.takeWhile_append_of_pos (fun c hc => by simpa using h2 c hc)]
    simpa using h3
  · cases h

/-- C104 does not hold for objects of all kinds: a class and an individual of the same name have the
same text; and equal objects may have different texts. -/
theorem C104_fails : ∃ d : Dflt, Functional (lookup busyMap) d ∧
    (let c : Obj := .prim (.ent .cls (exIri "A"))
     let i : Obj := .prim (.ent .namedInd (exIri "A"))
     c.equals i = false ∧ objToString true 99 (some d) c [] 1 = some (some (ascii "ex:A")) ∧
       objToString true 99 (some d) i [] 1 = some (some (ascii "ex:A"))) ∧
    let x := (CE.union [.cls (exIri "A"), .cls (exIri "B")]).toObj
    let y := (CE.union [.cls (exIri "B"), .cls (exIri "A")]).toObj
    x.equals y = true ∧ objToString true 99 (some d) x [] 1 = some (some (ascii "ObjectUnionOf(ex:A ex:B)")) ∧
      objToString true 99 (some d) y [] 1 = some (some (ascii "ObjectUnionOf(ex:B ex:A)")) := by
  refine ⟨⟨some fun o => (funcWrite (lookup busyMap) o).map fun t => [t]⟩, ⟨_, rfl, fun o => ?_⟩, ?_⟩
  · cases funcWrite (lookup busyMap) o <;> simp
  · decide +kernel

/-- A type of a number that is not a type is written with the number. -/
example : (typePieces 200).flatten = ascii "UnknownConstruct(200)" := by decide +kernel

/-- The debug text of a class. -/
example : toDebugString true 99 OType.ceClass.code (ascii "0x1f") 2 = some (ascii "Class(0x1f, rc: 2)") := by
  decide +kernel

/-- An error as text; with too little memory there is none. -/
example : errorToString true 40 (fun _ => []) ⟨.errSyntax, 0, 3, 0, ascii "unexpected"⟩ =
      some (ascii "syntax error: unexpected (line 3)") ∧
    errorToString true 20 (fun _ => []) ⟨.errSyntax, 0, 3, 0, ascii "unexpected"⟩ = none := by decide +kernel

end Cowl
