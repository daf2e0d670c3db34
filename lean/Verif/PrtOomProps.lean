import Verif.PrtOomLemmas
import Verif.PrtSessionProps
/-! # C84: failures while ProtocOWL is written incrementally -/
namespace Cowl
open Prt Func FuncSpec Ast Change Prefix POom

/-- C84 for callers that stop at the first code other than OK, if there is no IRI or the index has room
for it, its version and their namespaces besides the prefixes of the header. Whatever fails, and however
the encoder was used before, nothing is undefined. If every code is OK, everything was written, as if
nothing had failed: reading the bytes calls any handler on what was to be written (as in `C54_events`).
If nothing fails, every code is OK. Missing from the full statement: see `C84_fails`. -/
theorem C84_partial {E : Env} (hu : E.u.Lawful) {names : List Id} {h : Prt.Header} {ops : List SOp}
    (ho : PrtStreamOk E.u names h (axiomsWritten ops)) {size : Nat} (hroom : h.iri = none ∨ h.prefixes.length + 4 ≤ size)
    (cap : Nat) (m : MSt) (hm : m.out = []) :
    ∃ t c b, m.session E.u true size cap h ops = some (t, c) ∧ writeSession E.u true size h ops = some b ∧
      (c = .ok → t.out = b ∧ b.length ≤ cap ∧ ∃ items, PrtSessionTells h ops items ∧
        ∀ {σ : Type} (k : Callback σ (Bool × Item)) (ctx : σ), (prtRead E k t.out ctx).1 = (feed k ctx items).1 ∧
          ((prtRead E k t.out ctx).2 = ended (feed k ctx items).2 ∨
            (feed k ctx items).2 = .no ∧ (prtRead E k t.out ctx).2 = .done)) ∧
      ((∀ g ∈ m.mem, g = .all) → b.length ≤ cap → c = .ok) := by
  obtain ⟨b, items, h1, h2, h3⟩ := C54_events hu ho size
  obtain ⟨t, c, e, g1, g2⟩ := session_good (cap := cap) m hm hroom h1
  refine ⟨t, c, b, e, h1, fun hc => ?_, fun hr hl => (g2 hr hl).2.2⟩
  obtain ⟨hs, hl⟩ := g1 hc
  have hb : t.out = b := hs.out
  refine ⟨hb, hl, items, h2, fun k ctx => ?_⟩
  rw [hb]
  exact h3 k ctx

/-- C84, why one must stop: if there was an error, the footer drops whatever is due, and if there is
memory and room in the stream its code is OK. -/
theorem C84_lost (u : Ulib) (anon : Bool) (cap : Nat) {m : MSt} (hs : m.state ≠ .ok) (hm : m.mem = []) :
    ∃ t c, m.footer u anon cap = some (t, c) ∧ t.out = m.out ++ (nsDecls u m.x).bytes ++ [3] ∧
      (t.out.length ≤ cap → c = .ok) := by
  unfold MSt.footer MSt.flush MSt.data
  rw [if_pos hs]
  refine ⟨_, _, rfl, ?_, fun hl => ?_⟩
  · simp [MSt.reset, MSt.put, MSt.flushEmpty, MSt.got, MSt.used, hm]
  · have : ∀ (m : MSt), m.mem = [] → m.out.length ≤ cap → m.state = .ok → m.code cap = .ok := by
      intro m _ h1 h2
      unfold MSt.code
      rw [if_neg (by simp [h2]), if_pos h1]
    refine this _ ?_ hl ?_
    · simp [MSt.reset, MSt.put, MSt.flushEmpty, MSt.got, MSt.used, hm]
    · simp [MSt.reset, MSt.put, MSt.flushEmpty, MSt.got, MSt.used, hm]

/-! ## Samples -/

/-- The conditions of `C84_partial` hold for this stream. Without failures it is written; if the
memory for an axiom is missing, or room in the stream, the result is an error. -/
example : lebEnv.u.Lawful ∧ PrtStreamOk lebEnv.u prtOntoNames (headerOf prtOnto) (axiomsWritten sessionOps) ∧
    (headerOf prtOnto).prefixes.length + 4 ≤ 100 ∧
    (({} : MSt).session leb true 100 1000 (headerOf prtOnto) sessionOps).map Prod.snd = some .ok ∧
    (({} : MSt).session leb true 100 50 (headerOf prtOnto) sessionOps).map Prod.snd = some .errIo ∧
    (({ mem := List.replicate 12 .all ++ [.half] } : MSt).session leb true 100 1000 (headerOf prtOnto) sessionOps).map Prod.snd =
      some .errMem :=
  ⟨leb_lawful, sessionOps_ok, by decide +kernel, by decide +kernel, by decide +kernel, by decide +kernel⟩

/-- The condition of `C84_lost` holds after an axiom for which there was no memory. -/
example : (({ mem := [.all, .all, .all, .all, .none] } : MSt).header leb true 100 1000 noHeader).bind (fun x =>
    (MSt.ops leb true 100 1000 [.ax ⟨1, declA⟩, .ax ⟨2, declO.toObj⟩] x.1).map fun y => (y.1.state, y.1.mem)) = some (.errMem, []) := by
  decide +kernel

/-- The header with an IRI and a version. -/
def versionHeader : Prt.Header := ⟨[], some (exIri "o"), some (exIri "v1"), [], []⟩

/-- What is read from a stream: codes of the writer, how reading ends, IRI and addresses of axioms. -/
def failBack (size : Nat) (h : Prt.Header) (ops : List SOp) (mem : List Got) :
    Option (List Ret × End × Option (Option Iri × List Nat)) :=
  (({ mem := mem } : MSt).sessionAll leb true size 1000 h ops).map fun x =>
    let r := prtRead lebEnv changeHandler x.1.out (some (OntoSt.new [0, 1, 2, 3] [], 100))
    (x.2, r.2, r.1.map fun o => (o.1.iri, (collectAxioms o.1.onto).map Ref.addr))

/-- C84 is false as stated.
* If there is no memory for the version, and the index is full, the error is forgotten when the index
  is reset: every code is OK, but the document has neither IRI nor version.
* If there is no memory for an axiom, the footer that follows drops the axioms before it, and its code
  is OK. If another axiom follows first, nothing but the one axiom is lost.
* If there is no memory for a new buffer, the next axiom is added to NULL.
* So is an axiom before the first header. -/
theorem C84_fails :
    failBack 1 versionHeader [] [.all, .all, .all, .none] = some ([.ok, .ok], .done, some (none, [])) ∧
    failBack 1 versionHeader [] [] = some ([.ok, .ok], .done, some (some (exIri "o"), [])) ∧
    failBack 100 noHeader [.ax ⟨1, declA⟩, .ax ⟨2, declO.toObj⟩] [.all, .all, .all, .all, .none] =
      some ([.ok, .ok, .errMem, .ok], .done, some (none, [])) ∧
    failBack 100 noHeader [.ax ⟨1, declA⟩, .ax ⟨2, declO.toObj⟩, .ax ⟨3, declA⟩] [.all, .all, .all, .all, .none] =
      some ([.ok, .ok, .errMem, .ok, .ok], .done, some (none, [100, 101])) ∧
    failBack 100 noHeader [.addFrame, .ax ⟨1, declA⟩] [.all, .all, .none] = none ∧
    (({} : MSt).op leb true 100 1000 (.ax ⟨1, declA⟩)).isNone = true := by
  refine ⟨?_, ?_, ?_, ?_, ?_, ?_⟩ <;> decide +kernel

end Cowl
