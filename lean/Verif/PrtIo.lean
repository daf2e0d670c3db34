import Verif.PrtDoc
/-!
# ProtocOWL input that cannot be read to its end

Models `decode_frames` and `read_ontology`, `src/formats/protocowl/reader/cowl_prt_decoder.c:1239-1294`,
for a stream that gives some bytes and then fails.

A read that fails within a frame does what a stream that ends there does: nothing more is read
(`decoder_ok`, `48-49`), the functions return NULL, and the result is an error (`decoder_state`,
`54-56`), the code of which is not distinguished here. So only the end of the input between frames is
new.
-/
namespace Cowl.Prt
open Func (Item)

section
variable {σ : Type} (E : Env) (h : Callback σ (Bool × Item))

/-- `decode_frame`, `cowl_prt_decoder.c:1239-1267`: the read of the header may fail (`1242`), which is
noted in the state of the stream. -/
def frameIo (s : FSt σ) : FRes σ :=
  match s.dec.inp with
  | [] => .stop s.ctx .rejected
  | c :: r => frameOf E h c { s with dec := { s.dec with inp := r } }

/-- `decode_frames`, `cowl_prt_decoder.c:1269-1271`, with a bound as for `frames`. -/
def framesIo : Nat → FSt σ → σ × End
  | 0, s => (s.ctx, .rejected)
  | n + 1, s =>
    match frameIo E h s with
    | .go s => framesIo n s
    | .stop c r => (c, r)

/-- `read_ontology`, `cowl_prt_decoder.c:1280-1294`, with `decode_header`, `1273-1278`; the stream gives
`text` and then fails. -/
def prtReadIo (text : Str) (ctx : σ) : σ × End :=
  match text with
  | [] => (ctx, .rejected)
  | c :: r => if c = 1 then framesIo E h (r.length + 1) { ctx, dec := { inp := r } } else (ctx, .rejected)

end
end Cowl.Prt
