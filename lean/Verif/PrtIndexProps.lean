import Verif.PrtIndexLemmas
import Verif.XmlProps
/-!
# C33: the indices of ProtocOWL encoder and decoder stay in agreement
-/
namespace Cowl.Prt

/-- What can happen to the encoder's index: a prefix or a primitive is added, the
declarations due are written (and read by the decoder), both indices are reset (the ids
always, the namespaces if asked for). -/
inductive Op where
  | pfx (ns p : Str)
  | prim (p : Prim)
  | flush
  | reset (prefixes : Bool)

/-- One operation on both indices. -/
def opStep (s : Index × DIndex) : Op → Option (Index × DIndex)
  | .pfx n p => some (s.1.addPrefix n p, s.2)
  | .prim p => some (s.1.addPrim p, s.2)
  | .flush => s.1.decls.bind fun ds => (s.2.read ds).map fun d => (s.1.sync, d)
  | .reset b => some (s.1.reset b, s.2.reset b true)

/-- A history, from fresh indices. -/
def opRun (ops : List Op) : Option (Index × DIndex) := ops.foldlM opStep ({}, {})

/-- The names that were added and not reset since. -/
def liveIds (ops : List Op) : List Id :=
  ops.foldl (fun l o => match o with
    | .prim p => l ++ [idOf p]
    | .reset _ => []
    | _ => l) []

/-- The namespaces that were added and not reset since; the five standard ones always are there. -/
def liveNss (ops : List Op) : List Str :=
  ops.foldl (fun l o => match o with
    | .pfx n _ => l ++ [n]
    | .prim (.iri i) => l ++ [i.ns]
    | .prim (.ent _ i) => l ++ [i.ns]
    | .reset true => stdPrefixes.map (·.2)
    | _ => l) (stdPrefixes.map (·.2))

theorem op_agree (ops : List Op) : ∃ x d, opRun ops = some (x, d) ∧ Agree x d ∧
    (∀ i, i ∈ liveIds ops ↔ i ∈ x.ids.vec) ∧ (∀ n, n ∈ liveNss ops ↔ n ∈ x.ns.pv.vec) := by
  unfold opRun liveIds liveNss
  have : ∀ (ops : List Op) (x : Index) (d : DIndex) (li : List Id) (ln : List Str), Agree x d →
      (∀ i, i ∈ li ↔ i ∈ x.ids.vec) → (∀ n, n ∈ ln ↔ n ∈ x.ns.pv.vec) →
      ∃ x' d', ops.foldlM opStep (x, d) = some (x', d') ∧ Agree x' d' ∧
      (∀ i, i ∈ ops.foldl (fun l o => match o with
        | .prim p => l ++ [idOf p]
        | .reset _ => []
        | _ => l) li ↔ i ∈ x'.ids.vec) ∧
      (∀ n, n ∈ ops.foldl (fun l o => match o with
        | .pfx n _ => l ++ [n]
        | .prim (.iri i) => l ++ [i.ns]
        | .prim (.ent _ i) => l ++ [i.ns]
        | .reset true => stdPrefixes.map (·.2)
        | _ => l) ln ↔ n ∈ x'.ns.pv.vec) := by
    intro ops
    induction ops with
    | nil => exact fun x d li ln h hi hn => ⟨x, d, rfl, h, hi, hn⟩
    | cons o ops ih =>
      intro x d li ln h hi hn
      simp only [List.foldlM_cons, List.foldl_cons]
      cases o with
      | pfx n p =>
        have h1 := h.addPrefix n p
        refine ih _ _ _ _ h1.1 (fun i => (hi i).trans (by rw [h1.2.1])) ?_
        intro k; rw [h1.2.2 k, ← hn k]; simp [or_comm]
      | prim p =>
        have h1 := h.addId (idOf p)
        have hi' : ∀ i, i ∈ li ++ [idOf p] ↔ i ∈ (x.addPrim p).ids.vec := by
          intro i; rw [show x.addPrim p = x.addId (idOf p) from rfl, h1.2.1 i, ← hi i]; simp [or_comm]
        refine ih _ _ _ _ h1.1 hi' ?_
        intro k
        refine Iff.trans ?_ (h1.2.2 k).symm
        rw [← hn k]
        cases p with
        | iri i =>
          simp only [List.mem_append, List.mem_singleton, idOf]
          constructor
          · rintro (e | e)
            · exact .inr e
            · exact .inl ⟨i.rem, by rw [e]⟩
          · rintro (⟨q, e⟩ | e)
            · exact .inr (by cases e; rfl)
            · exact .inl e
        | ent t i =>
          simp only [List.mem_append, List.mem_singleton, idOf]
          constructor
          · rintro (e | e)
            · exact .inr e
            · exact .inl ⟨i.rem, by rw [e]⟩
          · rintro (⟨q, e⟩ | e)
            · exact .inr (by cases e; rfl)
            · exact .inl e
        | anon s =>
          simp [idOf]
      | flush =>
        obtain ⟨ds, h1, h2, h3⟩ := h.flush
        simp only [opStep, h1, h2, Option.bind_some, Option.map_some]
        exact ih _ _ _ _ h3 hi hn
      | reset b =>
        refine ih _ _ _ _ (h.reset b) (fun i => by simp [Index.reset]) ?_
        cases b with
        | true => intro k; simp only [Index.reset, if_true, init_vec]
        | false => exact hn
  refine this ops {} {} [] (stdPrefixes.map (·.2)) agree_init (fun i => by simp) ?_
  intro n
  show _ ↔ n ∈ NsMap.init.pv.vec
  rw [init_vec]

theorem ops_extend : ∀ (ops : List Op), (∀ o ∈ ops, ∀ b, o ≠ .reset b) → ∀ (x : Index) (d : DIndex), Agree x d →
    ∀ (y : Index) (e : DIndex), ops.foldlM opStep (x, d) = some (y, e) →
    Agree y e ∧ (∃ is, y.ids.vec.take y.ids.enc = x.ids.vec.take x.ids.enc ++ is) ∧ (∃ ns, e.nss = d.nss ++ ns)
  | [], _, x, d, h, y, e, hr => by
    cases hr; exact ⟨h, ⟨[], by simp⟩, ⟨[], by simp⟩⟩
  | o :: ops, hm, x, d, h, y, e, hr => by
    have ih := ops_extend ops fun o ho => hm o (List.mem_cons_of_mem _ ho)
    rw [List.foldlM_cons] at hr
    cases o with
    | pfx n p => exact ih _ _ (h.addPrefix n p).1 y e hr
    | prim p =>
      have := ih _ _ (h.addId (idOf p)).1 y e hr
      rwa [h.addId_take] at this
    | flush =>
      obtain ⟨ds, h1, h2, h3⟩ := h.flush
      simp only [opStep, h1, h2, Option.bind_some, Option.map_some] at hr
      obtain ⟨hA, ⟨is, e1⟩, ⟨ns, e2⟩⟩ := ih _ _ h3 y e hr
      obtain ⟨e0, a, b, hv, _, _, he⟩ := h.ids
      obtain ⟨a', b', hv', _⟩ := h.ns
      refine ⟨hA, ⟨a ++ b ++ is, ?_⟩, ⟨a' ++ b' ++ ns, ?_⟩⟩
      · have e3 := hv.sync.take
        rw [e1, show x.sync.ids = x.ids.sync from rfl, e3, hv.take, hv.vec]; simp
      · rw [e2, hv'.vec]; simp
    | reset b => exact absurd rfl (hm (.reset b) List.mem_cons_self b)

end Cowl.Prt

namespace Cowl
open Prt

/-- The declaration of a name is read as that name: the IRI is split at the place where
the specification of splitting (C02) puts it. -/
theorem readAs_eq {i : Iri} (h : XmlSpec.IsSplit (i.ns ++ i.rem) i.ns i.rem) : readAs (.iri i) = .iri i := by
  obtain ⟨ns, rem⟩ := i
  by_cases he : ns ++ rem = []
  · obtain ⟨rfl, rfl⟩ := List.append_eq_nil_iff.1 he
    rfl
  · have h1 := (C03_parts_iff ns rem he).2 fun hc => hc.1 h.2.1
    obtain ⟨n, r, h2, h3⟩ := C02_split _ he
    obtain ⟨rfl, rfl⟩ := C02_split_unique _ _ _ _ _ h h3
    rw [h2, Option.some.injEq] at h1
    simp [readAs, mkIri, h1]

/-- C33: whatever is added, written and reset, in whatever order, writing and reading the
declarations never fails, and once the declarations due are written every name added since
the last reset has an index, which is the position where the decoder keeps what it reads
for that name. So do namespaces. -/
theorem C33_agreement (ops : List Op) : ∃ x d, opRun (ops ++ [.flush]) = some (x, d) ∧
    (∀ i ∈ liveIds ops, ∃ k, x.ids.idx i = some k ∧ d.ids[k]? = some (readAs i)) ∧
    (∀ n ∈ liveNss ops, ∃ k, x.ns.pv.idx n = some k ∧ d.nss[k]? = some n) := by
  obtain ⟨x, d, h, ha, hi, hn⟩ := op_agree ops
  obtain ⟨ds, h1, h2, h3⟩ := ha.flush
  refine ⟨x.sync, ⟨x.ns.pv.vec, x.ids.vec.map readAs⟩, ?_, ?_, ?_⟩
  · rw [opRun, List.foldlM_append]
    rw [opRun] at h
    rw [h]
    simp [opStep, h1, h2]
  · intro i h
    obtain ⟨k, hk⟩ := List.getElem?_of_mem ((hi i).1 h)
    obtain ⟨_, a, b, hv, _⟩ := ha.ids
    exact ⟨k, (hv.sync.idx_iff i k).2 hk, by rw [List.getElem?_map, hk]; rfl⟩
  · intro n h
    obtain ⟨k, hk⟩ := List.getElem?_of_mem ((hn n).1 h)
    obtain ⟨a, b, hv, _⟩ := ha.ns
    exact ⟨k, (hv.sync.idx_iff n k).2 hk, hk⟩

/-- C33, except for IRIs that are not split as C02 prescribes: the index of a name is
the position where the decoder keeps that name. -/
theorem C33_partial (ops : List Op)
    (hs : ∀ i, .iri i ∈ liveIds ops → XmlSpec.IsSplit (i.ns ++ i.rem) i.ns i.rem) :
    ∃ x d, opRun (ops ++ [.flush]) = some (x, d) ∧
    (∀ i ∈ liveIds ops, ∃ k, x.ids.idx i = some k ∧ d.ids[k]? = some i) ∧
    (∀ n ∈ liveNss ops, ∃ k, x.ns.pv.idx n = some k ∧ d.nss[k]? = some n) := by
  obtain ⟨x, d, h, hi, hn⟩ := C33_agreement ops
  refine ⟨x, d, h, ?_, hn⟩
  intro i hm
  obtain ⟨k, h1, h2⟩ := hi i hm
  cases i with
  | iri i => rw [readAs_eq (hs i hm)] at h2; exact ⟨k, h1, h2⟩
  | anon s => exact ⟨k, h1, h2⟩

/-- C33 is false for an IRI that `cowl_iri` itself makes from a prefix that ends in a
name and a suffix of digits (C03): it comes back as another IRI, which may be one that is
there already. -/
theorem C33_fails : ∃ p s : Str, ∃ j, j ≠ mkIri p s ∧
    (opRun [.prim (.iri (mkIri p s)), .prim (.iri j), .flush]).map (fun r =>
      (r.1.ids.idx (.iri (mkIri p s)), r.1.ids.idx (.iri j), r.2.ids)) =
    some (some 0, some 1, [.iri j, .iri j]) :=
  ⟨ascii "a#b", ascii "1", ⟨ascii "a#", ascii "b1"⟩, by decide +kernel, by decide +kernel⟩

/-- C33: distinct names have distinct indices. -/
theorem C33_injective (ops : List Op) (x : Index) (d : DIndex) (h : opRun (ops ++ [.flush]) = some (x, d)) :
    (∀ i j k, x.ids.idx i = some k → x.ids.idx j = some k → i = j) ∧
    (∀ m n k, x.ns.pv.idx m = some k → x.ns.pv.idx n = some k → m = n) := by
  obtain ⟨x', d', h', ha, -, -⟩ := op_agree ops
  obtain ⟨ds, h1, h2, h3⟩ := ha.flush
  have : opRun (ops ++ [.flush]) = some (x'.sync, ⟨x'.ns.pv.vec, x'.ids.vec.map readAs⟩) := by
    rw [opRun, List.foldlM_append]
    rw [opRun] at h'
    rw [h']
    simp [opStep, h1, h2]
  rw [this] at h; cases h
  obtain ⟨_, a, b, hv, _⟩ := ha.ids
  obtain ⟨a', b', hv', _⟩ := ha.ns
  constructor
  · intro i j k hi hj
    have e1 := (hv.sync.idx_iff i k).1 hi
    have e2 := (hv.sync.idx_iff j k).1 hj
    rw [e1] at e2; exact Option.some.inj e2
  · intro m n k hi hj
    have e1 := (hv'.sync.idx_iff m k).1 hi
    have e2 := (hv'.sync.idx_iff n k).1 hj
    rw [e1] at e2; exact Option.some.inj e2

/-- C33: indices given in one flush stay the same until the next reset. -/
theorem C33_stable (ops more : List Op) (hm : ∀ o ∈ more, ∀ b, o ≠ .reset b) (x y : Index) (d e : DIndex)
    (hx : opRun (ops ++ [.flush]) = some (x, d)) (hy : opRun (ops ++ [.flush] ++ more) = some (y, e)) :
    (∀ i k, x.ids.idx i = some k → y.ids.idx i = some k ∧ e.ids[k]? = some (readAs i)) ∧
    (∀ n k, x.ns.pv.idx n = some k → y.ns.pv.idx n = some k ∧ e.nss[k]? = some n) := by
  obtain ⟨x', d', h', ha, -, -⟩ := op_agree ops
  obtain ⟨ds, h1, h2, h3⟩ := ha.flush
  have hf : opRun (ops ++ [.flush]) = some (x'.sync, ⟨x'.ns.pv.vec, x'.ids.vec.map readAs⟩) := by
    rw [opRun, List.foldlM_append]
    rw [opRun] at h'
    rw [h']
    simp [opStep, h1, h2]
  rw [hf] at hx; cases hx
  rw [opRun] at hf
  rw [opRun, List.foldlM_append, hf] at hy
  obtain ⟨_, a, b, hv, _⟩ := ha.ids
  obtain ⟨a', b', hv', _⟩ := ha.ns
  obtain ⟨hA, ⟨is, e1⟩, ⟨ns, e2⟩⟩ := ops_extend more hm _ _ h3 _ _ hy
  obtain ⟨e0, _, _, hw, _, _, he⟩ := hA.ids
  obtain ⟨_, _, hw', _⟩ := hA.ns
  constructor
  · intro i k h
    have hk := (hv.sync.idx_iff i k).1 h
    have e3 := hv.sync.take
    rw [hw.take, show x'.sync.ids = x'.ids.sync from rfl, e3] at e1
    have hk2 : e0[k]? = some i := by
      rw [e1, List.getElem?_append_left (List.getElem?_eq_some_iff.1 hk).1]; exact hk
    exact ⟨by simp [PVec.idx, hw.vals k i hk2], by rw [he, List.getElem?_map, hk2]; rfl⟩
  · intro n k h
    have hk := (hv'.sync.idx_iff n k).1 h
    have hk2 : e.nss[k]? = some n := by
      rw [e2, List.getElem?_append_left (List.getElem?_eq_some_iff.1 hk).1]; exact hk
    exact ⟨by simp [PVec.idx, hw'.vals k n hk2], hk2⟩

/-- A history with every kind of operation: an anonymous individual is added before an
IRI and displaced by it, a namespace gets in without a prefix before another with one. -/
def c33Ops : List Op :=
  [.prim (.anon [1]), .prim (.ent .cls ⟨[10], [11]⟩), .pfx [20] [21], .flush, .prim (.anon [2]), .prim (.iri ⟨[20], [12]⟩),
    .flush, .reset false, .prim (.iri ⟨[20], [13]⟩), .prim (.anon [1])]

example : liveIds c33Ops = [.iri ⟨[20], [13]⟩, .anon [1]] ∧ (opRun (c33Ops ++ [.flush])).isSome := by decide +kernel

/-- The hypothesis of `C33_partial` holds for a history that ends in `a#b1`. -/
example : ∃ ops : List Op, liveIds ops = [.anon [1], .iri ⟨ascii "a#", ascii "b1"⟩] ∧
    ∀ i, .iri i ∈ liveIds ops → XmlSpec.IsSplit (i.ns ++ i.rem) i.ns i.rem := by
  refine ⟨[.prim (.iri ⟨[], []⟩), .flush, .reset true, .prim (.anon [1]), .prim (.ent .cls ⟨ascii "a#", ascii "b1"⟩)],
    rfl, ?_⟩
  intro i h
  have : i = ⟨ascii "a#", ascii "b1"⟩ := by
    have h' : Id.iri i ∈ [Id.anon [1], .iri ⟨ascii "a#", ascii "b1"⟩] := h
    simpa using h'
  rw [this]
  obtain ⟨n, r, h1, h2⟩ := C02_split (ascii "a#" ++ ascii "b1") (by decide +kernel)
  rw [show iriFromString (ascii "a#" ++ ascii "b1") = some (ascii "a#", ascii "b1") by decide +kernel] at h1
  cases h1; exact h2

/-- Before the reset in `c33Ops`, the displaced individual has index 1. -/
example : ∃ x d, opRun (c33Ops.take 4) = some (x, d) ∧ x.ids.idx (.anon [1]) = some 1 ∧ d.ids[1]? = some (.anon [1]) := by
  obtain ⟨x, d, h, -⟩ := op_agree (c33Ops.take 4)
  refine ⟨x, d, h, ?_⟩
  have h1 : (opRun (c33Ops.take 4)).map (fun r => (r.1.ids.idx (.anon [1]), r.2.ids[1]?)) = some (some 1, some (.anon [1])) := by
    decide +kernel
  rw [h] at h1
  simpa using h1

end Cowl
