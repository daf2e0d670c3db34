import Verif.FuncReProps
import Verif.FuncTextLemmas
import Verif.TypedSpec
/-! # Lemmas: the values of the tokens of a text -/
namespace Cowl.Rewrite
open Cowl.Func Cowl.FuncSpec Cowl.Re Cowl.XmlSpec

/-- What the value of a token consists of. -/
def TokOk : Tok → Prop
  | .iriRef s => ∀ c ∈ s, IriChar c
  | .pnameNs p => PlainPrefix p
  | .pnameLn s => ∃ p l, s = p ++ 58 :: l ∧ PlainPrefix p ∧ l ≠ [] ∧ ∀ c ∈ l, NameChar c
  | .blank s => Label s
  | _ => True

theorem name_iri {c : UInt8} (h : NameChar c) : IriChar c := by
  have key : ∀ n : Nat, n = c.toNat → (65 ≤ n ∧ n ≤ 90) ∨ (97 ≤ n ∧ n ≤ 122) ∨ n = 95 ∨ 128 ≤ n ∨ n = 45 ∨ n = 46 ∨ (48 ≤ n ∧ n ≤ 57) := by
    intro n hn
    subst hn
    unfold NameChar NameStart at h
    rcases h with (h | h | h | h) | h | h | h
    · exact .inl h
    · exact .inr (.inl h)
    · exact .inr (.inr (.inl h))
    · exact .inr (.inr (.inr (.inl h)))
    · exact .inr (.inr (.inr (.inr (.inl h))))
    · exact .inr (.inr (.inr (.inr (.inr (.inl h)))))
    · exact .inr (.inr (.inr (.inr (.inr (.inr h)))))
  have k := key _ rfl
  refine ⟨by omega, fun x hx => ?_⟩
  simp only [List.mem_cons, List.not_mem_nil, or_false] at hx
  rcases hx with rfl | rfl | rfl | rfl | rfl | rfl | rfl | rfl | rfl <;>
    first
    | (show c.toNat ≠ 60; omega) | (show c.toNat ≠ 62; omega) | (show c.toNat ≠ 34; omega) | (show c.toNat ≠ 123; omega)
    | (show c.toNat ≠ 125; omega) | (show c.toNat ≠ 124; omega) | (show c.toNat ≠ 94; omega) | (show c.toNat ≠ 96; omega)
    | (show c.toNat ≠ 92; omega)

theorem label_of {u : Str} (h : Matches pnLocal u) : Label u := by
  obtain ⟨⟨c, t, rfl, hc⟩, h2, h3⟩ := pnLocal_iff.1 h
  refine ⟨c, t, rfl, ?_, fun x hx => (isPnDot_iff x).1 (h2 x (List.mem_cons_of_mem _ hx)), h3⟩
  rw [Bool.or_eq_true, isU_iff, isDig_spec] at hc
  exact hc

theorem ns_of {u : Str} (h : Matches pnameNs u) : ∃ p, u = p ++ [58] ∧ PlainPrefix p := by
  obtain ⟨p, y, rfl, h1, h2⟩ := seq_iff.1 h
  obtain ⟨c, rfl, hc⟩ := (one_ch 58 _).1 h2
  obtain ⟨h3, h4⟩ := prefix_iff.1 h1
  exact ⟨p, by rw [eq_of_beq hc], plain_of (List.all_eq_true.2 h3) h4⟩

theorem value_ok {r : Rule} {w : Str} {t : Tok} (h : Value r w t) (m : Matches (pattern r) w) : TokOk t := by
  cases h with
  | iriRef v =>
    obtain ⟨x, y, e, m1, m2⟩ := seq_iff.1 m
    obtain ⟨c, rfl, -⟩ := (one_ch 60 _).1 m1
    obtain ⟨z, u, rfl, m3, m4⟩ := seq_iff.1 m2
    obtain ⟨d, rfl, -⟩ := (one_ch 62 _).1 m4
    have e : v ++ [62] = z ++ [d] := (List.cons.inj e).2
    have e : v = z := by
      have := congrArg List.dropLast e
      simpa using this
    subst e
    exact fun c hc => (isIriChar_iff c).1 ((star_iff one_iri).1 m3 c hc)
  | pnameNs v =>
    obtain ⟨p, e, hp⟩ := ns_of m
    have e : v = p := by
      have := congrArg List.dropLast e
      simpa using this
    exact e ▸ hp
  | pnameLn =>
    obtain ⟨x, l, rfl, m1, m2⟩ := seq_iff.1 m
    obtain ⟨p, rfl, hp⟩ := ns_of m1
    obtain ⟨⟨c, t, rfl, -⟩, h2, -⟩ := pnLocal_iff.1 m2
    exact ⟨p, c :: t, by simp, hp, nofun, fun x hx => (isPnDot_iff x).1 (h2 x hx)⟩
  | blank v =>
    obtain ⟨x, y, e, m1, m2⟩ := seq_iff.1 m
    obtain ⟨c, rfl, -⟩ := (one_ch 95 _).1 m1
    obtain ⟨z, u, rfl, m3, m4⟩ := seq_iff.1 m2
    obtain ⟨d, rfl, -⟩ := (one_ch 58 _).1 m3
    have e : v = u := (List.cons.inj (List.cons.inj e).2).2
    exact e ▸ label_of m4
  | _ => trivial

theorem scan_ok {s : Str} {l : List Tok} (h : Scan s l) : ∀ t ∈ l, TokOk t := by
  induction h with
  | nil => nofun
  | skip _ _ _ ih => exact ih
  | tok hc hv _ ih =>
    intro t ht
    rcases List.mem_cons.1 ht with rfl | ht
    · obtain ⟨_, _, _, _, _, m, _⟩ := hc
      exact value_ok hv m
    · exact ih t ht
  | qstr _ _ _ ih =>
    intro t ht
    rcases List.mem_cons.1 ht with rfl | ht
    · trivial
    · exact ih t ht
  | qbad =>
    intro t ht
    cases List.mem_singleton.1 ht; trivial
  | qeof => nofun
  | any _ _ _ _ _ ih =>
    intro t ht
    rcases List.mem_cons.1 ht with rfl | ht
    · trivial
    · exact ih t ht
  | ends => nofun

theorem lex_ok (s : Str) : ∀ t ∈ lex s, TokOk t := scan_ok ((C88_scan s _).2 rfl)

end Cowl.Rewrite
