import Verif.LibLemmas
/-! # Properties: initialisation of the library -/
namespace Cowl
open Lib

theorem start_inv : Inv St.start (fun _ => 0) ∧ Full St.start :=
  ⟨⟨fun _ => rfl, nofun⟩, fun _ => ⟨fun _ => rfl, fun _ => rfl⟩⟩

/-- For programs that keep the rules: nothing is undefined; every reference count is the number
of references of the program and of the variables of the library; while the library is
initialised, each variable has a live object; and when it is not, all that is left is what the
program holds. `cowl_init` may be called again, after `cowl_deinit` or without it.

Missing: failures of `cowl_init`, NULL defaults, and defaults set before `cowl_init`; see
`C63_fails`. -/
theorem C63_partial (ops : List Op) (hc : Calm St.start (fun _ => 0) ops) :
    ∃ l, St.start.run ops = some l ∧
      (∀ a, l.refs a = Own.afterAll (fun _ => 0) ops a + l.pointers a) ∧
      (l.inited = true → ∀ s, ∃ a, l.ptr s = some a ∧ 0 < l.refs a) ∧
      (l.inited = false → ∀ a, l.refs a = Own.afterAll (fun _ => 0) ops a) := by
  obtain ⟨l, e, i, f⟩ := run_spec ops start_inv.1 start_inv.2 hc
  refine ⟨l, e, i.counts, fun hi s => ?_, fun hi a => ?_⟩
  · have hne : l.ptr s ≠ none := fun e => by rw [(f s).1 e] at hi; cases hi
    obtain ⟨a, ha⟩ := Option.ne_none_iff_exists'.1 hne
    have h1 := pointers_pos ha
    have h2 := i.counts a
    exact ⟨a, ha, by omega⟩
  · have h0 : l.pointers a = 0 := by
      unfold St.pointers slots
      simp [fun s => (f s).2 hi]
    have := i.counts a
    omega

/-- `cowl_init` and `cowl_deinit` do their work once: the library is initialised after the one, and
not after the other, whatever was done before; a second call changes nothing. -/
theorem C63_idempotent (ops : List Op) (hc : Calm St.start (fun _ => 0) ops) (al : Slot → Option Nat) (al' : Slot → Option Nat) :
    ∃ l, St.start.run ops = some l ∧
      (l.inited = true → l.init al = some (l, .ok)) ∧
      (l.inited = false → Fresh l al → ∃ l', l.init al = some (l', .ok) ∧ l'.inited = true ∧ l'.init al' = some (l', .ok)) ∧
      ∃ l', l.deinit = some l' ∧ l'.inited = false ∧ l'.deinit = some l' := by
  obtain ⟨l, e, i, f⟩ := run_spec ops start_inv.1 start_inv.2 hc
  have hi : ∀ (l : St) al, l.inited = true → l.init al = some (l, .ok) := fun l al h => by unfold St.init; rw [if_pos h]
  refine ⟨l, e, hi l al, fun _ hf => ?_, ?_⟩
  · obtain ⟨l', e', -, -, h'⟩ := init_spec i f (al := al) fun _ => hf
    exact ⟨l', e', h', hi l' al' h'⟩
  · obtain ⟨l', e', -, -, h'⟩ := deinit_spec i f
    exact ⟨l', e', h', by unfold St.deinit; rw [h']; rfl⟩

/-- Addresses from `k` on, but for what is in `bad`. -/
def addrs (k : Nat) (bad : List Slot) (s : Slot) : Option Nat :=
  if s ∈ bad then none else (slots.idxOf? s).map (· + k)

theorem addrs_fresh (k : Nat) (l : St) (h : ∀ a, k ≤ a → l.refs a = 0) : Fresh l (addrs k []) := by
  refine ⟨fun s => ?_, fun s t e => ?_⟩
  · have : ∃ i, slots.idxOf? s = some i := by cases s <;> exact ⟨_, rfl⟩
    obtain ⟨i, hi⟩ := this
    exact ⟨i + k, by unfold addrs; rw [if_neg (by simp), hi]; rfl, h _ (by omega)⟩
  · unfold addrs at e
    rw [if_neg (by simp), if_neg (by simp)] at e
    revert e
    cases s <;> cases t <;> simp [slots, List.idxOf?, List.findIdx?, List.findIdx?.go] <;> omega

/-- A program: it starts the library twice, makes a reader of its own the default, lets go of it, and
ends the library. -/
def program : List Op :=
  [.init (addrs 10 []), .init (addrs 20 []), .new 1, .setReader (some 1), .drop 1, .deinit]

theorem program_calm : Calm St.start (fun _ => 0) program := by
  refine ⟨fun _ => addrs_fresh 10 _ fun _ _ => rfl, fun l h => ?_⟩
  obtain rfl := Option.some.inj h
  refine ⟨nofun, fun l h => ?_⟩
  obtain rfl := Option.some.inj h
  refine ⟨rfl, fun l h => ?_⟩
  obtain rfl := Option.some.inj h
  refine ⟨⟨rfl, 1, rfl, Nat.zero_lt_one⟩, fun l h => ?_⟩
  obtain rfl := Option.some.inj h
  exact ⟨Nat.zero_lt_one, fun l h => ⟨trivial, fun _ _ => trivial⟩⟩

/-- After it, the library can be started again. -/
example : ∃ l l', St.start.run program = some l ∧ l.init (addrs 30 []) = some (l', .ok) ∧ l'.inited = true := by
  obtain ⟨l, e, i, f⟩ := run_spec program start_inv.1 start_inv.2 program_calm
  have hi : (St.start.run program).map (·.inited) = some false := rfl
  rw [e] at hi
  have hi : l.inited = false := Option.some.inj hi
  obtain ⟨l0, e0, -, -, h0⟩ := C63_partial program program_calm
  obtain rfl := Option.some.inj (e.symm.trans e0)
  obtain ⟨l', e', -, -, h'⟩ := init_spec i f (al := addrs 30 []) fun _ => addrs_fresh 30 l fun a ha => by
    rw [h0 hi]
    have : a ≠ 1 := by omega
    simp [program, Own.afterAll, Own.after, this]
  exact ⟨l, l', e, e', h'⟩

/-- Not all programs are safe, nor do failures leave nothing behind:
- if `cowl_init` cannot make the default reader, it reports so, but the empty string and the
  vocabularies stay, and `cowl_deinit` does not free them; another `cowl_init` succeeds and loses
  them;
- if it cannot make a vocabulary, it dereferences NULL;
- defaults cannot be set to NULL;
- a reader set before `cowl_init` is never released. -/
theorem C63_fails :
    (∃ l l', St.start.init (addrs 10 [.reader]) = some (l, .errMem) ∧ l.deinit = some l' ∧
      l'.inited = false ∧ l'.refs 10 = 1 ∧ l'.refs 11 = 1 ∧
      ∃ l'' l''', l'.init (addrs 30 []) = some (l'', .ok) ∧ l''.deinit = some l''' ∧ l'''.refs 10 = 1 ∧ l'''.refs 30 = 0) ∧
    (∀ v ∈ vocabs, St.start.init (addrs 10 [v]) = none) ∧
    St.start.run [.init (addrs 10 []), .setReader none] = none ∧
    ∃ l, St.start.run [.new 1, .setReader (some 1), .drop 1, .init (addrs 10 []), .deinit] = some l ∧
      l.inited = false ∧ l.refs 1 = 1 := by
  refine ⟨⟨_, _, rfl, rfl, rfl, rfl, rfl, _, _, rfl, rfl, rfl, rfl⟩, ?_, rfl, _, rfl, rfl, rfl⟩
  intro v hv
  simp only [vocabs, List.mem_cons, List.not_mem_nil, or_false] at hv
  rcases hv with rfl | rfl | rfl | rfl | rfl <;> rfl

end Cowl
