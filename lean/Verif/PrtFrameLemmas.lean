import Verif.PrtSafeLemmas
/-!
# Lemmas: every frame reads at least one byte
-/
namespace Cowl.Prt
open Func (Item)

section
variable {σ : Type} {E : Env} {h : Callback σ (Bool × Item)}

/-- Going on from at most `L` bytes, no bytes are given back. -/
def FLe (L : Nat) (r : FRes σ) : Prop := ∀ s', r = .go s' → s'.dec.inp.length ≤ L

theorem FLe.go {L : Nat} {s : FSt σ} (hs : s.dec.inp.length ≤ L) : FLe L (.go s) := by
  intro s' e; cases e; exact hs

theorem FLe.stop {L : Nat} (c : σ) (r : End) : FLe L (.stop c r) := nofun

theorem fle_deliver {L : Nat} (i : Item) {s : FSt σ} (hs : s.dec.inp.length ≤ L) : FLe L (deliver h i s) := by
  unfold deliver
  dsimp only
  split
  · exact FLe.stop _ _
  · exact FLe.go hs

theorem FLe.andThen {L : Nat} {r : FRes σ} {k : FSt σ → FRes σ} (hr : FLe L r)
    (hk : ∀ s : FSt σ, s.dec.inp.length ≤ L → FLe L (k s)) : FLe L (r.andThen k) := by
  cases r with
  | go s => exact hk s (hr s rfl)
  | stop c e => exact FLe.stop _ _

/-- A function that never gives bytes back. -/
def Keeps {α : Type} (x : Dec α) : Prop := ∀ s a s', x s = .ok a s' → s'.inp.length ≤ s.inp.length

theorem keeps_of {α : Type} {x : Dec α} (hx : ∀ L, Le L x x) : Keeps x :=
  fun s a s' e => (hx s.inp.length s (Nat.le_refl _)).2 a s' e

theorem FLe.get {L : Nat} {α : Type} {s : FSt σ} {x : Dec α} {k : α → FSt σ → FRes σ}
    (hx : Keeps x) (hs : s.dec.inp.length ≤ L) (hk : ∀ a (s : FSt σ), s.dec.inp.length ≤ L → FLe L (k a s)) :
    FLe L (s.get x k) := by
  unfold FSt.get
  cases e : x s.dec with
  | ok a d => exact hk a _ (Nat.le_trans (hx _ _ _ e) hs)
  | err => exact FLe.stop _ _
  | ub => exact FLe.stop _ _

theorem fle_times {L : Nat} {x : FSt σ → FRes σ} (hx : ∀ s : FSt σ, s.dec.inp.length ≤ L → FLe L (x s)) :
    ∀ n (s : FSt σ), s.dec.inp.length ≤ L → FLe L (times x n s)
  | 0, _, hs => FLe.go hs
  | n + 1, s, hs => (hx s hs).andThen (fle_times hx n)

theorem le_pushNs {L : Nat} (n : Str) : Le L (pushNs n) (pushNs n) := by
  intro s _
  refine ⟨rfl, fun a s' e => ?_⟩
  unfold pushNs at e; cases e; exact Nat.le_refl _

theorem le_pushId {L : Nat} (i : Id) : Le L (pushId i) (pushId i) := by
  intro s _
  refine ⟨rfl, fun a s' e => ?_⟩
  unfold pushId at e; cases e; exact Nat.le_refl _

theorem le_getNs {L : Nat} (k : Nat) : Le L (getNs k) (getNs k) := by
  intro s _
  refine ⟨rfl, fun a s' e => ?_⟩
  unfold getNs at e
  split at e <;> cases e
  exact Nat.le_refl _

theorem fle_frameOf (hu : E.u.Lawful) (c : UInt8) (s : FSt σ) : FLe s.dec.inp.length (frameOf E h c s) := by
  have hv : Keeps (varint E) := keeps_of fun _ => le_varint hu
  have hi : Keeps (decIri E) := keeps_of fun _ => le_decIri hu
  unfold frameOf
  split
  · exact FLe.go (Nat.le_refl _)
  · exact FLe.go (Nat.le_refl _)
  · exact FLe.go (Nat.le_refl _)
  · exact FLe.stop _ _
  · split
    · refine FLe.get hv (Nat.le_refl _) fun n s hs => fle_times (fun s hs => FLe.get (keeps_of fun _ => ?_) hs fun _ s hs => fle_deliver _ hs) n s hs
      exact (le_decStr hu).bind fun _ => (le_decStr hu).bind fun _ => (le_pushNs _).bind fun _ => Le.pure _
    · refine FLe.get hv (Nat.le_refl _) fun n s hs => fle_times (fun s hs => FLe.get (keeps_of fun _ => ?_) hs fun _ s hs => FLe.go (s := { s with code := .ok }) hs) n s hs
      exact (le_decStr hu).bind fun _ => le_pushNs _
  · split
    · refine FLe.get hv (Nat.le_refl _) fun n s hs => fle_times (fun s hs => FLe.get (keeps_of fun _ => ?_) hs fun _ s hs => FLe.go hs) n s hs
      exact (le_varint hu).bind fun _ => (le_decStr hu).bind fun _ => (le_getNs _).bind fun _ => le_pushId _
    · refine FLe.get hv (Nat.le_refl _) fun n s hs => fle_times (fun s hs => FLe.get (keeps_of fun _ => ?_) hs fun _ s hs => FLe.go hs) n s hs
      exact (le_decStr hu).bind fun _ => le_pushId _
  · refine FLe.andThen (FLe.get hi (Nat.le_refl _) fun _ s hs => fle_deliver _ hs) fun s hs => ?_
    cases bit7 c
    · exact FLe.go hs
    · exact FLe.get hi hs fun _ s hs => fle_deliver _ hs
  · exact FLe.get hv (Nat.le_refl _) fun n s hs => fle_times (fun s hs => FLe.get hi hs fun _ s hs => fle_deliver _ hs) n s hs
  · refine FLe.get hv (Nat.le_refl _) fun n s hs => fle_times (fun s hs => ?_) n s hs
    unfold annotItem FSt.get
    cases e : decAnnot E (s.dec.inp.length + 1) s.dec with
    | ok a d =>
      have := (le_decAnnot hu _ _ (Nat.lt_succ_self _) _ (Nat.le_refl _) s.dec (Nat.le_refl _)).2 _ _ e
      exact fle_deliver _ (Nat.le_trans this hs)
    | err => exact FLe.stop _ _
    | ub => exact FLe.stop _ _
  · unfold axiomFrame FSt.get
    cases e : decAxiom E (s.dec.inp.length + 1) c s.dec with
    | ok a d =>
      have hd := (le_decAxiom hu (Nat.lt_succ_self _) (Nat.le_refl _) c s.dec (Nat.le_refl _)).2 _ _ e
      dsimp only
      split
      · exact fle_deliver _ hd
      · cases deliver h (.ax a.1) { s with dec := d } <;> exact FLe.stop _ _
    | err => exact FLe.stop _ _
    | ub => exact FLe.stop _ _

theorem frame_shrinks (hu : E.u.Lawful) {s s' : FSt σ} (e : frame E h s = .go s') :
    s'.dec.inp.length < s.dec.inp.length := by
  unfold frame at e
  split at e
  · cases e
  · rename_i c r hi
    have := fle_frameOf hu c _ _ e
    rw [hi]
    exact Nat.lt_succ_of_le this

/-- Fuel beyond the length of the input changes nothing. -/
theorem frames_fuel (hu : E.u.Lawful) : ∀ n (s : FSt σ), s.dec.inp.length < n → ∀ k, s.dec.inp.length < k →
    frames E h n s = frames E h k s
  | 0, _, hn, _, _ => by omega
  | n + 1, s, hn, 0, hk => by omega
  | n + 1, s, hn, k + 1, hk => by
    rw [frames, frames]
    cases e : frame E h s with
    | stop c r => rfl
    | go s' =>
      have := frame_shrinks hu e
      exact frames_fuel hu n s' (by omega) k (by omega)

end

end Cowl.Prt
