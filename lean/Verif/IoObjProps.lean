import Verif.IoObj
/-!
# C95: readers and writers are made and released without losing memory
-/
namespace Cowl.IoObj

/-- The blocks of a reader or writer. -/
def Handle.blocks (h : Handle) : List Nat := h.addr :: h.ctx.toList

/-- The allocated blocks are those of the readers and writers, and `lost` others. -/
structure Inv (s : St) (lost : List Nat) : Prop where
  live : s.live.Perm (s.objs.flatMap Handle.blocks ++ lost)
  nodup : s.live.Nodup
  fresh : ∀ a ∈ s.live, a < s.next
  refs : ∀ h ∈ s.objs, 0 < h.refs
  ctx : ∀ h ∈ s.objs, h.kind = .custom ↔ h.ctx = none

theorem inv_start : Inv St.start [] := ⟨.nil, .nil, nofun, nofun, nofun⟩

theorem Inv.cons {s : St} {lost : List Nat} (h : Inv s lost) : (s.next :: s.live).Nodup ∧
    ∀ a ∈ s.next :: s.live, a < s.next + 1 := by
  refine ⟨List.nodup_cons.2 ⟨fun hm => Nat.lt_irrefl _ (h.fresh _ hm), h.nodup⟩, fun a ha => ?_⟩
  rcases List.mem_cons.1 ha with rfl | ha
  · omega
  · have := h.fresh a ha; omega

/-- A block that no reader or writer has. -/
theorem inv_block {s : St} {lost : List Nat} (h : Inv s lost) :
    Inv { s with live := s.next :: s.live, next := s.next + 1 } (s.next :: lost) :=
  ⟨((h.live.cons _).trans List.perm_middle.symm), h.cons.1, h.cons.2, h.refs, h.ctx⟩

theorem inv_wrap {s : St} {lost : List Nat} (h : Inv s (lost)) (ok : Bool) :
    Inv (s.wrap .custom none ok) lost := by
  cases ok with
  | false => exact h
  | true =>
    refine ⟨?_, h.cons.1, h.cons.2, ?_, ?_⟩
    · exact (h.live.cons _)
    · intro x hx
      rcases List.mem_cons.1 hx with rfl | hx
      · exact Nat.one_pos
      · exact h.refs x hx
    · intro x hx
      rcases List.mem_cons.1 hx with rfl | hx
      · exact ⟨fun _ => rfl, fun _ => rfl⟩
      · exact h.ctx x hx

theorem inv_wrap_ctx {s : St} {lost : List Nat} {k : Kind} {c : Nat} (h : Inv s (c :: lost)) (ok : Bool) (hk : k ≠ .custom) :
    Inv (s.wrap k (some c) ok) (if ok then lost else c :: lost) := by
  cases ok with
  | false => exact h
  | true =>
    refine ⟨?_, h.cons.1, h.cons.2, ?_, ?_⟩
    · refine (h.live.cons _).trans ?_
      show (s.next :: (s.objs.flatMap Handle.blocks ++ c :: lost)).Perm
        ((s.next :: c :: s.objs.flatMap Handle.blocks) ++ lost)
      exact List.perm_middle.cons _
    · intro x hx
      rcases List.mem_cons.1 hx with rfl | hx
      · exact Nat.one_pos
      · exact h.refs x hx
    · intro x hx
      rcases List.mem_cons.1 hx with rfl | hx
      · exact ⟨fun e => absurd e hk, nofun⟩
      · exact h.ctx x hx

/-- Blocks that a creation loses: the context, if there is no memory for the object. -/
def losses : Op → Nat
  | .create .custom _ _ => 0
  | .create _ true false => 1
  | _ => 0

/-- A creation that makes a writer without a context. -/
def Headless : Op → Prop
  | .create .writePrt false true => True
  | _ => False

theorem inv_create {s : St} {lost : List Nat} (h : Inv s lost) (k : Kind) (ok1 ok2 : Bool)
    (hh : ¬ Headless (.create k ok1 ok2)) :
    ∃ lost', Inv (s.create k ok1 ok2) lost' ∧ lost'.length = lost.length + losses (.create k ok1 ok2) := by
  have hb := inv_block h
  have key : ∀ k', k' ≠ .custom → Inv (({ s with live := s.next :: s.live, next := s.next + 1 } : St).wrap k' (some s.next) ok2)
      (if ok2 then lost else s.next :: lost) := fun k' hk => inv_wrap_ctx hb ok2 hk
  have len : (if ok2 = true then lost else s.next :: lost).length = lost.length + (if ok2 then 0 else 1) := by
    cases ok2 <;> simp
  cases k with
  | custom => exact ⟨lost, inv_wrap h ok2, rfl⟩
  | writePrt =>
    cases ok1 with
    | true => exact ⟨_, key .writePrt nofun, by rw [len]; cases ok2 <;> rfl⟩
    | false =>
      cases ok2 with
      | true => exact absurd trivial hh
      | false => exact ⟨lost, h, rfl⟩
  | readFunc =>
    cases ok1 with
    | true => exact ⟨_, key .readFunc nofun, by rw [len]; cases ok2 <;> rfl⟩
    | false => exact ⟨lost, h, rfl⟩
  | readPrt =>
    cases ok1 with
    | true => exact ⟨_, key .readPrt nofun, by rw [len]; cases ok2 <;> rfl⟩
    | false => exact ⟨lost, h, rfl⟩
  | writeFunc =>
    cases ok1 with
    | true => exact ⟨_, key .writeFunc nofun, by rw [len]; cases ok2 <;> rfl⟩
    | false => exact ⟨lost, h, rfl⟩

theorem find_handle {s : St} {a : Nat} (h : ∃ x ∈ s.objs, x.addr = a) :
    ∃ x ∈ s.objs, x.addr = a ∧ s.objs.find? (fun h => h.addr = a) = some x := by
  obtain ⟨x, hx, e⟩ := h
  cases hf : s.objs.find? fun h => decide (h.addr = a) with
  | none => exact absurd e (by simpa using List.find?_eq_none.1 hf x hx)
  | some y => exact ⟨y, List.mem_of_find?_eq_some hf, by simpa using List.find?_some hf, rfl⟩

theorem blocks_map (a : Nat) (f : Handle → Handle) (hf : ∀ h, (f h).blocks = h.blocks) (xs : List Handle) :
    (xs.map f).flatMap Handle.blocks = xs.flatMap Handle.blocks := by
  simp [List.flatMap_map, hf]

theorem inv_refs {s : St} {lost : List Nat} (h : Inv s lost) (f : Handle → Handle) (hf : ∀ h, (f h).blocks = h.blocks)
    (hk : ∀ h, (f h).kind = h.kind ∧ (f h).ctx = h.ctx) (hr : ∀ h ∈ s.objs, 0 < (f h).refs) :
    Inv { s with objs := s.objs.map f } lost := by
  refine ⟨?_, h.nodup, h.fresh, ?_, ?_⟩
  · show s.live.Perm ((s.objs.map f).flatMap Handle.blocks ++ lost)
    rw [blocks_map 0 f hf]; exact h.live
  · intro x hx
    obtain ⟨y, hy, rfl⟩ := List.mem_map.1 hx
    exact hr y hy
  · intro x hx
    obtain ⟨y, hy, rfl⟩ := List.mem_map.1 hx
    rw [(hk y).2, (hk y).1]
    exact h.ctx y hy

/-- The blocks of a handle and of the others. -/
theorem blocks_split {s : St} {lost : List Nat} (h : Inv s lost) {x : Handle} (hx : x ∈ s.objs) :
    s.live.Perm (x.blocks ++ ((s.objs.filter fun h => h.addr ≠ x.addr).flatMap Handle.blocks ++ lost)) := by
  have hn : (s.objs.flatMap Handle.blocks ++ lost).Nodup := h.live.nodup_iff.1 h.nodup
  have hn := (List.nodup_append.1 hn).1
  have key : ∀ xs : List Handle, (xs.flatMap Handle.blocks).Nodup → x ∈ xs →
      (xs.flatMap Handle.blocks).Perm (x.blocks ++ (xs.filter fun h => h.addr ≠ x.addr).flatMap Handle.blocks) := by
    intro xs
    induction xs with
    | nil => intro _ h; cases h
    | cons y ys ih =>
      intro hn hm
      rw [List.flatMap_cons] at hn ⊢
      obtain ⟨-, h2, h3⟩ := List.nodup_append.1 hn
      by_cases hy : y.addr = x.addr
      · have hnot : ∀ z ∈ ys, z.addr ≠ y.addr := fun z hz e =>
          h3 y.addr (by simp [Handle.blocks]) z.addr (List.mem_flatMap.2 ⟨z, hz, by simp [Handle.blocks]⟩) e.symm
        have hxy : x = y := by
          rcases List.mem_cons.1 hm with e | e
          · exact e
          · exact absurd hy.symm (hnot x e)
        subst hxy
        have : (ys.filter fun h => decide (h.addr ≠ x.addr)) = ys := by
          rw [List.filter_eq_self]; intro z hz; simpa using hnot z hz
        rw [List.filter_cons_of_neg (by simp), this]
      · have hm' : x ∈ ys := by
          rcases List.mem_cons.1 hm with e | e
          · exact absurd (by rw [e]) hy
          · exact e
        rw [List.filter_cons_of_pos (by simpa using hy), List.flatMap_cons]
        refine ((ih h2 hm').append_left _).trans ?_
        rw [← List.append_assoc, ← List.append_assoc]
        exact List.Perm.append_right _ List.perm_append_comm
  refine h.live.trans ?_
  rw [← List.append_assoc]
  exact (key s.objs hn hx).append_right _

theorem addr_inj {x y : Handle} : ∀ {xs : List Handle}, (xs.flatMap Handle.blocks).Nodup → x ∈ xs → y ∈ xs →
    x.addr = y.addr → x = y
  | [], _, hx, _, _ => nomatch hx
  | z :: zs, hn, hx, hy, e => by
    rw [List.flatMap_cons] at hn
    obtain ⟨-, h2, h3⟩ := List.nodup_append.1 hn
    have no : ∀ w ∈ zs, w.addr ≠ z.addr := fun w hw e =>
      h3 z.addr (by simp [Handle.blocks]) w.addr (List.mem_flatMap.2 ⟨w, hw, by simp [Handle.blocks]⟩) e.symm
    rcases List.mem_cons.1 hx with rfl | hx'
    · rcases List.mem_cons.1 hy with rfl | hy'
      · rfl
      · exact absurd e.symm (no y hy')
    · rcases List.mem_cons.1 hy with rfl | hy'
      · exact absurd e (no x hx')
      · exact addr_inj h2 hx' hy' e

theorem inv_release {s : St} {lost : List Nat} (h : Inv s lost) {a : Nat} (ha : ∃ x ∈ s.objs, x.addr = a) :
    ∃ s', s.release a = some s' ∧ Inv s' lost := by
  obtain ⟨x, hx, rfl, hf⟩ := find_handle ha
  unfold St.release
  rw [hf]
  dsimp only
  by_cases h1 : x.refs = 1
  · rw [if_pos h1]
    have hp := blocks_split h hx
    have rest : ∀ l : List Nat, l.Perm ((s.objs.filter fun h => decide (h.addr ≠ x.addr)).flatMap Handle.blocks ++ lost) →
        l.Nodup → (∀ a ∈ l, a ∈ s.live) →
        Inv ⟨l, s.next, s.objs.filter fun h => decide (h.addr ≠ x.addr)⟩ lost := fun l e n i =>
      ⟨e, n, fun a ha => h.fresh a (i a ha), fun y hy => h.refs y (List.mem_filter.1 hy).1,
        fun y hy => h.ctx y (List.mem_filter.1 hy).1⟩
    have hmem : x.addr ∈ s.live := hp.mem_iff.2 (by simp [Handle.blocks])
    by_cases hk : x.ctx = none
    · have e1 : s.freeCtx x = some s := by unfold St.freeCtx; rw [if_pos ((h.ctx x hx).2 hk)]
      rw [e1, Option.bind_some]
      unfold St.free
      rw [if_pos hmem, Option.map_some]
      refine ⟨_, rfl, rest _ ?_ (h.nodup.erase _) fun a ha => List.mem_of_mem_erase ha⟩
      have hb : x.blocks = [x.addr] := by unfold Handle.blocks; rw [hk]; rfl
      rw [hb] at hp
      exact (hp.erase x.addr).trans (by simp)
    · obtain ⟨c, hc⟩ := Option.ne_none_iff_exists'.1 hk
      have hb : x.blocks = [x.addr, c] := by unfold Handle.blocks; rw [hc]; rfl
      rw [hb] at hp
      have hcm : c ∈ s.live := hp.mem_iff.2 (by simp)
      have hne : x.addr ≠ c := by
        have := hp.nodup_iff.1 h.nodup
        intro e; rw [e] at this; simp at this
      have e1 : s.freeCtx x = some { s with live := s.live.erase c } := by
        unfold St.freeCtx
        rw [if_neg fun k => hk ((h.ctx x hx).1 k), hc]
        show s.free c = _
        unfold St.free
        rw [if_pos hcm]
      rw [e1, Option.bind_some]
      unfold St.free
      rw [if_pos (show x.addr ∈ s.live.erase c from (h.nodup.mem_erase_iff).2 ⟨hne, hmem⟩), Option.map_some]
      refine ⟨_, rfl, rest _ ?_ ((h.nodup.erase _).erase _) fun a ha => List.mem_of_mem_erase (List.mem_of_mem_erase ha)⟩
      refine ((hp.erase c).erase x.addr).trans ?_
      rw [List.cons_append, List.erase_cons_tail (by simpa using hne)]
      simp
  · rw [if_neg h1]
    refine ⟨_, rfl, inv_refs h _ ?_ ?_ ?_⟩
    · intro y; split <;> rfl
    · intro y; split <;> exact ⟨rfl, rfl⟩
    · intro y hy
      have := h.refs y hy
      split
      · rename_i e
        have hn := (List.nodup_append.1 (h.live.nodup_iff.1 h.nodup)).1
        have := addr_inj hn hy hx e
        subst this
        show 0 < y.refs - 1
        omega
      · exact this

theorem inv_retain {s : St} {lost : List Nat} (h : Inv s lost) {a : Nat} (ha : ∃ x ∈ s.objs, x.addr = a) :
    ∃ s', s.retain a = some s' ∧ Inv s' lost := by
  obtain ⟨x, hx, rfl, hf⟩ := find_handle ha
  unfold St.retain
  rw [hf]
  refine ⟨_, rfl, inv_refs h _ ?_ ?_ ?_⟩
  · intro y; split <;> rfl
  · intro y; split <;> exact ⟨rfl, rfl⟩
  · intro y hy
    have := h.refs y hy
    split
    · exact Nat.succ_pos _
    · exact this

theorem inv_run : ∀ (ops : List Op) {s : St} {lost : List Nat}, Inv s lost → Legal s ops → (∀ op ∈ ops, ¬ Headless op) →
    ∃ s' lost', s.run ops = some s' ∧ Inv s' lost' ∧ lost'.length = lost.length + (ops.map losses).sum
  | [], s, lost, h, _, _ => ⟨s, lost, rfl, h, rfl⟩
  | op :: ops, s, lost, h, hl, hh => by
    have key : ∃ s1 lost1, s.step op = some s1 ∧ Inv s1 lost1 ∧ lost1.length = lost.length + losses op := by
      cases op with
      | create k ok1 ok2 =>
        obtain ⟨l, h1, h2⟩ := inv_create h k ok1 ok2 (hh _ (by simp))
        exact ⟨_, l, rfl, h1, h2⟩
      | retain a =>
        obtain ⟨s1, h1, h2⟩ := inv_retain h hl.1
        exact ⟨s1, lost, h1, h2, rfl⟩
      | release a =>
        obtain ⟨s1, h1, h2⟩ := inv_release h hl.1
        exact ⟨s1, lost, h1, h2, rfl⟩
    obtain ⟨s1, lost1, e, hi, hlen⟩ := key
    obtain ⟨s2, lost2, e2, hi2, hlen2⟩ := inv_run ops hi (hl.2 s1 e) fun o ho => hh o (by simp [ho])
    refine ⟨s2, lost2, by rw [St.run, e]; exact e2, hi2, ?_⟩
    rw [hlen2, hlen, List.map_cons, List.sum_cons]
    omega

end Cowl.IoObj

namespace Cowl
open IoObj

/-- C95 as it should be: operations on existing readers and writers never lead to undefined
behaviour, and when the last reader and writer is released no memory is left. -/
def HandlesSafe : Prop := ∀ ops, Legal St.start ops →
  ∃ s, St.start.run ops = some s ∧ (s.objs = [] → s.live = [])

/-- C95, exactly, unless a ProtocOWL writer is made without memory for its context: there is
no undefined behaviour, and the blocks that are left, apart from those of the readers and
writers that exist, are as many as there were creations with memory for the context only. -/
theorem C95_exact (ops : List Op) (hl : Legal St.start ops) (hh : ∀ op ∈ ops, ¬ Headless op) :
    ∃ s lost, St.start.run ops = some s ∧
      s.live.Perm (s.objs.flatMap (fun h => h.addr :: h.ctx.toList) ++ lost) ∧
      lost.length = (ops.map losses).sum := by
  obtain ⟨s, lost, h1, h2, h3⟩ := inv_run ops inv_start hl hh
  exact ⟨s, lost, h1, h2.live, by simpa using h3⟩

/-- C95 if each creation has memory for all or for nothing. Missing: creations that run out
of memory in between, see `C95_fails`. -/
theorem C95_partial (ops : List Op) (hl : Legal St.start ops)
    (hm : ∀ op ∈ ops, ∀ k a b, op = .create k a b → a = b) :
    ∃ s, St.start.run ops = some s ∧ (s.objs = [] → s.live = []) := by
  have hh : ∀ op ∈ ops, ¬ Headless op := by
    intro op ho k
    unfold Headless at k
    split at k
    · have := hm _ ho _ _ _ rfl; cases this
    · exact k
  obtain ⟨s, lost, h1, h2, h3⟩ := C95_exact ops hl hh
  refine ⟨s, h1, fun e => ?_⟩
  have hz : ∀ op ∈ ops, losses op = 0 := by
    intro op ho
    unfold losses
    split
    · rfl
    · have := hm _ ho _ _ _ rfl; cases this
    · rfl
  have : (ops.map losses).sum = 0 := by
    have e : ops.map losses = ops.map fun _ => 0 := List.map_congr_left hz
    rw [e]
    clear h1 h2 h3 hz hh hm hl e
    induction ops with
    | nil => rfl
    | cons _ _ ih => simpa using ih
  rw [this] at h3
  rw [e, List.length_eq_zero_iff.1 h3] at h2
  exact h2.eq_nil

/-- C95: without memory for the object itself the context is lost, whatever the format; and a
ProtocOWL writer for whose context there is no memory cannot be released. -/
theorem C95_fails : ¬ HandlesSafe ∧
    (∀ k ∈ [Kind.readFunc, .readPrt, .writeFunc, .writePrt],
      (St.start.create k true false).objs = [] ∧ (St.start.create k true false).live ≠ []) ∧
    ∃ s, St.start.step (.create .writePrt false true) = some s ∧ s.objs = [⟨.writePrt, 0, none, 1⟩] ∧ s.release 0 = none := by
  refine ⟨fun h => ?_, by decide, _, rfl, rfl, by decide⟩
  obtain ⟨s, h1, -⟩ := h [.create .writePrt false true, .release 0]
    ⟨trivial, fun s e => by
      cases e
      exact ⟨⟨⟨.writePrt, 0, none, 1⟩, by decide, rfl⟩, fun _ _ => trivial⟩⟩
  exact absurd h1 (by
    have : St.start.run [.create .writePrt false true, .release 0] = none := rfl
    rw [this]; nofun)

/-- The conditions of `C95_partial` hold for a reader and a writer that are made, shared and
released. -/
example : ∃ ops : List Op, ops.length = 6 ∧ Legal St.start ops ∧ (∀ op ∈ ops, ∀ k a b, op = .create k a b → a = b) ∧
    ∃ s, St.start.run ops = some s ∧ s.objs = [] := by
  refine ⟨[.create .readFunc true true, .create .writePrt true true, .retain 1, .release 1, .release 1, .release 3],
    rfl, ?_, ?_, _, rfl, by decide⟩
  · refine ⟨trivial, fun s e => ?_⟩; cases e
    refine ⟨trivial, fun s e => ?_⟩; cases e
    refine ⟨⟨⟨.readFunc, 1, some 0, 1⟩, by decide, rfl⟩, fun s e => ?_⟩; cases e
    refine ⟨⟨⟨.readFunc, 1, some 0, 2⟩, by decide, rfl⟩, fun s e => ?_⟩; cases e
    refine ⟨⟨⟨.readFunc, 1, some 0, 1⟩, by decide, rfl⟩, fun s e => ?_⟩; cases e
    refine ⟨⟨⟨.writePrt, 3, some 2, 1⟩, by decide, rfl⟩, fun s e => ?_⟩; cases e
    trivial
  · intro op ho k a b e
    simp only [List.mem_cons, List.not_mem_nil, or_false] at ho
    rcases ho with rfl | rfl | rfl | rfl | rfl | rfl <;> cases e <;> rfl

end Cowl
