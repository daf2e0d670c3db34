import Verif.TypedDoc
import Verif.HeardLemmas
import Verif.FuncCutLex
/-! # Lemmas: what is read is spelled by the text, documents -/
namespace Cowl.Says
open Ast Func XmlSpec FuncSpec Change

variable {W : Ways} {ns : Str → Option Str} {m : Prefix.PMap}

/-! ## Tokens -/

theorem lang_len {s : Str} (h : 0 < langLen s) : (s.take (langLen s)).drop 1 ≠ [] := by
  unfold langLen at h ⊢
  split at h
  · rename_i t
    dsimp only at h ⊢
    split at h
    · cases h
    · rename_i ha
      rw [if_neg ha, Nat.add_assoc, Nat.add_comm 1, List.take_succ_cons, List.drop_one, List.tail_cons]
      intro e
      rw [List.take_eq_nil_iff] at e
      rcases e with e | e
      · omega
      · rw [e] at ha; exact ha rfl
  · cases h

theorem lexN_fine : ∀ (n : Nat) (s : Str), Fine (lexN n s)
  | 0, _ => by simp [lexN, Fine]
  | _ + 1, [] => by simp [lexN, Fine]
  | n + 1, c :: s => by
    have hl := best_len c s
    have hp := best_pos c s
    have add : ∀ {t : Tok} {ts : List Tok}, t ≠ .lang [] → Fine ts → Fine (t :: ts) := fun h1 h2 u hu =>
      (List.mem_cons.1 hu).elim (fun e => e ▸ h1) (h2 u)
    rw [lexN]
    cases hb : (best (c :: s)).1 with
    | qmark =>
      dsimp only
      cases hq : lexQ ((c :: s).drop (best (c :: s)).2) [] with
      | done v rest => exact add nofun (lexN_fine n rest)
      | bad _ => exact add nofun nofun
      | eof => exact nofun
    | ws => exact lexN_fine n _
    | comment => exact lexN_fine n _
    | any =>
      dsimp only
      split
      · exact nofun
      · exact add nofun (lexN_fine n s)
    | lang =>
      refine add ?_ (lexN_fine n _)
      intro e
      rw [hb] at hl
      replace hl : (best (c :: s)).2 = langLen (c :: s) := hl
      rw [Rule.tok, hl] at e
      injection e with e
      exact lang_len (by omega) e
    | _ => exact add nofun (lexN_fine n _)

/-! ## Parts of documents -/

variable {σ : Type} {h : Callback σ Item}

theorem prefixes_heard (addr : Nat) (s : σ) (m : Prefix.PMap) (ts : List Tok) : ∀ {s' m' ts'}, readPrefixes h addr s m ts = .go s' m' ts' →
    ∃ (ps : List (Str × Str)) (us : List Tok), ts = us ++ ts' ∧ (∀ ns, Spelt lax ns (ps.flatMap prefixForm) us) ∧
      s' = give h s (ps.map fun e => Item.prefixDecl e.1 e.2) ∧ m' = declare addr (entries ps) m := by
  fun_induction readPrefixes h addr s m ts with
  | case1 => nofun
  | case2 addr s m p n ts r hr =>
    rename_i ih
    intro s' m' ts' e
    obtain ⟨ps, us, rfl, h1, rfl, rfl⟩ := ih e
    refine ⟨(p, n) :: ps, [.kw .prefix_, .lpar, .pnameNs p, .equals, .iriRef n, .rpar] ++ us, rfl, ?_, rfl, rfl⟩
    intro ns
    rw [List.flatMap_cons]
    exact spelt_add (mk_form (us := [_, _, _]) (.tok (.tok (.tok .nil)))) (h1 ns)
  | case3 => nofun
  | case4 =>
    intro s' m' ts' e
    cases e
    exact ⟨[], [], rfl, fun _ => .nil, rfl, rfl⟩

theorem emit_heard {s s' : σ} {m m' : Prefix.PMap} {i : Item} {ts ts' : List Tok} (e : emit h s m i ts = .go s' m' ts') :
    s' = (h s i).1 ∧ m' = m ∧ ts' = ts := by
  unfold emit at e
  dsimp only at e
  split at e
  · cases e; exact ⟨rfl, rfl, rfl⟩
  · cases e

theorem id_heard {s s' : σ} {m m' : Prefix.PMap} {ts ts' : List Tok} (e : readId h s m ts = .go s' m' ts') :
    ∃ id us, ts = us ++ ts' ∧ m' = m ∧ Spelt lax m.getNs (idForm id) us ∧ s' = give h s (idItems id) := by
  rw [Func.readId.eq_def] at e
  split at e
  · cases e; exact ⟨none, [], rfl, rfl, .nil, rfl⟩
  · split at e
    · cases e; exact ⟨none, [], rfl, rfl, .nil, rfl⟩
    · split at e
      · cases e
      · rename_i i hi
        split at e
        · obtain ⟨rfl, rfl, rfl⟩ := emit_heard e
          exact ⟨some (i, none), [_], rfl, rfl, spelt_one hi, rfl⟩
        · split at e
          · obtain ⟨rfl, rfl, rfl⟩ := emit_heard e
            exact ⟨some (i, none), [_], rfl, rfl, spelt_one hi, rfl⟩
          · split at e
            · cases e
            · rename_i v hv
              dsimp only at e
              split at e
              · cases e
              · split at e
                · cases e
                · cases e
                  exact ⟨some (i, some v), [_, _], rfl, rfl, .iri (iri_heard hi) (spelt_one hv), rfl⟩

theorem emit_stop {s s' : σ} {m : Prefix.PMap} {i : Item} {ts : List Tok} {r : Outcome} (e : emit h s m i ts = .stop s' r) : r ≠ .ok := by
  unfold emit at e
  dsimp only at e
  split at e
  · cases e
  · cases e; exact nofun

theorem id_ok {s s' : σ} {m : Prefix.PMap} {ts : List Tok} (e : readId h s m ts = .stop s' .ok) : False := by
  rw [Func.readId.eq_def] at e
  split at e
  · cases e
  · split at e
    · cases e
    · split at e
      · cases e
      · split at e
        · exact emit_stop e rfl
        · split at e
          · exact emit_stop e rfl
          · split at e
            · cases e
            · dsimp only at e
              split at e
              · cases e
              · split at e
                · cases e
                · cases e

theorem header_ok (k : Nat) : ∀ (n : Nat) {s s' : σ} {m : Prefix.PMap} {ts : List Tok}, readHeader h k n s m ts = .stop s' .ok → False
  | 0, _, _, _, _, e => by cases e
  | n + 1, s, s', m, ts, e => by
    rw [Func.readHeader.eq_def] at e
    dsimp only at e
    split at e
    · split at e
      · cases e
      · split at e
        · exact header_ok k n e
        · rename_i e1
          cases e; exact emit_stop e1 rfl
    · split at e
      · cases e
      · split at e
        · exact header_ok k n e
        · rename_i e1
          cases e; exact emit_stop e1 rfl
    · cases e

theorem header_heard (k : Nat) : ∀ (n : Nat) {s s' : σ} {m m' : Prefix.PMap} {ts ts' : List Tok}, Fine ts →
    readHeader h k n s m ts = .go s' m' ts' →
    ∃ (l : List (Iri ⊕ Annot)) (us : List Tok), ts = us ++ ts' ∧ m' = m ∧ Spelt lax m.getNs (l.flatMap partForm) us ∧
      (∀ a, .inr a ∈ l → a.Meets counts) ∧ s' = give h s (l.map partItem)
  | 0, _, _, _, _, _, _, _, e => by cases e
  | n + 1, s, s', m, m', ts, ts', hf, e => by
    rw [Func.readHeader.eq_def] at e
    dsimp only at e
    split at e
    · split at e
      · cases e
      · rename_i i ts1 hi
        split at e
        · rename_i e1
          obtain ⟨rfl, rfl, rfl⟩ := emit_heard e1
          rw [Func.readImport.eq_def] at hi
          split at hi
          · obtain ⟨j, hj, hi⟩ := Option.map_eq_some_iff.1 hi
            cases hi
            obtain ⟨l, us, rfl, rfl, h1, h2, rfl⟩ := header_heard k n hf.tail.tail.tail.tail e
            refine ⟨.inl i :: l, [_, _, _, _] ++ us, rfl, rfl, ?_, ?_, rfl⟩
            · rw [List.flatMap_cons]
              exact spelt_add (mk_form (us := [_]) (spelt_one hj)) h1
            · intro a ha
              rcases List.mem_cons.1 ha with ha | ha
              · cases ha
              · exact h2 a ha
          · cases hi
        · cases e
    · split at e
      · cases e
      · rename_i o ts1 ho
        split at e
        · rename_i e1
          obtain ⟨rfl, rfl, rfl⟩ := emit_heard e1
          obtain ⟨ws, e2, a, rfl, g1, g2⟩ := parseCat_heard k _ _ _ _ hf ho
          rw [e2] at hf ⊢
          obtain ⟨l, us, rfl, rfl, h1, h2, rfl⟩ := header_heard k n hf.right e
          refine ⟨.inr a :: l, ws ++ us, (List.append_assoc ..).symm, rfl, ?_, ?_, rfl⟩
          · rw [List.flatMap_cons]
            exact spelt_add g2 h1
          · intro b hb
            rcases List.mem_cons.1 hb with hb | hb
            · cases hb; exact g1
            · exact h2 b hb
        · cases e
    · cases e; exact ⟨[], [], rfl, rfl, .nil, nofun, rfl⟩

theorem axioms_heard (k : Nat) : ∀ (n : Nat) {s s' : σ} {m : Prefix.PMap} {ts : List Tok}, Fine ts → readAxioms h k n s m ts = (s', .ok) →
    ∃ (l : List Axiom) (us : List Tok), ts = us ++ [.rpar] ∧ Spelt lax m.getNs (l.flatMap axiomForm) us ∧
      (∀ a ∈ l, a.Meets counts) ∧ s' = give h s (l.map fun a => .ax a.toObj)
  | 0, _, _, _, _, _, e => by cases e
  | n + 1, s, s', m, ts, hf, e => by
    rw [Func.readAxioms.eq_def] at e
    dsimp only at e
    split at e
    · rename_i ts
      by_cases ht : ts = []
      · subst ht
        cases e
        exact ⟨[], [], rfl, .nil, nofun, rfl⟩
      · rw [if_neg ht] at e; cases e
    · split at e
      · cases e
      · rename_i o ts1 ho
        split at e
        · rename_i e1
          obtain ⟨rfl, rfl, rfl⟩ := emit_heard e1
          obtain ⟨ws, rfl, a, rfl, g1, g2⟩ := parseCat_heard k _ _ _ _ hf ho
          obtain ⟨l, us, rfl, h1, h2, rfl⟩ := axioms_heard k n hf.right e
          refine ⟨a :: l, ws ++ us, (List.append_assoc ..).symm, ?_, ?_, rfl⟩
          · rw [List.flatMap_cons]
            exact spelt_add g2 h1
          · intro b hb
            rcases List.mem_cons.1 hb with rfl | hb
            · exact g1
            · exact h2 b hb
        · rename_i e1
          cases e
          unfold emit at e1
          dsimp only at e1
          split at e1
          · cases e1
          · cases e1

/-! ## Prefixes -/

theorem first_add (ps : List (Str × Str)) : ∀ (x : PrefixSpec.Abs) (p : Str), (Standard p → x p ≠ none) →
    (entries ps).foldl (fun x e => x.add e.1.txt e.2 false) x p =
      match x p with
      | some n => some n
      | none => (ps.find? fun e => e.1 == p).map Prod.snd := by
  induction ps with
  | nil => intro x p _; show x p = _; cases x p <;> rfl
  | cons e ps ih =>
    intro x p hs
    show (entries ps).foldl (fun x e => x.add e.1.txt e.2 false) (x.add e.1 e.2 false) p = _
    have h0 : x.add e.1 e.2 false p = if p = e.1 ∧ x e.1 = none then some (PrefixSpec.std e.1 e.2) else x p := by
      simp [PrefixSpec.Abs.add]
    rw [ih, h0, List.find?_cons]
    · by_cases hp : p = e.1
      · subst hp
        cases hx : x e.1 with
        | none =>
          have : ¬ Standard e.1 := fun h => hs h hx
          simp [std_other this]
        | some n => simp
      · have : (e.1 == p) = false := by simpa using fun e => hp e.symm
        simp [hp, this]
    · intro hst
      rw [h0]
      split
      · exact nofun
      · exact hs hst

theorem loose_ns {ks : List Nat} (hk : ks.length = 4) {dflt : Prefix.Fwd} (hf : PrefixSpec.Distinct dflt) (d : Loose) (a : Nat) :
    (declare a (entries d.prefixes) (Prefix.create ks dflt)).getNs = d.ns (PrefixSpec.initial dflt) := by
  funext p
  rw [C22_get_ns (declare_reaches _ a (.create ks dflt hk hf)), first_add]
  · rfl
  · intro hs e
    have : PrefixSpec.initial dflt p = some (PrefixSpec.std p []) := if_pos hs
    rw [this] at e; cases e

/-- What is read is what the text says. -/
theorem read_heard {ks : List Nat} (hk : ks.length = 4) {dflt : Prefix.Fwd} (hf : PrefixSpec.Distinct dflt) {addr : Nat} {text : Str}
    {s s' : σ} (e : funcRead h (Prefix.create ks dflt) addr text s = (s', .ok)) :
    ∃ d : Loose, d.Ok ∧ Hears (PrefixSpec.initial dflt) text d ∧ s' = give h s d.items := by
  have hfine : Fine (lex text) := lexN_fine _ _
  unfold funcRead at e
  split at e
  · rename_i e1
    cases e
    exfalso
    revert e1
    generalize lex text = ts
    generalize Prefix.create ks dflt = m
    clear hfine
    fun_induction readPrefixes h addr s m ts <;> simp_all
  · rename_i s1 m1 ts1 e1
    obtain ⟨ps, us, e2, g1, rfl, rfl⟩ := prefixes_heard addr s _ _ e1
    rw [e2] at hfine
    rw [Func.readOntology.eq_def] at e
    split at e
    · rename_i ts2
      split at e
      · rename_i e3
        cases e
        exfalso
        exact id_ok e3
      · rename_i s3 m3 ts3 e3
        obtain ⟨id, ui, rfl, rfl, g2, rfl⟩ := id_heard e3
        split at e
        · rename_i e4
          cases e
          exfalso
          exact header_ok _ _ e4
        · rename_i s4 m4 ts4 e4
          obtain ⟨l, uh, rfl, rfl, g3, g4, rfl⟩ := header_heard _ _ hfine.right.tail.tail.right e4
          obtain ⟨as, ua, rfl, g5, g6, rfl⟩ := axioms_heard _ _ hfine.right.tail.tail.right.right e
          refine ⟨⟨ps, id, l, as⟩, ⟨g4, g6⟩, ?_, ?_⟩
          · have hns := loose_ns hk hf ⟨ps, id, l, as⟩ addr
            dsimp only at hns
            unfold Hears
            rw [← hns, e2]
            refine spelt_add (g1 _) ?_
            have := mk_form (k := .ontology) (spelt_add g2 (spelt_add g3 g5))
            simpa using this
          · simp only [Loose.items, give_append]
    · cases e

end Cowl.Says
