import Verif.FuncStdProps
import Verif.FuncDocLemmas
/-!
# Lemmas: the tokens of a written document, in the grammar of the standard
-/
namespace Cowl.Std
open YOwn (Term)
open Func Cowl.Gram Prefix PrefixSpec FuncSpec Ast Change

/-- Nonterminals whose rules are the same in the program and in the common part. -/
theorem prg_common {e : E} {w : List Term} (h : Words prg e w) :
    e.syms.all (away (.kw .import_) inAxiom) = true → Words common e w := by
  have hr : ∀ y, inAxiom y = true → (rule prg y).syms.all (away (.kw .import_) inAxiom) = true ∧ rule prg y = rule common y := by
    intro y hy; cases y <;> first | exact ⟨rfl, rfl⟩ | cases hy
  induction h with
  | nil => intro _; exact .nil
  | t x => intro _; exact .t x
  | @n x w _ ih =>
    intro h
    obtain ⟨h1, h2⟩ := hr x (by simpa [Std.E.syms, away] using h)
    exact .n (h2 ▸ ih h1)
  | seq _ _ ih1 ih2 =>
    intro h
    simp only [Std.E.syms, List.all_append, Bool.and_eq_true] at h
    exact .seq (ih1 h.1) (ih2 h.2)
  | altL _ ih =>
    intro h
    simp only [Std.E.syms, List.all_append, Bool.and_eq_true] at h
    exact .altL (ih h.1)
  | altR _ ih =>
    intro h
    simp only [Std.E.syms, List.all_append, Bool.and_eq_true] at h
    exact .altR (ih h.2)
  | optN => intro _; exact .optN
  | optS _ ih => intro h; exact .optS (ih h)
  | starN => intro _; exact .starN
  | @starS l α _ _ hα _ _ ih1 ih2 =>
    intro h
    refine .starS hα (ih1 ?_) (ih2 h)
    rw [seqs_syms, List.all_eq_true]
    intro y hy
    exact List.all_eq_true.1 h y (List.mem_flatten.2 ⟨α, hα, hy⟩)

theorem word_annot {u : List Tok} (h : Word .annotation u) : Words common (n .annotation) (u.map termOf) := by
  obtain ⟨x, hx, h⟩ := h
  cases List.mem_singleton.1 hx
  have h := any_one.1 (gen_any h)
  have hg : g .annotation = [[.s (.n .annotation)]] := rfl
  rw [hg] at h
  exact prg_common (flat_words (e := .s (.n .annotation)) h) rfl

theorem word_ax {u : List Tok} (h : Word .ax u) : Words common (n .ax) (u.map termOf) := by
  obtain ⟨x, hx, h⟩ := h
  cases List.mem_singleton.1 hx
  have h := any_one.1 (gen_any h)
  have hg : g .ax = [[.s (.n .ax)]] := rfl
  rw [hg] at h
  exact prg_common (flat_words (e := .s (.n .ax)) h) rfl

theorem many_words {v : Variant} {x : N} : ∀ {us : List (List Tok)}, (∀ u ∈ us, Words v (n x) (u.map termOf)) →
    Words v (many x) (us.flatten.map termOf)
  | [], _ => .starN
  | u :: us, h => by
    rw [List.flatten_cons, List.map_append]
    have := Words.seq (h u (.head _)) (Words.nil (v := v))
    rw [List.append_nil] at this
    exact .starS (α := [.n x]) (List.mem_singleton.2 rfl) this (many_words fun u hu => h u (.tail _ hu))

/-- The tokens of lines that are parsed as a nonterminal. -/
theorem lex_objs {m : PMap} {c : Cat} {gp : Str → Option Str} (rest : Str) : ∀ (os : List Obj),
    (∀ o ∈ os, RTC m c (writeObj gp o) o) →
    ∃ us : List (List Tok), lex ((os.map fun o => writeLine gp o).flatten ++ rest) = us.flatten ++ lex rest ∧ ∀ u ∈ us, Word c u
  | [], _ => ⟨[], rfl, nofun⟩
  | o :: os, h => by
    obtain ⟨us, h1, h2⟩ := lex_objs rest os fun o ho => h o (.tail _ ho)
    obtain ⟨tk, ts, e, -, -, hp⟩ := (h o (.head _)).run (10 :: ((os.map fun o => writeLine gp o).flatten ++ rest)) trivial
    obtain ⟨u, hu, hw⟩ := parseCat_sound _ _ _ _ _ (hp _ (Nat.le_refl _))
    refine ⟨u :: us, ?_, ?_⟩
    · rw [List.map_cons, List.flatten_cons, writeLine]
      simp only [List.append_assoc, List.cons_append, List.nil_append]
      rw [e, hu, lex_newline, h1, List.flatten_cons, List.append_assoc]
    · intro v hv
      rcases List.mem_cons.1 hv with rfl | hv
      · exact hw
      · exact h2 v hv

theorem iri_words (v : Variant) : Words v (n .iri) [.iriRef] := .n (.altL (.t _))

/-- The tokens of the imports. -/
theorem lex_imports (rest : Str) : ∀ (is : List Iri), (∀ i ∈ is, IriOk (fun _ => none) i) →
    ∃ u, lex ((is.map fun i => writeImport (.prim (.iri i))).flatten ++ rest) = u ++ lex rest ∧
      Words common (.star [imports]) (u.map termOf)
  | [], _ => ⟨[], rfl, .starN⟩
  | i :: is, h => by
    obtain ⟨u, h1, h2⟩ := lex_imports rest is fun i hi => h i (.tail _ hi)
    obtain ⟨-, hf⟩ := full_iri (h i (.head _)) (create [1, 2, 3, 4] [])
    have e : (List.map (fun i => writeImport (.prim (.iri i))) (i :: is)).flatten ++ rest =
        Kw.text .import_ ++ 40 :: (writeFullIri i ++ 41 :: 10 :: ((is.map fun i => writeImport (.prim (.iri i))).flatten ++ rest)) := by
      simp [writeImport]
    refine ⟨.kw .import_ :: .lpar :: .iriRef (i.ns ++ i.rem) :: .rpar :: u, ?_, ?_⟩
    · rw [e, lex_kw, hf, lex_rpar, lex_newline, h1]; rfl
    · exact Words.starS (α := imports) (u := [.kw .import_, .lpar, .iriRef, .rpar]) (List.mem_singleton.2 rfl)
        (Words.seq (u := [_]) (.t _) (Words.seq (u := [_]) (.t _) (Words.seq (u := [_]) (iri_words _)
          (Words.seq (u := [_]) (w := []) (.t _) .nil)))) h2

/-- The tokens of the name of the ontology. -/
theorem lex_id {iri ver : Option Iri} (hi : ∀ i, iri = some i → IriOk (fun _ => none) i)
    (hv : ∀ v, ver = some v → iri ≠ none ∧ IriOk (fun _ => none) v) (rest : Str) :
    ∃ u, lex (writeId iri ver ++ 10 :: rest) = u ++ lex rest ∧
      Words common (.opt (.seq (n .iri) (.opt (n .iri)))) (u.map termOf) := by
  cases iri with
  | none =>
    cases ver with
    | some v => exact absurd rfl (hv v rfl).1
    | none => exact ⟨[], lex_newline _, .optN⟩
  | some i =>
    obtain ⟨-, h2⟩ := full_iri (hi i rfl) (create [1, 2, 3, 4] [])
    cases ver with
    | none =>
      exact ⟨[.iriRef (i.ns ++ i.rem)], by rw [writeId, h2, lex_newline]; rfl,
        .optS (Words.seq (u := [_]) (w := []) (iri_words _) .optN)⟩
    | some v =>
      obtain ⟨-, h4⟩ := full_iri (hv v rfl).2 (create [1, 2, 3, 4] [])
      refine ⟨[.iriRef (i.ns ++ i.rem), .iriRef (v.ns ++ v.rem)], ?_, .optS (Words.seq (u := [_]) (w := [_]) (iri_words _) (.optS (iri_words _)))⟩
      simp only [writeId, List.append_assoc, List.cons_append, h2, lex_space, h4, lex_newline]
      rfl

theorem prefix_words : ∀ f : Fwd, Words common (many .prefixDeclaration) ((f.flatMap prefixToks).map termOf)
  | [] => .starN
  | e :: f => by
    rw [List.flatMap_cons, List.map_append]
    exact Words.starS (α := [.n .prefixDeclaration]) (u := [.kw .prefix_, .lpar, .pnameNs, .equals, .iriRef, .rpar])
      (List.mem_singleton.2 rfl) (Words.seq (u := [.kw .prefix_, .lpar, .pnameNs, .equals, .iriRef, .rpar]) (w := [])
        (.n (Words.seq (u := [_]) (.t _) (Words.seq (u := [_]) (.t _) (Words.seq (u := [.pnameNs, .equals, .iriRef])
          (Words.seq (u := [_]) (.t _) (Words.seq (u := [_]) (.t _) (Words.seq (u := [_]) (w := []) (.t _) .nil))) (.t _))))) .nil)
      (prefix_words f)

/-- The tokens of a written document are a document of the common part. -/
theorem written_common {o : OntoSt} (ho : DocOk o) : Document common ((lex (writeDocText o)).map termOf) := by
  obtain ⟨is, h1, h2⟩ := imports_iris ho.imports
  have ha := (declare_maps ho (ks := [1, 2, 3, 4]) rfl (dflt := []) .nil (fun _ _ _ _ h => nomatch h) 9).agree
  have hlex := lex_prefixes _ (declared_ok ho) (ontoText (lookup o.pm) o.iri o.version is
    ((o.onto.annot.getD []).map Ref.obj) ((axiomsOf o.onto).map Ref.obj) [])
  rw [← doc_text h1 [], List.append_nil] at hlex
  rw [hlex, ontoText, lex_kw]
  obtain ⟨ux, x1, x2⟩ := lex_objs (gp := lookup o.pm) (c := .ax) (41 :: 10 :: []) ((axiomsOf o.onto).map Ref.obj) (by
    intro x hx
    obtain ⟨y, hy, rfl⟩ := List.mem_map.1 hx
    obtain ⟨a, e, h⟩ := ho.axioms y hy
    rw [e]; exact rt_axiom ha a h)
  obtain ⟨ua, a1, a2⟩ := lex_objs (gp := lookup o.pm) (c := .annotation) ((((axiomsOf o.onto).map Ref.obj).map fun x => writeLine (lookup o.pm) x).flatten ++ 41 :: 10 :: [])
    ((o.onto.annot.getD []).map Ref.obj) (by
    intro x hx
    obtain ⟨y, hy, rfl⟩ := List.mem_map.1 hx
    obtain ⟨a, e, h⟩ := ho.annots y hy
    rw [e]; exact rt_annot ha a h)
  obtain ⟨ui, i1, i2⟩ := lex_imports ((((o.onto.annot.getD []).map Ref.obj).map fun x => writeLine (lookup o.pm) x).flatten ++
    ((((axiomsOf o.onto).map Ref.obj).map fun x => writeLine (lookup o.pm) x).flatten ++ 41 :: 10 :: [])) is h2
  obtain ⟨ud, d1, d2⟩ := lex_id ho.iri ho.version ((is.map fun i => writeImport (.prim (.iri i))).flatten ++
    ((((o.onto.annot.getD []).map Ref.obj).map fun x => writeLine (lookup o.pm) x).flatten ++
    ((((axiomsOf o.onto).map Ref.obj).map fun x => writeLine (lookup o.pm) x).flatten ++ 41 :: 10 :: [])))
  rw [d1, i1, a1, x1, lex_rpar, lex_newline, lex]
  have e : ((declared o.pm.fwd).flatMap prefixToks ++ Tok.kw .ontology :: Tok.lpar :: (ud ++ (ui ++ (ua.flatten ++ (ux.flatten ++ Tok.rpar :: []))))).map termOf =
      ((declared o.pm.fwd).flatMap prefixToks).map termOf ++ ([.kw .ontology] ++ ([.lpar] ++ ((ud.map termOf ++ ((ui.map termOf ++ ua.flatten.map termOf) ++
        (ux.flatten.map termOf ++ []))) ++ [.rpar]))) := by
    simp [termOf]
  refine Eq.mpr (congrArg (Document common) e) ?_
  exact .n (.seq (prefix_words _) (.n (.seq (.t _) (.seq (.t _) (.seq (.seq d2 (.seq (.seq i2 (many_words fun u hu => word_annot (a2 u hu)))
    (.seq (many_words fun u hu => word_ax (x2 u hu)) .nil))) (.t _))))))

end Cowl.Std
