import Verif.PrtAnonLemmas
import Verif.PrtSessionLemmas
/-!
# Lemmas: documents without the declarations of anonymous individuals
-/
namespace Cowl.Prt
open Func (Item collectAxioms)
open FuncSpec (Accepts give)
open Ast Change

theorem idxOf_get : ∀ {l : List Str} {k : Nat} {s : Str}, l.Nodup → l[k]? = some s → l.idxOf s = k
  | [], _, _, _, h => by simp at h
  | a :: l, 0, s, _, h => by simp at h; subst h; simp
  | a :: l, k + 1, s, hn, h => by
    rw [List.nodup_cons] at hn
    have h : l[k]? = some s := by simpa using h
    have hne : a ≠ s := fun e => hn.1 (e ▸ List.mem_of_getElem? h)
    have hf : (a == s) = false := by simpa using hne
    rw [List.idxOf_cons, hf, idxOf_get hn.2 h]
    rfl

theorem all_iris : ∀ {l : List Id}, (∀ i ∈ l, ∃ r, i = .iri r) → ∃ rs : List Iri, l = rs.map .iri
  | [], _ => ⟨[], rfl⟩
  | i :: l, h => by
    obtain ⟨r, rfl⟩ := h i (by simp)
    obtain ⟨rs, rfl⟩ := all_iris fun j hj => h j (List.mem_cons_of_mem _ hj)
    exact ⟨r :: rs, rfl⟩

theorem anonDecl_inv : ∀ {l : List Id} {m : List Str}, l.mapM anonDecl = some m → l = m.map .anon
  | [], m, e => by simp at e; subst e; rfl
  | i :: l, m, e => by
    simp only [List.mapM_cons, Option.bind_eq_bind, Option.bind_eq_some_iff, Option.pure_def, Option.some.injEq] at e
    obtain ⟨y, hy, ys, hys, rfl⟩ := e
    rw [anonDecl_inv hys]
    cases i with
    | anon s => simp only [anonDecl, Option.some.injEq] at hy; subst hy; rfl
    | iri i => simp [anonDecl] at hy

section
variable {E : Env}

/-- What frames of data do without the declarations. -/
def LP (C : Cut E) (b : Str) (is : List Item) : Prop :=
  ∀ rest l j, j ≤ C.anons.length →
    (∃ j', j' ≤ C.anons.length ∧ run E noteAll ⟨renamed C.name l, C.lazy j (b ++ rest), false, .ok⟩ =
      run E noteAll ⟨renamed C.name (l ++ is.map fun i => (false, i)), C.lazy j' rest, false, .ok⟩) ∨
    (2 ≤ C.anons.length ∧ ∃ l', run E noteAll ⟨renamed C.name l, C.lazy j (b ++ rest), false, .ok⟩ = (l', .rejected))

theorem told_note_eq (l : List (Bool × Item)) : ∀ is : List Item, give (told noteAll false) l is = l ++ is.map fun i => (false, i)
  | [] => by simp [give]
  | i :: is => by
    have := told_note_eq (l ++ [(false, i)]) is
    simpa [give, told, noteAll] using this

theorem closed_lp (hu : E.u.Lawful) (C : Cut E) : Closed E noteAll false C.full (LP C) where
  nil := fun rest l j hj => .inl ⟨j, hj, by simp⟩
  app := by
    intro b b' is is' h1 h2 rest l j hj
    rw [List.append_assoc]
    rcases h1 (b' ++ rest) l j hj with ⟨j', hj', e⟩ | h
    · rw [e]
      rcases h2 rest (l ++ is.map fun i => (false, i)) j' hj' with ⟨j2, hj2, e2⟩ | h
      · exact .inl ⟨j2, hj2, by rw [e2]; simp⟩
      · exact .inr h
    · exact .inr h
  frame := by
    intro c b is hc hp rest l j hj
    have h1 := hp rest l 0
    rw [told_note_eq] at h1
    rcases (lf_frameOf (C := C) (B := 2 ≤ C.anons.length) (fun h => h) hc).2 l (b ++ rest) 0 j _ hj h1 rfl with
      ⟨l', j', inp', hj', e, e'⟩ | ⟨hB, l', e'⟩
    · injection e with e1 e2 e3
      injection e2 with e4
      subst e1 e4
      exact .inl ⟨j', hj', run_step hu e'⟩
    · refine .inr ⟨hB, l', ?_⟩
      unfold run
      rw [frames]
      have : frame E noteAll ⟨renamed C.name l, C.lazy j (c :: b ++ rest), false, .ok⟩ = .stop l' .rejected := e'
      rw [this]

theorem lazy_data (hu : E.u.Lawful) {x : Index} (h : Agree x {}) (hs : x.Short) {o : OntoSt} {is : List Iri}
    {as : List Annot} {xs : List Axiom} (hc : Chunk (prtContents E.u) x o is as xs) :
    ∃ (b : Str) (ps : List (Str × Str)) (C : Cut E), C.name = (fun s => E.gen (C.anons.idxOf s)) ∧ C.anons.Nodup ∧
      (∀ s, s ∈ C.anons → .anon s ∈ x.ids.vec) ∧ (∀ s, .anon s ∈ x.ids.vec → s ∈ C.anons) ∧
      encData E.u false x o = (⟨b, true⟩, x.sync) ∧
      x.ns.pv.firsts.mapM (fun n => (x.ns.pfx n).map fun p => (p, n)) = some ps ∧
      (run E noteAll ⟨[], ⟨b, {}, 0⟩, false, .ok⟩ =
          (renamed C.name ((chunkItems ps o is as xs).map fun i => (false, i)), .done) ∨
        2 ≤ C.anons.length ∧ ∃ l, run E noteAll ⟨[], ⟨b, {}, 0⟩, false, .ok⟩ = (l, .rejected)) := by
  obtain ⟨ds, h1, h2, -⟩ := h.flush
  obtain ⟨h3, h4⟩ := h.decls_short hs h1
  have h1' := h1
  simp only [Index.decls, Option.bind_eq_some_iff, Option.map_eq_some_iff] at h1'
  obtain ⟨ps, -, is', -, as', e3, rfl⟩ := h1'
  obtain ⟨e', a', b', hi', ha', hb, he'⟩ := h.ids
  have he : e' = [] := by cases e' <;> simp_all
  subst he
  rw [hi'.seconds] at e3
  have hb' := anonDecl_inv e3
  have h2' := h2
  simp only [DIndex.read, Option.map_eq_some_iff] at h2'
  obtain ⟨js, hm, hjs⟩ := h2'
  obtain ⟨rs, rfl⟩ := all_iris (l := js) (by
    intro i hi
    obtain ⟨y, -, hy⟩ := mapM_mem hm hi
    simp only [readIri, Option.map_eq_some_iff] at hy
    obtain ⟨n, -, rfl⟩ := hy
    exact ⟨_, rfl⟩)
  have hnd : as'.Nodup := by
    have := hi'.nodup
    rw [hi'.vec, List.nodup_append] at this
    have := this.2.1
    rw [hb'] at this
    exact List.Pairwise.of_map _ (fun a b h e => h (by rw [e])) this
  let C : Cut E := ⟨x.ns.pv.vec, rs, as', 0, fun s => E.gen (as'.idxOf s), fun k s hk => by
    rw [idxOf_get hnd hk, Nat.zero_add]⟩
  have hfull : C.full = ⟨x.ns.pv.vec, x.ids.vec.map readAs⟩ := by
    injection hjs with q1 q2
    show (⟨_, _⟩ : DIndex) = _
    rw [← q2]; rfl
  have kn := fun {i : Id} (hi : x.Has i) => hfull ▸ h.knows hs hi
  have hP := closed_lp hu C
  have ha : Accepts (told (noteAll (ι := Bool × Item)) false) := told_note false
  have k1 := cl_iriVersion (E := E) hu ha hP (fun i hi => kn (hc.has_iri i hi)) (fun i hi => kn (hc.has_version i hi))
  have k2 := cl_imports (E := E) hu ha hP hc.few_imports (fun i hi => kn (hc.has_import i hi))
  have k3 := cl_annots (E := E) hu ha hP hc.few_annots hc.fit_annot (fun a hm p hp => kn (hc.has_annot a hm p hp))
  have k4 := cl_axioms (E := E) hu ha hP hc.fit_axiom (fun a hm p hp => kn (hc.has_axiom a hm p hp))
  generalize hds : (⟨ps, x.ns.pv.seconds, is', as'⟩ : Decls) = ds at *
  have hdecl : encDecls E.u false ds = encDecls E.u true { ds with anons := [] } := by
    simp [encDecls, listFrame]
  have k0 : FR E noteAll false {} (encDecls E.u false ds).bytes (ds.pfxs.map fun p => Item.prefixDecl p.1 p.2)
      ⟨x.ns.pv.vec, rs.map .iri⟩ := by
    rw [hdecl]
    refine fr_decls hu ha ?_ ⟨h3.pfxs, h3.nss, h3.iris, by simp, h3.pfx, h3.ns, h3.iri, nofun⟩
    injection hjs with q1 q2
    subst hds
    simp only [DIndex.read, hm, Option.map_some, List.map_nil, List.append_nil]
    rw [q1]; rfl
  generalize hW : [encDecls E.u false ds, encIriVersion E.u x.sync.ids.idx o.iri o.version,
    encImports E.u x.sync.ids.idx (is.map fun i => .prim (.iri i)), encAnnots E.u x.sync.ids.idx (as.map Annot.toObj),
    encAxioms E.u x.sync.ids.idx (xs.map Axiom.toObj)] = W
  have hok : ∀ w ∈ W, w.ok = true := by
    intro w hw
    rw [← hW] at hw
    simp only [List.mem_cons, List.not_mem_nil, or_false] at hw
    rcases hw with rfl | rfl | rfl | rfl | rfl
    · exact encDecls_ok _ _ _
    · exact k1.1
    · exact k2.1
    · exact k3.1
    · exact k4.1
  have hcat : cat W = ⟨(cat W).bytes, true⟩ := by rw [← cat_ok hok]
  refine ⟨(cat W).bytes, ds.pfxs, C, rfl, hnd, ?_, ?_, ?_, h4, ?_⟩
  · intro s hm
    rw [hi'.vec, hb']
    exact List.mem_append_right _ (List.mem_map_of_mem hm)
  · intro s hm
    rw [hi'.vec, List.nil_append, List.mem_append] at hm
    rcases hm with hm | hm
    · obtain ⟨r, hr⟩ := ha' _ hm; cases hr
    · rw [hb'] at hm
      obtain ⟨t, ht, e⟩ := List.mem_map.1 hm
      cases e; exact ht
  · unfold encData
    rw [h1]
    dsimp only
    rw [hc.imports, hc.annots, hc.axioms, hW, untilErr_eq hok, ← hcat]
  · have ek : (cat W).bytes = (encDecls E.u false ds).bytes ++ ((encIriVersion E.u x.sync.ids.idx o.iri o.version).bytes ++
      (encImports E.u x.sync.ids.idx (is.map fun i => .prim (.iri i))).bytes ++
      (encAnnots E.u x.sync.ids.idx (as.map Annot.toObj)).bytes ++
      (encAxioms E.u x.sync.ids.idx (xs.map Axiom.toObj)).bytes) := by simp [← hW]
    have kk := hP.app (hP.app (hP.app k1.2 k2.2) k3.2) k4.2 [] (ds.pfxs.map fun p => (false, Item.prefixDecl p.1 p.2)) 0 (Nat.zero_le _)
    rw [List.append_nil] at kk
    have e0 := k0 ((encIriVersion E.u x.sync.ids.idx o.iri o.version).bytes ++
      (encImports E.u x.sync.ids.idx (is.map fun i => .prim (.iri i))).bytes ++
      (encAnnots E.u x.sync.ids.idx (as.map Annot.toObj)).bytes ++
      (encAxioms E.u x.sync.ids.idx (xs.map Axiom.toObj)).bytes) [] 0
    rw [ek, e0, told_note_eq]
    have el : ([] ++ (ds.pfxs.map fun p => Item.prefixDecl p.1 p.2).map fun i => (false, i)) =
        renamed C.name (ds.pfxs.map fun p => (false, Item.prefixDecl p.1 p.2)) := by
      simp [renamed, renameItem, Function.comp_def]
    have es : (⟨(encIriVersion E.u x.sync.ids.idx o.iri o.version).bytes ++
      (encImports E.u x.sync.ids.idx (is.map fun i => .prim (.iri i))).bytes ++
      (encAnnots E.u x.sync.ids.idx (as.map Annot.toObj)).bytes ++
      (encAxioms E.u x.sync.ids.idx (xs.map Axiom.toObj)).bytes, ⟨x.ns.pv.vec, rs.map .iri⟩, 0⟩ : DSt) = C.lazy 0
        ((encIriVersion E.u x.sync.ids.idx o.iri o.version).bytes ++
      (encImports E.u x.sync.ids.idx (is.map fun i => .prim (.iri i))).bytes ++
      (encAnnots E.u x.sync.ids.idx (as.map Annot.toObj)).bytes ++
      (encAxioms E.u x.sync.ids.idx (xs.map Axiom.toObj)).bytes) := by simp [Cut.lazy, C]
    rw [el, es]
    rcases kk with ⟨j', -, e⟩ | h
    · rw [e]
      refine .inl ?_
      have : run E noteAll ⟨renamed C.name ((ds.pfxs.map fun p => (false, Item.prefixDecl p.1 p.2)) ++
          (idItems o.iri o.version ++ is.map Item.import ++ (as.map fun a => Item.annot a.toObj) ++
            xs.map fun a => Item.ax a.toObj).map fun i => (false, i)), C.lazy j' [], false, .ok⟩ = (_, End.done) := rfl
      rw [this]
      simp [chunkItems, Function.comp_def]
    · exact .inr h

end

end Cowl.Prt
