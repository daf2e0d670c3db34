import Verif.PrtSessionLemmas
import Verif.PrtHandlerProps
/-!
# C54: ProtocOWL update streams
-/
namespace Cowl
open Prt Func FuncSpec Ast Change Prefix

/-- C54 for the format: whatever the size of the index, header, axioms and control frames are
written without an error, and the bytes have exactly the changes that were written. Any handler
is called on them up to the first one for which it returns an error. -/
theorem C54_events {E : Env} (hu : E.u.Lawful) {names : List Id} {h : Prt.Header} {ops : List SOp}
    (ho : PrtStreamOk E.u names h (axiomsWritten ops)) (size : Nat) :
    ∃ b items, writeSession E.u true size h ops = some b ∧ PrtSessionTells h ops items ∧
      ∀ {σ : Type} (k : Callback σ (Bool × Item)) (c : σ), (prtRead E k b c).1 = (feed k c items).1 ∧
        ((prtRead E k b c).2 = ended (feed k c items).2 ∨ (feed k c items).2 = .no ∧ (prtRead E k b c).2 = .done) := by
  obtain ⟨b, ps, cs, h1, ⟨h2, h3, h4⟩, h5, h6⟩ := session hu ho size
  refine ⟨b, _, h1, ⟨headerItems ps h, cs, ⟨ps, h.imports.map importIri, [], h2, fun n => ?_, ?_, .refl _, fun _ => rfl, ?_⟩, h5, rfl⟩, fun k c => ?_⟩
  · rw [← mem_knownNs]
    constructor
    · intro hm
      obtain ⟨q, hq, rfl⟩ := List.mem_map.1 hm
      exact ⟨h3 q hq, q.1, h2.subset hq⟩
    · rintro ⟨hk, p, hp⟩
      exact (h4 _ hp).resolve_left hk
  · rw [List.map_map]
    refine List.map_congr_left fun x hx => ?_
    obtain ⟨i, e, -⟩ := ho.imports x hx
    simp [importIri, e]
  · rw [headerItems, idItems_eq fun v hv => (ho.version v hv).1, List.map_map, List.map_nil, List.append_nil]
    rfl
  · have := C57_good E k b c (by rw [h6])
    rw [h6] at this
    exact this

/-- C54 for update streams that remove nothing the ontology holds or gets: reading one into an
ontology succeeds, and adds what was written for addition. Missing: removals, see `C54_fails`;
prefixes; what `PrtStreamOk` asks for. -/
theorem C54_partial {E : Env} (hu : E.u.Lawful) {names : List Id} {h : Prt.Header} {ops : List SOp}
    (ho : PrtStreamOk E.u names h (axiomsWritten ops)) (size : Nat) {o : OntoSt} {s : OntoSpec.Abs} (hs : OntoSpec.Reaches o.onto s)
    {n : Nat} (hn : ∀ x ∈ s.axioms, x.addr < n)
    (hr : ∀ x, (true, x) ∈ changes false ops → (∀ y ∈ s.axioms, x.obj.equals y.obj = false) ∧
      ∀ y, (false, y) ∈ changes false ops → x.obj.equals y.obj = false) :
    ∃ b o' n' s', writeSession E.u true size h ops = some b ∧
      prtRead E changeHandler b (some (o, n)) = (some (o', n'), .done) ∧ OntoSpec.Reaches o'.onto s' ∧
      o'.iri = h.iri.or o.iri ∧ o'.version = h.version.or o.version ∧
      s'.imports.map Ref.obj = s.imports.map Ref.obj ++ h.imports.map Ref.obj ∧
      s'.annots.map Ref.obj = s.annots.map Ref.obj ++ h.annots.map Ref.obj ∧
      (s'.axioms.map Ref.obj).Perm (s.axioms.map Ref.obj ++ ((changes false ops).filter fun c => !c.1).map fun c => c.2.obj) := by
  obtain ⟨b, ps, cs, h1, -, h5, h6⟩ := session hu ho size
  have hw : ∀ (ops : List SOp) rm c, c ∈ changes rm ops → c.2 ∈ axiomsWritten ops := by
    intro ops
    induction ops with
    | nil => intro rm c hc; cases hc
    | cons op ops ih =>
      intro rm c hc
      cases op with
      | ax x =>
        rcases List.mem_cons.1 hc with rfl | hc
        · exact List.mem_cons_self
        · exact List.mem_cons_of_mem _ (ih _ _ hc)
      | _ => exact ih _ _ hc
  have hm : ∀ {c}, c ∈ cs ↔ c ∈ changes false ops := h5.perm.mem_iff
  have hh : ∀ i ∈ headerItems ps h, GoodItem i ∧ ∀ x, i ≠ .ax x := headerItems_good fun x hx => by
    obtain ⟨a, e, -⟩ := ho.annots x hx
    rw [e]; exact wf_annot a
  obtain ⟨o', n', s', e, hs'⟩ := shows_feed (tag false (headerItems ps h) ++ cs.map asItem) o n
    ⟨o.iri, o.version, s.imports.map Ref.obj, s.annots.map Ref.obj, s.axioms.map Ref.obj⟩ s ⟨hs, hn, rfl, rfl, rfl, rfl, rfl⟩ (by
      intro i hi
      rcases List.mem_append.1 hi with hi | hi
      · obtain ⟨j, hj, e⟩ := List.mem_map.1 hi
        cases e
        exact (hh _ hj).1
      · obtain ⟨c, hc, e⟩ := List.mem_map.1 hi
        obtain ⟨-, rfl⟩ := Prod.mk.inj e
        obtain ⟨a, e, -⟩ := ho.axioms _ (hw ops false c (hm.1 hc))
        show OntoSpec.IsAxiom c.2.obj
        rw [e]; exact isAxiom_toObj a)
    (by
      intro i hi
      rcases List.mem_append.1 hi with hi | hi
      · obtain ⟨j, _, e⟩ := List.mem_map.1 hi
        cases e
      · obtain ⟨⟨r, x⟩, hc, e⟩ := List.mem_map.1 hi
        obtain ⟨rfl, rfl⟩ := Prod.mk.inj e
        obtain ⟨r1, r2⟩ := hr x (hm.1 hc)
        refine ⟨_, rfl, fun y hy => ?_, fun y hy => ?_⟩
        · obtain ⟨z, hz, rfl⟩ := List.mem_map.1 hy
          exact r1 z hz
        · rcases List.mem_append.1 hy with hy | hy
          · obtain ⟨j, hj, e⟩ := List.mem_map.1 hy
            cases e
            exact absurd rfl ((hh _ hj).2 y)
          · obtain ⟨⟨r, z⟩, hz, e⟩ := List.mem_map.1 hy
            obtain ⟨rfl, e⟩ := Prod.mk.inj e
            cases e
            exact r2 z (hm.1 hz))
  have hitems : ((tag false (headerItems ps h) ++ cs.map asItem).filter fun j => !j.1).map (·.2) =
      headerItems ps h ++ (((cs.filter fun c => !c.1).map fun c => c.2.obj).map Item.ax) := by
    rw [List.filter_append, List.map_append]
    congr 1
    · unfold tag
      rw [List.filter_eq_self.2 (by simp), List.map_map]
      exact List.map_id _
    · rw [List.filter_map, List.map_map, List.map_map]
      rfl
  have hv : h.version ≠ none → h.iri ≠ none := by
    intro hv
    obtain ⟨v, hv⟩ := Option.ne_none_iff_exists'.1 hv
    exact (ho.version v hv).1
  rw [hitems, List.foldl_append, view_header _ _ _ hv, view_axioms] at hs'
  have hread := C57_good E changeHandler b (some (o, n)) (by rw [h6])
  rw [h6] at hread
  dsimp only at hread
  rw [e] at hread
  have hread : prtRead E changeHandler b (some (o, n)) = (some (o', n'), .done) :=
    Prod.ext hread.1 (hread.2.resolve_right fun h => by cases h.1)
  refine ⟨b, o', n', s', h1, hread, hs'.reaches, hs'.iri, hs'.version, ?_, hs'.annots, ?_⟩
  · rw [hs'.imports]
    show s.imports.map Ref.obj ++ _ = _
    congr 1
    refine List.map_congr_left fun x hx => ?_
    obtain ⟨i, e, -⟩ := ho.imports x hx
    simp [importIri, e]
  · rw [hs'.axioms]
    exact ((h5.perm.filter _).map _).append_left _

/-- No header. -/
def noHeader : Prt.Header := ⟨[], none, none, [], []⟩

/-- C54 is false as stated, for every axiom: an update stream that removes an axiom which the
ontology holds is written without an error, and read to its end, but the axiom remains. The
result is NO or OK, neither of which is an error. The axiom that was read is released once more
than it was retained. -/
theorem C54_fails {E : Env} (hu : E.u.Lawful) {names : List Id} {x : Ref}
    (ho : PrtStreamOk E.u names noHeader [x]) (size : Nat) {o : OntoSt} {s : OntoSpec.Abs} (hs : OntoSpec.Reaches o.onto s)
    {n : Nat} (hn : ∀ x ∈ s.axioms, x.addr < n) {y : Ref} (hy : y ∈ s.axioms) (he : ObjSpec.Same x.obj y.obj)
    (hrx : ObjSpec.Regular false x.obj) (hry : ObjSpec.Regular false y.obj) :
    ∃ b o' n' r, writeSession E.u true size noHeader [.removeFrame, .ax x] = some b ∧
      prtRead E changeHandler b (some (o, n)) = (some (o', n'), r) ∧ (r = .refused .no ∨ r = .done) ∧ OntoSpec.Reaches o'.onto s ∧
      o'.onto.refs = fun m => o.onto.refs m - if m = n then 1 else 0 := by
  obtain ⟨b, ps, cs, h1, ⟨h2, -⟩, h5, h6⟩ := session (ops := [.removeFrame, .ax x]) hu ho size
  have hc : cs = [(true, x)] := List.perm_singleton.1 h5.perm
  have hp : ps = [] := List.sublist_nil.1 h2
  subst hc hp
  obtain ⟨a, ea, -⟩ := ho.axioms x (by simp)
  obtain ⟨o', r1, r2, r3⟩ := C15_fails o.onto s hs ⟨n, x.obj⟩ y (by rw [ea]; exact isAxiom_toObj a) hrx hry hy he
    (fun c hc => Nat.ne_of_lt (hn c hc))
  have hread := C57_good E changeHandler b (some (o, n)) (by rw [h6])
  rw [h6] at hread
  have e : feed changeHandler (some (o, n)) (tag false (headerItems [] noHeader) ++ [(true, x)].map asItem) =
      (some ({ o with onto := o' }, n + 1), .no) := by
    show feed changeHandler _ [(true, .ax x.obj)] = _
    have : changeHandler (some (o, n)) (true, .ax x.obj) = (some ({ o with onto := o' }, n + 1), .no) := by
      unfold changeHandler
      simp only [itemPart, removePart, r1]
      rfl
    unfold feed feedFrom
    rw [this]
    rfl
  dsimp only at hread
  rw [e] at hread
  exact ⟨b, _, _, _, h1, Prod.ext hread.1 rfl, hread.2.imp id (·.2), r2, r3⟩

/-! ## Examples -/

/-- An axiom to be removed. -/
def declO : Axiom := ⟨.decl .cls (exIri "o"), []⟩

theorem declO_regular : ObjSpec.Regular false declO.toObj := by
  have e : declO.toObj = .comp .aDecl false [.prim (.ent .cls (exIri "o"))] 0 := rfl
  rw [e]
  simp [ObjSpec.Regular, ObjSpec.RegularFields, ObjSpec.RegularItems, nFields, OType.fieldCount, OType.flags]

/-- An addition, a reset of the index, a removal. -/
def sessionOps : List SOp :=
  [.ax ⟨3, prtAxiom.toObj⟩, .resetFrame true, .removeFrame, .ax ⟨4, declO.toObj⟩, .addFrame]

theorem sessionOps_ok : PrtStreamOk leb prtOntoNames (headerOf prtOnto) (axiomsWritten sessionOps) := by
  have h := headerOf_ok prtOnto_reaches prtOnto_ok
  have hk : (occ declO.toObj).all (fun p => prtOntoNames.contains (idOf p)) = true := by decide +kernel
  refine { h with axioms := ?_ }
  intro x hx
  rcases List.mem_cons.1 hx with rfl | hx
  · exact h.axioms ⟨3, prtAxiom.toObj⟩ (by
      rw [collect_eq]
      exact (axiomsOf_perm (reaches_inv prtOnto_reaches)).mem_iff.2 (by simp))
  · rw [List.mem_singleton.1 hx]
    refine ⟨declO, rfl, ⟨trivial, by simp [declO, Annot.AllMeet], show 0 < 4294967296 by decide⟩, fun p hp => ?_⟩
    have := List.all_eq_true.1 hk p ((mem_occ_iff _ p (isAxiom_toObj declO).1).2 hp)
    simpa using this

/-- The conditions of `C54_events` and `C54_partial` hold for this stream, which is read into a
new ontology. -/
example : PrtStreamOk lebEnv.u prtOntoNames (headerOf prtOnto) (axiomsWritten sessionOps) ∧
    OntoSpec.Reaches (OntoSt.new [0, 1, 2, 3] []).onto OntoSpec.Abs.empty ∧
    changes false sessionOps = [(false, ⟨3, prtAxiom.toObj⟩), (true, ⟨4, declO.toObj⟩)] ∧
    declO.toObj.equals prtAxiom.toObj = false :=
  ⟨sessionOps_ok, ⟨[], trivial, rfl, rfl⟩, rfl, by decide +kernel⟩

/-- The ontology that is read from an update stream with these operations. -/
def sessionBack (ops : List SOp) : Option (List Nat) × Option End :=
  match writeSession leb true 100 noHeader ops with
  | none => (none, none)
  | some b =>
    let r := prtRead lebEnv changeHandler b (some (OntoSt.new [0, 1, 2, 3] [], 100))
    (r.1.map fun o => (collectAxioms o.1.onto).map Ref.addr, some r.2)

/-- The conditions of `C54_fails` hold for the removal of a declaration, and this is what
happens within one stream: an axiom is added, removed, and another one added. The first one
remains, the last one is added, and the result is OK. -/
theorem C54_witness :
    PrtStreamOk lebEnv.u prtOntoNames noHeader [⟨4, declO.toObj⟩] ∧ ObjSpec.Regular false declO.toObj ∧
    ObjSpec.Same declO.toObj declO.toObj ∧
    sessionBack [.ax ⟨1, declO.toObj⟩, .removeFrame, .ax ⟨1, declO.toObj⟩, .addFrame, .ax ⟨2, declA⟩] =
      (some [100, 102], some .done) := by
  refine ⟨⟨nofun, nofun, nofun, nofun, ?_, sessionOps_ok.split, sessionOps_ok.short, nofun, by decide +kernel, by decide, by decide⟩, ?_, ?_, ?_⟩
  · intro x hx
    exact sessionOps_ok.axioms x (List.mem_cons_of_mem _ hx)
  · exact declO_regular
  · exact (C05_equals_iff_same _ _ declO_regular declO_regular).1 (by decide +kernel)
  · decide +kernel

end Cowl
