import Verif.PrtTyped
import Verif.PrtHandlerProps
import Verif.PrtLoadLemmas
import Verif.TypedDoc
import Verif.OntoProps
/-! # C92: what the ProtocOWL reader hands over are constructs of OWL 2 -/
namespace Cowl
open Change Func Prefix Prt Ast

/-- C92 without the least numbers of operands (`C92_fails`), as far as reading is defined (C39): whatever the
input, the axioms and annotations in the changes that the reader tells are axioms and annotations of OWL 2. -/
theorem C92_partial (E : Env) (hu : E.u.Lawful) (text : Str) : ∀ c ∈ (prtChanges E text).1, ItemOk prtSizes c.2 :=
  prtRead_typed (P := fun l : List (Bool × Item) => ∀ c ∈ l, ItemOk prtSizes c.2) hu
    (fun s b i hs hi j hj => by
      rcases List.mem_append.1 hj with hj | hj
      · exact hs j hj
      · cases List.mem_singleton.1 hj; exact hi) text nofun

/-- What a change means for the contents of an ontology; the objects that it brings are new, and `n` is
their address. -/
def changeOps (n : Nat) : Bool × Item → List OntoSpec.Op
  | (false, .import i) => [.addImport ⟨n, .prim (.iri i)⟩]
  | (true, .import i) => [.removeImport ⟨n, .prim (.iri i)⟩]
  | (false, .annot o) => [.addAnnot ⟨n, o⟩]
  | (true, .annot o) => [.removeAnnot ⟨n, o⟩]
  | (false, .ax o) => [.addAxiom ⟨n, o⟩]
  | (true, .ax o) => [.removeAxiom ⟨n, o⟩]
  | _ => []

/-- What a list of changes means for the contents. -/
def runChanges : Nat → OntoSpec.Abs → List (Bool × Item) → OntoSpec.Abs
  | _, s, [] => s
  | n, s, c :: cs => runChanges (n + 1) (s.run (changeOps n c)) cs

theorem noErr_ret (b : Bool) : (retOfBool b).isErr = false := by cases b <;> rfl

theorem noErr_removePrefix (m : PMap) (p : Str) : (m.removePrefix p).2.isErr = false := by
  unfold PMap.removePrefix
  split
  · rfl
  · dsimp only
    split
    · split <;> rfl
    · rfl

theorem noErr_removeNs (m : PMap) (p : Str) : (m.removeNs p).2.isErr = false := by
  unfold PMap.removeNs
  dsimp only
  split <;> rfl

/-- One change to an ontology in use. -/
theorem change_step {o : OntoSt} {n : Nat} {s : OntoSpec.Abs} (h : OntoSpec.Reaches o.onto s) (hn : ∀ x ∈ s.axioms, x.addr < n)
    (hp : ∃ a, PrefixSpec.Reaches False o.pm a) (c : Bool × Item) (hc : ItemOk prtSizes c.2) :
    ∃ o' r, changeHandler (some (o, n)) c = (some (o', n + 1), r) ∧ r.isErr = false ∧
      OntoSpec.Reaches o'.onto (s.run (changeOps n c)) ∧ (∀ x ∈ (s.run (changeOps n c)).axioms, x.addr < n + 1) ∧
      ∃ a, PrefixSpec.Reaches False o'.pm a := by
  have hold : ∀ x ∈ s.axioms, x.addr < n + 1 := fun x hx => Nat.lt_succ_of_lt (hn x hx)
  obtain ⟨a, ha⟩ := hp
  obtain ⟨b, i⟩ := c
  have fits : ∀ ob, OntoSpec.Fits s.axioms ⟨n, ob⟩ := fun ob b hb e => absurd e (Nat.ne_of_lt (hn b hb))
  cases b with
  | false =>
    have hok : (changeHandler (some (o, n)) (false, i)).2 = .ok := change_accepts (some (o, n)) i
    refine ⟨(addPart o (itemPart n i)).1, .ok, _root_.Prod.ext rfl hok, rfl, ?_⟩
    cases i with
    | prefixDecl p m => exact ⟨h, hold, _, .add ⟨n, p⟩ m true ha (fun c => c.elim)⟩
    | iri i => exact ⟨h, hold, a, ha⟩
    | version i => exact ⟨h, hold, a, ha⟩
    | «import» i => exact ⟨reaches_step (op := .addImport ⟨n, .prim (.iri i)⟩) h trivial rfl, hold, a, ha⟩
    | annot x =>
      obtain ⟨an, rfl, -⟩ := hc
      exact ⟨reaches_step (op := .addAnnot ⟨n, an.toObj⟩) h (wf_annot an) rfl, hold, a, ha⟩
    | ax x =>
      obtain ⟨ax, rfl, -⟩ := hc
      refine ⟨reaches_step (op := .addAxiom ⟨n, ax.toObj⟩) h ⟨isAxiom_toObj ax, fits _⟩ rfl, ?_, a, ha⟩
      intro y hy
      rcases List.mem_append.1 hy with hy | hy
      · exact hold y hy
      · rw [List.mem_singleton.1 hy]; exact Nat.lt_succ_self n
  | true =>
    cases i with
    | prefixDecl p m =>
      refine ⟨{ o with pm := ((o.pm.removePrefix p).1.removeNs m).1 }, _, rfl, ?_, h, hold, _, .removeNs m (.removePrefix p ha)⟩
      show (if (o.pm.removePrefix p).2.isErr then _ else _ : Ret).isErr = false
      rw [noErr_removePrefix]; exact noErr_removeNs _ _
    | iri i => exact ⟨{ o with iri := none }, .ok, rfl, rfl, h, hold, a, ha⟩
    | version i => exact ⟨{ o with version := none }, .ok, rfl, rfl, h, hold, a, ha⟩
    | «import» i =>
      exact ⟨{ o with onto := (o.onto.removeImport ⟨n, .prim (.iri i)⟩).1 }, _, rfl, noErr_ret _,
        reaches_step (op := .removeImport ⟨n, .prim (.iri i)⟩) h trivial rfl, hold, a, ha⟩
    | annot x =>
      exact ⟨{ o with onto := (o.onto.removeAnnot ⟨n, x⟩).1 }, _, rfl, noErr_ret _,
        reaches_step (op := .removeAnnot ⟨n, x⟩) h trivial rfl, hold, a, ha⟩
    | ax x =>
      obtain ⟨ax, rfl, -⟩ := hc
      have hl : OntoSpec.Legal s (.removeAxiom ⟨n, ax.toObj⟩) := ⟨isAxiom_toObj ax, fits _⟩
      obtain ⟨o', e, -⟩ := inv_step (reaches_inv h) _ hl
      obtain ⟨⟨o1, r⟩, e1, rfl⟩ := Option.map_eq_some_iff.1 (show (o.onto.removeAxiom ⟨n, ax.toObj⟩).map Prod.fst = some o' from e)
      refine ⟨{ o with onto := o1 }, retOfBool r, ?_, noErr_ret r, reaches_step h hl e, fun x hx => hold x ?_, a, ha⟩
      · unfold changeHandler
        simp only [itemPart, removePart, e1]
        rfl
      · exact List.mem_of_mem_eraseP hx

theorem changes_run : ∀ (cs : List (Bool × Item)) (x : Ret) (o : OntoSt) (n : Nat) (s : OntoSpec.Abs), x.isErr = false →
    OntoSpec.Reaches o.onto s → (∀ x ∈ s.axioms, x.addr < n) → (∃ a, PrefixSpec.Reaches False o.pm a) → (∀ c ∈ cs, ItemOk prtSizes c.2) →
    ∃ o' r, feedFrom changeHandler x (some (o, n)) cs = (some (o', n + cs.length), r) ∧ r.isErr = false ∧
      OntoSpec.Reaches o'.onto (runChanges n s cs) ∧ ∃ a, PrefixSpec.Reaches False o'.pm a
  | [], x, o, n, s, hx, h, _, hp, _ => ⟨o, x, rfl, hx, h, hp⟩
  | c :: cs, x, o, n, s, _, h, hn, hp, hc => by
    obtain ⟨o', r, e, hr, h1, h2, h3⟩ := change_step h hn hp c (hc c (by simp))
    obtain ⟨o2, r2, e2, h4⟩ := changes_run cs r o' (n + 1) _ hr h1 h2 h3 fun d hd => hc d (by simp [hd])
    refine ⟨o2, r2, ?_, h4⟩
    unfold feedFrom
    rw [e, if_neg (by rw [hr]; decide), e2, List.length_cons, Nat.add_right_comm, Nat.add_assoc]

/-- C92, loading: whatever the input, and however reading ends, reading it into an ontology in use gives
an ontology in use, whose contents are those it had with the changes in the input, in order. All of these
are made. -/
theorem C92_load_partial (E : Env) (hu : E.u.Lawful) {o : OntoSt} {s : OntoSpec.Abs} {a : PrefixSpec.Abs} (ho : OntoSpec.Reaches o.onto s)
    (hp : PrefixSpec.Reaches False o.pm a) (n : Nat) (hn : ∀ x ∈ s.axioms, x.addr < n) (text : Str) :
    ∃ (o' : OntoSt) (a' : PrefixSpec.Abs), (prtRead E changeHandler text (some (o, n))).1 = some (o', n + (prtChanges E text).1.length) ∧
      OntoSpec.Reaches o'.onto (runChanges n s (prtChanges E text).1) ∧ PrefixSpec.Reaches False o'.pm a' ∧
      ((prtRead E changeHandler text (some (o, n))).2 = (prtChanges E text).2 ∨
        (prtChanges E text).2 = .done ∧ (prtRead E changeHandler text (some (o, n))).2 = .refused .no) := by
  obtain ⟨o', r, e, hr, h1, a', h2⟩ := changes_run (prtChanges E text).1 .ok o n s rfl ho hn ⟨a, hp⟩ (C92_partial E hu text)
  obtain ⟨k1, k2, -⟩ := C57_partial E changeHandler text (some (o, n))
  have e' : feed changeHandler (some (o, n)) (prtChanges E text).1 = _ := e
  rw [e'] at k1 k2
  refine ⟨o', a', k1, h1, h2, ?_⟩
  rcases k2 hr with k | ⟨k, -, k'⟩
  · exact .inl k
  · exact .inr ⟨k, k'⟩

/-- A declaration, a sub-property axiom, an equivalence, and then an axiom that is cut off. -/
def prtTypedText : Str := prtStart ++ [9, 0, 19, 1, 1, 16, 2, 17, 17, 15]

example : lebEnv.u.Lawful ∧ (prtChanges lebEnv prtTypedText).1.length = 3 ∧ (prtChanges lebEnv prtTypedText).2 = .rejected :=
  ⟨leb_lawful, by decide +kernel, by decide +kernel⟩

example : OntoSpec.Reaches (OntoSt.new [1, 2, 3, 4] []).onto OntoSpec.Abs.empty ∧ PrefixSpec.Reaches False (OntoSt.new [1, 2, 3, 4] []).pm (PrefixSpec.initial []) ∧
    (∀ x ∈ OntoSpec.Abs.empty.axioms, x.addr < 5) ∧
    (runChanges 5 OntoSpec.Abs.empty (prtChanges lebEnv prtTypedText).1).axioms.map Ref.addr = [5, 6, 7] :=
  ⟨⟨[], trivial, rfl, rfl⟩, .create _ _ rfl (by simp [PrefixSpec.Distinct]), nofun, by decide +kernel⟩

/-- An axiom of OWL 2 that says that some classes are equivalent is about two of them or more. -/
theorem equiv_two {cs : List Obj} (h : IsAx owl2 (getImpl .aEquivClasses [.vec false cs] none)) : 2 ≤ cs.length := by
  obtain ⟨⟨ax, as⟩, e, h, -⟩ := h
  have hl : ∀ cs : List CE, (CE.toObjs cs).length = cs.length := by
    intro cs
    induction cs with
    | nil => rfl
    | cons c cs ih => simp [CE.toObjs, ih]
  unfold Axiom.toObj annotated getImpl at e
  dsimp only at e
  split at e
  · cases ax with
    | equivClasses ds =>
      simp only [Ax.type, Ax.fields, Obj.comp.injEq, List.cons.injEq, Obj.vec.injEq] at e
      rw [e.2.2.1.1.2, hl]; exact h.1
    | objPropChar k p => cases k <;> simp [Ax.type, OpeChar.type] at e
    | _ => simp [Ax.type] at e
  · simp at e

/-- One axiom was added that says that `n` classes are equivalent. -/
def oneEquiv (n : Nat) : List (Bool × Item) → Bool
  | [(false, .ax (.comp .aEquivClasses false [.vec false cs] 0))] => cs.length == n
  | _ => false

theorem oneEquiv_bad {n : Nat} {l : List (Bool × Item)} (h : oneEquiv n l = true) (hn : n < 2) : ∃ o, l = [(false, .ax o)] ∧ ¬ IsAx owl2 o := by
  unfold oneEquiv at h
  split at h
  · rename_i cs
    exact ⟨_, rfl, fun k => absurd (equiv_two (cs := cs) k) (by rw [eq_of_beq h]; omega)⟩
  · cases h

/-- C92 fails: `decode_vector` takes vectors of any length, so the reader makes equivalences of no class and
of one class, which are not axioms of OWL 2. Moreover reading is undefined for some inputs (C39). -/
theorem C92_fails :
    ((∃ o, (prtChanges lebEnv (prtStart ++ [16, 0])).1 = [(false, .ax o)] ∧ ¬ IsAx owl2 o) ∧ (prtChanges lebEnv (prtStart ++ [16, 0])).2 = .done) ∧
    ((∃ o, (prtChanges lebEnv (prtStart ++ [16, 1, 17])).1 = [(false, .ax o)] ∧ ¬ IsAx owl2 o) ∧ (prtChanges lebEnv (prtStart ++ [16, 1, 17])).2 = .done) ∧
    (prtChanges lebEnv [1, 19]).2 = .ub := by
  refine ⟨⟨oneEquiv_bad (n := 0) ?_ (by decide), ?_⟩, ⟨oneEquiv_bad (n := 1) ?_ (by decide), ?_⟩, ?_⟩ <;> decide +kernel

end Cowl
