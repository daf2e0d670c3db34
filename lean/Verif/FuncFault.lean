import Verif.FuncDoc
import Verif.LastErr
/-!
# Which token the reader of functional syntax rejects, and the error it leaves

Models the scanner and the parser of `src/formats/functional/reader` as far as errors are
concerned: `cowl_functional.l` with line numbers, and the parser of `cowl_functional.y` as an
automaton that is given one token at a time and has a stack of what it expects. An LALR(1)
parser that Bison makes never shifts a token that cannot follow what it has read, so it reports
an error at the first such token; the automaton does the same. Names are resolved by the actions
of `abbreviated_iri` and `full_iri` (`cowl_functional.y:276-288`), which are the only ones of
states where Bison needs no other token, so their errors are reported at the name itself.
Allocation and streams do not fail, there is no limit on the stack, and `YYNOMEM` exists
(Bison 3.8). No objects are built and no handler is called here: see `Verif/FuncDoc.lean`.
-/
namespace Cowl.Func
open Prefix

/-! ## Lines -/

/-- Newlines of a matched text, which flex adds to `yylineno` (`%option yylineno`,
`cowl_functional.l:12`) before the action of the rule. -/
def newlines (w : Str) : Nat := w.count 10

/-- `yylineno` after `lexQ`, `cowl_functional.l:193-215`, with the newlines of the text up to the
closing quote, the character that is returned as a token, or the end of the input. -/
def lexQLine : Str → Nat → Nat
  | [], l => l
  | c :: s, l =>
    if c = 34 then l
    else if c = 92 then
      match s with
      | d :: s' => if d = 34 ∨ d = 92 then lexQLine s' l else l
      | [] => l
    else lexQLine s (l + newlines [c])

/-- As `lexN`, with `yylloc->first_line` of each token: `YY_USER_ACTION`, `cowl_functional.l:42`,
sets it to `yylineno` whenever a rule matches, that is to the line of the end of the match. The
last component is its value when the input ends: that of the last match of any rule. -/
def lexLN : Nat → Nat → Str → List (Tok × Nat) × Nat
  | 0, l, _ => ([], l)
  | _ + 1, l, [] => ([], l)
  | n + 1, l, c :: s =>
    let b := best (c :: s)
    let l' := l + newlines ((c :: s).take b.2)
    match b.1 with
    | .ws | .comment => lexLN n l' ((c :: s).drop b.2)
    | .qmark =>
      let q := lexQLine ((c :: s).drop b.2) l'
      match lexQ ((c :: s).drop b.2) [] with
      | .done v rest => let r := lexLN n q rest; ((.qstr v, q) :: r.1, r.2)
      | .bad c => ([(.char c, q)], q)
      | .eof => ([], q)
    | .any => if endsInput c then ([], l') else let r := lexLN n l' s; ((.char c, l') :: r.1, r.2)
    | r =>
      let rs := lexLN n l' ((c :: s).drop b.2)
      ((r.tok ((c :: s).take b.2), l') :: rs.1, rs.2)

/-- The tokens of a text with their lines, and the line of its end; a buffer of flex begins with
line 1, and so does a location of Bison. -/
def lexL (s : Str) : List (Tok × Nat) × Nat := lexLN s.length 1 s

/-! ## What the parser expects -/

/-- What can be expected next: parts of the right-hand sides of `cowl_functional.y`. A list, and
an optional nonterminal, include the parenthesis that follows them. -/
inductive Sym where
  | lpar | rpar | equals | card
  | cat (c : Cat)
  /-- at least `k` more, then `R_PAREN`: lists, `cowl_functional.y:1301-1448` -/
  | many (c : Cat) (k : Nat)
  /-- one or none, then `R_PAREN`: fillers of cardinalities, `cowl_functional.y:694-807` -/
  | opt (c : Cat)
  /-- `annotation_star`, `cowl_functional.y:1286-1299` -/
  | annots
  /-- what follows the string of a literal, `cowl_functional.y:470-488` -/
  | litTail (v : Str)
  /-- the datatype of a literal, `cowl_functional.y:471` -/
  | dtIri (v : Str)
  /-- the parts of a prefix declaration, `cowl_functional.y:309-325` -/
  | prefix_
  | ns (p : Str)
  | declEnd (p n : Str)
  deriving DecidableEq, Repr

/-- Why a token is rejected. -/
inductive Why where
  /-- it is not in the grammar here: `cowl_func_yyerror`, `cowl_functional.y:90-100` -/
  | syntax
  /-- `abbreviated_iri`, `cowl_functional.y:286` -/
  | unresolved (name : Str)
  /-- `full_iri`, `cowl_functional.y:279` -/
  | noIri
  deriving DecidableEq, Repr

/-- What the parser does with a token. -/
inductive Act where
  /-- it shifts the token, and then expects this -/
  | shift (l : List Sym)
  /-- what is expected may be missing: the token belongs to what comes next -/
  | skip
  /-- a prefix declaration ends: `cowl_functional.y:324-332` -/
  | declare (p n : Str)
  | bad (w : Why)
  | ub
  deriving DecidableEq, Repr

/-- Then, more is expected. -/
def Act.andThen (l : List Sym) : Act → Act
  | .shift k => .shift (k ++ l)
  | a => a

/-- `iri`, `cowl_functional.y:276-293`. -/
def iriAct (m : PMap) : Tok → Act
  | .iriRef s => match iriFromString s with | some _ => .shift [] | none => .bad .noIri
  | .pnameLn s => match m.parseShortIri s with | some (some _) => .shift [] | _ => .bad (.unresolved s)
  | _ => .bad .syntax

/-- The arguments of a construct, and its parenthesis; see `prod`. Lists and optional arguments
are the last ones. -/
def argSyms : List Arg → List Sym
  | [] => [.rpar]
  | .one c :: as => .cat c :: argSyms as
  | .many c k :: _ => [.many c k]
  | .opt c :: _ => [.opt c]
  | .group c :: as => .lpar :: .many c 0 :: argSyms as
  | .card :: as => .card :: argSyms as

/-- A keyword that begins a construct of a category, `cowl_functional.y:492-1282`. -/
def kwAct (c : Cat) (k : Kw) : Act :=
  match prod k with
  | some pr =>
    if pr.cat = c then .shift (.lpar :: ((if pr.annotated then [.annots] else []) ++ argSyms pr.args))
    else .bad .syntax
  | none => .bad .syntax

/-- A token that begins `object_property_expression`, `data_range` or `class_expression`,
`cowl_functional.y:524-527`, `545-552`, `606-625`. -/
def expAct (m : PMap) (c : Cat) : Tok → Act
  | .kw k => kwAct c k
  | t => iriAct m t

/-- A token that begins a nonterminal; the lines are those given in `parseStep`. -/
def catAct (m : PMap) : Cat → Tok → Act
  | .iri, t => iriAct m t
  | .ent _, t => iriAct m t
  | .ind, .blank _ => .shift []
  | .ind, t => iriAct m t
  | .lit, .qstr v => .shift [.litTail v]
  | .lit, _ => .bad .syntax
  | .ope, t => expAct m .ope t
  | .dr, t => expAct m .dr t
  | .ce, t => expAct m .ce t
  | .facet, t => (iriAct m t).andThen [.cat .lit]
  | .annotVal, .qstr v => .shift [.litTail v]
  | .annotVal, .blank _ => .shift []
  | .annotVal, t => iriAct m t
  | .annotSubj, .blank _ => .shift []
  | .annotSubj, t => iriAct m t
  | .entity, .kw k => if (entKw k).isSome then .shift [.lpar, .cat .iri, .rpar] else .bad .syntax
  | .entity, _ => .bad .syntax
  | .subOpe, .kw .objectPropertyChain => .shift [.lpar, .many .ope 2]
  | .subOpe, t => expAct m .ope t
  | .annotation, .kw k => kwAct .annotation k
  | .annotation, _ => .bad .syntax
  | .ax, .kw k => kwAct .ax k
  | .ax, _ => .bad .syntax

/-- A token, given what is expected first; the lines are those of `Sym`. A literal is made at the
end of its tokens, and can be undefined (C25). -/
def symAct (m : PMap) : Sym → Tok → Act
  | .lpar, t => if t = .lpar then .shift [] else .bad .syntax
  | .rpar, t => if t = .rpar then .shift [] else .bad .syntax
  | .equals, t => if t = .equals then .shift [] else .bad .syntax
  | .card, .nat _ => .shift []
  | .card, _ => .bad .syntax
  | .cat c, t => catAct m c t
  | .many c k, t =>
    if t = .rpar then (if k = 0 then .shift [] else .bad .syntax)
    else (catAct m c t).andThen [.many c (k - 1)]
  | .opt c, t => if t = .rpar then .shift [] else (catAct m c t).andThen [.rpar]
  | .annots, t => if t = .kw .annotation then (catAct m .annotation t).andThen [.annots] else .skip
  | .litTail v, .dcaret => .shift [.dtIri v]
  | .litTail v, .lang l => match literal v (.lang l) with | .ub => .ub | .lit _ _ => .shift []
  | .litTail v, _ => match literal v .none with | .ub => .ub | .lit _ _ => .skip
  | .dtIri v, t =>
    match readIri m t with
    | some i => match literal v (.dt i) with | .ub => .ub | .lit _ _ => .shift []
    | none => iriAct m t
  | .prefix_, .pnameNs p => .shift [.equals, .ns p]
  | .prefix_, _ => .bad .syntax
  | .ns p, .iriRef n => .shift [.declEnd p n]
  | .ns _, _ => .bad .syntax
  | .declEnd p n, t => if t = .rpar then .declare p n else .bad .syntax

/-- Where in the document the parser is once nothing is expected: `cowl_functional.y:297-380`. -/
inductive Phase where
  | prefixes | id | id2 | header | axioms | done
  deriving DecidableEq, Repr

/-- State of the parser: its prefix map, the next address for a string (see `readPrefixes`), what
it expects, and where it is then. -/
structure St where
  m : PMap
  addr : Nat
  stack : List Sym
  phase : Phase

/-- What happens to a token. -/
inductive Res where
  | go (s : St)
  | bad (w : Why)
  | ub

/-- What an action does to the state; `st` is the rest of what is expected. -/
def Act.apply (m : PMap) (addr : Nat) (st : List Sym) (ph : Phase) : Act → Res
  | .shift l => .go ⟨m, addr, l ++ st, ph⟩
  | .declare p n => .go ⟨(m.add ⟨addr, p⟩ n false).1, addr + 1, st, ph⟩
  | .bad w => .bad w
  | .ub => .ub
  | .skip => .bad .syntax

/-- `axioms R_PAREN`, `cowl_functional.y:336`, `373-380`. -/
def axiomsPhase (m : PMap) (addr : Nat) (t : Tok) : Res :=
  if t = .rpar then .go ⟨m, addr, [], .done⟩ else (catAct m .ax t).apply m addr [] .axioms

/-- `imports_and_annotations`, `cowl_functional.y:355-371`. -/
def headerPhase (m : PMap) (addr : Nat) (t : Tok) : Res :=
  if t = .kw .import_ then .go ⟨m, addr, [.lpar, .cat .iri, .rpar], .header⟩
  else if t = .kw .annotation then (catAct m .annotation t).apply m addr [] .header
  else axiomsPhase m addr t

/-- A token when nothing is expected, `cowl_functional.y:297-380`. -/
def phaseAct (m : PMap) (addr : Nat) (t : Tok) : Phase → Res
  | .prefixes =>
    if t = .kw .prefix_ then .go ⟨m, addr, [.lpar, .prefix_], .prefixes⟩
    else if t = .kw .ontology then .go ⟨m, addr, [.lpar], .id⟩
    else .bad .syntax
  | .id => if t.beginsIri then (iriAct m t).apply m addr [] .id2 else headerPhase m addr t
  | .id2 => if t.beginsIri then (iriAct m t).apply m addr [] .header else headerPhase m addr t
  | .header => headerPhase m addr t
  | .axioms => axiomsPhase m addr t
  | .done => .bad .syntax

/-- One token. -/
def feed (m : PMap) (addr : Nat) (ph : Phase) (t : Tok) : List Sym → Res
  | [] => phaseAct m addr t ph
  | s :: st =>
    match symAct m s t with
    | .skip => feed m addr ph t st
    | a => a.apply m addr st ph

/-- What becomes of the tokens: accepted, rejected at a token or at the end (the tokens that are
left begin with the one that is rejected), or undefined. -/
inductive Out where
  | ok
  | bad (rest : List Tok) (w : Why)
  | ub
  deriving DecidableEq, Repr

/-- All tokens, `cowl_func_yyparse`. -/
def run : St → List Tok → Out
  | s, [] => if s.phase = .done then .ok else .bad [] .syntax
  | s, t :: ts =>
    match feed s.m s.addr s.phase t s.stack with
    | .go s' => run s' ts
    | .bad w => .bad (t :: ts) w
    | .ub => .ub

/-- `ontology_document`, `cowl_functional.y:297-302`. -/
def St.init (m : PMap) (addr : Nat) : St := ⟨m, addr, [], .prefixes⟩

/-! ## The error -/

/-- Code and message: `cowl_functional.y:90-124`, `279`, `286`. -/
def Why.code : Why → Ret
  | .noIri => .errMem
  | _ => .errSyntax

/-- The message, `cowl_functional.y:286`. -/
def Why.msg : Why → Str
  | .unresolved s => ascii "failed to resolve " ++ s
  | _ => []

/-- `state->error` after a document was rejected, `cowl_functional.y:90-124`: the line is that of
the token; the other parts of the location are not set. -/
def docError (m : PMap) (addr : Nat) (text : Str) : Option LastErr.Err :=
  match run (St.init m addr) (lex text) with
  | .bad rest w =>
    let ls := lexL text
    let line := match ls.1[ls.1.length - rest.length]? with | some x => x.2 | none => ls.2
    some ⟨w.code, 0, UInt32.ofNat line, 0, w.msg⟩
  | _ => none

end Cowl.Func
