import Verif.Model.Scanner
import Verif.Model.Driver
/-!
# The parser (src/lsss/zparser.tab.cc, generated by bison from zparser.yy)

The LALR tables are copied literally; `Parser::parse` is a step function on (state stack with semantic
values, driver, remaining tokens). Source locations and syntax errors are in Model/Locations; allocation and
release of semantic values are the subject of Model/ParserHeap.
-/
set_option autoImplicit false
namespace Abe

/-- zparser.tab.cc:1168-1179 `yypact_`. -/
def yyPact : List Int :=
  [17, -2, 1, 7, 11, -2, 44, -13, 1, -1, -20, 12, 51, 53, -15, 55, 58, 34, 3, -2, -2, 60, -1, 1,
   20, -20, 12, -20, 12, -20, 12, 12, 12, -20, 12, -20, 12, -20, 56, -20, 12, -20, -1, 62, 39, 40,
   45, 46, 43, 47, -19, 48, -20, 12, 12, 12, 12, 12, 12, 12, 12, 12, -20, -20, 49, 52, -20, -20,
   54, -20, -20, -20, -20, 12, -20]

/-- zparser.tab.cc:1181-1192 `yydefact_`. -/
def yyDefact : List Int :=
  [0, 0, 0, 0, 6, 0, 2, 23, 0, 3, 1, 0, 0, 0, 0, 0, 0, 0, 0, 0, 0, 0, 24, 25, 5, 13, 0, 11, 0, 12,
   0, 0, 0, 9, 0, 10, 0, 14, 7, 8, 0, 27, 26, 0, 0, 0, 0, 0, 0, 0, 0, 0, 4, 0, 0, 0, 0, 0, 0, 0, 0,
   0, 22, 21, 0, 0, 20, 19, 0, 17, 28, 15, 16, 0, 18]

/-- zparser.tab.cc:1194-1198 `yypgoto_`. -/
def yyPgoto : List Int :=
  [-20, -20, -12, 31, 29]

/-- zparser.tab.cc:1200-1204 `yydefgoto_`. -/
def yyDefgoto : List Int :=
  [-1, 3, 25, 6, 9]

/-- zparser.tab.cc:1206-1218 `yytable_`. -/
def yyTable : List Int :=
  [27, 29, 4, 33, 35, 7, 59, 10, 30, 41, 60, 31, 19, 20, 44, 21, 45, 24, 46, 47, 48, 5, 49, 11, 50,
   12, 13, 37, 51, 23, 14, 8, 15, 16, 1, 2, 18, 22, 36, 17, 43, 62, 63, 64, 65, 66, 67, 68, 69, 70,
   38, 39, 42, 19, 20, 26, 24, 28, 24, 32, 24, 74, 34, 24, 40, 24, 20, 52, 53, 54, 55, 56, 57, 71,
   0, 0, 58, 61, 0, 72, 0, 0, 0, 73]

/-- zparser.tab.cc:1220-1232 `yycheck_`. -/
def yyCheck : List Int :=
  [12, 13, 4, 15, 16, 4, 25, 0, 23, 21, 29, 26, 9, 10, 26, 28, 28, 5, 30, 31, 32, 23, 34, 12, 36,
   14, 15, 24, 40, 30, 19, 30, 21, 22, 17, 18, 5, 8, 4, 28, 20, 53, 54, 55, 56, 57, 58, 59, 60, 61,
   19, 20, 23, 9, 10, 4, 5, 4, 5, 4, 5, 73, 4, 5, 4, 5, 10, 5, 29, 29, 25, 25, 29, 24, -1, -1, 29,
   29, -1, 27, -1, -1, -1, 29]

/-- zparser.tab.cc:1234-1245 `yystos_`. -/
def yyStos : List Int :=
  [0, 17, 18, 32, 4, 23, 34, 4, 30, 35, 0, 12, 14, 15, 19, 21, 22, 28, 34, 9, 10, 28, 35, 30, 5,
   33, 4, 33, 4, 33, 23, 26, 4, 33, 4, 33, 4, 24, 34, 34, 4, 33, 35, 20, 33, 33, 33, 33, 33, 33,
   33, 33, 5, 29, 29, 25, 25, 29, 29, 25, 29, 29, 33, 33, 33, 33, 33, 33, 33, 33, 33, 24, 27, 29,
   33]

/-- zparser.tab.cc:1247-1253 `yyr1_`. -/
def yyR1 : List Int :=
  [0, 31, 32, 32, 33, 33, 34, 34, 34, 34, 34, 34, 34, 34, 34, 34, 34, 34, 34, 34, 34, 34, 34, 35,
   35, 35, 35, 35, 35]

/-- zparser.tab.cc:1255-1261 `yyr2_`. -/
def yyR2 : List Int :=
  [0, 2, 2, 2, 3, 1, 1, 3, 3, 3, 3, 3, 3, 3, 3, 7, 7, 6, 8, 6, 6, 6, 6, 1, 2, 2, 3, 3, 6]

/-- zparser.tab.cc:1316-1362 `yytranslate_`. Token codes that are not positive (a NUL byte, or a byte
≥ 0x80 passed on as a negative `char`) become the end-of-file symbol 0. -/
def Tok.sym : Tok → Nat
  | .eol => 3
  | .leaf _ => 4
  | .uint _ => 5
  | .or => 9
  | .and => 10
  | .eq => 12
  | .leq => 14
  | .geq => 15
  | .error => 16
  | .startPolicy => 17
  | .startAttr => 18
  | .inn => 19
  | .chr b =>
    if b = 0 ∨ b ≥ 128 then 0
    else if b = 35 then 20
    else if b = 60 then 21
    else if b = 62 then 22
    else if b = 40 then 23
    else if b = 41 then 24
    else if b = 45 then 25
    else if b = 123 then 26
    else if b = 125 then 27
    else if b = 61 then 28
    else if b = 44 then 29
    else if b = 124 then 30
    else 2

/-- Semantic values, `%union` (include/lsss/zparser.yy:61-67). Reading another member than the one
written is undefined. -/
inductive SVal
  | none
  | str (s : Bytes)
  | uint (n : UInt32)
  | num (n : UInteger)
  | tree (t : TNode)
  | attrs (l : Option (List Bytes))

/-- The value the scanner stores with a token (zscanner.cpp:806-905). -/
def Tok.val : Tok → SVal
  | .leaf s => .str s
  | .uint n => .uint n
  | _ => .none

/-- A semantic action that builds a tree. -/
def treeAct (r : Res (TNode × Drv)) : Res (Option (SVal × Drv)) := do
  let x ← r
  .ok (some (.tree x.1, x.2))

/-- Rules 9 to 13: comparison with a number (zparser.tab.cc:747-775). -/
def actCmp (f : Drv → Bytes → UInteger → Res (TNode × Drv)) (v : List SVal) (d : Drv) :
    Res (Option (SVal × Drv)) :=
  match v with
  | [.num n, _, .str s] => treeAct (f d s n)
  | _ => .ub

/-- Rules 15 and 16: ranges (zparser.tab.cc:783-797). -/
def actRange (f : Drv → Bytes → UInteger → UInteger → Res (TNode × Drv)) (v : List SVal) (d : Drv) :
    Res (Option (SVal × Drv)) :=
  match v with
  | [_, .num hi, _, .num lo, _, _, .str s] => treeAct (f d s lo hi)
  | _ => .ub

/-- Rules 17 and 19 to 22: dates (zparser.tab.cc:799-851). -/
def actDate (f : Drv → Bytes → UInteger → UInteger → UInteger → Res (TNode × Drv)) (v : List SVal) (d : Drv) :
    Res (Option (SVal × Drv)) :=
  match v with
  | [.num y, _, .num dd, .str m, _, .str s] => treeAct (f d s (getMonth m) dd y)
  | _ => .ub

/-- Rules 7 and 8 (zparser.tab.cc:735-745). -/
def actGate (k : Nat) (v : List SVal) (d : Drv) : Res (Option (SVal × Drv)) :=
  match v with
  | [.tree r, _, .tree l] => .ok (some (.tree (kof2 k l r), d))
  | _ => .ub

/-- zparser.tab.cc:699-893, the semantic actions. The values of the right-hand side come top of stack
first. `none` is `YYERROR`. -/
def act (mk : Mktime) (rule : Nat) (v : List SVal) (d : Drv) : Res (Option (SVal × Drv)) :=
  match rule with
  | 2 => match v with
    | [.tree t, _] => .ok (some (.none, setPolicy d t))
    | _ => .ub
  | 3 => match v with
    | [.attrs l, _] => do
      let d' ← setAttrlist d l
      .ok (some (.none, d'))
    | _ => .ub
  | 4 => match v with
    | [.uint b, _, .uint n] =>
      if checkValidBit n b then .ok (some (.num (createExpint n b), d)) else .ok none
    | _ => .ub
  | 5 => match v with
    | [.uint n] => .ok (some (.num (createFlexint n), d))
    | _ => .ub
  | 6 => match v with
    | [.str s] => treeAct (leafNode d s)
    | _ => .ub
  | 7 => actGate 1 v d
  | 8 => actGate 2 v d
  | 9 => actCmp ltPolicy v d
  | 10 => actCmp gtPolicy v d
  | 11 => actCmp lePolicy v d
  | 12 => actCmp gePolicy v d
  | 13 => actCmp eqPolicy v d
  | 14 => match v with
    | [_, .tree t, _] => .ok (some (.tree t, d))
    | _ => .ub
  | 15 => actRange rangePolicy v d
  | 16 => actRange rangeInclPolicy v d
  | 17 => actDate (eqDate mk) v d
  | 18 => match v with
    | [.num y, _, .num d2, _, .num d1, .str m, _, .str s] => treeAct (rangeDate mk d s (getMonth m) d1 d2 y)
    | _ => .ub
  | 19 => actDate (gtDate mk) v d
  | 20 => actDate (ltDate mk) v d
  | 21 => actDate (geDate mk) v d
  | 22 => actDate (leDate mk) v d
  | 23 => match v with
    | [.str s] => do
      let x ← leafAttr d s
      .ok (some (.attrs x.1, x.2))
    | _ => .ub
  | 24 => match v with
    | [.attrs l, _] => .ok (some (.attrs (concatAttr l none), d))
    | _ => .ub
  | 25 => match v with
    | [_, .attrs l] => .ok (some (.attrs (concatAttr l none), d))
    | _ => .ub
  | 26 => match v with
    | [.attrs r, _, .attrs l] => .ok (some (.attrs (concatAttr l r), d))
    | _ => .ub
  | 27 => match v with
    | [.num n, _, .str s] => .ok (some (.attrs (some (attrNum d s n).1), (attrNum d s n).2))
    | _ => .ub
  | 28 => match v with
    | [.num y, _, .num dd, .str m, _, .str s] =>
      let x := setDateAttr mk d s m (getMonth m) dd y
      .ok (some (.attrs (some x.1), x.2))
    | _ => .ub
  | _ => .ub

/-- State of `Parser::parse`: the stack (top first), the driver and the tokens not yet shifted. -/
structure PConf where
  stack : List (Nat × SVal)
  drv : Drv
  toks : List Tok

/-- What one round of the parsing loop does: go on, or return from `parse` (`true` for accept, `false` for
abort) or leave it in another way. -/
inductive PStep
  | next (c : PConf)
  | stop (r : Res (Bool × Drv))

/-- zparser.tab.cc:514-521 `yy_lr_goto_state_`. -/
def yyGoto (s : Nat) (sym : Nat) : Nat :=
  let r := yyPgoto.getD (sym - 31) 0 + s
  if 0 ≤ r ∧ r ≤ 83 ∧ yyCheck.getD r.toNat 0 = s then (yyTable.getD r.toNat 0).toNat
  else (yyDefgoto.getD (sym - 31) 0).toNat

/-- zparser.tab.cc:622-648: `none` take the default action, `some n` the table entry. -/
def yyLook (s : Nat) (la : Nat) : Option Int :=
  let p := yyPact.getD s 0
  if p = -20 then none
  else
    let n := p + la
    if n < 0 ∨ 83 < n ∨ yyCheck.getD n.toNat 0 ≠ la then none else some (yyTable.getD n.toNat 0)

/-- zparser.tab.cc:918-966, `yyerrlab`: `Driver::error`, then every state is popped because no state has a
transition on the error token (`yycheck_` does not contain 1), and the parser aborts. -/
def yyErr (c : PConf) : PStep := .stop (.ok (false, c.drv.error))

/-- zparser.tab.cc:667-915, `yyreduce`. `YYERROR` aborts without `Driver::error` (947-966). -/
def yyReduce (mk : Mktime) (c : PConf) (rule : Nat) : PStep :=
  let len := (yyR2.getD rule 0).toNat
  match act mk rule ((c.stack.take len).map Prod.snd) c.drv with
  | .ok (some (v, d)) =>
    let below := c.stack.drop len
    match below with
    | [] => .stop .ub
    | (s, _) :: _ =>
      .next { c with stack := (yyGoto s (yyR1.getD rule 0).toNat, v) :: below, drv := d }
  | .ok none => .stop (.ok (false, c.drv))
  | .throw e => .stop (.throw e)
  | .ub => .stop .ub
  | .abort => .stop .abort

/-- Look-ahead symbol (zparser.tab.cc:610-620); after the last token the scanner returns 0. -/
def la : List Tok → Nat
  | [] => 0
  | t :: _ => t.sym

/-- Value of the look-ahead token. -/
def laVal : List Tok → SVal
  | [] => .none
  | t :: _ => t.val

/-- zparser.tab.cc:590-660, one round of the loop of `Parser::parse`. -/
def yyStep (mk : Mktime) (c : PConf) : PStep :=
  match c.stack with
  | [] => .stop .ub
  | (s, _) :: _ =>
    if s = 10 then .stop (.ok (true, c.drv))
    else
      match yyLook s (la c.toks) with
      | none =>
        let r := (yyDefact.getD s 0).toNat
        if r = 0 then yyErr c else yyReduce mk c r
      | some n =>
        if n ≤ 0 then (if n = -1 then yyErr c else yyReduce mk c (-n).toNat)
        else
          .next { c with stack := (n.toNat, laVal c.toks) :: c.stack, toks := c.toks.tail }

/-- zparser.tab.cc:541-1000 `Parser::parse`: did it accept, and the driver. The first argument bounds the
number of rounds (running out would be non-termination, reported as `ub`; Proof/ParserInv.lean shows that it
does not happen). -/
def yyRun (mk : Mktime) : Nat → PConf → Res (Bool × Drv)
  | 0, _ => .ub
  | fuel + 1, c =>
    match yyStep mk c with
    | .next c' => yyRun mk fuel c'
    | .stop r => r

/-- Number of rounds that is enough for `n` tokens. -/
def yyFuel (n : Nat) : Nat := 3 * n + 8

/-- zdriver.cpp:58-84 `parse_string`, `parse_stream`. -/
def parseString (mk : Mktime) (isPolicy : Bool) (s : Bytes) : Res (Bool × Drv) :=
  let toks := lex ((if isPolicy then b!"[0]: " else b!"[1]: ") ++ s)
  let d : Drv := { input := s, isPolicy := isPolicy }
  yyRun mk (yyFuel toks.length) { stack := [(0, SVal.none)], drv := d, toks := toks }

/-- zpolicy.cpp:103-117 `createPolicyTree`; `none` is the null pointer. Exceptions are caught. -/
def createPolicyTree (mk : Mktime) (s : Bytes) : Res (Option Policy) :=
  if s = [] then .ok none
  else
    match parseString mk true s with
    | .ok r => .ok r.2.policy
    | .throw _ => .ok none
    | .ub => .ub
    | .abort => .abort

/-- zattributelist.cpp:235-249 `createAttributeList`. -/
def createAttributeList (mk : Mktime) (s : Bytes) : Res (Option AttrList) :=
  if s = [] then .ok none
  else
    match parseString mk false s with
    | .ok r => .ok r.2.attrs
    | .throw _ => .ok none
    | .ub => .ub
    | .abort => .abort

/-- zpolicy.cpp:119-129 `addToRootOfInput`. -/
def addToRootOfInput (mk : Mktime) (ty : Gate) (attr : Bytes) (p : Policy) : Res (Option Policy) :=
  if p.revocation then .ok none
  else createPolicyTree mk (b!"(" ++ p.compact ++ b!")" ++ gateString ty ++ attr)

/-- include/lsss/zpolicy.h:149-151 `OpenABEPolicy::toString`; a missing root is dereferenced (`none`). -/
def Policy.str (p : Policy) : Option Bytes := p.root.map TNode.str

end Abe
