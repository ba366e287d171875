import Verif.Base
/-!
# The scanner (src/lsss/zscanner.cpp, generated by flex from zscanner.ll)

The DFA tables are copied literally. Here the input is the whole string, its end is the end of file; the
buffer is in Model/FlexBuffer, and C116 proves that it makes no difference. Source locations are in Model/Locations; messages are not modelled.
-/
set_option autoImplicit false
namespace Abe

/-- zscanner.cpp:413-417 `yy_accept`. -/
def yyAccept : List Nat :=
  [0, 0, 0, 8, 6, 4, 5, 2, 1, 6, 4, 2, 1, 3, 0]

/-- zscanner.cpp:419-449 `yy_ec`. -/
def yyEc : List Nat :=
  [0, 1, 1, 1, 1, 1, 1, 1, 1, 2, 3, 1, 1, 2, 1, 1, 1, 1, 1, 1, 1, 1, 1, 1, 1, 1, 1, 1, 1, 1, 1, 1,
   2, 4, 1, 4, 5, 4, 4, 1, 1, 1, 4, 1, 4, 4, 5, 5, 6, 6, 6, 6, 6, 6, 6, 6, 6, 6, 4, 1, 7, 8, 7, 1,
   4, 5, 5, 5, 5, 5, 5, 5, 5, 5, 5, 5, 5, 5, 5, 5, 5, 5, 5, 5, 5, 5, 5, 5, 5, 5, 5, 5, 5, 5, 4, 4,
   1, 5, 5, 5, 5, 5, 5, 5, 5, 5, 5, 5, 5, 5, 5, 5, 5, 5, 5, 5, 5, 5, 5, 5, 5, 5, 5, 4, 1, 4, 5, 1,
   1, 1, 1, 1, 1, 1, 1, 1, 1, 1, 1, 1, 1, 1, 1, 1, 1, 1, 1, 1, 1, 1, 1, 1, 1, 1, 1, 1, 1, 1, 1, 1,
   1, 1, 1, 1, 1, 1, 1, 1, 1, 1, 1, 1, 1, 1, 1, 1, 1, 1, 1, 1, 1, 1, 1, 1, 1, 1, 1, 1, 1, 1, 1, 1,
   1, 1, 1, 1, 1, 1, 1, 1, 1, 1, 1, 1, 1, 1, 1, 1, 1, 1, 1, 1, 1, 1, 1, 1, 1, 1, 1, 1, 1, 1, 1, 1,
   1, 1, 1, 1, 1, 1, 1, 1, 1, 1, 1, 1, 1, 1, 1, 1, 1, 1, 1, 1, 1, 1, 1, 1, 1, 1, 1, 1, 1, 1, 1, 1]

/-- zscanner.cpp:451-454 `yy_meta`. -/
def yyMeta : List Nat :=
  [0, 1, 1, 1, 2, 2, 2, 1, 1]

/-- zscanner.cpp:456-460 `yy_base`. -/
def yyBase : List Nat :=
  [0, 0, 0, 15, 16, 12, 16, 0, 7, 4, 9, 0, 4, 16, 16, 7]

/-- zscanner.cpp:462-466 `yy_def`. -/
def yyDef : List Nat :=
  [0, 14, 1, 14, 14, 14, 14, 15, 14, 14, 14, 15, 14, 14, 0, 14]

/-- zscanner.cpp:468-473 `yy_nxt`. -/
def yyNxt : List Nat :=
  [0, 4, 5, 6, 4, 7, 8, 9, 9, 11, 12, 10, 13, 12, 10, 14, 3, 14, 14, 14, 14, 14, 14, 14, 14]

/-- zscanner.cpp:475-480 `yy_chk`. -/
def yyChk : List Nat :=
  [0, 1, 1, 1, 1, 1, 1, 1, 1, 15, 12, 10, 9, 8, 5, 3, 14, 14, 14, 14, 14, 14, 14, 14, 14]

/-- Character class: zscanner.cpp:752 `yy_ec[*yy_cp]`; a NUL inside the input is class 1
(zscanner.cpp:1369, `yy_try_NUL_trans`). -/
def cls (b : UInt8) : Nat := if b = 0 then 1 else yyEc.getD b.toNat 0

/-- zscanner.cpp:758-764 (and 1375-1381), one transition: follow `yy_def` until the entry belongs to the
state. The first argument bounds the length of the chain. -/
def yyTrans : Nat → Nat → Nat → Nat
  | 0, _, _ => 14
  | fuel + 1, s, c =>
    if yyChk.getD (yyBase.getD s 0 + c) 0 ≠ s then
      let s' := yyDef.getD s 0
      yyTrans fuel s' (if s' ≥ 15 then yyMeta.getD c 0 else c)
    else yyNxt.getD (yyBase.getD s 0 + c) 0

/-- zscanner.cpp:748-769, the matching loop: current state, number of bytes read, last accepting
state and position. At the end of the input the current state decides (1025-1033). Result: the
accepting state and the length of the match. -/
def yyMatch : Nat → Nat → Nat × Nat → Bytes → Nat × Nat
  | s, pos, last, [] => if yyAccept.getD s 0 ≠ 0 then (s, pos) else last
  | s, pos, last, b :: rest =>
    let last' := if yyAccept.getD s 0 ≠ 0 then (s, pos) else last
    let s' := yyTrans 4 s (cls b)
    if s' = 14 then last' else yyMatch s' (pos + 1) last' rest

/-- Tokens (include/lsss/zparser.tab.hh, `token_type`). `chr` is a byte passed on as itself. -/
inductive Tok
  | leaf (s : Bytes)
  | uint (n : UInt32)
  | or
  | and
  | eq
  | leq
  | geq
  | error
  | startPolicy
  | startAttr
  | inn
  | eol
  | chr (b : UInt8)
  deriving DecidableEq, Repr

/-- `strtoul(yytext, NULL, 10)` on digits, without the cap. -/
def decVal (s : Bytes) : Nat := s.foldl (fun n b => n * 10 + (b.toNat - 48)) 0

/-- `std::string::find(k) != npos`. -/
def hasSub (k : Bytes) : Bytes → Bool
  | [] => k.isEmpty
  | b :: s => k.isPrefixOf (b :: s) || hasSub k s

/-- zscanner.cpp:806-821, rule 1. Values of 2^32-1 and more (including those that overflow
`unsigned long`) and 0 are errors. -/
def actUint (text : Bytes) : Tok :=
  if decVal text < 4294967295 then (if decVal text = 0 then .error else .uint (UInt32.ofNat (decVal text)))
  else .error

/-- zscanner.cpp:823-849, rule 2. -/
def actLeaf (text : Bytes) : Tok :=
  if text = b!"[0]:" then .startPolicy
  else if text = b!"[1]:" then .startAttr
  else if text = b!"or" ∨ text = b!"OR" then .or
  else if text = b!"and" ∨ text = b!"AND" then .and
  else if text = b!"in" ∨ text = b!"IN" then .inn
  else if hasSub b!"expint" text then .error
  else .leaf text

/-- zscanner.cpp:851-871, rule 3. -/
def actOp (text : Bytes) : Tok :=
  if text = b!"<=" then .leq
  else if text = b!">=" then .geq
  else if text = b!"==" then .eq
  else .error

/-- zscanner.cpp:803-905, the action of rule `act` on the matched text; `none`: no token (white space).
Rule 7 (`ECHO`) and the others are not reached. -/
def yyAction (act : Nat) (text : Bytes) : Option Tok :=
  match act with
  | 1 => some (actUint text)
  | 2 => some (actLeaf text)
  | 3 => some (actOp text)
  | 4 => none
  | 5 => some .eol
  | _ => some (.chr (text.headD 0))

/-- zscanner.cpp:735-1042, all tokens up to the end of the input. The first argument bounds the number of
matches. -/
def yyLex : Nat → Bytes → List Tok
  | 0, _ => []
  | _, [] => []
  | fuel + 1, b :: s =>
    let m := yyMatch 1 0 (0, 0) (b :: s)
    let text := (b :: s).take m.2
    let rest := (b :: s).drop m.2
    match yyAction (yyAccept.getD m.1 0) text with
    | none => yyLex fuel rest
    | some t => t :: yyLex fuel rest

/-- The token sequence of a string. -/
def lex (s : Bytes) : List Tok := yyLex s.length s

end Abe
