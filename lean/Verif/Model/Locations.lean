import Verif.Model.Parser
/-!
# Locations and syntax errors (include/lsss/location.hh, src/lsss/zscanner.cpp, src/lsss/zparser.tab.cc)

The places that the scanner keeps for its tokens, and what `Parser::parse` reports. The file name of a position is left out, and so
are the texts of messages; a message is the place it speaks about, and for syntax errors the numbers of the symbols it names. Here
the text is scanned before it is parsed. The code scans when the parser asks, which makes a difference only for the overflow of a
counter behind the place where the parser stops.
-/
set_option autoImplicit false
namespace Abe

/-- location.hh:59-118 `position`; counters are `int`. -/
structure Pos where
  line : Int := 1
  column : Int := 1
  deriving DecidableEq, Repr

/-- location.hh:180-245 `location`. -/
structure Loc where
  start : Pos := {}
  stop : Pos := {}
  deriving DecidableEq, Repr

/-- location.hh:113-117 `add_` with the minimum 1; overflow of an `int` is undefined. -/
def addCounter (l r : Int) : Res Int :=
  if l + r < -2147483648 ∨ 2147483647 < l + r then .ub else .ok (if l + r < 1 then 1 else l + r)

/-- location.hh:88-96 `position::lines`. -/
def Pos.lines (p : Pos) (n : Int) : Res Pos :=
  if n ≠ 0 then do
    let l ← addCounter p.line n
    .ok ⟨l, 1⟩
  else .ok p

/-- location.hh:98-102 `position::columns`. -/
def Pos.columns (p : Pos) (n : Int) : Res Pos := do
  let c ← addCounter p.column n
  .ok { p with column := c }

/-- location.hh:220-224 `location::step`. -/
def Loc.step (l : Loc) : Loc := { l with start := l.stop }

/-- location.hh:226-230 `location::columns`, 120-126 `operator+=`. -/
def Loc.columns (l : Loc) (n : Int) : Res Loc := do
  let p ← l.stop.columns n
  .ok { l with stop := p }

/-- location.hh:232-236 `location::lines`. -/
def Loc.lines (l : Loc) (n : Int) : Res Loc := do
  let p ← l.stop.lines n
  .ok { l with stop := p }

/-- What the action of a rule does to `yylloc`, after `YY_USER_ACTION` (zscanner.cpp:526, 876-889). -/
def actLoc (rule : Nat) (len : Int) (l : Loc) : Res Loc :=
  match rule with
  | 4 => .ok l.step
  | 5 => do
    let l ← l.lines len
    .ok l.step
  | _ => .ok l

/-- zscanner.cpp:726-1042, all tokens with the places stored when `yylex` returns, and the place at the end of the text. Every call of
`yylex` begins with `step`. The first argument bounds the number of matches, as in `yyLex`. -/
def yyLexL : Nat → Loc → Bytes → Res (List (Tok × Loc) × Loc)
  | 0, l, _ => .ok ([], l)
  | _, l, [] => .ok ([], l)
  | fuel + 1, l, b :: s => do
    let m := yyMatch 1 0 (0, 0) (b :: s)
    let text := (b :: s).take m.2
    let rest := (b :: s).drop m.2
    let l ← l.columns text.length
    let l ← actLoc (yyAccept.getD m.1 0) text.length l
    match yyAction (yyAccept.getD m.1 0) text with
    | none => yyLexL fuel l rest
    | some t => do
      let r ← yyLexL fuel l.step rest
      .ok ((t, l) :: r.1, r.2)

/-- The tokens of a string with their places. -/
def lexL (s : Bytes) : Res (List (Tok × Loc) × Loc) := yyLexL s.length (Loc.step {}) s

/-- A syntax error: `yyla.location`, the look-ahead symbol and the expected ones (zparser.tab.cc:926, 1066-1163). -/
structure Report where
  loc : Loc
  unexpected : Option Nat
  expected : List Nat
  deriving DecidableEq

/-- zparser.tab.cc:1108-1127: the symbols with an entry for the state, none when there are more than four. -/
def expectedOf (s : Nat) : List Nat :=
  let p := yyPact.getD s 0
  if p = -20 then []
  else
    let xs := (List.range 31).filter fun x : Nat =>
      decide (0 ≤ (x : Int) + p) && decide ((x : Int) + p ≤ 83) && decide (yyCheck.getD ((x : Int) + p).toNat 0 = x) && decide (x ≠ 1) &&
        decide (yyTable.getD ((x : Int) + p).toNat 0 ≠ -1)
    if xs.length ≤ 4 then xs else []

/-- State of `Parser::parse` with the look-ahead: `full` is `!yyla.empty()`, `cur` is `yyla.location`, `ahead` are the places that the
scanner has not delivered yet, the one at the end included. `said` are the places the scanner complained about. -/
structure LConf where
  p : PConf
  ahead : List Loc
  cur : Loc := {}
  full : Bool := false
  said : List Loc := []

/-- zparser.tab.cc:606-631: read a look-ahead token if there is none. For an error token the scanner has printed a message
(zscanner.cpp:814, 817, 845, 868). -/
def LConf.read (c : LConf) : LConf :=
  if c.full then c
  else
    let l := c.ahead.headD c.cur
    { c with cur := l, ahead := c.ahead.tail, full := true, said := if c.p.toks.head? = some .error then c.said ++ [l] else c.said }

/-- Does the parser shift? zparser.tab.cc:632-660. -/
def yyShifts (s la : Nat) : Bool :=
  match yyLook s la with
  | some n => decide (0 < n)
  | none => false

/-- Does the parser go to `yyerrlab`? zparser.tab.cc:632-665. -/
def yyFails (s la : Nat) : Bool :=
  match yyLook s la with
  | some n => decide (n = -1)
  | none => decide ((yyDefact.getD s 0).toNat = 0)

/-- zparser.tab.cc:921-927 and 1066-1163. -/
def LConf.report (c : LConf) (s : Nat) : Report :=
  if c.full then ⟨c.cur, some (la c.p.toks), expectedOf s⟩ else ⟨c.cur, none, []⟩

/-- zparser.tab.cc:541-1000 `Parser::parse` as `yyRun`, with the places the scanner complained about and the syntax error that was
reported. -/
def yyRunL (mk : Mktime) : Nat → LConf → Res (Bool × Drv) × List Loc × Option Report
  | 0, c => (.ub, c.said, none)
  | fuel + 1, c =>
    match c.p.stack with
    | [] => (.ub, c.said, none)
    | (s, _) :: _ =>
      let c := if s = 10 ∨ yyPact.getD s 0 = -20 then c else c.read
      match yyStep mk c.p with
      | .next p' => yyRunL mk fuel { c with p := p', full := c.full && !yyShifts s (la c.p.toks) }
      | .stop r => (r, c.said, if s ≠ 10 ∧ yyFails s (la c.p.toks) = true then some (c.report s) else none)

/-- zdriver.cpp:58-84 `parse_string`, `parse_stream`, as `parseString`. -/
def parseLoc (mk : Mktime) (isPolicy : Bool) (s : Bytes) : Res (Res (Bool × Drv) × List Loc × Option Report) := do
  let r ← lexL ((if isPolicy then b!"[0]: " else b!"[1]: ") ++ s)
  .ok (yyRunL mk (yyFuel r.1.length) ⟨⟨[(0, .none)], { input := s, isPolicy := isPolicy }, r.1.map Prod.fst⟩, r.1.map Prod.snd ++ [r.2], {}, false, []⟩)

end Abe
