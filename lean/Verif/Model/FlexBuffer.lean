import Verif.Model.Scanner
/-!
# The buffer of the scanner (src/lsss/zscanner.cpp)

The machine that flex generates around the automaton of Model/Scanner: the character buffer with its two end-of-buffer
bytes, the byte held back behind the current token, moving an unfinished token to the front, growing the buffer, reading
from the stream, bytes that are zero, backing up. Pointers into the buffer are indices; reading or writing
outside of the buffer and reading a byte that was never written is `ub`.

Left out: source locations, debug output, `yyunput`, `yyinput`, the stack of buffers (there is one buffer),
`yy_fill_buffer` and `yy_is_our_buffer` (always 1 here). Allocation does not fail.
-/
set_option autoImplicit false
namespace Abe.LexBuf

/-- zscanner.cpp:303-318 `yy_buffer_status`. -/
inductive Status
  | new
  | normal
  | eofPending
  deriving DecidableEq, Repr

/-- The amounts set at compile time: `YY_BUF_SIZE` and `YY_READ_BUF_SIZE`. -/
structure Sizes where
  buf : Nat
  read : Nat

/-- zscanner.cpp:195-205, 582-589, outside of IA-64. -/
def sizes : Sizes := ⟨16384, 8192⟩

/-- The members of the lexer and of its buffer (zscanner.cpp:254-320, FlexLexer.h) that matter. `yy_start` is 1. -/
structure Lexer where
  /-- `yy_ch_buf`; `none`: never written -/
  buf : List (Option UInt8)
  /-- `yy_buf_size` -/
  bufSize : Nat
  /-- `yy_n_chars` of the buffer -/
  bufChars : Nat
  /-- `yy_buffer_status` -/
  status : Status
  /-- `yy_n_chars` of the lexer -/
  nChars : Nat
  /-- `yy_c_buf_p` -/
  pos : Nat
  /-- `yytext_ptr` -/
  text : Nat
  /-- `yy_hold_char` -/
  hold : UInt8
  /-- `yy_last_accepting_state` and `yy_last_accepting_cpos`; `none`: never set -/
  last : Option (Nat × Nat)
  /-- what the stream `yyin` still has -/
  input : Bytes

/-- A read of the buffer. -/
def Lexer.rd (f : Lexer) (i : Nat) : Res UInt8 :=
  match f.buf[i]? with
  | some (some b) => .ok b
  | _ => .ub

/-- A write to the buffer. -/
def Lexer.wr (f : Lexer) (i : Nat) (b : UInt8) : Res Lexer :=
  if i < f.buf.length then .ok { f with buf := f.buf.set i (some b) } else .ub

/-- zscanner.cpp:1717-1739 `yy_flush_buffer` of the current buffer, with 1587-1599 `yy_load_buffer_state`. -/
def Lexer.flush (f : Lexer) : Res Lexer := do
  let f ← f.wr 0 0
  let f ← f.wr 1 0
  let h ← f.rd 0
  .ok { f with bufChars := 0, status := .new, nChars := 0, text := 0, pos := 0, hold := h }

/-- zscanner.cpp:685-716 (start of the first call), 1610-1634 `yy_create_buffer`, 1674-1707 `yy_init_buffer`. -/
def create (z : Sizes) (input : Bytes) : Res Lexer :=
  Lexer.flush ⟨List.replicate (z.buf + 2) none, z.buf, 0, .new, 0, 0, 0, 0, none, input⟩

/-- zscanner.cpp:748-767 and the two assignments after it, the matching loop from state `s` at `cp`. Each round
reads the byte at `cp`; the first argument is the number of bytes from there to the end of the buffer. -/
def matchLoop : Nat → Lexer → Nat → Nat → Res Lexer
  | 0, _, _, _ => .ub
  | k + 1, f, s, cp => do
    let b ← f.rd cp
    let f := if yyAccept.getD s 0 ≠ 0 then { f with last := some (s, cp) } else f
    let s' := yyTrans 4 s (yyEc.getD b.toNat 0)
    if s' = 14 then .ok f else matchLoop k f s' (cp + 1)

/-- zscanner.cpp:1334-1350, the loop of `yy_get_previous_state` for `k` more bytes. -/
def previousLoop : Nat → Lexer → Nat → Nat → Res (Nat × Lexer)
  | 0, f, s, _ => .ok (s, f)
  | k + 1, f, s, cp => do
    let b ← f.rd cp
    let f := if yyAccept.getD s 0 ≠ 0 then { f with last := some (s, cp) } else f
    previousLoop k f (yyTrans 4 s (if b ≠ 0 then yyEc.getD b.toNat 0 else 1)) (cp + 1)

/-- zscanner.cpp:1324-1352 `yy_get_previous_state`. -/
def previousState (f : Lexer) : Res (Nat × Lexer) := previousLoop (f.pos - f.text) f 1 f.text

/-- zscanner.cpp:1362-1384 `yy_try_NUL_trans`; `none` is the state 0 that means a jam. -/
def tryNul (f : Lexer) (s : Nat) : Option Nat × Lexer :=
  let f := if yyAccept.getD s 0 ≠ 0 then { f with last := some (s, f.pos) } else f
  let s' := yyTrans 4 s 1
  (if s' = 14 then none else some s', f)

/-- zscanner.cpp:1216-1217, moving `k` more bytes from `src` to `dst`. -/
def moveLoop : Nat → Lexer → Nat → Nat → Res Lexer
  | 0, f, _, _ => .ok f
  | k + 1, f, src, dst => do
    let b ← f.rd src
    let f ← f.wr dst b
    moveLoop k f (src + 1) (dst + 1)

/-- zscanner.cpp:1230-1267, growing the buffer until there is room; doubling beyond `INT_MAX` is a signed overflow. A
loop that does not end is undefined, too: more than `move + 2` rounds are not needed for any positive size. -/
def growLoop : Nat → Lexer → Nat → Res Lexer
  | 0, _, _ => .ub
  | k + 1, f, move =>
    if f.bufSize ≤ move + 1 then
      if 2 * f.bufSize < 2147483648 then
        growLoop k { f with bufSize := 2 * f.bufSize,
                            buf := f.buf ++ List.replicate (2 * f.bufSize + 2 - f.buf.length) none } move
      else .ub
    else .ok f

/-- zscanner.cpp:1272-1274 `YY_INPUT`, 1131-1159 `LexerInput`: the bytes read are written from `i` on. -/
def writeLoop : Bytes → Lexer → Nat → Res Lexer
  | [], f, _ => .ok f
  | b :: bs, f, i => do
    let f ← f.wr i b
    writeLoop bs f (i + 1)

/-- What `yy_get_next_buffer` returns. -/
inductive Eob
  | endOfFile
  | continueScan
  | lastMatch
  deriving DecidableEq, Repr

/-- zscanner.cpp:1219-1277, reading into the buffer behind the `move` bytes that stay. -/
def fill (z : Sizes) (f : Lexer) (move : Nat) : Res Lexer :=
  if f.status = .eofPending then .ok { f with bufChars := 0, nChars := 0 }
  else do
    let f ← growLoop (move + 2) f move
    let toRead := min (f.bufSize - move - 1) z.read
    let chunk := f.input.take toRead
    let f ← writeLoop chunk f move
    .ok { f with input := f.input.drop toRead, nChars := chunk.length, bufChars := chunk.length }

/-- zscanner.cpp:1297-1313, more room if it is needed and the two end bytes. -/
def finish (f : Lexer) (move : Nat) : Res Lexer := do
  let f := if f.bufSize < f.nChars + move then
      let size := f.nChars + move + f.nChars / 2
      { f with buf := (f.buf ++ List.replicate (size - f.buf.length) none).take size, bufSize := size - 2 }
    else f
  let n := f.nChars + move
  let f ← f.wr n 0
  let f ← f.wr (n + 1) 0
  .ok { f with nChars := n, text := 0 }

/-- zscanner.cpp:1181-1316 `yy_get_next_buffer`; the fatal error ends the process. -/
def nextBuffer (z : Sizes) (f : Lexer) : Res (Eob × Lexer) :=
  if f.nChars + 1 < f.pos then .abort else do
  let move := f.pos - f.text - 1
  let f ← moveLoop move f f.text 0
  let f ← fill z f move
  if f.nChars = 0 then
    if move = 0 then do
      let f ← f.flush
      let f ← finish f move
      .ok (.endOfFile, f)
    else do
      let f ← finish { f with status := .eofPending } move
      .ok (.lastMatch, f)
  else do
    let f ← finish f move
    .ok (.continueScan, f)

/-- Where the code of `yylex` goes on: the top of the loop, `yy_match` and `yy_find_action` with state, `yy_cp` and
`yy_bp`, or the end of the call with a token (`none`: the end of the file). -/
inductive Jump
  | top
  | yyMatch (s cp bp : Nat)
  | findAction (s cp bp : Nat)
  | ret (t : Option Tok)
  deriving DecidableEq, Repr

/-- The bytes of the buffer from `i` on. -/
def readText : Nat → Lexer → Nat → Res Bytes
  | 0, _, _ => .ok []
  | k + 1, f, i => do
    let b ← f.rd i
    let bs ← readText k f (i + 1)
    .ok (b :: bs)

/-- zscanner.cpp:944-1034, a zero byte of the input or the end of the buffer; `amount` bytes were matched before. -/
def zeroByte (z : Sizes) (f : Lexer) (amount : Nat) : Res (Jump × Lexer) :=
  if f.pos ≤ f.nChars then do
    let f := { f with pos := f.text + amount }
    let (s, f) ← previousState f
    match tryNul f s with
    | (some s', f) => .ok (.yyMatch s' (f.pos + 1) f.text, { f with pos := f.pos + 1 })
    | (none, f) =>
      match f.last with
      | some (s, cp) => .ok (.findAction s cp f.text, f)
      | none => .ub
  else do
    let (r, f) ← nextBuffer z f
    match r with
    | .endOfFile => .ok (.ret none, { f with pos := f.text })
    | .continueScan => do
      let f := { f with pos := f.text + amount }
      let (s, f) ← previousState f
      .ok (.yyMatch s f.pos f.text, f)
    | .lastMatch => do
      let f := { f with pos := f.nChars }
      let (s, f) ← previousState f
      .ok (.findAction s f.pos f.text, f)

/-- zscanner.cpp:909-1034, `case YY_END_OF_BUFFER`. `f` is the lexer after `YY_DO_BEFORE_ACTION`. -/
def endOfBuffer (z : Sizes) (f : Lexer) (cp : Nat) : Res (Jump × Lexer) := do
  let amount := cp - f.text - 1
  let f ← f.wr cp f.hold
  zeroByte z (if f.status = .new then { f with nChars := f.bufChars, status := .normal } else f) amount

/-- zscanner.cpp:735-1042, one piece of `yylex`. -/
def step (z : Sizes) (f : Lexer) : Jump → Res (Jump × Lexer)
  | .top => do
    let f ← f.wr f.pos f.hold
    .ok (.yyMatch 1 f.pos f.pos, f)
  | .yyMatch s cp bp => do
    let f ← matchLoop (f.buf.length - cp) f s cp
    match f.last with
    | some (s, cp) => .ok (.findAction s cp bp, f)
    | none => .ub
  | .findAction s cp bp => do
    -- 392-400 `YY_DO_BEFORE_ACTION`
    let h ← f.rd cp
    let f ← { f with text := bp, hold := h, pos := cp }.wr cp 0
    let act := yyAccept.getD s 0
    if act = 0 then do
      let f ← f.wr cp f.hold
      match f.last with
      | some (s, cp) => .ok (.findAction s cp bp, f)
      | none => .ub
    else if act = 8 then endOfBuffer z f cp
    else do
      let text ← readText (cp - bp) f bp
      match yyAction act text with
      | some t => .ok (.ret (some t), f)
      | none => .ok (.top, f)
  | .ret t => .ok (.ret t, f)

/-- `n` pieces of `yylex`, one after the other. -/
def steps (z : Sizes) : Nat → Jump × Lexer → Res (Jump × Lexer)
  | 0, x => .ok x
  | n + 1, x => do
    let y ← step z x.2 x.1
    steps z n y

/-- One call of `yylex` on the lexer `f` returns `t` (`none`: the end of the file) and leaves `f'`. -/
def Yields (z : Sizes) (f : Lexer) (t : Option Tok) (f' : Lexer) : Prop :=
  ∃ n, steps z n (.top, f) = .ok (.ret t, f')

end Abe.LexBuf
