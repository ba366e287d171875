import Verif.Model.Parser
import Verif.Model.ByteString
/-!
# Hashing attributes (src/lsss/hashattributes.cpp:225-281)

BLAKE2s with 9 bytes of output is an argument.
-/
set_option autoImplicit false
namespace Abe

/-- The loop of hashattributes.cpp:225-231 `replaceAll` for a non-empty word, on the text from `pos` on: `find` goes to
the next occurrence, `replace` puts the new word there, and the search goes on behind the new word. -/
def replaceFrom (old new : Bytes) : Nat → Bytes → Bytes
  | 0, s => s
  | _, [] => []
  | fuel + 1, b :: s =>
    if old.isPrefixOf (b :: s) then new ++ replaceFrom old new fuel ((b :: s).drop old.length)
    else b :: replaceFrom old new fuel s

/-- hashattributes.cpp:225-231 `replaceAll`. The empty word is found at every position, and the string grows until
memory is exhausted. -/
def replaceAll (s old new : Bytes) : Res Bytes :=
  if old = [] then .throw .outOfMemory else .ok (replaceFrom old new s.length s)

/-- `std::string::find` as hashattributes.cpp:227 calls it, on the text from the position on: the number of bytes before the first occurrence. -/
def findIn (w : Bytes) : Bytes → Option Nat
  | [] => if w = [] then some 0 else none
  | b :: s => if w.isPrefixOf (b :: s) then some 0 else (findIn w s).map (· + 1)

/-- `std::string::find(w, pos)`, hashattributes.cpp:227. -/
def strFind (w s : Bytes) (pos : Nat) : Option Nat :=
  if pos ≤ s.length then (findIn w (s.drop pos)).map (pos + ·) else none

/-- hashattributes.cpp:225-231 `replaceAll`, the loop as written; `none` when it has not ended after that many passes. C68
relates it to `replaceAll`. -/
def replaceLoop (old new : Bytes) : Nat → Bytes → Nat → Option Bytes
  | 0, _, _ => none
  | fuel + 1, s, pos =>
    match strFind old s pos with
    | none => some s
    | some p => replaceLoop old new fuel (s.take p ++ new ++ s.drop (p + old.length)) (p + new.length)

/-- hashattributes.cpp:239-244 `hashAttribute`; `H` is `blake2s` with `SIZEOF_ATTRIBUTE` = 9 bytes of output. -/
def hashAttribute (H : Bytes → Bytes) (a : Bytes) : Bytes := b!"A:" ++ B64.encode (H a)

/-- hashattributes.cpp:257-259 and 276-278, the loop over the attributes. -/
def hashWords (H : Bytes → Bytes) : List Bytes → Bytes → Res Bytes
  | [], s => .ok s
  | a :: as, s => do
    let s' ← replaceAll s a (hashAttribute H a)
    hashWords H as s'

/-- hashattributes.cpp:252-262 `hashPolicy`; the null pointer that `createPolicyTree` returns for a malformed text is
dereferenced. -/
def hashPolicy (H : Bytes → Bytes) (mk : Mktime) (s : Bytes) : Res Bytes := do
  match ← createPolicyTree mk s with
  | none => .ub
  | some p => hashWords H p.completeSet s

/-- hashattributes.cpp:270-281 `hashAttributesList`, likewise. -/
def hashAttributesList (H : Bytes → Bytes) (mk : Mktime) (s : Bytes) : Res Bytes := do
  match ← createAttributeList mk s with
  | none => .ub
  | some l => hashWords H l.attrs s

end Abe
