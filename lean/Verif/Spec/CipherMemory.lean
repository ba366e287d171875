import Verif.Model.CipherMemory
/-!
# What is expected of the memory of symmetric encryption

The functions of Model/Sym work on values; what they return and write is what the versions with pointers should return and
write.
-/
set_option autoImplicit false
namespace Abe
namespace Evp
namespace Values

/-- Calls on a stream object, without memory: how each ended and what it wrote. -/
def stream (g : Gcm) : Stream → List Stream.Call → Res (List (Sig × Bytes) × Stream)
  | s, [] => .ok ([], s)
  | s, x :: xs => do
    let r ← s.call g x
    let rs ← stream g r.st xs
    .ok ((r.sig, r.out) :: rs.1, rs.2)

/-- One call on a context, without memory: what it returned and wrote. -/
def call (g : Gcm) (c : StreamCtx) : StreamCtx.Call → Res ((Option Err × Bytes) × StreamCtx)
  | .keygen id rnd => do let r ← c.keygen id rnd; .ok ((r.1, []), r.2)
  | .exportKey id => .ok (((c.exportKey id).1, (c.exportKey id).2.1), (c.exportKey id).2.2)
  | .load id blob rnd =>
    match c.loadPrivateKey id blob rnd with
    | .throw e => .ok ((some e, []), c)
    | r => do let r ← r; .ok ((r.1, []), r.2)
  | .delete id => .ok (((c.deleteKey id).1, []), (c.deleteKey id).2)
  | .encInit id iv => do let r ← c.encInit id iv; .ok ((r.1, r.2.1), r.2.2)
  | .encUpdate pt => do let r ← c.encUpdate g pt; .ok ((r.1, r.2.1), r.2.2)
  | .encFinalize n => do let r ← c.encFinalize g n; .ok ((r.1, r.2.1), r.2.2)
  | .decInit id iv tag => do let r ← c.decInit id iv tag; .ok ((r.1, []), r.2)
  | .decUpdate ct => do let r ← c.decUpdate g ct; .ok ((r.1, r.2.1), r.2.2)
  | .decFinalize => do let r ← c.decFinalize g; .ok ((r.1, []), r.2)

/-- Calls on a context, without memory. -/
def context (g : Gcm) : StreamCtx → List StreamCtx.Call → Res (List (Option Err × Bytes) × StreamCtx)
  | c, [] => .ok ([], c)
  | c, x :: xs => do
    let r ← call g c x
    let rs ← context g r.2 xs
    .ok (r.1 :: rs.1, rs.2)

/-- One use of a key handle, without memory. -/
def use (g : Gcm) (k : SymHandle) : Use → Res Bytes
  | .enc iv pt => k.encrypt g iv pt
  | .dec z => k.decrypt g z

end Values

/-- The cells of a stream object: one for its context if it has one. -/
def inStream (s : Stream) : Nat := if s.ctx.isSome then 1 else 0

/-- The cells behind a pointer to a stream object: that and the object itself. -/
def inPtr : Option Stream → Nat
  | none => 0
  | some s => 1 + inStream s

/-- The cells of a context. -/
def inContext (c : StreamCtx) : Nat := inPtr c.enc + inPtr c.dec

/-- A message that consists of three fields, the last one (the tag) not of 16 bytes. -/
def badTag (k : SymHandle) : Use → Bool
  | .enc _ _ => false
  | .dec z =>
    match handleFields k z with
    | .ok f => f.2.2.length != 16
    | _ => false

end Evp
end Abe
