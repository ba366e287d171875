import Verif.Model.Sym
import Verif.Model.SchemeObjects
/-!
# The memory of symmetric encryption (src/abe/zsymkey.cpp, src/abe/zcontextske.cpp, src/abe/zsymcrypto.cpp)

Model/Sym treats cipher contexts and stream objects as values. Here they are what they are in the code: `EVP_CIPHER_CTX_new`
hands out a pointer that has to be given to `EVP_CIPHER_CTX_free` once, the output buffers come from `malloc`, and the stream
context holds its two stream objects through plain pointers.

Simplified: allocation does not fail; what is held by `unique_ptr`, `shared_ptr` or by value is a value.
-/
set_option autoImplicit false
namespace Abe
namespace Evp
open Live (Mut lift)

/-! ## The heap -/

/-- `OpenABESymKeyAuthEncStream` (include/abe/zsymkey.h:122-146) with its pointer. -/
structure PStream where
  key : Bytes
  aad : Bytes := []
  aadSet : Bool := false
  encSet : Bool := false
  decSet : Bool := false
  total : Nat := 2 ^ 64 - 1
  encCount : Nat := 2 ^ 64 - 1
  decCount : Nat := 2 ^ 64 - 1
  ctx : Option Nat := none
  deriving DecidableEq

/-- What is on the heap: a cipher context (`none`: without key and IV yet), a buffer of some size, a stream object. -/
inductive Cell
  | ctx (c : Option GcmCtx)
  | buf (size : Nat)
  | stream (s : PStream)
  deriving DecidableEq

/-- The heap. A released cell is never used again. -/
abbrev Heap := List (Option Cell)

/-- What is at an address. -/
def get (h : Heap) (a : Nat) : Option Cell := (h[a]?).join

/-- Everything that was handed out and not released. -/
def live (h : Heap) : List Cell := h.filterMap id

/-- `new`, `malloc`, `EVP_CIPHER_CTX_new`. -/
def alloc (h : Heap) (x : Cell) : Nat × Heap := (h.length, h ++ [some x])

/-- `delete`, `free`, `EVP_CIPHER_CTX_free`: undefined for an address with nothing at it. -/
def free (h : Heap) (a : Nat) : Res Heap :=
  match get h a with
  | some _ => .ok (h.set a none)
  | none => .ub

/-- Writing to a cell: undefined for an address with nothing at it. -/
def put (h : Heap) (a : Nat) (x : Cell) : Res Heap :=
  match get h a with
  | some _ => .ok (h.set a (some x))
  | none => .ub

/-- The cipher context behind a pointer; it has to have a key. -/
def loadCtx (h : Heap) : Option Nat → Res GcmCtx
  | none => .ub
  | some a => match get h a with
    | some (.ctx (some c)) => .ok c
    | _ => .ub

/-- The cipher context behind a pointer changes. -/
def putCtx (h : Heap) (p : Option Nat) (c : GcmCtx) : Res Heap :=
  match p with
  | none => .ub
  | some a => put h a (.ctx (some c))

/-- `EVP_CIPHER_CTX_free` of a pointer that is used before and so is not null. -/
def freeCtx (h : Heap) : Option Nat → Res Heap
  | none => .ub
  | some a => free h a

/-! ## Whole messages -/

def newM (x : Cell) : Mut Heap Nat := fun h => (.ok (alloc h x).1, (alloc h x).2)

def onHeap (f : Heap → Res Heap) : Mut Heap Unit := fun h =>
  match f h with
  | .ok h' => (.ok (), h')
  | .throw e => (.throw e, h)
  | .ub => (.ub, h)
  | .abort => (.abort, h)

/-- zsymkey.cpp:251-321 `encrypt`: context and buffer, both released at the end. -/
def encrypt (g : Gcm) (a : AuthEnc) (iv pt : Bytes) : Mut Heap (Bytes × Bytes) := do
  let p ← newM (.ctx none)
  let b ← newM (.buf ((if pt.length < aesBlock then aesBlock else pt.length) + 1))
  let c ← lift (GcmCtx.init a.key iv)
  onHeap fun h => putCtx h (some p) c
  let c := if a.aadSet then (c.updAad a.aad).2 else c
  let r := c.updEnc g pt
  onHeap fun h => putCtx h (some p) r.2
  onHeap fun h => free h p
  onHeap fun h => free h b
  lift (.ok (r.1, r.2.getTag g))

/-- zsymkey.cpp:323-398 `decrypt`: the context is there before the length of the tag is looked at. -/
def decrypt (g : Gcm) (a : AuthEnc) (iv ct tag : Bytes) : Mut Heap (Option Bytes) := do
  let p ← newM (.ctx none)
  if tag.length ≠ aesBlock then lift (.throw .invalidTagLength)
  else do
    let c ← lift (GcmCtx.init a.key iv)
    onHeap fun h => putCtx h (some p) c
    let c := c.setTag tag
    let c := if a.aadSet then (c.updAad a.aad).2 else c
    let b ← newM (.buf (ct.length + 1))
    let r := c.updDec g ct
    onHeap fun h => putCtx h (some p) r.2
    onHeap fun h => free h b
    onHeap fun h => free h p
    lift (.ok (if r.2.finDec g then some r.1 else none))

/-- `asRuntime` on the heap. -/
def asRuntimeM {α : Type} (m : Mut Heap α) : Mut Heap α := fun h => (asRuntime (m h).1, (m h).2)

/-- zsymcrypto.cpp:88-126 `OpenABESymKeyHandle::encrypt`. -/
def handleEncrypt (g : Gcm) (k : SymHandle) (iv pt : Bytes) : Mut Heap Bytes :=
  asRuntimeM do
    let r ← encrypt g k.cipher iv pt
    let z := BS.smartPack (BS.smartPack (BS.smartPack [] iv) r.1) r.2
    lift (.ok (if k.b64 then B64.encode z else z))

/-- zsymcrypto.cpp:138-142, the three fields of a ciphertext: IV, ciphertext, tag. -/
def handleFields (k : SymHandle) (ciphertext : Bytes) : Res (Bytes × Bytes × Bytes) := do
  let z := if k.b64 then B64.decode ciphertext else ciphertext
  let (iv, i) ← BS.smartUnpack z 0
  let (ct, i) ← BS.smartUnpack z i
  let (tag, _) ← BS.smartUnpack z i
  .ok (iv, ct, tag)

/-- zsymcrypto.cpp:150-153. -/
def plainOf : Option Bytes → Res Bytes
  | none => .throw .runtimeError
  | some pt => .ok pt

/-- zsymcrypto.cpp:128-158 `OpenABESymKeyHandle::decrypt`. -/
def handleDecrypt (g : Gcm) (k : SymHandle) (ciphertext : Bytes) : Mut Heap Bytes :=
  asRuntimeM do
    let f ← lift (handleFields k ciphertext)
    let r ← decrypt g k.cipher f.1 f.2.1 f.2.2
    lift (plainOf r)

/-- Use of a key handle: a message to encrypt (with the random IV drawn) or to decrypt. -/
inductive Use
  | enc (iv pt : Bytes)
  | dec (ciphertext : Bytes)

/-- One use. -/
def handleUse (g : Gcm) (k : SymHandle) : Use → Mut Heap Bytes
  | .enc iv pt => handleEncrypt g k iv pt
  | .dec z => handleDecrypt g k z

/-- One use after the other, exceptions are caught and all results are kept. -/
def handleUses (g : Gcm) (k : SymHandle) : List Use → Heap → List (Res Bytes) × Heap
  | [], h => ([], h)
  | u :: us, h =>
    let r := handleUse g k u h
    let rs := handleUses g k us r.2
    (r.1 :: rs.1, rs.2)

/-! ## Streams -/

namespace PStream

/-- zsymkey.cpp:428-438 `initAddAuthData`; `none` is the null pointer. -/
def initAad (s : PStream) (aad : Option Bytes) : PStream :=
  if s.encSet || s.decSet then
    match aad with
    | none => { s with aad := BS.fillBuffer 0 aesBlock, aadSet := true }
    | some b => { s with aad := s.aad ++ b, aadSet := true }
  else s

/-- zsymkey.cpp:440-457 `setAddAuthData`. -/
def setAad (h : Heap) (s : PStream) : Res (Step PStream × Heap) :=
  if (s.encSet || s.decSet) && s.aadSet then do
    let c ← loadCtx h s.ctx
    let h ← putCtx h s.ctx (c.updAad s.aad).2
    if (c.updAad s.aad).1 = s.aad.length then .ok (⟨.ret none, [], s⟩, h) else .ok (⟨.exc .invalidInput, [], s⟩, h)
  else .ok (⟨.ret (some .invalidInputType), [], s⟩, h)

/-- zsymkey.cpp:459-491 `encryptInit`: the member `ctx` is overwritten with a new context (465). -/
def encInit (h : Heap) (s : PStream) (iv : Bytes) : Res (Step PStream × Heap) :=
  if s.encSet then .ok (⟨.ret (some .inUseAlready), [], s⟩, h)
  else if s.decSet then .ok (⟨.ret (some .invalidInput), [], s⟩, h)
  else do
    let a := alloc h (.ctx none)
    let c ← GcmCtx.init s.key iv
    let h ← putCtx a.2 (some a.1) c
    .ok (⟨.ret none, iv, { s with ctx := some a.1, total := 0, encCount := 0, encSet := true }⟩, h)

/-- zsymkey.cpp:493-520 `encryptUpdate`. -/
def encUpdate (g : Gcm) (h : Heap) (s : PStream) (pt : Bytes) : Res (Step PStream × Heap) :=
  if s.encSet then
    if pt.length = 0 then .ok (⟨.exc .invalidInput, [], s⟩, h)
    else do
      let c ← loadCtx h s.ctx
      let h ← putCtx h s.ctx (c.updEnc g pt).2
      let out := (c.updEnc g pt).1
      if pt.length = out.length then
        .ok (⟨.ret none, out, { s with total := s.total + out.length, encCount := s.encCount + 1 }⟩, h)
      else .ok (⟨.exc .invalidInput, [], s⟩, h)
  else .ok (⟨.ret none, [], s⟩, h)

/-- zsymkey.cpp:522-559 `encryptFinalize`: the context is released (548) unless an error is raised before. -/
def encFinalize (g : Gcm) (h : Heap) (s : PStream) (ctLen : Nat) : Res (Step PStream × Heap) :=
  if s.encSet && decide (0 < s.encCount) then
    if ctLen ≠ s.total then .ok (⟨.exc .invalidInput, [], s⟩, h)
    else do
      let c ← loadCtx h s.ctx
      let h ← putCtx h s.ctx { c with done := true }
      let total := s.total / 2 ^ 32 * 2 ^ 32
      if total ≠ 0 then .ok (⟨.exc .unexpectedExtraBytes, [], { s with total := total }⟩, h)
      else do
        let h ← freeCtx h s.ctx
        .ok (⟨.ret none, c.getTag g, { s with
          ctx := none, total := 0, encCount := 0, encSet := false, aadSet := false,
          aad := BS.fillBuffer 0 s.aad.length }⟩, h)
  else .ok (⟨.ret none, [], s⟩, h)

/-- zsymkey.cpp:561-596 `decryptInit`: the member `ctx` is overwritten with a new context (570). -/
def decInit (h : Heap) (s : PStream) (iv tag : Bytes) : Res (Step PStream × Heap) :=
  if s.decSet then .ok (⟨.ret none, [], s⟩, h)
  else if s.encSet then .ok (⟨.ret (some .invalidInput), [], s⟩, h)
  else do
    let a := alloc h (.ctx none)
    let c ← GcmCtx.init s.key iv
    let h ← putCtx a.2 (some a.1) (c.setTag tag)
    .ok (⟨.ret none, [], { s with ctx := some a.1, decSet := true, decCount := 0 }⟩, h)

/-- zsymkey.cpp:598-624 `decryptUpdate`. -/
def decUpdate (g : Gcm) (h : Heap) (s : PStream) (ct : Bytes) : Res (Step PStream × Heap) :=
  if s.decSet then
    if ct.length = 0 then .ok (⟨.ret (some .invalidInput), [], s⟩, h)
    else do
      let c ← loadCtx h s.ctx
      let h ← putCtx h s.ctx (c.updDec g ct).2
      let out := (c.updDec g ct).1
      if out.length = ct.length then .ok (⟨.ret none, out, { s with decCount := s.decCount + 1 }⟩, h)
      else .ok (⟨.ret (some .bufferTooSmall), [], s⟩, h)
  else .ok (⟨.ret none, [], s⟩, h)

/-- zsymkey.cpp:626-661 `decryptFinalize`: the context is released before the result is looked at (636-637). -/
def decFinalize (g : Gcm) (h : Heap) (s : PStream) : Res (Step PStream × Heap) :=
  if s.decSet && decide (0 < s.decCount) then do
    let c ← loadCtx h s.ctx
    let h ← freeCtx h s.ctx
    let s' := { s with ctx := none, decCount := 0, decSet := false, aadSet := false,
                       aad := BS.fillBuffer 0 s.aad.length }
    if c.finDec g then .ok (⟨.ret none, [], s'⟩, h) else .ok (⟨.ret (some .decryptionFailed), [], s'⟩, h)
  else .ok (⟨.ret (some .invalidInput), [], s⟩, h)

/-- zsymkey.cpp:423-426, the destructor. -/
def destroy (h : Heap) (s : PStream) : Res Heap :=
  match s.ctx with
  | none => .ok h
  | some a => free h a

/-- The call on the object. -/
def call (g : Gcm) (h : Heap) (s : PStream) : Stream.Call → Res (Step PStream × Heap)
  | .initAad a => .ok (⟨.ret none, [], s.initAad a⟩, h)
  | .setAad => setAad h s
  | .encInit iv => encInit h s iv
  | .encUpdate pt => encUpdate g h s pt
  | .encFinalize n => encFinalize g h s n
  | .decInit iv tag => decInit h s iv tag
  | .decUpdate ct => decUpdate g h s ct
  | .decFinalize => decFinalize g h s

/-- One call after the other: how each ended and what it wrote, the object and the heap. -/
def run (g : Gcm) : Heap → PStream → List Stream.Call → Res (List (Sig × Bytes) × PStream × Heap)
  | h, s, [] => .ok ([], s, h)
  | h, s, x :: xs => do
    let r ← call g h s x
    let rs ← run g r.2 r.1.st xs
    .ok ((r.1.sig, r.1.out) :: rs.1, rs.2)

end PStream

/-! ## The stream context -/

/-- `OpenABEContextSchemeStreamSKE` (include/abe/zcontextske.h:46-73) with its pointers. -/
structure PCtx where
  keys : KeyStore SymKey := {}
  enc : Option Nat := none
  dec : Option Nat := none

/-- The stream object at an address. -/
def loadStream (h : Heap) (a : Nat) : Res PStream :=
  match get h a with
  | some (.stream s) => .ok s
  | _ => .ub

/-- A method called through a pointer. -/
def onStream (h : Heap) (a : Nat) (f : Heap → PStream → Res (Step PStream × Heap)) : Res ((Sig × Bytes) × Heap) := do
  let s ← loadStream h a
  let r ← f h s
  let h ← put r.2 a (.stream r.1.st)
  .ok ((r.1.sig, r.1.out), h)

/-- `SAFE_DELETE` (include/abe/zabe.h:40-44) of a pointer to a stream object: destructor, release. -/
def delStream (h : Heap) : Option Nat → Res Heap
  | none => .ok h
  | some a => do
    let s ← loadStream h a
    let h ← s.destroy h
    free h a

namespace PCtx

/-- What a call returns and writes, the context, the heap. -/
abbrev Out := Res ((Option Err × Bytes) × PCtx × Heap)

/-- A result of the functions that only look at keys; Model/Sym has them for a context without streams. -/
def withKeys (c : PCtx) (h : Heap) (r : Option Err × StreamCtx) : Out := .ok ((r.1, []), { c with keys := r.2.keys }, h)

/-- The end of `encryptInit`/`decryptInit` (310-320, 390-400): default authentication data, then `setAddAuthData`;
raised errors are caught. -/
def defaultAad (h : Heap) (a : Nat) : Res (Option Err × Heap) := do
  let r ← onStream h a fun h s => PStream.setAad h (s.initAad none)
  match r.1.1 with
  | .ret e => .ok (e, r.2)
  | .exc e => .ok (some e, r.2)

/-- zcontextske.cpp:286-327 `encryptInit`: the object of an earlier encryption is deleted first (293-295). -/
def encInit (h : Heap) (c : PCtx) (id iv : Bytes) : Out := do
  let h ← delStream h c.enc
  let r := c.keys.getSecretKey id
  match r.1 with
  | none => .ok ((some .invalidKey, []), { c with keys := r.2, enc := none }, h)
  | some k => do
    let a := alloc h (.stream { key := k.data })
    let t ← onStream a.2 a.1 fun h s => PStream.encInit h s iv
    match t.1.1 with
    | .ret none => do
      let u ← defaultAad t.2 a.1
      .ok ((u.1, t.1.2), { c with keys := r.2, enc := some a.1 }, u.2)
    | .ret (some e) => .ok ((some e, t.1.2), { c with keys := r.2, enc := some a.1 }, t.2)
    | .exc e => .ok ((some e, t.1.2), { c with keys := r.2, enc := some a.1 }, t.2)

/-- zcontextske.cpp:329-345 `encryptUpdate`. -/
def encUpdate (g : Gcm) (h : Heap) (c : PCtx) (pt : Bytes) : Out :=
  match c.enc with
  | none => .ok ((some .invalidInput, []), c, h)
  | some a => do
    let t ← onStream h a fun h s => PStream.encUpdate g h s pt
    match t.1.1 with
    | .ret _ => .ok ((none, t.1.2), c, t.2)
    | .exc e => .ok ((some e, t.1.2), c, t.2)

/-- zcontextske.cpp:347-365 `encryptFinalize`: the object is deleted unless an error is raised. -/
def encFinalize (g : Gcm) (h : Heap) (c : PCtx) (ctLen : Nat) : Out :=
  match c.enc with
  | none => .ok ((some .invalidInput, []), c, h)
  | some a => do
    let t ← onStream h a fun h s => PStream.encFinalize g h s ctLen
    match t.1.1 with
    | .ret _ => do
      let h ← delStream t.2 (some a)
      .ok ((none, t.1.2), { c with enc := none }, h)
    | .exc e => .ok ((some e, t.1.2), c, t.2)

/-- zcontextske.cpp:367-407 `decryptInit`: the object of an earlier decryption is deleted first (375-377). -/
def decInit (h : Heap) (c : PCtx) (id iv tag : Bytes) : Out := do
  let h ← delStream h c.dec
  let r := c.keys.getSecretKey id
  match r.1 with
  | none => .ok ((some .invalidKey, []), { c with keys := r.2, dec := none }, h)
  | some k => do
    let a := alloc h (.stream { key := k.data })
    let t ← onStream a.2 a.1 fun h s => PStream.decInit h s iv tag
    match t.1.1 with
    | .ret _ => do
      let u ← defaultAad t.2 a.1
      .ok ((u.1, []), { c with keys := r.2, dec := some a.1 }, u.2)
    | .exc e => .ok ((some e, []), { c with keys := r.2, dec := some a.1 }, t.2)

/-- zcontextske.cpp:409-425 `decryptUpdate`. -/
def decUpdate (g : Gcm) (h : Heap) (c : PCtx) (ct : Bytes) : Out :=
  match c.dec with
  | none => .ok ((some .invalidInput, []), c, h)
  | some a => do
    let t ← onStream h a fun h s => PStream.decUpdate g h s ct
    match t.1.1 with
    | .ret _ => .ok ((none, t.1.2), c, t.2)
    | .exc e => .ok ((some e, t.1.2), c, t.2)

/-- zcontextske.cpp:427-444 `decryptFinalize`: the object is deleted whatever the check of the tag gave. -/
def decFinalize (g : Gcm) (h : Heap) (c : PCtx) : Out :=
  match c.dec with
  | none => .ok ((some .invalidInput, []), c, h)
  | some a => do
    let t ← onStream h a fun h s => PStream.decFinalize g h s
    match t.1.1 with
    | .ret _ => do
      let h ← delStream t.2 (some a)
      .ok ((none, []), { c with dec := none }, h)
    | .exc e => .ok ((some e, []), c, t.2)

/-- The call on the context. The functions for keys (194-284) do not touch the pointers. -/
def call (g : Gcm) (h : Heap) (c : PCtx) : StreamCtx.Call → Out
  | .keygen id rnd => do let r ← StreamCtx.keygen { keys := c.keys } id rnd; withKeys c h r
  | .exportKey id =>
    let r := StreamCtx.exportKey { keys := c.keys } id
    .ok ((r.1, r.2.1), { c with keys := r.2.2.keys }, h)
  | .load id blob rnd =>
    match StreamCtx.loadPrivateKey { keys := c.keys } id blob rnd with
    | .throw e => .ok ((some e, []), c, h)
    | r => do let r ← r; withKeys c h r
  | .delete id => withKeys c h (StreamCtx.deleteKey { keys := c.keys } id)
  | .encInit id iv => encInit h c id iv
  | .encUpdate pt => encUpdate g h c pt
  | .encFinalize n => encFinalize g h c n
  | .decInit id iv tag => decInit h c id iv tag
  | .decUpdate ct => decUpdate g h c ct
  | .decFinalize => decFinalize g h c

/-- One call after the other: what each returned and wrote, the context and the heap. -/
def run (g : Gcm) : Heap → PCtx → List StreamCtx.Call → Res (List (Option Err × Bytes) × PCtx × Heap)
  | h, c, [] => .ok ([], c, h)
  | h, c, x :: xs => do
    let r ← call g h c x
    let rs ← run g r.2.2 r.2.1 xs
    .ok (r.1 :: rs.1, rs.2)

/-- zcontextske.cpp:189-192, the destructor. -/
def destroy (h : Heap) (c : PCtx) : Res Heap := do
  let h ← delStream h c.enc
  delStream h c.dec

end PCtx
end Evp
end Abe
