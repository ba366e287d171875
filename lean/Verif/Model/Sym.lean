import Verif.Model.ByteString
import Verif.Model.Container
import Verif.Model.Keystore
/-!
# Symmetric encryption

src/abe/zsymkey.cpp (`OpenABESymKey`, `OpenABESymKeyAuthEnc`, `OpenABESymKeyAuthEncStream`),
src/abe/zsymcrypto.cpp (`OpenABESymKeyHandle`, `SymKeyEncHandler`) and src/abe/zcontextske.cpp
(`OpenABEContextSchemeStreamSKE`).

* AES-256-GCM of OpenSSL is a parameter (`Gcm`): a key stream and a 16 byte tag. The state OpenSSL keeps between
  calls is a value (`GcmCtx`). Random bytes (`iv`) are arguments.
* OpenSSL reads 32 bytes of key and, since it refuses an IV length of zero, 12 bytes of an IV whose given length
  is zero. Both are read through raw pointers into the key and IV buffers: a key buffer shorter than 32 bytes or an
  empty IV is undefined behaviour. A pointer to an empty buffer through which nothing is read is harmless.
* Sizes are natural numbers. The code converts sizes to `int`; what this does to buffers of `2^31` bytes and more is in
  `Verif.Model.AeadSize` (C137). The running total of the stream class may exceed that in many calls and is modelled here.
  Allocation does not fail.
* The messages written to `cerr` are not modelled.
-/
set_option autoImplicit false
namespace Abe

/-- `AES_BLOCK_SIZE`. -/
def aesBlock : Nat := 16
/-- `DEFAULT_SYM_KEY_BYTES` (include/lsss/zconstants.h:51), also the key length of AES-256. -/
def symKeyBytes : Nat := 32
/-- `SYM_KEY_BYTES` (include/lsss/zconstants.h:50). -/
def shortKeyBytes : Nat := 16

/-- zsymkey.cpp `catch (OpenABE_ERROR &)` around a library error in zsymcrypto.cpp: it becomes a
`std::runtime_error`; other exceptions pass. -/
def asRuntime {α : Type} : Res α → Res α
  | .throw .outOfRange => .throw .outOfRange
  | .throw _ => .throw .runtimeError
  | r => r

/-! ### OpenSSL -/

/-- AES-256-GCM: key stream byte at a position, and the tag of associated data and ciphertext. -/
structure Gcm where
  stream : (key iv : Bytes) → Nat → UInt8
  mac : (key iv aad ct : Bytes) → Bytes
  mac_length : ∀ key iv aad ct, (mac key iv aad ct).length = 16

/-- The data XORed with the key stream from position `pos` on. -/
def Gcm.crypt (g : Gcm) (key iv : Bytes) : Nat → Bytes → Bytes
  | _, [] => []
  | pos, x :: xs => (x ^^^ g.stream key iv pos) :: Gcm.crypt g key iv (pos + 1) xs

/-- `EVP_CIPHER_CTX` set up for AES-256-GCM. `ct` is the ciphertext that went through so far, `tag` the expected
tag, `done` is set by the final call. -/
structure GcmCtx where
  key : Bytes
  iv : Bytes
  aad : Bytes := []
  ct : Bytes := []
  tag : Option Bytes := none
  done : Bool := false
  deriving DecidableEq

namespace GcmCtx

/-- `EVP_EncryptInit_ex`/`EVP_DecryptInit_ex` with key and IV. -/
def init (key iv : Bytes) : Res GcmCtx :=
  if key.length < symKeyBytes ∨ iv = [] then .ub
  else .ok { key := key.take symKeyBytes, iv := iv }

/-- `EVP_CTRL_GCM_SET_TAG`: lengths 1 to 16 are accepted. -/
def setTag (c : GcmCtx) (tag : Bytes) : GcmCtx :=
  if 1 ≤ tag.length ∧ tag.length ≤ 16 then { c with tag := some tag } else c

/-- `EVP_EncryptUpdate`/`EVP_DecryptUpdate` without output buffer: associated data, refused after data. The first
component is the number of bytes reported. -/
def updAad (c : GcmCtx) (aad : Bytes) : Nat × GcmCtx :=
  if c.done ∨ c.ct ≠ [] then (0, c) else (aad.length, { c with aad := c.aad ++ aad })

/-- `EVP_EncryptUpdate`: the bytes written. -/
def updEnc (g : Gcm) (c : GcmCtx) (pt : Bytes) : Bytes × GcmCtx :=
  if c.done then ([], c)
  else
    let out := g.crypt c.key c.iv c.ct.length pt
    (out, { c with ct := c.ct ++ out })

/-- `EVP_DecryptUpdate`: the bytes written. -/
def updDec (g : Gcm) (c : GcmCtx) (ct : Bytes) : Bytes × GcmCtx :=
  if c.done then ([], c)
  else (g.crypt c.key c.iv c.ct.length ct, { c with ct := c.ct ++ ct })

/-- `EVP_CTRL_GCM_GET_TAG` after the final call. -/
def getTag (g : Gcm) (c : GcmCtx) : Bytes := g.mac c.key c.iv c.aad c.ct

/-- `EVP_DecryptFinal_ex`: the expected tag is compared over its own length. -/
def finDec (g : Gcm) (c : GcmCtx) : Bool :=
  match c.tag with
  | none => false
  | some t => (c.getTag g).take t.length == t

end GcmCtx

/-! ### Keys -/

/-- `OpenABESymKey` (include/abe/zsymkey.h:60-85); `isPrivate`, the key type and the (always empty) container are
left out. -/
structure SymKey where
  version : UInt8 := libraryVersion
  alg : UInt8 := 0
  uid : Bytes := []
  id : Bytes := []
  data : Bytes := []
  deriving DecidableEq

namespace SymKey

/-- zsymkey.cpp:70-74: the given uid if it has the right length, else the random bytes `rnd`. -/
def pickUid (uid : Option Bytes) (rnd : Bytes) : Bytes :=
  match uid with
  | some u => if u.length = uidLen then u else rnd
  | none => rnd

/-- zsymkey.cpp:55-78, the constructor with ID (utils/utils.cpp:154-178: the algorithms of symmetric keys). -/
def new (id : Bytes) (uid : Option Bytes) (alg : UInt8) (rnd : Bytes) : Res SymKey :=
  if id.length = 0 then .throw .invalidLength
  else do
    let a ← getSchemeID alg
    if ¬(alg = 70 ∨ alg = 71 ∨ alg = 72) then .throw .invalidSchemeId
    else .ok { alg := a, id := id, uid := pickUid uid rnd }

/-- zkey.cpp:101-107 `getHeader`. -/
def header (k : SymKey) : Bytes := k.version :: k.alg :: (k.uid ++ k.id)

/-- zsymkey.cpp:172-179 `setSymmetricKey`. -/
def setSymmetricKey (k : SymKey) (key : Bytes) : Res SymKey :=
  if key.length ≠ shortKeyBytes ∧ key.length ≠ symKeyBytes then .throw .invalidLength
  else .ok { k with data := key }

/-- zsymkey.cpp:164-170 `generateSymmetricKey`, `rnd` are the random bytes. -/
def generate (k : SymKey) (rnd : Bytes) : Res SymKey := k.setSymmetricKey rnd

/-- zsymkey.cpp:90-125 `loadKeyFromBytes`: the returned code (`none`: `OpenABE_NOERROR`) and the object. -/
def load (this : SymKey) (input rnd : Bytes) : Res (Option Err × SymKey) :=
  if input.length = 0 then .ok (some .invalidLength, this)
  else do
    let (header, index) ← BS.smartUnpack input 0
    if header.length < 2 then .throw .invalidLength
    else
      let alg ← BS.atR header 1
      let key ←
        if uidLen + 2 ≤ header.length then
          SymKey.new (BS.getSubset header (2 + uidLen) (header.length - uidLen - 2))
            (some (BS.getSubset header 2 uidLen)) alg rnd
        else .ok {}
      let (keyBytes, _) ← BS.smartUnpack input index
      let key ← key.setSymmetricKey keyBytes
      .ok (none, key)

/-- zsymkey.cpp:127-135 `exportKeyToBytes`. -/
def exportBytes (k : SymKey) : Bytes := BS.smartPack (BS.smartPack [] k.header) k.data

/-- zkey.cpp:109-126 `OpenABEKey::exportKeyToBytes`, which is what a call through a pointer to the base class
reaches: the version above is not `const` and therefore does not override it (zkey.h, zsymkey.h). The container of
a symmetric key is empty. -/
def exportBase (k : SymKey) : Bytes := BS.pack (BS.pack [] k.header) []

/-- zsymkey.cpp:181-185 `operator==`. -/
def eq (lhs rhs : SymKey) : Bool := BS.eq lhs.header rhs.header && BS.eq lhs.data lhs.data

end SymKey

/-! ### One shot authenticated encryption -/

/-- `OpenABESymKeyAuthEnc` (include/abe/zsymkey.h:93-113). -/
structure AuthEnc where
  key : Bytes
  aad : Bytes := []
  aadSet : Bool := false
  deriving DecidableEq

namespace AuthEnc

/-- zsymkey.cpp:220-231 `setAddAuthData` with a buffer. -/
def setAad (a : AuthEnc) (b : Bytes) : AuthEnc :=
  if b.length = 0 then { a with aad := BS.fillBuffer 0 aesBlock, aadSet := true }
  else { a with aad := b, aadSet := true }

/-- zsymkey.cpp:233-243 `setAddAuthData` with pointer and length; `none` is the null pointer. -/
def setAadPtr (a : AuthEnc) : Option Bytes → AuthEnc
  | some b => { a with aad := b, aadSet := true }
  | none => { a with aad := BS.fillBuffer 0 aesBlock, aadSet := true }

/-- zsymkey.cpp:245-321 `encrypt`: ciphertext and tag; `iv` is the random IV that is also returned. -/
def encrypt (g : Gcm) (a : AuthEnc) (iv pt : Bytes) : Res (Bytes × Bytes) := do
  let c ← GcmCtx.init a.key iv
  let c := if a.aadSet then (c.updAad a.aad).2 else c
  let r := c.updEnc g pt
  .ok (r.1, r.2.getTag g)

/-- zsymkey.cpp:323-398 `decrypt`: `none` is the return value `false`. -/
def decrypt (g : Gcm) (a : AuthEnc) (iv ct tag : Bytes) : Res (Option Bytes) :=
  if tag.length ≠ aesBlock then .throw .invalidTagLength
  else do
    let c ← GcmCtx.init a.key iv
    let c := c.setTag tag
    let c := if a.aadSet then (c.updAad a.aad).2 else c
    let r := c.updDec g ct
    .ok (if r.2.finDec g then some r.1 else none)

end AuthEnc

/-! ### Key handles -/

/-- `OpenABESymKeyHandle` (include/abe/zsymcrypto.h:59-76). -/
structure SymHandle where
  key : Bytes
  auth : Bytes := []
  b64 : Bool := false

namespace SymHandle

/-- zsymcrypto.cpp:48-80, both constructors (the first has no authentication data). -/
def new (key auth : Bytes) (b64 : Bool) : Res SymHandle :=
  if key.length ≠ symKeyBytes then .throw .runtimeError
  else .ok { key := key, auth := auth, b64 := b64 }

/-- zsymcrypto.cpp:90-98, 130 and 145-149. -/
def cipher (h : SymHandle) : AuthEnc :=
  if 0 < h.auth.length then ({ key := h.key } : AuthEnc).setAad h.auth
  else ({ key := h.key } : AuthEnc).setAadPtr none

/-- zsymcrypto.cpp:88-126 `encrypt`. -/
def encrypt (g : Gcm) (h : SymHandle) (iv pt : Bytes) : Res Bytes :=
  asRuntime do
    let (ct, tag) ← h.cipher.encrypt g iv pt
    let z := BS.smartPack (BS.smartPack (BS.smartPack [] iv) ct) tag
    .ok (if h.b64 then B64.encode z else z)

/-- zsymcrypto.cpp:128-158 `decrypt`. -/
def decrypt (g : Gcm) (h : SymHandle) (ciphertext : Bytes) : Res Bytes :=
  asRuntime do
    let z := if h.b64 then B64.decode ciphertext else ciphertext
    let (iv, i) ← BS.smartUnpack z 0
    let (ct, i) ← BS.smartUnpack z i
    let (tag, _) ← BS.smartUnpack z i
    let r ← h.cipher.decrypt g iv ct tag
    match r with
    | none => .throw .runtimeError
    | some pt => .ok pt

end SymHandle

/-- `EncryptionMode` (include/abe/zsymcrypto.h:80-84). -/
inductive EncMode
  | cbc
  | gcm
  | streamGcm
  deriving DecidableEq, Repr

/-- zsymcrypto.cpp:387-398 `SchemeFromEncryptionMode`. -/
def EncMode.scheme : EncMode → UInt8
  | .cbc => 70
  | .gcm => 71
  | .streamGcm => 72

/-- `SymKeyEncHandler` (include/abe/zsymcrypto.h:86-111). `gcm = none` is the null pointer. -/
structure EncHandler where
  b64 : Bool := false
  auth : Bytes := []
  mode : EncMode := .gcm
  gcm : Option AuthEnc := none

namespace EncHandler

/-- zsymcrypto.cpp:207-225 `setSKEHandler` with a key object. -/
def setKey (h : EncHandler) (k : SymKey) : Res EncHandler :=
  if k.alg ≠ h.mode.scheme ∧ k.alg ≠ 0 then .throw .invalidKey
  else
    match h.mode with
    | .gcm => .ok { h with gcm := some { key := k.data } }
    | _ => .throw .unknownScheme

/-- zsymcrypto.cpp:227-233 `setSKEHandler` with key bytes. -/
def setKeyBytes (h : EncHandler) (key : Bytes) : Res EncHandler := do
  let k ← ({} : SymKey).setSymmetricKey key
  h.setKey k

/-- zsymcrypto.cpp:187-201, the constructors with a key. -/
def new (key : Bytes) (mode : EncMode) (b64 : Bool) : Res EncHandler :=
  ({ b64 := b64, mode := mode } : EncHandler).setKeyBytes key
def newKey (k : SymKey) (mode : EncMode) (b64 : Bool) : Res EncHandler :=
  ({ b64 := b64, mode := mode } : EncHandler).setKey k

/-- zsymcrypto.cpp:235-243 `setAuthData`, `hash` is SHA-256. -/
def setAuth (hash : Bytes → Bytes) (h : EncHandler) (a : Bytes) : EncHandler :=
  if aesBlock < a.length then { h with auth := BS.getSubset (hash a) 0 aesBlock } else { h with auth := a }

/-- zsymcrypto.cpp:245-292 `encrypt`: the ciphertext; the only code returned is `OpenABE_NOERROR`. -/
def encrypt (g : Gcm) (h : EncHandler) (iv pt : Bytes) : Res Bytes :=
  match h.mode with
  | .gcm =>
    match h.gcm with
    | none => .ub
    | some a => do
      let a := if 0 < h.auth.length then a.setAad h.auth else a.setAadPtr none
      let aad := if 0 < h.auth.length then h.auth else []
      let z ← asRuntime do
        let (ct, tag) ← a.encrypt g iv pt
        .ok (BS.smartPack (BS.smartPack (BS.smartPack (BS.smartPack [] iv) ct) tag) aad)
      .ok (if h.b64 then B64.encode z else z)
  | _ => .throw .unknownScheme

/-- zsymcrypto.cpp:312-322, the fields after the IV and `zct`: ciphertext, tag, authentication data. -/
def fields (z zct : Bytes) (i : Nat) : Res (Bytes × Bytes × Bytes) :=
  if i < z.length then do
    let (tag, i) ← BS.smartUnpack z i
    if i < z.length then do
      let (aad, _) ← BS.smartUnpack z i
      .ok (zct, tag, aad)
    else .ok (zct, tag, [])
  else .ok ([], zct, [])

/-- zsymcrypto.cpp:324-335, setting the authentication data for decryption; `none` is a null `gcm_handler_`. -/
def decAad (auth aad : Bytes) (gcm : Option AuthEnc) : Res AuthEnc :=
  if 0 < auth.length ∧ aad.length ≠ 0 ∧ aad ≠ auth then .throw .decryptionFailed
  else
    match gcm with
    | none => .ub
    | some e =>
      if 0 < auth.length then .ok (e.setAad auth)
      else if 0 < aad.length then .ok (e.setAad aad)
      else .ok (e.setAadPtr none)

/-- zsymcrypto.cpp:294-353 `decrypt`: the plaintext. -/
def decrypt (g : Gcm) (h : EncHandler) (ciphertext : Bytes) : Res Bytes := do
  let z := if h.b64 then B64.decode ciphertext else ciphertext
  let (iv, i) ← BS.smartUnpack z 0
  let (zct, i) ← BS.smartUnpack z i
  match h.mode with
  | .gcm =>
    asRuntime do
      let (ct, tag, aad) ← fields z zct i
      let e ← decAad h.auth aad h.gcm
      let r ← e.decrypt g iv ct tag
      match r with
      | none => .throw .decryptionFailed
      | some pt => .ok pt
  | _ => .throw .unknownScheme

/-- zsymcrypto.cpp:355-385, the versions for strings: a `runtime_error` becomes the empty string. -/
def toStr : Res Bytes → Res Bytes
  | .throw .runtimeError => .ok []
  | r => r
def encryptStr (g : Gcm) (h : EncHandler) (iv pt : Bytes) : Res Bytes := toStr (h.encrypt g iv pt)
def decryptStr (g : Gcm) (h : EncHandler) (ciphertext : Bytes) : Res Bytes := toStr (h.decrypt g ciphertext)

end EncHandler

/-! ### Streams -/

/-- How a call ended: with a returned code (`none`: `OpenABE_NOERROR`) or with a raised error. -/
inductive Sig
  | ret (e : Option Err)
  | exc (e : Err)
  deriving DecidableEq

/-- Result of a call on an object: how it ended, the bytes appended to the output buffer, the object afterwards. -/
structure Step (S : Type) where
  sig : Sig
  out : Bytes
  st : S

/-- `OpenABESymKeyAuthEncStream` (include/abe/zsymkey.h:122-146). `ctx = none` is the null pointer; the counters
start at `SIZE_MAX` and never get near it again. The member `the_iv` is only copied out and is left out. -/
structure Stream where
  key : Bytes
  aad : Bytes := []
  aadSet : Bool := false
  encSet : Bool := false
  decSet : Bool := false
  total : Nat := 2 ^ 64 - 1
  encCount : Nat := 2 ^ 64 - 1
  decCount : Nat := 2 ^ 64 - 1
  ctx : Option GcmCtx := none
  deriving DecidableEq

namespace Stream

/-- zsymkey.cpp:428-438 `initAddAuthData`; `none` is the null pointer. -/
def initAad (s : Stream) (aad : Option Bytes) : Stream :=
  if s.encSet || s.decSet then
    match aad with
    | none => { s with aad := BS.fillBuffer 0 aesBlock, aadSet := true }
    | some b => { s with aad := s.aad ++ b, aadSet := true }
  else s

/-- zsymkey.cpp:440-457 `setAddAuthData`. -/
def setAad (s : Stream) : Res (Step Stream) :=
  if (s.encSet || s.decSet) && s.aadSet then
    match s.ctx with
    | none => .ub
    | some c =>
      let r := c.updAad s.aad
      let s' := { s with ctx := some r.2 }
      if r.1 = s.aad.length then .ok ⟨.ret none, [], s'⟩ else .ok ⟨.exc .invalidInput, [], s'⟩
  else .ok ⟨.ret (some .invalidInputType), [], s⟩

/-- zsymkey.cpp:459-491 `encryptInit`, `iv` are the random bytes, which are also the output. -/
def encInit (s : Stream) (iv : Bytes) : Res (Step Stream) :=
  if s.encSet then .ok ⟨.ret (some .inUseAlready), [], s⟩
  else if s.decSet then .ok ⟨.ret (some .invalidInput), [], s⟩
  else do
    let c ← GcmCtx.init s.key iv
    .ok ⟨.ret none, iv, { s with ctx := some c, total := 0, encCount := 0, encSet := true }⟩

/-- zsymkey.cpp:493-520 `encryptUpdate`. -/
def encUpdate (g : Gcm) (s : Stream) (pt : Bytes) : Res (Step Stream) :=
  if s.encSet then
    if pt.length = 0 then .ok ⟨.exc .invalidInput, [], s⟩
    else
      match s.ctx with
      | none => .ub
      | some c =>
        let r := c.updEnc g pt
        if pt.length = r.1.length then
          .ok ⟨.ret none, r.1, { s with ctx := some r.2, total := s.total + r.1.length, encCount := s.encCount + 1 }⟩
        else .ok ⟨.exc .invalidInput, [], { s with ctx := some r.2 }⟩
  else .ok ⟨.ret none, [], s⟩

/-- zsymkey.cpp:522-559 `encryptFinalize`, `ctLen` is the size of the ciphertext passed; the output is the tag.
`EVP_EncryptFinal_ex` stores the `int` 0 over the low half of the 64 bit total. -/
def encFinalize (g : Gcm) (s : Stream) (ctLen : Nat) : Res (Step Stream) :=
  if s.encSet && decide (0 < s.encCount) then
    if ctLen ≠ s.total then .ok ⟨.exc .invalidInput, [], s⟩
    else
      match s.ctx with
      | none => .ub
      | some c =>
        let total := s.total / 2 ^ 32 * 2 ^ 32
        if total ≠ 0 then
          .ok ⟨.exc .unexpectedExtraBytes, [], { s with ctx := some { c with done := true }, total := total }⟩
        else
          .ok ⟨.ret none, c.getTag g, { s with
            ctx := none, total := 0, encCount := 0, encSet := false, aadSet := false,
            aad := BS.fillBuffer 0 s.aad.length }⟩
  else .ok ⟨.ret none, [], s⟩

/-- zsymkey.cpp:561-596 `decryptInit`. -/
def decInit (s : Stream) (iv tag : Bytes) : Res (Step Stream) :=
  if s.decSet then .ok ⟨.ret none, [], s⟩
  else if s.encSet then .ok ⟨.ret (some .invalidInput), [], s⟩
  else do
    let c ← GcmCtx.init s.key iv
    .ok ⟨.ret none, [], { s with ctx := some (c.setTag tag), decSet := true, decCount := 0 }⟩

/-- zsymkey.cpp:598-624 `decryptUpdate`. -/
def decUpdate (g : Gcm) (s : Stream) (ct : Bytes) : Res (Step Stream) :=
  if s.decSet then
    if ct.length = 0 then .ok ⟨.ret (some .invalidInput), [], s⟩
    else
      match s.ctx with
      | none => .ub
      | some c =>
        let r := c.updDec g ct
        if r.1.length = ct.length then
          .ok ⟨.ret none, r.1, { s with ctx := some r.2, decCount := s.decCount + 1 }⟩
        else .ok ⟨.ret (some .bufferTooSmall), [], { s with ctx := some r.2 }⟩
  else .ok ⟨.ret none, [], s⟩

/-- zsymkey.cpp:626-661 `decryptFinalize`. -/
def decFinalize (g : Gcm) (s : Stream) : Res (Step Stream) :=
  if s.decSet && decide (0 < s.decCount) then
    match s.ctx with
    | none => .ub
    | some c =>
      let s' := { s with ctx := none, decCount := 0, decSet := false, aadSet := false,
                         aad := BS.fillBuffer 0 s.aad.length }
      if c.finDec g then .ok ⟨.ret none, [], s'⟩ else .ok ⟨.ret (some .decryptionFailed), [], s'⟩
  else .ok ⟨.ret (some .invalidInput), [], s⟩

/-- A call on a stream object with its arguments (`encInit`: with the random IV drawn). -/
inductive Call
  | initAad (aad : Option Bytes)
  | setAad
  | encInit (iv : Bytes)
  | encUpdate (pt : Bytes)
  | encFinalize (ctLen : Nat)
  | decInit (iv tag : Bytes)
  | decUpdate (ct : Bytes)
  | decFinalize

/-- The call on the object. -/
def call (g : Gcm) (s : Stream) : Call → Res (Step Stream)
  | .initAad a => .ok ⟨.ret none, [], s.initAad a⟩
  | .setAad => s.setAad
  | .encInit iv => s.encInit iv
  | .encUpdate pt => s.encUpdate g pt
  | .encFinalize n => s.encFinalize g n
  | .decInit iv tag => s.decInit iv tag
  | .decUpdate ct => s.decUpdate g ct
  | .decFinalize => s.decFinalize g

end Stream

/-! ### The stream context -/

/-- `OpenABEContextSchemeStreamSKE` (include/abe/zcontextske.h:46-73). Its member `aad` is private and never set:
left out, it is empty. -/
structure StreamCtx where
  keys : KeyStore SymKey := {}
  enc : Option Stream := none
  dec : Option Stream := none

namespace StreamCtx

/-- zcontextske.cpp:194-214 `keygen`, `rnd` the 32 random bytes. -/
def keygen (c : StreamCtx) (id rnd : Bytes) : Res (Option Err × StreamCtx) :=
  if c.keys.checkSecretKey id then .ok (some .inUseAlready, c)
  else
    match ({} : SymKey).generate rnd with
    | .ok k => .ok (none, { c with keys := c.keys.addKey id k .sec })
    | .throw e => .ok (some e, c)
    | .ub => .ub
    | .abort => .abort

/-- zcontextske.cpp:216-248 `exportKey` over 157-170 and zkeystore.cpp:264-273: code, blob, context. -/
def exportKey (c : StreamCtx) (id : Bytes) : Option Err × Bytes × StreamCtx :=
  let r := c.keys.getKey id
  match r.1 with
  | none => (some .invalidInput, [], { c with keys := r.2 })
  | some k => (none, k.exportBase, { c with keys := r.2 })

/-- zcontextske.cpp:250-280 `loadPrivateKey` over 81-99: the code returned by `loadKeyFromBytes` is ignored, raised
library errors are returned, other exceptions pass. -/
def loadPrivateKey (c : StreamCtx) (id blob rnd : Bytes) : Res (Option Err × StreamCtx) :=
  match ({} : SymKey).load blob rnd with
  | .ok (_, k) => .ok (none, { c with keys := c.keys.addKey id k .sec })
  | .throw .outOfRange => .throw .outOfRange
  | .throw e => .ok (some e, c)
  | .ub => .ub
  | .abort => .abort

/-- zcontextske.cpp:282-284 `deleteKey` over 134-147. -/
def deleteKey (c : StreamCtx) (id : Bytes) : Option Err × StreamCtx :=
  let r := c.keys.deleteKey id
  (if r.1.isSome then some .invalidInput else none, { c with keys := r.2 })

/-- The end of `encryptInit`/`decryptInit` (310-320, 390-400): default authentication data, then `setAddAuthData`;
raised errors are caught. -/
def defaultAad (s : Stream) : Res (Option Err × Stream) := do
  let r ← (s.initAad none).setAad
  match r.sig with
  | .ret e => .ok (e, r.st)
  | .exc e => .ok (some e, r.st)

/-- zcontextske.cpp:286-327 `encryptInit`: code, IV, context. -/
def encInit (c : StreamCtx) (id iv : Bytes) : Res (Option Err × Bytes × StreamCtx) :=
  let r := c.keys.getSecretKey id
  let c := { c with keys := r.2, enc := none }
  match r.1 with
  | none => .ok (some .invalidKey, [], c)
  | some k => do
    let t ← ({ key := k.data } : Stream).encInit iv
    match t.sig with
    | .ret none => do
      let (e, s) ← defaultAad t.st
      .ok (e, t.out, { c with enc := some s })
    | .ret (some e) => .ok (some e, t.out, { c with enc := some t.st })
    | .exc e => .ok (some e, t.out, { c with enc := some t.st })

/-- zcontextske.cpp:329-345 `encryptUpdate`: only raised errors are reported. -/
def encUpdate (g : Gcm) (c : StreamCtx) (pt : Bytes) : Res (Option Err × Bytes × StreamCtx) :=
  match c.enc with
  | none => .ok (some .invalidInput, [], c)
  | some s => do
    let t ← s.encUpdate g pt
    match t.sig with
    | .ret _ => .ok (none, t.out, { c with enc := some t.st })
    | .exc e => .ok (some e, t.out, { c with enc := some t.st })

/-- zcontextske.cpp:347-365 `encryptFinalize`. -/
def encFinalize (g : Gcm) (c : StreamCtx) (ctLen : Nat) : Res (Option Err × Bytes × StreamCtx) :=
  match c.enc with
  | none => .ok (some .invalidInput, [], c)
  | some s => do
    let t ← s.encFinalize g ctLen
    match t.sig with
    | .ret _ => .ok (none, t.out, { c with enc := none })
    | .exc e => .ok (some e, t.out, { c with enc := some t.st })

/-- zcontextske.cpp:367-407 `decryptInit`. -/
def decInit (c : StreamCtx) (id iv tag : Bytes) : Res (Option Err × StreamCtx) :=
  let r := c.keys.getSecretKey id
  let c := { c with keys := r.2, dec := none }
  match r.1 with
  | none => .ok (some .invalidKey, c)
  | some k => do
    let t ← ({ key := k.data } : Stream).decInit iv tag
    match t.sig with
    | .ret _ => do
      let (e, s) ← defaultAad t.st
      .ok (e, { c with dec := some s })
    | .exc e => .ok (some e, { c with dec := some t.st })

/-- zcontextske.cpp:409-425 `decryptUpdate`: the code returned by the stream object is ignored. -/
def decUpdate (g : Gcm) (c : StreamCtx) (ct : Bytes) : Res (Option Err × Bytes × StreamCtx) :=
  match c.dec with
  | none => .ok (some .invalidInput, [], c)
  | some s => do
    let t ← s.decUpdate g ct
    match t.sig with
    | .ret _ => .ok (none, t.out, { c with dec := some t.st })
    | .exc e => .ok (some e, t.out, { c with dec := some t.st })

/-- zcontextske.cpp:427-444 `decryptFinalize`: the code returned by the stream object is ignored. -/
def decFinalize (g : Gcm) (c : StreamCtx) : Res (Option Err × StreamCtx) :=
  match c.dec with
  | none => .ok (some .invalidInput, c)
  | some s => do
    let t ← s.decFinalize g
    match t.sig with
    | .ret _ => .ok (none, { c with dec := none })
    | .exc e => .ok (some e, { c with dec := some t.st })

/-- A call on the context with its arguments (and the random bytes it draws). -/
inductive Call
  | keygen (id rnd : Bytes)
  | exportKey (id : Bytes)
  | load (id blob rnd : Bytes)
  | delete (id : Bytes)
  | encInit (id iv : Bytes)
  | encUpdate (pt : Bytes)
  | encFinalize (ctLen : Nat)
  | decInit (id iv tag : Bytes)
  | decUpdate (ct : Bytes)
  | decFinalize

end StreamCtx
end Abe
