import Verif.Model.Sym
/-!
# Authenticated encryption with the lengths as they are computed (src/abe/zsymkey.cpp, zsymcrypto.cpp)

`AuthEnc.encrypt` and `AuthEnc.decrypt` have natural numbers as lengths. The code keeps them in an `int`, and OpenSSL takes an `int`.
Here the conversions, the additions and the buffers are as in the code.

* `size_t` to `int` is reduction modulo `2^32` into the range of `int` (as gcc and clang do it, and C++20 demands).
* OpenSSL turns a negative length into a `size_t` above `2^63`, which its limits for AES-GCM refuse: the call returns 0, changes nothing and
  does not store a length (trusted). No return value of these calls is looked at.
* An `int` that was not given a value is `none`; its use is undefined.
* `malloc` fails for `2^63` bytes and more; the code then ends the process (include/lsss/zconstants.h:104-108). Other allocations
  succeed.
-/
set_option autoImplicit false
namespace Abe
namespace AeadSize

/-- Conversion of a size to `int`. -/
def toInt (n : Nat) : Int := (n : Int).bmod (2 ^ 32)

/-- `INT_MAX`; sums beyond it are undefined. -/
def intMax : Int := 2147483647

/-- `EVP_EncryptUpdate`/`EVP_DecryptUpdate` without output buffer and `n` as length: the length variable and the state afterwards. -/
def updAad (c : GcmCtx) (aad : Bytes) (n : Int) (len : Option Nat) : Option Nat × GcmCtx :=
  if n < 0 then (len, c)
  else
    let r := c.updAad (aad.take n.toNat)
    (some r.1, r.2)

/-- `EVP_CTRL_GCM_SET_IVLEN` with `n` and setting key and IV: lengths that are not positive are refused, and the 12 bytes of the
default are read. -/
def init (key iv : Bytes) (n : Int) : Res GcmCtx :=
  if n ≤ 0 then
    if iv.length < 12 then .ub else GcmCtx.init key (iv.take 12)
  else GcmCtx.init key (iv.take n.toNat)

/-- zsymkey.cpp:245-321 `encrypt`: ciphertext and tag; `iv` is the random IV of 16 bytes. -/
def encrypt (g : Gcm) (a : AuthEnc) (iv pt : Bytes) : Res (Bytes × Bytes) :=
  let ptLen := toInt pt.length
  let len : Int := if ptLen < 16 then 16 else ptLen
  if intMax < len + 1 then .ub
  else do
    let ct : Bytes := List.replicate (len + 1).toNat 0
    let c ← GcmCtx.init a.key iv
    let (ctLen, c) := if a.aadSet then updAad c a.aad (toInt a.aad.length) none else (none, c)
    let (ct, ctLen, c) :=
      if ptLen < 0 then (ct, ctLen, c)
      else
        let r := c.updEnc g (pt.take ptLen.toNat)
        (r.1 ++ ct.drop r.1.length, some r.1.length, r.2)
    match ctLen with
    | none => .ub
    | some n => if ct.length < n then .ub else .ok (ct.take n, c.getTag g)

/-- zsymkey.cpp:323-398 `decrypt`: `none` is the return value `false`. -/
def decrypt (g : Gcm) (a : AuthEnc) (iv ct tag : Bytes) : Res (Option Bytes) :=
  let ctLen := toInt ct.length
  if toInt tag.length ≠ 16 then .throw .invalidTagLength
  else do
    let c ← init a.key iv (toInt iv.length)
    let c := c.setTag (tag.take 16)
    let (ptLen, c) := if a.aadSet then updAad c a.aad (toInt a.aad.length) none else (none, c)
    if intMax < ctLen + 1 then .ub
    else if ctLen + 1 < 0 then .abort
    else
      let pt : Bytes := List.replicate (ctLen + 1).toNat 0
      let (pt, ptLen, c) :=
        if ctLen < 0 then (pt, ptLen, c)
        else
          let r := c.updDec g (ct.take ctLen.toNat)
          (r.1 ++ pt.drop r.1.length, some r.1.length, r.2)
      match ptLen with
      | none => .ub
      | some n => if pt.length < n then .ub else .ok (if c.finDec g then some (pt.take n) else none)

/-- zsymcrypto.cpp:88-126 `OpenABESymKeyHandle::encrypt`. -/
def handleEncrypt (g : Gcm) (h : SymHandle) (iv pt : Bytes) : Res Bytes :=
  asRuntime do
    let (ct, tag) ← encrypt g h.cipher iv pt
    let z := BS.smartPack (BS.smartPack (BS.smartPack [] iv) ct) tag
    .ok (if h.b64 then B64.encode z else z)

/-- zsymcrypto.cpp:128-158 `OpenABESymKeyHandle::decrypt`. -/
def handleDecrypt (g : Gcm) (h : SymHandle) (ciphertext : Bytes) : Res Bytes :=
  asRuntime do
    let z := if h.b64 then B64.decode ciphertext else ciphertext
    let (iv, i) ← BS.smartUnpack z 0
    let (ct, i) ← BS.smartUnpack z i
    let (tag, _) ← BS.smartUnpack z i
    let r ← decrypt g h.cipher iv ct tag
    match r with
    | none => .throw .runtimeError
    | some pt => .ok pt

/-- zsymkey.cpp:493-520 `encryptUpdate` of a stream; `stack` bytes are left on the stack, on which the output buffer is put. -/
def encUpdate (g : Gcm) (stack : Nat) (s : Stream) (pt : Bytes) : Res (Step Stream) :=
  if s.encSet then
    let ptLen := toInt pt.length
    if ptLen ≤ 0 then .ok ⟨.exc .invalidInput, [], s⟩
    else if intMax < ptLen + 1 ∨ (stack : Int) < ptLen + 1 then .ub
    else
      match s.ctx with
      | none => .ub
      | some c =>
        let r := c.updEnc g (pt.take ptLen.toNat)
        if ptLen = r.1.length then
          .ok ⟨.ret none, r.1, { s with ctx := some r.2, total := s.total + r.1.length, encCount := s.encCount + 1 }⟩
        else .ok ⟨.exc .invalidInput, [], { s with ctx := some r.2 }⟩
  else .ok ⟨.ret none, [], s⟩

/-- zsymkey.cpp:598-624 `decryptUpdate` of a stream. An array of negative size is undefined. -/
def decUpdate (g : Gcm) (stack : Nat) (s : Stream) (ct : Bytes) : Res (Step Stream) :=
  if s.decSet then
    if ct.length = 0 then .ok ⟨.ret (some .invalidInput), [], s⟩
    else
      let ctLen := toInt ct.length
      if intMax < ctLen + 1 ∨ ctLen + 1 ≤ 0 ∨ (stack : Int) < ctLen + 1 then .ub
      else
        match s.ctx with
        | none => .ub
        | some c =>
          let r := c.updDec g (ct.take ctLen.toNat)
          if (r.1.length : Int) = ctLen then
            .ok ⟨.ret none, r.1, { s with ctx := some r.2, decCount := s.decCount + 1 }⟩
          else .ok ⟨.ret (some .bufferTooSmall), [], { s with ctx := some r.2 }⟩
  else .ok ⟨.ret none, [], s⟩

end AeadSize
end Abe
