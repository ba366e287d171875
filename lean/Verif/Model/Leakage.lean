import Verif.Model.Kdf
import Verif.Model.Scheme
/-!
# What can be seen of a computation from outside (include/lsss/zbytestring.h, src/lsss/zobject.cpp, src/abe/zpairing.cpp, zkdf.cpp)

Somebody on the same machine may see which way each branch goes, which addresses are read and written, and how long the inputs of the
functions of RELIC are. The functions below are those of `Verif.Model.ByteString`, `Kdf` and `Scheme`, statement by statement, on such
traces. What RELIC and OpenSSL do inside is not modelled, nor how long single instructions take.
-/
set_option autoImplicit false
namespace Abe
namespace Leak

/-- What is seen. Objects are numbered in the order of the arguments, results and local objects after them. -/
inductive Ev
  | jump (taken : Bool)
  | read (obj i : Nat)
  | write (obj i : Nat)
  /-- `_hash_to_bytes_`, `md_hmac` and `md_kdf` on inputs of these lengths -/
  | call (lens : List Nat)
  deriving DecidableEq, Repr

/-- A computation and its trace. -/
structure Seen (α : Type) where
  trace : List Ev
  res : Res α

/-- Sequencing: nothing more is seen after an exception or undefined behaviour. -/
def Seen.bind {α β : Type} (x : Seen α) (f : α → Seen β) : Seen β :=
  match x.res with
  | .ok a => ⟨x.trace ++ (f a).trace, (f a).res⟩
  | .throw e => ⟨x.trace, .throw e⟩
  | .ub => ⟨x.trace, .ub⟩
  | .abort => ⟨x.trace, .abort⟩

instance : Monad Seen where
  pure a := ⟨[], .ok a⟩
  bind := Seen.bind

/-- One event. -/
def see (e : Ev) : Seen Unit := ⟨[e], .ok ()⟩

/-- `if (b)`. -/
def test (b : Bool) : Seen Bool := ⟨[.jump b], .ok b⟩

/-- A step without events. -/
def lift {α : Type} (r : Res α) : Seen α := ⟨[], r⟩

/-- `vector::at`: the bounds check, then the read. -/
def at' (obj : Nat) (b : Bytes) (i : Nat) : Seen UInt8 := do
  let inside ← test (decide (i < b.length))
  if inside = true then do
    see (.read obj i)
    lift (BS.atR b i)
  else lift (.throw .outOfRange)

/-- zbytestring.h:233-235, the loop of `operator==`; `n` elements are left. -/
def eqLoop (lhs rhs : Bytes) : Nat → Nat → UInt8 → Seen UInt8
  | 0, _, rc => do
    let _ ← test false
    pure rc
  | n + 1, i, rc => do
    let _ ← test true
    let x ← at' 0 lhs i
    let y ← at' 1 rhs i
    eqLoop lhs rhs n (i + 1) (rc ||| (x ^^^ y))

/-- zbytestring.h:229-238 `operator==`. -/
def eq (lhs rhs : Bytes) : Seen Bool := do
  let differ ← test (decide (lhs.length ≠ rhs.length))
  if differ = true then pure false
  else do
    let rc ← eqLoop lhs rhs lhs.length 0 0
    test (rc == 0)

/-- zbytestring.h:109-111, the loop of `operator^=`; `n` elements are left. -/
def xorLoop (rhs : Bytes) : Nat → Nat → Bytes → Seen Bytes
  | 0, _, this => do
    let _ ← test false
    pure this
  | n + 1, i, this => do
    let _ ← test true
    let x ← at' 0 this i
    match rhs[i % rhs.length]? with
    | none => lift .ub
    | some y => do
      see (.read 1 (i % rhs.length))
      see (.write 0 i)
      xorLoop rhs n (i + 1) (this.set i (x ^^^ y))

/-- zbytestring.h:106-113 `operator^=`. -/
def xorAssign (this rhs : Bytes) : Seen Bytes := xorLoop rhs this.length 0 this

/-- zobject.cpp:90-99 `OpenABEZeroize` and the `std::fill` of zbytestring.h:122; `n` elements are left. -/
def fillLoop : Nat → Nat → Bytes → Seen Bytes
  | 0, _, b => do
    let _ ← test false
    pure b
  | n + 1, i, b => do
    let _ ← test true
    see (.write 0 i)
    fillLoop n (i + 1) (b.set i 0)

/-- zbytestring.h:119-125 `zeroize` up to `clear`: what the elements hold. -/
def zeroize (b : Bytes) : Seen Bytes := do
  let some' ← test (decide (0 < b.length))
  if some' = true then fillLoop b.length 0 b else pure b

/-- zpairing.cpp:253-259, the loop of `hashFromBytes`; `n` blocks are left. The writes of the digest and of the counter are at the same
places in every round. -/
def maskLoop (md : Bytes → Bytes) (pre : UInt8) (buf : Bytes) : Nat → Nat → Seen Bytes
  | 0, _ => do
    let _ ← test false
    pure []
  | n + 1, i => do
    let _ ← test true
    see (.call [buf.length + 2])
    see (.write 1 (32 * i))
    see (.write 2 0)
    let rest ← maskLoop md pre buf n (i + 1)
    pure (Scheme.maskBlock md pre buf i ++ rest)

/-- zpairing.cpp:235-264 `hashFromBytes`. -/
def hashFromBytes (md : Bytes → Bytes) (buf : Bytes) (target : Nat) (pre : UInt8) : Seen Bytes := do
  let b ← maskLoop md pre buf ((target + 31) / 32) 0
  pure (b.take target)

/-- zcontextabe.cpp:320-326, 368-374, the masking step of `encrypt` and `decrypt`. -/
def mask (md : Bytes → Bytes) (key msg : Bytes) : Seen Bytes := do
  let m ← hashFromBytes md key msg.length Scheme.schemeHashPrefix
  xorAssign msg m

/-- zkdf.cpp:112-118, the loop of `DeriveKey`. -/
def deriveLoop (md : Digest) (hashLen : Nat) : Nat → UInt32 → Bytes → Nat → Bytes → Seen Bytes
  | 0, _, _, _, arr => do
    let _ ← test false
    pure arr
  | n + 1, count, buffer, ptr, arr => do
    let _ ← test true
    see (.call [buffer.length])
    see (.write 3 ptr)
    let arr ← lift (Kdf.poke arr ptr (md.fn buffer))
    let _ ← test (decide (4 ≤ buffer.length))
    deriveLoop md hashLen n (count + 1) (BS.setFirstBytes buffer (count + 1).toNat) (ptr + hashLen) arr

/-- zkdf.cpp:84-124 `DeriveKey`. -/
def deriveKey (md : Digest) (k : Kdf) (Z : Bytes) (keyBitLen : UInt32) (info : Bytes) : Seen Bytes :=
  if k.hashLen.toNat = 0 then lift .ub
  else do
    let reps := (keyBitLen.toNat + k.hashLen.toNat - 1) / k.hashLen.toNat
    let long ← test (decide (0xFFFFFFFF < reps))
    if long = true then lift (.throw .invalidLength)
    else do
      let buffer := BS.setFirstBytes [] 1 ++ [k.hashPrefix] ++ Z ++ info
      let long ← test (decide (k.maxInputLen.toNat < buffer.length))
      if long = true then lift (.throw .invalidLength)
      else if 2 ^ 31 ≤ reps * k.hashLen.toNat then lift .ub
      else do
        let arr ← deriveLoop md k.hashLen.toNat reps 1 buffer 0 (List.replicate (reps * k.hashLen.toNat + 1) 0)
        let n := keyBitLen.toNat / 8
        if arr.length < n then lift .ub else lift (.ok (arr.take n))

/-- zkdf.cpp:165-173, the loop of `ComputeHKDF`. -/
def hkdfLoop (mac : Hmac) (prk info : Bytes) (keyLen : Nat) (i : Nat) (tmp out : Bytes) : Seen Bytes :=
  if out.length < keyLen then do
    let _ ← test true
    let t := mac.fn prk (tmp ++ info ++ [UInt8.ofNat (i + 1)])
    see (.call [prk.length, (tmp ++ info ++ [UInt8.ofNat (i + 1)]).length])
    hkdfLoop mac prk info keyLen (i + 1) t (out ++ t)
  else do
    let _ ← test false
    pure out
termination_by keyLen - out.length
decreasing_by
  simp only [List.length_append, mac.length]
  omega

/-- zkdf.cpp:151-177 `ComputeHKDF`. -/
def computeHKDF (md : Digest) (mac : Hmac) (key salt info : Bytes) (keyLen : Nat) : Seen (Bytes × Bytes) := do
  let empty ← test (decide (salt.length = 0))
  let salt := if empty = true then BS.fillBuffer 0 32 else salt
  see (.call [salt.length])
  see (.call [key.length, (md.fn salt).length])
  let out ← hkdfLoop mac (mac.fn key (md.fn salt)) info keyLen 0 [] []
  pure (out.take keyLen, salt)

/-- zkdf.cpp:137-149 `ComputeKDF2`. -/
def computeKDF2 (kdf : Nat → Bytes → Bytes) (key : Bytes) (len : UInt32) : Seen Bytes := do
  let none' ← test (decide (key.length = 0))
  if none' = true then lift (.throw .invalidInput)
  else do
    let none' ← test (decide (len.toNat = 0))
    if none' = true then lift (.throw .invalidInput)
    else do
      see (.call [len.toNat, key.length])
      lift (.ok (kdf len.toNat key))

/-- zsymkey.cpp:172-179 `setSymmetricKey`. -/
def setSymmetricKey (key : Bytes) : Seen Bytes := do
  let other ← test (decide (key.length ≠ 16))
  if other = true then do
    let other ← test (decide (key.length ≠ 32))
    if other = true then lift (.throw .invalidLength) else pure key
  else pure key

end Leak
end Abe
