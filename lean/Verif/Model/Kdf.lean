import Verif.Model.ByteString
/-!
# Key derivation (src/abe/zkdf.cpp)

The hash function (`_hash_to_bytes_`, include/abe_lsss.h:109-111), `md_hmac` and `md_kdf` of RELIC are parameters. A
digest has `RLC_MD_LEN` = 32 bytes (SHA-256). `ComputeHMAC` (zkdf.cpp:192-197) is a call of `md_hmac`.
`OpenABEHashKey` is `Scheme.hashKey`.
-/
set_option autoImplicit false
namespace Abe

/-- A function that returns 32 bytes. -/
structure Digest where
  fn : Bytes → Bytes
  length : ∀ x, (fn x).length = 32

/-- `md_hmac`, first argument the key. -/
structure Hmac where
  fn : Bytes → Bytes → Bytes
  length : ∀ k x, (fn k x).length = 32

/-- `OpenABEKDF` (include/abe/zkdf.h:51-70) with the default arguments of its constructor (zkdf.cpp:57-65): the prefix
`KDF_HASH_FUNCTION_PREFIX` and `OpenABE_MAX_KDF_BITLENGTH` of include/abe/zabe.h:33-35, `SHA2_BITLEN` of
include/lsss/zconstants.h:89. -/
structure Kdf where
  hashPrefix : UInt8 := 0x2B
  hashLen : UInt32 := 256
  maxInputLen : UInt32 := 0xFFFFFFFF

namespace Kdf

/-- Copying `src` to position `i` of an array: outside of the array it is undefined. -/
def poke (arr : Bytes) (i : Nat) (src : Bytes) : Res Bytes :=
  if i + src.length ≤ arr.length then .ok (arr.take i ++ src ++ arr.drop (i + src.length)) else .ub

/-- zkdf.cpp:112-118, the loop over the blocks: `n` blocks are left, `count` is the 32 bit counter, `ptr` the position
in the array, which moves by `hashLen` bytes. -/
def deriveLoop (md : Digest) (hashLen : Nat) : Nat → UInt32 → Bytes → Nat → Bytes → Res Bytes
  | 0, _, _, _, arr => .ok arr
  | n + 1, count, buffer, ptr, arr => do
    let arr ← poke arr ptr (md.fn buffer)
    deriveLoop md hashLen n (count + 1) (BS.setFirstBytes buffer (count + 1).toNat) (ptr + hashLen) arr

/-- zkdf.cpp:84-124 `DeriveKey`. The quotient in `double` is exact enough for its `ceil` (`C134_derived_keys`).
A zero `hashLen` gives an infinite or undefined quotient, whose conversion is undefined. `hash_len` is an `int`: from
`2^31` on the array size is not the intended one, which is undefined. Smaller arrays are assumed to fit on the
stack. -/
def deriveKey (md : Digest) (k : Kdf) (Z : Bytes) (keyBitLen : UInt32) (info : Bytes) : Res Bytes :=
  if k.hashLen.toNat = 0 then .ub
  else
    let reps := (keyBitLen.toNat + k.hashLen.toNat - 1) / k.hashLen.toNat
    if 0xFFFFFFFF < reps then .throw .invalidLength
    else
      let buffer := BS.setFirstBytes [] 1 ++ [k.hashPrefix] ++ Z ++ info
      if k.maxInputLen.toNat < buffer.length then .throw .invalidLength
      else if 2 ^ 31 ≤ reps * k.hashLen.toNat then .ub
      else do
        let arr ← deriveLoop md k.hashLen.toNat reps 1 buffer 0 (List.replicate (reps * k.hashLen.toNat + 1) 0)
        let n := keyBitLen.toNat / 8
        if arr.length < n then .ub else .ok (arr.take n)

/-- zkdf.cpp:137-149 `ComputeKDF2`; `kdf` is `md_kdf`, which overwrites the whole buffer. -/
def computeKDF2 (kdf : Nat → Bytes → Bytes) (key : Bytes) (len : UInt32) : Res Bytes :=
  if key.length = 0 then .throw .invalidInput
  else if len.toNat = 0 then .throw .invalidInput
  else .ok (kdf len.toNat key)

/-- zkdf.cpp:165-173, the loop of `ComputeHKDF`: counter, last block and output so far. The counter is an `int` that is
cut to 8 bits; its overflow (keys of `2^36` bytes) is not modelled. -/
def hkdfLoop (mac : Hmac) (prk info : Bytes) (keyLen : Nat) (i : Nat) (tmp out : Bytes) : Bytes :=
  if out.length < keyLen then
    let t := mac.fn prk (tmp ++ info ++ [UInt8.ofNat (i + 1)])
    hkdfLoop mac prk info keyLen (i + 1) t (out ++ t)
  else out
termination_by keyLen - out.length
decreasing_by
  simp only [List.length_append, mac.length]
  omega

/-- zkdf.cpp:151-177 `ComputeHKDF`: the derived key and the salt, which is a reference and is filled if it is empty. -/
def computeHKDF (md : Digest) (mac : Hmac) (key salt info : Bytes) (keyLen : Nat) : Bytes × Bytes :=
  let salt := if salt.length = 0 then BS.fillBuffer 0 32 else salt
  let prk := mac.fn key (md.fn salt)
  ((hkdfLoop mac prk info keyLen 0 [] []).take keyLen, salt)

end Kdf

/-- zsymcrypto.cpp:165-176 `OpenABESymKeyHandle::exportKey` of a handle with this key. -/
def handleExportKey (md : Digest) (mac : Hmac) (key : Bytes) : Bytes :=
  (Kdf.computeHKDF md mac key [] b!"export key" key.length).1

end Abe
