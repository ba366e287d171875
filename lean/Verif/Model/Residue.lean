import Verif.Model.SchemeObjects
import Verif.Model.Sym
/-!
# What is left in memory after use (include/lsss/zbytestring.h, src/abe/zsymkey.cpp, zkdf.cpp, zpairing.cpp, zcontextabe.cpp)

Byte strings are `std::vector<uint8_t>`: a block of memory whose first `size` cells are the elements. Releasing a block does not change
its cells. The functions below run on the list of the blocks that the program no longer uses, whether released or lost: this is what
somebody finds who reads the memory afterwards.

Writes have the effect that the source says: that a compiler may drop writes to memory that is released next (`std::fill` in
`zeroize`) is not modelled, nor are the stack (the `hash` arrays of zpairing.cpp:242 and zkdf.cpp:107) and memory inside RELIC and
OpenSSL. `toString` goes through a string stream whose buffers are not followed.
-/
set_option autoImplicit false
namespace Abe
namespace Residue
open Live

/-- A block of memory. `none`: not written since it was allocated. -/
abbrev Block := List (Option UInt8)

/-- Computations that leave blocks behind. -/
abbrev Left (α : Type) := Mut (List Block) α

/-- The capacity that a vector of `s` elements gets when `n` more do not fit; up to the C++ library. -/
structure Grow where
  fn : Nat → Nat → Nat
  enough : ∀ s n, s + n ≤ fn s n

/-- `OpenABEByteString` (zbytestring.h:67). -/
structure Vec where
  block : Block := []
  size : Nat := 0

namespace Vec

/-- A copy (copy constructor): a new block of exactly the size. -/
def copy (b : Bytes) : Vec := ⟨b.map some, b.length⟩

/-- The block is no longer used. -/
def drop (v : Vec) : Left Unit := fun g => (.ok (), g ++ [v.block])

/-- A local variable: its block is released when the scope is left, in whatever way. -/
def scope {α : Type} (v : Vec) (m : Left α) : Left α := fun g => ((m g).1, (m g).2 ++ [v.block])

/-- zbytestring.h:70-84 `operator+=`, `appendArray`, and `push_back`: in place if there is room; otherwise in a new block. -/
def append (gr : Grow) (v : Vec) (b : Bytes) : Left Vec := fun g =>
  if v.size + b.length ≤ v.block.length then
    (.ok ⟨v.block.take v.size ++ b.map some ++ v.block.drop (v.size + b.length), v.size + b.length⟩, g)
  else
    (.ok ⟨v.block.take v.size ++ b.map some ++ List.replicate (gr.fn v.size b.length - (v.size + b.length)) none,
      v.size + b.length⟩, g ++ [v.block])

/-- zbytestring.h:150-152 `insertFirstByte`. -/
def insertFirst (gr : Grow) (v : Vec) (x : UInt8) : Left Vec := fun g =>
  if v.size + 1 ≤ v.block.length then
    (.ok ⟨some x :: v.block.take v.size ++ v.block.drop (v.size + 1), v.size + 1⟩, g)
  else
    (.ok ⟨some x :: v.block.take v.size ++ List.replicate (gr.fn v.size 1 - (v.size + 1)) none, v.size + 1⟩, g ++ [v.block])

/-- `operator=` of vectors, the new elements being `b`: the old block is kept if it is large enough. -/
def assign (v : Vec) (b : Bytes) : Left Vec := fun g =>
  if b.length ≤ v.block.length then (.ok ⟨b.map some ++ v.block.drop b.length, b.length⟩, g)
  else (.ok (copy b), g ++ [v.block])

/-- `clear` of vectors: no cell changes. -/
def clear (v : Vec) : Vec := { v with size := 0 }

/-- zbytestring.h:119-125 `zeroize`: the elements become zero, the cells behind them stay. -/
def zeroize (v : Vec) : Vec := ⟨List.replicate v.size (some 0) ++ v.block.drop v.size, 0⟩

/-- Writing over the first elements through a pointer. -/
def overwrite (v : Vec) (b : Bytes) : Vec := { v with block := b.map some ++ v.block.drop b.length }

/-- zbytestring.h:141-148 `fillBuffer` with zeros: `push_back` one by one, on an empty vector. -/
def fill (gr : Grow) : Nat → Vec → Left Vec
  | 0, v => pure v
  | n + 1, v => do
    let v ← append gr v [0]
    fill gr n v

/-- zbytestring.h:324-344 `smartPack`. -/
def smartPack (gr : Grow) (v : Vec) (b : Bytes) : Left Vec := do
  let v ← if 65535 < b.length then do
      let v ← append gr v [0xC3]
      append gr v (BS.be32 b.length)
    else if 255 < b.length then do
      let v ← append gr v [0xB2]
      append gr v (BS.be16 b.length)
    else if 0 < b.length then do
      let v ← append gr v [0xA1]
      append gr v [UInt8.ofNat b.length]
    else pure v
  append gr v b

end Vec
open Vec

/-! ### Symmetric keys -/

/-- zsymkey.cpp:172-179 `setSymmetricKey` on the vector `m_keyData`. -/
def setKey (v : Vec) (key : Bytes) : Left Vec :=
  if key.length ≠ 16 ∧ key.length ≠ 32 then lift (.throw .invalidLength)
  else v.clear.assign key

/-- zsymkey.cpp:85-88 `~OpenABESymKey`. -/
def destroyKey (v : Vec) : Left Unit := v.zeroize.drop

/-- zsymkey.cpp:164-170 `generateSymmetricKey`, zkey.cpp:138-142 `getRandomBytes`: the local copy is not wiped. -/
def generateKey (gr : Grow) (v : Vec) (rnd : Bytes) : Left Vec := do
  let key ← fill gr rnd.length {}
  (key.overwrite rnd).scope (setKey v rnd)

/-- zelement_bp.cpp:866-878 `GT::serialize` into an empty vector; `w` are the bytes of the element. The array of `getBytes` (857-863) is
never freed. -/
def gtSerialize (gr : Grow) (w : Bytes) : Left Vec := do
  Vec.drop (copy w)
  let tmp ← Vec.append gr {} w
  tmp.scope (do
    let r ← Vec.insertFirst gr {} 0xB4
    r.smartPack gr w)

/-- zelement_bp.cpp:775-783 `GT::hashToBytes`. -/
def gtHash (gr : Grow) (md : Bytes → Bytes) (w : Bytes) : Left Bytes := do
  let buffer ← gtSerialize gr w
  buffer.scope (pure (md (groupSerialize 0xB4 w)))

/-- zkdf.cpp:137-149 `ComputeKDF2`. The result is moved out. -/
def kdf2 (gr : Grow) (kdf : Nat → Bytes → Bytes) (key : Bytes) (len : Nat) : Left Vec :=
  if key.length = 0 then lift (.throw .invalidInput)
  else if len = 0 then lift (.throw .invalidInput)
  else do
    let out ← fill gr len {}
    pure (out.overwrite (kdf len key))

variable {G1 G2 GT : Type}

/-- zsymkey.cpp:151-163 `hashToSymmetricKey`: the session key and the vector that holds it. `h_in` is never freed, `h_input` and `key`
are not wiped. -/
def hashToKey (gr : Grow) (env : Env G1 G2 GT) (v : Vec) (x : GT) (len : Nat) : Left (Bytes × Vec) := do
  let h ← gtHash gr env.md (env.wT x)
  Vec.drop (copy h)
  let hInput ← Vec.append gr {} h
  hInput.scope (do
    let key ← kdf2 gr env.kdf h len
    key.scope (do
      let v ← setKey v (env.kdf len h)
      pure (env.kdf len h, v)))

/-- zpairing.cpp:235-264 `hashFromBytes`: `buf2` is a copy of the key behind two bytes, and not wiped. -/
def hashFrom (gr : Grow) (md : Bytes → Bytes) (buf : Bytes) (target : Nat) (pre : UInt8) : Left (Bytes × Vec) := do
  let buf2 ← (copy buf).insertFirst gr pre
  let buf2 ← buf2.insertFirst gr 0
  (buf2.overwrite [UInt8.ofNat ((target + 31) / 32)]).scope (do
    let b ← Vec.append gr {} (Scheme.hashFromBytes md buf target pre)
    pure (Scheme.hashFromBytes md buf target pre, b))

/-! ### The CPA wrapper after the group element of the encapsulation is known -/

/-- zcontextabe.cpp:309-339 `encrypt` from `hashToSymmetricKey(C, …)` on, for the element `x` that is hashed: the encrypted data.
`K->zeroize()` is that of containers, which does nothing (zcontainer.cpp:126-128); the destructor of `K` runs at the end. -/
def encryptTail (gr : Grow) (env : Env G1 G2 GT) (x : GT) (plaintext : Bytes) : Left Bytes := do
  let (K, kv) ← hashToKey gr env {} x Scheme.symKeyBytes
  let (mask, mv) ← hashFrom gr env.md K plaintext.length Scheme.schemeHashPrefix
  let ct ← lift (BS.xorAssign plaintext mask)
  Vec.drop mv.zeroize
  Vec.drop (copy ct)
  destroyKey kv
  pure ct

/-- zcontextabe.cpp:352-385 `decrypt` from `hashToSymmetricKey(A, …)` on: the plaintext, which belongs to the caller. -/
def decryptTail (gr : Grow) (env : Env G1 G2 GT) (x : GT) (data : Bytes) : Left Bytes := do
  let (K, kv) ← hashToKey gr env {} x Scheme.symKeyBytes
  let (mask, mv) ← hashFrom gr env.md K data.length Scheme.schemeHashPrefix
  let pt ← lift (BS.xorAssign data mask)
  Vec.drop mv.zeroize
  destroyKey kv
  pure pt

/-! ### Authenticated encryption -/

/-- zsymkey.cpp:192-218, the object without its cipher context: additional data and key. -/
structure Auth where
  aad : Vec := {}
  key : Vec
  aadSet : Bool := false

/-- zsymkey.cpp:204-212, the constructor: a copy of the key. -/
def Auth.new (key : Bytes) : Auth := { key := copy key }

/-- zsymkey.cpp:220-231 `setAddAuthData`. -/
def Auth.setAad (gr : Grow) (a : Auth) (b : Bytes) : Left Auth := do
  if b.length = 0 then do
    let v ← fill gr 16 a.aad.clear
    pure { a with aad := v, aadSet := true }
  else do
    let v ← a.aad.assign b
    pure { a with aad := v, aadSet := true }

/-- zsymkey.cpp:214-218, the destructor, followed by the members in reverse order. -/
def Auth.destroy (a : Auth) : Left Unit := do
  Vec.drop a.key
  Vec.drop (if a.aadSet then a.aad.zeroize else a.aad)

/-- zsymkey.cpp:370-398, `decrypt` after the cipher has produced the bytes `p` and the answer `good` of the tag: the array `pt` of one
byte more is freed as it is; `pt_buf` is wiped only if the tag is right. -/
def authDecrypt (gr : Grow) (p : Bytes) (good : Bool) : Left (Option Bytes) := do
  let buf ← Vec.append gr {} p
  Vec.drop (copy (p ++ [0]))
  if good then do
    Vec.drop buf.zeroize
    pure (some p)
  else do
    Vec.drop buf
    pure none

end Residue
end Abe
