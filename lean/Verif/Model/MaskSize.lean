import Verif.Model.Kdf
import Verif.Model.Scheme
import Mathlib.Data.Rat.Floor
import Mathlib.Algebra.Order.Archimedean.Basic
/-!
# Sizes of masks and derived keys as they are computed (src/abe/zpairing.cpp, zkdf.cpp, zcontextabe.cpp)

`Scheme.hashFromBytes` and `Kdf.deriveKey` compute their number of blocks in natural numbers. The code divides in `double`, rounds up,
stores the result in an `int` and makes an array of that size on the stack; and the length of the message, a `size_t`, becomes a
`uint32_t` on the way.
-/
set_option autoImplicit false
namespace Abe
namespace MaskSize

/-- The values of a `double`: 53 significant bits. Quotients of 32 bit numbers are 0 or between `2^-32` and `2^32`, so that the limits
of the exponent play no role. -/
def Representable (y : ℚ) : Prop := ∃ m e : ℤ, |m| < 2 ^ 53 ∧ y = m * 2 ^ e

/-- `y` is `x` rounded to nearest; which of two nearest values is taken is left open. -/
def Nearest (x y : ℚ) : Prop := Representable y ∧ ∀ z, Representable z → |x - y| ≤ |x - z|

/-- The division of the processor on numbers of 32 bits. -/
structure Fdiv where
  div : Nat → Nat → ℚ
  nearest : ∀ a b : Nat, a < 2 ^ 32 → 0 < b → b < 2 ^ 32 → Nearest ((a : ℚ) / b) (div a b)

/-- zpairing.cpp:239, zkdf.cpp:91 `ceil(((double)a) / b)`, converted to an integer. -/
def ceilDiv (d : Fdiv) (a b : Nat) : Nat := ⌈d.div a b⌉.toNat

/-- zpairing.cpp:253-259, the loop over the blocks: `n` are left, the counter has 8 bits. -/
def blocks (md : Digest) (pre : UInt8) (buf : Bytes) : Nat → UInt8 → Nat → Bytes → Res Bytes
  | 0, _, _, arr => .ok arr
  | n + 1, count, ptr, arr => do
    let arr ← Kdf.poke arr ptr (md.fn (count :: pre :: buf))
    blocks md pre buf n (count + 1) (ptr + 32) arr

/-- zpairing.cpp:235-264 `hashFromBytes`; `stack` bytes are left on the stack. `hash_len` is an `int`, whose overflow is undefined, as
is an array beyond the stack. -/
def hashFromBytes (d : Fdiv) (stack : Nat) (md : Digest) (buf : Bytes) (target : UInt32) (pre : UInt8) : Res Bytes :=
  let blockLen := ceilDiv d target.toNat 32
  if 2 ^ 31 ≤ blockLen * 32 then .ub
  else if stack < blockLen * 32 + 1 then .ub
  else do
    let arr ← blocks md pre buf blockLen 0 0 (List.replicate (blockLen * 32 + 1) 0)
    if arr.length < target.toNat then .ub else .ok (arr.take target.toNat)

/-- zcontextabe.cpp:322-326, 369-374: the mask for a message (or masked message) and its use. The size becomes a `uint32_t`. -/
def mask (d : Fdiv) (stack : Nat) (md : Digest) (key msg : Bytes) : Res Bytes := do
  let m ← hashFromBytes d stack md key (UInt32.ofNat msg.length) Scheme.schemeHashPrefix
  BS.xorAssign msg m

/-- zkdf.cpp:84-124 `DeriveKey` with its division. -/
def deriveKey (d : Fdiv) (md : Digest) (k : Kdf) (Z : Bytes) (keyBitLen : UInt32) (info : Bytes) : Res Bytes :=
  if k.hashLen.toNat = 0 then .ub
  else
    let reps := ceilDiv d keyBitLen.toNat k.hashLen.toNat
    if 0xFFFFFFFF < reps then .throw .invalidLength
    else
      let buffer := BS.setFirstBytes [] 1 ++ [k.hashPrefix] ++ Z ++ info
      if k.maxInputLen.toNat < buffer.length then .throw .invalidLength
      else if 2 ^ 31 ≤ reps * k.hashLen.toNat then .ub
      else do
        let arr ← Kdf.deriveLoop md k.hashLen.toNat reps 1 buffer 0 (List.replicate (reps * k.hashLen.toNat + 1) 0)
        let n := keyBitLen.toNat / 8
        if arr.length < n then .ub else .ok (arr.take n)

end MaskSize
end Abe
