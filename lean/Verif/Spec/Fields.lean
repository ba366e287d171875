import Verif.Model.ByteString

set_option autoImplicit false

/-! The fields that a symmetric ciphertext consists of. -/

namespace Abe

/-- The bytes `f` are a field with the content `x`: a byte that tells how long the length is, the length with the
most significant byte first, and the content. Any other first byte is a field of its own, with no content. -/
inductive Field : Bytes → Bytes → Prop
  | short (n : UInt8) (x : Bytes) : n.toNat = x.length → Field (0xA1 :: n :: x) x
  | mid (a b : UInt8) (x : Bytes) : a.toNat * 256 + b.toNat = x.length → Field (0xB2 :: a :: b :: x) x
  | long (a b c d : UInt8) (x : Bytes) :
      ((a.toNat * 256 + b.toNat) * 256 + c.toNat) * 256 + d.toNat = x.length → Field (0xC3 :: a :: b :: c :: d :: x) x
  | other (t : UInt8) : t ≠ 0xA1 → t ≠ 0xB2 → t ≠ 0xC3 → Field [t] []

/-- The bytes begin with fields of these contents; what follows is `r`. -/
inductive Fields : Bytes → List Bytes → Bytes → Prop
  | nil (r : Bytes) : Fields r [] r
  | cons {f x s : Bytes} {xs : List Bytes} {r : Bytes} : Field f x → Fields s xs r → Fields (f ++ s) (x :: xs) r

/-- The four parts of a ciphertext of an encryption object: initial value, ciphertext, tag and authentication data.
Two fields and nothing else are the initial value and the tag; three are without authentication data; behind the
fourth anything may follow. -/
inductive Parts (z : Bytes) : Bytes → Bytes → Bytes → Bytes → Prop
  | two (iv tag : Bytes) : Fields z [iv, tag] [] → Parts z iv [] tag []
  | three (iv ct tag : Bytes) : Fields z [iv, ct, tag] [] → Parts z iv ct tag []
  | four (iv ct tag aad r : Bytes) : Fields z [iv, ct, tag, aad] r → Parts z iv ct tag aad

end Abe
