import Verif.Model.Container
/-! # Sizes of group elements (C128) -/
set_option autoImplicit false
namespace Abe

/-- Elements of the groups and of the field take at most `n` bytes each. The encodings are those of RELIC, see `Codec`. -/
structure ElementBytes {G1 G2 GT : Type} (cd : Codec G1 G2 GT) (n : Nat) : Prop where
  b1 : ∀ x, (cd.w1 x).length ≤ n
  b2 : ∀ x, (cd.w2 x).length ≤ n
  bT : ∀ x, (cd.wT x).length ≤ n
  bZ : ∀ v, v ≤ cd.order → (natBE v).length ≤ n

end Abe
