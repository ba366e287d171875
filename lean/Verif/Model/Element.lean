import Verif.Model.Container
import Mathlib.Algebra.Group.Defs
/-!
# The group element classes (src/lsss/zelement_bp.cpp:411-888)

`G1`, `G2` and `GT` wrap RELIC's group elements. The two curve groups are written additively and `GT`
multiplicatively, as in the code. The binary formats depend on the global `compression_flag`.
-/
set_option autoImplicit false
namespace Abe
namespace Elem

variable {G : Type}

/-- zelement_bp.cpp:521-525 `G1::operator+`, 687-691 `G2::operator+`. -/
def add [AddGroup G] (this x : G) : G := this + x

/-- zelement_bp.cpp:515-519 `G1::operator-`, 681-685 `G2::operator-`: `g1_neg(tmp, x)`; `this` is not
used. -/
def sub [AddGroup G] (_this x : G) : G := -x

/-- zelement_bp.cpp:814-818 `GT::operator*`. -/
def gtMul [Group G] (this x : G) : G := this * x

/-- zelement_bp.cpp:820-825 `GT::operator/`. -/
def gtDiv [Group G] (this x : G) : G :=
  let tmp := x⁻¹
  this * tmp

/-- zelement_bp.cpp:47-52 `set_compression_flag`: other values are ignored. -/
def setFlag (flag value : Int) : Int := if value = 0 ∨ value = 1 then value else flag

/-- RELIC's binary format of a group for the two values of the flag, with a generator. The reader recognises both
formats (the first byte and the length tell them apart). -/
structure Format (G : Type) where
  gen : G
  write : Int → G → Bytes
  read : Bytes → Res G

/-- zelement_bp.cpp:483-486 `G1::getDefaultSize`, 657-660 `G2::getDefaultSize`: the size of the generator
under the present flag. -/
def defaultSize (f : Format G) (flag : Int) : Nat := (f.write flag f.gen).length

/-- zelement_bp.cpp:548-560 `G1::serialize`, 714-726 `G2::serialize`. -/
def serialize (f : Format G) (tag : UInt8) (flag : Int) (x : G) : Bytes := groupSerialize tag (f.write flag x)

/-- zelement_bp.cpp:562-571 `G1::deserialize`, 728-737 `G2::deserialize` into the object `this`: another tag
leaves it as it is. -/
def deserialize (f : Format G) (tag : UInt8) (flag : Int) (this : G) (input : Bytes) : Res G := do
  let t ← BS.atR input 0
  if t = tag then groupDeserialize (defaultSize f flag) f.read input
  else .ok this

/-- zelement_bp.cpp:873-881 `GT::deserialize`. -/
def gtDeserializeTagged (f : Format G) (this : G) (input : Bytes) : Res G := do
  let t ← BS.atR input 0
  if t = 0xB4 then gtDeserialize f.read input
  else .ok this

/-- zelement_bp.cpp:775-783 `GT::hashToBytes`: the digest of the serialized element. -/
def gtHash (f : Format G) (md : Bytes → Bytes) (flag : Int) (x : G) : Bytes :=
  md (serialize f 0xB4 flag x)

end Elem
end Abe
